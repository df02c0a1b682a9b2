import Verif.Train.Spec
import Mathlib.Data.List.Range
/-! Lemmas about the training loop. -/
namespace Nntl.Train
variable {L : Type}

theorem callbacks_append (a b : List Ev) : callbacksOf (a ++ b) = callbacksOf a ++ callbacksOf b := by simp [callbacksOf]
theorem begun_append (a b : List Ev) : begunOf (a ++ b) = begunOf a ++ begunOf b := by simp [begunOf]
theorem reports_append (a b : List Ev) : reportsOf (a ++ b) = reportsOf a ++ reportsOf b := by simp [reportsOf]
theorem work_append (a b : List Ev) : workOf (a ++ b) = workOf a ++ workOf b := by simp [workOf]

/-- Only batch size notifications. -/
def Quiet (l : List Ev) : Prop := ∀ ev ∈ l, ∃ bs, ev = .layersBatchSize bs

theorem setMode_quiet (cd : CD) (t : Bool) (bs : Nat) : Quiet (cd.setMode t bs).2 := by
  unfold CD.setMode Quiet; split <;> simp

theorem setModes_quiet (l : List (Bool × Nat)) : ∀ cd : CD, Quiet (cd.setModes l).2 := by
  induction l with
  | nil => intro cd; simp [CD.setModes, Quiet]
  | cons p rest ih =>
    intro cd ev h
    simp only [CD.setModes, List.mem_append] at h
    rcases h with h | h
    · exact setMode_quiet _ _ _ _ h
    · exact ih _ _ h

theorem setModeBs_quiet (cd : CD) (bs : Nat) : Quiet (cd.setModeBs bs).2 := setMode_quiet _ _ _

theorem Quiet.callbacks {l : List Ev} (h : Quiet l) : callbacksOf l = [] := by
  unfold callbacksOf; rw [List.filterMap_eq_nil_iff]; intro a ha; obtain ⟨bs, rfl⟩ := h a ha; rfl
theorem Quiet.begun {l : List Ev} (h : Quiet l) : begunOf l = [] := by
  unfold begunOf; rw [List.filterMap_eq_nil_iff]; intro a ha; obtain ⟨bs, rfl⟩ := h a ha; rfl
theorem Quiet.reports {l : List Ev} (h : Quiet l) : reportsOf l = [] := by
  unfold reportsOf; rw [List.filterMap_eq_nil_iff]; intro a ha; obtain ⟨bs, rfl⟩ := h a ha; rfl
theorem Quiet.work {l : List Ev} (h : Quiet l) : workOf l = [] := by
  unfold workOf; rw [List.filter_eq_nil_iff]; intro a ha; obtain ⟨bs, rfl⟩ := h a ha; simp
theorem Quiet.track {l : List Ev} (h : Quiet l) (p : Pos) : l.foldlM track p = some p := by
  induction l with
  | nil => rfl
  | cons a l ih =>
    obtain ⟨bs, rfl⟩ := h a (by simp)
    have : Train.track p (.layersBatchSize bs) = some p := by cases p <;> rfl
    simp only [List.foldlM_cons, this]
    exact ih fun ev he => h ev (by simp [he])

theorem track_append (a b : List Ev) (p : Pos) : (a ++ b).foldlM track p = (a.foldlM track p).bind fun q => b.foldlM track q := by
  simp [List.foldlM_append]

/-- The sizes in the common data do not change, only the mode does. -/
theorem setMode_sizes (cd : CD) (t : Bool) (bs : Nat) :
    (cd.setMode t bs).1.trainBs = cd.trainBs ∧ (cd.setMode t bs).1.maxFprop = cd.maxFprop := by
  unfold CD.setMode; split <;> simp

theorem setModes_sizes (l : List (Bool × Nat)) : ∀ cd : CD,
    (cd.setModes l).1.trainBs = cd.trainBs ∧ (cd.setModes l).1.maxFprop = cd.maxFprop := by
  induction l with
  | nil => intro cd; simp [CD.setModes]
  | cons p rest ih =>
    intro cd
    simp only [CD.setModes]
    obtain ⟨h1, h2⟩ := ih (cd.setMode p.1 p.2).1
    obtain ⟨h3, h4⟩ := setMode_sizes cd p.1 p.2
    exact ⟨h1.trans h3, h2.trans h4⟩

theorem setModeBs_ready (cd : CD) : (cd.setModeBs 0).1 = ready cd := by
  unfold CD.setModeBs CD.setMode ready
  simp only [beq_self_eq_true, if_true]
  split
  · rename_i h
    simp only [Bool.and_eq_true, beq_iff_eq] at h
    cases cd; simp_all
  · rfl

theorem ready_of_sizes {a b : CD} (h1 : a.trainBs = b.trainBs) (h2 : a.maxFprop = b.maxFprop) : ready a = ready b := by
  unfold ready; cases a; cases b; simp_all

theorem report_sizes (v : Env L) (cd : CD) (e : Int) :
    (report v cd e).1.trainBs = cd.trainBs ∧ (report v cd e).1.maxFprop = cd.maxFprop := setModes_sizes _ _

theorem report_callbacks (v : Env L) (cd : CD) (e : Int) : callbacksOf (report v cd e).2 = [] := by
  simp only [report, callbacks_append, (setModes_quiet _ _).callbacks]; rfl
theorem report_begun (v : Env L) (cd : CD) (e : Int) : begunOf (report v cd e).2 = [] := by
  simp only [report, begun_append, (setModes_quiet _ _).begun]; rfl
theorem report_reports (v : Env L) (cd : CD) (e : Int) : reportsOf (report v cd e).2 = [e] := by
  simp only [report, reports_append, (setModes_quiet _ _).reports]; rfl
theorem report_work (v : Env L) (cd : CD) (e : Int) : workOf (report v cd e).2 = [] := by
  simp only [report, work_append, (setModes_quiet _ _).work]; rfl
theorem report_track (v : Env L) (cd : CD) (e : Int) (p : Pos) : (report v cd e).2.foldlM track p = some p := by
  simp only [report, track_append, (setModes_quiet _ _).track]; cases p <;> rfl

theorem batchLoop_callbacks (cd : CD) (k : Nat) : ∀ b, callbacksOf (batchLoop cd b k) = [] := by
  induction k with
  | zero => intro b; rfl
  | succ k ih => intro b; simp only [batchLoop, callbacks_append, ih]; rfl
theorem batchLoop_begun (cd : CD) (k : Nat) : ∀ b, begunOf (batchLoop cd b k) = [] := by
  induction k with
  | zero => intro b; rfl
  | succ k ih => intro b; simp only [batchLoop, begun_append, ih]; rfl
theorem batchLoop_reports (cd : CD) (k : Nat) : ∀ b, reportsOf (batchLoop cd b k) = [] := by
  induction k with
  | zero => intro b; rfl
  | succ k ih => intro b; simp only [batchLoop, reports_append, ih]; rfl
theorem batchLoop_work (cd : CD) (k : Nat) : ∀ b, workOf (batchLoop cd b k) =
    (List.range' b k).flatMap fun b => [.nextBatch b, .fprop cd.training cd.cur, .bprop cd.training cd.cur] := by
  induction k with
  | zero => intro b; rfl
  | succ k ih =>
    intro b
    rw [List.range'_succ, List.flatMap_cons, ← ih]
    simp only [batchLoop, work_append]; rfl
theorem batchLoop_track (cd : CD) (k : Nat) : ∀ b, (batchLoop cd b k).foldlM track Pos.epoch = some Pos.epoch := by
  induction k with
  | zero => intro b; rfl
  | succ k ih => intro b; simp only [batchLoop, track_append]; exact ih _

/-- Events of one epoch up to the report. -/
theorem epoch_work (cd : CD) (e n : Nat) : workOf ([.nextEpoch e, .epochBegin e n] ++ batchLoop (ready cd) 0 n) = epochWork cd.trainBs e n := by
  rw [work_append, batchLoop_work, ← List.range_eq_range']; rfl

/-- One step of the epoch loop. -/
theorem epochLoop_succ (o : Opts L) (v : Env L) (cd : CD) (e k : Nat) (he : e < o.flags.length) :
    epochLoop o v cd e (k + 1) =
      (let a := afterBatches o v cd e (o.flags.getD e false)
       let evs := [.nextEpoch e, .epochBegin e (v.batches e cd)] ++ batchLoop cd 0 (v.batches e cd)
       if a.2.2 then some (a.1, evs ++ a.2.1, .nnDiverged)
       else
        let c := a.1.setModes (v.cbModes e)
        let evs := evs ++ a.2.1 ++ [.epochEnd] ++ (.callback e :: c.2)
        if !v.cb e then some (c.1, evs, .success)
        else
          match epochLoop o v (c.1.setModeBs 0).1 (e + 1) k with
          | none => none
          | some (cd', evs', err) => some (cd', evs ++ (c.1.setModeBs 0).2 ++ evs', err)) := by
  rw [epochLoop, List.getD_eq_getElem?_getD, List.getElem?_eq_getElem he]
  rfl

theorem afterBatches_flag (o : Opts L) (v : Env L) (cd : CD) (e : Nat) : (afterBatches o v cd e (o.flags.getD e false)).2.2 = true ↔ Diverges o v e := by
  unfold afterBatches Diverges
  by_cases h : (e : Int) < o.divLast
  · simp [h]
  · simp [h]
    split
    · split <;> rfl
    · rfl
theorem afterBatches_sizes (o : Opts L) (v : Env L) (cd : CD) (e : Nat) :
    (afterBatches o v cd e (o.flags.getD e false)).1.trainBs = cd.trainBs ∧ (afterBatches o v cd e (o.flags.getD e false)).1.maxFprop = cd.maxFprop := by
  unfold afterBatches
  dsimp only
  split
  · split
    · exact ⟨rfl, rfl⟩
    · exact report_sizes _ _ _
  · exact ⟨rfl, rfl⟩
theorem afterBatches_callbacks (o : Opts L) (v : Env L) (cd : CD) (e : Nat) : callbacksOf (afterBatches o v cd e (o.flags.getD e false)).2.1 = [] := by
  unfold afterBatches
  dsimp only
  split
  · split
    · rfl
    · exact report_callbacks _ _ _
  · rfl
theorem afterBatches_begun (o : Opts L) (v : Env L) (cd : CD) (e : Nat) : begunOf (afterBatches o v cd e (o.flags.getD e false)).2.1 = [] := by
  unfold afterBatches
  dsimp only
  split
  · split
    · rfl
    · exact report_begun _ _ _
  · rfl
theorem afterBatches_work (o : Opts L) (v : Env L) (cd : CD) (e : Nat) : workOf (afterBatches o v cd e (o.flags.getD e false)).2.1 = [] := by
  unfold afterBatches
  dsimp only
  split
  · split
    · rfl
    · exact report_work _ _ _
  · rfl
theorem afterBatches_track (o : Opts L) (v : Env L) (cd : CD) (e : Nat) (p : Pos) :
    (afterBatches o v cd e (o.flags.getD e false)).2.1.foldlM track p = some p := by
  unfold afterBatches
  dsimp only
  split
  · split
    · cases p <;> rfl
    · exact report_track _ _ _ _
  · rfl
theorem afterBatches_reports (o : Opts L) (v : Env L) (cd : CD) (e : Nat) :
    reportsOf (afterBatches o v cd e (o.flags.getD e false)).2.1 = if reportDue o e then [(e : Int)] else [] := by
  unfold afterBatches reportDue
  by_cases h : (e : Int) < o.divLast <;> cases hf : o.flags.getD e false <;> cases hr : o.repOnlyTime <;>
    simp only [h, decide_true, decide_false, Bool.or_false, Bool.or_true, Bool.not_true, Bool.not_false, Bool.and_true,
      Bool.and_false, Bool.true_and, Bool.false_and, if_true, if_false, Bool.false_eq_true, report_reports] <;> rfl

/-- What the epoch loop does, started with the network ready for training. -/
structure LoopShape (o : Opts L) (v : Env L) (cd : CD) (e k : Nat) (tr : List Ev) (err : Err) (m : Nat) : Prop where
  le : m ≤ k
  go : ∀ i, i + 1 < m → v.cb (e + i) = true
  fine : ∀ i, i < m → (err = .nnDiverged → i + 1 < m) → ¬ Diverges o v (e + i)
  begun : begunOf tr = List.range' e m
  reports : reportsOf tr = ((List.range' e m).filter (reportDue o)).map Int.ofNat
  work : workOf tr = (List.range' e m).flatMap fun i => epochWork cd.trainBs i (v.batches i (ready cd))
  ends : (err = .success ∧ (m = k ∨ (0 < m ∧ v.cb (e + m - 1) = false)) ∧ callbacksOf tr = List.range' e m ∧
      tr.foldlM track .idle = some .idle) ∨
    (err = .nnDiverged ∧ 0 < m ∧ Diverges o v (e + m - 1) ∧ callbacksOf tr = List.range' e (m - 1) ∧
      tr.foldlM track .idle = some .epoch)

theorem epochLoop_shape (o : Opts L) (v : Env L) (k : Nat) : ∀ (cd : CD) (e : Nat), e + k = o.flags.length →
    ∃ cd' tr err m, epochLoop o v (ready cd) e k = some (cd', tr, err) ∧ LoopShape o v cd e k tr err m := by
  induction k with
  | zero =>
    intro cd e _
    refine ⟨ready cd, [], .success, 0, rfl, ⟨Nat.le_refl _, by omega, by omega, rfl, rfl, rfl, Or.inl ⟨rfl, Or.inl rfl, rfl, rfl⟩⟩⟩
  | succ k ih =>
    intro cd e hek
    rw [epochLoop_succ o v (ready cd) e k (by omega)]
    dsimp only
    have hflag := afterBatches_flag o v (ready cd) e
    have hsz := afterBatches_sizes o v (ready cd) e
    have hcb := afterBatches_callbacks o v (ready cd) e
    have hbg := afterBatches_begun o v (ready cd) e
    have hwk := afterBatches_work o v (ready cd) e
    have htr := afterBatches_track o v (ready cd) e
    have hrp := afterBatches_reports o v (ready cd) e
    generalize afterBatches o v (ready cd) e (o.flags.getD e false) = a at *
    obtain ⟨acd, aev, ab⟩ := a
    dsimp only at *
    generalize hn : v.batches e (ready cd) = n
    have hwe := epoch_work cd e n
    have b1 := batchLoop_callbacks (ready cd) n 0
    have b2 := batchLoop_begun (ready cd) n 0
    have b3 := batchLoop_reports (ready cd) n 0
    have b5 := batchLoop_track (ready cd) n 0
    generalize hpre : ([.nextEpoch e, .epochBegin e n] ++ batchLoop (ready cd) 0 n : List Ev) = pre at *
    have p1 : callbacksOf pre = [] := by rw [← hpre, callbacks_append, b1]; rfl
    have p2 : begunOf pre = [e] := by rw [← hpre, begun_append, b2]; rfl
    have p3 : reportsOf pre = [] := by rw [← hpre, reports_append, b3]; rfl
    have p5 : pre.foldlM track Pos.idle = some Pos.epoch := by rw [← hpre, track_append]; exact b5
    cases ab with
    | true =>
      refine ⟨acd, pre ++ aev, .nnDiverged, 1, rfl, ?_⟩
      refine ⟨by omega, by omega, fun i hi h => absurd (h rfl) (by omega), ?_, ?_, ?_, Or.inr ⟨rfl, by omega, ?_, ?_, ?_⟩⟩
      · rw [begun_append, p2, hbg]; rfl
      · rw [reports_append, p3, hrp]
        simp only [List.range'_one, List.filter_cons, List.filter_nil, List.nil_append]
        split <;> rfl
      · rw [work_append, hwe, hwk, List.append_nil]
        simp only [List.range'_one, List.flatMap_cons, List.flatMap_nil, List.append_nil, hn]
      · exact hflag.1 rfl
      · rw [callbacks_append, p1, hcb]; rfl
      · rw [track_append, p5]; exact htr _
    | false =>
      have hnd : ¬ Diverges o v e := fun h => absurd (hflag.2 h) (by simp)
      simp only [Bool.false_eq_true, if_false]
      have hq := setModes_quiet (v.cbModes e) acd
      have hcs := setModes_sizes (v.cbModes e) acd
      generalize acd.setModes (v.cbModes e) = c at *
      obtain ⟨ccd, cev⟩ := c
      dsimp only at *
      generalize hE : pre ++ aev ++ [Ev.epochEnd] ++ (Ev.callback e :: cev) = E
      have E1 : callbacksOf E = [e] := by
        rw [← hE, callbacks_append, callbacks_append, callbacks_append, p1, hcb]
        have : callbacksOf (Ev.callback e :: cev) = e :: callbacksOf cev := rfl
        rw [this, hq.callbacks]; rfl
      have E2 : begunOf E = [e] := by
        rw [← hE, begun_append, begun_append, begun_append, p2, hbg]
        have : begunOf (Ev.callback e :: cev) = begunOf cev := rfl
        rw [this, hq.begun]; rfl
      have E3 : reportsOf E = if reportDue o e then [(e : Int)] else [] := by
        rw [← hE, reports_append, reports_append, reports_append, p3, hrp]
        have : reportsOf (Ev.callback e :: cev) = reportsOf cev := rfl
        rw [this, hq.reports, List.nil_append, List.append_nil]
        have : reportsOf [Ev.epochEnd] = [] := rfl
        rw [this, List.append_nil]
      have E4 : workOf E = epochWork cd.trainBs e n := by
        rw [← hE, work_append, work_append, work_append, hwe, hwk]
        have : workOf (Ev.callback e :: cev) = workOf cev := rfl
        rw [this, hq.work]
        have : workOf [Ev.epochEnd] = [] := rfl
        rw [this]; simp only [List.append_nil]
      have E5 : E.foldlM track Pos.idle = some Pos.idle := by
        rw [← hE, track_append, track_append, track_append, p5]
        simp only [Option.bind_some, htr]
        exact hq.track Pos.idle
      cases hc : v.cb e with
      | false =>
        simp only [Bool.not_false, if_true]
        refine ⟨ccd, E, .success, 1, rfl, ⟨by omega, by omega, ?_, ?_, ?_, ?_, Or.inl ⟨rfl, Or.inr ⟨by omega, hc⟩, E1, E5⟩⟩⟩
        · intro i hi _; have : i = 0 := by omega
          subst this; exact hnd
        · exact E2
        · rw [E3]; simp only [List.range'_one, List.filter_cons, List.filter_nil]; split <;> rfl
        · rw [E4]; simp only [List.range'_one, List.flatMap_cons, List.flatMap_nil, List.append_nil, hn]
      | true =>
        simp only [Bool.not_true, Bool.false_eq_true, if_false]
        have hq2 := setModeBs_quiet ccd 0
        have hr : (ccd.setModeBs 0).1 = ready cd := by
          rw [setModeBs_ready]
          exact ready_of_sizes (hcs.1.trans hsz.1) (hcs.2.trans hsz.2)
        obtain ⟨cd', tr, err, m, hrun, sh⟩ := ih cd (e + 1) (by omega)
        rw [hr, hrun]
        generalize (ccd.setModeBs 0).2 = mev at *
        refine ⟨cd', E ++ mev ++ tr, err, m + 1, rfl, ?_⟩
        have F2 : begunOf (E ++ mev ++ tr) = List.range' e (m + 1) := by
          rw [begun_append, begun_append, E2, hq2.begun, sh.begun, List.range'_succ]; rfl
        have F1 : callbacksOf (E ++ mev ++ tr) = e :: callbacksOf tr := by
          rw [callbacks_append, callbacks_append, E1, hq2.callbacks]; rfl
        have F5 : (E ++ mev ++ tr).foldlM track Pos.idle = tr.foldlM track Pos.idle := by
          rw [track_append, track_append, E5, Option.bind_some, hq2.track, Option.bind_some]
        refine ⟨by have := sh.le; omega, ?_, ?_, F2, ?_, ?_, ?_⟩
        · intro i hi
          cases i with
          | zero => exact hc
          | succ i => have := sh.go i (by omega); rwa [show e + (i + 1) = e + 1 + i by omega]
        · intro i hi h
          cases i with
          | zero => exact hnd
          | succ i =>
            have := sh.fine i (by omega) (fun he => by have := h he; omega)
            rwa [show e + (i + 1) = e + 1 + i by omega]
        · rw [reports_append, reports_append, E3, hq2.reports, sh.reports, List.range'_succ, List.filter_cons, List.append_nil]
          split <;> rfl
        · rw [work_append, work_append, E4, hq2.work, sh.work, List.range'_succ, List.flatMap_cons, hn, List.append_nil]
        · rcases sh.ends with ⟨g1, g2, g3, g4⟩ | ⟨g1, g2, g3, g4, g5⟩
          · refine Or.inl ⟨g1, ?_, ?_, F5.trans g4⟩
            · rcases g2 with g2 | ⟨g2, g2'⟩
              · exact Or.inl (by omega)
              · exact Or.inr ⟨by omega, by rwa [show e + (m + 1) - 1 = e + 1 + m - 1 by omega]⟩
            · rw [F1, g3, List.range'_succ]
          · refine Or.inr ⟨g1, by omega, by rwa [show e + (m + 1) - 1 = e + 1 + m - 1 by omega], ?_, F5.trans g5⟩
            rw [F1, g4]
            have : m + 1 - 1 = (m - 1) + 1 := by omega
            rw [this, List.range'_succ]

end Nntl.Train
