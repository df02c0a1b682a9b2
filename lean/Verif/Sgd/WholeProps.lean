import Verif.Sgd.WholeLemmas

/-! C191: `train()` as mini-batch gradient descent over shuffled epochs. Property theorems. -/
namespace Nntl.Sgd

open Nntl.Layers Nntl.Pass Nntl.Matrix Nntl.Kernel
open Finset

/-! ### Batches that look the same -/

section
variable {S : Shape} {act : ℕ → Act.Act} {η : Rates}

theorem Shape.Ok.answer_like (h : S.Ok act) (W : Weights) {x x' : ℕ → ℝ} (hx : ∀ j < S.inputs, x j = x' j) :
    ∀ c < S.outputs, S.raw W x c = S.raw W x' c := by
  intro c hc
  obtain ⟨h1, h2⟩ := h.sizes ⟨1, 1⟩
  exact neuron_congr (fun _ _ _ _ => rfl) (fun j hj => (h.isNet ⟨1, 1⟩).loc _ _ _ _ (Sgd.Same.refl _ _) (by rw [h1]; exact hx) j (by rw [h2]; exact hj)) hc

theorem Shape.Ok.meanLoss_like (h : S.Ok act) (hl : LossLooks S) {b b' : ℕ × Mat ℝ × Mat ℝ} (hb : Like S b b') (W : Weights) :
    S.meanLoss b.1 b.2.1 b.2.2 W = S.meanLoss b'.1 b'.2.1 b'.2.2 W := by
  obtain ⟨R, X, Y⟩ := b
  obtain ⟨R', X', Y'⟩ := b'
  obtain ⟨rfl, hb⟩ := hb
  unfold Shape.meanLoss
  congr 1
  refine sum_congr rfl fun r hr => ?_
  obtain ⟨h1, h2⟩ := hb r (mem_range.1 hr)
  exact (h.loss _ _ _ (h.last _ _ (h.answer_like W h1))).trans (hl _ _ _ h2)

theorem Shape.Ok.descent_like (h : S.Ok act) (hl : LossLooks S) {b b' : ℕ × Mat ℝ × Mat ℝ} (hb : Like S b b') {W W' : Weights}
    (hd : S.Descent η b.1 b.2.1 b.2.2 W W') : S.Descent η b'.1 b'.2.1 b'.2.2 W W' := by
  unfold Shape.Descent Shape.dBody Shape.dOut at hd ⊢
  simp only [h.meanLoss_like hl hb] at hd
  exact hd

theorem Shape.Ok.path_append (h : S.Ok act) : ∀ (as bs : List (ℕ × Mat ℝ × Mat ℝ)) {U V W : Weights}, S.Path η as U V → S.Path η bs V W → S.Path η (as ++ bs) U W
  | [], bs, _, _, _, h1, h2 => h.path_congr bs h1.symm h2
  | _ :: as, bs, _, _, _, ⟨W1, h1, h2⟩, h3 => ⟨W1, h1, path_append h as bs h2 h3⟩

theorem Shape.Path.same : ∀ (bs : List (ℕ × Mat ℝ × Mat ℝ)) {U V W : Weights}, S.Path η bs U V → S.Same V W → S.Path η bs U W
  | [], _, _, _, h1, h2 => h1.trans h2
  | _ :: bs, _, _, _, ⟨W1, h1, h2⟩, h3 => ⟨W1, h1, same bs h2 h3⟩

theorem Shape.Ok.regular_like (h : S.Ok act) (hl : LossLooks S) {dz : ℝ → ℝ → ℝ} {x x' y y' : ℕ → ℝ} {W : Weights} (hx : ∀ j < S.inputs, x j = x' j)
    (hy : ∀ j < S.outputs, y j = y' j) (hr : S.RegularAt dz x y W) : S.RegularAt dz x' y' W := by
  obtain ⟨h1, h2⟩ := h.sizes ⟨1, 1⟩
  refine ⟨(h.isNet ⟨1, 1⟩).smLoc _ _ _ _ (Sgd.Same.refl _ _) (by rw [h1]; exact hx) hr.1, fun z z' hz hd => ?_⟩
  have := h.lossGrad_congr (h.answer_like W hx) hr.2 z z' hz hd
  simp only [hl _ _ _ hy] at this
  exact this.congr_deriv (sum_congr rfl fun c hc => by rw [hy c (mem_range.1 hc)])

end

variable {P : Plan} {η : Rates} {vmax : ℕ} {d : TrainData.Data ℝ ℝ}

/-! ### Paths of the weights -/

theorem epochBatches_drawn {b : ℕ} {ord : ℕ → ℕ} (h : Shuffled (d.count .train) b ord) : ∀ x ∈ epochBatches d b ord, Drawn d x := by
  intro x hx r hr
  unfold epochBatches at hx
  rw [List.mem_map] at hx
  obtain ⟨i, hi, rfl⟩ := hx
  rw [List.mem_range] at hi
  have : (i + 1) * b ≤ d.count .train / b * b := Nat.mul_le_mul_right _ hi
  rw [Nat.add_mul, Nat.one_mul] at this
  exact ⟨ord (i * b + r), h.1 _ (by have hr : r < b := hr; omega), rfl, rfl⟩

theorem forall₂_split {α β : Type} {R : α → β → Prop} : ∀ {a b : List α} {l : List β}, List.Forall₂ R (a ++ b) l →
    ∃ as cs, List.Forall₂ R a as ∧ List.Forall₂ R b cs ∧ l = as ++ cs
  | [], _, l, h => ⟨[], l, .nil, h, rfl⟩
  | _ :: a, _, _, .cons h1 h2 => by
    obtain ⟨as, cs, h3, h4, rfl⟩ := forall₂_split (a := a) h2
    exact ⟨_ :: as, cs, .cons h1 h3, h4, rfl⟩

theorem uses_path (ho : P.Ok) (hp : P.Plain η) (hl : LossLooks P.shape) {s0 : NetS P.net} (hi : P.Inv s0) (hg : GoesWell P η d (P.weights s0)) (us : List (Use ℝ)) :
    (∀ u ∈ us, P.Fits u) → ∀ bs, List.Forall₂ (Like P.shape) (batches us) bs → (∀ b ∈ bs, Drawn d b) →
    P.shape.Path η bs (P.weights s0) (P.weights (P.net.run s0 us)) := by
  induction us using List.reverseRecOn with
  | nil =>
    intro _ bs hf _
    cases hf
    exact Shape.Same.refl _ _
  | append_singleton us u ih =>
    intro hus bs hf hd
    have hus1 : ∀ v ∈ us, P.Fits v := fun v hv => hus v (List.mem_append_left _ hv)
    have hu := hus u (List.mem_append_right _ List.mem_cons_self)
    have er : P.net.run s0 (us ++ [u]) = (P.net.step (P.net.run s0 us) u).1 := by unfold Net.run; rw [List.foldl_append]; rfl
    rw [er]
    rw [batches_append] at hf
    cases u with
    | eval R X =>
      rw [show batches [Use.eval R X] = [] from rfl, List.append_nil] at hf
      exact (ih hus1 bs hf hd).same _ (evaluation_keeps_weights ho hp _ R X).symm
    | train R X Y =>
      rw [show batches [Use.train R X Y] = [(R, matOf R X, matOf R Y)] from rfl] at hf
      obtain ⟨as, cs, h1, h2, rfl⟩ := forall₂_split hf
      have h2 : List.Forall₂ (Like P.shape) [(R, matOf R X, matOf R Y)] cs := h2
      cases h2 with
      | cons hb h3 =>
        cases h3
        rename_i b
        have ih := ih hus1 as h1 fun c hc => hd c (List.mem_append_left _ hc)
        have hb' := hd b (List.mem_append_right _ List.mem_cons_self)
        refine ho.shape.path_append _ _ ih ⟨_, ho.shape.descent_like hl hb
          (training_step_is_descent ho hp s0 hi us hus1 R X Y hu fun r hr => ?_).1, Shape.Same.refl _ _⟩
        obtain ⟨k, hk, e1, e2⟩ := hb' r (hb.1 ▸ hr)
        obtain ⟨q1, q2⟩ := hb.2 r hr
        exact ho.shape.regular_like hl (fun j hj => (congrFun e1 j).symm.trans (q1 j hj).symm) (fun j hj => (congrFun e2 j).symm.trans (q2 j hj).symm)
          (hg as _ (fun c hc => hd c (List.mem_append_left _ hc)) ih k hk)

/-! ### The loop over epochs -/

variable {L : Type}

theorem quiet_idle {l : List Train.Ev} (h : Train.Quiet l) : Train.Ev.deinit ∉ l := fun hm => by
  obtain ⟨_, h⟩ := h _ hm
  cases h

theorem report_no_deinit (v : Train.Env L) (cd : Train.CD) (e : ℤ) : Train.Ev.deinit ∉ (Train.report v cd e).2 := by
  unfold Train.report
  intro h
  rcases List.mem_append.1 h with h | h
  · exact quiet_idle (Train.setModes_quiet _ _) h
  · simp at h

theorem afterBatches_no_deinit (o : Train.Opts L) (v : Train.Env L) (cd : Train.CD) (e : ℕ) (f : Bool) : Train.Ev.deinit ∉ (Train.afterBatches o v cd e f).2.1 := by
  unfold Train.afterBatches
  dsimp only
  split
  · split
    · simp
    · exact report_no_deinit _ _ _
  · simp

theorem epochLoop_past (hs : Suits d P) (o : Train.Opts L) (v : Train.Env L) (k : ℕ) : ∀ (cd : Train.CD) (e : ℕ) (cd' : Train.CD) (tr : List Train.Ev) (err : Train.Err)
    (w w' : World P), Train.epochLoop o v cd e k = some (cd', tr, err) → cd.training = true → cd.cur = cd.trainBs → cd.trainBs ≤ P.bs.maxTrainBS → w.cur = cd.cur →
    TrainData.Reach vmax d w.td → Plays P vmax tr w w' →
    ∃ ords : List (ℕ → ℕ), ords.length = (Train.begunOf tr).length ∧ (∀ ord ∈ ords, Shuffled (d.count .train) cd.trainBs ord) ∧
      Past vmax d w w' (ords.flatMap (epochBatches d cd.trainBs)) := by
  induction k with
  | zero =>
    intro cd e cd' tr err w w' h _ _ _ _ _ hP
    simp only [Train.epochLoop, Option.some.injEq, Prod.mk.injEq] at h
    obtain ⟨rfl, rfl, -⟩ := h
    cases hP
    exact ⟨[], rfl, fun _ h => absurd h List.not_mem_nil, Past.refl w⟩
  | succ k ih =>
    intro cd e cd' tr err w w' h ht hc hN hw hr hP
    unfold Train.epochLoop at h
    dsimp only at h
    cases hf : o.flags[e]? with
    | none => rw [hf] at h; simp at h
    | some flag =>
      rw [hf] at h
      dsimp only at h
      have hflag : o.flags.getD e false = flag := by rw [List.getD_eq_getElem?_getD, hf]; rfl
      have a1 := Train.afterBatches_work o v cd e
      have a2 := Train.afterBatches_begun o v cd e
      have a3 := Train.afterBatches_sizes o v cd e
      have a4 := Train.afterBatches_follows o v cd e flag
      have a5 := afterBatches_no_deinit o v cd e flag
      rw [hflag] at a1 a2 a3
      have b1 : (Train.begunOf ([Train.Ev.nextEpoch e, Train.Ev.epochBegin e (v.batches e cd)] ++ Train.batchLoop cd 0 (v.batches e cd))).length = 1 := by
        rw [Train.begun_append, Train.batchLoop_begun, List.append_nil]; rfl
      have b2 : Train.told cd.cur ([Train.Ev.nextEpoch e, Train.Ev.epochBegin e (v.batches e cd)] ++ Train.batchLoop cd 0 (v.batches e cd)) = cd.cur := by
        rw [Train.told_append]; exact (Train.batchLoop_follows cd _ 0).2
      have b3 : ∀ w1, Plays P vmax ([Train.Ev.nextEpoch e, Train.Ev.epochBegin e (v.batches e cd)] ++ Train.batchLoop cd 0 (v.batches e cd)) w w1 →
          ∃ ord, Shuffled (d.count .train) cd.trainBs ord ∧ Past vmax d w w1 (epochBatches d cd.trainBs ord) := fun w1 h1 => by
        have := (epoch_past hs ht (by rw [hc]; exact hN) hw hr h1).2
        rwa [hc] at this
      generalize Train.afterBatches o v cd e flag = a at *
      generalize [Train.Ev.nextEpoch e, Train.Ev.epochBegin e (v.batches e cd)] ++ Train.batchLoop cd 0 (v.batches e cd) = T at *
      by_cases hdv : a.2.2 = true
      · rw [if_pos hdv] at h
        simp only [Option.some.injEq, Prod.mk.injEq] at h
        obtain ⟨rfl, rfl, -⟩ := h
        obtain ⟨w1, p1, p2⟩ := (plays_append _ _ _ _).1 hP
        obtain ⟨ord, o1, o2⟩ := b3 w1 p1
        refine ⟨[ord], ?_, fun x hx => ?_, ?_⟩
        · rw [Train.begun_append, a2, List.append_nil, b1]; rfl
        · obtain rfl := List.mem_singleton.1 hx; exact o1
        · rw [List.flatMap_cons]; exact o2.trans (idle_past _ a1 a5 p2)
      · rw [if_neg hdv] at h
        have hsm := Train.setModes_follows (v.cbModes e) a.1
        have hsq := Train.setModes_quiet (v.cbModes e) a.1
        have hss := Train.setModes_sizes (v.cbModes e) a.1
        generalize a.1.setModes (v.cbModes e) = c at *
        have hwk : Train.workOf (a.2.1 ++ [Train.Ev.epochEnd] ++ (Train.Ev.callback e :: c.2)) = [] := by
          rw [show Train.Ev.callback e :: c.2 = [Train.Ev.callback e] ++ c.2 from rfl]
          simp only [Train.work_append, a1, hsq.work]
          rfl
        have hbg : Train.begunOf (a.2.1 ++ [Train.Ev.epochEnd] ++ (Train.Ev.callback e :: c.2)) = [] := by
          rw [show Train.Ev.callback e :: c.2 = [Train.Ev.callback e] ++ c.2 from rfl]
          simp only [Train.begun_append, a2, hsq.begun]
          rfl
        have hdn : Train.Ev.deinit ∉ a.2.1 ++ [Train.Ev.epochEnd] ++ (Train.Ev.callback e :: c.2) := by
          intro hm
          simp only [List.mem_append, List.mem_cons, List.not_mem_nil, or_false, reduceCtorEq, false_or] at hm
          rcases hm with hm | hm
          · exact a5 hm
          · exact quiet_idle hsq hm
        have htd : Train.told cd.cur (a.2.1 ++ [Train.Ev.epochEnd] ++ (Train.Ev.callback e :: c.2)) = c.1.cur := by
          rw [Train.told_append, Train.told_append, a4.2]
          exact hsm.2
        rw [List.append_assoc T, List.append_assoc T] at h
        generalize a.2.1 ++ [Train.Ev.epochEnd] ++ (Train.Ev.callback e :: c.2) = U at *
        by_cases hcb : (!v.cb e) = true
        · rw [if_pos hcb] at h
          simp only [Option.some.injEq, Prod.mk.injEq] at h
          obtain ⟨rfl, rfl, -⟩ := h
          obtain ⟨w1, p1, p2⟩ := (plays_append _ _ _ _).1 hP
          obtain ⟨ord, o1, o2⟩ := b3 w1 p1
          refine ⟨[ord], ?_, fun x hx => ?_, ?_⟩
          · rw [Train.begun_append, hbg, List.append_nil, b1]; rfl
          · obtain rfl := List.mem_singleton.1 hx; exact o1
          · rw [List.flatMap_cons]; exact o2.trans (idle_past _ hwk hdn p2)
        · rw [if_neg hcb] at h
          have hm1 : Train.Follows c.1.cur (c.1.setModeBs 0).2 (c.1.setModeBs 0).1.cur := Train.setMode_follows _ _ _
          have hm2 := Train.setModeBs_quiet c.1 0
          rw [Train.setModeBs_ready] at h hm1
          generalize (c.1.setModeBs 0).2 = M at *
          cases hl : Train.epochLoop o v (Train.ready c.1) (e + 1) k with
          | none => rw [hl] at h; simp at h
          | some r =>
            obtain ⟨cd2, evs2, err2⟩ := r
            rw [hl] at h
            simp only [Option.some.injEq, Prod.mk.injEq] at h
            obtain ⟨rfl, rfl, -⟩ := h
            have hbs : (Train.ready c.1).trainBs = cd.trainBs := hss.1.trans a3.1
            obtain ⟨w3, p1, p4⟩ := (plays_append _ _ _ _).1 hP
            obtain ⟨w2, p1, p3⟩ := (plays_append _ _ _ _).1 p1
            obtain ⟨w1, p1, p2⟩ := (plays_append _ _ _ _).1 p1
            obtain ⟨ord, o1, o2⟩ := b3 w1 p1
            have q2 : Past vmax d w1 w2 [] := idle_past _ hwk hdn p2
            have q3 : Past vmax d w2 w3 [] := idle_past _ hm2.work (quiet_idle hm2) p3
            have q := (o2.trans q2).trans q3
            simp only [List.append_nil] at q
            have hw3 : w3.cur = (Train.ready c.1).cur := by
              rw [plays_cur _ p3, plays_cur _ p2, plays_cur _ p1, hw, b2, htd, hm1.2]
            obtain ⟨_, _, _, _, hreach⟩ := id q
            obtain ⟨ords, l1, l2, l3⟩ := ih (Train.ready c.1) (e + 1) cd2 evs2 err2 w3 w' hl rfl rfl (by rw [hbs]; exact hN) hw3 (hreach hr) p4
            rw [hbs] at l2 l3
            refine ⟨ord :: ords, ?_, fun x hx => ?_, ?_⟩
            · simp only [Train.begun_append, hbg, hm2.begun, List.append_nil, List.length_append, b1, List.length_cons, l1]
              omega
            · rcases List.mem_cons.1 hx with rfl | hx
              · exact o1
              · exact l2 x hx
            · rw [List.flatMap_cons]; exact q.trans l3

/-- Calls after which the weights are the same. -/
theorem after_same {o : Train.Opts L} {v : Train.Env L} {w w' : World P} (h : Plays P vmax (Train.after o v) w w') : P.weights w'.net = P.weights w.net := by
  unfold Train.after at h
  obtain ⟨w1, h1, h2⟩ := (plays_append _ _ _ _).1 h
  have e1 : P.weights w1.net = P.weights w.net := by
    by_cases hi : o.immDeinit = true
    · rw [if_pos hi] at h1
      obtain ⟨_, ⟨net', e, rfl⟩, rfl⟩ := h1
      exact e
    · rw [if_neg hi] at h1
      cases h1; rfl
  rw [← e1]
  by_cases hi : o.forceInsp = true
  · rw [if_pos hi] at h2
    obtain ⟨_, rfl, rfl⟩ := h2
    rfl
  · rw [if_neg hi] at h2
    cases h2; rfl

/-- What the network did in a training that starts: uses whose training batches are those of the epochs that were begun. -/
theorem whole_training_past (hs : Suits d P) {o : Train.Opts L} {v : Train.Env L} (hv : Train.Starts v)
    {cd cd' : Train.CD} {tr : List Train.Ev} {err : Train.Err} (ht : Train.train o v cd = some (cd', tr, err)) (hb : cd.trainBs ≤ P.bs.maxTrainBS)
    {w w' : World P} (hc : w.cur = cd.cur) (hr : TrainData.Reach vmax d w.td) (hP : Plays P vmax tr w w') :
    ∃ ords : List (ℕ → ℕ), ords.length = (Train.begunOf tr).length ∧ (∀ ord ∈ ords, Shuffled (d.count .train) cd.trainBs ord) ∧
      (∀ b ∈ ords.flatMap (epochBatches d cd.trainBs), Drawn d b) ∧
      ∃ us, (∀ u ∈ us, P.Fits u) ∧ List.Forall₂ (Like P.shape) (batches us) (ords.flatMap (epochBatches d cd.trainBs)) ∧
        P.weights w'.net = P.weights (P.net.run w.net us) := by
  rw [Train.train_starts hv] at ht
  unfold Train.observed at ht
  dsimp only at ht
  have f1 := Train.report_follows v cd (-1)
  have f2 : Train.Follows (Train.report v cd (-1)).1.cur ((Train.report v cd (-1)).1.setModeBs 0).2 ((Train.report v cd (-1)).1.setModeBs 0).1.cur :=
    Train.setMode_follows _ _ _
  have g1 := Train.report_work v cd (-1)
  have g2 := report_no_deinit v cd (-1)
  have g3 := Train.report_sizes v cd (-1)
  have g4 := Train.report_begun v cd (-1)
  generalize Train.report v cd (-1) = p at *
  have m1 := Train.setModeBs_quiet p.1 0
  rw [Train.setModeBs_ready] at ht f2
  generalize (p.1.setModeBs 0).2 = M at *
  cases hl' : Train.epochLoop o v (Train.ready p.1) 0 o.flags.length with
  | none => rw [hl'] at ht; simp at ht
  | some r =>
    obtain ⟨c2, e2, er2⟩ := r
    rw [hl'] at ht
    simp only [Option.map_some, Option.some.injEq, Prod.mk.injEq] at ht
    obtain ⟨-, rfl, -⟩ := ht
    have hbs : (Train.ready p.1).trainBs = cd.trainBs := g3.1
    have k1 : Train.workOf (Train.before o) = [] ∧ Train.Ev.deinit ∉ Train.before o ∧ Train.told cd.cur (Train.before o) = cd.cur ∧
        Train.begunOf (Train.before o) = [] := by
      unfold Train.before; split <;> exact ⟨rfl, by simp, rfl, rfl⟩
    generalize hfin : (if er2 = .success then (if o.repOnlyTime then [] else [Train.Ev.trainingEnd]) else [] : List Train.Ev) = fin at *
    have k2 : Train.workOf fin = [] ∧ Train.Ev.deinit ∉ fin ∧ Train.begunOf fin = [] := by
      rw [← hfin]; split
      · split <;> exact ⟨rfl, by simp, rfl⟩
      · exact ⟨rfl, by simp, rfl⟩
    have k3 := (Train.after_outer o v).2.1
    obtain ⟨w9, h1, h9⟩ := (plays_append _ _ _ _).1 hP
    obtain ⟨w8, h1, h8⟩ := (plays_append _ _ _ _).1 h1
    obtain ⟨w2, h1, h3⟩ := (plays_append _ _ _ _).1 h1
    obtain ⟨w1, h1, h2⟩ := (plays_append _ _ _ _).1 h1
    obtain ⟨w7, h3, h7⟩ := (plays_append _ _ _ _).1 h3
    obtain ⟨w6, h3, h6⟩ := (plays_append _ _ _ _).1 h3
    obtain ⟨w5, h3, h5⟩ := (plays_append _ _ _ _).1 h3
    obtain ⟨w4, h3, h4⟩ := (plays_append _ _ _ _).1 h3
    have q : Past vmax d w w6 [] := ((((idle_past _ k1.1 k1.2.1 h1).trans (idle_past _ (by rfl) (by simp) h2)).trans (idle_past _ (by rfl) (by simp) h3)).trans
      (idle_past _ g1 g2 h4)).trans (idle_past _ m1.work (quiet_idle m1) h5)
    have hw6 : w6.cur = (Train.ready p.1).cur := by
      rw [plays_cur _ h5, plays_cur _ h4, plays_cur _ h3, plays_cur _ h2, plays_cur _ h1, hc, k1.2.2.1]
      show Train.told (Train.told cd.cur p.2) M = _
      rw [f1.2, f2.2]
    obtain ⟨ords, l1, l2, l3⟩ := epochLoop_past hs o v _ _ _ _ _ _ w6 w7 hl' rfl rfl (by rw [hbs]; exact hb) hw6 (q.choose_spec.2.2.2 hr) h6
    rw [hbs] at l2 l3
    have q7 : Past vmax d w w9 (ords.flatMap (epochBatches d cd.trainBs)) := by
      have := ((q.trans l3).trans (idle_past _ k2.1 k2.2.1 h7)).trans (idle_past _ (by rfl) (by simp) h8)
      simpa using this
    refine ⟨ords, ?_, l2, fun b hb => ?_, ?_⟩
    · simp only [Train.begun_append, k1.2.2.2, g4, m1.begun, k2.2.2, k3, List.append_nil, List.nil_append]
      rw [show Train.begunOf [Train.Ev.observerInit] = [] from rfl, show Train.begunOf [Train.Ev.trainingStart] = [] from rfl,
        show Train.begunOf [Train.Ev.observerDeinit] = [] from rfl, List.append_nil, List.nil_append, List.nil_append]
      exact l1
    · obtain ⟨ord, o1, o2⟩ := List.mem_flatMap.1 hb
      exact epochBatches_drawn (l2 ord o1) b o2
    · obtain ⟨us, e1, e2, e3, -⟩ := q7
      exact ⟨us, e2, e3, by rw [after_same h9, e1]⟩

/-- C191. A training that starts is mini-batch gradient descent: there is an order of the training samples for every epoch that was begun, such that the weights
at the end are those that gradient descent reaches from the first weights over the batches of the first epoch, then of the second, and so on. All batches have the
batch size of the training; in an epoch no sample is used twice, and all samples are used if the batch size divides their number. Whatever batch sizes reports and
callbacks evaluate the network with, and whatever they ask the data object for, makes no difference, and neither does how the training ended. -/
theorem whole_training_is_gradient_descent (ho : P.Ok) (hp : P.Plain η) (hl : LossLooks P.shape) (hs : Suits d P) {o : Train.Opts L} {v : Train.Env L} (hv : Train.Starts v)
    {cd cd' : Train.CD} {tr : List Train.Ev} {err : Train.Err} (ht : Train.train o v cd = some (cd', tr, err)) (hb : cd.trainBs ≤ P.bs.maxTrainBS)
    {w w' : World P} (hc : w.cur = cd.cur) (hr : TrainData.Reach vmax d w.td) (hi : P.Inv w.net) (hg : GoesWell P η d (P.weights w.net))
    (hP : Plays P vmax tr w w') :
    ∃ ords : List (ℕ → ℕ), ords.length = (Train.begunOf tr).length ∧ (∀ ord ∈ ords, Shuffled (d.count .train) cd.trainBs ord) ∧
      P.shape.Path η (ords.flatMap (epochBatches d cd.trainBs)) (P.weights w.net) (P.weights w'.net) := by
  obtain ⟨ords, h1, h2, h3, us, k1, k2, k3⟩ := whole_training_past hs hv ht hb hc hr hP
  refine ⟨ords, h1, h2, ?_⟩
  rw [k3]
  exact uses_path ho hp hl hi hg us k1 _ k2 h3

/-- C191. A training that ends with success, without callbacks that stop it, is gradient descent over as many epochs as were asked for. -/
theorem successful_training_is_gradient_descent (ho : P.Ok) (hp : P.Plain η) (hl : LossLooks P.shape) (hs : Suits d P) {o : Train.Opts L} {v : Train.Env L}
    (hv : Train.Starts v) {cd cd' : Train.CD} {tr : List Train.Ev} (ht : Train.train o v cd = some (cd', tr, .success)) (hcb : ∀ e, v.cb e = true)
    (hb : cd.trainBs ≤ P.bs.maxTrainBS) {w w' : World P} (hc : w.cur = cd.cur) (hr : TrainData.Reach vmax d w.td) (hi : P.Inv w.net)
    (hg : GoesWell P η d (P.weights w.net)) (hP : Plays P vmax tr w w') :
    ∃ ords : List (ℕ → ℕ), ords.length = o.flags.length ∧ (∀ ord ∈ ords, Shuffled (d.count .train) cd.trainBs ord) ∧
      P.shape.Path η (ords.flatMap (epochBatches d cd.trainBs)) (P.weights w.net) (P.weights w'.net) := by
  obtain ⟨ords, h1, h2⟩ := whole_training_is_gradient_descent ho hp hl hs hv ht hb hc hr hi hg hP
  obtain ⟨k, _, hk, _, hbg, _⟩ := Train.train_runs_epochs_partial hv ht
  refine ⟨ords, ?_, h2⟩
  rw [h1, hbg, List.length_range]
  rcases hk with hk | ⟨_, hk⟩
  · exact hk
  · rw [hcb] at hk; exact absurd hk (by decide)

end Nntl.Sgd
