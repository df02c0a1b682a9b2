import Verif.Train.Lemmas
/-! Property theorems C25, C26, C27 (loop part), C64 (mode and batch size), C65 (clean-up). -/
namespace Nntl.Train
variable {L : Type}

/-- The prefix and suffix `train()` puts around the observed part. -/
def before (o : Opts L) : List Ev := if o.forceInsp then [.turnInspector true] else []
def after (o : Opts L) (v : Env L) : List Ev :=
  (if o.immDeinit then [.deinit] else []) ++ (if o.forceInsp then [.turnInspector v.inspActive] else [])

theorem train_starts {o : Opts L} {v : Env L} (h : Starts v) (cd : CD) :
    train o v cd = (observed o v cd).map fun r =>
      (r.1, before o ++ [.observerInit] ++ r.2.1 ++ [.observerDeinit] ++ after o v, r.2.2) := by
  unfold train
  simp only [h.td, h.inp, h.out, h.init, h.cb, h.obs, Bool.false_eq_true, if_false, Bool.not_true, ne_eq, not_true_eq_false]
  cases observed o v cd <;> rfl

/-- Events that belong to neither epochs nor reports. -/
def Outer (l : List Ev) : Prop :=
  callbacksOf l = [] ∧ begunOf l = [] ∧ reportsOf l = [] ∧ workOf l = [] ∧ ∀ p, l.foldlM track p = some p

theorem before_outer (o : Opts L) : Outer (before o) := by
  unfold before; split <;> exact ⟨rfl, rfl, rfl, rfl, fun p => by cases p <;> rfl⟩
theorem after_outer (o : Opts L) (v : Env L) : Outer (after o v) := by
  unfold after; split <;> split <;> exact ⟨rfl, rfl, rfl, rfl, fun p => by cases p <;> rfl⟩

/-- Everything the theorems below need, about a whole run. -/
structure RunShape (o : Opts L) (v : Env L) (cd : CD) (tr : List Ev) (err : Err) (m : Nat) : Prop where
  le : m ≤ o.flags.length
  go : ∀ i, i + 1 < m → v.cb i = true
  fine : ∀ i, i < m → (err = .nnDiverged → i + 1 < m) → ¬ Diverges o v i
  begun : begunOf tr = List.range m
  reports : reportsOf tr = -1 :: ((List.range m).filter (reportDue o)).map Int.ofNat
  work : workOf tr = (List.range m).flatMap fun i => epochWork cd.trainBs i (v.batches i (ready cd))
  ends : (err = .success ∧ (m = o.flags.length ∨ (0 < m ∧ v.cb (m - 1) = false)) ∧ callbacksOf tr = List.range m ∧ Bracketed tr) ∨
    (err = .nnDiverged ∧ 0 < m ∧ Diverges o v (m - 1) ∧ callbacksOf tr = List.range (m - 1) ∧ ¬ Bracketed tr)

theorem train_shape {o : Opts L} {v : Env L} (h : Starts v) (cd : CD) :
    ∃ cd' tr err m, train o v cd = some (cd', tr, err) ∧ RunShape o v cd tr err m := by
  rw [train_starts h]
  unfold observed
  have hsz := report_sizes v cd (-1)
  have r1 := report_callbacks v cd (-1)
  have r2 := report_begun v cd (-1)
  have r3 := report_reports v cd (-1)
  have r4 := report_work v cd (-1)
  have r5 := report_track v cd (-1)
  generalize report v cd (-1) = p at *
  obtain ⟨pcd, pev⟩ := p
  dsimp only at *
  have hq := setModeBs_quiet pcd 0
  rw [setModeBs_ready, ready_of_sizes hsz.1 hsz.2]
  generalize (pcd.setModeBs 0).2 = mev at *
  obtain ⟨cd', tr, err, m, hrun, sh⟩ := epochLoop_shape o v o.flags.length cd 0 (by omega)
  rw [hrun]
  dsimp only
  generalize hfin : (if err = .success then (if o.repOnlyTime then [] else [Ev.trainingEnd]) else [] : List Ev) = fin
  have hf : Outer fin := by
    rw [← hfin]; split
    · split <;> exact ⟨rfl, rfl, rfl, rfl, fun p => by cases p <;> rfl⟩
    · exact ⟨rfl, rfl, rfl, rfl, fun p => by cases p <;> rfl⟩
  obtain ⟨f1, f2, f3, f4, f5⟩ := hf
  obtain ⟨a1, a2, a3, a4, a5⟩ := before_outer o
  obtain ⟨b1, b2, b3, b4, b5⟩ := after_outer o v
  refine ⟨cd', _, err, m, rfl, ?_⟩
  have hT : (before o ++ [Ev.observerInit] ++ ([Ev.trainingStart] ++ pev ++ mev ++ tr ++ fin) ++ [Ev.observerDeinit] ++ after o v).foldlM
      track Pos.idle = tr.foldlM track Pos.idle := by
    simp only [track_append, a5, b5, r5, hq.track, Option.bind_some]
    have e1 : ∀ (p : Pos) ev, ev = Ev.observerInit ∨ ev = Ev.trainingStart ∨ ev = Ev.observerDeinit → [ev].foldlM track p = some p := by
      rintro p ev (rfl | rfl | rfl) <;> cases p <;> rfl
    rw [e1 _ _ (by simp)]
    simp only [Option.bind_some]
    rw [e1 _ _ (by simp)]
    simp only [Option.bind_some, r5, hq.track]
    cases tr.foldlM track Pos.idle with
    | none => rfl
    | some q =>
      simp only [Option.bind_some, f5]
      rw [e1 _ _ (by simp)]
      simp only [Option.bind_some, b5]
  have hC : ∀ T, T = before o ++ [Ev.observerInit] ++ ([Ev.trainingStart] ++ pev ++ mev ++ tr ++ fin) ++ [Ev.observerDeinit] ++ after o v →
      callbacksOf T = callbacksOf tr := by
    rintro _ rfl
    simp only [callbacks_append, a1, b1, r1, f1, hq.callbacks]
    simp [callbacksOf]
  dsimp only
  refine ⟨sh.le, fun i hi => by have := sh.go i hi; rwa [Nat.zero_add] at this,
    fun i hi h => by have := sh.fine i hi h; rwa [Nat.zero_add] at this, ?_, ?_, ?_, ?_⟩
  · simp only [begun_append, a2, b2, r2, f2, hq.begun, sh.begun, List.range_eq_range']
    simp [begunOf]
  · simp only [reports_append, a3, b3, r3, f3, hq.reports, sh.reports, List.range_eq_range']
    simp [reportsOf]
  · simp only [work_append, a4, b4, r4, f4, hq.work, sh.work, List.range_eq_range']
    simp [workOf]
  · rcases sh.ends with ⟨g1, g2, g3, g4⟩ | ⟨g1, g2, g3, g4, g5⟩
    · refine Or.inl ⟨g1, ?_, ?_, hT.trans g4⟩
      · rcases g2 with g2 | g2
        · exact Or.inl g2
        · exact Or.inr (by rwa [Nat.zero_add] at g2)
      · rw [hC _ rfl, g3, List.range_eq_range']
    · refine Or.inr ⟨g1, g2, by rwa [Nat.zero_add] at g3, ?_, ?_⟩
      · rw [hC _ rfl, g4, List.range_eq_range']
      · intro hb
        unfold Bracketed at hb
        rw [hT, g5] at hb
        exact absurd hb (by decide)

/-! ### C25 -/

/-- **C25 (partial).** When `train()` finishes with Success, there is a number `k` of epochs such that: `k` is the configured number
unless the callback answered false after epoch `k-1`; no earlier callback answered false; epochs `0..k-1` were run in order, each
processing all its batches in order; the callback was called once after each of them; the inspector saw matching begin and end events.
Missing: matching events when training ends with NNDiverged, see `diverged_epoch_never_ends`. -/
theorem train_runs_epochs_partial {o : Opts L} {v : Env L} (h : Starts v) {cd cd' : CD} {tr : List Ev}
    (hr : train o v cd = some (cd', tr, .success)) :
    ∃ k ≤ o.flags.length, (k = o.flags.length ∨ (0 < k ∧ v.cb (k - 1) = false)) ∧ (∀ e, e + 1 < k → v.cb e = true) ∧
      begunOf tr = List.range k ∧ callbacksOf tr = List.range k ∧
      workOf tr = ((List.range k).flatMap fun e => epochWork cd.trainBs e (v.batches e (ready cd))) ∧ Bracketed tr := by
  obtain ⟨c, t, err, m, h1, sh⟩ := train_shape (o := o) h cd
  rw [h1] at hr
  simp only [Option.some.injEq, Prod.mk.injEq] at hr
  obtain ⟨-, rfl, rfl⟩ := hr
  rcases sh.ends with ⟨-, g2, g3, g4⟩ | ⟨g1, -⟩
  · exact ⟨m, sh.le, g2, sh.go, sh.begun, g3, sh.work, g4⟩
  · exact absurd g1 (by decide)

/-- **C25 (outcomes).** A training that starts has a defined outcome, Success or NNDiverged; one that does not start runs no epoch. -/
theorem train_outcomes (o : Opts L) (v : Env L) (cd : CD) : ∃ cd' tr err, train o v cd = some (cd', tr, err) ∧
    (Starts v → err = .success ∨ err = .nnDiverged) ∧ (¬ Starts v → begunOf tr = [] ∧ callbacksOf tr = [] ∧ workOf tr = [] ∧
      reportsOf tr = []) := by
  by_cases h : Starts v
  · obtain ⟨cd', tr, err, m, h1, sh⟩ := train_shape (o := o) h cd
    refine ⟨cd', tr, err, h1, fun _ => ?_, fun hn => absurd h hn⟩
    rcases sh.ends with ⟨g, -⟩ | ⟨g, -⟩
    · exact Or.inl g
    · exact Or.inr g
  · obtain ⟨a1, a2, a3, a4, -⟩ := before_outer o
    obtain ⟨b1, b2, b3, b4, -⟩ := after_outer o v
    have out : ∀ (l : List Ev), l = [] ∨ l = [Ev.observerInit] →
        begunOf (before o ++ l ++ after o v) = [] ∧ callbacksOf (before o ++ l ++ after o v) = [] ∧
        workOf (before o ++ l ++ after o v) = [] ∧ reportsOf (before o ++ l ++ after o v) = [] := by
      rintro l (rfl | rfl) <;>
        simp only [begun_append, callbacks_append, work_append, reports_append, a1, a2, a3, a4, b1, b2, b3, b4] <;>
        exact ⟨rfl, rfl, rfl, rfl⟩
    have nil : begunOf [] = [] ∧ callbacksOf [] = [] ∧ workOf [] = [] ∧ reportsOf [] = [] := ⟨rfl, rfl, rfl, rfl⟩
    unfold train
    by_cases c1 : v.tdEmpty
    · exact ⟨cd, [], _, by rw [if_pos c1], fun hs => absurd hs h, fun _ => nil⟩
    by_cases c2 : v.inputOk
    swap
    · exact ⟨cd, [], .invalidInputLayerNeuronsCount, by simp [c1, c2], fun hs => absurd hs h, fun _ => nil⟩
    by_cases c3 : v.outputOk
    swap
    · exact ⟨cd, [], .invalidOutputLayerNeuronsCount, by simp [c1, c2, c3], fun hs => absurd hs h, fun _ => nil⟩
    by_cases c4 : v.initErr = .success
    swap
    · refine ⟨cd, before o ++ [] ++ after o v, v.initErr, ?_, fun hs => absurd hs h, fun _ => out _ (Or.inl rfl)⟩
      simp [c1, c2, c3, c4, before, after]
    by_cases c5 : v.initCbErr = .success
    swap
    · refine ⟨cd, before o ++ [] ++ after o v, v.initCbErr, ?_, fun hs => absurd hs h, fun _ => out _ (Or.inl rfl)⟩
      simp [c1, c2, c3, c4, c5, before, after]
    by_cases c6 : v.obsOk
    · exact absurd ⟨by simpa using c1, c2, c3, c4, c5, c6⟩ h
    · refine ⟨cd, before o ++ [.observerInit] ++ after o v, .cantInitializeObserver, ?_, fun hs => absurd hs h, fun _ => out _ (Or.inr rfl)⟩
      simp [c1, c2, c3, c4, c5, c6, before, after]

/-- A configuration with losses in the integers extended by a value that is not a number. -/
def demoOpts (flags : List Bool) (divLast : Int) : Opts (Option Int) :=
  { flags, divLast, thr := some 100, repOnlyTime := false, immDeinit := false, forceInsp := true }
def demoEnv (loss : Int → Option Int) (cb : Nat → Bool) : Env (Option Int) :=
  { tdEmpty := false, inputOk := true, outputOk := true, inspActive := false, initErr := .success, initCbErr := .success,
    obsOk := true, batches := fun _ _ => 2, loss, repModes := fun _ => [7, 3], cb, cbModes := fun _ => [(false, 5)],
    ge := fun a b => match a, b with | some x, some y => decide (y ≤ x) | _, _ => false }
def demoCD : CD := { maxFprop := 7, trainBs := 4, cur := 0, training := false }

theorem demo_starts (loss : Int → Option Int) (cb : Nat → Bool) : Starts (demoEnv loss cb) := ⟨rfl, rfl, rfl, rfl, rfl, rfl⟩

-- three epochs configured, the callback stops after the second one: its hypotheses and conclusions on a concrete run
example : (train (demoOpts [true, false, true] 0) (demoEnv (fun _ => some 1) (fun e => e != 1)) demoCD).map
    (fun r => (begunOf r.2.1, callbacksOf r.2.1, reportsOf r.2.1, r.2.2)) = some ([0, 1], [0, 1], [-1, 0], .success) := by decide

/-- **C25 is false of the code for diverging trainings**: the epoch in which divergence is found begins, its end is never announced
to the inspector, and the callback is not called for it. -/
theorem diverged_epoch_never_ends : ∃ (o : Opts (Option Int)) (v : Env (Option Int)) (cd cd' : CD) (tr : List Ev), Starts v ∧
    train o v cd = some (cd', tr, .nnDiverged) ∧ begunOf tr = [0] ∧ callbacksOf tr = [] ∧ ¬ Bracketed tr := by
  refine ⟨demoOpts [true, true] 5, demoEnv (fun e => if e = 0 then some 100 else some 1) (fun _ => true), demoCD, _, _, demo_starts _ _, rfl, ?_, ?_, ?_⟩
  · decide
  · decide
  · unfold Bracketed; decide

/-! ### C26 -/

/-- **C26.** `train()` returns NNDiverged iff some epoch below the limit, reached because all earlier callbacks answered true, has a
training loss that is not below the threshold. -/
theorem diverged_iff {o : Opts L} {v : Env L} (h : Starts v) {cd cd' : CD} {tr : List Ev} {err : Err}
    (hr : train o v cd = some (cd', tr, err)) :
    err = .nnDiverged ↔ ∃ d < o.flags.length, (d : Int) < o.divLast ∧ v.ge (v.loss d) o.thr = true ∧ ∀ e < d, v.cb e = true := by
  obtain ⟨c, t, err', m, h1, sh⟩ := train_shape (o := o) h cd
  rw [h1] at hr
  simp only [Option.some.injEq, Prod.mk.injEq] at hr
  obtain ⟨-, rfl, rfl⟩ := hr
  constructor
  · intro he
    rcases sh.ends with ⟨g1, -⟩ | ⟨-, g2, g3, -⟩
    · rw [he] at g1; exact absurd g1 (by decide)
    · exact ⟨m - 1, by have := sh.le; omega, g3.1, g3.2, fun e he => sh.go e (by omega)⟩
  · rintro ⟨d, hd, h2, h3, h4⟩
    rcases sh.ends with ⟨g1, g2, -⟩ | ⟨g1, -⟩
    · exfalso
      have hm : m ≤ d := by
        rcases Nat.lt_or_ge d m with hlt | hge
        · exact absurd ⟨h2, h3⟩ (sh.fine d hlt (fun he => by rw [g1] at he; exact absurd he (by decide)))
        · exact hge
      rcases g2 with g2 | ⟨g2, g3⟩
      · omega
      · rw [h4 (m - 1) (by omega)] at g3; exact absurd g3 (by decide)
    · exact g1

/-- **C26 (no further epoch).** When `train()` returns NNDiverged, the last epoch begun is the first one that diverges; all earlier
ones were finished, and nothing is learnt afterwards. -/
theorem diverged_stops {o : Opts L} {v : Env L} (h : Starts v) {cd cd' : CD} {tr : List Ev}
    (hr : train o v cd = some (cd', tr, .nnDiverged)) :
    ∃ d < o.flags.length, Diverges o v d ∧ (∀ e < d, ¬ Diverges o v e ∧ v.cb e = true) ∧ begunOf tr = List.range (d + 1) ∧
      callbacksOf tr = List.range d ∧ reportsOf tr = -1 :: ((List.range (d + 1)).filter (reportDue o)).map Int.ofNat ∧
      workOf tr = (List.range (d + 1)).flatMap fun e => epochWork cd.trainBs e (v.batches e (ready cd)) := by
  obtain ⟨c, t, err', m, h1, sh⟩ := train_shape (o := o) h cd
  rw [h1] at hr
  simp only [Option.some.injEq, Prod.mk.injEq] at hr
  obtain ⟨-, rfl, rfl⟩ := hr
  rcases sh.ends with ⟨g1, -⟩ | ⟨-, g2, g3, g4, -⟩
  · exact absurd g1 (by decide)
  · have hm : m - 1 + 1 = m := by omega
    refine ⟨m - 1, by have := sh.le; omega, g3, fun e he => ⟨sh.fine e (by omega) (fun _ => by omega), sh.go e (by omega)⟩, ?_, g4, ?_, ?_⟩
    · rw [hm]; exact sh.begun
    · rw [hm]; exact sh.reports
    · rw [hm]; exact sh.work

-- the second epoch diverges
example : (train (demoOpts [true, false, true] 5) (demoEnv (fun e => if e = 1 then some 500 else some 1) (fun _ => true)) demoCD).map
    (fun r => (begunOf r.2.1, callbacksOf r.2.1, r.2.2)) = some ([0, 1], [0], .nnDiverged) := by decide

/-- A training loss that is not a number is never taken for divergence, the check being written as `loss >= threshold`: here all losses
after the first epoch are not numbers and training goes on to the end. -/
theorem nan_loss_goes_unnoticed : ∃ (o : Opts (Option Int)) (v : Env (Option Int)) (cd cd' : CD) (tr : List Ev), Starts v ∧
    (∀ e : Nat, e < 3 → (e : Int) < o.divLast ∧ v.loss e = none) ∧ train o v cd = some (cd', tr, .success) ∧ begunOf tr = [0, 1, 2] := by
  refine ⟨demoOpts [true, true, true] 5, demoEnv (fun _ => none) (fun _ => true), demoCD, _, _, demo_starts _ _, ?_, rfl, ?_⟩
  · intro e he; exact ⟨by simp only [demoOpts]; omega, rfl⟩
  · decide

/-! ### C27 -/

/-- **C27 (what is reported).** The observer is given losses once before training and then after exactly those epochs that were run
and that either are subject to the divergence check or are flagged while full reports are on. -/
theorem reports_exact {o : Opts L} {v : Env L} (h : Starts v) {cd cd' : CD} {tr : List Ev} {err : Err}
    (hr : train o v cd = some (cd', tr, err)) :
    ∃ k ≤ o.flags.length, begunOf tr = List.range k ∧ reportsOf tr = -1 :: ((List.range k).filter (reportDue o)).map Int.ofNat := by
  obtain ⟨c, t, err', m, h1, sh⟩ := train_shape (o := o) h cd
  rw [h1] at hr
  simp only [Option.some.injEq, Prod.mk.injEq] at hr
  obtain ⟨-, rfl, rfl⟩ := hr
  exact ⟨m, sh.le, sh.begun, sh.reports⟩

/-- **C27 (partial).** With the divergence check off and full reports on, the epochs reported are exactly the flagged ones among those
run. Missing: the same with the check on, see `unflagged_epoch_is_reported`. -/
theorem reports_follow_flags_partial {o : Opts L} {v : Env L} (h : Starts v) (hd : o.divLast ≤ 0) (ht : o.repOnlyTime = false)
    {cd cd' : CD} {tr : List Ev} {err : Err} (hr : train o v cd = some (cd', tr, err)) (e : Nat) :
    (e : Int) ∈ reportsOf tr ↔ e ∈ begunOf tr ∧ o.flags[e]? = some true := by
  obtain ⟨k, hk, h1, h2⟩ := reports_exact h hr
  rw [h1, h2]
  have hneg : ((e : Int) = -1) = False := by simp
  simp only [List.mem_cons, hneg, false_or, List.mem_map, List.mem_filter, List.mem_range, reportDue, ht, Bool.not_false, Bool.and_true]
  constructor
  · rintro ⟨a, ⟨ha, hb⟩, hc⟩
    have : a = e := Int.ofNat.inj hc
    subst this
    refine ⟨ha, ?_⟩
    have hlt : a < o.flags.length := by omega
    rw [List.getD_eq_getElem?_getD, List.getElem?_eq_getElem hlt] at hb
    rw [List.getElem?_eq_getElem hlt]
    have : ¬ ((a : Int) < o.divLast) := by omega
    simpa [this] using hb
  · rintro ⟨ha, hb⟩
    exact ⟨e, ⟨ha, by rw [List.getD_eq_getElem?_getD, hb]; simp⟩, rfl⟩

example : Starts (demoEnv (fun _ => some 1) (fun _ => true)) ∧ (demoOpts [true, false, true] 0).divLast ≤ 0 ∧
    (demoOpts [true, false, true] 0).repOnlyTime = false := ⟨demo_starts _ _, by decide, rfl⟩

/-- **C27 is false of the code as stated**: with the default divergence check (first five epochs) an epoch that is not flagged is
reported. -/
theorem unflagged_epoch_is_reported : ∃ (o : Opts (Option Int)) (v : Env (Option Int)) (cd cd' : CD) (tr : List Ev), Starts v ∧
    o.divLast = 5 ∧ train o v cd = some (cd', tr, .success) ∧ o.flags[1]? = some false ∧ (1 : Int) ∈ reportsOf tr := by
  refine ⟨demoOpts [true, false, true] 5, demoEnv (fun _ => some 1) (fun _ => true), demoCD, _, _, demo_starts _ _, rfl, rfl, rfl, ?_⟩
  decide

/-! ### C64: the network is in training mode whenever it learns -/

theorem agree_append : ∀ (a b : List Ev) (s : Nat) (s' : Nat), SizesAgree s a →
    a.foldl (fun q ev => match ev with | .layersBatchSize bs => bs | _ => q) s = s' → SizesAgree s' b → SizesAgree s (a ++ b) := by
  intro a
  induction a with
  | nil => intro b s s' _ h1 h2; simp only [List.foldl_nil] at h1; subst h1; exact h2
  | cons ev a ih =>
    intro b s s' h h1 h2
    simp only [List.foldl_cons] at h1
    cases ev <;> simp only [List.cons_append, SizesAgree] at h ⊢ <;>
      first
        | exact ih b _ s' h h1 h2
        | exact ⟨h.1, ih b _ s' h.2 h1 h2⟩

/-- The size the layers know after the events. -/
def told (s : Nat) (l : List Ev) : Nat := l.foldl (fun q ev => match ev with | .layersBatchSize bs => bs | _ => q) s

theorem told_append (s : Nat) (a b : List Ev) : told s (a ++ b) = told (told s a) b := by simp [told]

/-- Events that neither change what the layers know nor learn, or change it consistently with the common data. -/
def Follows (s : Nat) (l : List Ev) (s' : Nat) : Prop := SizesAgree s l ∧ told s l = s'

theorem Follows.append {s s' s'' : Nat} {a b : List Ev} (h1 : Follows s a s') (h2 : Follows s' b s'') : Follows s (a ++ b) s'' :=
  ⟨agree_append a b s s' h1.1 h1.2 h2.1, by rw [told_append, h1.2, h2.2]⟩

theorem Follows.single {s : Nat} {ev : Ev} (h : ∀ bs, ev ≠ .layersBatchSize bs) (h2 : ∀ t bs, ev ≠ .fprop t bs ∧ ev ≠ .bprop t bs) :
    Follows s [ev] s := by
  cases ev <;> first | exact ⟨trivial, rfl⟩ | exact absurd rfl (h _) | exact absurd rfl (h2 _ _).1 | exact absurd rfl (h2 _ _).2

theorem setMode_follows (cd : CD) (t : Bool) (bs : Nat) : Follows cd.cur (cd.setMode t bs).2 (cd.setMode t bs).1.cur := by
  unfold CD.setMode; split
  · exact ⟨trivial, rfl⟩
  · exact ⟨trivial, rfl⟩

theorem setModes_follows (l : List (Bool × Nat)) : ∀ cd : CD, Follows cd.cur (cd.setModes l).2 (cd.setModes l).1.cur := by
  induction l with
  | nil => intro cd; exact ⟨trivial, rfl⟩
  | cons p rest ih => intro cd; exact (setMode_follows cd p.1 p.2).append (ih _)

theorem report_follows (v : Env L) (cd : CD) (e : Int) : Follows cd.cur (report v cd e).2 (report v cd e).1.cur :=
  (setModes_follows _ cd).append (.single (by simp) (by simp))

theorem afterBatches_follows (o : Opts L) (v : Env L) (cd : CD) (e : Nat) (f : Bool) :
    Follows cd.cur (afterBatches o v cd e f).2.1 (afterBatches o v cd e f).1.cur := by
  unfold afterBatches
  dsimp only
  split
  · split
    · exact .single (by simp) (by simp)
    · exact report_follows _ _ _
  · exact ⟨trivial, rfl⟩

theorem batchLoop_follows (cd : CD) (k : Nat) : ∀ b, Follows cd.cur (batchLoop cd b k) cd.cur := by
  induction k with
  | zero => intro b; exact ⟨trivial, rfl⟩
  | succ k ih =>
    intro b
    exact Follows.append ⟨⟨rfl, rfl, trivial⟩, rfl⟩ (ih _)

theorem epochLoop_follows (o : Opts L) (v : Env L) (k : Nat) : ∀ (cd : CD) (e : Nat) (cd' : CD) (tr : List Ev) (err : Err),
    epochLoop o v cd e k = some (cd', tr, err) → Follows cd.cur tr cd'.cur := by
  induction k with
  | zero =>
    intro cd e cd' tr err h
    simp only [epochLoop, Option.some.injEq, Prod.mk.injEq] at h
    obtain ⟨rfl, rfl, -⟩ := h
    exact ⟨trivial, rfl⟩
  | succ k ih =>
    intro cd e cd' tr err h
    unfold epochLoop at h
    dsimp only at h
    cases hf : o.flags[e]? with
    | none => rw [hf] at h; simp at h
    | some flag =>
      rw [hf] at h
      dsimp only at h
      have pre : Follows cd.cur ([Ev.nextEpoch e, Ev.epochBegin e (v.batches e cd)] ++ batchLoop cd 0 (v.batches e cd)) cd.cur :=
        Follows.append ⟨trivial, rfl⟩ (batchLoop_follows _ _ _)
      have ha := afterBatches_follows o v cd e flag
      generalize afterBatches o v cd e flag = a at *
      generalize ([Ev.nextEpoch e, Ev.epochBegin e (v.batches e cd)] ++ batchLoop cd 0 (v.batches e cd)) = P at *
      split at h
      · simp only [Option.some.injEq, Prod.mk.injEq] at h
        obtain ⟨rfl, rfl, -⟩ := h
        exact pre.append ha
      · have hc := setModes_follows (v.cbModes e) a.1
        generalize a.1.setModes (v.cbModes e) = c at *
        have hE : Follows cd.cur (P ++ a.2.1 ++ [Ev.epochEnd] ++ (Ev.callback e :: c.2)) c.1.cur :=
          ((pre.append ha).append (.single (by simp) (by simp))).append
            (Follows.append (a := [Ev.callback e]) (.single (by simp) (by simp)) hc)
        split at h
        · simp only [Option.some.injEq, Prod.mk.injEq] at h
          obtain ⟨rfl, rfl, -⟩ := h
          exact hE
        · have hm : Follows c.1.cur (c.1.setModeBs 0).2 (c.1.setModeBs 0).1.cur := setMode_follows _ _ _
          cases hl : epochLoop o v (c.1.setModeBs 0).1 (e + 1) k with
          | none => rw [hl] at h; simp at h
          | some r =>
            obtain ⟨cd2, evs2, err2⟩ := r
            rw [hl] at h
            simp only [Option.some.injEq, Prod.mk.injEq] at h
            obtain ⟨rfl, rfl, -⟩ := h
            exact (hE.append hm).append (ih _ _ _ _ _ hl)

/-- **C64.** Whatever batch sizes reports and callbacks leave behind, every forward and backward pass of training is made in training
mode with the network's training batch size, and this is the size the layers were last told about. -/
theorem learns_in_training_mode {o : Opts L} {v : Env L} (h : Starts v) {cd cd' : CD} {tr : List Ev} {err : Err}
    (hr : train o v cd = some (cd', tr, err)) :
    SizesAgree cd.cur tr ∧ ∀ ev ∈ tr, ∀ t bs, ev = .fprop t bs ∨ ev = .bprop t bs → t = true ∧ bs = cd.trainBs := by
  constructor
  · rw [train_starts h] at hr
    unfold observed at hr
    dsimp only at hr
    cases hl : epochLoop o v ((report v cd (-1)).1.setModeBs 0).1 0 o.flags.length with
    | none => rw [hl] at hr; simp at hr
    | some r =>
      obtain ⟨c2, e2, er2⟩ := r
      rw [hl] at hr
      simp only [Option.map_some, Option.some.injEq, Prod.mk.injEq] at hr
      obtain ⟨-, rfl, -⟩ := hr
      have f1 := report_follows v cd (-1)
      have f2 : Follows (report v cd (-1)).1.cur ((report v cd (-1)).1.setModeBs 0).2 ((report v cd (-1)).1.setModeBs 0).1.cur :=
        setMode_follows _ _ _
      have f3 := epochLoop_follows _ _ _ _ _ _ _ _ hl
      have f4 : Follows cd.cur (before o) cd.cur := by
        unfold before; split
        · exact .single (by simp) (by simp)
        · exact ⟨trivial, rfl⟩
      have f5 : Follows c2.cur (if er2 = .success then (if o.repOnlyTime then [] else [Ev.trainingEnd]) else [] : List Ev) c2.cur := by
        split
        · split
          · exact ⟨trivial, rfl⟩
          · exact .single (by simp) (by simp)
        · exact ⟨trivial, rfl⟩
      have f6 : Follows c2.cur (after o v) c2.cur := by
        unfold after; split <;> split <;> exact ⟨trivial, rfl⟩
      exact (((((f4.append (.single (by simp) (by simp))).append
        (((((Follows.single (ev := .trainingStart) (by simp) (by simp)).append f1).append f2).append f3).append f5)).append
        (.single (by simp) (by simp))).append f6)).1
  · intro ev hev t bs hcase
    obtain ⟨c, tr', err', m, h1, sh⟩ := train_shape (o := o) h cd
    rw [h1] at hr
    simp only [Option.some.injEq, Prod.mk.injEq] at hr
    obtain ⟨-, rfl, rfl⟩ := hr
    have hw : ev ∈ workOf tr' := by
      unfold workOf
      rw [List.mem_filter]
      rcases hcase with rfl | rfl <;> exact ⟨hev, rfl⟩
    rw [sh.work] at hw
    simp only [List.mem_flatMap, epochWork, List.mem_cons, List.mem_range, List.not_mem_nil, or_false] at hw
    obtain ⟨e, -, hw | ⟨b, -, hw⟩⟩ := hw
    · rcases hcase with rfl | rfl <;> simp at hw
    · rcases hcase with rfl | rfl <;> simp at hw <;> exact hw

-- the callback of the demonstration leaves the network in inference mode with batch size 5, reports use sizes 7 and 3
example : (train (demoOpts [true, true] 0) (demoEnv (fun _ => some 1) (fun _ => true)) demoCD).map
    (fun r => r.2.1.filterMap fun | .fprop t bs => some (t, bs) | _ => none) =
    some [(true, 4), (true, 4), (true, 4), (true, 4)] := by decide

/-! ### C65: clean-up -/

theorem insp_append (s : Bool) (a b : List Ev) : inspectorAfter s (a ++ b) = inspectorAfter (inspectorAfter s a) b := by
  simp [inspectorAfter]

/-- **C65.** However `train()` ends: the inspector is as active afterwards as it was before; the observer is released exactly as often
as it was successfully initialised; and the network is deinitialised exactly when this was asked for and the checks of the arguments
passed. -/
theorem train_cleans_up {o : Opts L} {v : Env L} {cd cd' : CD} {tr : List Ev} {err : Err} (hr : train o v cd = some (cd', tr, err)) :
    inspectorAfter v.inspActive tr = v.inspActive ∧
    tr.count .observerDeinit = (if v.obsOk then tr.count .observerInit else 0) ∧
    tr.count .deinit = (if o.immDeinit ∧ v.tdEmpty = false ∧ v.inputOk = true ∧ v.outputOk = true then 1 else 0) := by
  -- the observed part holds none of the counted events
  have plain : ∀ (l : List Ev), (∀ ev ∈ l, ev ≠ .observerInit ∧ ev ≠ .observerDeinit ∧ ev ≠ .deinit ∧ ∀ b, ev ≠ .turnInspector b) →
      l.count .observerInit = 0 ∧ l.count .observerDeinit = 0 ∧ l.count .deinit = 0 ∧ ∀ s, inspectorAfter s l = s := by
    intro l hl
    refine ⟨List.count_eq_zero.2 fun hm => (hl _ hm).1 rfl, List.count_eq_zero.2 fun hm => (hl _ hm).2.1 rfl,
      List.count_eq_zero.2 fun hm => (hl _ hm).2.2.1 rfl, fun s => ?_⟩
    induction l generalizing s with
    | nil => rfl
    | cons ev l ih =>
      have h1 := (hl ev (by simp)).2.2.2
      have : inspectorAfter s (ev :: l) = inspectorAfter s l := by
        cases ev <;> first | rfl | exact absurd rfl (h1 _)
      rw [this]; exact ih (fun e he => hl e (by simp [he])) s
  have bq : ∀ (l : List Ev), Quiet l → ∀ ev ∈ l, ev ≠ .observerInit ∧ ev ≠ .observerDeinit ∧ ev ≠ .deinit ∧ ∀ b, ev ≠ .turnInspector b := by
    intro l hl ev he
    obtain ⟨bs, rfl⟩ := hl ev he
    simp
  have br : ∀ cd e, ∀ ev ∈ (report v cd e).2, ev ≠ .observerInit ∧ ev ≠ .observerDeinit ∧ ev ≠ .deinit ∧ ∀ b, ev ≠ .turnInspector b := by
    intro cd e ev he
    simp only [report, List.mem_append, List.mem_singleton] at he
    rcases he with he | rfl
    · exact bq _ (setModes_quiet _ _) _ he
    · simp
  have bb : ∀ cd k b, ∀ ev ∈ batchLoop cd b k, ev ≠ .observerInit ∧ ev ≠ .observerDeinit ∧ ev ≠ .deinit ∧ ∀ b, ev ≠ .turnInspector b := by
    intro cd k
    induction k with
    | zero => intro b ev he; simp [batchLoop] at he
    | succ k ih =>
      intro b ev he
      simp only [batchLoop, List.mem_append, List.mem_cons, List.not_mem_nil, or_false] at he
      rcases he with (rfl | rfl | rfl | rfl | rfl | rfl | rfl) | he
      all_goals first | exact ih _ _ he | simp
  have bl : ∀ k cd e cd' tr err, epochLoop o v cd e k = some (cd', tr, err) →
      ∀ ev ∈ tr, ev ≠ .observerInit ∧ ev ≠ .observerDeinit ∧ ev ≠ .deinit ∧ ∀ b, ev ≠ .turnInspector b := by
    intro k
    induction k with
    | zero =>
      intro cd e cd' tr err h ev he
      simp only [epochLoop, Option.some.injEq, Prod.mk.injEq] at h
      obtain ⟨-, rfl, -⟩ := h
      simp at he
    | succ k ih =>
      intro cd e cd' tr err h ev he
      unfold epochLoop at h
      dsimp only at h
      cases hf : o.flags[e]? with
      | none => rw [hf] at h; simp at h
      | some flag =>
        rw [hf] at h
        dsimp only at h
        have ha : ∀ ev ∈ (afterBatches o v cd e flag).2.1, ev ≠ .observerInit ∧ ev ≠ .observerDeinit ∧ ev ≠ .deinit ∧
            ∀ b, ev ≠ .turnInspector b := by
          intro ev he
          unfold afterBatches at he
          dsimp only at he
          split at he
          · split at he
            · simp only [List.mem_singleton] at he; subst he; simp
            · exact br _ _ _ he
          · simp at he
        have pre : ∀ ev ∈ ([Ev.nextEpoch e, Ev.epochBegin e (v.batches e cd)] ++ batchLoop cd 0 (v.batches e cd)),
            ev ≠ .observerInit ∧ ev ≠ .observerDeinit ∧ ev ≠ .deinit ∧ ∀ b, ev ≠ .turnInspector b := by
          intro ev he
          simp only [List.mem_append, List.mem_cons, List.not_mem_nil, or_false] at he
          rcases he with (rfl | rfl) | he
          · simp
          · simp
          · exact bb _ _ _ _ he
        generalize afterBatches o v cd e flag = a at *
        generalize ([Ev.nextEpoch e, Ev.epochBegin e (v.batches e cd)] ++ batchLoop cd 0 (v.batches e cd)) = P at *
        split at h
        · simp only [Option.some.injEq, Prod.mk.injEq] at h
          obtain ⟨-, rfl, -⟩ := h
          rw [List.mem_append] at he
          exact he.elim (pre _) (ha _)
        · have hq := bq _ (setModes_quiet (v.cbModes e) a.1)
          generalize a.1.setModes (v.cbModes e) = c at *
          have hE : ∀ ev ∈ (P ++ a.2.1 ++ [Ev.epochEnd] ++ (Ev.callback e :: c.2)),
              ev ≠ .observerInit ∧ ev ≠ .observerDeinit ∧ ev ≠ .deinit ∧ ∀ b, ev ≠ .turnInspector b := by
            intro ev he
            simp only [List.mem_append, List.mem_cons, List.not_mem_nil, or_false] at he
            rcases he with ((he | he) | rfl) | rfl | he
            · exact pre _ he
            · exact ha _ he
            · simp
            · simp
            · exact hq _ he
          split at h
          · simp only [Option.some.injEq, Prod.mk.injEq] at h
            obtain ⟨-, rfl, -⟩ := h
            exact hE _ he
          · have hm := bq _ (setModeBs_quiet c.1 0)
            cases hl : epochLoop o v (c.1.setModeBs 0).1 (e + 1) k with
            | none => rw [hl] at h; simp at h
            | some r =>
              obtain ⟨cd2, evs2, err2⟩ := r
              rw [hl] at h
              simp only [Option.some.injEq, Prod.mk.injEq] at h
              obtain ⟨-, rfl, -⟩ := h
              simp only [List.mem_append (a := ev) (s := _ ++ _) (t := evs2)] at he
              rw [List.mem_append] at he
              rcases he with (he | he) | he
              · exact hE _ he
              · exact hm _ he
              · exact ih _ _ _ _ _ hl _ he
  unfold train at hr
  by_cases c1 : v.tdEmpty
  · simp only [c1, if_true, Option.some.injEq, Prod.mk.injEq] at hr
    obtain ⟨-, rfl, -⟩ := hr
    simp [inspectorAfter, c1]
  by_cases c2 : v.inputOk
  swap
  · simp only [c1, c2, Bool.not_false, if_true, Bool.false_eq_true, if_false, Option.some.injEq, Prod.mk.injEq] at hr
    obtain ⟨-, rfl, -⟩ := hr
    simp [inspectorAfter, c2]
  by_cases c3 : v.outputOk
  swap
  · simp only [c1, c2, c3, Bool.not_false, Bool.not_true, if_true, Bool.false_eq_true, if_false, Option.some.injEq, Prod.mk.injEq] at hr
    obtain ⟨-, rfl, -⟩ := hr
    simp [inspectorAfter, c3]
  have fin : ∀ mid : List Ev, (mid.count .deinit = 0) → (∀ s, inspectorAfter s mid = s) →
      mid.count .observerDeinit = (if v.obsOk then mid.count .observerInit else 0) →
      tr = before o ++ mid ++ after o v → inspectorAfter v.inspActive tr = v.inspActive ∧
        tr.count .observerDeinit = (if v.obsOk then tr.count .observerInit else 0) ∧
        tr.count .deinit = (if o.immDeinit ∧ v.tdEmpty = false ∧ v.inputOk = true ∧ v.outputOk = true then 1 else 0) := by
    rintro mid m1 m2 m3 rfl
    have hd : (if o.immDeinit ∧ v.tdEmpty = false ∧ v.inputOk = true ∧ v.outputOk = true then 1 else 0) = (if o.immDeinit then 1 else 0) := by
      simp [c1, c2, c3]
    rw [hd]
    simp only [List.count_append, insp_append, m1, m2, m3]
    unfold before after
    cases o.immDeinit <;> cases o.forceInsp <;> cases v.obsOk <;> simp [inspectorAfter] <;> decide
  by_cases c4 : v.initErr = .success
  swap
  · refine fin [] rfl (fun _ => rfl) (by simp) ?_
    simp only [c1, c2, c3, c4, Bool.not_true, Bool.false_eq_true, if_false, ne_eq, not_false_eq_true, if_true, Option.some.injEq, Prod.mk.injEq] at hr
    rw [← hr.2.1, List.append_nil]; rfl
  by_cases c5 : v.initCbErr = .success
  swap
  · refine fin [] rfl (fun _ => rfl) (by simp) ?_
    simp only [c1, c2, c3, c4, c5, Bool.not_true, Bool.false_eq_true, if_false, ne_eq, not_true_eq_false, not_false_eq_true, if_true,
      Option.some.injEq, Prod.mk.injEq] at hr
    rw [← hr.2.1, List.append_nil]; rfl
  by_cases c6 : v.obsOk
  swap
  · refine fin [.observerInit] rfl (fun _ => rfl) (by simp [c6]) ?_
    simp only [c1, c2, c3, c4, c5, c6, Bool.not_true, Bool.not_false, Bool.false_eq_true, if_false, ne_eq, not_true_eq_false, if_true,
      Option.some.injEq, Prod.mk.injEq] at hr
    rw [← hr.2.1]; rfl
  · rw [← train.eq_def, train_starts ⟨by simpa using c1, c2, c3, c4, c5, c6⟩] at hr
    unfold observed at hr
    dsimp only at hr
    cases hl : epochLoop o v ((report v cd (-1)).1.setModeBs 0).1 0 o.flags.length with
    | none => rw [hl] at hr; simp at hr
    | some r =>
      obtain ⟨c2', e2, er2⟩ := r
      rw [hl] at hr
      simp only [Option.map_some, Option.some.injEq, Prod.mk.injEq] at hr
      generalize hM : ([Ev.trainingStart] ++ (report v cd (-1)).2 ++ ((report v cd (-1)).1.setModeBs 0).2 ++ e2 ++
        (if er2 = .success then (if o.repOnlyTime then [] else [Ev.trainingEnd]) else [])) = M at hr
      have hMp : ∀ ev ∈ M, ev ≠ .observerInit ∧ ev ≠ .observerDeinit ∧ ev ≠ .deinit ∧ ∀ b, ev ≠ .turnInspector b := by
        intro ev he
        rw [← hM, List.mem_append, List.mem_append, List.mem_append, List.mem_append] at he
        rcases he with (((he | he) | he) | he) | he
        · simp only [List.mem_singleton] at he; subst he; simp
        · exact br _ _ _ he
        · exact bq _ (setModeBs_quiet _ _) _ he
        · exact bl _ _ _ _ _ _ hl _ he
        · split at he
          · split at he
            · simp at he
            · simp only [List.mem_singleton] at he; subst he; simp
          · simp at he
      obtain ⟨q1, q2, q3, q4⟩ := plain M hMp
      refine fin ([.observerInit] ++ M ++ [.observerDeinit]) ?_ ?_ ?_ ?_
      · rw [List.count_append, List.count_append, q3]; rfl
      · intro s; rw [insp_append, insp_append, q4]; rfl
      · rw [List.count_append, List.count_append, List.count_append, List.count_append, q1, q2, c6]; rfl
      · rw [← hr.2.1]; simp only [List.append_assoc]

example : (train { demoOpts [true, true] 5 with immDeinit := true } (demoEnv (fun _ => some 500) (fun _ => true)) demoCD).map
    (fun r => (r.2.1.count .observerInit, r.2.1.count .observerDeinit, r.2.1.count .deinit, r.2.2)) = some (1, 1, 1, .nnDiverged) := by decide

end Nntl.Train
