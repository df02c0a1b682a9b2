import Verif.Grad.Exists
import Verif.Grad.MomentumProps
import Mathlib.Tactic.NormNum
/-! C49: blocked learning, zero learning rates. -/
namespace Nntl.Grad
open Nntl.Kernel Nntl.Matrix Nntl.Threads

theorem sameLasting_iff (s t : St) : SameLasting s t ↔ t = s.withG t.G := by
  constructor
  · rintro ⟨h1, h2, h3, h4, h5, h6, h7, h8, h9, h10, h11, h12, h13, h14, h15⟩
    cases s; cases t
    simp only [St.withG] at *
    simp only [*]
  · intro h
    rw [h]
    exact ⟨rfl, rfl, rfl, rfl, rfl, rfl, rfl, rfl, rfl, rfl, rfl, rfl, rfl, rfl, rfl⟩

/-- C49. A gradient applied while learning is blocked leaves the weights and the whole state of the optimiser as they are; with any settings
and even if nothing was allocated. (The gradient buffer receives the derivatives of the loss addendums.) -/
theorem blocked_apply_changes_nothing {E : Env} (hE : E.Ok) (c : Cfg) (g : Mtx ℝ) (draw : Nat → ℝ) (s : St) (hs : WeightsOk s.W) (hg : WeightsOk g)
    (h1 : g.rows = s.W.rows) (h2 : g.cols = s.W.cols) (o : Option St) (h : step E (.apply c true g draw) s o) :
    ∃ t, o = some t ∧ SameLasting s t ∧
      ∀ i, i < s.W.rows * s.W.cols → t.G.data i = penalised c s.W g i := by
  have hsh : Shape (s.withG g) := ⟨hs, hg, h1, h2⟩
  have h3 : (Rel.upd (fun s => { s with G := g }) ⨟ applyGrad E c true draw) s o := h
  rw [seq_some (m := s.withG g) (fun _ => Iff.rfl)] at h3
  have hneed : ∀ o, Rel.need (fun s => decide (s.G.rows = s.W.rows ∧ s.G.cols = s.W.cols) && !s.W.bir && !s.G.bir) (s.withG g) o ↔ o = some (s.withG g) := by
    intro o
    unfold Rel.need
    rw [if_pos]
    simp [hsh.rows, hsh.cols, hsh.w.notBatchInRow, hsh.g.notBatchInRow]
  unfold applyGrad at h3
  rw [seq_some (m := lossF c (s.withG g)) (fun o => (seq_some hneed o).trans (lossAddendums_iff hE c hsh o))] at h3
  have h4 : o = some (lossF c (s.withG g)) := h3
  refine ⟨_, h4, ?_, fun i hi => lossF_at c (s.withG g) i hi⟩
  rw [sameLasting_iff]
  have := lossF_eq c (s.withG g)
  rw [this]
  rfl

/-- C49. Nothing is done before a forward pass while learning is blocked. -/
theorem blocked_pre_changes_nothing (E : Env) (c : Cfg) (draw : Nat → ℝ) (s : St) (o : Option St) :
    step E (.pre c true draw) s o ↔ o = some s := Iff.rfl

theorem preF_withG (c : Cfg) (b : Bool) (draw : Nat → ℝ) (s : St) (g : Mtx ℝ) : preF c b draw (s.withG g) = (preF c b draw s).withG g := by
  unfold preF normF
  split
  · split <;> rfl
  · rfl

theorem Ev.Fits.kept {s t : St} (h : Kept s t) {e : Ev} (he : e.Fits s) : e.Fits t := by
  cases e with
  | pre c b d => exact h.ready he
  | apply c b g d => exact ⟨h.ready he.1, he.2.1, by rw [h.rows]; exact he.2.2.1, by rw [h.cols]; exact he.2.2.2⟩
  | setGamma x => trivial

/-- What a step does, as a function. -/
noncomputable def stepF : Ev → St → St
  | .pre c b draw, s => preF c b draw s
  | .apply c b g draw, s => applyF c b draw (s.withG g)
  | .setGamma x, s => { s with gamma := x }

theorem step_iff {E : Env} (hE : E.Ok) (e : Ev) {s : St} (hs : WeightsOk s.W) (he : e.Fits s) (o : Option St) : step E e s o ↔ o = some (stepF e s) := by
  cases e with
  | pre c b d => exact preTrainingFprop_iff hE c b d hs he o
  | apply c b g d => exact apply_iff hE c b d hs he.1 he.2.1 he.2.2.1 he.2.2.2 o
  | setGamma x => exact Iff.rfl

theorem stepF_kept (e : Ev) (s : St) : Kept s (stepF e s) := by
  cases e with
  | pre c b d => exact (preF_same c b d s).kept
  | apply c b g d => exact (show Kept s (s.withG g) from ⟨rfl, rfl⟩).trans (applyF_same c b d (s.withG g)).kept
  | setGamma x => exact ⟨rfl, rfl⟩

/-- The gradient left by earlier calls has no influence. -/
theorem stepF_withG (e : Ev) (s : St) (g : Mtx ℝ) : ∃ g', stepF e (s.withG g) = (stepF e s).withG g' := by
  cases e with
  | pre c b d => exact ⟨g, preF_withG c b d s g⟩
  | apply c b g' d => exact ⟨(stepF (.apply c b g' d) s).G, rfl⟩
  | setGamma x => exact ⟨g, rfl⟩

theorem stepF_blocked (e : Ev) (h : e.blocked = true) (s : St) : stepF e s = s.withG (stepF e s).G := by
  cases e with
  | pre c b d =>
    have : b = true := h
    subst this; rfl
  | apply c b g d =>
    have : b = true := h
    subst this
    show lossF c (s.withG g) = s.withG (lossF c (s.withG g)).G
    have := lossF_eq c (s.withG g)
    rw [this]
    rfl
  | setGamma x => cases h

theorem run_iff {E : Env} (hE : E.Ok) (es : List Ev) : ∀ {s : St}, WeightsOk s.W → (∀ e, e ∈ es → e.Fits s) → ∀ o,
    run E es s o ↔ o = some (es.foldl (fun s e => stepF e s) s) := by
  induction es with
  | nil => intro s _ _ o; exact Iff.rfl
  | cons e es ih =>
    intro s hs hf o
    show (step E e ⨟ run E es) s o ↔ _
    rw [seq_some (step_iff hE e hs (hf e (List.mem_cons_self ..)))]
    have hk := stepF_kept e s
    exact ih (hk.wshape hs) (fun e' he' => (hf e' (List.mem_cons_of_mem _ he')).kept hk) o

/-- C49. In any history of forward passes, gradients and changes of settings, the calls made while learning is blocked can be left out: the
final weights and the final state of the optimiser are the same. -/
theorem blocked_calls_are_invisible {E : Env} (hE : E.Ok) (es : List Ev) (s : St) (hs : WeightsOk s.W) (hf : ∀ e, e ∈ es → e.Fits s)
    (o o' : Option St) (h : run E es s o) (h' : run E (es.filter fun e => !e.blocked) s o') :
    ∃ t t', o = some t ∧ o' = some t' ∧ SameLasting t t' := by
  refine ⟨_, _, (run_iff hE es hs hf o).1 h, (run_iff hE _ hs (fun e he => hf e (List.mem_filter.1 he).1) o').1 h', ?_⟩
  have key : ∀ (es : List Ev) (s : St) (g : Mtx ℝ), ∃ g', (es.filter fun e => !e.blocked).foldl (fun s e => stepF e s) (s.withG g) =
      (es.foldl (fun s e => stepF e s) s).withG g' := by
    intro es
    induction es with
    | nil => intro s g; exact ⟨g, rfl⟩
    | cons e es ih =>
      intro s g
      cases hb : e.blocked with
      | true =>
        rw [List.filter_cons_of_neg (by simp [hb])]
        obtain ⟨g', hg⟩ := ih (stepF e s) g
        refine ⟨g', ?_⟩
        rw [List.foldl_cons, ← hg, stepF_blocked e hb s]
        rfl
      | false =>
        rw [List.filter_cons_of_pos (by simp [hb]), List.foldl_cons, List.foldl_cons]
        obtain ⟨g1, h1⟩ := stepF_withG e s g
        rw [h1]
        exact ih _ g1
  obtain ⟨g', hg⟩ := key es s s.G
  rw [sameLasting_iff]
  have e1 : s.withG s.G = s := rfl
  rw [e1] at hg
  rw [hg]
  rfl

/-- The direction is zero when the learning rate is. -/
theorem dirF_zero (c : Cfg) (h0 : c.lr = 0) (s : St) (i : Nat) (hi : i < s.n) : dirF c s i = 0 := by
  have hopt : ∀ f (u : St), i < u.n → (optF c f u).G.data i = 0 := by
    intro f u hu
    have hn : (firstF c f u).n = u.n := (firstF_same c f u).n
    show each (firstF c f u).n (fun i _ => (optCell c f (powF c (firstF c f u)) (firstF c f u).gamma ((firstF c f u).cell i)).1) (firstF c f u).G.data i = 0
    unfold each
    rw [hn, if_pos hu]
    unfold optCell
    cases c.type <;> dsimp only
    · rw [h0, mul_zero]
    · cases f <;> simp [hintonCell, h0]
    · cases f <;> simp [gravesCell, h0]
    · rw [h0, zero_mul]
    · cases f <;> simp [modCell, h0]
    · simp [adamCell, h0]
    · simp [adaMaxCell, h0]
    · simp [rNadamCell, h0]
    · simp [rNadamCell, h0]
  have hn2 : (lossF c s).ran.n = s.n := (lossF_same c s).n
  have h1 := hopt s.firstRun (lossF c s).ran (by rw [hn2]; exact hi)
  have hn3 := (optF_same c s.firstRun (lossF c s).ran).n
  unfold dirF ilrF
  split
  · exact h1
  · split
    · split
      · exact h1
      · exact h1
    · dsimp only
      have : ∀ f : Nat → ℝ, each (optF c s.firstRun (lossF c s).ran).n (fun i d => d * f i) (optF c s.firstRun (lossF c s).ran).G.data i = 0 := by
        intro f
        unfold each
        rw [h1]; dsimp only; rw [zero_mul, ite_self]
      split
      · exact this _
      · exact this _

/-- C49, the part about learning rates that holds: with a zero learning rate, no momentum and no norm constraint the weights stay as they are,
whatever the optimiser, gains, addendums and dropout. (Missing: with momentum the weights keep moving, and the optimiser's averages, powers and
first-run flag change: `zero_rate_moves_weights`, `zero_rate_changes_optimiser`.) -/
theorem zero_rate_keeps_weights_partial {E : Env} (hE : E.Ok) (c : Cfg) (h0 : c.lr = 0) (hm : c.useMom = false) (hx : c.useMaxNorm = false) (g : Mtx ℝ)
    (draw draw' : Nat → ℝ) (s : St) (hs : WeightsOk s.W) (hr : Ready c s) (hg : WeightsOk g) (h1 : g.rows = s.W.rows) (h2 : g.cols = s.W.cols)
    (o : Option St) (h : run E [.pre c false draw, .apply c false g draw'] s o) :
    ∃ t, o = some t ∧ t.W.rows = s.W.rows ∧ t.W.cols = s.W.cols ∧ ∀ i, i < s.W.rows * s.W.cols → t.W.data i = s.W.data i := by
  have hf : ∀ e, e ∈ [Ev.pre c false draw, .apply c false g draw'] → e.Fits s := by
    intro e he
    simp only [List.mem_cons, List.not_mem_nil, or_false] at he
    rcases he with rfl | rfl
    · exact hr
    · exact ⟨hr, hg, h1, h2⟩
  have e := (run_iff hE _ hs hf o).1 h
  have hp : preF c false draw s = s := by unfold preF; rw [if_neg (by simp [hm])]
  have e2 : o = some (applyF c false draw' (s.withG g)) := by
    rw [e]
    show some (applyF c false draw' ((preF c false draw s).withG g)) = _
    rw [hp]
  refine ⟨_, e2, (applyF_same c false draw' (s.withG g)).rows, (applyF_same c false draw' (s.withG g)).cols, fun i hi => ?_⟩
  rw [apply_W_off c draw' (s.withG g) hx i hi, if_neg (by simp [hm]), dirF_zero c h0 (s.withG g) _ hi]
  show s.W.data i - _ * 0 = _
  ring

/-- The settings of the two counterexamples: the learning rate is set to zero after the first step. -/
noncomputable def stopCfg (ty : GradType) (mom : Bool) (t : Nat) : Cfg := { demoCfg ty mom false with lr := if t = 0 then 1 / 2 else 0 }

/-- C49 is false for a zero learning rate: after one step with momentum the rate is set to zero, and the next step moves a weight. -/
theorem zero_rate_moves_weights : ∃ s p, Session 2 (fun _ => demoEnv) (fun _ => demoEnv) (stopCfg .classicalConstant true)
    (fun _ => { demoW with data := fun _ => 1 }) (fun _ _ => 0) (fun _ _ => 0) s p ∧
    (stopCfg .classicalConstant true 1).lr = 0 ∧ (s 2).W.data 0 = (s 1).W.data 0 - 1 / 4 := by
  obtain ⟨s, p, h0, h⟩ := demo_session 2 (stopCfg .classicalConstant true) (fun _ _ => ⟨rfl, rfl, rfl, rfl⟩) (fun _ _ => 0) (fun _ _ => 0) (fun _ _ => 1)
  refine ⟨s, p, h, by simp [stopCfg], ?_⟩
  have hn : (0 : Nat) < (s 0).W.rows * (s 0).W.cols := by rw [h0]; decide
  have hW := (momentum_step h rfl 1 (by omega) rfl rfl 0 hn).2
  have hV := velocity_is_weighted_sum h rfl rfl rfl 2 (by omega) 0 hn
  rw [hW, hV]
  rw [weightedSum_succ, weightedSum_succ, weightedSum_zero]
  simp only [stopCfg, demoCfg, penalised]
  norm_num

/-- C49 is false for a zero learning rate: Adam's first average is changed by a step with a zero rate. -/
theorem zero_rate_changes_optimiser : ∃ s p, Session 1 (fun _ => demoEnv) (fun _ => demoEnv) (fun _ => stopCfg .adam false 1)
    (fun _ => { demoW with data := fun _ => 1 }) (fun _ _ => 0) (fun _ _ => 0) s p ∧
    (stopCfg .adam false 1).lr = 0 ∧ (s 0).firstRun = true ∧ (s 1).firstRun = false ∧ (s 0).A 0 = 7 ∧ (s 1).A 0 = 1 / 2 := by
  obtain ⟨s, p, h0, h⟩ := demo_session 1 (fun _ => stopCfg .adam false 1) (fun _ _ => ⟨rfl, rfl, rfl, rfl⟩) (fun _ _ => 0) (fun _ _ => 0) (fun _ _ => 1)
  refine ⟨s, p, h, by simp [stopCfg], by rw [h0]; rfl, ?_, by rw [h0]; rfl, ?_⟩
  · rw [(h.step_eq 0 (by omega)).2, (apply_opt _ _ _).2.2.2.2.2.1]
  · rw [(h.step_eq 0 (by omega)).2, (apply_opt _ _ _).1, (h.firstRun 0 (by omega)).2]
    have hn : ((p 0).withG { demoW with data := fun _ => 1 }).n = 6 := by rw [(h.pre_n 0 (by omega)).2.2.1, h0]; rfl
    have hg : (lossF (stopCfg .adam false 1) ((p 0).withG { demoW with data := fun _ => 1 })).G.data 0 = 1 := by
      rw [lossF_at _ _ _ (by rw [hn]; decide)]
      simp [penalised, stopCfg, demoCfg, St.withG]
    have hn' : (lossF (stopCfg .adam false 1) ((p 0).withG { demoW with data := fun _ => 1 })).n = 6 := by rw [(lossF_same _ _).n, hn]
    generalize lossF (stopCfg .adam false 1) ((p 0).withG { demoW with data := fun _ => 1 }) = u at *
    show each u.n (fun i _ => (fillWith u.n 0 u.A i) * (1 / 2) + u.G.data i * (1 - 1 / 2)) (fillWith u.n 0 u.A) 0 = 1 / 2
    simp only [each, fillWith, hn', hg]
    norm_num

/-- The hypotheses can be met: a history with blocked and unblocked calls of a layer that uses Nesterov momentum. -/
example : ∃ (es : List Ev) (s : St), WeightsOk s.W ∧ (∀ e, e ∈ es → e.Fits s) ∧ (∃ e, e ∈ es ∧ e.blocked = true) ∧ (∃ e, e ∈ es ∧ e.blocked = false) ∧
    (∃ t, run demoEnv es s (some t)) ∧ ∃ t, run demoEnv (es.filter fun e => !e.blocked) s (some t) := by
  let c := demoCfg .adam true true
  let es : List Ev := [.pre c true (fun _ => 0), .apply c true demoW (fun _ => 0), .pre c false (fun _ => 0), .apply c false demoW (fun _ => 0)]
  have hr : Ready c (initState c demoW 0) := ready_init ⟨rfl, rfl, rfl, rfl⟩ (initState_ok c demoW 0)
  have hf : ∀ e, e ∈ es → e.Fits (initState c demoW 0) := by
    intro e he
    simp only [es, List.mem_cons, List.not_mem_nil, or_false] at he
    rcases he with rfl | rfl | rfl | rfl
    · exact hr
    · exact ⟨hr, demoW_ok, rfl, rfl⟩
    · exact hr
    · exact ⟨hr, demoW_ok, rfl, rfl⟩
  exact ⟨es, initState c demoW 0, demoW_ok, hf, ⟨_, List.mem_cons_self .., rfl⟩, ⟨.pre c false (fun _ => 0), by simp [es], rfl⟩,
    ⟨_, (run_iff demoEnv_ok es demoW_ok hf _).2 rfl⟩,
    ⟨_, (run_iff demoEnv_ok _ demoW_ok (fun e he => hf e (List.mem_filter.1 he).1) _).2 rfl⟩⟩

end Nntl.Grad
