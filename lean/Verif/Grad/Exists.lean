import Verif.Grad.StepLemmas
/-! Sessions exist: whatever the settings, machines, draws and gradients are, `gw_init` can be followed by any number of steps. -/
namespace Nntl.Grad
open Nntl.Kernel Nntl.Matrix Nntl.Threads

theorem session_exists (T : Nat) (E E' : Nat → Env) (c : Nat → Cfg) (g : Nat → Mtx ℝ) (draw draw' : Nat → Nat → ℝ) (W : Mtx ℝ) (hW : WeightsOk W)
    (s0 : St) (hi : GwInit (c 0) W s0) (env : ∀ t, t < T → (E t).Ok ∧ (E' t).Ok) (kind : ∀ t, t < T → SameKind (c 0) (c t))
    (grad : ∀ t, t < T → WeightsOk (g t) ∧ (g t).rows = W.rows ∧ (g t).cols = W.cols) :
    ∃ s p, s 0 = s0 ∧ Session T E E' c g draw draw' s p := by
  let s : Nat → St := fun t => Nat.rec s0 (fun t st => applyF (c t) false (draw' t) ((preF (c t) false (draw t) st).withG (g t))) t
  let p : Nat → St := fun t => preF (c t) false (draw t) (s t)
  have hs : ∀ t, s (t + 1) = applyF (c t) false (draw' t) ((p t).withG (g t)) := fun _ => rfl
  have hk : ∀ t, Kept s0 (s t) := by
    intro t
    induction t with
    | zero => exact ⟨rfl, rfl⟩
    | succ t ih =>
      rw [hs]
      exact (ih.trans (preF_same _ _ _ _).kept).trans ((show Kept (p t) ((p t).withG (g t)) from ⟨rfl, rfl⟩).trans (applyF_same _ _ _ _).kept)
  have hw : WeightsOk s0.W := by rw [hi.1]; exact hW
  refine ⟨s, p, rfl, ⟨⟨W, hW, hi⟩, env, kind, ?_, ?_, ?_⟩⟩
  · intro t ht
    obtain ⟨g1, g2, g3⟩ := grad t ht
    show _ ∧ _ = s0.W.rows ∧ _ = s0.W.cols
    rw [hi.1]; exact ⟨g1, g2, g3⟩
  · intro t ht
    exact (preTrainingFprop_iff (env t ht).1 _ _ _ ((hk t).wshape hw) ((hk t).ready (ready_init (kind t ht) hi)) _).2 rfl
  · intro t ht
    obtain ⟨g1, g2, g3⟩ := grad t ht
    have kp : Kept s0 (p t) := (hk t).trans (preF_same _ _ _ _).kept
    refine (apply_iff (env t ht).2 _ _ _ (kp.wshape hw) (kp.ready (ready_init (kind t ht) hi)) g1 ?_ ?_ _).2 rfl
    · rw [kp.rows, hi.1, g2]
    · rw [kp.cols, hi.1, g3]

/-- `gw_init` can produce a state for any weights and settings. -/
def initState (c : Cfg) (W : Mtx ℝ) (gamma : ℝ) : St :=
  { W := W, G := W, V := fun _ => 0, A := fun _ => 7, B := fun _ => -7, gain := fun _ => 1, prev := fun _ => 5, hasV := c.useMom, hasA := c.type.needsA,
    hasB := c.type.needsB, hasGain := c.useILR, hasPrev := c.useILR && !c.ilrUseMom, b1t := 3, b2t := 3, gamma := gamma, firstRun := true }

theorem initState_ok (c : Cfg) (W : Mtx ℝ) (gamma : ℝ) : GwInit c W (initState c W gamma) :=
  ⟨rfl, rfl, fun _ _ _ => rfl, rfl, rfl, rfl, rfl, fun _ _ _ => rfl, rfl⟩

/-! ### A layer of two neurons with two inputs -/

/-- Two neurons, two inputs and the bias; weights 0, 1, 2, …. -/
noncomputable def demoW : Mtx ℝ :=
  { data := fun k => k, cap := 6, rows := 2, cols := 3, emul := false, ext := false, holey := false, bir := false, maxSize := 6 }

theorem demoW_ok : WeightsOk demoW := ⟨rfl, rfl, by decide, by decide, by decide⟩

/-- Three threads; every kernel runs in all of them. -/
def demoEnv : Env := { rs := initRanges 2, thr := fun _ => 0 }

theorem demoEnv_ok : demoEnv.Ok := initRanges_ok 2

/-- Settings: an optimiser of the given type, Nesterov momentum or not. -/
noncomputable def demoCfg (ty : GradType) (mom nest : Bool) : Cfg :=
  { type := ty, lr := 1 / 2, lrDrop := 1, mom := 1 / 2, beta1 := 1 / 2, beta2 := 1 / 4, eps := 1 / 8, maxNorm2 := 1, useMom := mom, nesterov := nest,
    lrDropNesterov := false, useMaxNorm := false, normInclBias := false, useILR := false, ilrToMom := false, decr := 1 / 2, incr := 2, capLow := 1 / 4,
    capHigh := 4, l1 := 0, l1IgnBias := true, l2 := 0, l2IgnBias := true }

theorem demo_session (T : Nat) (c : Nat → Cfg) (hk : ∀ t, t < T → SameKind (c 0) (c t)) (draw draw' : Nat → Nat → ℝ) (g : Nat → Nat → ℝ) :
    ∃ s p, s 0 = initState (c 0) demoW 0 ∧
      Session T (fun _ => demoEnv) (fun _ => demoEnv) c (fun t => { demoW with data := g t }) draw draw' s p :=
  session_exists T _ _ c _ draw draw' demoW demoW_ok _ (initState_ok _ _ _) (fun _ _ => ⟨demoEnv_ok, demoEnv_ok⟩) hk
    (fun _ _ => ⟨⟨demoW_ok.1, demoW_ok.2, demoW_ok.3, demoW_ok.4, demoW_ok.5⟩, rfl, rfl⟩)

end Nntl.Grad
