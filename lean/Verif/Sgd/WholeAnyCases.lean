import Verif.Sgd.WholeAny
import Verif.Sgd.WholeCases
import Verif.Sgd.AnyCases

/-! C194: an example. -/
namespace Nntl.Sgd

open Nntl.Layers Nntl.Pass Nntl.Matrix Nntl.Kernel Nntl.Backprop

theorem optPlan_suits (o : Opt) (ntr : ℕ) (h1 : 0 < ntr) : Suits (demoReal ntr) (optPlan o) := by
  obtain ⟨a, b, c, d, e, f⟩ := demoReal_suits 1 ntr h1
  exact ⟨a, b, c, d, e, f⟩

/-- C194 for the example: two epochs of two batches of three out of seven samples with Adam, falling learning rates and a penalty, with reports and callbacks in other
modes. There is such a training, and it follows the formulas of Adam. -/
example : ∃ (tr : List Train.Ev) (cd' : Train.CD) (w w' : World (optPlan demoAdam)) (ords : List (ℕ → ℕ)) (h' : Held (ℕ × ℕ × ℝ × ℝ)),
    Train.train (Train.demoOpts [true, true] 0) (Train.demoEnv (fun _ => some 1) fun _ => true) ⟨7, 3, 0, false⟩ = some (cd', tr, .success) ∧
    Plays (optPlan demoAdam) 1000 tr w w' ∧ ords.length = 2 ∧ (∀ ord ∈ ords, Shuffled 7 3 ord) ∧
    (optPlan demoAdam).shape.RulePath
      (fun _ bias => .scheduled fun t => adamRule (1 / ((t : ℝ) + 1)) (9 / 10) (999 / 1000) (1 / 100000000) (penaltySlope 0 (1 / 10) true true bias))
      (fun bias => .scheduled fun t => adamRule (1 / ((t : ℝ) + 1)) (9 / 10) (999 / 1000) (1 / 100000000) (penaltySlope 0 (1 / 10) true true bias))
      (ords.flatMap (epochBatches (demoReal 7) 3)) ⟨⟨fun _ _ _ => 1, fun _ _ => 1⟩, fun _ _ _ => (0, 0, 0, 0), fun _ _ => (0, 0, 0, 0)⟩ h' ∧
    (optPlan demoAdam).shape.Same h'.W ((optPlan demoAdam).weights w'.net) := by
  obtain ⟨t, ht1, ht2⟩ := demoReal_prepared
  obtain ⟨s, hs, hh⟩ := optPlan_state demoAdam ((0, 0, 0, 0) : ℕ × ℕ × ℝ × ℝ) (fun m k => moments m k (9 / 10) (999 / 1000))
    fun m k => .inl ⟨rfl, fun _ _ _ _ => rfl⟩
  have hok := optPlan_suits demoAdam 7 (by decide)
  have hrun : ∃ r, Train.train (Train.demoOpts [true, true] 0) (Train.demoEnv (fun _ => some 1) fun _ => true) ⟨7, 3, 0, false⟩ = some r ∧ r.2.2 = .success :=
    ⟨_, rfl, by decide⟩
  obtain ⟨⟨cd', tr, err⟩, hrun, herr⟩ := hrun
  obtain rfl : err = .success := herr
  let w : World (optPlan demoAdam) := ⟨t, s, 0, 0, fun _ => 0⟩
  obtain ⟨w', hw'⟩ := whole_training_exists (P := optPlan demoAdam) hok.ok (Train.demo_starts _ _) hrun (by decide) (fun _ _ _ => rfl) (w := w) rfl ht1 ht2
  obtain ⟨ords, h1, h2, h3, h', h4, h5⟩ := whole_training_follows_the_rules (optPlan_ok demoAdam) (demoPlan_looks 1) hok (fun _ m k => demoAdam_follows m k)
    (demoAdam_follows _ _) (fun _ => rfl) rfl (Train.demo_starts _ _) hrun (show 3 ≤ 4 by decide) (w := w) rfl ht1 hs _ hh
    (fun bs h L _ _ _ k _ => demoPlan_regular 1 1 (fun _ => feature _ k) (fun _ => label _ k) L 0 (by decide)) hw'
  exact ⟨tr, cd', w, w', ords, h', hrun, hw', h2 rfl fun _ => rfl, h3, h4, h5⟩

end Nntl.Sgd
