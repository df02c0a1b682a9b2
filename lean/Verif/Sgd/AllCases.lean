import Verif.Sgd.AllProps
import Verif.Sgd.WholeAnyCases

/-! C195: the hypotheses are met. -/
namespace Nntl.Sgd

open Nntl.Layers Nntl.Pass Nntl.Backprop Nntl.Grad Nntl.Matrix Nntl.Kernel
open Finset

/-- Settings with a given type: Nesterov's momentum, gains compared with the velocity, falling learning rates and a penalty; then the momentum is switched off after the
hundredth step. -/
noncomputable def demoFull (ty : GradType) : Opt :=
  let c := fun t : ℕ => ({ demoCfg (1 / ((t : ℝ) + 1)) with
    type := ty, beta1 := 9 / 10, beta2 := 99 / 100, eps := 1 / 1000, useMom := decide (t < 100), nesterov := true,
    mom := 1 / 2, useILR := true, ilrToMom := true, decr := 1 / 2, incr := 11 / 10, capLow := 1 / 100, capHigh := 100, l1 := 1 / 10 } : Cfg)
  ⟨c 0, fun t => ⟨c t, false, fun _ => 0⟩, fun t => ⟨c t, false, fun _ => 0⟩⟩

theorem demoFull_uses (ty : GradType) : Uses (demoFull ty) ty (9 / 10) (99 / 100) :=
  ⟨fun _ => ⟨rfl, rfl, demo_drop _ rfl⟩, fun _ => ⟨rfl, rfl, demo_drop _ rfl⟩, fun _ => rfl, fun _ => rfl, fun _ => rfl, fun _ => rfl⟩

/-- The network of `demoPlan`: the layer `id` has the type `ty id`, the output layer `tyo`. -/
noncomputable def demoTypes (ty : ℕ → GradType) (tyo : GradType) : Plan := (demoPlan 1).using (fun id => demoFull (ty id)) (demoFull tyo)

theorem demoTypes_ok (ty : ℕ → GradType) (tyo : GradType) : (demoTypes ty tyo).Ok := by
  obtain ⟨h1, h2, _, h4, _⟩ := demoTree_ok
  refine ⟨h1, show 4 ≤ 8 by decide, h2, ?_, h4, fun id => (demo_smooth id).1, (demoPlan_ok 1).last, (demoPlan_ok 1).loss⟩
  show demoTree.AllLeaves _
  have h := fcLayers_leaf (demoTypes ty tyo).gw (demoTypes ty tyo).act
  exact ⟨⟨⟨h 7, h 4, trivial⟩, h 2, trivial⟩, h 3, trivial⟩

/-- A new network: all weights are `1`. -/
theorem demoTypes_state (ty : ℕ → GradType) (tyo : GradType) : ∃ s : NetS (demoTypes ty tyo).net, (demoTypes ty tyo).Inv s ∧
    (demoTypes ty tyo).Holds (fun id m k => remembers m k (ty id) (9 / 10) (99 / 100) 0) (remembers 2 (demoTree.neurons + 1) tyo (9 / 10) (99 / 100) 0)
      ((demoTypes ty tyo).cells s) ⟨⟨fun _ _ _ => 1, fun _ _ => 1⟩, fun _ _ _ => (0, ⟨0, 0, 0, 0, 1, 0⟩), fun _ _ => (0, ⟨0, 0, 0, 0, 1, 0⟩)⟩ := by
  obtain ⟨s, hi, h1, h2⟩ := state_with (demoTypes_ok ty tyo) (fun _ _ _ => demoGw) (fun _ _ _ _ _ => 1) demoGw fun _ _ => 1
  refine ⟨s, hi, fun i m hm => ⟨demoGw, fun _ _ => 1, (h1 i m hm).trans ?_, fun _ _ _ _ => rfl, new_works_remember _ _ _ _ _ _ _ rfl rfl rfl fun _ => rfl⟩,
    demoGw, fun _ _ => 1, h2, fun _ _ _ _ => rfl, new_works_remember _ _ _ _ _ _ _ rfl rfl rfl fun _ => rfl⟩
  show (match (mats (demoTypes ty tyo).tree (demoTypes ty tyo).inputs)[i]? with
        | some m => (⟨(demoTypes ty tyo).gw m.id m.rows m.cols, demoGw, fun _ _ => 1⟩ : Cell)
        | none => ⟨bare, (), fun _ _ => 0⟩) = _
  rw [hm]

/-- C195 for the example: any types in the layers, two epochs of two batches of three out of seven samples. There is such a training, and it follows the formulas. -/
example (ty : ℕ → GradType) (tyo : GradType) :
    ∃ (tr : List Train.Ev) (cd' : Train.CD) (w w' : World (demoTypes ty tyo)) (ords : List (ℕ → ℕ)) (h' : Held (ℕ × Memo)),
    Train.train (Train.demoOpts [true, true] 0) (Train.demoEnv (fun _ => some 1) fun _ => true) ⟨7, 3, 0, false⟩ = some (cd', tr, .success) ∧
    Plays (demoTypes ty tyo) 1000 tr w w' ∧ ords.length = 2 ∧ (∀ ord ∈ ords, Shuffled 7 3 ord) ∧
    (demoPlan 1).shape.RulePath (fun id => methodOf (demoFull (ty id)) (ty id) (9 / 10) (99 / 100) 0) (methodOf (demoFull tyo) tyo (9 / 10) (99 / 100) 0)
      (ords.flatMap (epochBatches (demoReal 7) 3))
      ⟨⟨fun _ _ _ => 1, fun _ _ => 1⟩, fun _ _ _ => (0, ⟨0, 0, 0, 0, 1, 0⟩), fun _ _ => (0, ⟨0, 0, 0, 0, 1, 0⟩)⟩ h' ∧
    (demoPlan 1).shape.Same h'.W ((demoTypes ty tyo).weights w'.net) := by
  obtain ⟨t, ht1, ht2⟩ := demoReal_prepared
  obtain ⟨s, hs, hh⟩ := demoTypes_state ty tyo
  have hok := demoReal_suits 1 7 (by decide)
  have hrun : ∃ r, Train.train (Train.demoOpts [true, true] 0) (Train.demoEnv (fun _ => some 1) fun _ => true) ⟨7, 3, 0, false⟩ = some r ∧ r.2.2 = .success :=
    ⟨_, rfl, by decide⟩
  obtain ⟨⟨cd', tr, err⟩, hrun, herr⟩ := hrun
  obtain rfl : err = .success := herr
  let w : World (demoTypes ty tyo) := ⟨t, s, 0, 0, fun _ => 0⟩
  obtain ⟨w', hw'⟩ := whole_training_exists (P := demoTypes ty tyo) hok.ok (Train.demo_starts _ _) hrun (by decide) (fun _ _ _ => rfl) (w := w) rfl ht1 ht2
  obtain ⟨ords, h1, h2, h3, h', h4, h5⟩ := whole_training_follows_the_methods (P := demoPlan 1) (fun id => demoFull (ty id)) (demoFull tyo) ty (fun _ => 9 / 10)
    (fun _ => 99 / 100) (fun _ => 0) tyo (9 / 10) (99 / 100) 0 (demoTypes_ok ty tyo) (fun id => demoFull_uses _) (demoFull_uses _) (fun _ => rfl) rfl
    (demoPlan_looks 1) hok (Train.demo_starts _ _) hrun (show 3 ≤ 4 by decide) (w := w) rfl ht1 hs _ hh
    (fun bs h L _ _ _ k _ => demoPlan_regular 1 1 (fun _ => feature _ k) (fun _ => label _ k) L 0 (by decide)) hw'
  exact ⟨tr, cd', w, w', ords, h', hrun, hw', h2 rfl fun _ => rfl, h3, h4, h5⟩

/-- The formulas tell the types apart: a first step with the derivative `2` and the learning rate `1 / 10`. -/
example : (method .classicalConstant ⟨1 / 10, 9 / 10, 99 / 100, 0, 0⟩ 0 0 0 2).2 = 1 / 5 ∧ (method .rprop ⟨1 / 10, 9 / 10, 99 / 100, 0, 0⟩ 0 0 0 2).2 = 1 / 10 ∧
    (method .adamax ⟨1 / 10, 9 / 10, 99 / 100, 0, 0⟩ 0 0 0 2).2 = 1 / 10 ∧ (method .modprop ⟨1 / 10, 9 / 10, 99 / 100, 0, 0⟩ 1 2 0 2).2 = 1 / 10 := by
  refine ⟨?_, ?_, ?_, ?_⟩ <;> simp [method] <;> norm_num

end Nntl.Sgd
