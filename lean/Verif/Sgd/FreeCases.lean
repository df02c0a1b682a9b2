import Verif.Sgd.FreeProps
import Verif.Sgd.ExtWholeCases

/-! C201: the hypotheses are met, by a network whose loss has kinks. -/
namespace Nntl.Sgd.Thin

open Nntl.Layers Nntl.Pass Nntl.Matrix Nntl.Kernel Nntl.Backprop Nntl.Grad
open Finset

/-- The network of `demoThin` with rectified linear units and a layer of step functions: dropout, alpha dropout, L2 and DeCov. -/
noncomputable def demoKink : XPlan := ⟨{ demoPart with act := fun id => if id = 6 then .step else .relu }, demoExt⟩

/-- Settings without a limit of lengths, with Nesterov momentum. -/
noncomputable def demoCalm : Opt :=
  ⟨{ demoCfg 1 with useMom := true, nesterov := true, mom := 1 / 2 }, fun _ => ⟨{ demoCfg 1 with useMom := true, nesterov := true, mom := 1 / 2 }, false, fun _ => 1⟩,
    fun _ => ⟨{ demoCfg 1 with useMom := true, nesterov := true, mom := 1 / 2 }, false, fun _ => 1⟩⟩

theorem demoCalm_stays : Stays demoCalm (demoCfg 1).type (demoCfg 1).beta1 (demoCfg 1).beta2 := ⟨fun _ => rfl, fun _ => rfl, fun _ => rfl⟩

noncomputable def demoKinkWith (ty : ℕ → GradType) (oo : Opt) (b : ℕ → Bool) : XPlan := demoKink.using (fun id => demoEvery (ty id) b) oo

theorem demoKink_ok (ty : ℕ → GradType) (oo : Opt) (b : ℕ → Bool) : (demoKinkWith ty oo b).Ok := by
  obtain ⟨h1, h2, _, h4, _⟩ := demoTree_ok
  refine ⟨h1, show 4 ≤ 8 by decide, h2, ?_, h4, ⟨fun id => ?_, fun id => (demoExt_ok id).1, demoExt_penLocal⟩, (demoPlan_ok 1).last, (demoPlan_ok 1).loss⟩
  · show demoTree.AllLeaves _
    have h := exLayers_ok (gw := (demoKinkWith ty oo b).gw) (act := (demoKinkWith ty oo b).act) (e := demoExt) fun id => (demoExt_ok id).1
    exact ⟨⟨⟨h 7, h 4, trivial⟩, h 2, trivial⟩, h 3, trivial⟩
  · show (if id = 6 then Act.Act.step else Act.Act.relu).Args
    split <;> trivial

theorem demoKink_state (ty : ℕ → GradType) (oo : Opt) (tyo : GradType) (x y : ℝ) (b : ℕ → Bool) : ∃ s : NetS (demoKinkWith ty oo b).net, (demoKinkWith ty oo b).Inv s ∧
    (demoKinkWith ty oo b).Stores (fun id m k => stands m k (ty id) (9 / 10) (99 / 100) 0) (stands 2 (demoTree.neurons + 1) tyo x y 0)
      ((demoKinkWith ty oo b).cells s) demoStock := by
  obtain ⟨s, hi, _, h1, h2⟩ := XPlan.state_with (demoKink_ok ty oo b) (fun _ _ _ => demoGw) (fun _ _ _ _ _ => 1) demoGw fun _ _ => 1
  refine ⟨s, hi, fun i m hm => ⟨demoGw, fun _ _ => 1, (h1 i m hm).trans ?_, fun _ _ _ _ => rfl, new_works_stand _ _ _ _ _ _ _ rfl fun _ => rfl⟩,
    demoGw, fun _ _ => 1, h2, fun _ _ _ _ => rfl, new_works_stand _ _ _ _ _ _ _ rfl fun _ => rfl⟩
  show (match (mats (demoKinkWith ty oo b).tree (demoKinkWith ty oo b).inputs)[i]? with
        | some m => (⟨(demoKinkWith ty oo b).gw m.id m.rows m.cols, demoGw, fun _ _ => 1⟩ : Cell)
        | none => ⟨bare, (), fun _ _ => 0⟩) = _
  rw [hm]

/-- Step functions jump, and rectified linear units have no derivative at zero. -/
example : ¬ ContinuousAt Act.Act.step.fn 0 := by
  intro h
  have h1 : Filter.Tendsto Act.Act.step.fn (nhdsWithin 0 (Set.Iio 0)) (nhds 1) := by
    have := h.tendsto.mono_left (nhdsWithin_le_nhds (s := Set.Iio 0))
    have e : Act.Act.step.fn 0 = 1 := by simp [Act.Act.fn]
    rwa [e] at this
  have h2 : Filter.Tendsto Act.Act.step.fn (nhdsWithin 0 (Set.Iio 0)) (nhds 0) := by
    refine Filter.Tendsto.congr' ?_ tendsto_const_nhds
    filter_upwards [self_mem_nhdsWithin] with z hz
    exact (if_pos hz).symm
  exact absurd (tendsto_nhds_unique h1 h2) one_ne_zero

/-- C201 for the example: two epochs of two batches for this network exist; if learning is not blocked, the weight vectors of all layers end within the limit of 7/4,
where they were not before (all weights were 1, and there are more than two inputs); the output layer keeps its weights. -/
example (ty : ℕ → GradType) : ∃ (tr : List Train.Ev) (cd' : Train.CD) (w w' : World (demoKinkWith ty demoCalm fun _ => false)),
    Train.train (Train.demoOpts [true, true] 0) (Train.demoEnv (fun _ => some 1) fun _ => true) ⟨7, 3, 0, false⟩ = some (cd', tr, .success) ∧
    Plays (demoKinkWith ty demoCalm fun _ => false) 1000 tr w w' ∧
    (∀ i m, (mats demoTree 5)[i]? = some m → ∀ c < m.rows, ∑ j ∈ range m.cols, (((demoKinkWith ty demoCalm fun _ => false).weights w'.net).body i c j) ^ 2 ≤ 7 / 4) ∧
    ∀ c < 2, ∀ j < demoTree.neurons + 1, ((demoKinkWith ty demoCalm fun _ => false).weights w'.net).out c j = 1 := by
  obtain ⟨t, ht1, ht2⟩ := demoReal_prepared
  obtain ⟨s, hi, hh⟩ := demoKink_state ty demoCalm (demoCfg 1).type (demoCfg 1).beta1 (demoCfg 1).beta2 fun _ => false
  have hok := demoReal_suits 1 7 (by decide)
  have hrun : ∃ r, Train.train (Train.demoOpts [true, true] 0) (Train.demoEnv (fun _ => some 1) fun _ => true) ⟨7, 3, 0, false⟩ = some r ∧ r.2.2 = .success ∧
      Train.begunOf r.2.1 ≠ [] := ⟨_, rfl, by decide, by decide⟩
  obtain ⟨⟨cd', tr, err⟩, hrun, herr, hbeg⟩ := hrun
  obtain rfl : err = .success := herr
  let w : World (demoKinkWith ty demoCalm fun _ => false) := ⟨t, s, 0, 0, fun _ => 0⟩
  obtain ⟨w', hw'⟩ := whole_training_exists (P := demoKinkWith ty demoCalm fun _ => false) hok.ok (Train.demo_starts _ _) hrun (by decide) (fun _ _ _ => rfl) (w := w) rfl ht1 ht2
  have hl := whole_training_ends_within_limits (Q := demoKink) (fun id => demoEvery (ty id) fun _ => false) demoCalm ty (fun _ => 9 / 10)
    (fun _ => 99 / 100) (fun _ => 0) (demoCfg 1).type (demoCfg 1).beta1 (demoCfg 1).beta2 0 (demoKink_ok ty _ _) (fun _ => demoEvery_stays _ _) demoCalm_stays
    ⟨hok.ok, hok.rowsX, hok.rowsY, hok.ones, hok.inputs, hok.outputs⟩ (Train.demo_starts _ _) hrun (show 3 ≤ 4 by decide) (w := w) rfl ht1 hi demoStock hh hw' hbeg
    (by decide) (show 3 ≤ 7 by decide) (7 / 4) (by norm_num) true
  have hf := whole_training_keeps_frozen_layers_partial (Q := demoKink) (fun id => demoEvery (ty id) fun _ => false) demoCalm ty (fun _ => 9 / 10)
    (fun _ => 99 / 100) (fun _ => 0) (demoCfg 1).type (demoCfg 1).beta1 (demoCfg 1).beta2 0 (demoKink_ok ty _ _) (fun _ => demoEvery_stays _ _) demoCalm_stays
    ⟨hok.ok, hok.rowsX, hok.rowsY, hok.ones, hok.inputs, hok.outputs⟩ (Train.demo_starts _ _) hrun (show 3 ≤ 4 by decide) (w := w) rfl ht1 hi demoStock hh hw'
  have h0 := hh.weights.symm.trans (XPlan.cells_weights (demoKink_ok ty _ _) s)
  refine ⟨tr, cd', w, w', hrun, hw', fun i m hm c hc => hl.1 i m hm rfl (fun _ => ⟨rfl, rfl, rfl, rfl⟩) c hc, fun c hc j hj => ?_⟩
  exact (hf.2 rfl (fun _ _ _ => rfl) (fun _ _ _ _ => rfl) c hc j hj).trans (h0.2 c hc j hj).symm

/-- If learning is blocked, all weights stay 1. -/
example (ty : ℕ → GradType) (tyo : GradType) : ∃ (tr : List Train.Ev) (cd' : Train.CD) (w w' : World (demoKinkWith ty (demoEvery tyo fun _ => true) fun _ => true)),
    Train.train (Train.demoOpts [true, true] 0) (Train.demoEnv (fun _ => some 1) fun _ => true) ⟨7, 3, 0, false⟩ = some (cd', tr, .success) ∧
    Plays (demoKinkWith ty (demoEvery tyo fun _ => true) fun _ => true) 1000 tr w w' ∧
    demoKink.shape.Same ((demoKinkWith ty (demoEvery tyo fun _ => true) fun _ => true).weights w'.net) ⟨fun _ _ _ => 1, fun _ _ => 1⟩ := by
  obtain ⟨t, ht1, ht2⟩ := demoReal_prepared
  obtain ⟨s, hi, hh⟩ := demoKink_state ty (demoEvery tyo fun _ => true) tyo (9 / 10) (99 / 100) fun _ => true
  have hok := demoReal_suits 1 7 (by decide)
  have hrun : ∃ r, Train.train (Train.demoOpts [true, true] 0) (Train.demoEnv (fun _ => some 1) fun _ => true) ⟨7, 3, 0, false⟩ = some r ∧ r.2.2 = .success :=
    ⟨_, rfl, by decide⟩
  obtain ⟨⟨cd', tr, err⟩, hrun, herr⟩ := hrun
  obtain rfl : err = .success := herr
  let w : World (demoKinkWith ty (demoEvery tyo fun _ => true) fun _ => true) := ⟨t, s, 0, 0, fun _ => 0⟩
  obtain ⟨w', hw'⟩ := whole_training_exists (P := demoKinkWith ty (demoEvery tyo fun _ => true) fun _ => true) hok.ok (Train.demo_starts _ _) hrun (by decide)
    (fun _ _ _ => rfl) (w := w) rfl ht1 ht2
  have hb := whole_training_with_blocked_learning_keeps_weights (Q := demoKink) (fun id => demoEvery (ty id) fun _ => true) (demoEvery tyo fun _ => true) ty (fun _ => 9 / 10)
    (fun _ => 99 / 100) (fun _ => 0) tyo (9 / 10) (99 / 100) 0 (demoKink_ok ty _ _) (fun _ => demoEvery_stays _ _) (demoEvery_stays _ _)
    ⟨hok.ok, hok.rowsX, hok.rowsY, hok.ones, hok.inputs, hok.outputs⟩ (Train.demo_starts _ _) hrun (show 3 ≤ 4 by decide) (w := w) rfl ht1 hi demoStock hh hw'
    ⟨fun _ _ => ⟨rfl, rfl⟩, fun _ => ⟨rfl, rfl⟩⟩
  exact ⟨tr, cd', w, w', hrun, hw', hb.trans (hh.weights.symm.trans (XPlan.cells_weights (demoKink_ok ty _ _) s)).symm⟩

end Nntl.Sgd.Thin
