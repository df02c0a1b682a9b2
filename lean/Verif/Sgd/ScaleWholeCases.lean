import Verif.Sgd.ScaleCases
import Verif.Sgd.UnseenWholeCases

/-! C211: the hypotheses for whole trainings are met, and what penalties do. -/
namespace Nntl.Sgd

open Nntl.Layers Nntl.Pass Nntl.Backprop Nntl.Grad Nntl.Matrix Nntl.Kernel
open Finset

/-- RProp or plain gradient descent in every layer of the example. -/
noncomputable def signWith (b : ℕ → Bool) (bo : Bool) : Plan := deepPlan.using (fun id => restOpt (ofSign (b id))) (restOpt (ofSign bo))

/-- C211 for the example: whole calls of `train()`. -/
theorem slow_same_in_training {q : ℝ} (hq : 0 < q) (b : ℕ → Bool) (bo : Bool) (tr : List Train.Ev) (cd cd' : Train.CD) (opts : Train.Opts (Option ℤ)) (en : Train.Env (Option ℤ))
    (hv : Train.Starts en) (hrun : Train.train opts en cd = some (cd', tr, .success)) (hbs : cd.trainBs ≤ 4) (w w' : World (signWith b bo)) (hcu : w.cur = cd.cur)
    (ht : TrainData.Reach 1000 demoZero w.td) (hi : (signWith b bo).Inv w.net)
    (hh : (signWith b bo).Stores (fun id m k => stands m k (ofSign (b id)) (9 / 10) (99 / 100) 0) (stands 2 (deepTree.neurons + 1) (ofSign bo) (9 / 10) (99 / 100) 0)
      ((signWith b bo).cells w.net) twinStock)
    (hP : Plays (signWith b bo) 1000 tr w w') :
    ∃ ords : List (ℕ → ℕ), ords.length = (Train.begunOf tr).length ∧ (∀ ord ∈ ords, Shuffled (demoZero.count .train) cd.trainBs ord) ∧
      ∃ h', (deepPlan.times q).shape.MatPath deepPlan.upd deepPlan.uo (fun id => ruleOf (slowOpt q (b id)) (ofSign (b id)) (9 / 10) (99 / 100) 0)
        (ruleOf (slowOpt q bo) (ofSign bo) (9 / 10) (99 / 100) 0 2 (deepTree.neurons + 1))
        (ords.flatMap (epochBatches demoZero cd.trainBs)) twinStock h' ∧ deepPlan.shape.Same h'.W ((signWith b bo).weights w'.net) := by
  obtain ⟨p1, p2, p3, p4, p5, p6⟩ := demoZero_suits
  exact scale_of_the_loss_in_whole_training (P := deepPlan) hq (fun id => restOpt (ofSign (b id))) (fun id => slowOpt q (b id)) (restOpt (ofSign bo)) (slowOpt q bo)
    (fun id => ofSign (b id)) (fun _ => 9 / 10) (fun _ => 99 / 100) (fun _ => 0) (ofSign bo) (9 / 10) (99 / 100) 0
    (fun id => slowOpt_balanced q (b id)) (slowOpt_balanced q bo) (unscaled_ok _ _) (fun id => restOpt_stays _) (restOpt_stays _)
    (demoPlan_looks 1) ⟨p1, p2, p3, p4, p5, p6⟩ hv hrun hbs hcu ht hi twinStock hh
    (fun bs h L _ _ _ k _ => deepPlan_regular 1 (fun _ => feature _ k) (fun _ => label _ k) L 0 (by decide)) hP

example {q : ℝ} (hq : 0 < q) (b : ℕ → Bool) (bo : Bool) : ∃ (tr : List Train.Ev) (cd : Train.CD) (w w' : World (signWith b bo)),
    Train.train (Train.demoOpts [true, true] 0) (demoEnv1 fun _ => true) ⟨4, 4, 0, false⟩ = some (cd, tr, .success) ∧ Plays (signWith b bo) 1000 tr w w' ∧
    ∃ (ords : List (ℕ → ℕ)) (h' : Stock LayerMemo), ords.length = (Train.begunOf tr).length ∧
      (deepPlan.times q).shape.MatPath deepPlan.upd deepPlan.uo (fun id => ruleOf (slowOpt q (b id)) (ofSign (b id)) (9 / 10) (99 / 100) 0)
        (ruleOf (slowOpt q bo) (ofSign bo) (9 / 10) (99 / 100) 0 2 (deepTree.neurons + 1))
        (ords.flatMap (epochBatches demoZero 4)) twinStock h' ∧ deepPlan.shape.Same h'.W ((signWith b bo).weights w'.net) := by
  obtain ⟨t, ht1, ht2⟩ := demoZero_prepared
  obtain ⟨s, hs, hh⟩ : ∃ s : NetS (signWith b bo).net, (signWith b bo).Inv s ∧ (signWith b bo).Stores (fun id m k => stands m k (ofSign (b id)) (9 / 10) (99 / 100) 0)
      (stands 2 (deepTree.neurons + 1) (ofSign bo) (9 / 10) (99 / 100) 0) ((signWith b bo).cells s) twinStock :=
    new_state (unscaled_ok (fun id => restOpt (ofSign (b id))) (restOpt (ofSign bo))) (fun id => ofSign (b id)) (ofSign bo)
  have hrun : ∃ r, Train.train (Train.demoOpts [true, true] 0) (demoEnv1 fun _ => true) ⟨4, 4, 0, false⟩ = some r ∧ r.2.2 = .success := ⟨_, rfl, by decide⟩
  obtain ⟨⟨cd, tr, err⟩, hrun, herr⟩ := hrun
  obtain rfl : err = .success := herr
  have hv : Train.Starts (demoEnv1 fun _ => true) := ⟨rfl, rfl, rfl, rfl, rfl, rfl⟩
  obtain ⟨w', hw'⟩ := whole_training_exists (P := signWith b bo) demoZero_suits.ok hv hrun (by decide) (fun _ _ _ => rfl) (w := ⟨t, s, 0, 0, fun _ => 0⟩) rfl ht1 ht2
  obtain ⟨ords, k1, _, h', k2, k3⟩ := slow_same_in_training hq b bo tr _ cd _ _ hv hrun (by decide) ⟨t, s, 0, 0, fun _ => 0⟩ w' rfl ht1 hs hh hw'
  exact ⟨tr, cd, _, w', hrun, hw', ords, h', k1, k2, k3⟩

/-- C211. Without penalties is needed: with a penalty the sign of derivative and penalty together, and with it the step of RProp, depends on the scale of the loss. -/
theorem penalties_see_the_scale :
    ((ruleOf decayOpt .rprop 0 0 0 1 3).after ⟨0, 0, fun _ _ => ⟨0, 0, 0, 0, 1, 0⟩⟩ (fun _ _ => 1) fun _ _ => -(1 / 8)).2 0 0 = 0 ∧
    ((ruleOf decayOpt .rprop 0 0 0 1 3).after ⟨0, 0, fun _ _ => ⟨0, 0, 0, 0, 1, 0⟩⟩ (fun _ _ => 1) fun _ _ => 4 * -(1 / 8)).2 0 0 = 2 := by
  constructor <;>
  · simp [ruleOf, MatRule.scheduled, afterOf, decayOpt, demoCfg, limitOf, After.go, After.cell, limited, method, penaltySlope]
    norm_num

end Nntl.Sgd
