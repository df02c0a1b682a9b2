import Verif.Sgd.PenProps
import Verif.Sgd.MatCases

/-! C205: the hypotheses are met. -/
namespace Nntl.Sgd

open Nntl.Layers Nntl.Pass Nntl.Backprop Nntl.Grad Nntl.Matrix Nntl.Kernel
open Finset

/-- Gradient descent with an L1 penalty `a` and an L2 penalty 1/4 of all weights that are not biases. -/
noncomputable def demoDecay (lr a : ℝ) : Opt :=
  let c : Cfg := { demoCfg lr with l1 := a, l2 := 1 / 4 }
  ⟨c, fun _ => ⟨c, false, fun _ => 0⟩, fun _ => ⟨c, false, fun _ => 0⟩⟩

theorem demoDecay_decays (lr a : ℝ) (m k : ℕ) : Decaying (gradWorks (demoDecay lr a) m k) m k lr ⟨a, 1 / 4, true, true⟩ :=
  gradWorks_decaying _ m k lr _ (fun _ => rfl) fun _ => ⟨⟨rfl, rfl, rfl, by simp [demoDecay, demoCfg, Cfg.bLRDropout]⟩, rfl, rfl, rfl, rfl, rfl, rfl, rfl⟩

/-- The network of `demoPlan` with penalties. -/
noncomputable def demoPen (lr a : ℝ) : Plan := (demoPlan 1).using (fun _ => demoDecay lr a) (demoDecay lr a)

noncomputable def demoPenalties (a : ℝ) : Penalties := ⟨fun _ => ⟨a, 1 / 4, true, true⟩, ⟨a, 1 / 4, true, true⟩⟩

theorem demoPen_decaying (lr a : ℝ) : (demoPen lr a).Decaying ⟨fun _ => lr, lr⟩ (demoPenalties a) where
  body := ⟨fun _ => lr, fun _ m k => demoDecay_decays lr a m k, fun _ => rfl⟩
  out := ⟨lr, demoDecay_decays lr a _ _, rfl⟩

theorem demoPen_ok (lr a : ℝ) : (demoPen lr a).Ok := by
  obtain ⟨h1, h2, _, h4, _⟩ := demoTree_ok
  refine ⟨h1, show 4 ≤ 8 by decide, h2, ?_, h4, fun id => (demo_smooth id).1, (demoPlan_ok 1).last, (demoPlan_ok 1).loss⟩
  show demoTree.AllLeaves _
  have h := fcLayers_leaf (demoPen lr a).gw (demoPen lr a).act
  exact ⟨⟨⟨h 7, h 4, trivial⟩, h 2, trivial⟩, h 3, trivial⟩

/-- A new network: all weights are `1`. -/
theorem demoPen_state (lr a : ℝ) : ∃ s : NetS (demoPen lr a).net, (demoPen lr a).Inv s ∧ (demoPen lr a).shape.Same ((demoPen lr a).weights s) ⟨fun _ _ _ => 1, fun _ _ => 1⟩ := by
  obtain ⟨s, hi, h1, h2⟩ := state_with (demoPen_ok lr a) (fun _ _ _ => demoGw) (fun _ _ _ _ _ => 1) demoGw fun _ _ => 1
  refine ⟨s, hi, (cells_weights (demoPen_ok lr a) s).symm.trans ⟨fun i m hm c _ j _ => ?_, fun c _ j _ => ?_⟩⟩
  · show (((demoPen lr a).cells s).body i).w c j = 1
    rw [h1 i m hm]
    show (match (mats (demoPen lr a).tree (demoPen lr a).inputs)[i]? with
        | some m => (⟨(demoPen lr a).gw m.id m.rows m.cols, demoGw, fun _ _ => 1⟩ : Cell)
        | none => ⟨bare, (), fun _ _ => 0⟩).w c j = _
    have hm' : (mats (demoPen lr a).tree (demoPen lr a).inputs)[i]? = some m := hm
    rw [hm']
  · show ((demoPen lr a).cells s).out.w c j = 1
    rw [h2]

/-- C205 for the example: L2 penalties, any history of evaluations and training steps from any state. -/
example (lr : ℝ) (us : List (Use ℝ)) (hus : ∀ u ∈ us, (demoPen lr 0).Fits u) (s0 : NetS (demoPen lr 0).net) (hi : (demoPen lr 0).Inv s0) :
    (demoPen lr 0).shape.PenPath ⟨fun _ => lr, lr⟩ (demoPenalties 0) (batches us) ((demoPen lr 0).weights s0) ((demoPen lr 0).weights ((demoPen lr 0).net.run s0 us)) :=
  penalised_training_is_gradient_descent (demoPen_ok lr 0) (demoPen_decaying lr 0) us s0 hi hus fun _ _ _ _ _ _ =>
    ⟨demoPlan_regular 1 _ _ _ _, fun _ _ _ _ _ _ _ => .inl rfl, fun _ _ _ _ => .inl rfl⟩

/-- C205 for the example: L1 and L2 penalties, the first step of a new network. -/
example (lr a : ℝ) (X Y : Mem ℝ) (hu : (demoPen lr a).Fits (.train 3 X Y)) : ∃ s : NetS (demoPen lr a).net, (demoPen lr a).Inv s ∧
    (demoPen lr a).shape.PenStep ⟨fun _ => lr, lr⟩ (demoPenalties a) 3 (matOf 3 X) (matOf 3 Y) ((demoPen lr a).weights s)
      ((demoPen lr a).weights ((demoPen lr a).net.step s (.train 3 X Y)).1) := by
  obtain ⟨s, hi, hw⟩ := demoPen_state lr a
  refine ⟨s, hi, penalised_step_is_descent (demoPen_ok lr a) (demoPen_decaying lr a) s hi [] (fun _ h => by cases h) 3 X Y hu (demoPlan_regular 1 _ _ _ _)
    ⟨fun i m hm c hc j hj => .inr (.inr ?_), fun c hc j hj => .inr (.inr ?_)⟩⟩
  · show ((demoPen lr a).weights s).body i c j ≠ 0
    rw [hw.1 i m hm c hc j hj]
    exact one_ne_zero
  · show ((demoPen lr a).weights s).out c j ≠ 0
    rw [hw.2 c hc j hj]
    exact one_ne_zero

/-- The penalty of one weight. -/
example : (⟨1 / 10, 1 / 4, true, true⟩ : Penalty).cost false (-2) = 7 / 10 ∧ (⟨1 / 10, 1 / 4, true, true⟩ : Penalty).cost true (-2) = 0 := by
  constructor
  · simp only [Penalty.cost, Bool.and_false, Bool.false_eq_true, if_false, abs_neg]
    rw [abs_of_pos (by norm_num : (0 : ℝ) < 2)]
    norm_num
  · simp [Penalty.cost]

/-- C205 for the example: if the expected answers are 0, the penalised loss of a network with weights `1` can be lowered. -/
example (a : ℝ) (R : ℕ) (h0 : 0 < R) (X : Mat ℝ) : ∃ ε0 > 0, ∀ ε, 0 < ε → ε < ε0 → ∀ W',
    (demoPlan 1).shape.PenStep ((⟨fun _ => 1, 1⟩ : Rates).times ε) (demoPenalties a) R X (fun _ _ => 0) ⟨fun _ _ _ => 1, fun _ _ => 1⟩ W' →
    (demoPlan 1).shape.penalised (demoPenalties a) R X (fun _ _ => 0) W' < (demoPlan 1).shape.penalised (demoPenalties a) R X (fun _ _ => 0) ⟨fun _ _ _ => 1, fun _ _ => 1⟩ := by
  have hr := demoPlan_regular 1 R X (fun _ _ => 0) ⟨fun _ _ _ => 1, fun _ _ => 1⟩
  have hz : (demoPlan 1).shape.Penalisable (demoPenalties a) ⟨fun _ _ _ => 1, fun _ _ => 1⟩ :=
    ⟨fun _ _ _ _ _ _ _ => .inr (.inr one_ne_zero), fun _ _ _ _ => .inr (.inr one_ne_zero)⟩
  have hc : 0 < (demoPlan 1).shape.outputs := show 0 < 2 by decide
  have hj : demoTree.neurons < (demoPlan 1).shape.tree.neurons + 1 := Nat.lt_succ_self _
  refine small_penalised_step_lowers (demoPlan_ok 1).shape h0 hr hz ⟨fun id => show (0 : ℝ) ≤ 1 by norm_num, show (0 : ℝ) ≤ 1 by norm_num⟩
    (.inr ⟨0, demoTree.neurons, hc, hj, show (0 : ℝ) < 1 by norm_num, ?_⟩)
  obtain ⟨g, h, hsl⟩ := (demoPlan_ok 1).shape.slopes h0 hr
  obtain ⟨_, k2⟩ := hsl.single (demoPlan_ok 1).shape
  have hk := k2 0 hc demoTree.neurons hj
  rw [(penalised_out hz hc hj hk.differentiableAt).deriv]
  have e : (demoPenalties a).out.slope (decide (demoTree.neurons + 1 = (demoPlan 1).shape.tree.neurons + 1)) 1 = 0 := by
    rw [decide_eq_true (show demoTree.neurons + 1 = (demoPlan 1).shape.tree.neurons + 1 from rfl)]
    simp [Penalty.slope, penaltySlope, demoPenalties]
  rw [e, add_zero, show demoTree.neurons = (demoPlan 1).shape.tree.neurons from rfl, output_bias_slope hr (show 0 < 2 by decide)]
  refine ne_of_gt (div_pos (sum_pos (fun r _ => ?_) ⟨0, mem_range.2 h0⟩) (Nat.cast_pos.2 h0))
  show 0 < Act.Act.sigm.f _ - 0
  rw [sub_zero]
  exact (Act.activation_range _).1.1

theorem tiled_now {P : Plan} {η : Rates} {p : Penalties} (ho : P.Ok) (hp : P.Decaying η p) (s : NetS P.net) (hi : P.Inv s) (R : ℕ)
    (X Y : Mem ℝ) (hu : P.Fits (.train R X Y)) (h0 : 0 < R) (hr : P.shape.Regular P.dz R (matOf R X) (matOf R Y) (P.weights s))
    (hz : P.shape.Penalisable p (P.weights s)) {i : ℕ} {m : MatInfo} (hm : (mats P.shape.tree P.shape.inputs)[i]? = some m)
    {c j : ℕ} (hc : c < m.rows) (hj : j < m.cols) {T C e : ℝ} (hT : (m.tiles : ℝ) = T) (he : η.body m.id = e)
    (hC : deriv (fun t => (p.body m.id).cost (decide (j + 1 = m.cols)) ((P.weights s).body i c j + t)) 0 = C) :
    (P.weights (P.net.step s (.train R X Y)).1).body i c j = (P.weights s).body i c j - e *
      (deriv (fun t => P.shape.reported p R (matOf R X) (matOf R Y) ((P.weights s).bumpBody i c j t)) 0 / T + (1 - 1 / T) * C) := by
  have h := tiled_layers_decay_more ho hp s hi [] (fun _ h => by cases h) R X Y hu h0 hr hz hm hc hj
  subst hT he hC
  exact h

/-- C205. A new network with a tile pack: one step of training moves a weight in the pack farther than the derivative of the reported loss says, by `1/8` of the learning
rate, whatever the data are. -/
theorem tiled_penalty_is_not_the_reported_one (lr : ℝ) (X Y : Mem ℝ) (hu : (demoPen lr 0).Fits (.train 3 X Y)) : ∃ s : NetS (demoPen lr 0).net, (demoPen lr 0).Inv s ∧
    ((demoPen lr 0).weights ((demoPen lr 0).net.step s (.train 3 X Y)).1).body 3 0 0 = ((demoPen lr 0).weights s).body 3 0 0 - lr *
      (deriv (fun t => (demoPen lr 0).shape.reported (demoPenalties 0) 3 (matOf 3 X) (matOf 3 Y) (((demoPen lr 0).weights s).bumpBody 3 0 0 t)) 0 / 2 + 1 / 8) := by
  obtain ⟨s, hi, hw⟩ := demoPen_state lr 0
  have hm : (mats (demoPen lr 0).shape.tree (demoPen lr 0).shape.inputs)[3]? = some ⟨8, 3, 4, 2⟩ := rfl
  have hz : (demoPen lr 0).shape.Penalisable (demoPenalties 0) ((demoPen lr 0).weights s) := ⟨fun _ _ _ _ _ _ _ => .inl rfl, fun _ _ _ _ => .inl rfl⟩
  have e : deriv (fun t => ((demoPenalties 0).body 8).cost (decide (0 + 1 = 4)) (((demoPen lr 0).weights s).body 3 0 0 + t)) 0 = 1 / 4 := by
    have h1 : ((demoPen lr 0).weights s).body 3 0 0 = 1 := hw.1 3 _ hm 0 (by decide) 0 (by decide)
    rw [h1]
    refine (Penalty.cost_slope (p := ⟨0, 1 / 4, true, true⟩) (bias := false) (w := 1) (.inl rfl)).deriv.trans ?_
    simp [Penalty.slope, penaltySlope]
  refine ⟨s, hi, (tiled_now (demoPen_ok lr 0) (demoPen_decaying lr 0) s hi 3 X Y hu (by decide) (demoPlan_regular 1 _ _ _ _) hz hm
    (c := 0) (j := 0) (T := 2) (C := 1 / 4) (e := lr) (by decide) (by decide) Nat.cast_ofNat rfl e).trans ?_⟩
  have key : ∀ w D : ℝ, w - lr * (D / 2 + (1 - 1 / 2) * (1 / 4)) = w - lr * (D / 2 + 1 / 8) := fun w D => by ring
  exact key _ _

end Nntl.Sgd
