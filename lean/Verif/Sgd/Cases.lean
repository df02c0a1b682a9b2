import Verif.Sgd.Props

/-! Which networks the theorems speak about: optimisers, losses, and an example. -/
namespace Nntl.Sgd

open Nntl.Layers Nntl.Pass Nntl.Backprop Nntl.Grad
open Finset

/-! ### Optimisers -/

/-- Settings of gradient works without momentum, individual learning rates, penalties, limits of norms and dropout of learning rates. -/
structure Simple (c : Cfg) (lr : ℝ) : Prop where
  type : c.type = .classicalConstant
  lr : c.lr = lr
  mom : c.useMom = false
  ilr : c.useILR = false
  l1 : c.l1 = 0
  l2 : c.l2 = 0
  norm : c.useMaxNorm = false
  drop : c.bLRDropout = false

/-- C188. Gradient works (`nntl/grad_works/grad_works.h`) of type `ClassicalConstant` with such settings subtract the gradient times the learning rate. -/
theorem gradWorks_plain (o : Opt) (m k : ℕ) (lr : ℝ) (hp : ∀ t, (o.pre t).cfg.useMom = false) (ha : ∀ t, Simple (o.app t).cfg lr ∧ (o.app t).blocked = false) :
    Plain (gradWorks o m k) m k lr where
  pre := fun g w c hc j hj => by
    show matOf m (preF (o.pre g.p).cfg (o.pre g.p).blocked (o.pre g.p).draw { g.s with W := mtxOf m k w }).W.data c j = _
    unfold preF
    rw [hp g.p, Bool.false_and, Bool.and_false, if_neg Bool.false_ne_true]
    show w ((c + m * j) % m) ((c + m * j) / m) = w c j
    rw [Nat.add_mul_mod_self_left, Nat.mod_eq_of_lt hc, Nat.add_mul_div_left _ _ (by omega), Nat.div_eq_of_lt hc, Nat.zero_add]
  apply := fun g w d c hc j hj => by
    obtain ⟨⟨h1, h2, h3, h4, h5, h6, h7, h8⟩, h9⟩ := ha g.t
    show matOf m (applyF (o.app g.t).cfg (o.app g.t).blocked (o.app g.t).draw { g.s with W := mtxOf m k w, G := mtxOf m k d }).W.data c j = _
    generalize (o.app g.t).cfg = cfg at *
    have hlt : c + m * j < m * k := by
      calc c + m * j < m + m * j := by omega
        _ = m * (j + 1) := by ring
        _ ≤ m * k := Nat.mul_le_mul_left _ hj
    have hl : ∀ s : St, lossF cfg s = s := fun s => by unfold lossF addF; rw [if_pos h5, if_pos h6]
    have hn : ∀ s : St, normF cfg s = s := fun s => by unfold normF; rw [if_pos h7]
    have hi : ∀ b (s : St), ilrF cfg b s = s := fun b s => by unfold ilrF; rw [if_pos h4]
    have hm : ∀ n (x : ℕ → ℝ), maskF cfg (o.app g.t).draw n x = x := fun n x => by unfold maskF; rw [h8, if_neg Bool.false_ne_true]
    unfold applyF
    rw [h9, if_neg Bool.false_ne_true, hn, hl, hi]
    unfold updF
    rw [if_pos h3]
    unfold subF optF firstF optCell
    rw [h1]
    simp only [hm, matOf, St.setW, St.setG, each, St.ran, St.n, St.cell, mtxOf]
    rw [if_pos hlt]
    simp only [if_pos hlt, memOf]
    rw [Nat.add_mul_mod_self_left, Nat.mod_eq_of_lt hc, Nat.add_mul_div_left _ _ (by omega), Nat.div_eq_of_lt hc, Nat.zero_add, h2, mul_comm]

/-- C188. Gradient works whose learning is blocked keep the weights, whatever their optimiser is: the learning rate is 0. -/
theorem gradWorks_blocked (o : Opt) (m k : ℕ) (hp : ∀ t, (o.pre t).blocked = true) (ha : ∀ t, (o.app t).blocked = true) : Plain (gradWorks o m k) m k 0 where
  pre := fun g w c hc j hj => by
    show matOf m (preF (o.pre g.p).cfg (o.pre g.p).blocked (o.pre g.p).draw { g.s with W := mtxOf m k w }).W.data c j = _
    unfold preF
    rw [hp g.p, Bool.not_true, Bool.false_and, if_neg Bool.false_ne_true]
    show w ((c + m * j) % m) ((c + m * j) / m) = w c j
    rw [Nat.add_mul_mod_self_left, Nat.mod_eq_of_lt hc, Nat.add_mul_div_left _ _ (by omega), Nat.div_eq_of_lt hc, Nat.zero_add]
  apply := fun g w d c hc j hj => by
    show matOf m (applyF (o.app g.t).cfg (o.app g.t).blocked (o.app g.t).draw { g.s with W := mtxOf m k w, G := mtxOf m k d }).W.data c j = _
    unfold applyF
    rw [ha g.t, if_pos rfl, lossF_eq]
    show w ((c + m * j) % m) ((c + m * j) / m) = _
    rw [Nat.add_mul_mod_self_left, Nat.mod_eq_of_lt hc, Nat.add_mul_div_left _ _ (by omega), Nat.div_eq_of_lt hc, Nat.zero_add]
    simp

/-! ### Losses -/

mutual
theorem smoothAt_of {act : ℕ → ℝ → ℝ} (h : ∀ id z, DifferentiableAt ℝ (act id) z) (l : Layer) (n : ℕ) (W : ℕ → Mat ℝ) (x : ℕ → ℝ) : SmoothAt act l n W x := by
  match l with
  | .leaf id l => exact fun c _ => h id _
  | .vert _ f r => exact ⟨smoothAt_of h f n W x, smoothAtS_of h r _ _ _⟩
  | .horiz _ _ fs => exact smoothAtF_of h fs W x
  | .tile _ k l => exact fun t _ => smoothAt_of h l _ _ _
theorem smoothAtS_of {act : ℕ → ℝ → ℝ} (h : ∀ id z, DifferentiableAt ℝ (act id) z) (r : Stack) (n : ℕ) (W : ℕ → Mat ℝ) (x : ℕ → ℝ) : SmoothAtS act r n W x := by
  match r with
  | .nil => trivial
  | .cons l r => exact ⟨smoothAt_of h l n W x, smoothAtS_of h r _ _ _⟩
theorem smoothAtF_of {act : ℕ → ℝ → ℝ} (h : ∀ id z, DifferentiableAt ℝ (act id) z) (fs : Fields) (W : ℕ → Mat ℝ) (x : ℕ → ℝ) : SmoothAtF act fs W x := by
  match fs with
  | .nil => trivial
  | .cons ofs cnt l r => exact ⟨smoothAt_of h l cnt W _, smoothAtF_of h r _ _⟩
end

/-- C188. With activation functions that have derivatives everywhere and an output layer with an elementwise loss, every batch can be trained on with any weights. -/
theorem regular_elementwise {S : Shape} (o : Act.Out) (hoa : o.Args) (hr : ∀ y z, o.Regular y (o.act.fn z)) (hact : ∀ id z, DifferentiableAt ℝ (S.act id) z)
    (h1 : S.last = fun z c => o.act.f (z c)) (h2 : S.loss = fun a y => ∑ c ∈ range S.outputs, o.ideal (y c) (a c)) (R : ℕ) (X Y : Mat ℝ) (W : Weights) :
    S.Regular (fun a y => o.dLdZ y a) R X Y W := fun r _ => by
  refine ⟨smoothAt_of hact _ _ _ _, ?_⟩
  rw [h1, h2]
  exact elementwise_lossGrad o hoa S.outputs _ _ fun c _ => hr _ _

/-- C188. The same for a softmax layer, if the expected answers of every sample add up to 1. -/
theorem regular_softmax {S : Shape} (hact : ∀ id z, DifferentiableAt ℝ (S.act id) z) (h1 : S.last = fun z c => Num.softmaxOf z S.outputs c)
    (h2 : S.loss = fun a y => -∑ c ∈ range S.outputs, y c * Real.log (a c)) (R : ℕ) (X Y : Mat ℝ) (hY : ∀ r < R, ∑ c ∈ range S.outputs, Y r c = 1) (W : Weights) :
    S.Regular (fun a y => a - y) R X Y W := fun r hr => by
  refine ⟨smoothAt_of hact _ _ _ _, ?_⟩
  rw [h1, h2]
  exact softmax_lossGrad S.outputs _ _ (hY r hr)

/-- C190. The derivative with respect to the bias of an output neuron is the mean over the batch of the derivative of the loss with respect to the neuron: for a softmax or
sigmoid layer with cross entropy, the mean of answers minus expected answers. So the hypothesis of `small_descent_lowers` fails only where all these means are 0. -/
theorem output_bias_slope {S : Shape} {dz : ℝ → ℝ → ℝ} {R : ℕ} {X Y : Mat ℝ} {W : Weights} (hr : S.Regular dz R X Y W) {c : ℕ} (hc : c < S.outputs) :
    S.dOut R X Y W c S.tree.neurons = (∑ r ∈ range R, dz (S.answer W (X r) c) (Y r c)) / R := by
  unfold Shape.dOut Shape.meanLoss
  refine HasDerivAt.deriv ((HasDerivAt.fun_sum fun r hr' => ?_).div_const _)
  have e : ∀ t c', S.raw (W.bumpOut c S.tree.neurons t) (X r) c' = S.raw W (X r) c' + if c' = c then t else 0 := by
    intro t c'
    simp only [Shape.raw, neuron, Weights.bumpOut, bump]
    have : ∑ j ∈ range S.tree.neurons, (if c' = c ∧ j = S.tree.neurons then W.out c' j + t else W.out c' j) * netFn S.act S.tree S.inputs W.body (X r) j =
        ∑ j ∈ range S.tree.neurons, W.out c' j * netFn S.act S.tree S.inputs W.body (X r) j :=
      sum_congr rfl fun j hj => by rw [if_neg (by have := mem_range.1 hj; omega)]
    rw [this]
    by_cases h : c' = c
    · rw [if_pos ⟨h, trivial⟩, if_pos h, add_assoc]
    · rw [if_neg (fun h' => h h'.1), if_neg h, add_zero]
  have := (hr r (mem_range.1 hr')).2 (fun t => S.raw (W.bumpOut c S.tree.neurons t) (X r)) (fun c' => if c' = c then 1 else 0)
    (fun c' => by rw [e]; simp) (fun c' _ => by
      simp only [e]
      by_cases h : c' = c
      · simp only [if_pos h]
        exact (hasDerivAt_id (0 : ℝ)).const_add _
      · simp only [if_neg h]
        exact (hasDerivAt_const (0 : ℝ) (0 : ℝ)).const_add _)
  refine this.congr_deriv ?_
  rw [sum_eq_single c]
  · rw [if_pos rfl, mul_one]; rfl
  · intro b _ hb; rw [if_neg hb, mul_zero]
  · intro h; exact absurd (mem_range.2 hc) h

/-! ### The hypotheses are met -/

/-- Settings of all layers of the example. -/
noncomputable def demoCfg (lr : ℝ) : Cfg :=
  { type := .classicalConstant, lr := lr, lrDrop := 1, mom := 0, beta1 := 0, beta2 := 0, eps := 0, maxNorm2 := 0, useMom := false, nesterov := false,
    lrDropNesterov := false, useMaxNorm := false, normInclBias := false, useILR := false, ilrToMom := false, decr := 0, incr := 0, capLow := 0, capHigh := 0,
    l1 := 0, l1IgnBias := true, l2 := 0, l2IgnBias := true }

noncomputable def demoOpt (lr : ℝ) : Opt := ⟨demoCfg lr, fun _ => ⟨demoCfg lr, false, fun _ => 0⟩, fun _ => ⟨demoCfg lr, false, fun _ => 0⟩⟩

noncomputable def demoBlocked : Opt := ⟨demoCfg 1, fun _ => ⟨demoCfg 1, true, fun _ => 0⟩, fun _ => ⟨demoCfg 1, true, fun _ => 0⟩⟩

/-- The tree of `Pass.demoTree` (a vertical pack inside of a horizontal one with overlapping fields, below a tile pack) with sigmoids and one layer of softsigns, below a
sigmoid layer with cross entropy. Learning of the layer 6 is blocked. -/
noncomputable def demoPlan (lr : ℝ) : Plan where
  tree := demoTree
  bs := ⟨8, 4⟩
  inputs := 5
  act := fun id => if id = 6 then .softsign 1000000 1000000 else .sigm
  gw := fun id m k => gradWorks (if id = 6 then demoBlocked else demoOpt lr) m k
  upd := fun _ => true
  outputs := 2
  last := fun z c => Act.Out.sigmXent.act.f (z c)
  dz := fun a y => Act.Out.sigmXent.dLdZ y a
  go := gradWorks (demoOpt lr) 2 (demoTree.neurons + 1)
  uo := true
  loss := fun a y => ∑ c ∈ range 2, Act.Out.sigmXent.ideal (y c) (a c)

noncomputable def demoRates (lr : ℝ) : Rates := ⟨fun id => if id = 6 then 0 else lr, lr⟩

theorem demoOpt_plain (lr : ℝ) (m k : ℕ) : Plain (gradWorks (demoOpt lr) m k) m k lr :=
  gradWorks_plain _ m k lr (fun _ => rfl) fun _ => ⟨⟨rfl, rfl, rfl, rfl, rfl, rfl, rfl, by simp [demoOpt, demoCfg, Cfg.bLRDropout]⟩, rfl⟩

theorem demoPlan_plain (lr : ℝ) : (demoPlan lr).Plain (demoRates lr) where
  body := ⟨fun id => if id = 6 then 0 else lr, fun id m k => by
    by_cases h : id = 6
    · show Plain (gradWorks (if id = 6 then _ else _) m k) m k (if id = 6 then _ else _)
      rw [if_pos h, if_pos h]
      exact gradWorks_blocked _ m k (fun _ => rfl) fun _ => rfl
    · show Plain (gradWorks (if id = 6 then _ else _) m k) m k (if id = 6 then _ else _)
      rw [if_neg h, if_neg h]
      exact demoOpt_plain lr m k, fun _ => rfl⟩
  out := ⟨lr, demoOpt_plain lr _ _, rfl⟩

theorem fcLayers_leaf (gw : ℕ → ℕ → ℕ → GradWorks ℝ) (act : ℕ → Act.Act) (m : ℕ) : LeafOk (fcLayers gw act fun _ => true) (fcLeaf m) where
  announces := fun _ _ => Nat.le_max_left _ _
  out := fun _ => rfl
  ok := fun _ _ _ _ => ⟨rfl, rfl, rfl, Nat.le_refl _, fc_lawful realArith_ok _ _ _ _ _ _ _ _⟩

theorem demoPlan_ok (lr : ℝ) : (demoPlan lr).Ok := by
  obtain ⟨h1, h2, _, h4, _⟩ := demoTree_ok
  refine ⟨h1, show 4 ≤ 8 by decide, h2, ?_, h4, fun id => (demo_smooth id).1, fun z z' e i hi => congrArg Act.Out.sigmXent.act.f (e i hi), fun a a' y e => ?_⟩
  · show demoTree.AllLeaves _
    have h := fcLayers_leaf (demoPlan lr).gw (demoPlan lr).act
    exact ⟨⟨⟨h 7, h 4, trivial⟩, h 2, trivial⟩, h 3, trivial⟩
  · show ∑ c ∈ range 2, Act.Out.sigmXent.ideal (y c) (a c) = ∑ c ∈ range 2, Act.Out.sigmXent.ideal (y c) (a' c)
    exact sum_congr rfl fun c hc => by rw [e c (mem_range.1 hc)]

theorem demoPlan_regular (lr : ℝ) (R : ℕ) (X Y : Mat ℝ) (W : Weights) : (demoPlan lr).shape.Regular (demoPlan lr).dz R X Y W := by
  have ha : Act.Out.sigmXent.Args := by simp [Act.Out.Args, Act.Out.act, Act.Act.Args]
  exact regular_elementwise .sigmXent ha (fun y z => Act.act_regular _ ha z (.inl rfl) y) (fun id z => (demo_smooth id).2 z) rfl rfl R X Y W

/-- Gradient works before their first use. -/
noncomputable def demoGw : GwS :=
  ⟨0, 0, { W := mtxOf 0 0 fun _ _ => 0, G := mtxOf 0 0 fun _ _ => 0, V := fun _ => 0, A := fun _ => 0, B := fun _ => 0, gain := fun _ => 1, prev := fun _ => 0,
           hasV := false, hasA := false, hasB := false, hasGain := false, hasPrev := false, b1t := 1, b2t := 1, gamma := 0, firstRun := true }⟩

/-- A state of the network: all weights are 0. -/
theorem demoPlan_state (lr : ℝ) : ∃ s : NetS (demoPlan lr).net, (demoPlan lr).Inv s := by
  obtain ⟨s, hs⟩ := sem_state (b := true) (I := fcLayers (demoPlan lr).gw (demoPlan lr).act (demoPlan lr).upd)
    (fun _ _ _ _ _ => ⟨(⟨fun _ _ => 0, demoGw, true⟩ : FcS (gradWorks (if _ = 6 then demoBlocked else demoOpt lr) _ _)), rfl⟩) demoTree ⟨8, 4⟩ 5 4
  exact ⟨⟨true, 4, s, ⟨fun _ => 1, 4⟩, (⟨fun _ _ => 0, demoGw, true⟩ : FcS (gradWorks (demoOpt lr) 2 _)), fun _ => 0, fun _ => 0, fun _ => 0, fun _ => 0⟩, hs, rfl, rfl,
    fun _ _ => rfl⟩

/-- C187–C189 for the example: any history of evaluations and training steps. -/
example (lr : ℝ) (us : List (Use ℝ)) (hus : ∀ u ∈ us, (demoPlan lr).Fits u) (s0 : NetS (demoPlan lr).net) (hi : (demoPlan lr).Inv s0) :
    (demoPlan lr).shape.Path (demoRates lr) (batches us) ((demoPlan lr).weights s0) ((demoPlan lr).weights ((demoPlan lr).net.run s0 us)) :=
  training_is_gradient_descent (demoPlan_ok lr) (demoPlan_plain lr) us s0 hi hus fun _ _ _ _ _ _ => demoPlan_regular lr _ _ _ _

/-- Uses that fit: evaluation of 7 rows, training on 3 rows, evaluation of 1 row, training on 4 rows. -/
example (lr : ℝ) : ∀ u ∈ [Use.eval 7 (fun _ => 1), .train 3 (fun _ => 1) fun _ => 0, .eval 1 fun _ => 1, .train 4 (fun _ => 1) fun _ => 1], (demoPlan lr).Fits u := by
  intro u hu
  simp only [List.mem_cons, List.not_mem_nil, or_false] at hu
  rcases hu with rfl | rfl | rfl | rfl
  · exact ⟨by decide, show 7 ≤ 8 by decide, fun _ _ => rfl⟩
  · exact ⟨by decide, show 3 ≤ 4 by decide, fun _ _ => rfl⟩
  · exact ⟨by decide, show 1 ≤ 8 by decide, fun _ _ => rfl⟩
  · exact ⟨by decide, show 4 ≤ 4 by decide, fun _ _ => rfl⟩

/-- The matrices of the example: the one of the tile pack is used twice. -/
example : mats demoTree 5 = [⟨4, 7, 4, 1⟩, ⟨5, 4, 8, 1⟩, ⟨6, 2, 4, 1⟩, ⟨8, 3, 4, 2⟩] := rfl

/-- C190 for the example: if the expected answers are 0, the loss can be lowered from any weights. -/
example (W : Weights) (R : ℕ) (h0 : 0 < R) (X : Mat ℝ) : ∃ ε0 > 0, ∀ ε, 0 < ε → ε < ε0 → ∀ W', (demoPlan 1).shape.Descent ((demoRates 1).times ε) R X (fun _ _ => 0) W W' →
    (demoPlan 1).shape.meanLoss R X (fun _ _ => 0) W' < (demoPlan 1).shape.meanLoss R X (fun _ _ => 0) W := by
  have hr := demoPlan_regular 1 R X (fun _ _ => 0) W
  refine small_descent_lowers (demoPlan_ok 1).shape h0 hr ⟨fun id => ?_, show (0 : ℝ) ≤ 1 by norm_num⟩ 
    (.inr ⟨0, demoTree.neurons, show 0 < 2 by decide, Nat.lt_succ_self _, show (0 : ℝ) < 1 by norm_num, ?_⟩)
  · show (0 : ℝ) ≤ if id = 6 then 0 else 1
    split <;> norm_num
  · rw [show demoTree.neurons = (demoPlan 1).shape.tree.neurons from rfl, output_bias_slope hr (show 0 < 2 by decide)]
    refine ne_of_gt (div_pos (sum_pos (fun r _ => ?_) ⟨0, mem_range.2 h0⟩) (Nat.cast_pos.2 h0))
    show 0 < Act.Act.sigm.f _ - 0
    rw [sub_zero]
    exact (Act.activation_range _).1.1

end Nntl.Sgd
