import Verif.Backprop.Lex
import Verif.Backprop.Props

/-! C99: training with dropout and penalties on activations. Property theorems. -/
namespace Nntl.Backprop

open Nntl.Pass Nntl.Layers Nntl.Matrix
open Finset

/-! ### The penalties are those of the loss addendums -/

theorem sum_column_major (R n : ℕ) (f : ℕ → ℝ) : ∑ i ∈ range (R * n), f i = ∑ r ∈ range R, ∑ c ∈ range n, f (r + R * c) := by
  rw [mul_comm, sum_range_mul, sum_comm]
  exact sum_congr rfl fun r _ => sum_congr rfl fun c _ => by rw [mul_comm c, add_comm]

/-- C99. The value of the L2 addendum, `scale * .5 * ewSumSquares` (`L2.h` 48–51). -/
theorem l2_value (b : Bool) (scale : ℝ) (E : Grad.Env) (hE : E.Ok) (V : Mtx ℝ) :
    scale * (1 / 2) * Grad.ewSumSquares E V = (l2Pen b scale).val V.rows V.cols (matOf V.rows V.data) := by
  rw [Grad.ewSumSquares_eq hE, Mtx.numel, sum_column_major]
  rfl

/-- C99. The value of the L1 addendum, `scale * vSumAbs` (`L1.h` 48–51). -/
theorem l1_value (b : Bool) (scale : ℝ) (E : Grad.Env) (hE : E.Ok) (V : Mtx ℝ) :
    scale * Grad.vSumAbs E V = (l1Pen b scale).val V.rows V.cols (matOf V.rows V.data) := by
  rw [Grad.vSumAbs_eq hE, Mtx.numel, sum_column_major]
  rfl

/-- C99. The value of the DeCov addendum. -/
theorem deCov_value (b : Bool) (a : DeCov.Addendum) (H : DeCov.How) (hH : H.Ok) (jd jc : ℕ → ℝ) (V : Mtx ℝ) (x : ℝ) (hV : DeCov.Batch V)
    (h : a.lossAdd H jd jc V x) : x = (deCovPen b a.scale).val V.rows V.cols (Gemm.val V) := DeCov.addendum_loss a H hH jd jc V x hV h

/-- C99. What `evAddScaled_ip` makes of the gradient (`_appendGradient`, `_i_loss_addendum.h` 157–160) with the stored or given activations. -/
theorem l2_append (b : Bool) (scale : ℝ) (E : Grad.Env) (hE : E.Ok) (R n : ℕ) (hn : 0 < R * n) (V D D' : Mem ℝ)
    (h : Grad.evAddScaledIp E (R * n) scale V D D') (r c : ℕ) (hr : r < R) (hc : c < n) :
    matOf R D' r c = (l2Pen b scale).add.app (matOf R D r c) ((l2Pen b scale).add.term R n (matOf R V) r c) := by
  rw [(Grad.evAddScaledIp_iff hE hn _ _ _ _).1 h]
  simp only [matOf, Grad.each, if_pos (idx_lt hr hc)]
  rfl

/-- C99. The same for `evAddScaledSign_ip` (`L1.h` 79–86), and for `evAddScaled_ip` with the signs that were stored in the forward pass. -/
theorem l1_append (scale : ℝ) (E : Grad.Env) (hE : E.Ok) (R n : ℕ) (hn : 0 < R * n) (V S D D' : Mem ℝ) (r c : ℕ) (hr : r < R) (hc : c < n) :
    (Grad.evAddScaledSignIp E (R * n) scale V D D' →
      matOf R D' r c = (l1Pen false scale).add.app (matOf R D r c) ((l1Pen false scale).add.term R n (matOf R V) r c)) ∧
    ((∀ i < R * n, S i = Grad.sgn (V i)) → Grad.evAddScaledIp E (R * n) scale S D D' →
      matOf R D' r c = (l1Pen true scale).add.app (matOf R D r c) ((l1Pen true scale).add.term R n (matOf R V) r c)) := by
  refine ⟨fun h => ?_, fun hS h => ?_⟩
  · rw [(Grad.evAddScaledSignIp_iff hE hn _ _ _ _).1 h]
    simp only [matOf, Grad.each, if_pos (idx_lt hr hc)]
    rfl
  · rw [(Grad.evAddScaledIp_iff hE hn _ _ _ _).1 h]
    simp only [matOf, Grad.each, if_pos (idx_lt hr hc), hS _ (idx_lt hr hc)]
    rfl

/-- C99. The same for DeCov without the restriction to gradients that are not zero. -/
theorem deCov_append (a : DeCov.Addendum) (hz : a.nz = false) (H : DeCov.How) (hH : H.Ok) (jd jc jm : ℕ → ℝ) (V G G' : Mtx ℝ) (hV : DeCov.Batch V)
    (h : a.dLossAdd H jd jc jm V G G') : Cols.Becomes G G' fun r c =>
      (deCovPen false a.scale).add.app (Cols.el G r c) ((deCovPen false a.scale).add.term V.rows V.cols (Gemm.val V) r c) := by
  have := DeCov.addendum_gradient a H hH jd jc jm V G G' hV h
  simp only [hz, Bool.false_eq_true, false_and, if_false] at this
  exact this

/-! ### Whole networks -/

/-- Penalties with a derivative everywhere. -/
def Ext.Everywhere (e : Ext) : Prop := ∀ p ∈ e.pens, ∀ R n A, p.ok R n A

theorem ex_smooth {gw : ℕ → ℕ → ℕ → GradWorks ℝ} {act : ℕ → Act.Act} {upd : ℕ → Bool} {e : ℕ → Ext} (h : ∀ id, Everywhere (act id))
    (he : ∀ id, (e id).Everywhere) (l : Layer) (inc : BS) (n R : ℕ) (s : (sem (exLayers gw act upd e) l inc n).obj.S) (X : Mat ℝ) :
    (semDiff (exDiff gw act upd e) l inc n).Smooth R s X := by
  refine semDiff_smooth (I := exLayers gw act upd e) (DI := exDiff gw act upd e) (fun id l inc n R s X => ⟨fun r _ c _ => ?_, fun p hp => he id p hp _ _ _⟩) l inc n R s X
  have := Act.df_correct (act id) (h id).1 (preAct realArith n s.1.w X r c) fun _ => (h id).2 _
  simp only [Act.f_eq]
  rw [show (act id).f = (act id).fn from funext (Act.f_eq _)]
  exact this

/-- A fully connected layer with an extension fits where the layer fits. -/
theorem exLayers_ok {gw : ℕ → ℕ → ℕ → GradWorks ℝ} {act : ℕ → Act.Act} {e : ℕ → Ext} (he : ∀ id, (e id).Ok) (m : ℕ) :
    LeafOk (exLayers gw act (fun _ => true) e) (fcLeaf m) where
  announces := fun _ _ => Nat.le_max_left _ _
  out := fun _ => rfl
  ok := fun id _ _ _ => ⟨rfl, rfl, rfl, Nat.le_refl _, lex_lawful _ (fc_lawful realArith_ok _ _ _ _ _ _ _ _) (Nat.le_max_left _ _) (Nat.zero_le _)
    (by
      intro a ha
      obtain ⟨p, hp, rfl⟩ := List.mem_map.1 ha
      exact ((he id).pens p hp).local_)⟩

/-- C99. A network of fully connected layers in vertical, horizontal and tile packs, each with its own dropout or alpha dropout and its own list of
penalties on activations, after any history of uses. In a training step let the random numbers be those drawn in its forward pass. Then the
optimisers are given the derivatives of the mean loss plus the penalties (of the activations before dropout) divided by the batch size. -/
theorem extended_network_gradient (gw : ℕ → ℕ → ℕ → GradWorks ℝ) (act : ℕ → Act.Act) (upd : ℕ → Bool) (e : ℕ → Ext) (he : ∀ id, (e id).Ok) (l : Layer) (inc : BS)
    (n : ℕ) (d : Lid) (hd : layerInit true l inc n = some d) (hT : inc.maxTrainBS ≤ inc.maxBS) (hp : l.AllPacks FieldsInside Divisible n)
    (hl : l.AllLeaves (LeafOk (exLayers gw act upd e))) (hx : NoExtra l) (go : GradWorks ℝ) (uo : Bool) (o : Act.Out) (hoa : o.Args)
    (hr : ∀ y z, o.Regular y (o.act.fn z)) (m : ℕ) :
    let L := (sem (exLayers gw act upd e) l inc n).law
    let D := semDiff (exDiff gw act upd e) l inc n
    let w : Net ℝ := ⟨(sem (exLayers gw act upd e) l inc n).obj, outLayer realArith go (fun z c => o.act.f (z c)) (fun a y => o.dLdZ y a) uo l.neurons m⟩
    ∀ (s0 : NetS w), NetInv L (outLaw realArith go (fun z c => o.act.f (z c)) (fun a y => o.dLdZ y a) uo l.neurons m) s0 →
    ∀ us : List (Use ℝ), (∀ u ∈ us, u.Ok inc.maxBS inc.maxTrainBS n) → ∀ (R : ℕ) (X Y : Mem ℝ), (Use.train R X Y).Ok inc.maxBS inc.maxTrainBS n →
    let s := w.run s0 us
    let s1 := (w.fprop (w.to true R s) X).1
    let s2 := (w.step s (.train R X Y)).1
    let net := fun (V : ℕ → Mat ℝ) (W : Mat ℝ) (t : ℝ) (r c : ℕ) =>
      o.act.f (preAct realArith l.neurons (fun c j => s1.out.w c j + t * W c j) (L.fwd R (D.line s1.body V t) (matOf R X)) r c)
    D.Smooth R s1.body (matOf R X) →
    (∀ V W, Shows R m s1.ao (net V W 0)) ∧
    ∃ (g : ℕ → Mat ℝ) (h : Mat ℝ),
      (∀ V W, HasDerivAt (fun t => (∑ r ∈ range R, ∑ c ∈ range m, o.ideal (matOf R Y r c) (net V W t r c)) / R +
          D.pen R (D.line s1.body V t) (matOf R X) / R)
        (pairing D.ws g V + ∑ c ∈ range m, ∑ j ∈ range (l.neurons + 1), h c j * W c j) 0) ∧
      D.Step s1.body g s2.body ∧ Updated uo m (l.neurons + 1) s1.out h s2.out := by
  intro L D w s0 hi0 us hus R X Y hu s s1 s2 net hs
  obtain ⟨_, h2, h3, _, _, h6⟩ := sem_ok l inc n d hd hT hp hl hx
  have hD := (semDiff_ok l inc n hp (allLeaves_of (exDiff_ok (gw := gw) (act := act) (upd := upd) he) l) hx).1
  exact training_step_gradient (D := D) h6.trains hD.weak (fun z z' e i hi => by rw [e i hi]) h3.symm hT s0 hi0 us (by rw [h2]; exact hus) R X Y
    (by rw [h2]; exact hu) (fun a y => ∑ c ∈ range m, o.ideal (y c) (a c)) hs
    fun r _ => elementwise_lossGrad o hoa m _ _ fun c _ => hr _ _

/-- C99. In inference mode a layer with dropout and penalties calculates what the layer alone does, and its dropout state stays as it is. -/
theorem inference_without_dropout {α : Type} (x : LexCfg α) {o : Obj α} (R : ℕ) (s : o.S × LexS α) (h : s.2.training = false) (A T O : Mem α) :
    (lex x o).fprop R s A T O = ⟨((o.fprop R s.1 A T O).s, s.2), (o.fprop R s.1 A T O).A, (o.fprop R s.1 A T O).T, (o.fprop R s.1 A T O).O⟩ := by
  cases hd : x.drop <;> simp [lex, h, hd]

/-- C99. The gradients belong to penalties divided by the batch size, as in the objective of the gradient check (`nntl/nnet.h` 1131–1153, where neither
is divided), but the loss that is reported is the mean loss with undivided penalties (`nntl/nnet.h` 276–301): its rate of change differs by
`1 - 1/R` of that of the penalties. -/
theorem reported_objective_partial {R : ℕ} {mean pen : ℝ → ℝ} {p pen' : ℝ} (h : HasDerivAt (fun t => mean t + pen t / R) p 0)
    (hp : HasDerivAt pen pen' 0) : HasDerivAt (fun t => mean t + pen t) (p + (1 - 1 / R) * pen') 0 := by
  refine ((h.add (hp.const_mul (1 - 1 / (R : ℝ)))).congr_deriv rfl).congr_of_eventuallyEq (Filter.Eventually.of_forall fun t => ?_)
  simp only [Pi.add_apply]
  ring

/-- One neuron without dropout, with an L2 penalty of scale 1 on its activation. -/
noncomputable def plainL2 : Ext := ⟨none, fun _ _ => 0, [l2Pen false 1]⟩

theorem plainL2_ok : plainL2.Ok where
  prob := by simp [plainL2]
  var := by simp [plainL2]
  pens := by simpa [plainL2] using l2_correct false 1

noncomputable def l2Net : Net ℝ :=
  ⟨(sem (exLayers (fun _ _ _ => descent) (fun _ => .identity) (fun _ => true) fun _ => plainL2) (.leaf 1 (fcLeaf 1)) ⟨2, 2⟩ 1).obj,
    outLayer realArith descent (fun z c => Act.Out.sigmXent.act.f (z c)) (fun a y => Act.Out.sigmXent.dLdZ y a) true 1 1⟩

noncomputable def l2Start : NetS l2Net :=
  ⟨true, 2, (((⟨fun _ _ => 1, (), true⟩ : FcS descent), (⟨true, fun _ => 0, fun _ => 0, 0, fun _ _ _ => 0⟩ : LexS ℝ)) : FcS descent × LexS ℝ),
    ⟨fun _ => 1, 2⟩, (⟨fun _ _ => 0, (), true⟩ : FcS descent), fun _ => 0, fun _ => 0, fun _ => 0, fun _ => 0⟩

/-- The derivative of what is reported is not what the optimisers are given: one neuron with L2 penalty below an output neuron, two samples. -/
theorem reported_penalty_gradient_false :
    let D := semDiff (exDiff (fun _ _ _ => descent) (fun _ => .identity) (fun _ => true) fun _ => plainL2) (.leaf 1 (fcLeaf 1)) ⟨2, 2⟩ 1
    let L := (sem (exLayers (fun _ _ _ => descent) (fun _ => .identity) (fun _ => true) fun _ => plainL2) (.leaf 1 (fcLeaf 1)) ⟨2, 2⟩ 1).law
    let X : Mem ℝ := fun _ => 1
    let Y : Mem ℝ := fun _ => 0
    let s1 := (l2Net.fprop (l2Net.to true 2 l2Start) X).1
    let s2 := (l2Net.step l2Start (.train 2 X Y)).1
    let net := fun (V : ℕ → Mat ℝ) (W : Mat ℝ) (t : ℝ) (r c : ℕ) =>
      Act.Out.sigmXent.act.f (preAct realArith 1 (fun c j => s1.out.w c j + t * W c j) (L.fwd 2 (D.line s1.body V t) (matOf 2 X)) r c)
    ¬ ∃ (g : ℕ → Mat ℝ) (h : Mat ℝ),
      (∀ V W, HasDerivAt (fun t => (∑ r ∈ range 2, ∑ c ∈ range 1, Act.Out.sigmXent.ideal (matOf 2 Y r c) (net V W t r c)) / 2 +
          D.pen 2 (D.line s1.body V t) (matOf 2 X))
        (pairing D.ws g V + ∑ c ∈ range 1, ∑ j ∈ range (1 + 1), h c j * W c j) 0) ∧
      D.Step s1.body g s2.body ∧ Updated true 1 (1 + 1) s1.out h s2.out := by
  intro D L X Y s1 s2 net
  rintro ⟨g, h, hg, hst, -⟩
  have ha : Act.Out.sigmXent.Args := by simp [Act.Out.Args, Act.Out.act, Act.Act.Args]
  have hid : ∀ _ : ℕ, Everywhere .identity := fun _ =>
    ⟨by simp [Act.Act.Args], Act.activation_smooth_zero _ (by simp [Act.Act.Args]) (.inr (.inl rfl))⟩
  obtain ⟨-, g0, h0, hg0, hst0, -⟩ := extended_network_gradient (fun _ _ _ => descent) (fun _ => .identity) (fun _ => true) (fun _ => plainL2)
    (fun _ => plainL2_ok) (.leaf 1 (fcLeaf 1)) ⟨2, 2⟩ 1 ⟨0, 0, 2, ⟨2, 2⟩⟩ (by decide) (by decide) trivial
    (exLayers_ok (fun _ => plainL2_ok) 1) trivial descent true .sigmXent ha
    (fun y z => Act.act_regular _ ha z (.inl rfl) y) 1 l2Start ⟨⟨rfl, rfl⟩, rfl, rfl, fun _ _ => rfl⟩ [] (by simp) 2 X Y
    ⟨by decide, by decide, fun _ _ => rfl⟩ (ex_smooth hid (fun _ => by simp [Ext.Everywhere, plainL2, l2Pen]) _ _ _ _ _ _)
  replace hst0 : D.Step s1.body g0 s2.body := hst0
  replace hg0 : ∀ V W, HasDerivAt (fun t => (∑ r ∈ range 2, ∑ c ∈ range 1, Act.Out.sigmXent.ideal (matOf 2 Y r c) (net V W t r c)) / 2 +
          D.pen 2 (D.line s1.body V t) (matOf 2 X) / 2)
        (pairing D.ws g0 V + ∑ c ∈ range 1, ∑ j ∈ range (1 + 1), h0 c j * W c j) 0 := hg0
  have e : ∀ V, pairing D.ws g V = pairing D.ws g0 V := by
    intro V
    obtain ⟨a, ha, ea⟩ := hst.1
    obtain ⟨b, hb, eb⟩ := hst0.1
    have hab : ∀ c j, a c j = b c j := fun c j => by
      have : (1 : ℝ) - a c j / 10 = 1 - b c j / 10 := congrFun (congrFun (congrArg FcS.w (ea.symm.trans eb)) c) j
      linarith
    have : inner 1 2 (g 0) (V 0) = inner 1 2 (g0 0) (V 0) :=
      inner_congr fun r hr c hc => by rw [← ha r hr c hc, ← hb r hr c hc, hab]
    show ((1 : ℕ) : ℝ) * inner 1 2 (g 0) (V 0) + 0 = ((1 : ℕ) : ℝ) * inner 1 2 (g0 0) (V 0) + 0
    rw [this]
  have hpen : ∀ t : ℝ, D.pen 2 (D.line s1.body (fun _ => unitAt 0 0) t) (matOf 2 X) = (2 + t) ^ 2 := by
    intro t
    show 0 + (List.map (fun p : Pen => p.val 2 1 (colsFrom 0 fun r c => preAct realArith 1 (fun c j => 1 + t * unitAt 0 0 c j) (matOf 2 X) r c))
      [l2Pen false 1]).sum = _
    simp [l2Pen, preAct, realArith, sum_range_succ, colsFrom, matOf, X, unitAt, withOnes]
    ring
  have d1 := (hg (fun _ => unitAt 0 0) fun _ _ => 0).sub (hg0 (fun _ => unitAt 0 0) fun _ _ => 0)
  simp only [mul_zero, sum_const_zero, add_zero, e, sub_self] at d1
  have d2 : HasDerivAt (fun t : ℝ => (2 + t) ^ 2 / 2) 2 0 := by
    have := (((hasDerivAt_id (0 : ℝ)).const_add 2).pow 2).div_const 2
    refine this.congr_deriv ?_
    norm_num
  have d3 : HasDerivAt (fun t : ℝ => (2 + t) ^ 2 / 2) 0 0 := by
    refine d1.congr_of_eventuallyEq (Filter.Eventually.of_forall fun t => ?_)
    simp only [Pi.sub_apply, hpen]
    ring
  exact absurd (d2.unique d3) (by norm_num)

/-! ### The hypotheses are met -/

/-- Dropout and L2 for layer 4, alpha dropout for layer 5, DeCov stored in the forward pass and L2 for layer 6, nothing for the others. -/
noncomputable def demoExt (id : ℕ) : Ext :=
  if id = 4 then ⟨some (.classical, 1 / 2), fun k p => ((k + p) % 2 : ℕ), [l2Pen true (1 / 10)]⟩
  else if id = 5 then ⟨some (.alpha (-17 / 10) 0 1, 9 / 10), fun _ _ => 1 / 3, []⟩
  else if id = 6 then ⟨none, fun _ _ => 0, [deCovPen true 1, l2Pen false (1 / 2)]⟩
  else ⟨none, fun _ _ => 0, []⟩

theorem demoExt_ok (id : ℕ) : (demoExt id).Ok ∧ (demoExt id).Everywhere := by
  unfold demoExt
  split
  · refine ⟨⟨fun k p h => ?_, fun al mean var p h => ?_, by simp [l2_correct]⟩, by simp [Ext.Everywhere, l2Pen]⟩
    · simp at h; rw [← h.2]; norm_num
    · simp at h
  split
  · refine ⟨⟨fun k p h => ?_, fun al mean var p h => ?_, by simp⟩, by simp [Ext.Everywhere]⟩
    · simp at h; rw [← h.2]; norm_num
    · simp at h; rw [← h.1.2.2]; norm_num
  split
  · exact ⟨⟨by simp, by simp, by simp [l2_correct, deCov_correct]⟩, by simp [Ext.Everywhere, l2Pen, deCovPen]⟩
  · exact ⟨⟨by simp, by simp, by simp⟩, by simp [Ext.Everywhere]⟩

noncomputable def demoExtLayers : ℕ → Leaf → BS → ℕ → Sem ℝ :=
  exLayers (fun _ _ _ => descent) (fun id => if id = 6 then .softsign 1000000 1000000 else .sigm) (fun _ => true) demoExt

/-- All hypotheses of `extended_network_gradient` hold for the tree of `Pass.demoTree` with these extensions; it is smooth everywhere by `ex_smooth`. -/
example : (∃ d, layerInit true demoTree ⟨8, 4⟩ 5 = some d) ∧ demoTree.AllPacks FieldsInside Divisible 5 ∧ demoTree.AllLeaves (LeafOk demoExtLayers) ∧
    NoExtra demoTree ∧ (∀ id, (demoExt id).Ok) ∧ (∀ R s X, (semDiff (I := demoExtLayers) (exDiff _ _ _ _) demoTree ⟨8, 4⟩ 5).Smooth R s X) ∧
    ∃ s : NetS (⟨(sem demoExtLayers demoTree ⟨8, 4⟩ 5).obj, outLayer realArith descent (fun z c => Act.Out.sigmXent.act.f (z c))
        (fun a y => Act.Out.sigmXent.dLdZ y a) true demoTree.neurons 1⟩ : Net ℝ),
      NetInv (sem demoExtLayers demoTree ⟨8, 4⟩ 5).law (outLaw realArith descent (fun z c => Act.Out.sigmXent.act.f (z c))
        (fun a y => Act.Out.sigmXent.dLdZ y a) true demoTree.neurons 1) s := by
  obtain ⟨h1, h2, _, h4, _⟩ := demoTree_ok
  have hl : ∀ m, LeafOk demoExtLayers (fcLeaf m) := exLayers_ok fun id => (demoExt_ok id).1
  refine ⟨h1, h2, ?_, h4, fun id => (demoExt_ok id).1, fun R s X => ex_smooth demo_smooth (fun id => (demoExt_ok id).2) _ _ _ _ _ _, ?_⟩
  · simp only [demoTree, Layer.AllLeaves, Stack.AllLeaves, Fields.AllLeaves, hl, and_self]
  · obtain ⟨s, hs⟩ := sem_state (b := true) (I := demoExtLayers) (fun _ _ _ _ _ =>
      ⟨((⟨fun _ _ => 0, (), true⟩, ⟨true, fun _ => 0, fun _ => 0, 0, fun _ _ _ => 0⟩) : FcS descent × LexS ℝ), rfl, rfl⟩) demoTree ⟨8, 4⟩ 5 4
    exact ⟨⟨true, 4, s, ⟨fun _ => 1, 4⟩, ⟨fun _ _ => 0, (), true⟩, fun _ => 0, fun _ => 0, fun _ => 0, fun _ => 0⟩, hs, rfl, rfl, fun _ _ => rfl⟩

end Nntl.Backprop
