import Verif.Backprop.Net
import Verif.Pass.Props
import Verif.Pass.Demo
import Mathlib.Tactic.NormNum

/-! C85: what backpropagation calculates is the derivative of the loss. Property theorems. -/
namespace Nntl.Backprop

open Nntl.Pass Nntl.Layers
open Finset

/-- A fully connected layer for every elementary layer of a tree: its optimiser, its activation function and whether it is trained may depend on
the identifier of the layer. `nntl/layer/fully_connected.h`. -/
noncomputable def actLayers (gw : ℕ → GradWorks ℝ) (act : ℕ → Act.Act) (upd : ℕ → Bool) : ℕ → Leaf → BS → ℕ → Sem ℝ := fun id l inc n =>
  ⟨fc realArith (gw id) (act id).f (act id).df (upd id) inc.maxTrainBS n l.neurons,
    fcLaw realArith (gw id) (act id).f (act id).df (upd id) inc.maxTrainBS n l.neurons⟩

noncomputable def actDiff (gw : ℕ → GradWorks ℝ) (act : ℕ → Act.Act) (upd : ℕ → Bool) :
    ∀ id l inc n, Diff (actLayers gw act upd id l inc n).law := fun id l inc n =>
  fcDiff (gw id) (act id).f (act id).df (upd id) inc.maxTrainBS n l.neurons

theorem act_pen {gw : ℕ → GradWorks ℝ} {act : ℕ → Act.Act} {upd : ℕ → Bool} (l : Layer) (inc : BS) (n R : ℕ)
    (s : (sem (actLayers gw act upd) l inc n).obj.S) (X : Mat ℝ) : (semDiff (actDiff gw act upd) l inc n).pen R s X = 0 :=
  semDiff_pen (fun _ _ _ _ _ _ _ => rfl) l inc n R s X

theorem actDiff_ok (gw : ℕ → GradWorks ℝ) (act : ℕ → Act.Act) (upd : ℕ → Bool) (l : Leaf) : LeafDiff (actDiff gw act upd) l where
  sizes := fun _ _ _ => ⟨rfl, rfl⟩
  diff := fun _ _ _ => fc_isDiff _ _ _ _ _ _ _

/-- C85. In a tree of fully connected layers in vertical, horizontal and tile packs, of any shape and depth: along any path of the input and any
direction of all weights, the rate of change of the activations, weighted with the incoming gradient `G`, is the sum of the gradient handed to the
layer below times the change of the input, and of the gradients handed to the optimisers (averages over the batch) times the change of the
weights. -/
theorem tree_gradient (gw : ℕ → GradWorks ℝ) (act : ℕ → Act.Act) (upd : ℕ → Bool) (l : Layer) (inc : BS) (n : ℕ)
    (hp : l.AllPacks FieldsInside Divisible n) (hx : NoExtra l) (R : ℕ) (h0 : 0 < R) (s : (sem (actLayers gw act upd) l inc n).obj.S)
    (V : ℕ → Mat ℝ) (X : ℝ → Mat ℝ) (X' G : Mat ℝ) (hs : (semDiff (actDiff gw act upd) l inc n).Smooth R s (X 0))
    (hX : ∀ r < R, ∀ c < n, HasDerivAt (fun t => X t r c) (X' r c) 0) :
    HasDerivAt (fun t => ∑ r ∈ range R, ∑ c ∈ range l.neurons, G r c *
        (sem (actLayers gw act upd) l inc n).law.fwd R ((semDiff (actDiff gw act upd) l inc n).line s V t) (X t) r c)
      (∑ r ∈ range R, ∑ c ∈ range n, (sem (actLayers gw act upd) l inc n).law.bwd R s (X 0) G r c * X' r c +
        R * pairing (semDiff (actDiff gw act upd) l inc n).ws ((semDiff (actDiff gw act upd) l inc n).grad R s (X 0) G) V) 0 := by
  have hl : l.AllLeaves (LeafDiff (actDiff gw act upd)) := allLeaves_of (actDiff_ok gw act upd) l
  obtain ⟨h1, h2, h3⟩ := semDiff_ok l inc n hp hl hx
  have := h1.deriv R s V X X' G h0 hs (by rw [h2]; exact hX)
  simp only [act_pen, add_zero] at this
  rw [h2, h3] at this
  exact this

/-- C85. After any history, a training step gives to the optimisers of all layers the derivatives of the mean loss of the batch: along any direction
of all weights the loss changes with the rate given by the matrices that the optimisers are given (a matrix in tile packs counts once for each
tile). Penalties on activations count with their sum over the batch divided by its size. The weights are those in place during the forward pass of the step. -/
theorem training_step_gradient {N NT : ℕ} {body : Obj ℝ} {L : Law body} {D : Diff L} {gw : GradWorks ℝ} {act : (ℕ → ℝ) → ℕ → ℝ} {dz : ℝ → ℝ → ℝ}
    {upd : Bool} {n m : ℕ} (hb : Trains N NT body L) (hD : IsDiff0 D) (hact : ∀ z z', (∀ i < m, z i = z' i) → ∀ i < m, act z i = act z' i)
    (hn : n = body.neurons) (hT : NT ≤ N) (s0 : NetS ⟨body, outLayer realArith gw act dz upd n m⟩)
    (hi0 : NetInv L (outLaw realArith gw act dz upd n m) s0) (us : List (Use ℝ)) (hus : ∀ u ∈ us, u.Ok N NT body.inc) (R : ℕ) (X Y : Mem ℝ)
    (hu : (Use.train R X Y).Ok N NT body.inc) (loss : (ℕ → ℝ) → (ℕ → ℝ) → ℝ) :
    let w : Net ℝ := ⟨body, outLayer realArith gw act dz upd n m⟩
    let s := w.run s0 us
    let s1 := (w.fprop (w.to true R s) X).1
    let s2 := (w.step s (.train R X Y)).1
    let hidden := L.fwd R s1.body (matOf R X)
    let net := fun (V : ℕ → Mat ℝ) (W : Mat ℝ) (t : ℝ) (r c : ℕ) =>
      act (preAct realArith n (fun c j => s1.out.w c j + t * W c j) (L.fwd R (D.line s1.body V t) (matOf R X)) r) c
    D.Smooth R s1.body (matOf R X) → (∀ r < R, LossGrad m act loss dz (preAct realArith n s1.out.w hidden r) (matOf R Y r)) →
    (∀ V W, Shows R m s1.ao (net V W 0)) ∧
    ∃ (g : ℕ → Mat ℝ) (h : Mat ℝ),
      (∀ V W, HasDerivAt (fun t => (∑ r ∈ range R, loss (net V W t r) (matOf R Y r)) / R + D.pen R (D.line s1.body V t) (matOf R X) / R)
        (pairing D.ws g V + ∑ c ∈ range m, ∑ j ∈ range (n + 1), h c j * W c j) 0) ∧
      D.Step s1.body g s2.body ∧ Updated upd m (n + 1) s1.out h s2.out := by
  intro w s s1 s2 hidden net hs hl
  have ho : OutLawful N NT w.out (outLaw realArith gw act dz upd n m) := outLayer_lawful realArith_ok _ _ _ _ _ _ _ _ hact
  obtain ⟨_, _, h3, h4, h5⟩ := training_step_spec (w := w) hb ho hn hT s0 hi0 us hus R X Y hu
  refine ⟨fun V W => ?_, D.grad R s1.body (matOf R X) ((outLaw realArith gw act dz upd n m).grad R s1.out hidden (matOf R Y)), _,
    fun V W => meanLoss_deriv (upd := upd) hD hn hu.1 s1.body s1.out (matOf R X) (matOf R Y) hs hl V W, hD.upd _ _ _ _ _ hs h5, h4⟩
  have e : net V W 0 = (outLaw realArith gw act dz upd n m).fwd R s1.out hidden := by
    simp only [net, zero_mul, add_zero, hD.line_zero]
    rfl
  rw [e]
  exact h3

/-- The direction of a single weight: row `c`, column `j` of matrix `i`. -/
def only (i c j : ℕ) : ℕ → Mat ℝ := fun k => if k = i then unitAt c j else fun _ _ => 0

/-- C85. What a derivative along all directions says about single weights: the derivative with respect to a weight is the element of the matrix that
the optimiser is given, times the number of tiles the matrix is used for. -/
theorem single_weights {ws : List Wt} {g : ℕ → Mat ℝ} {h : Mat ℝ} {m k : ℕ} {f : (ℕ → Mat ℝ) → Mat ℝ → ℝ → ℝ}
    (hf : ∀ V W, HasDerivAt (f V W) (pairing ws g V + ∑ c ∈ range m, ∑ j ∈ range k, h c j * W c j) 0) :
    (∀ i w, ws[i]? = some w → ∀ c < w.rows, ∀ j < w.cols, HasDerivAt (f (only i c j) fun _ _ => 0) (w.tiles * g i c j) 0) ∧
    (∀ c < m, ∀ j < k, HasDerivAt (f (fun _ _ _ => 0) (unitAt c j)) (h c j) 0) := by
  refine ⟨fun i w hw c hc j hj => (hf _ _).congr_deriv ?_, fun c hc j hj => (hf _ _).congr_deriv ?_⟩
  · simp only [mul_zero, sum_const_zero, add_zero]
    rw [pairing_eq_sum]
    have hi : i < ws.length := by
      by_contra h
      rw [List.getElem?_eq_none (by omega)] at hw
      cases hw
    rw [sum_eq_single i]
    · rw [List.getD_eq_getElem?_getD, hw, Option.getD_some, only, if_pos rfl, inner_comm, inner_unitAt hc hj]
    · intro b _ hb
      rw [only, if_neg hb, inner_zero_right, mul_zero]
    · intro h; exact absurd (mem_range.2 hi) h
  · have e : pairing ws g (fun _ _ _ => 0) = 0 := by
      rw [pairing_eq_sum]
      exact sum_eq_zero fun i _ => by rw [inner_zero_right, mul_zero]
    rw [e, zero_add]
    exact (inner_comm m k _ _).trans (inner_unitAt hc hj h)

/-- C85. The mean loss is the one that is reported for the batch (`_calcLoss4batch`, `nntl/nnet.h` 323: the sum over all elements divided by the batch
size), for quadratic and custom losses. -/
theorem reported_loss (cfg : Act.Cfg) (ns : Bool) (ex : Kernel.Exec) (hex : ex.Ok) (o : Act.Out) (ho : o ≠ .sigmXent ∧ ∀ A, o ≠ .softsigmXent A) (R m : ℕ)
    (a y : Mem ℝ) : o.lossRun cfg ns ex (R * m) a y / R = meanLoss R (fun a y => ∑ c ∈ range m, o.ideal (y c) (a c)) (matOf R a) (matOf R y) := by
  rw [Act.loss_value cfg ns ex hex _ o ho]
  unfold meanLoss matOf
  rcases Nat.eq_zero_or_pos R with rfl | h0
  · simp
  congr 1
  rw [mul_comm, sum_range_mul, sum_comm]
  exact sum_congr rfl fun r _ => sum_congr rfl fun c _ => by rw [mul_comm c R, add_comm]

/-- C85. The same for the reported loss of a softmax layer. -/
theorem reported_loss_softmax (cfg : Act.Cfg) (ex : Kernel.Exec) (hex : ex.Ok) (R m : ℕ) (a y : Mem ℝ) (ha : ∀ i < R * m, 0 < a i) :
    Act.lossSoftmax cfg ex (R * m) a y / R = meanLoss R (fun a y => -∑ c ∈ range m, y c * Real.log (a c)) (matOf R a) (matOf R y) := by
  rw [Act.loss_softmax_value cfg ex hex _ a y ha]
  unfold meanLoss matOf
  congr 1
  rw [mul_comm, sum_range_mul, sum_comm, ← sum_neg_distrib]
  exact sum_congr rfl fun r _ => by
    congr 1
    exact sum_congr rfl fun c _ => by rw [mul_comm c R, add_comm]

/-- Activation functions with a derivative everywhere. -/
def Everywhere (a : Act.Act) : Prop := a.Args ∧ ∀ z, DifferentiableAt ℝ a.fn z

theorem act_smooth {gw : ℕ → GradWorks ℝ} {act : ℕ → Act.Act} {upd : ℕ → Bool} (h : ∀ id, Everywhere (act id)) (l : Layer) (inc : BS) (n R : ℕ)
    (s : (sem (actLayers gw act upd) l inc n).obj.S) (X : Mat ℝ) : (semDiff (actDiff gw act upd) l inc n).Smooth R s X := by
  refine semDiff_smooth (fun id l inc n R s X r _ c _ => ?_) l inc n R s X
  have := Act.df_correct (act id) (h id).1 (preAct realArith n s.w X r c) fun _ => (h id).2 _
  simp only [Act.f_eq]
  rw [show (act id).f = (act id).fn from funext (Act.f_eq _)]
  exact this

/-- C85. A network made of any accepted tree of fully connected layers with smooth activation functions and an output layer with an elementwise loss,
after any history of uses: the optimisers are given the derivatives of the mean loss, for any direction in the space of all weights. -/
theorem network_gradient (gw : ℕ → GradWorks ℝ) (act : ℕ → Act.Act) (upd : ℕ → Bool) (hact : ∀ id, Everywhere (act id)) (l : Layer) (inc : BS) (n : ℕ)
    (d : Lid) (hd : layerInit true l inc n = some d) (hT : inc.maxTrainBS ≤ inc.maxBS) (hp : l.AllPacks FieldsInside Divisible n)
    (hl : l.AllLeaves (LeafOk (actLayers gw act upd))) (hx : NoExtra l) (go : GradWorks ℝ) (uo : Bool) (o : Act.Out) (hoa : o.Args)
    (hr : ∀ y z, o.Regular y (o.act.fn z)) (m : ℕ) :
    let L := (sem (actLayers gw act upd) l inc n).law
    let D := semDiff (actDiff gw act upd) l inc n
    let w : Net ℝ := ⟨(sem (actLayers gw act upd) l inc n).obj, outLayer realArith go (fun z c => o.act.f (z c)) (fun a y => o.dLdZ y a) uo l.neurons m⟩
    ∀ (s0 : NetS w), NetInv L (outLaw realArith go (fun z c => o.act.f (z c)) (fun a y => o.dLdZ y a) uo l.neurons m) s0 →
    ∀ us : List (Use ℝ), (∀ u ∈ us, u.Ok inc.maxBS inc.maxTrainBS n) → ∀ (R : ℕ) (X Y : Mem ℝ), (Use.train R X Y).Ok inc.maxBS inc.maxTrainBS n →
    let s := w.run s0 us
    let s1 := (w.fprop (w.to true R s) X).1
    let s2 := (w.step s (.train R X Y)).1
    let net := fun (V : ℕ → Mat ℝ) (W : Mat ℝ) (t : ℝ) (r c : ℕ) =>
      o.act.f (preAct realArith l.neurons (fun c j => s1.out.w c j + t * W c j) (L.fwd R (D.line s1.body V t) (matOf R X)) r c)
    (∀ V W, Shows R m s1.ao (net V W 0)) ∧
    ∃ (g : ℕ → Mat ℝ) (h : Mat ℝ),
      (∀ V W, HasDerivAt (fun t => (∑ r ∈ range R, ∑ c ∈ range m, o.ideal (matOf R Y r c) (net V W t r c)) / R)
        (pairing D.ws g V + ∑ c ∈ range m, ∑ j ∈ range (l.neurons + 1), h c j * W c j) 0) ∧
      D.Step s1.body g s2.body ∧ Updated uo m (l.neurons + 1) s1.out h s2.out := by
  intro L D w s0 hi0 us hus R X Y hu
  obtain ⟨_, h2, h3, _, _, h6⟩ := sem_ok l inc n d hd hT hp hl hx
  have hD := (semDiff_ok l inc n hp (allLeaves_of (actDiff_ok gw act upd) l) hx).1
  have := training_step_gradient (D := D) h6.trains hD.weak (fun z z' e i hi => by rw [e i hi]) h3.symm hT s0 hi0 us (by rw [h2]; exact hus) R X Y
    (by rw [h2]; exact hu) (fun a y => ∑ c ∈ range m, o.ideal (y c) (a c)) (act_smooth hact l inc n R _ _)
    fun r _ => elementwise_lossGrad o hoa m _ _ fun c _ => hr _ _
  simp only [D, act_pen, zero_div, add_zero] at this
  exact this

/-! ### The hypotheses are met -/

/-- Gradient descent with learning rate 1/10. -/
noncomputable def descent : GradWorks ℝ := ⟨Unit, fun g w => (g, w), fun g w d => (g, fun c j => w c j - d c j / 10, d)⟩

/-- The tree of `Pass.demoTree` (a vertical pack inside of a horizontal one with overlapping fields, below a tile pack), with sigmoids and one layer of
softsigns, all trained. -/
noncomputable def demoLayers : ℕ → Leaf → BS → ℕ → Sem ℝ :=
  actLayers (fun _ => descent) (fun id => if id = 6 then .softsign 1000000 1000000 else .sigm) fun _ => true

theorem demo_smooth (id : ℕ) : Everywhere (if id = 6 then .softsign 1000000 1000000 else .sigm) := by
  split
  · have h : (Act.Act.softsign 1000000 1000000).Args := by simp [Act.Act.Args, Act.softsignC]
    exact ⟨h, Act.activation_smooth_zero _ h (.inr (.inr (.inl ⟨_, _, rfl⟩)))⟩
  · have h : Act.Act.sigm.Args := by simp [Act.Act.Args]
    exact ⟨h, Act.activation_smooth_zero _ h (.inl rfl)⟩

theorem demoLayers_ok (m : ℕ) : LeafOk demoLayers (fcLeaf m) where
  announces := fun _ _ => Nat.le_max_left _ _
  out := fun _ => rfl
  ok := fun _ _ _ _ => ⟨rfl, rfl, rfl, Nat.le_refl _, fc_lawful realArith_ok _ _ _ _ _ _ _ _⟩

/-- All hypotheses of `network_gradient` hold for this tree below a sigmoid output layer with cross entropy. -/
example : (∃ d, layerInit true demoTree ⟨8, 4⟩ 5 = some d) ∧ demoTree.AllPacks FieldsInside Divisible 5 ∧ demoTree.AllLeaves (LeafOk demoLayers) ∧
    NoExtra demoTree ∧ Act.Out.sigmXent.Args ∧ (∀ y z, Act.Out.sigmXent.Regular y (Act.Out.sigmXent.act.fn z)) ∧
    ∃ s : NetS (⟨(sem demoLayers demoTree ⟨8, 4⟩ 5).obj, outLayer realArith descent (fun z c => Act.Out.sigmXent.act.f (z c))
        (fun a y => Act.Out.sigmXent.dLdZ y a) true demoTree.neurons 1⟩ : Net ℝ),
      NetInv (sem demoLayers demoTree ⟨8, 4⟩ 5).law (outLaw realArith descent (fun z c => Act.Out.sigmXent.act.f (z c))
        (fun a y => Act.Out.sigmXent.dLdZ y a) true demoTree.neurons 1) s := by
  have ha : Act.Out.sigmXent.Args := by simp [Act.Out.Args, Act.Out.act, Act.Act.Args]
  obtain ⟨h1, h2, _, h4, _⟩ := demoTree_ok
  refine ⟨h1, h2, ?_, h4, ha, fun y z => Act.act_regular _ ha z (.inl rfl) y, ?_⟩
  · simp only [demoTree, Layer.AllLeaves, Stack.AllLeaves, Fields.AllLeaves, demoLayers_ok, and_self]
  · obtain ⟨s, hs⟩ := sem_state (b := true) (I := demoLayers) (fun _ _ _ _ _ => ⟨(⟨fun _ _ => 0, (), true⟩ : FcS descent), rfl⟩) demoTree ⟨8, 4⟩ 5 4
    exact ⟨⟨true, 4, s, ⟨fun _ => 1, 4⟩, ⟨fun _ _ => 0, (), true⟩, fun _ => 0, fun _ => 0, fun _ => 0, fun _ => 0⟩, hs, rfl, rfl, fun _ _ => rfl⟩

/-- Its matrices: three of the horizontal pack (the first two are the vertical pack in it), and the one of the tile pack, which is used for two tiles:
its optimiser is given half of the derivative of the mean loss. -/
example : (semDiff (I := demoLayers) (actDiff _ _ _) demoTree ⟨8, 4⟩ 5).ws = [⟨7, 4, 1⟩, ⟨4, 8, 1⟩, ⟨2, 4, 1⟩, ⟨3, 4, 2⟩] := rfl

/-- `Trains` with layers below that take no part in training, for `training_step_gradient`. -/
example {l u : Obj ℝ} {L : Law l} {U : Law u} {E : Diff U} (hE : IsDiff E) : IsDiff0 (frozenDiff (L := L) E) := frozen_isDiff hE.weak

/-- Answers of a softmax layer. -/
example : LossGrad 3 (fun z c => Num.softmaxOf z 3 c) (fun a y => -∑ c ∈ range 3, y c * Real.log (a c)) (fun a y => a - y) (fun c => c)
    (fun c => if c = 1 then 1 else 0) := softmax_lossGrad _ _ _ (by simp)

end Nntl.Backprop
