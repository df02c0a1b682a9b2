import Verif.Sgd.Lemmas
import Verif.Backprop.Works

/-! Networks of fully connected layers with plain optimisers. -/
namespace Nntl.Sgd

open Nntl.Layers Nntl.Pass Nntl.Backprop
open Finset

/-- A network as it is made by a user: the tree of layers below the output layer, the biggest batch sizes, the number of inputs, activation functions and
optimisers of the layers by their identifiers and sizes, which layers are trained; the number of outputs, the activation of the output layer, the derivative of
the loss it uses, its optimiser, whether it is trained; the loss. -/
structure Plan where
  tree : Layer
  bs : BS
  inputs : ℕ
  act : ℕ → Act.Act
  gw : ℕ → ℕ → ℕ → GradWorks ℝ
  upd : ℕ → Bool
  outputs : ℕ
  last : (ℕ → ℝ) → ℕ → ℝ
  dz : ℝ → ℝ → ℝ
  go : GradWorks ℝ
  uo : Bool
  loss : (ℕ → ℝ) → (ℕ → ℝ) → ℝ

noncomputable def Plan.body (P : Plan) : Sem ℝ := sem (fcLayers P.gw P.act P.upd) P.tree P.bs P.inputs

/-- The network: fully connected layers (`nntl/layer/fully_connected.h` 241–284, 406–519) in packs below an output layer (`nntl/layer/output.h`; see `Pass.outLayer`), run by
`nntl/layers.h` (see `Pass.Net`). -/
noncomputable def Plan.net (P : Plan) : Net ℝ := ⟨P.body.obj, outLayer realArith P.go P.last P.dz P.uo P.tree.neurons P.outputs⟩

/-- Its states are consistent. -/
def Plan.Inv (P : Plan) (s : NetS P.net) : Prop := NetInv (w := P.net) P.body.law (outLaw realArith P.go P.last P.dz P.uo P.tree.neurons P.outputs) s

/-- What it calculates. -/
noncomputable def Plan.shape (P : Plan) : Shape := ⟨P.tree, P.inputs, fun id => (P.act id).fn, P.outputs, P.last, P.loss⟩

/-- The weights in a state. -/
noncomputable def Plan.weights (P : Plan) (s : NetS P.net) : Weights :=
  ⟨(treeGet P.gw P.act P.upd P.tree P.bs P.inputs).get s.body, FcS.w (gw := P.go) s.out⟩

/-- The network is accepted by initialisation and there are no optional packs; activation functions have allowed parameters; the last layer and the loss do
not look beyond the outputs. -/
structure Plan.Ok (P : Plan) : Prop where
  init : ∃ d, layerInit true P.tree P.bs P.inputs = some d
  sizes : P.bs.maxTrainBS ≤ P.bs.maxBS
  packs : P.tree.AllPacks FieldsInside Divisible P.inputs
  leaves : P.tree.AllLeaves (LeafOk (fcLayers P.gw P.act P.upd))
  noExtra : NoExtra P.tree
  args : ∀ id, (P.act id).Args
  last : ∀ z z', (∀ i < P.outputs, z i = z' i) → ∀ i < P.outputs, P.last z i = P.last z' i
  loss : ∀ a a' y, (∀ i < P.outputs, a i = a' i) → P.loss a y = P.loss a' y

/-- The optimisers of the layers subtract the gradient times a learning rate; `η` says what the rates are, 0 for layers that are not trained. -/
structure Plan.Plain (P : Plan) (η : Rates) : Prop where
  body : ∃ ρ : ℕ → ℝ, (∀ id m k, Sgd.Plain (P.gw id m k) m k (ρ id)) ∧ ∀ id, η.body id = if P.upd id then ρ id else 0
  out : ∃ ρ : ℝ, Sgd.Plain P.go P.outputs (P.tree.neurons + 1) ρ ∧ η.out = if P.uo then ρ else 0

/-- Uses with batches of allowed sizes. -/
def Plan.Fits (P : Plan) (u : Use ℝ) : Prop := u.Ok P.bs.maxBS P.bs.maxTrainBS P.inputs

/-- Weights moved by `t` along a direction. -/
def Weights.move (W V : Weights) (t : ℝ) : Weights := ⟨fun i c j => W.body i c j + t * V.body i c j, fun c j => W.out c j + t * V.out c j⟩

variable {P : Plan} {η : Rates}

theorem Plan.Ok.isNet (ho : P.Ok) :
    IsNet (semDiff (fcDiffs P.gw P.act P.upd) P.tree P.bs P.inputs) (treeGet P.gw P.act P.upd P.tree P.bs P.inputs) (mats P.tree P.inputs)
      (netFn P.shape.act P.tree P.inputs) (SmoothAt P.shape.act P.tree P.inputs) P.gw P.upd :=
  tree_isNet ho.args _ _ _ ho.packs ho.noExtra

theorem Plan.Ok.diff (ho : P.Ok) : IsDiff (semDiff (fcDiffs P.gw P.act P.upd) P.tree P.bs P.inputs) ∧ P.body.obj.inc = P.inputs ∧
    P.body.obj.neurons = P.tree.neurons := semDiff_ok _ _ _ ho.packs (allLeaves_of fcDiffs_ok _) ho.noExtra

theorem Plan.Ok.trains (ho : P.Ok) : Trains P.bs.maxBS P.bs.maxTrainBS P.body.obj P.body.law := by
  obtain ⟨d, hd⟩ := ho.init
  obtain ⟨_, _, _, _, _, h6⟩ := sem_ok P.tree P.bs P.inputs d hd ho.sizes ho.packs ho.leaves ho.noExtra
  exact h6.trains

theorem Plan.Ok.outLawful (ho : P.Ok) : OutLawful P.bs.maxBS P.bs.maxTrainBS P.net.out (outLaw realArith P.go P.last P.dz P.uo P.tree.neurons P.outputs) :=
  outLayer_lawful realArith_ok _ _ _ _ _ _ _ _ ho.last

/-! ### Weights that are the same give the same -/

theorem Shape.Same.refl (S : Shape) (W : Weights) : S.Same W W := ⟨Sgd.Same.refl _ _, fun _ _ _ _ => rfl⟩
theorem Shape.Same.symm {S : Shape} {W W' : Weights} (h : S.Same W W') : S.Same W' W := ⟨h.1.symm, fun c hc j hj => (h.2 c hc j hj).symm⟩
theorem Shape.Same.trans {S : Shape} {W W' W'' : Weights} (h : S.Same W W') (h' : S.Same W' W'') : S.Same W W'' :=
  ⟨h.1.trans h'.1, fun c hc j hj => (h.2 c hc j hj).trans (h'.2 c hc j hj)⟩

/-- What is needed to speak about the function of a network: without the optimisers. -/
structure Shape.Ok (S : Shape) (act : ℕ → Act.Act) : Prop where
  eq : S.act = fun id => (act id).fn
  args : ∀ id, (act id).Args
  packs : S.tree.AllPacks FieldsInside Divisible S.inputs
  noExtra : NoExtra S.tree
  last : ∀ z z', (∀ i < S.outputs, z i = z' i) → ∀ i < S.outputs, S.last z i = S.last z' i
  loss : ∀ a a' y, (∀ i < S.outputs, a i = a' i) → S.loss a y = S.loss a' y

theorem Plan.Ok.shape (h : P.Ok) : P.shape.Ok P.act := ⟨rfl, h.args, h.packs, h.noExtra, h.last, h.loss⟩

section
variable {S : Shape} {act : ℕ → Act.Act}

theorem Shape.Ok.isNet (h : S.Ok act) (inc : BS) :
    IsNet (semDiff (fcDiffs (fun _ _ _ => bare) act fun _ => true) S.tree inc S.inputs) (treeGet (fun _ _ _ => bare) act (fun _ => true) S.tree inc S.inputs)
      (mats S.tree S.inputs) (netFn S.act S.tree S.inputs) (SmoothAt S.act S.tree S.inputs) (fun _ _ _ => bare) fun _ => true := by
  rw [h.eq]
  exact tree_isNet h.args _ _ _ h.packs h.noExtra

theorem Shape.Ok.sizes (h : S.Ok act) (inc : BS) : (sem (fcLayers (fun _ _ _ => bare) act fun _ => true) S.tree inc S.inputs).obj.inc = S.inputs ∧
    (sem (fcLayers (fun _ _ _ => bare) act fun _ => true) S.tree inc S.inputs).obj.neurons = S.tree.neurons :=
  (semDiff_ok (DI := fcDiffs (fun _ _ _ => bare) act fun _ => true) S.tree inc S.inputs h.packs (allLeaves_of fcDiffs_ok _) h.noExtra).2

theorem Shape.Ok.raw_congr (h : S.Ok act) {W W' : Weights} (hw : S.Same W W') (x : ℕ → ℝ) : ∀ c < S.outputs, S.raw W x c = S.raw W' x c := by
  intro c hc
  obtain ⟨_, h2⟩ := h.sizes ⟨1, 1⟩
  exact neuron_congr hw.2 (fun j hj => (h.isNet ⟨1, 1⟩).loc _ _ _ _ hw.1 (fun _ _ => rfl) j (by rw [h2]; exact hj)) hc

theorem Shape.Ok.answer_congr (h : S.Ok act) {W W' : Weights} (hw : S.Same W W') (x : ℕ → ℝ) : ∀ c < S.outputs, S.answer W x c = S.answer W' x c :=
  h.last _ _ (h.raw_congr hw x)

theorem Shape.Ok.meanLoss_congr (h : S.Ok act) {W W' : Weights} (hw : S.Same W W') (R : ℕ) (X Y : Mat ℝ) : S.meanLoss R X Y W = S.meanLoss R X Y W' := by
  unfold Shape.meanLoss
  congr 1
  exact sum_congr rfl fun r _ => h.loss _ _ _ (h.answer_congr hw (X r))

theorem same_bumpBody {W W' : Weights} (hw : S.Same W W') (i c j : ℕ) (t : ℝ) : S.Same (W.bumpBody i c j t) (W'.bumpBody i c j t) := by
  refine ⟨fun k m hk a ha b hb => ?_, hw.2⟩
  have := hw.1 k m hk a ha b hb
  simp only [Weights.bumpBody]
  split <;> simp only [bump, this]

theorem same_bumpOut {W W' : Weights} (hw : S.Same W W') (c j : ℕ) (t : ℝ) : S.Same (W.bumpOut c j t) (W'.bumpOut c j t) := by
  refine ⟨hw.1, fun a ha b hb => ?_⟩
  have := hw.2 a ha b hb
  simp only [Weights.bumpOut, bump, this]

theorem Shape.Ok.dBody_congr (h : S.Ok act) {W W' : Weights} (hw : S.Same W W') (R : ℕ) (X Y : Mat ℝ) (i c j : ℕ) :
    S.dBody R X Y W i c j = S.dBody R X Y W' i c j := by
  unfold Shape.dBody
  congr 1
  funext t
  exact h.meanLoss_congr (same_bumpBody hw i c j t) R X Y

theorem Shape.Ok.dOut_congr (h : S.Ok act) {W W' : Weights} (hw : S.Same W W') (R : ℕ) (X Y : Mat ℝ) (c j : ℕ) :
    S.dOut R X Y W c j = S.dOut R X Y W' c j := by
  unfold Shape.dOut
  congr 1
  funext t
  exact h.meanLoss_congr (same_bumpOut hw c j t) R X Y

theorem Shape.Ok.lossGrad_congr (h : S.Ok act) {dz : ℝ → ℝ → ℝ} {p q y : ℕ → ℝ} (hpq : ∀ c < S.outputs, p c = q c)
    (hl : LossGrad S.outputs S.last S.loss dz p y) : LossGrad S.outputs S.last S.loss dz q y := by
  intro z z' hz hd
  have := hl (fun t c => if c < S.outputs then z t c else p c) z' (fun c => by
    split
    · rename_i hc; rw [hz, hpq c hc]
    · rfl) (fun c hc => by simp only [if_pos hc]; exact hd c hc)
  have e : (fun t => S.loss (S.last fun c => if c < S.outputs then z t c else p c) y) = fun t => S.loss (S.last (z t)) y := by
    funext t
    exact h.loss _ _ _ (h.last _ _ fun i hi => if_pos hi)
  rw [e] at this
  refine this.congr_deriv (sum_congr rfl fun c hc => ?_)
  rw [h.last p q hpq c (mem_range.1 hc)]

theorem Shape.Ok.regular_congr (h : S.Ok act) {dz : ℝ → ℝ → ℝ} {R : ℕ} {X Y : Mat ℝ} {W W' : Weights} (hw : S.Same W W') (hr : S.Regular dz R X Y W) :
    S.Regular dz R X Y W' := fun r hr' =>
  ⟨(h.isNet ⟨1, 1⟩).smLoc _ _ _ _ hw.1 (fun _ _ => rfl) (hr r hr').1, h.lossGrad_congr (h.raw_congr hw (X r)) (hr r hr').2⟩

theorem same_move_body {W : Weights} {i c j : ℕ} {t : ℝ} : S.Same (W.move ⟨only i c j, fun _ _ => 0⟩ t) (W.bumpBody i c j t) := by
  refine ⟨fun k m _ a _ b _ => ?_, fun a _ b _ => ?_⟩
  · simp only [Weights.move, Weights.bumpBody, only]
    split
    · simp only [unitAt, bump]
      split
      · rw [mul_one]
      · rw [mul_zero, add_zero]
    · rw [mul_zero, add_zero]
  · simp only [Weights.move, Weights.bumpBody, mul_zero, add_zero]

theorem same_move_out {W : Weights} {c j : ℕ} {t : ℝ} : S.Same (W.move ⟨fun _ _ _ => 0, unitAt c j⟩ t) (W.bumpOut c j t) := by
  refine ⟨fun k m _ a _ b _ => ?_, fun a _ b _ => ?_⟩
  · simp only [Weights.move, Weights.bumpOut, mul_zero, add_zero]
  · simp only [Weights.move, Weights.bumpOut, unitAt, bump]
    split
    · rw [mul_one]
    · rw [mul_zero, add_zero]

theorem same_move {W W' : Weights} (h : S.Same W W') (V : Weights) (t : ℝ) : S.Same (W.move V t) (W'.move V t) :=
  ⟨fun i m hi c hc j hj => congrArg (· + t * V.body i c j) (h.1 i m hi c hc j hj), fun c hc j hj => congrArg (· + t * V.out c j) (h.2 c hc j hj)⟩

/-- Derivatives along all directions. -/
structure Slopes (S : Shape) (R : ℕ) (X Y : Mat ℝ) (W : Weights) (g : ℕ → Mat ℝ) (h : Mat ℝ) : Prop where
  all : ∀ V : Weights, HasDerivAt (fun t => S.meanLoss R X Y (W.move V t))
    (pairing ((mats S.tree S.inputs).map toWt) g V.body + ∑ c ∈ range S.outputs, ∑ j ∈ range (S.tree.neurons + 1), h c j * V.out c j) 0

theorem Slopes.congr (hS : S.Ok act) {R : ℕ} {X Y : Mat ℝ} {W W' : Weights} {g : ℕ → Mat ℝ} {h : Mat ℝ} (hw : S.Same W W') (hs : Slopes S R X Y W g h) :
    Slopes S R X Y W' g h := ⟨fun V => by
  have := hs.all V
  simp only [hS.meanLoss_congr (same_move hw V _)] at this
  exact this⟩

theorem Slopes.single (ho : S.Ok act) {R : ℕ} {X Y : Mat ℝ} {W : Weights} {g : ℕ → Mat ℝ} {h : Mat ℝ} (hs : Slopes S R X Y W g h) :
    (∀ i m, (mats S.tree S.inputs)[i]? = some m → ∀ c < m.rows, ∀ j < m.cols,
      HasDerivAt (fun t => S.meanLoss R X Y (W.bumpBody i c j t)) (m.tiles * g i c j) 0) ∧
    ∀ c < S.outputs, ∀ j < S.tree.neurons + 1, HasDerivAt (fun t => S.meanLoss R X Y (W.bumpOut c j t)) (h c j) 0 := by
  obtain ⟨h1, h2⟩ := single_weights (f := fun V O t => S.meanLoss R X Y (W.move ⟨V, O⟩ t)) fun V O => hs.all ⟨V, O⟩
  refine ⟨fun i m hi c hc j hj => ?_, fun c hc j hj => ?_⟩
  · have := h1 i (toWt m) (by rw [List.getElem?_map, hi]; rfl) c hc j hj
    simp only [ho.meanLoss_congr same_move_body] at this
    exact this
  · have := h2 c hc j hj
    simp only [ho.meanLoss_congr same_move_out] at this
    exact this

end

/-! ### Forward passes -/

theorem shown {o : Obj ℝ} {L : Law o} {D : Diff L} {A : Reader o.S} {ms : List MatInfo} {F : (ℕ → Mat ℝ) → (ℕ → ℝ) → ℕ → ℝ}
    {Sm : (ℕ → Mat ℝ) → (ℕ → ℝ) → Prop} {gw : ℕ → ℕ → ℕ → GradWorks ℝ} {upd : ℕ → Bool} (h : IsNet D A ms F Sm gw upd) {p R : ℕ} (hp : o.neurons = p) (h0 : 0 < R) (sb : o.S) (so X : Mat ℝ)
    {r : ℕ} (hr : r < R) : preAct realArith p so (L.fwd R sb X) r = neuron p so (F (A.get sb) (X r)) := by
  subst hp
  funext c
  rw [preAct_neuron]
  unfold neuron
  congr 1
  exact sum_congr rfl fun j hj => congrArg (so c j * ·) (h.fwd R sb X h0 r hr j (mem_range.1 hj))

theorem out_kept {gw : GradWorks ℝ} {m k : ℕ} {ρ : ℝ} (hg : Sgd.Plain gw m k ρ) (s : FcS gw) :
    Agree m k (if s.training then (⟨(gw.pre s.g s.w).2, (gw.pre s.g s.w).1, true⟩ : FcS gw) else s).w s.w := by
  split
  · exact hg.pre s.g s.w
  · exact Agree.refl _ _ _

/-- Changing mode and batch size and a forward pass do not touch the weights. -/
theorem Plan.fprop_same (ho : P.Ok) (hp : P.Plain η) (b : Bool) (R : ℕ) (s : NetS P.net) (X : Mem ℝ) :
    P.shape.Same (P.weights (P.net.fprop (P.net.to b R s) X).1) (P.weights s) := by
  have hn := ho.isNet
  obtain ⟨ρ, hg, _⟩ := hp.out
  obtain ⟨ρ', hg', _⟩ := hp.body
  have h1 : P.shape.Same (P.weights (P.net.to b R s)) (P.weights s) := by
    unfold Net.to
    split
    · exact Shape.Same.refl _ _
    · exact ⟨(hn.reads.same (hn.resize R _)).trans (hn.reads.same (hn.mode b _)), fun _ _ _ _ => rfl⟩
  have h2 : ∀ t : NetS P.net, P.shape.Same (P.weights (P.net.fprop t X).1) (P.weights t) := fun t =>
    ⟨hn.reads.passed hg' (hn.fprop t.R t.body X t.T t.ab.m), out_kept hg t.out⟩
  exact (h2 _).trans h1

/-! ### Derivatives -/

/-- In a state of a network the gradients given to the optimisers are the derivatives along all directions. -/
theorem slopes_of_state {S : Shape} {act : ℕ → Act.Act} (hS : S.Ok act) {o : Obj ℝ} {L : Law o} {D : Diff L} (hD : IsDiff D) {A : Reader o.S}
    {gws : ℕ → ℕ → ℕ → GradWorks ℝ} {upds : ℕ → Bool} (h : IsNet D A (mats S.tree S.inputs) (netFn S.act S.tree S.inputs) (SmoothAt S.act S.tree S.inputs) gws upds) (hp : o.neurons = S.tree.neurons)
    (hpen : ∀ R s X, D.pen R s X = 0) {gw : GradWorks ℝ} {dz : ℝ → ℝ → ℝ} {R : ℕ} (h0 : 0 < R) (upd : Bool) (sb : o.S) (so : FcS gw) (X Y : Mat ℝ)
    (hr : S.Regular dz R X Y ⟨A.get sb, so.w⟩) :
    D.Smooth R sb X ∧ Slopes S R X Y ⟨A.get sb, so.w⟩
      (D.grad R sb X ((outLaw realArith gw S.last dz upd S.tree.neurons S.outputs).grad R so (L.fwd R sb X) Y))
      (gradW realArith R S.tree.neurons (L.fwd R sb X) fun r c => dz (S.last (preAct realArith S.tree.neurons so.w (L.fwd R sb X) r) c) (Y r c)) := by
  have hs : D.Smooth R sb X := h.smooth R sb X h0 fun r hr' => (hr r hr').1
  refine ⟨hs, ⟨fun V => ?_⟩⟩
  have := meanLoss_deriv (gw := gw) (act := S.last) (loss := S.loss) (dz := dz) (upd := upd) (m := S.outputs) hD.weak hp.symm h0 sb so X Y hs (fun r hr' => by
    rw [shown h hp h0 sb so.w X hr']
    exact (hr r hr').2) V.body V.out
  rw [← h.ws]
  refine HasDerivAt.congr_of_eventuallyEq (f₁ := fun t => S.meanLoss R X Y (Weights.move ⟨A.get sb, so.w⟩ V t)) this (Filter.Eventually.of_forall fun t => ?_)
  simp only [hpen, zero_div, add_zero]
  have e : S.meanLoss R X Y (Weights.move ⟨A.get sb, so.w⟩ V t) = S.meanLoss R X Y ⟨A.get (D.line sb V.body t), (outLine so V.out t).w⟩ :=
    hS.meanLoss_congr (show S.Same (Weights.move ⟨A.get sb, so.w⟩ V t) ⟨A.get (D.line sb V.body t), (outLine so V.out t).w⟩ from
      ⟨(h.line sb V.body t).symm, fun _ _ _ _ => rfl⟩) R X Y
  rw [e]
  unfold Shape.meanLoss Backprop.meanLoss
  congr 1
  exact sum_congr rfl fun r hr' => by
    show S.loss (S.last (neuron _ _ _)) _ = S.loss (fun c => S.last (preAct realArith S.tree.neurons _ (L.fwd R (D.line sb V.body t) X) r) c) _
    rw [shown h hp h0 (D.line sb V.body t) _ X (mem_range.1 hr')]

/-- The mean loss has derivatives along all directions at weights where the batch is regular. -/
theorem Shape.Ok.slopes {S : Shape} {act : ℕ → Act.Act} (hS : S.Ok act) {dz : ℝ → ℝ → ℝ} {R : ℕ} (h0 : 0 < R) {X Y : Mat ℝ} {W : Weights}
    (hr : S.Regular dz R X Y W) : ∃ g h, Slopes S R X Y W g h := by
  have hn := hS.isNet ⟨1, 1⟩
  obtain ⟨h2, h3⟩ := hS.sizes ⟨1, 1⟩
  obtain ⟨s, -⟩ := sem_state (b := true) (I := fcLayers (fun _ _ _ => bare) act fun _ => true)
    (fun _ _ _ _ _ => ⟨(⟨fun _ _ => 0, (), true⟩ : FcS bare), rfl⟩) S.tree ⟨1, 1⟩ S.inputs 1
  have hD := (semDiff_ok (DI := fcDiffs (fun _ _ _ => bare) act fun _ => true) S.tree ⟨1, 1⟩ S.inputs hS.packs (allLeaves_of fcDiffs_ok _) hS.noExtra).1
  let get := (treeGet (fun _ _ _ => bare) act (fun _ => true) S.tree ⟨1, 1⟩ S.inputs).get
  let D := semDiff (fcDiffs (fun _ _ _ => bare) act fun _ => true) S.tree ⟨1, 1⟩ S.inputs
  let sb := D.line s (fun i c j => W.body i c j - get s i c j) 1
  have hw : S.Same ⟨get sb, W.out⟩ W := ⟨(hn.line s _ 1).trans fun i m _ c _ j _ => by
    show get s i c j + 1 * (W.body i c j - get s i c j) = W.body i c j
    ring, fun _ _ _ _ => rfl⟩
  obtain ⟨_, h⟩ := slopes_of_state hS hD hn h3 (fun R s X => fcDiffs_pen S.tree ⟨1, 1⟩ S.inputs R s X) h0 true sb (⟨W.out, (), true⟩ : FcS bare) X Y
    (hS.regular_congr hw.symm hr)
  exact ⟨_, _, h.congr hS hw⟩

end Nntl.Sgd
