import Verif.Calls.Model
import Verif.Gemm.Spec
import Verif.Num.Softmax
/-! What is assumed about the objects a layer is called with, and what its calls mean. -/
namespace Nntl.Calls

open Nntl.Matrix Nntl.Gemm Nntl.Grad Nntl.Backprop Nntl.Pass

/-- The pool of threads is in the state it is in between two jobs. -/
structure Mach.Ok (M : Mach) : Prop where
  env : M.env.Ok
  sum : M.sumEx.Ok

/-- Activations of the lower layer for a batch of `R` samples: `n` columns and the column of ones. -/
structure Input (K : Kind) (R : ℕ) (A : Mtx ℝ) : Prop where
  biases : BiasesStrict A
  rows : A.rows = R
  cols : A.cols = K.n + 1
  layout : A.bir = false
  room : A.rows * A.cols ≤ A.cap

/-- A matrix for the activations of the layer itself. -/
structure Outputs (K : Kind) (R : ℕ) (A : Mtx ℝ) : Prop where
  rows : A.rows = R
  cols : A.cols = K.m + A.emul.toNat
  layout : A.bir = false
  room : A.rows * A.cols ≤ A.cap

/-- A matrix for the gradient that is handed down. -/
structure Below (K : Kind) (R : ℕ) (P : Mtx ℝ) : Prop where
  rows : P.rows = R
  cols : P.cols = K.n
  biases : P.emul = false
  layout : P.bir = false
  room : P.rows * P.cols ≤ P.cap

/-- The matrix with the gradient of the activations; its storage is announced to have room for the gradient of the weights as well. -/
structure Above (K : Kind) (R : ℕ) (D : Mtx ℝ) : Prop where
  rows : D.rows = R
  cols : D.cols = K.m
  biases : D.emul = false
  layout : D.bir = false
  room : R * K.m ≤ D.maxSize
  roomW : K.upd = true → K.m * (K.n + 1) ≤ D.maxSize
  cap : D.maxSize ≤ D.cap

/-- The layer object between calls: weights as allocated by `layer_init`, activations for `R` samples, the matrices of the optimiser allocated. -/
structure Good (K : Kind) (R : ℕ) (L : Layer) : Prop where
  w : ∃ w, L.W = mtxOf K.m (K.n + 1) w
  act : Outputs K R L.act
  ready : Ready K.o.kind L.g.s

/-- A hidden layer: the column of ones is in place unless another object (a pack of layers) owns it. -/
structure Hidden (K : Kind) (R : ℕ) (L : Layer) : Prop extends Good K R L where
  biases : L.shared = true ∨ BiasesStrict L.act

/-- The output layer: no column of ones. -/
structure IsOutput (K : Kind) (R : ℕ) (L : Layer) : Prop extends Good K R L where
  noBiases : L.act.emul = false
  max : L.act.rows * L.act.cols ≤ L.act.maxSize

/-- The state of the layer as `Pass.fc` sees it. -/
noncomputable def abs (K : Kind) (L : Layer) : FcS (gradWorks K.o K.m (K.n + 1)) := ⟨matOf K.m L.W.data, L.g, L.training⟩

/-- The activation function in effect: `bIgnoreActivation()` makes it the identity. -/
noncomputable def actF (a : Act.Act) (lin : Bool) : ℝ → ℝ := if lin then id else a.f
noncomputable def actDf (a : Act.Act) (lin : Bool) : ℝ → ℝ := if lin then fun _ => 1 else a.df

/-- The activations of the output layer, a function of a row of `m` preactivations. -/
noncomputable def outRow (a : OutAct) (lin : Bool) (m : ℕ) : (ℕ → ℝ) → ℕ → ℝ :=
  match a with
  | .elem o => fun z c => actF o.act lin (z c)
  | .softmax => if lin then id else fun z c => Num.softmaxOf z m c

/-- The gradient with respect to the preactivations of the output layer, given activation and target. -/
noncomputable def outDz (a : OutAct) (lin : Bool) (bnd : Option (ℝ × ℝ)) (v y : ℝ) : ℝ :=
  let d := match a with
    | .elem o => if lin then o.dLdZIdentity y v else o.dLdZ y v
    | .softmax => if lin then (v - y) / (v * (1 - v)) else v - y
  match bnd with
  | none => d
  | some b => Act.clamp b.1 b.2 d

/-- `m_dLdW` of the output layer, if the weights are updated. -/
structure GradW (K : Kind) (D : Mtx ℝ) : Prop where
  rows : D.rows = K.m
  cols : D.cols = K.n + 1
  biases : D.emul = false
  layout : D.bir = false
  room : K.m * (K.n + 1) ≤ D.maxSize
  cap : D.maxSize ≤ D.cap

/-- The target data for a batch. -/
structure Targets (K : Kind) (R : ℕ) (Y : Mtx ℝ) : Prop where
  rows : Y.rows = R
  cols : Y.cols = K.m
  biases : Y.emul = false

/-- `L'` has the weights and the optimiser of `L` after `pre_training_fprop`. -/
def Prepared (M : Mach) (K : Kind) (L L' : Layer) : Prop :=
  preTrainingFprop M.env (K.o.pre L.g.p).cfg (K.o.pre L.g.p).blocked (K.o.pre L.g.p).draw { L.g.s with W := L.W } (some L'.g.s) ∧ L'.W = L'.g.s.W ∧
    L'.g.p = L.g.p + 1 ∧ L'.g.t = L.g.t

/-- `L'` has the weights and the optimiser of `L` after `apply_grad` with the mean over `R` samples of the gradient: `z r c` is the derivative of the
loss in sample `r` by the preactivation of neuron `c`. The last column belongs to the biases. -/
def Descends (M : Mach) (K : Kind) (R : ℕ) (prev : Mtx ℝ) (z : ℕ → ℕ → ℝ) (L L' : Layer) : Prop :=
  ∃ G : Mtx ℝ, WeightsOk G ∧ G.rows = K.m ∧ G.cols = K.n + 1 ∧
    (∀ c < K.m, ∀ i < K.n, el G c i = (∑ r ∈ Finset.range R, z r c * el prev r i) / R) ∧
    (∀ c < K.m, el G c K.n = (∑ r ∈ Finset.range R, z r c) / R) ∧
    applyGrad M.env (K.o.app L.g.t).cfg (K.o.app L.g.t).blocked (K.o.app L.g.t).draw { L.g.s with W := L.W, G := G } (some L'.g.s) ∧
    L'.W = L'.g.s.W ∧ L'.g.p = L.g.p ∧ L'.g.t = L.g.t + 1

/-- The objects keep their headers: only numbers are written. -/
def SameHeader (A B : Mtx ℝ) : Prop := B = { A with data := B.data }

end Nntl.Calls
