import Verif.LossAdd.Model
/-! What is said about loss addendums, without the functions of the model. -/
namespace Nntl.LossAdd
open Nntl.Matrix

/-- The scale of the addendum at index `i` with type `t` after a call, if it was `x` before. -/
def scaleStep (i t : Nat) (x : Rat) : Op → Rat
  | .scaleAt j y => if j = i then y else x
  | .scaleOf u y => if u = t then y else x
  | .set u y _ => if u = t then y else x
  | _ => x

/-- Whether the addendum leaves the weights of biases out, likewise. -/
def ignoreStep (i t : Nat) (b : Bool) : Op → Bool
  | .ignoreAt j c => if j = i then c else b
  | .ignoreOf u c => if u = t then c else b
  | .set u _ c => if u = t then c else b
  | _ => b

/-- What was asked for last: scale 0 and biases left out, unless a call said otherwise. -/
def askedScale (ops : List Op) (i t : Nat) : Rat := ops.foldl (scaleStep i t) 0
def askedIgnore (ops : List Op) (i t : Nat) : Bool := ops.foldl (ignoreStep i t) true

/-- The call names an addendum of the tuple. -/
def Names (ks : List Kind) : Op → Prop
  | .scaleAt i _ => i < ks.length
  | .ignoreAt i _ => i < ks.length
  | .scaleOf t _ => ∃ k ∈ ks, k.id = t
  | .ignoreOf t _ => ∃ k ∈ ks, k.id = t
  | .set t _ _ => ∃ k ∈ ks, k.id = t

/-- No type occurs twice. -/
def Distinct (ks : List Kind) : Prop := (ks.map Kind.id).Nodup

/-- Element of a matrix stored by columns. -/
def entry (m : Mtx Rat) (r c : Nat) : Rat := m.data (r + m.rows * c)

/-- Weights (or their gradient): memory is there, at least one column besides the one of the biases, which is not an emulated one. -/
def IsWeights (m : Mtx Rat) : Prop := m.cap ≠ 0 ∧ m.emul = false ∧ 2 ≤ m.cols ∧ m.rows * m.cols ≤ m.maxSize

/-- Activations of `R` samples and `n` neurons, with or without a column of biases. -/
def IsActs (m : Mtx Rat) (R n : Nat) : Prop :=
  m.cap ≠ 0 ∧ m.bir = false ∧ m.rows = R ∧ m.cols = n + m.emul.toNat ∧ m.rows * m.cols ≤ m.maxSize ∧ 0 < R ∧ 0 < n

/-- The gradient with respect to them. -/
def IsGrad (m : Mtx Rat) (R n : Nat) : Prop := m.emul = false ∧ m.bir = false ∧ m.rows = R ∧ m.cols = n

/-- An element of the gradient after `s * t` was appended to it; `nz`: only if there is a gradient. -/
def appended (nz : Bool) (s t d : Rat) : Rat := if nz = true ∧ d = 0 then d else d + s * t

/-- Only elements of the matrix differ. -/
def SameBut (a b : Mtx Rat) : Prop := b = { a with data := b.data } ∧ ∀ p, a.rows * a.cols ≤ p → b.data p = a.data p

/-- A whole training batch: activations of the forward pass, those of the backward pass, gradient. -/
structure Batch where
  act : Mtx Rat
  act' : Mtx Rat
  g : Mtx Rat

/-- A batch of at most `R` samples for `n` neurons, `gate` of which are of the gate of a pack (then the activations have biases). -/
def Batch.Ok (b : Batch) (gate R n : Nat) : Prop :=
  ∃ S, S ≤ R ∧ IsActs b.act S n ∧ IsActs b.act' S n ∧ IsGrad b.g S n ∧ (0 < gate → b.act.emul = true ∧ b.act'.emul = true)

/-- Settings between batches, and batches. -/
inductive Step
  | scale (i : Nat) (x : Rat)
  | batch (b : Batch)

/-- The calls a step is made of. -/
def Step.evs : Step → List Ev
  | .scale i x => [.scale i x]
  | .batch b => [.fprop b.act, .bprop b.act' b.g]

def Step.Ok (gate R n k : Nat) : Step → Prop
  | .scale i _ => i < k
  | .batch b => b.Ok gate R n

/-- The scale an addendum has after the steps. -/
def Step.scaleOf (i : Nat) (x : Rat) : Step → Rat
  | .scale j y => if j = i then y else x
  | .batch _ => x

def scaleNow (ss : List Step) (i : Nat) (x : Rat) : Rat := ss.foldl (Step.scaleOf i) x

end Nntl.LossAdd
