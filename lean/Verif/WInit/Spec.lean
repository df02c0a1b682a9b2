import Verif.WInit.Model
import Verif.Norm.Spec
/-! What initialisation of weights is expected to do. -/
namespace Nntl.WInit
open Nntl.Norm
variable {K : Type} [Field K] [LinearOrder K]

mutual
/-- The layers in the order of processing: a pack after its inner layers. -/
def Tree.order : Tree → List Nat
  | .node k inner => orderAll inner ++ [k]
def orderAll : List Tree → List Nat
  | [] => []
  | t :: ts => t.order ++ orderAll ts
end

/-- The user asked to normalise layer `k`. -/
def Requested (N : Net K) (k : Nat) : Prop :=
  N.learnable k = true ∧ ((N.setts k).normCentral = true ∨ (N.setts k).normScale = true) ∧ 0 < (N.setts k).maxTries

/-- Only the activation function of layer `k` is switched off (if `b`). -/
def only (k : Nat) (b : Bool) : Nat → Bool := fun j => if j = k then b else false

/-- The scale and the central value asked for are within tolerance. -/
def InTol (s : Setts K) (m : Meas K) : Prop :=
  (s.normScale = true → |m.scale - s.targetScale| < s.scaleTol) ∧ (s.normCentral = true → |m.central - s.targetCentral| < s.centralTol)

/-- Layer `k` of the network with weights `ws` is as `P` says: every neuron of it, or the layer as a whole, as the user chose. -/
def LayerIs (P : Setts K → Meas K → Prop) (N : Net K) (ws : Nat → Nat → K) (k : Nat) : Prop :=
  if (N.setts k).individual then ∀ n < N.rows k, P (N.setts k).toSetts (N.measN (only k (N.setts k).overPre) ws k n)
  else P (N.setts k).toSetts (N.meas (only k (N.setts k).overPre) ws k)

/-- Information flows upwards: the activations of a layer do not depend on the layers processed later, and those of a neuron depend only on its own row of the weights
of its layer. -/
structure Upward (N : Net K) (l : List Nat) : Prop where
  layer : ∀ l1 k l2, l = l1 ++ k :: l2 → ∀ ign ws ws', (∀ j, j ∉ l2 → ws j = ws' j) → N.meas ign ws k = N.meas ign ws' k
  neuron : ∀ l1 k l2, l = l1 ++ k :: l2 → ∀ ign ws ws' n, n < N.rows k → (∀ j, j ∉ l2 → j ≠ k → ws j = ws' j) →
    (∀ c < N.cols k, ws k (n + N.rows k * c) = ws' k (n + N.rows k * c)) → N.measN ign ws k n = N.measN ign ws' k n

/-- Sizes and indexes of layers are what they are in a network: there are neurons, there is at least the bias column, index 0 is the input layer. -/
structure Sane (N : Net K) (l : List Nat) : Prop where
  rows : ∀ k ∈ l, 0 < N.rows k
  cols : ∀ k ∈ l, 0 < N.cols k
  nodup : l.Nodup
  pos : 0 ∉ l
  ex : ∀ k, (N.ex k).Ok

/-- `w'` is `w` with the weights of neuron `r` (bias included) multiplied by `a r` and then `b r` added to its bias; memory behind the matrix is kept. -/
structure Rescaled (rows cols : Nat) (a b : Nat → K) (w w' : Nat → K) : Prop where
  cell : ∀ r < rows, ∀ c < cols, w' (r + rows * c) = a r * w (r + rows * c) + if c + 1 = cols then b r else 0
  rest : ∀ k, rows * cols ≤ k → w' k = w k

end Nntl.WInit
