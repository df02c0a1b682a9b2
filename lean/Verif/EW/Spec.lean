import Verif.Matrix.Model
/-! Specification of element-wise operations: what happens to the elements at rows and columns of a matrix, to its biases and to everything else. -/
namespace Nntl.EW
open Nntl.Matrix
variable {α : Type}

/-- The element `(r, c)` is a bias: of the last column, or of the last row if samples are columns. -/
def IsBias (A : Mtx α) (r c : Nat) : Prop := A.emul = true ∧ (if A.bir = true then r + 1 = A.rows else c + 1 = A.cols)

/-- The element `(r, c)` exists and is not a bias. -/
def IsData (A : Mtx α) (r c : Nat) : Prop := r < A.rows ∧ c < A.cols ∧ ¬ IsBias A r c

/-- A matrix with memory and with at least one element that is not a bias. -/
structure Usable (A : Mtx α) : Prop where
  mem : A.rows * A.cols ≤ A.cap
  some : ∃ r c, IsData A r c

/-- Everything but the contents is the same. -/
structure SameShape (A A' : Mtx α) : Prop where
  rows : A'.rows = A.rows
  cols : A'.cols = A.cols
  cap : A'.cap = A.cap
  emul : A'.emul = A.emul
  ext : A'.ext = A.ext
  holey : A'.holey = A.holey
  bir : A'.bir = A.bir
  maxSize : A'.maxSize = A.maxSize

/-- Every element that is not a bias has changed from `v` to `g r c v`, biases and memory behind the matrix are the same. -/
structure DataBecomes (g : Nat → Nat → α → α) (A A' : Mtx α) : Prop where
  shape : SameShape A A'
  data : ∀ r c, IsData A r c → A'.get r c = (A.get r c).map (g r c)
  bias : ∀ r c, IsBias A r c → A'.get r c = A.get r c
  outside : ∀ k, A.rows * A.cols ≤ k → A'.data k = A.data k

/-- Every element has changed from `v` to `g r c v`, memory behind the matrix is the same. -/
structure AllBecome (g : Nat → Nat → α → α) (A A' : Mtx α) : Prop where
  shape : SameShape A A'
  data : ∀ r c, r < A.rows → c < A.cols → A'.get r c = (A.get r c).map (g r c)
  outside : ∀ k, A.rows * A.cols ≤ k → A'.data k = A.data k

/-- The element `(r, c)` of a matrix that has it. -/
def elem (A : Mtx α) (r c : Nat) : α := A.data (r + A.rows * c)

/-- The sign of a number as a number: `1`, `-1` or `0`. -/
def signum [LT α] [DecidableLT α] [OfNat α 0] (v : α) : Int := if 0 < v then 1 else if v < 0 then -1 else 0

end Nntl.EW
