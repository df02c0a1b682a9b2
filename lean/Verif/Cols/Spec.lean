import Verif.Cols.Model
import Mathlib.Algebra.BigOperators.Group.Finset.Basic

/-!
What the operations on columns have to deliver, in terms of elements.
-/
namespace Nntl.Cols

open Nntl.Matrix
open Finset

/-- Element `(r, c)`. -/
def el (m : Mtx ℝ) (r c : ℕ) : ℝ := m.data (m.cell r c)

/-- The mean of column `c`. -/
noncomputable def mean (A : Mtx ℝ) (c : ℕ) : ℝ := (∑ r ∈ range A.rows, el A r c) / A.rows

open Classical in
/-- The rows whose element in column `c` differs from `cp`. -/
noncomputable def others (A : Mtx ℝ) (cp : ℝ) (c : ℕ) : Finset ℕ := (range A.rows).filter fun r => el A r c ≠ cp

/-- The object keeps its header, its elements become `f`, memory behind the matrix is left alone. -/
def Becomes (A A' : Mtx ℝ) (f : ℕ → ℕ → ℝ) : Prop :=
  A' = { A with data := A'.data } ∧ (∀ k, A.rows * A.cols ≤ k → A'.data k = A.data k) ∧
  ∀ r c, r < A.rows → c < A.cols → el A' r c = f r c

/-- The cells of one triangle of an `n × n` matrix, without the diagonal. -/
def triangle (lower : Bool) (n : ℕ) : Finset (ℕ × ℕ) :=
  (range n ×ˢ range n).filter fun p => if lower then p.2 < p.1 else p.1 < p.2

end Nntl.Cols
