import Verif.Matrix.Model
import Mathlib.Order.Defs.LinearOrder
import Mathlib.Algebra.BigOperators.Group.List.Basic
/-! Specification of the row-wise reductions, independent of how they are computed. -/
namespace Nntl.Kernel
open Nntl.Matrix
variable {α : Type}

/-- `i` is the smallest index in `[lo,hi)` at which `f` has its maximum over `[lo,hi)`. -/
def IsFirstMax [LinearOrder α] (f : Nat → α) (lo hi i : Nat) : Prop :=
  lo ≤ i ∧ i < hi ∧ (∀ j, lo ≤ j → j < hi → f j ≤ f i) ∧ ∀ j, lo ≤ j → j < i → f j < f i

/-- `i` is an index in `[0,n)` at which `f` has its maximum. -/
def IsSomeMax [LinearOrder α] (f : Nat → α) (n i : Nat) : Prop := i < n ∧ ∀ j, j < n → f j ≤ f i

/-- `v` is the maximum of `f` over `[0,n)`. -/
def IsMaxOf [LinearOrder α] (f : Nat → α) (n : Nat) (v : α) : Prop := (∃ i, i < n ∧ f i = v) ∧ ∀ j, j < n → f j ≤ v

/-- Row `r` of a matrix. -/
def Mtx.rowOf (A : Mtx α) (r : Nat) : Nat → α := fun c => A.data (A.cell r c)

/-- Sum of row `r`. -/
def rowSum [AddCommMonoid α] (A : Mtx α) (r : Nat) : α := ((List.range A.cols).map (Mtx.rowOf A r)).sum

end Nntl.Kernel
