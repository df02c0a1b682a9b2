import Verif.Kernel.RowSpec
import Mathlib.Algebra.Field.Rat
import Mathlib.Algebra.BigOperators.Group.List.Basic
/-! Specification of accuracy and loss, independent of batches. A data set is a function of sample and column. -/
namespace Nntl.Eval
open Nntl.Matrix Nntl.Kernel
variable {α : Type}

/-- The batch holds the samples of `Y` from `s` on, `C` columns. -/
def IsBatch (Y : Nat → Nat → α) (C s : Nat) (m : Mtx α) : Prop :=
  0 < m.rows ∧ m.cols = C ∧ ∀ r c, r < m.rows → c < C → m.data (r + m.rows * c) = Y (s + r) c

/-- The batches hold the samples `[s,t)` of `Y` in order. -/
def Batches (Y : Nat → Nat → α) (C : Nat) : Nat → List (Mtx α) → Nat → Prop
  | s, [], t => s = t
  | s, m :: ms, t => IsBatch Y C s m ∧ Batches Y C (s + m.rows) ms t

/-- Number of (sample, column) pairs among the first `N` samples for which truth and prediction are on the same side of the
threshold. -/
def binAccuracy [LinearOrder α] (frac : α) (Y P : Nat → Nat → α) (N C : Nat) : Nat :=
  ((List.range N).map fun i => (List.range C).countP fun c => decide (Y i c > frac) == decide (P i c > frac)).sum

/-- The same, but with a threshold of their own for the truth (`fy`) and for the predictions (`fp`). -/
def binAccuracy2 [LinearOrder α] (fy fp : α) (Y P : Nat → Nat → α) (N C : Nat) : Nat :=
  ((List.range N).map fun i => (List.range C).countP fun c => decide (Y i c > fy) == decide (P i c > fp)).sum

/-- Every sample has its maximum in exactly one column. -/
def UniqueMax [LinearOrder α] (Y : Nat → Nat → α) (N C : Nat) : Prop :=
  ∀ i, i < N → ∀ a b, IsSomeMax (Y i) C a → IsSomeMax (Y i) C b → a = b

/-- `n` is the number of samples among the first `N` whose truth and prediction are greatest in the same column. -/
def IsHotAccuracy [LinearOrder α] (Y P : Nat → Nat → α) (N C n : Nat) : Prop :=
  ∃ good : Nat → Bool, (∀ i, i < N → (good i = true ↔ ∃ a, IsSomeMax (Y i) C a ∧ IsSomeMax (P i) C a)) ∧ n = (List.range N).countP good

/-- Mean of the losses of all samples. -/
def meanLoss (l : List ℚ) : ℚ := l.sum / (l.length : ℚ)

end Nntl.Eval
