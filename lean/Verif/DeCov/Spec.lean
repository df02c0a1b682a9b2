import Mathlib.Data.Real.Basic
import Mathlib.Algebra.BigOperators.Group.Finset.Basic

/-!
The DeCov regulariser as it is written in a paper. `X r i` is the activation of neuron `i` for sample `r`; there are `N` samples and `k`
neurons.
-/
namespace Nntl.DeCov

open Finset

/-- Mean activation of neuron `i`. -/
noncomputable def mu (N : ℕ) (X : ℕ → ℕ → ℝ) (i : ℕ) : ℝ := (∑ r ∈ range N, X r i) / N

/-- Covariance of the neurons `i` and `j` over the batch. -/
noncomputable def cov (N : ℕ) (X : ℕ → ℕ → ℝ) (i j : ℕ) : ℝ := (∑ r ∈ range N, (X r i - mu N X i) * (X r j - mu N X j)) / N

/-- Half of the sum of the squared covariances of different neurons, divided by `k - 1`. -/
noncomputable def penalty (N k : ℕ) (X : ℕ → ℕ → ℝ) : ℝ :=
  (∑ i ∈ range k, ∑ j ∈ (range k).erase i, cov N X i j ^ 2) / 2 / ((k : ℝ) - 1)

/-- The gradient as the code's comment has it, with the division by `k - 1`. -/
noncomputable def slope (N k : ℕ) (X : ℕ → ℕ → ℝ) (r a : ℕ) : ℝ :=
  2 / (N * ((k : ℝ) - 1)) * ∑ j ∈ (range k).erase a, cov N X a j * (X r j - mu N X j)

end Nntl.DeCov
