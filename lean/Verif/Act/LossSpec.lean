import Verif.Act.LossModel
import Mathlib.Algebra.BigOperators.Group.Finset.Basic
import Mathlib.Analysis.SpecialFunctions.Log.Deriv
/-! What the losses are meant to be. -/
set_option linter.dupNamespace false
namespace Nntl.Act

/-- Loss of one element with the answer `y` as a function of the activation. -/
noncomputable def Out.ideal : Out → ℝ → ℝ → ℝ
  | .sigmQuad, y, a | .softsigmQuad _, y, a | .identQuad, y, a => (a - y) ^ 2 / 2
  | .sigmXent, y, a | .softsigmXent _, y, a => -(y * Real.log a) - (1 - y) * Real.log (1 - a)
  -- errors upwards where the answer is below the boundary weigh more
  | .custom (.wFp w b), y, a => (if y < micro b ∧ y < a then micro w ^ 2 else 1) * (a - y) ^ 2 / 2
  | .custom (.wFp2 w o b), y, a => (if y < micro b ∧ y < a then micro w ^ 2 else micro o ^ 2) * (a - y) ^ 2 / 2
  | .custom (.wRes w b), y, a => (if y < micro b ∧ y < a then micro w * (a - micro b) + micro b - y else a - y) ^ 2 / 2

/-- What the description of the weighted losses says (`nntl/activations/identity.h` 93–97, `nntl/activations/_loss_parts.h` 105): they apply if the
answer is below the boundary and the activation above the *boundary*. -/
noncomputable def Custom.described : Custom → ℝ → ℝ → ℝ
  | .wFp w b, y, a => (if y < micro b ∧ micro b < a then micro w ^ 2 else 1) * (a - y) ^ 2 / 2
  | .wFp2 w o b, y, a => (if y < micro b ∧ micro b < a then micro w ^ 2 else micro o ^ 2) * (a - y) ^ 2 / 2
  | .wRes w b, y, a => (if y < micro b ∧ micro b < a then micro w * (a - micro b) + micro b - y else a - y) ^ 2 / 2

/-- A number cut to the bounds, if there are any. -/
noncomputable def cut : Option (ℝ × ℝ) → ℝ → ℝ
  | none, d => d
  | some (lo, hi), d => max lo (min hi d)

/-- The activation as a function of the preactivation; `lin`: the activation function is switched off. -/
noncomputable def Out.value (o : Out) (lin : Bool) (z : ℝ) : ℝ := if lin then z else o.act.fn z

end Nntl.Act
