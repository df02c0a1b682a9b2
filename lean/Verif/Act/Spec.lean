import Verif.Act.Model
import Mathlib.Analysis.SpecialFunctions.Log.Base
import Mathlib.Analysis.Calculus.Deriv.Basic
/-! What the activation functions are meant to be: formulas from their descriptions (`nntl/activations/*.h` and the comments before the kernels
in `nntl/interface/math/mathn.h`). -/
set_option linter.dupNamespace false
namespace Nntl.Act

/-- Base of a logarithm: thousandths; 2718 stands for `e`. -/
noncomputable def base (b1e3 : ℕ) : ℝ := if b1e3 = 2718 then Real.exp 1 else b1e3 / 1000

/-- Scale of softsign: millionths; 0 stands for 1.5925374197228312. -/
noncomputable def scaleOfSoftsign (c1e6 : ℕ) : ℝ := if c1e6 = 0 then 15925374197228312 / 10 ^ 16 else c1e6 / 10 ^ 6

/-- Constants of SELU: billionths; 0 stands for the published values 1.6732632423543772848170429916717 and 1.0507009873554804934193349852946. -/
noncomputable def alphaOfSelu (alpha1e9 : ℤ) : ℝ := if alpha1e9 ≠ 0 then alpha1e9 / 10 ^ 9 else 16732632423543772848170429916717 / 10 ^ 31
noncomputable def lambdaOfSelu (lambda1e9 : ℤ) : ℝ :=
  if lambda1e9 ≠ 0 then lambda1e9 / 10 ^ 9 else 10507009873554804934193349852946 / 10 ^ 31

noncomputable def Act.fn : Act → ℝ → ℝ
  | .sigm, z => 1 / (1 + Real.exp (-z))
  | .relu, z => max 0 z
  | .leakyRelu k, z => if z < 0 then z / (k / 100) else z
  | .elu a, z => if z < 0 then a / 1000 * (Real.exp z - 1) else z
  | .elogu a b, z => if z < 0 then a / 1000 * (Real.exp z - 1) else Real.logb (base b) (1 + z)
  | .loglogu n p, z => if z < 0 then -Real.logb (base n) (1 - z) else Real.logb (base p) (1 + z)
  | .logu b, z => if z < 0 then 0 else Real.logb (base b) (1 + z)
  | .softsign a c, z => scaleOfSoftsign c * z / (a / 10 ^ 6 + |z|)
  | .softsigm a, z => (1 + z / (a / 1000 + |z|)) / 2
  | .selu a l, z => lambdaOfSelu l * if z < 0 then alphaOfSelu a * (Real.exp z - 1) else z
  | .step, z => if z < 0 then 0 else 1
  | .identity, z => z

end Nntl.Act
