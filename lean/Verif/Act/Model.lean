import Verif.Kernel.Each
import Mathlib.Analysis.SpecialFunctions.Log.Basic
/-! Activation functions: `nntl/activations/*.h` and their kernels in `/repo/nntl/interface/math/mathn.h` (line numbers without a file name
refer to it). Numbers are exact reals, so `log1p(v)` is `log (1 + v)` and `expm1(v)` is `exp v - 1` (`nntl/interface/math/_base.h` 50–67).

The functions `k…` are the bodies of the loops over elements. -/
set_option linter.dupNamespace false
namespace Nntl.Act
open Nntl.Kernel

/-- `math::log1p`, `nntl/interface/math/_base.h` 52–59. -/
noncomputable def log1p (v : ℝ) : ℝ := Real.log (1 + v)

/-- `math::expm1`, `nntl/interface/math/_base.h` 61–67. -/
noncomputable def expm1 (v : ℝ) : ℝ := Real.exp v - 1

/-! ### Bodies of the kernels -/

/-- `_isigm_st` 3055–3078. -/
noncomputable def kSigm (v : ℝ) : ℝ := 1 / (1 + Real.exp (-v))
/-- `_idsigm_st` 3099–3106. -/
def kDSigm (v : ℝ) : ℝ := v * (1 - v)

/-- `_irelu_st` 3165–3175. -/
noncomputable def kRelu (v : ℝ) : ℝ := if v ≤ 0 then 0 else v
/-- `_idrelu_st` 3193–3201. -/
noncomputable def kDRelu (v : ℝ) : ℝ := if v ≤ 0 then 0 else 1

/-- `_ileakyrelu_st` 3219–3230. -/
noncomputable def kLeaky (leak v : ℝ) : ℝ := if v < 0 then v * leak else v
/-- `_idleakyrelu_st` 3247–3255. -/
noncomputable def kDLeaky (leak v : ℝ) : ℝ := if v ≤ 0 then leak else 1

/-- `_ielu_st` 3273–3285. -/
noncomputable def kElu (alpha v : ℝ) : ℝ := if v < 0 then expm1 v * alpha else v
/-- `_idelu_st` 3302–3311. -/
noncomputable def kDElu (alpha v : ℝ) : ℝ := if v < 0 then v + alpha else 1
/-- `_ielu_unitalpha_st` 3329–3339. -/
noncomputable def kEluUa (v : ℝ) : ℝ := if v < 0 then expm1 v else v
/-- `_idelu_unitalpha_st` 3357–3365. -/
noncomputable def kDEluUa (v : ℝ) : ℝ := if v < 0 then v + 1 else 1

/-- `_ielogu_st` 3384–3398. -/
noncomputable def kElogu (alpha b v : ℝ) : ℝ := if v < 0 then expm1 v * alpha else log1p v * (1 / Real.log b)
/-- `_idelogu_st` 3415–3431. -/
noncomputable def kDElogu (alpha b v : ℝ) : ℝ :=
  if v < 0 then v + alpha else Real.exp (v * (-Real.log b) + (-Real.log (Real.log b)))
/-- `_ielogu_ua_st` 3449–3463. -/
noncomputable def kEloguUa (b v : ℝ) : ℝ := if v < 0 then expm1 v else log1p v * (1 / Real.log b)
/-- `_idelogu_ua_st` 3479–3492. -/
noncomputable def kDEloguUa (b v : ℝ) : ℝ := if v < 0 then v + 1 else Real.exp (v * (-Real.log b) + (-Real.log (Real.log b)))
/-- `_ielogu_nb_st` 3510–3522. -/
noncomputable def kEloguNb (alpha v : ℝ) : ℝ := if v < 0 then expm1 v * alpha else log1p v
/-- `_idelogu_nb_st` 3539–3549. -/
noncomputable def kDEloguNb (alpha v : ℝ) : ℝ := if v < 0 then v + alpha else Real.exp (-v)
/-- `_ielogu_ua_nb_st` 3566–3576. -/
noncomputable def kEloguUaNb (v : ℝ) : ℝ := if v < 0 then expm1 v else log1p v
/-- `_idelogu_ua_nb_st` 3592–3600. -/
noncomputable def kDEloguUaNb (v : ℝ) : ℝ := if v < 0 then v + 1 else Real.exp (-v)

/-- `_iloglogu_st` 3619–3639. -/
noncomputable def kLoglogu (bn bp v : ℝ) : ℝ := (if v < 0 then -1 / Real.log bn else 1 / Real.log bp) * log1p |v|
/-- `_idloglogu_st` 3656–3671. -/
noncomputable def kDLoglogu (bn bp v : ℝ) : ℝ :=
  Real.exp (if v < 0 then v * Real.log bn + (-Real.log (Real.log bn)) else v * (-Real.log bp) + (-Real.log (Real.log bp)))
/-- `_iloglogu_nbn_st` 3688–3705. -/
noncomputable def kLogloguNbn (bp v : ℝ) : ℝ := if v < 0 then -log1p (-v) else 1 / Real.log bp * log1p v
/-- `_idloglogu_nbn_st` 3721–3733. -/
noncomputable def kDLogloguNbn (bp v : ℝ) : ℝ := Real.exp (if v < 0 then v else v * (-Real.log bp) + (-Real.log (Real.log bp)))
/-- `_iloglogu_nbp_st` 3749–3766. -/
noncomputable def kLogloguNbp (bn v : ℝ) : ℝ := if v < 0 then -1 / Real.log bn * log1p (-v) else log1p v
/-- `_idloglogu_nbp_st` 3782–3794. -/
noncomputable def kDLogloguNbp (bn v : ℝ) : ℝ := Real.exp (if v < 0 then v * Real.log bn + (-Real.log (Real.log bn)) else -v)
/-- `_iloglogu_nbn_nbp_st` 3810–3823. -/
noncomputable def kLogloguNbnNbp (v : ℝ) : ℝ := if v < 0 then -log1p (-v) else log1p v
/-- `_idloglogu_nbn_nbp_st` 3839–3850. -/
noncomputable def kDLogloguNbnNbp (v : ℝ) : ℝ := Real.exp (if v < 0 then v else -v)

/-- `_ilogu_st` 3870–3881. -/
noncomputable def kLogu (b v : ℝ) : ℝ := if v ≤ 0 then 0 else log1p v * (1 / Real.log b)
/-- `_idlogu_st` 3898–3910. -/
noncomputable def kDLogu (b v : ℝ) : ℝ := if v ≤ 0 then 0 else Real.exp (v * (-Real.log b) + (-Real.log (Real.log b)))
/-- `_ilogu_nb_st` 3927–3936. -/
noncomputable def kLoguNb (v : ℝ) : ℝ := if v ≤ 0 then 0 else log1p v
/-- `_idlogu_nb_st` 3952–3960. -/
noncomputable def kDLoguNb (v : ℝ) : ℝ := if v ≤ 0 then 0 else Real.exp (-v)

/-- `_isoftsign_uc_st` 3981–3992. -/
noncomputable def kSoftsignUc (a v : ℝ) : ℝ := v / (a + |v|)
/-- `_isoftsign_st` 4009–4022. -/
noncomputable def kSoftsign (a c v : ℝ) : ℝ := c * v / (a + |v|)
/-- `_idsoftsign_ua_uc_st` 4039–4049. -/
def kDSoftsignUaUc (v : ℝ) : ℝ := (1 - |v|) * (1 - |v|)
/-- `_idsoftsign_st` 4066–4081. -/
noncomputable def kDSoftsign (a c v : ℝ) : ℝ := 1 / (c * a) * ((c - |v|) * (c - |v|))

/-- `_isoftsigm_st` 4099–4110. -/
noncomputable def kSoftsigm (a v : ℝ) : ℝ := 1 / 2 + 1 / 2 * v / (a + |v|)
/-- `_idsoftsigm_st` 4127–4140. -/
noncomputable def kDSoftsigm (a v : ℝ) : ℝ := 2 / a * (1 / 2 - |v - 1 / 2|) * (1 / 2 - |v - 1 / 2|)

/-- `_iselu_st` 4246–4258; `al` is the product of alpha and lambda. -/
noncomputable def kSelu (al l v : ℝ) : ℝ := if v < 0 then expm1 v * al else v * l
/-- `_idselu_st` 4275–4288. -/
noncomputable def kDSelu (al l v : ℝ) : ℝ := if v < 0 then v + al else l

/-- `_istep_st` 4308–4316. -/
noncomputable def kStep (v : ℝ) : ℝ := if v < 0 then 0 else 1

/-! ### Activation classes -/

/-- Activation classes with their template parameters (whole numbers, as in the code). -/
inductive Act
  /-- `sigm`, `nntl/activations/sigm.h` 46–65 -/
  | sigm
  /-- `relu`, `nntl/activations/relu_family.h` 46–66 -/
  | relu
  /-- `leaky_relu`, `nntl/activations/relu_family.h` 75–98 -/
  | leakyRelu (leakKInv100 : ℕ)
  /-- `elu`, `nntl/activations/elu.h` 43–81 -/
  | elu (alpha1e3 : ℕ)
  /-- `elogu`, `nntl/activations/elogu.h` 46–105 -/
  | elogu (alpha1e3 logBase1e3 : ℕ)
  /-- `loglogu`, `nntl/activations/loglogu.h` 46–107 -/
  | loglogu (logBaseNeg1e3 logBasePos1e3 : ℕ)
  /-- `logu`, `nntl/activations/logu.h` 46–80 -/
  | logu (logBasePos1e3 : ℕ)
  /-- `softsign`, `nntl/activations/softsign.h` 48–87 -/
  | softsign (a1e6 c1e6 : ℕ)
  /-- `softsigm`, `nntl/activations/softsigm.h` 47–70 -/
  | softsigm (a1e3 : ℕ)
  /-- `selu`, `nntl/activations/selu.h` 48–77 -/
  | selu (alpha1e9 lambda1e9 : ℤ)
  /-- `step`, `nntl/activations/step.h` 46–64 -/
  | step
  /-- `identity`, `nntl/activations/identity.h` 45–70 -/
  | identity

/-- `real_t(x) / real_t(1000.0)`. -/
noncomputable def milli (x : ℕ) : ℝ := x / 1000

/-- `softsign::C`, `nntl/activations/softsign.h` 57. -/
noncomputable def softsignC (c1e6 : ℕ) : ℝ := if c1e6 = 0 then 15925374197228312 / 10 ^ 16 else c1e6 / 10 ^ 6

/-- `SNN_td::AlphaExt`, `nntl/_SNN_common.h`. -/
noncomputable def seluAlpha (alpha1e9 : ℤ) : ℝ := if alpha1e9 ≠ 0 then alpha1e9 / 10 ^ 9 else 16732632423543772848170429916717 / 10 ^ 31

/-- `SNN_td::LambdaExt`, `nntl/_SNN_common.h`. -/
noncomputable def seluLambda (lambda1e9 : ℤ) : ℝ :=
  if lambda1e9 ≠ 0 then lambda1e9 / 10 ^ 9 else 10507009873554804934193349852946 / 10 ^ 31

/-- `f()` of the classes: which kernel is called with which arguments (`nntl/activations/*.h`, `enable_if` on the template parameters). -/
noncomputable def Act.f : Act → ℝ → ℝ
  | .sigm => kSigm
  | .relu => kRelu
  | .leakyRelu k => kLeaky (100 / k)
  | .elu a => if a = 1000 then kEluUa else kElu (milli a)
  | .elogu a b =>
    if a = 1000 then (if b = 2718 then kEloguUaNb else kEloguUa (milli b))
    else (if b = 2718 then kEloguNb (milli a) else kElogu (milli a) (milli b))
  | .loglogu n p =>
    if n = 2718 then (if p = 2718 then kLogloguNbnNbp else kLogloguNbn (milli p))
    else (if p = 2718 then kLogloguNbp (milli n) else kLoglogu (milli n) (milli p))
  | .logu b => if b = 2718 then kLoguNb else kLogu (milli b)
  | .softsign a c => if c = 1000000 then kSoftsignUc (a / 10 ^ 6) else kSoftsign (a / 10 ^ 6) (softsignC c)
  | .softsigm a => kSoftsigm (milli a)
  | .selu a l => kSelu (seluAlpha a * seluLambda l) (seluLambda l)
  | .step => kStep
  | .identity => id

/-- `df()` of the classes, given the value of the activation. -/
noncomputable def Act.df : Act → ℝ → ℝ
  | .sigm => kDSigm
  | .relu => kDRelu
  | .leakyRelu k => kDLeaky (100 / k)
  | .elu a => if a = 1000 then kDEluUa else kDElu (milli a)
  | .elogu a b =>
    if a = 1000 then (if b = 2718 then kDEloguUaNb else kDEloguUa (milli b))
    else (if b = 2718 then kDEloguNb (milli a) else kDElogu (milli a) (milli b))
  | .loglogu n p =>
    if n = 2718 then (if p = 2718 then kDLogloguNbnNbp else kDLogloguNbn (milli p))
    else (if p = 2718 then kDLogloguNbp (milli n) else kDLoglogu (milli n) (milli p))
  | .logu b => if b = 2718 then kDLoguNb else kDLogu (milli b)
  | .softsign a c => if a = 1000000 ∧ c = 1000000 then kDSoftsignUaUc else kDSoftsign (a / 10 ^ 6) (softsignC c)
  | .softsigm a => kDSoftsigm (milli a)
  | .selu a l => kDSelu (seluAlpha a * seluLambda l) (seluLambda l)
  | .step => fun _ => 0
  | .identity => fun _ => 1

/-- `bFIsZeroStable`, the last argument of `_i_activation` in the definition of each class. -/
def Act.zeroStable : Act → Bool
  | .sigm | .softsigm _ | .step => false
  | _ => true

/-- Assertions of the kernels on their arguments (`leak > 0`, `alpha > 0`, bases greater than one, `a > 0`, `c > 0`), and division by zero
in the definition of the arguments. For `selu` the kernels assert only that the product of alpha and lambda is positive; zero means the
default value. -/
def Act.Args : Act → Prop
  | .leakyRelu k => 0 < k
  | .elu a => 0 < a
  | .elogu a b => 0 < a ∧ 1000 < b
  | .loglogu n p => 1000 < n ∧ 1000 < p
  | .logu b => 1000 < b
  | .softsign a _ => 0 < a
  | .softsigm a => 0 < a
  | .selu a l => 0 ≤ a ∧ 0 ≤ l
  | _ => True

/-! ### Kernels on matrices -/

/-- `f(srcdest)`: `numel_no_bias()` elements, cut in pieces for the threads if there are enough of them (threshold `thr`); every kernel has
the form `if (n < thr) x_st(…) else x_mt(…)`. `rs` are the ranges of the threads. For the identity activation there is no call
(`nntl/activations/identity.h` 54–59), which is the same. -/
def fRun (thr : Nat) (rs : List Threads.ParRange) (act : Act) (n : Nat) (m m' : Nat → ℝ) : Prop :=
  Runs (if n < thr then .st else .mt rs) n (eachSteps fun _ v => act.f v) m m'

/-- `df(f_df)`: all elements of a matrix without biases. -/
def dfRun (thr : Nat) (rs : List Threads.ParRange) (act : Act) (n : Nat) (m m' : Nat → ℝ) : Prop :=
  Runs (if n < thr then .st else .mt rs) n (eachSteps fun _ v => act.df v) m m'

end Nntl.Act
