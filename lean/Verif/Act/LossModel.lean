import Verif.Act.Spec
import Verif.Kernel.Reduce
import Verif.Num.Softmax
set_option linter.dupNamespace false
/-! Loss functions and the gradient of the output layer. Line numbers without a file name refer to `/repo/nntl/interface/math/mathn.h`. -/
namespace Nntl.Act
open Nntl.Kernel Nntl.Threads

/-- What depends on the build: `eps` is `std::numeric_limits<real_t>::min()`, `logZero` is `real_t_limits::log_almost_zero`, `careful` is
`NNTL_CFG_CAREFULL_LOG_EXP`. -/
structure Cfg where
  eps : ℝ
  logZero : ℝ
  careful : Bool

/-! ### Values -/

/-- One step of `Y = ev - C; T = sum + Y; C = T - sum - Y; sum = T`, 4441–4445, 4536–4539 and `nntl/interface/math/smath.h` 433–438. The state is
`(sum, C)`. -/
noncomputable def kahanStep (s : ℝ × ℝ) (ev : ℝ) : ℝ × ℝ :=
  let Y := ev - s.2
  let T := s.1 + Y
  (T, T - s.1 - Y)

/-- `for (i = b; i < e; ++i)` with compensated summation. -/
noncomputable def kahanLoop (f : Nat → ℝ) (b e : Nat) : ℝ := ((List.range' b (e - b)).foldl (fun s i => kahanStep s (f i)) (0, 0)).1

/-- The same as `reduceSum`, with the compensated variant of `_reduce_vec_sum` (`nntl/interface/math/smath.h` 429–440) for the partial sums. -/
noncomputable def reduceKahan (ex : Exec) (n : Nat) (part : Nat → Nat → ℝ) : ℝ :=
  match ex with
  | .st => part 0 n
  | .mt rs => (((Exec.mt rs).calls n).foldl (fun s r => kahanStep s (part r.1 r.2)) (0, 0)).1

/-- `_iloss_quadratic_st_naive` 4397–4411: the term of element `i`. -/
noncomputable def quadTerm (a y : Nat → ℝ) (i : Nat) : ℝ := (a i - y i) * (a i - y i)

/-- `loss_quadratic` 4392–4421. -/
noncomputable def lossQuadratic (ex : Exec) (n : Nat) (a y : Nat → ℝ) : ℝ := reduceSum ex n (sumLoop (quadTerm a y)) / 2

/-- `loss_quadratic_ns` 4425–4459. -/
noncomputable def lossQuadraticNs (ex : Exec) (n : Nat) (a y : Nat → ℝ) : ℝ := reduceKahan ex n (kahanLoop (quadTerm a y)) / 2

/-- `_iloss_xentropy_st` 4472–4497: the term of element `i`; `log_eps` and `log1p_eps` are in `nntl/interface/math/_base.h` 72–89. -/
noncomputable def xentTerm (cfg : Cfg) (a y : Nat → ℝ) (i : Nat) : ℝ :=
  if 0 < y i then Real.log (a i + cfg.eps)
  else if cfg.careful then (if a i = 1 then cfg.logZero else log1p (-a i))
  else Real.log (1 + -a i + cfg.eps)

/-- `loss_xentropy` 4464–4504. -/
noncomputable def lossXentropy (cfg : Cfg) (ex : Exec) (n : Nat) (a y : Nat → ℝ) : ℝ := -reduceSum ex n (sumLoop (xentTerm cfg a y))

/-- `loss_xentropy_ns` 4506–4550. -/
noncomputable def lossXentropyNs (cfg : Cfg) (ex : Exec) (n : Nat) (a y : Nat → ℝ) : ℝ := -reduceKahan ex n (kahanLoop (xentTerm cfg a y))

/-- `_iloss_softmax_xentropy_sum_st` 4562–4575: the term of element `i`. -/
noncomputable def smTerm (cfg : Cfg) (a y : Nat → ℝ) (i : Nat) : ℝ := -y i * (if 0 < a i then Real.log (a i) else cfg.logZero)

/-- `loss_softmax_xentropy` 4557–4588. -/
noncomputable def lossSoftmax (cfg : Cfg) (ex : Exec) (n : Nat) (a y : Nat → ℝ) : ℝ := reduceSum ex n (sumLoop (smTerm cfg a y))

/-- Loss types of `nntl/activations/_loss_parts.h` with their template parameters (millionths). `Loss_quadratic` 50–60 has no `dLdZ`
and cannot be trained with, so it is left out. -/
inductive Custom
  /-- `Linear_Loss_quadWeighted_FP` 65–82, 134–145 -/
  | wFp (w1e6 bnd1e6 : ℕ)
  /-- `Linear_Loss_quadWeighted2_FP` 84–103, 147–156 -/
  | wFp2 (w1e6 o1e6 bnd1e6 : ℕ)
  /-- `Linear_Loss_quadWeighted_res_FP` 105–128, 158–170 -/
  | wRes (w1e6 bnd1e6 : ℕ)

noncomputable def micro (x : ℕ) : ℝ := x / 10 ^ 6

/-- `loss(a, y)` of these types. -/
noncomputable def Custom.loss : Custom → ℝ → ℝ → ℝ
  | .wFp w b, a, y =>
    let e := if y < micro b ∧ y < a then micro w * (a - y) else a - y
    e * e
  | .wFp2 w o b, a, y =>
    let e := (a - y) * if y < micro b ∧ y < a then micro w else micro o
    e * e
  | .wRes w b, a, y =>
    let e := if y < micro b ∧ y < a then micro w * a + micro b * (1 - micro w) - y else a - y
    e * e

/-- `dLdZ(y, a)` of these types. -/
noncomputable def Custom.dLdZ : Custom → ℝ → ℝ → ℝ
  | .wFp w b, y, a => if y < micro b ∧ y < a then micro w * micro w * (a - y) else a - y
  | .wFp2 w o b, y, a => if y < micro b ∧ y < a then micro w * micro w * (a - y) else micro o * micro o * (a - y)
  | .wRes w b, y, a =>
    if y < micro b ∧ y < a then micro w * micro w * a + micro w * (micro b * (1 - micro w)) - micro w * y else a - y

/-- `compute_loss<WlT>` 2966–3000 with `normalize`, `nntl/activations/_loss_parts.h` 38–47. -/
noncomputable def computeLoss (L : Custom) (ex : Exec) (n : Nat) (a y : Nat → ℝ) : ℝ :=
  reduceSum ex n (sumLoop fun i => L.loss (a i) (y i)) / 2

/-! ### Gradients -/

/-- Classes for the output layer whose gradient is calculated element by element. -/
inductive Out
  /-- `sigm_quad_loss`, `nntl/activations/sigm.h` 67–86 -/
  | sigmQuad
  /-- `sigm_xentropy_loss`, `nntl/activations/sigm.h` 88–113 -/
  | sigmXent
  /-- `softsigm_quad_loss`, `nntl/activations/softsigm.h` 79–98 -/
  | softsigmQuad (a1e3 : ℕ)
  /-- `softsigm_xentropy_loss`, `nntl/activations/softsigm.h` 119–139 -/
  | softsigmXent (a1e3 : ℕ)
  /-- `identity_quad_loss`, `nntl/activations/identity.h` 70–91 -/
  | identQuad
  /-- `identity_custom_loss`, `nntl/activations/identity.h` 97–120 -/
  | custom (L : Custom)

/-- The activation. -/
def Out.act : Out → Act
  | .sigmQuad | .sigmXent => .sigm
  | .softsigmQuad a | .softsigmXent a => .softsigm a
  | .identQuad | .custom _ => .identity

/-- `loss(activations, data_y)` of these classes; `ns` is the template argument that selects compensated summation
(`nntl/activations/sigm.h` 76–85, 102–112, `softsigm.h` 88–97, 128–138, `identity.h` 78–87, 114–118). -/
noncomputable def Out.lossRun (cfg : Cfg) (ns : Bool) (ex : Exec) (n : ℕ) : Out → (ℕ → ℝ) → (ℕ → ℝ) → ℝ
  | .sigmQuad, a, y | .softsigmQuad _, a, y | .identQuad, a, y => if ns then lossQuadraticNs ex n a y else lossQuadratic ex n a y
  | .sigmXent, a, y | .softsigmXent _, a, y => if ns then lossXentropyNs cfg ex n a y else lossXentropy cfg ex n a y
  | .custom L, a, y => computeLoss L ex n a y

/-- `dLdZ`: body of the loop over elements. `sigm_xentropy_loss` and the identity call `evSub_ip` 2154–2182. -/
noncomputable def Out.dLdZ : Out → ℝ → ℝ → ℝ
  -- `_idSigmQuadLoss_dZ_st` 3131–3145
  | .sigmQuad, y, a => (a - y) * a * (1 - a)
  | .sigmXent, y, a => a - y
  -- `_idSoftSigmQuadLoss_dZ_st` 4164–4181
  | .softsigmQuad A, y, a => (a - y) * (2 / milli A) * (1 / 2 - |a - 1 / 2|) * (1 / 2 - |a - 1 / 2|)
  -- `_idSoftSigmXEntropyLoss_dZ_st` 4205–4224
  | .softsigmXent A, y, a => (a - y) * (((1 / 2 - |a - 1 / 2|) * (1 / 2 - |a - 1 / 2|) * (2 / milli A)) / (a * (1 - a)))
  | .identQuad, y, a => a - y
  | .custom L, y, a => L.dLdZ y a

/-- `dLdZIdentity` of the same classes, used when the activation function is switched off: `_i_quadratic_loss`
`nntl/activations/_i_activation.h` 142–157, `_i_xentropy_loss` 159–172 with `_idIdentityXEntropyLoss_dZ_st` 3016–3033. -/
noncomputable def Out.dLdZIdentity : Out → ℝ → ℝ → ℝ
  | .sigmQuad, y, a | .softsigmQuad _, y, a | .identQuad, y, a => a - y
  | .sigmXent, y, a | .softsigmXent _, y, a => (a - y) / (a * (1 - a))
  | .custom L, y, a => L.dLdZ y a

/-- `boost::algorithm::clamp`, used by `evClamp` 1162–1186. -/
noncomputable def clamp (lo hi v : ℝ) : ℝ := if v < lo then lo else if hi < v then hi else v

/-- `restrict_dL_dZ`, `nntl/layer/output.h` 274–286: the bounds that are in effect. -/
noncomputable def restrict (lo hi : ℝ) : Option (ℝ × ℝ) := if hi = 0 ∨ lo = 0 then none else some (lo, hi)

/-- The gradient of the output layer in place of the activations: `_activation_bprop_output` `nntl/layer/_activation_wrapper.h` 153–168 (`lin` is
`bIgnoreActivation`), then `evClamp` if a restriction is in effect (`nntl/layer/output.h` 208–219). Two kernels over the `n` elements. -/
def outGrad (thr thrC : Nat) (rs : List ParRange) (o : Out) (lin : Bool) (bnd : Option (ℝ × ℝ)) (n : Nat) (y m m' : Nat → ℝ) : Prop :=
  ∃ m1, Runs (if n < thr then .st else .mt rs) n (eachSteps fun i a => if lin then o.dLdZIdentity (y i) a else o.dLdZ (y i) a) m m1 ∧
    match bnd with
    | none => m' = m1
    | some b => Runs (if n < thrC then .st else .mt rs) n (eachSteps fun _ v => clamp b.1 b.2 v) m1 m'

/-- `softmax_xentropy_loss::dLdZ`, `nntl/activations/softmax.h` 70–76. -/
def softmaxGrad (thr : Nat) (rs : List ParRange) (n : Nat) (y m m' : Nat → ℝ) : Prop :=
  Runs (if n < thr then .st else .mt rs) n (eachSteps fun i a => a - y i) m m'

end Nntl.Act
