import Verif.Grad.Kernels
/-! Dropout: the wrapper a layer inherits from and its two math kernels.

Modelled: `/repo/nntl/dropout/dropout.h`, `/repo/nntl/dropout/alpha_dropout.h`, `/repo/nntl/_SNN_common.h` `calc_coeffs` 82–103, the places of `/repo/nntl/layer/extender.h` where
they are used (`_fprop4Dropout` 264–270, `_update_dLdA4Dropout` 310–320, `on_batch_size_change` 210–215), `make_dropout` 1196–1238, `make_alphaDropout` 1285–1347, `evMul_ip`
1757–1798 of `/repo/nntl/interface/math/mathn.h` and `copy_data_skip_bias` `/repo/nntl/interface/math/smatrix.h` 512–522.
Numbers are exact reals; what the random generator delivers is arbitrary. A failed assertion is the outcome `none`. Inspector calls and serialization are left out, as is an allocation that
fails in `_dropout_init`. -/
namespace Nntl.Dropout
open Nntl.Kernel Nntl.Matrix Nntl.Threads Nntl.Grad

/-! ### Kernels -/

/-- One iteration of the loop of `_imake_dropout_st`, `mathn.h` 1221–1227. A cell is (activation, mask). -/
noncomputable def dropCell (p : ℝ) (c : ℝ × ℝ) : ℝ × ℝ :=
  let dv := if c.2 < p then 1 / p else 0
  (c.1 * dv, dv)

/-- `make_dropout`, `mathn.h` 1196–1238; `n` is the number of elements of the mask. -/
noncomputable def makeDropout (E : Env) (n : Nat) (p : ℝ) (A D A' D' : Nat → ℝ) : Prop :=
  Runs (E.exec .makeDropout n) n (eachSteps fun _ => dropCell p) (fun i => (A i, D i)) (fun i => (A' i, D' i))

/-- One iteration of the loop of `_imake_alphaDropout_st`, `mathn.h` 1326–1332. The assignment `*pA++ = …*pA…` is modelled with the operand read before the pointer is
advanced, which the language guarantees only from C++17 on. -/
noncomputable def alphaCell (p a b mb : ℝ) (c : ℝ × ℝ) : ℝ × ℝ :=
  let dv := if c.2 < p then a else 0
  (dv * (c.1 + b / a) + (a - dv) * (mb / a), dv)

/-- `make_alphaDropout`, `mathn.h` 1285–1347. -/
noncomputable def makeAlphaDropout (E : Env) (n : Nat) (p a b mb : ℝ) (A D A' D' : Nat → ℝ) : Prop :=
  Runs (E.exec .alphaDropout n) n (eachSteps fun _ => alphaCell p a b mb) (fun i => (A i, D i)) (fun i => (A' i, D' i))

/-- `evMul_ip`, `mathn.h` 1757–1798. (The threshold is arbitrary; the model reuses the name of another one.) -/
noncomputable def evMulIp (E : Env) (n : Nat) (B A A' : Nat → ℝ) : Prop := Runs (E.exec .evMulC n) n (eachSteps fun i v => v * B i) A A'

/-! ### The object -/

/-- Which dropout: classical, or alpha dropout with the template parameters `Alpha*Lambda`, `FixedPointMean`, `FixedPointVariance` (`_SNN_common.h` 60–78). -/
inductive Kind
  | classical
  | alpha (al mean var : ℝ)

/-- `_dropout_base` `dropout.h` 56–60 and `m_a, m_b, m_mbDropVal` `alpha_dropout.h` 77. -/
structure Drop where
  p : ℝ
  mask : Mtx ℝ
  orig : Mtx ℝ
  a : ℝ
  b : ℝ
  mb : ℝ

/-- `bDropout()`, `dropout.h` 160. -/
noncomputable def Drop.on (d : Drop) : Bool := decide (d.p < 1)

/-- `calc_coeffs`, `_SNN_common.h` 82–103. -/
noncomputable def coeffs (al mean var dpa : ℝ) : ℝ × ℝ × ℝ :=
  let dropProb := 1 - dpa
  let amfpm := -al - mean
  let a := Real.sqrt (var / (dpa * (dropProb * (amfpm * amfpm) + var)))
  let b := mean - a * (dpa * mean + dropProb * -al)
  (a, b, a * -al + b)

/-- `dropoutPercentActive(dpa)`, `dropout.h` 164–167, `alpha_dropout.h` 121–127. The assertions on the argument are not modelled, out of range values are handled. -/
noncomputable def Drop.setP (k : Kind) (d : Drop) (dpa : ℝ) : Drop :=
  let d1 := { d with p := if dpa ≤ 0 ∨ 1 < dpa then 1 else dpa }
  match k with
  | .classical => d1
  | .alpha al mean var => if d1.on then let c := coeffs al mean var dpa; { d1 with a := c.1, b := c.2.1, mb := c.2.2 } else d1

/-- `_dropout_init`, `dropout.h` 79–101, `alpha_dropout.h` 96–107, when training is possible. -/
noncomputable def Drop.init (k : Kind) (d : Drop) (maxTrainBS neurons : Nat) (junk1 junk2 : Nat → ℝ) : Option Drop :=
  match d.mask.dResize maxTrainBS neurons junk1 true, d.orig.dResize maxTrainBS neurons junk2 true with
  | some (m, true), some (o, true) =>
    let d1 := { d with mask := m, orig := o }
    some (match k with
      | .classical => d1
      | .alpha _ _ _ => d1.setP k d1.p)
  | _, _ => none

/-- `_dropout_on_batch_size_change`, `dropout.h` 109–118. -/
noncomputable def Drop.batchChange (d : Drop) (training : Bool) (bs : Nat) : Option Drop :=
  if training && d.on then
    match d.mask.deformRows bs, d.orig.deformRows bs with
    | some m, some o => some { d with mask := m, orig := o }
    | _, _ => none
  else some d

/-- `copy_data_skip_bias`, `smatrix.h` 512–522; the caller asserts success. -/
def copyDataSkipBias (src dest : Mtx ℝ) : Option (Mtx ℝ) :=
  if src.emul && src.bir then none
  else if dest.rows ≠ src.rows ∨ dest.colsNoBias ≠ src.colsNoBias then none
  else some { dest with bir := src.bir, data := copyN dest.data src.data src.numelNoBias }

/-- The sizes `size_no_bias()` compared in the assertions. -/
def sizeNoBias (m : Mtx ℝ) : Nat × Nat := (m.rowsNoBias, m.colsNoBias)

/-- The kernel `_dropout_apply` calls: `dropout.h` 241, `alpha_dropout.h` 132. -/
noncomputable def Drop.kernel (E : Env) (k : Kind) (d : Drop) (A D A' D' : Nat → ℝ) : Prop :=
  match k with
  | .classical => makeDropout E d.mask.numel d.p A D A' D'
  | .alpha _ _ _ => makeAlphaDropout E d.mask.numel d.p d.a d.b d.mb A D A' D'

/-- `_dropout_apply`, `dropout.h` 224–246, `alpha_dropout.h` 110–118 — called only if dropout is on (`_fprop4Dropout`, `extender.h` 267). `draw` is what the generator writes into the
mask. -/
noncomputable def Drop.apply (E : Env) (k : Kind) (training : Bool) (draw : Nat → ℝ) (d : Drop) (act : Mtx ℝ) (r : Option (Drop × Mtx ℝ)) : Prop :=
  if d.on = false ∨ training = false then r = some (d, act)
  else if (d.mask.rows, d.mask.cols) ≠ sizeNoBias act ∨ (d.orig.rows, d.orig.cols) ≠ sizeNoBias act ∨ act.emul = false ∨ d.mask.emul = true then r = none
  else match copyDataSkipBias act d.orig with
    | none => r = none
    | some o => ∃ A' D', d.kernel E k act.data (copyN d.mask.data draw d.mask.numel) A' D' ∧
      r = some ({ d with orig := o, mask := { d.mask with data := D' } }, { act with data := A' })

/-- `_dropout_restoreScaling`, `dropout.h` 144–157 — called only if dropout is on (`_update_dLdA4Dropout`, `extender.h` 312). -/
noncomputable def Drop.restore (E : Env) (training : Bool) (d : Drop) (dLdA act : Mtx ℝ) (r : Option (Mtx ℝ × Mtx ℝ)) : Prop :=
  if d.on = false then r = some (dLdA, act)
  else if training = false ∨ (d.mask.rows, d.mask.cols) ≠ (dLdA.rows, dLdA.cols) ∨ (d.mask.rows, d.mask.cols) ≠ (d.orig.rows, d.orig.cols) ∨
      sizeNoBias act ≠ (d.orig.rows, d.orig.cols) then r = none
  else ∃ g, evMulIp E dLdA.numel d.mask.data dLdA.data g ∧
    match copyDataSkipBias d.orig act with
    | none => r = none
    | some act' => r = some ({ dLdA with data := g }, act')

/-- Calls the user and the layer make. A training batch is a forward pass on the activations `act` of the wrapped layer followed by a backward pass with the gradient `dLdA`. -/
inductive Call
  | setP (x : ℝ)
  | size (training : Bool) (bs : Nat)
  | batch (act dLdA : Mtx ℝ) (draw : Nat → ℝ)
  | eval (act : Mtx ℝ)

/-- What is delivered by a call: activations passed up, gradient and activations the wrapped layer gets in the backward pass. -/
inductive Out
  | quiet
  | batch (up : Mtx ℝ) (grad down : Mtx ℝ)
  | eval (up : Mtx ℝ)

/-- One call. -/
noncomputable def call (E : Env) (k : Kind) (d : Drop) : Call → Option (Drop × Out) → Prop
  | .setP x, r => r = some (d.setP k x, .quiet)
  | .size t bs, r => r = (d.batchChange t bs).map fun d' => (d', .quiet)
  | .batch act dLdA draw, r =>
    (d.apply E k true draw act none ∧ r = none) ∨
    ∃ d1 up, d.apply E k true draw act (some (d1, up)) ∧
      ((d1.restore E true dLdA up none ∧ r = none) ∨ ∃ g down, d1.restore E true dLdA up (some (g, down)) ∧ r = some (d1, .batch up g down))
  | .eval act, r =>
    (d.apply E k false (fun _ => 0) act none ∧ r = none) ∨ ∃ d1 up, d.apply E k false (fun _ => 0) act (some (d1, up)) ∧ r = some (d1, .eval up)

/-- A history of calls with what every call delivers. -/
inductive Hist (E : Env) (k : Kind) : Drop → List Call → Option (Drop × List Out) → Prop
  | nil (d) : Hist E k d [] (some (d, []))
  | fail {d c cs} : call E k d c none → Hist E k d (c :: cs) none
  | stop {d c cs d' o} : call E k d c (some (d', o)) → Hist E k d' cs none → Hist E k d (c :: cs) none
  | cons {d c cs d' o d2 os} : call E k d c (some (d', o)) → Hist E k d' cs (some (d2, os)) → Hist E k d (c :: cs) (some (d2, o :: os))

end Nntl.Dropout
