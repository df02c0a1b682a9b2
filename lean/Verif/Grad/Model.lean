import Verif.Grad.Kernels
/-! How a layer's gradient is applied to its weights.

Modelled: `/repo/nntl/grad_works/grad_works.h` `gw_init` 285–322, `pre_training_fprop` 339–390, `apply_grad` 393–580;
`/repo/nntl/grad_works/ILR.h` `ILR_init`, `ILR_apply`; `/repo/nntl/grad_works/loss_addendums.h` `_applyLossAddendums` 209–223, `lossAddendum` 187–205 with L1 and L2
(the standard `grad_works`). The inspector calls and the temporary storage of the masks are left out; memory is assumed to be available in
`gw_init`. A failed assertion about sizes (an access outside of a matrix in a release build) is the outcome `none`. -/
namespace Nntl.Grad
open Nntl.Kernel Nntl.Matrix Nntl.Threads

/-- `GradType`, `grad_works.h` 151–172. -/
inductive GradType
  | classicalConstant | rmsHinton | rmsGraves | rprop | modprop | adam | adamax | nadam | radam
  deriving DecidableEq

/-- The settings. `m_optGamma` is part of the state, because Nadam changes it. -/
structure Cfg where
  type : GradType
  lr : ℝ
  lrDrop : ℝ            -- m_LRDropoutPercActive
  mom : ℝ
  beta1 : ℝ
  beta2 : ℝ
  eps : ℝ               -- m_numericStabilizerEps
  maxNorm2 : ℝ          -- m_WeightVecNormSqared
  useMom : Bool         -- f_UseMomentum
  nesterov : Bool       -- f_UseNesterovMomentum
  lrDropNesterov : Bool -- f_apply_LRDropout_to_nesterov_momentum
  useMaxNorm : Bool     -- f_UseMaxNorm
  normInclBias : Bool   -- f_NormIncludesBias
  useILR : Bool         -- f_UseILR
  ilrToMom : Bool       -- f_ApplyILRToMomentum
  decr : ℝ
  incr : ℝ
  capLow : ℝ
  capHigh : ℝ
  l1 : ℝ                -- scale of the L1 addendum, 0: disabled
  l1IgnBias : Bool
  l2 : ℝ
  l2IgnBias : Bool

/-- Run-time data: the weights, the gradient passed in, `m_Vw`, `m_optMtxA`, `m_optMtxB`, `m_ILRGain`, `m_prevdLdW` (with flags that tell
whether they have the size of the weights), the powers, gamma and `f_FirstRun`. -/
structure St where
  W : Mtx ℝ
  G : Mtx ℝ
  V : Nat → ℝ
  A : Nat → ℝ
  B : Nat → ℝ
  gain : Nat → ℝ
  prev : Nat → ℝ
  hasV : Bool
  hasA : Bool
  hasB : Bool
  hasGain : Bool
  hasPrev : Bool
  b1t : ℝ
  b2t : ℝ
  gamma : ℝ
  firstRun : Bool

/-- What a piece of code may do. -/
abbrev Rel := St → Option St → Prop

def Rel.skip : Rel := fun s o => o = some s
/-- One after the other. -/
def Rel.seq (r q : Rel) : Rel := fun s o => (r s none ∧ o = none) ∨ ∃ m, r s (some m) ∧ q m o
infixl:60 " ⨟ " => Rel.seq
/-- An assertion. -/
def Rel.need (p : St → Bool) : Rel := fun s o => o = if p s then some s else none
def Rel.upd (f : St → St) : Rel := fun s o => o = some (f s)

/-- Number of weights. -/
def St.n (s : St) : Nat := s.W.rows * s.W.cols
def St.setG (s : St) (d : Nat → ℝ) : St := { s with G := { s.G with data := d } }
/-- `set_opt(f_FirstRun, false)`, `grad_works.h` 417. -/
def St.ran (s : St) : St := { s with firstRun := false }
def St.setW (s : St) (d : Nat → ℝ) : St := { s with W := { s.W with data := d } }

/-- `bLRDropout`, `grad_works.h` 602. -/
noncomputable def Cfg.bLRDropout (c : Cfg) : Bool := decide (c.lrDrop < 1)

/-! ### Loss addendums -/

/-- One pass of the lambda in `_applyLossAddendums`, `loss_addendums.h` 210–222; `kern` is `dLossAdd` (`nntl/loss_addendum/L1.h` 71–76,
`nntl/loss_addendum/L2.h` 67–71). -/
noncomputable def addendum (kern : Nat → ℝ → (Nat → ℝ) → (Nat → ℝ) → (Nat → ℝ) → Prop) (scale : ℝ) (ignBias : Bool) : Rel := fun s o =>
  if scale = 0 then o = some s else
  match (if ignBias then s.G.hideLastCol else some s.G), (if ignBias then s.W.hideLastCol else some s.W) with
  | some g, some w => ∃ d, kern g.numel scale w.data g.data d ∧
    match (if ignBias then ({ g with data := d } : Mtx ℝ).restoreLastCol else some { g with data := d }),
      (if ignBias then w.restoreLastCol else some w) with
    | some g', some w' => o = some { s with G := g', W := w' }
    | _, _ => o = none
  | _, _ => o = none

/-- `_applyLossAddendums`, `loss_addendums.h` 209–223: L1, then L2 (the order in the tuple, `grad_works.h` 731–737). -/
noncomputable def lossAddendums (E : Env) (c : Cfg) : Rel :=
  addendum (evAddScaledSignIp E) c.l1 c.l1IgnBias ⨟ addendum (evAddScaledIp E) c.l2 c.l2IgnBias

/-- One pass of the lambda in `lossAddendum`, `loss_addendums.h` 194–203; `value` is `lossAdd`. The weights are returned too, because hiding and restoring
their last column is an operation on them. -/
noncomputable def addendumValue (value : Mtx ℝ → ℝ) (scale : ℝ) (ignBias : Bool) (ret : ℝ) (W : Mtx ℝ) : Option (ℝ × Mtx ℝ) :=
  if scale = 0 then some (ret, W) else
  match (if ignBias then W.hideLastCol else some W) with
  | none => none
  | some w => match (if ignBias then w.restoreLastCol else some w) with
    | none => none
    | some w' => some (ret + value w, w')

/-- `lossAddendum`, `loss_addendums.h` 187–205: `lossAdd` is `m_scale*vSumAbs` for L1 (`nntl/loss_addendum/L1.h` 48–51) and `m_scale*.5*ewSumSquares` for L2
(`nntl/loss_addendum/L2.h` 48–51). -/
noncomputable def lossAddendum (E : Env) (c : Cfg) (W : Mtx ℝ) : Option (ℝ × Mtx ℝ) :=
  (addendumValue (fun w => c.l1 * vSumAbs E w) c.l1 c.l1IgnBias 0 W).bind fun r =>
    addendumValue (fun w => c.l2 * (1 / 2) * ewSumSquares E w) c.l2 c.l2IgnBias r.1 r.2

/-! ### Optimisers -/

/-- `_optimizerRequiresMatrixA` 175–178, `_optimizerRequiresMatrixB` 179–181. -/
def GradType.needsA : GradType → Bool
  | .rmsHinton | .rmsGraves | .modprop | .adam | .adamax | .nadam | .radam => true
  | _ => false
def GradType.needsB : GradType → Bool
  | .rmsGraves | .adam | .adamax | .nadam | .radam => true
  | _ => false

/-- The `switch` in `apply_grad`, 441–508. `first` is `bFirstRun`. -/
noncomputable def optimise (E : Env) (c : Cfg) (first : Bool) : Rel := fun s o =>
  match c.type with
  | .classicalConstant => ∃ d, evMulCIp E s.n c.lr s.G.data d ∧ o = some (s.setG d)
  | .rmsHinton =>
    if s.hasA = false then o = none
    else if first then ∃ a d, evSquare E s.n s.G.data s.A a ∧ evMulCIp E s.n c.lr s.G.data d ∧ o = some { s.setG d with A := a }
    else ∃ a d, rmsPropHinton E s.n c.lr c.beta1 c.eps s.G.data s.A d a ∧ o = some { s.setG d with A := a }
  | .rmsGraves =>
    if s.hasA = false ∨ s.hasB = false then o = none
    else if first then ∃ a d, evSquare E s.n s.G.data s.A a ∧ evMulCIp E s.n c.lr s.G.data d ∧
      o = some { s.setG d with A := a, B := copyTo s.n s.G.data s.B }
    else ∃ a b d, rmsPropGraves E s.n c.lr c.beta1 c.eps s.G.data s.A s.B d a b ∧ o = some { s.setG d with A := a, B := b }
  | .rprop => ∃ d, rProp E s.n c.lr s.G.data d ∧ o = some (s.setG d)
  | .modprop =>
    if s.hasA = false then o = none
    else if first then ∃ a d, evAbs E s.n s.G.data s.A a ∧ evMulCIp E s.n c.lr s.G.data d ∧ o = some { s.setG d with A := a }
    else ∃ a d, modProp E s.n c.lr c.beta1 c.eps s.G.data s.A d a ∧ o = some { s.setG d with A := a }
  | .adam =>
    if s.hasA = false ∨ s.hasB = false then o = none
    else
      let s1 := if first then { s with b1t := 1, b2t := 1, A := fillWith s.n 0 s.A, B := fillWith s.n 0 s.B } else s
      ∃ a b d b1t b2t, adam E s.n c.lr c.beta1 c.beta2 c.eps s1.b1t s1.b2t s1.G.data s1.A s1.B b1t b2t d a b ∧
        o = some { s1.setG d with A := a, B := b, b1t := b1t, b2t := b2t }
  | .adamax =>
    if s.hasA = false ∨ s.hasB = false then o = none
    else
      let s1 := if first then { s with b1t := 1, A := fillWith s.n 0 s.A, B := fillWith s.n 0 s.B } else s
      ∃ a b d b1t, adaMax E s.n c.lr c.beta1 c.beta2 c.eps s1.b1t s1.G.data s1.A s1.B b1t d a b ∧
        o = some { s1.setG d with A := a, B := b, b1t := b1t }
  | .nadam | .radam =>
    if s.hasA = false ∨ s.hasB = false then o = none
    else
      let s1 := if first then { s with b1t := 1, b2t := 1, A := fillWith s.n 0 s.A, B := fillWith s.n 0 s.B,
                                       gamma := if c.type = .nadam then 0 else s.gamma } else s
      ∃ a b d b1t b2t, rNadam E s.n c.lr c.beta1 c.beta2 s1.gamma c.eps s1.b1t s1.b2t s1.G.data s1.A s1.B b1t b2t d a b ∧
        o = some { s1.setG d with A := a, B := b, b1t := b1t, b2t := b2t }

/-! ### Individual learning rates -/

/-- `_ILR_use_momentum`, `ILR.h` 117–119. -/
def Cfg.ilrUseMom (c : Cfg) : Bool := c.useMom && c.ilrToMom

/-- `ILR_apply`, `ILR.h` 150–163. -/
noncomputable def ilrApply (E : Env) (c : Cfg) (first : Bool) : Rel := fun s o =>
  if c.useILR = false then o = some s
  else if s.hasGain = false ∨ (if c.ilrUseMom then s.hasV else s.hasPrev) = false then o = none
  else if first then o = some (if c.ilrUseMom then s else { s with prev := copyTo s.n s.G.data s.prev })
  else ∃ d g, applyILR E s.n c.decr c.incr c.capLow c.capHigh (if c.ilrUseMom then s.V else s.prev) s.G.data s.gain d g ∧
    o = some (if c.ilrUseMom then { s.setG d with gain := g } else { s.setG d with gain := g, prev := copyTo s.n d s.prev })

/-! ### The update -/

/-- `mCheck_normalize_rows(weights, …)` if `use_max_norm()`, 384–386, 568–570. -/
noncomputable def maxNorm (E : Env) (c : Cfg) : Rel := fun s o =>
  if c.useMaxNorm = false then o = some s
  else ∃ w, checkNormalizeRows E c.maxNorm2 c.normInclBias s.W w ∧ o = w.map fun w => { s with W := w }

/-- `if (bLRDropout()) …; evSub_ip(weights, dLdW)`, 548–566. `draw` is what the random generator delivers. -/
noncomputable def dropAndSub (E : Env) (c : Cfg) (draw : Nat → ℝ) : Rel := fun s o =>
  ∃ d w, (if c.bLRDropout then applyDropoutMask E s.n c.lrDrop draw s.G.data d else d = s.G.data) ∧ evSubIp E s.n d s.W.data w ∧
    o = some ((s.setG d).setW w)

/-- 518–566: momentum and the update of the weights. -/
noncomputable def update (E : Env) (c : Cfg) (draw : Nat → ℝ) : Rel := fun s o =>
  if c.useMom = false then dropAndSub E c draw s o
  else if s.hasV = false then o = none
  else if c.nesterov then ∃ v, evAddIp E s.n s.G.data s.V v ∧ dropAndSub E c draw { s with V := v } o
  else ∃ v, applyMomentum E s.n c.mom s.G.data s.V v ∧
    if c.bLRDropout then dropAndSub E c draw ({ s with V := v }.setG (copyTo s.n v s.G.data)) o
    else ∃ w, evSubIp E s.n v s.W.data w ∧ o = some ({ s with V := v }.setW w)

/-- `apply_grad`, 393–580. `blocked` is `isLearningBlocked()`. The first assertions are those of lines 394–395. -/
noncomputable def applyGrad (E : Env) (c : Cfg) (blocked : Bool) (draw : Nat → ℝ) : Rel :=
  Rel.need (fun s => decide (s.G.rows = s.W.rows ∧ s.G.cols = s.W.cols) && !s.W.bir && !s.G.bir) ⨟
  lossAddendums E c ⨟
  (if blocked then Rel.skip else fun s o =>
    (Rel.upd St.ran ⨟ optimise E c s.firstRun ⨟ ilrApply E c s.firstRun ⨟ update E c draw ⨟ maxNorm E c) s o)

/-- `pre_training_fprop`, 339–390. -/
noncomputable def preTrainingFprop (E : Env) (c : Cfg) (blocked : Bool) (draw : Nat → ℝ) : Rel :=
  if !blocked && (c.useMom && c.nesterov) then
    (fun s o =>
      if s.hasV = false then o = none
      else if c.bLRDropout && c.lrDropNesterov then
        ∃ v t w, evMulCIp E s.n c.mom s.V v ∧ applyDropoutMask E s.n c.lrDrop draw v t ∧ evSubIp E s.n t s.W.data w ∧
          o = some ({ s with V := v }.setW w)
      else ∃ v w, evMulCIpSubIp E s.n c.mom s.V s.W.data v w ∧ o = some ({ s with V := v }.setW w)) ⨟ maxNorm E c
  else Rel.skip

/-- `gw_init`, 285–322, with `ILR_init`, `ILR.h` 134–142, after a construction or `gw_deinit` (no matrices): what the state may be after it.
Matrices that are resized but not filled have any contents. -/
def GwInit (c : Cfg) (W : Mtx ℝ) (s : St) : Prop :=
  s.W = W ∧ s.hasV = c.useMom ∧ (c.useMom = true → ∀ i, i < W.rows * W.cols → s.V i = 0) ∧ s.hasA = c.type.needsA ∧ s.hasB = c.type.needsB ∧
  s.hasGain = c.useILR ∧ s.hasPrev = (c.useILR && !c.ilrUseMom) ∧
  (c.useILR = true → ∀ i, i < W.rows * W.cols → s.gain i = 1) ∧ s.firstRun = true

/-- The calls a layer (and the user, for `gamma`) makes. The settings may be different at every call. -/
inductive Ev
  | pre (c : Cfg) (blocked : Bool) (draw : Nat → ℝ)
  | apply (c : Cfg) (blocked : Bool) (g : Mtx ℝ) (draw : Nat → ℝ)
  | setGamma (x : ℝ)

noncomputable def step (E : Env) : Ev → Rel
  | .pre c b draw => preTrainingFprop E c b draw
  | .apply c b g draw => Rel.upd (fun s => { s with G := g }) ⨟ applyGrad E c b draw
  | .setGamma x => Rel.upd fun s => { s with gamma := x }

/-- A sequence of calls. -/
noncomputable def run (E : Env) : List Ev → Rel
  | [] => Rel.skip
  | e :: es => step E e ⨟ run E es

end Nntl.Grad
