/-! Settings of the optimiser of a layer, and the memory its steps use.

Modelled: `/repo/nntl/grad_works/grad_works.h`: construction 257–280, `gw_init` 285–322, `gw_deinit` 324–337, which memory
`pre_training_fprop` 338–390 and `apply_grad` 393–580 use, the settings 584–708; `/repo/nntl/grad_works/ILR.h` 133–198,
`/repo/nntl/grad_works/ILR_Props.h` 64–79. The values the steps compute are the matter of `Verif/Grad`; here a matrix is only absent,
not yet written, or made of the last `k` gradients. Settings are rational numbers: they are only stored and compared with 0 and 1.
Allocations succeed. Loss addendums use no memory of this object and are left out. A violated assertion, a null pointer, an access to
memory that is absent, too small or not yet written is the outcome `none`. -/
namespace Nntl.Gw

/-- `GradType` grad_works.h:151-172. -/
inductive GradType
  | classical | rmsHinton | rmsGraves | rprop | modprop | adam | adamax | nadam | radam
  deriving DecidableEq, Repr

/-- `_optimizerRequiresMatrixA` grad_works.h:175-178. -/
def GradType.needsA : GradType → Bool
  | .classical | .rprop => false
  | _ => true

/-- `_optimizerRequiresMatrixB` grad_works.h:179-181. -/
def GradType.needsB : GradType → Bool
  | .rmsGraves | .adam | .adamax | .nadam | .radam => true
  | _ => false

/-- A matrix of the size of the weights. -/
inductive Mem
  | absent             -- `empty()`
  | raw                -- allocated, never written
  | of (k : Nat)       -- made of `k` gradients (0: filled with a constant)
  deriving DecidableEq, Repr

def Mem.there : Mem → Bool | .absent => false | _ => true
def Mem.readable : Mem → Bool | .of _ => true | _ => false
/-- One more gradient taken in. -/
def Mem.more : Mem → Mem | .of k => .of (k + 1) | m => m

/-- Settings: grad_works.h:195-206, options of the list 114-144 but the first one; ILR.h:100, 105-115. -/
structure Settings where
  type : GradType
  lr : Rat
  drop : Rat            -- m_LRDropoutPercActive
  mom : Rat
  beta1 : Rat
  beta2 : Rat
  gamma : Rat
  eps : Rat
  maxNorm2 : Rat        -- m_WeightVecNormSqared
  ilr : Rat × Rat × Rat × Rat
  useMom : Bool         -- f_UseMomentum
  nesterov : Bool       -- f_UseNesterovMomentum
  dropNesterov : Bool   -- f_apply_LRDropout_to_nesterov_momentum
  useMaxNorm : Bool     -- f_UseMaxNorm
  inclBias : Bool       -- f_NormIncludesBias
  useILR : Bool         -- f_UseILR
  ilrToMom : Bool       -- f_ApplyILRToMomentum

/-- The object: settings, `f_FirstRun`, whether the pointer to the common data is set, number of weights, what
`mCheck_normalize_rows_needTempMem` has asked for, size of the temporary storage of the math object, `m_Vw`, `m_optMtxA`, `m_optMtxB`,
`m_ILRGain`, `m_prevdLdW`. -/
structure Gw where
  c : Settings
  first : Bool
  cd : Bool
  n : Nat
  norm : Nat
  stor : Nat
  V : Mem
  A : Mem
  B : Mem
  gain : Mem
  prev : Mem

/-- Construction grad_works.h:251-255, 265-280 with learning rate `lr`. -/
def fresh (lr : Rat) (eps : Rat) : Gw :=
  { c := { type := .classical, lr := lr, drop := 1, mom := 0, beta1 := 9/10, beta2 := 999/1000, gamma := 5/100, eps := eps, maxNorm2 := 0,
           ilr := (0, 0, 0, 0), useMom := false, nesterov := true, dropNesterov := true, useMaxNorm := false, inclBias := false,
           useILR := false, ilrToMom := false },
    first := true, cd := false, n := 0, norm := 0, stor := 0, V := .absent, A := .absent, B := .absent, gain := .absent, prev := .absent }

/-- `bLRDropout` grad_works.h:600. -/
def Settings.lrDrop (c : Settings) : Bool := decide (c.drop < 1)
/-- `use_nesterov_momentum` grad_works.h:704. -/
def Settings.useNesterov (c : Settings) : Bool := c.useMom && c.nesterov
/-- `_ILR_use_momentum` ILR.h:119-121. -/
def Settings.ilrVelocity (c : Settings) : Bool := c.useMom && c.ilrToMom
/-- The condition of grad_works.h:312 and 348: the mask and a copy of the velocity are needed. -/
def Settings.dropsVelocity (c : Settings) : Bool := c.useNesterov && c.dropNesterov && c.lrDrop

/-- Calls. `init n norm other`: weights of `n` elements; `norm`: what `mCheck_normalize_rows_needTempMem(weights)` is; `other`: what the
rest of the network asks the math object for (the storage is made for the biggest request). `pre`, `apply`: a training step; the argument
tells whether learning is blocked. -/
inductive Op
  | lr (x : Rat) | drop (x : Rat) | dropNesterov (b : Bool) | momentum (x : Rat) | nesterov (x : Rat)
  | beta1 (x : Rat) | beta2 (x : Rat) | gamma (x : Rat) | eps (x : Rat) | type (t : GradType)
  | maxNorm (x : Rat) (b : Bool) | maxNorm2 (x : Rat) (b : Bool)
  | setILR (decr incr low high : Rat) | clearILR | ilrToMom (b : Bool)
  | init (n norm other : Nat) | deinit | pre (blocked : Bool) | apply (blocked : Bool)

/-- `max_norm2` grad_works.h:691-697. -/
def Gw.maxNorm2 (g : Gw) (x : Rat) (b : Bool) : Option Gw :=
  if 0 ≤ x then some { g with c := { g.c with maxNorm2 := x, useMaxNorm := decide (0 < x), inclBias := b } } else none

/-- `ILR_props::set` ILR_Props.h:64-70 and `bUseMe` 73-77, `set_ILR` ILR.h:171-175. -/
def Gw.setILR (g : Gw) (d i l h : Rat) : Option Gw :=
  if (0 < d ∧ d < 1 ∧ 1 < i ∧ l < h ∧ 0 < l) ∨ (d = 0 ∧ i = 0 ∧ h = 0 ∧ l = 0) then
    some { g with c := { g.c with ilr := (d, i, l, h), useILR := decide (0 < d) } }
  else none

/-- `gw_init` grad_works.h:285-322. `ILR_init` (ILR.h:137-145) is called at 303 and uses `get_iMath()`, that is the pointer to the
common data, which is not set before 305 (and is known to be null by the assertion in `set_common_data` common_nn_data.h:237-240). -/
def Gw.init (g : Gw) (n norm other : Nat) : Option Gw :=
  if n = 0 ∨ g.cd then none
  else if g.c.useILR then none
  else
    let need := max (n * (1 + if g.c.dropsVelocity then 1 else 0)) norm
    some { g with
      V := if g.c.useMom then .of 0 else g.V
      A := if g.c.type.needsA then .raw else g.A
      B := if g.c.type.needsB then .raw else g.B
      cd := true, n := n, norm := norm, stor := max need other, first := true }

/-- `gw_deinit` grad_works.h:324-337 with `ILR_deinit` ILR.h:146-150. The storage of the math object is freed together with it
(nnet.h:503-515). -/
def Gw.deinit (g : Gw) : Gw :=
  { g with cd := false, gain := .absent, prev := .absent, V := .absent, A := .absent, B := .absent, stor := 0 }

/-- `pre_training_fprop` grad_works.h:338-390. -/
def Gw.pre (g : Gw) (blocked : Bool) : Option Gw :=
  if !g.cd then none
  else if !blocked && g.c.useNesterov then
    if !g.V.readable then none
    else if g.c.lrDrop && g.c.dropNesterov && decide (g.stor < g.n + g.n) then none
    else if g.c.useMaxNorm && decide (g.stor < g.norm) then none
    else some g
  else some g

/-- The optimiser: the `switch` grad_works.h:438-513. On the first run the matrices are filled, `evSquare`, `evAbs`, `zeros` need them
allocated, `clone_to` (smatrix.h:475-487) allocates. -/
def Gw.optimise (g : Gw) : Option Gw :=
  match g.c.type with
  | .classical | .rprop => some g
  | .rmsHinton | .modprop =>
    if g.first then if g.A.there then some { g with A := .of 1 } else none
    else if g.A.readable then some { g with A := g.A.more } else none
  | .rmsGraves =>
    if g.first then if g.A.there then some { g with A := .of 1, B := .of 1 } else none
    else if g.A.readable && g.B.readable then some { g with A := g.A.more, B := g.B.more } else none
  | .adam | .adamax | .radam =>
    if g.first then if g.A.there && g.B.there then some { g with A := .of 1, B := .of 1 } else none
    else if g.A.readable && g.B.readable then some { g with A := g.A.more, B := g.B.more } else none
  | .nadam =>
    if g.first then if g.A.there && g.B.there then some { g with A := .of 1, B := .of 1, c := { g.c with gamma := 0 } } else none
    else if g.A.readable && g.B.readable then some { g with A := g.A.more, B := g.B.more } else none

/-- `ILR_apply` ILR.h:152-165. -/
def Gw.ilrApply (g : Gw) : Option Gw :=
  if g.c.useILR then
    if !g.c.ilrVelocity && !g.prev.there then none
    else if !g.first && (!(if g.c.ilrVelocity then g.V else g.prev).readable || !g.gain.readable) then none
    else some { g with gain := if g.first then g.gain else g.gain.more, prev := if g.c.ilrVelocity then g.prev else .of 1 }
  else some g

/-- `apply_grad` grad_works.h:393-580 from line 519 on: velocity, dropout of updates, bound of norms. -/
def Gw.update (g : Gw) : Option Gw :=
  if g.c.useMom && !g.V.readable then none
  -- in all branches the mask needs as many elements as there are weights (lines 540-566)
  else if g.c.lrDrop && decide (g.stor < g.n) then none
  else if g.c.useMaxNorm && decide (g.stor < g.norm) then none
  else some { g with V := if g.c.useMom then g.V.more else g.V }

/-- `apply_grad` grad_works.h:393-580. -/
def Gw.apply (g : Gw) (blocked : Bool) : Option Gw :=
  if !g.cd then none
  else if blocked then some g
  else
    match g.optimise with
    | none => none
    | some g =>
      match g.ilrApply with
      | none => none
      | some g => ({ g with first := false } : Gw).update

/-- One call. Settings: `learning_rate` 584, `LRDropoutPercentActive` 604-608, `setApplyLRDropoutToNesterovMomentum` 613-616, `momentum`
618-624, `nesterov_momentum` 625-631, `beta1` 633-637, `beta2` 639-643, `gamma` 646-650, `numeric_stabilizer` 654-658, `set_type` 661-664,
`max_norm` 687-690; ILR.h `set_ILR` 171-180, `clear_ILR` 181-185, `applyILRToMomentum` 188-198. -/
def Gw.call (g : Gw) : Op → Option Gw
  | .lr x => some { g with c := { g.c with lr := x } }
  | .drop x => if 0 ≤ x ∧ x ≤ 1 then some { g with c := { g.c with drop := if x ≤ 0 ∨ x > 1 then 1 else x } } else none
  | .dropNesterov b => some { g with c := { g.c with dropNesterov := b } }
  | .momentum x =>
    if 0 ≤ x ∧ x < 1 then some { g with c := { g.c with mom := x, useMom := decide (0 < x), nesterov := false } } else none
  | .nesterov x =>
    if 0 ≤ x ∧ x < 1 then some { g with c := { g.c with mom := x, useMom := decide (0 < x), nesterov := true } } else none
  | .beta1 x => if 0 < x ∧ x < 1 then some { g with c := { g.c with beta1 := x } } else none
  | .beta2 x => if 0 < x ∧ x < 1 then some { g with c := { g.c with beta2 := x } } else none
  | .gamma x => if 0 < x ∧ x < 1 then some { g with c := { g.c with gamma := x } } else none
  | .eps x => if 0 ≤ x ∧ x < 1 then some { g with c := { g.c with eps := x } } else none
  | .type t => some { g with c := { g.c with type := t } }
  | .maxNorm x b => if 0 ≤ x then g.maxNorm2 (x * x) b else none
  | .maxNorm2 x b => g.maxNorm2 x b
  | .setILR d i l h => g.setILR d i l h
  | .clearILR => some { g with c := { g.c with ilr := (0, 0, 0, 0), useILR := false } }
  | .ilrToMom b =>
    -- 185-191: `resize` keeps a matrix of the same size
    some { g with c := { g.c with ilrToMom := b },
                  prev := if (!g.c.useMom || !b) && g.gain.there && !g.prev.there then .raw else g.prev }
  | .init n norm other => g.init n norm other
  | .deinit => some g.deinit
  | .pre b => g.pre b
  | .apply b => g.apply b

/-- A sequence of calls. -/
def Gw.run (g : Gw) : List Op → Option Gw
  | [] => some g
  | o :: os => (g.call o).bind fun g => g.run os

end Nntl.Gw
