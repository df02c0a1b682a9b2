import Verif.Kernel.RowModel
/-!
Model of the scratch storage of the math object (`_istor_*`), and of the routines that use it: how much they take, nested how, and how
much is announced for them through `preinit`.
Sources: /repo/nntl/interface/math/smath.h, /repo/nntl/interface/math/mathn.h, /repo/nntl/grad_works/grad_works.h,
/repo/nntl/grad_works/ILR.h, /repo/nntl/loss_addendum/DeCov.h, /repo/nntl/activations/softmax.h, /repo/nntl/layer/_activation_wrapper.h,
/repo/nntl/nnet_evaluator.h

Sizes are natural numbers (`numel_cnt_t` is a signed 64-bit integer; no overflow, no negative sizes). A pointer into the storage is the
index of the element. `abort()` is `none`. `NNTL_ASSERT` is not compiled in.
-/
namespace Nntl.Istor
open Nntl.Kernel

/-- `m_threadTempRawStorage.size()`, `m_minTempStorageSize`, `m_curStorElementsAllocated` (smath.h). -/
structure Istor where
  size : Nat
  min : Nat
  cur : Nat
deriving DecidableEq, Repr

/-- A new math object. -/
def Istor.new : Istor := ⟨0, 0, 0⟩

/-- `_istor_alloc` smath.h:174-184. -/
def Istor.alloc (s : Istor) (n : Nat) : Option (Nat × Istor) :=
  if s.min < n + s.cur then none else some (s.cur, { s with cur := s.cur + n })

/-- `_istor_free` smath.h:185-197. -/
def Istor.free (s : Istor) (ptr n : Nat) : Option Istor :=
  if s.cur < n then none
  else if ptr ≠ s.cur - n then none
  else some { s with cur := s.cur - n }

/-- `preinit` smath.h:207-210. -/
def Istor.preinit (s : Istor) (n : Nat) : Istor := { s with min := max s.min n }

/-- `preinit_push` smath.h:220-224: the value to be remembered and the new state. -/
def Istor.push (s : Istor) : Nat × Istor := (s.min, { s with min := 0 })

/-- `preinit_pop` smath.h:225-227. -/
def Istor.pop (s : Istor) (rv top : Nat) : Istor := { s with min := max rv (s.min + top) }

/-- `init` smath.h:231-239 (memory allocation succeeds). -/
def Istor.init (s : Istor) : Istor := { s with size := if s.size < s.min then s.min else s.size, cur := 0 }

/-- `deinit` smath.h:240-246. -/
def Istor.deinit (_ : Istor) : Istor := ⟨0, 0, 0⟩

/-- `_istor_round_count_to_cache_line_size<T>` smath.h:155-162; `sz` is `sizeof(T)`. -/
def roundCount (sz n : Nat) : Nat := ((n * sz + 63) / 64 * 64 + (sz - 1)) / sz

/-! ### How the storage is used by a routine -/

/-- `hold n body`: `p = _istor_alloc(n); body; _istor_free(p, n)`. -/
inductive Use
  | skip
  | seq (a b : Use)
  | hold (n : Nat) (body : Use)

/-- Execution of a routine. -/
def Use.run : Use → Istor → Option Istor
  | .skip, s => some s
  | .seq a b, s => (a.run s).bind b.run
  | .hold n body, s => (s.alloc n).bind fun ps => (body.run ps.2).bind fun s2 => s2.free ps.1 n

/-- Parameters of the math object: `sizeof(real_t)`, the number of workers (with the main thread) and the thresholds. -/
structure Cfg where
  szReal : Nat
  workers : Nat
  szRealPos : 0 < szReal
  workersPos : 0 < workers
  thrIdx : Nat
  idxRows : Nat
  idxCols : Nat
  thrSoftmax : Nat
  thrSumMt : Nat
  sumCols : Nat
  thrNorm : Nat
  ilrMt : Nat
  ilrStVec : Nat
  ilrMtVec : Nat
  ilrMtVec2 : Nat

variable (g : Cfg)

/-- `_processMtx_cw_needTempMem<T>` smath.h:852-858. -/
def processCwNeed (sz2 rows : Nat) : Nat :=
  let elems := rows * g.workers
  elems + (elems * sz2 + g.szReal - 1) / g.szReal

/-- `_processMtx_cw` with one temporary vector and own memory, smath.h:866-898. -/
def processCw (per rows cols : Nat) : Use := .hold (rows * threadsForCols per cols g.workers) .skip

/-- `_processMtx_cw` with two temporary vectors, smath.h:907-945. -/
def processCw2 (sz2 per rows cols : Nat) : Use :=
  let elems := rows * threadsForCols per cols g.workers
  .hold (elems + (elems * sz2 + g.szReal - 1) / g.szReal) .skip

/-- `mrwIdxsOfMax` smath.h:1253-1275, with `_st_rw` 1340-1351, `_mt_cw` and `_mt_rw` 1459-1468. The indices are `vec_len_t`, of `szIdx`
bytes. -/
def idxsOfMax (szIdx rows cols : Nat) : Use :=
  if rows * cols < g.thrIdx then .hold rows .skip
  else if rows < g.idxRows ∧ cols > g.idxCols then processCw2 g szIdx g.idxCols rows cols
  else .hold rows .skip

/-- `mrwIdxsOfMax_needTempMem<real_t>` smath.h:1242-1249, announced by the one-hot evaluator (nnet_evaluator.h:248) for the biggest batch. -/
def idxsOfMaxNeed (maxRows : Nat) : Nat := max (processCwNeed g g.szReal maxRows) maxRows

/-- `mrwSum_needTempMem<real_t>` smath.h:1602-1609. -/
def sumNeed (rows : Nat) : Nat := processCwNeed g g.szReal rows

/-- `mrwSum` smath.h:1612-1638: only `mrwSum_mt_cw` takes memory. -/
def mrwSum (rows cols : Nat) : Use :=
  if rows * cols < g.thrSumMt then .skip
  else if cols = 1 then .skip
  else if cols ≤ max g.sumCols g.workers then .skip
  else processCw g g.sumCols rows cols

/-- `___softmax_needTempMem` mathn.h:201-210. -/
def softmaxOwn (rows cols : Nat) : Nat := rows * (cols + 1 + g.workers)

/-- `softmax_needTempMem` mathn.h:211-214, announced by the activation wrapper (_activation_wrapper.h:103, 131-133) for the biggest batch. -/
def softmaxNeed (rows cols : Nat) : Nat := softmaxOwn g rows cols + sumNeed g rows

/-- `softmax` mathn.h:217-265. `mrwMax` (smath.h:1474-1484), `softmax_parts` (it gets its vectors), `mrwSum_ip` (smath.h:1544-1556) and
`mrwDivideByVec` take no memory. -/
def softmax (rows cols : Nat) : Use := .hold (softmaxOwn g rows cols) .skip

/-- `mCheck_normalize_rows` mathn.h:900-961. `mrwL2NormSquared` gets its vectors from here (825-843) and ends in `mrwSum_ip`. -/
def checkNormalize (rows cols : Nat) : Use :=
  if rows * cols < g.thrNorm then .hold rows .skip else .hold (rows * g.workers) .skip

/-- `mCheck_normalize_rows_needTempMem` mathn.h:893-898; the second summand is computed from `size_no_bias()`, of which only the number of
rows matters. -/
def checkNormalizeNeed (rows : Nat) : Nat := rows * g.workers + sumNeed g rows

/-- `apply_ILR` mathn.h:1357-1371 with its four variants 1372-1524. -/
def applyIlr (n : Nat) : Use :=
  if n < g.ilrMt then (if n ≤ g.ilrStVec then .hold n .skip else .skip)
  else if n ≤ g.ilrMtVec ∨ n ≥ g.ilrMtVec2 then .hold n .skip else .skip

/-- `apply_ILR_needTempMem` mathn.h:1352-1356. -/
def applyIlrNeed (rows cols : Nat) : Nat := rows * cols

/-- `loss_deCov` mathn.h:5058-5099 and `dLoss_deCov_ip` 5124-5175; `mcwDeMean`, `mColumnsCov`, `ewSumSquaresTriang` take no memory. -/
def deCov (rows cols : Nat) : Use := .hold (rows * cols) (.hold (cols * cols) .skip)

/-- `dLossAdd` of the DeCov addendum when not computed during fprop, DeCov.h:99-118. -/
def deCovGrad (rows cols : Nat) : Use := .hold (rows * cols) (deCov rows cols)

/-- What the DeCov addendum announces: DeCov.h:62-66 with `loss_DeCov_needTempMem` mathn.h:5040-5048. -/
def deCovNeed (training onFprop : Bool) (rows cols : Nat) : Nat :=
  rows * cols + cols * cols + (if training && !onFprop then rows * cols else 0)

/-! ### Gradient works -/

/-- Options of gradient works that matter here. -/
structure Gw where
  nesterov : Bool
  /-- learning rate dropout is on, `bLRDropout()`. -/
  lrd : Bool
  /-- `bApplyLRDropoutToNesterovMomentum()`. -/
  lrdNesterov : Bool
  momentum : Bool
  maxNorm : Bool
  ilr : Bool

/-- `gw_init` grad_works.h:285-322 with `ILR_init` ILR.h:137-145: the calls of `preinit`. -/
def gwInit (o : Gw) (rows cols : Nat) (s : Istor) : Istor :=
  let s := if o.ilr then s.preinit (applyIlrNeed rows cols) else s
  s.preinit (max (rows * cols * (1 + if o.nesterov && o.lrdNesterov && o.lrd then 1 else 0)) (checkNormalizeNeed g rows))

/-- `pre_training_fprop` grad_works.h:339-390 (learning not blocked). -/
def gwPreFprop (o : Gw) (rows cols : Nat) : Use :=
  if o.nesterov then
    .seq (if o.lrd && o.lrdNesterov then .hold (rows * cols) (.hold (rows * cols) .skip) else .skip)
      (if o.maxNorm then checkNormalize g rows cols else .skip)
  else .skip

/-- `apply_grad` grad_works.h:393-580 without the loss addendums; `ILR_apply` ILR.h:152-. -/
def gwApplyGrad (o : Gw) (firstRun : Bool) (rows cols : Nat) : Use :=
  let applyNow := o.momentum && !o.nesterov && !o.lrd
  .seq (if o.ilr && !firstRun then applyIlr g (rows * cols) else .skip)
    (.seq (if !applyNow && o.lrd then .hold (rows * cols) .skip else .skip)
      (if o.maxNorm then checkNormalize g rows cols else .skip))

/-! ### Announcing nested use -/

/-- Announcing with `preinit`, `preinit_push` and `preinit_pop` as the comment smath.h:212-219 prescribes: a part that holds `n` elements
while other code runs is bracketed. -/
def Use.announce : Use → Istor → Istor
  | .skip, s => s
  | .seq a b, s => b.announce (a.announce s)
  | .hold n body, s => (body.announce s.push.2).pop s.push.1 n

end Nntl.Istor
