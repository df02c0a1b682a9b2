/-!
Model of the training data object that transforms its data on the fly with a user supplied functor.
Source: /repo/nntl/train_data/transf_train_data.h (`_transf_train_data`), _td_base.h.

Sizes of type `vec_len_t` (a signed 32-bit integer, common.h:50-51) are `Int`; numbers of samples of type `numel_cnt_t` are `Nat`
or `Int` without bound. Violated assertions and `abort()` give `none`; where an assertion precedes the return of an error code the
error is returned (what a release build does). The functor is only known by what it is told (`Call`), by its two constants and by the
answers of its `init`.
-/
namespace Nntl.Ttd

/-- What the object is constructed from (transf_train_data.h:157-161): `m_TFunct.samplesInBaseSample()`,
`m_TFunct.base_dataset_samples_count` of each of the two sets (`true` is the training set; `datasets_count` is 2, _td_base.h:59),
numbers of rows of the stored sets, and whether the storage is not empty and coherent (227; `is_initialized4inference` looks only at
the former, but without the latter no initialisation succeeds, and the data are not changed through this object). -/
structure Src where
  sibs : Nat
  base : Bool → Nat
  rows : Bool → Nat
  ok : Bool

/-- What is excluded from a walk (`excludeDataFlag`). -/
structure Excl where
  x : Bool
  y : Bool
  deriving DecidableEq

/-- What the functor (and, `norm`, the normaliser of the batch) is called with. -/
inductive Call (P : Type) where
  | deinit
  | init (baseSize : Int)
  | nextEpoch (baseBatch : Int)
  | nextBatch (batchIdx : Nat) (samples : List Nat)
  | walk (s : Bool) (baseBatch : Int) (e : Excl)
  | walkNext (s : Bool) (batchIdx : Nat) (baseBatch ofs : Int) (e : Excl)
  | norm (p : P)
  deriving DecidableEq

/-- Members of the object: transf_train_data.h:138-155 and _td_base.h:50-54. `walk` is `m_curDataset2Walk` (`none`:
`invalid_set_id`), `excl` is `m_excludeDataFlag` (`none`: not yet written), `prms` is `m_NormalizationPrms` (`none`:
`monostate`). The batch pointers belong to the functor. -/
structure TT (P : Type) where
  idxs : List Nat
  maxF : Int
  maxB : Int
  cur : Int
  walk : Option Bool
  excl : Option Excl
  prms : Option P

variable {P : Type}

/-- A new object. -/
def fresh : TT P := { idxs := [], maxF := 0, maxB := 0, cur := 0, walk := none, excl := none, prms := none }

/-- `std::numeric_limits<vec_len_t>::max()`. -/
def vmax : Int := 2147483647

/-- `static_cast<vec_len_t>` of a 64-bit number. -/
def toVec (n : Int) : Int := n.bmod 4294967296

/-- `dataset_samples_count` 182-185. -/
def Src.count (c : Src) (s : Bool) : Int := (c.sibs : Int) * (c.base s : Int)

/-- `base_biggest_samples_count` 195-202. -/
def Src.biggest (c : Src) : Int := (max (max 0 (c.base true)) (c.base false) : Nat)

/-- `deinit4all` 216-223 with `_td_base::deinit4all` _td_base.h:106-111. -/
def deinit (t : TT P) : TT P := { t with idxs := [], maxF := 0, maxB := 0, cur := 0, walk := none }

/-- The part of `nnet_errors_t` used here. -/
inductive Err where
  | success
  | otherTdInitError
  | tooBigTrainTestSet
  | tooBigTrainSet
  | invalidBatchSize2MaxFPropSizeRelation
  | tdInitNoMemory
  deriving DecidableEq

/-- The three checks of `_base_init_checks` 226-242 (`true`: passed). The call `deinit4all` at its end (245) is part of the
callers below. -/
def checks (c : Src) (maxF maxB : Int) : Bool :=
  if !c.ok then false
  else if maxF < 0 ∨ maxF.tmod c.sibs ≠ 0 then false
  else if maxB < 0 ∨ (maxB > 0 ∧ maxB.tmod c.sibs ≠ 0) then false
  else true

/-- Result of an initialisation: the object, the error code, the two IN OUT arguments, `*pbMiniBatch` if it was written, the calls
of the functor. -/
structure InitRes (P : Type) where
  t : TT P
  err : Err
  maxF : Int
  maxB : Int
  mini : Option Bool
  calls : List (Call P)

/-- `is_initialized4inference` 250-255: `none` is `false`, `some bs` is `true` with the updated argument. -/
def isInit4inference (c : Src) (t : TT P) (bs : Int) : Option Int :=
  let tbs := if bs ≠ 0 then bs else t.maxF
  if !c.ok ∨ t.maxF = 0 ∨ tbs > t.maxF ∨ tbs.tmod c.sibs ≠ 0 then none else some tbs

/-- `init4inference` 259-280. `fOk` is the answer of the functor's `init`. -/
def init4inference (c : Src) (t : TT P) (maxF : Int) (fOk : Bool) : InitRes P :=
  if !checks c maxF 0 then ⟨t, .otherTdInitError, maxF, 0, none, []⟩
  else
    let t := deinit t
    let b0 := maxF.tdiv c.sibs
    let b := if b0 ≤ 0 ∨ b0 > c.biggest then toVec c.biggest else b0
    let real := b * (c.sibs : Int)
    if real > vmax then ⟨t, .tooBigTrainTestSet, maxF, 0, none, [.deinit]⟩
    else
      let t := { t with maxF := real }
      ⟨t, if fOk then .success else .otherTdInitError, real, 0, none, [.deinit, .init b]⟩

/-- `is_initialized4train` 282-292: updated `fpropBs`, `trainBs`, `bMiniBatch`. -/
def isInit4train (c : Src) (t : TT P) (fpropBs trainBs : Int) : Option (Int × Int × Bool) :=
  match isInit4inference c t fpropBs with
  | none => none
  | some fb =>
    let tbs := if trainBs ≠ 0 then trainBs else t.maxB
    if t.maxB = 0 ∨ tbs > t.maxB ∨ tbs.tmod c.sibs ≠ 0 ∨ tbs > fb then none
    else some (fb, tbs, decide (tbs.tdiv c.sibs < (c.base true : Int)))

/-- `init4train` 297-352 with the clean-up of 301-304. `memOk`: the index vector could be allocated (339-343). -/
def init4train (c : Src) (t : TT P) (maxF maxB : Int) (memOk fOk : Bool) : InitRes P :=
  if !checks c maxF maxB then ⟨t, .otherTdInitError, maxF, maxB, none, []⟩
  else
    let t := deinit t
    let bF0 := maxF.tdiv c.sibs
    let bB0 := maxB.tdiv c.sibs
    let bF := if bF0 ≤ 0 ∨ bF0 > c.biggest then toVec c.biggest else bF0
    let bB := if bB0 ≤ 0 ∨ bB0 > (c.base true : Int) then toVec (c.base true) else bB0
    if bB > bF then ⟨deinit t, .invalidBatchSize2MaxFPropSizeRelation, maxF, maxB, none, [.deinit, .deinit]⟩
    else
      let mini := decide (bB < (c.base true : Int))
      let realF := bF * (c.sibs : Int)
      let realB := bB * (c.sibs : Int)
      if realF > vmax then ⟨deinit t, .tooBigTrainTestSet, maxF, maxB, some mini, [.deinit, .deinit]⟩
      else if realB > vmax then ⟨deinit t, .tooBigTrainSet, maxF, maxB, some mini, [.deinit, .deinit]⟩
      else
        let t := { t with maxF := realF, maxB := realB }
        if !memOk then ⟨deinit t, .tdInitNoMemory, realF, realB, some mini, [.deinit, .deinit]⟩
        else
          let t := { t with idxs := List.range (c.base true) }
          if fOk then ⟨t, .success, realF, realB, some mini, [.deinit, .init (max bF bB)]⟩
          else ⟨deinit t, .otherTdInitError, realF, realB, some mini, [.deinit, .init (max bF bB), .deinit]⟩

/-- The batch size meant by the argument `arg` (366-370, 426-430); `dflt` is the value for a negative argument, `cd` is
`cd.input_batch_size()`. -/
def effBatch (dflt cd arg : Int) : Int := if arg < 0 then dflt else if arg = 0 then cd else arg

/-- `on_next_epoch` 360-385. `shuffle` is what `random_shuffle` does to the index vector. Returns the number of batches. -/
def onNextEpoch (c : Src) (t : TT P) (cd arg : Int) (shuffle : List Nat → List Nat) : Option (TT P × Int × List (Call P)) :=
  let bs := effBatch t.maxB cd arg
  if c.ok ∧ bs > 0 ∧ bs ≤ t.maxB ∧ bs ≤ c.count true ∧ (isInit4train c t bs bs).isSome then
    let b := bs.tdiv c.sibs
    let t := { t with walk := none, cur := b, idxs := shuffle t.idxs }
    let n := (c.count true).tdiv bs
    if n > 0 then some (t, n, [.nextEpoch b]) else none
  else none

/-- What follows the functor's work on a batch: `_apply_normalization2batchX` if there is something to apply (404-405, 481-482,
487-510). -/
def normCalls (t : TT P) : List (Call P) :=
  match t.prms with
  | none => []
  | some p => [.norm p]

/-- `on_next_batch` 388-406. The functor is handed a pointer to the numbers of the `m_curBatchSize` samples to use; forming it from
an index outside of the vector is an error. -/
def onNextBatch (t : TT P) (batchIdx : Nat) : Option (List (Call P)) :=
  if t.walk = none ∧ (batchIdx : Int) * t.cur ≤ vmax then
    let offs := toVec ((batchIdx : Int) * t.cur)
    if 0 ≤ offs ∧ 0 ≤ t.cur ∧ offs + t.cur ≤ (t.idxs.length : Int) ∧ offs < (t.idxs.length : Int) then
      some (.nextBatch batchIdx ((t.idxs.drop offs.toNat).take t.cur.toNat) :: normCalls t)
    else none
  else none

/-- `walk_over_set` 417-448. -/
def walkOverSet (c : Src) (t : TT P) (s : Bool) (cd arg : Int) (e : Excl) : Option (TT P × Int × List (Call P)) :=
  let bs0 := effBatch t.maxF cd arg
  if c.ok ∧ bs0 > 0 ∧ bs0 ≤ t.maxF ∧ isInit4inference c t bs0 = some bs0 ∧ c.count s > 0 then
    let ds := c.count s
    let bs := if bs0 > ds then toVec ds else bs0
    let b := bs.tdiv c.sibs
    let n := ds.tdiv bs + (if ds.tmod bs > 1 then 1 else 0)
    let t := { t with walk := some s, cur := b, excl := some e }
    if n > 0 then some (t, n, [.walk s b e]) else none
  else none

/-- `next_subset` 451-483. `none` also for the `abort` of 473 and for a `m_excludeDataFlag` that was never written. -/
def nextSubset (c : Src) (t : TT P) (batchIdx : Nat) : Option (List (Call P)) :=
  match t.walk, t.excl with
  | some s, some e =>
    if (batchIdx : Int) * t.cur ≤ vmax then
      let ofs := toVec ((batchIdx : Int) * t.cur)
      let left := (c.rows s : Int) - ofs
      if left > 0 then
        let b := if left < t.cur then left else t.cur
        some (.walkNext s batchIdx b ofs e :: (if e.x then [] else normCalls t))
      else none
    else none
  | _, _ => none

/-- `reset_normalization` 517-519. -/
def resetNorm (t : TT P) : TT P := { t with prms := none }

/-- `_fix_trainX_whole`, `_fix_trainX_cw`, `_do_fix_dataX_whole`, `_do_fix_dataX_cw` 532-575: new parameters `p`. How they are
obtained is modelled in `Verif.Norm`. -/
def fixX (t : TT P) (p : P) : TT P := { t with prms := some p }

/-- What the normaliser may do with the object between the beginning and the end of its work (_td_norm.h:95-108, 143-147, 237-239):
walk over the training set without labels with the requested batch size, look at batches, set parameters. -/
inductive Normalising (c : Src) (cd arg : Int) : TT P → TT P → Prop where
  | done (t) : Normalising c cd arg t t
  | walk {t t' n calls t2} : walkOverSet c t true cd arg ⟨false, true⟩ = some (t', n, calls) → Normalising c cd arg t' t2 →
      Normalising c cd arg t t2
  | fix {t p t2} : Normalising c cd arg (fixX t p) t2 → Normalising c cd arg t t2

/-- `normalize_data` transf_train_data.h:523-528, _td_base.h:150-177: `(t', r)` are the object afterwards and the answer. `should`
is `Setts.bShouldNormalize()`, `arg` is `Setts.batchSize`, `fOk` the answer of the functor's `init`, `imOk` of `iMath.init()`,
`r` the answer of the normaliser (any, after any work). The second check of the initialisation in the normaliser
(_td_norm.h:303-308, 329-334) is part of it. -/
def NormalizeData (c : Src) (t : TT P) (should : Bool) (cd arg : Int) (fOk imOk : Bool) (t' : TT P) (r : Bool) : Prop :=
  c.ok = true ∧
  let t0 := resetNorm t
  if !should then t' = t0 ∧ r = true
  else
    let mfs := if arg < 0 then 0 else arg
    match isInit4inference c t0 mfs with
    | some _ => Normalising c cd arg t0 t'
    | none =>
      let i := init4inference c t0 mfs fOk
      if i.err ≠ .success ∨ imOk = false then t' = i.t ∧ r = false
      else ∃ t2, (if (isInit4inference c i.t mfs).isSome then Normalising c cd arg i.t t2 else t2 = i.t ∧ r = false) ∧ t' = deinit t2

end Nntl.Ttd
