import Verif.Kernel.MoveModel
/-!
Model of the in-memory training data object.
Source: /repo/nntl/train_data/_train_data_simple.h, _td_base.h, inmem_train_data.h, inmem_train_data_stor.h

`x_t` is `α`, `y_t` is `β`. Batch size arguments of `init*`/`is_initialized*` are asserted to be non-negative (142, 180), they
are `Nat`; the `batchSize` argument of `on_next_epoch`/`walk_over_set` may be negative, it is an `Int`.
Violated assertions and `abort()` give `none`.
-/
namespace Nntl.TrainData
open Nntl.Matrix Nntl.Kernel

inductive SetId where
  | train
  | test
  deriving DecidableEq

/-- inmem_train_data_stor.h:63-64. -/
structure Data (α β : Type) where
  X : SetId → Mtx α
  Y : SetId → Mtx β

/-- What `m_pCurBatchX`/`m_pCurBatchY` point to. -/
inductive Cur where
  | null
  | batch
  | walk
  | whole (s : SetId)
  deriving DecidableEq

/-- _train_data_simple.h:57-67, _td_base.h members `m_maxTrainBatchSize`, `m_maxFPropSize`, `m_curBatchSize`, `m_pCurBatchX`,
`m_pCurBatchY`, `m_curDataset2Walk` (`none` is `invalid_set_id`). -/
structure TD (α β : Type) where
  d : Data α β
  bx : Mtx α
  wx : Mtx α
  bY : Mtx β
  wY : Mtx β
  idxs : List Nat
  mini : Bool
  maxFProp : Nat
  maxTrain : Nat
  cur : Int
  px : Cur
  py : Cur
  walk : Option SetId

variable {α β : Type}

/-- `smatrix_deform::clear` smatrix.h:1418-1423, `smatrix::clear` 1024-1032, `_free` (releases storage, zero sizes). The
emulation flag is kept. -/
def clear (m : Mtx α) : Mtx α :=
  { m with cap := 0, rows := 0, cols := 0, ext := false, holey := false, bir := false, maxSize := 0 }

/-- `smatrix_deform::resize_as_dataset` smatrix.h:1453-1460 (and 1082-1085). -/
def resizeAsDataset [OfNat α 1] (m : Mtx α) (bs w : Nat) (junk : Nat → α) (ok : Bool) : Option (Mtx α × Bool) :=
  if m.bir then m.dResize w bs junk ok else m.dResize bs w junk ok

/-- `dataset_samples_count` inmem_train_data.h:67-71. -/
def Data.count (d : Data α β) (s : SetId) : Nat := (d.X s).batchSize
/-- `xWidth`, `yWidth` inmem_train_data.h:73-74. -/
def Data.xW (d : Data α β) : Nat := (d.X .train).sampleSize
def Data.yW (d : Data α β) : Nat := (d.Y .train).sampleSize
/-- `empty` inmem_train_data_stor.h:150-152. -/
def Data.empty (d : Data α β) : Bool :=
  (d.X .train).empty || (d.Y .train).empty || (d.X .test).empty || (d.Y .test).empty
/-- `biggest_samples_count` _td_base.h:128-135 (loop over the two sets). -/
def Data.biggest (d : Data α β) : Nat := max (max 0 (d.count .train)) (d.count .test)
/-- `samplesXStorageCoherent`, `samplesYStorageCoherent` inmem_train_data_stor.h:230-235. -/
def Data.coherent (d : Data α β) : Bool :=
  ((d.X .train).bir == (d.X .test).bir) && ((d.Y .train).bir == (d.Y .test).bir)

/-- A freshly constructed object holding data. -/
def fresh (d : Data α β) (ja : Nat → α) (jb : Nat → β) : TD α β :=
  { d, bx := Mtx.default ja, wx := Mtx.default ja, bY := Mtx.default jb, wY := Mtx.default jb, idxs := [], mini := false,
    maxFProp := 0, maxTrain := 0, cur := 0, px := .null, py := .null, walk := none }

/-- `deinit4all` _train_data_simple.h:104-115, _td_base.h:106-111. -/
def deinit (t : TD α β) : TD α β :=
  { t with mini := false, bx := clear t.bx, bY := clear t.bY, wx := clear t.wx, wY := clear t.wY, idxs := [],
           px := .null, py := .null, maxTrain := 0, maxFProp := 0, cur := 0, walk := none }

/-- What the environment decides during one initialisation: contents of allocated memory and which allocations
succeed. -/
structure AllocEnv (α β : Type) where
  jx : Nat → α
  jy : Nat → β
  okIdx : Bool
  okX : Bool
  okY : Bool

/-- `_initBatches` _train_data_simple.h:70-101. -/
def initBatches [OfNat α 1] [OfNat β 1] (t : TD α β) (miniInf : Bool) (e : AllocEnv α β) : Option (TD α β × Bool) :=
  if t.mini || miniInf then
    let mbs := max t.maxTrain t.maxFProp
    let useWalkX := (t.d.X .train).bir && miniInf
    let rx : Option (Mtx α × Bool) :=
      if t.mini || !useWalkX then
        resizeAsDataset { t.bx with emul := true, bir := (t.d.X .train).bir } (if useWalkX then t.maxTrain else mbs) t.d.xW e.jx e.okX
      else some (t.bx, true)
    match rx with
    | none => none
    | some (bx, false) => some ({ t with bx }, false)
    | some (bx, true) =>
      let useWalkY := (t.d.Y .train).bir && miniInf
      let ry : Option (Mtx β × Bool) :=
        if t.mini || !useWalkY then
          resizeAsDataset { t.bY with emul := false, bir := (t.d.Y .train).bir } (if useWalkY then t.maxTrain else mbs) t.d.yW e.jy e.okY
        else some (t.bY, true)
      match ry with
      | none => none
      | some (bY, false) => some ({ t with bx := clear bx, bY }, false)
      | some (bY, true) => some ({ t with bx, bY }, true)
  else some (t, true)

/-- The part of `nnet_errors_t` used here. -/
inductive Err where
  | success
  | tooBigTrainTestSet
  | tooBigTrainSet
  | invalidBatchSize2MaxFPropSizeRelation
  | tdInitNoMemory
  deriving DecidableEq

/-- Result of an initialisation: object, error code and the IN OUT arguments. -/
structure InitRes (α β : Type) where
  t : TD α β
  err : Err
  maxFProp : Nat
  maxBatch : Nat

/-- `init4inference` _train_data_simple.h:140-162; `vmax` is `numeric_limits<vec_len_t>::max()`. `none`: the exception
leaving the `noexcept` function `biggest_samples_count` (117-128) terminates the program. -/
def init4inference [OfNat α 1] [OfNat β 1] (vmax : Nat) (t0 : TD α β) (maxF : Nat) (e : AllocEnv α β) :
    Option (InitRes α β) :=
  let t := deinit t0
  let biggest := t.d.biggest
  if biggest > vmax then none
  else if maxF = 0 ∧ biggest > vmax then some ⟨t, .tooBigTrainTestSet, maxF, 0⟩
  else
    let maxF := if maxF ≤ 0 ∨ maxF > biggest then biggest else maxF
    match initBatches { t with maxFProp := maxF } (decide (maxF < biggest)) e with
    | none => none
    | some (t, false) => some ⟨t, .tdInitNoMemory, maxF, 0⟩
    | some (t, true) => some ⟨t, .success, maxF, 0⟩

/-- `init4train` _train_data_simple.h:178-232 with the clean-up of 188-191. `*pbMiniBatch` is `t.mini` of the result. -/
def init4train [OfNat α 1] [OfNat β 1] (vmax : Nat) (t0 : TD α β) (maxF maxB : Nat) (e : AllocEnv α β) :
    Option (InitRes α β) :=
  let t := deinit t0
  let trainCnt := t.d.count .train
  let biggest := t.d.biggest
  if biggest > vmax then none
  else if maxF = 0 ∧ biggest > vmax then some ⟨deinit t, .tooBigTrainTestSet, maxF, maxB⟩
  else if maxB = 0 ∧ trainCnt > vmax then some ⟨deinit t, .tooBigTrainSet, maxF, maxB⟩
  else
    let maxF := if maxF ≤ 0 ∨ maxF > biggest then biggest else maxF
    let maxB := if maxB ≤ 0 ∨ maxB > trainCnt then trainCnt else maxB
    if maxB > maxF then some ⟨deinit t, .invalidBatchSize2MaxFPropSizeRelation, maxF, maxB⟩
    else
      let mini := decide (maxB < trainCnt)
      let t := { t with maxFProp := maxF, maxTrain := maxB, mini := mini }
      if mini ∧ !e.okIdx then some ⟨deinit t, .tdInitNoMemory, maxF, maxB⟩
      else
        let t := if mini then { t with idxs := List.range trainCnt } else t
        match initBatches t (decide (maxF < biggest)) e with
        | none => none
        | some (t, false) => some ⟨deinit t, .tdInitNoMemory, maxF, maxB⟩
        | some (t, true) => some ⟨t, .success, maxF, maxB⟩

/-- `is_initialized4inference` _train_data_simple.h:130-137: `none` is `false`, `some bs` is `true` with the updated
argument. -/
def isInit4inference (t : TD α β) (bs : Nat) : Option Nat :=
  let tbs := if bs ≠ 0 then bs else t.maxFProp
  if t.d.empty || t.maxFProp == 0 || decide (tbs > t.maxFProp) then none
  else if decide (tbs < t.maxFProp) && t.bx.empty then none
  else some tbs

/-- `is_initialized4train` _train_data_simple.h:164-173: updated `fpropBs`, `trainBs`, `bMiniBatch`. -/
def isInit4train (t : TD α β) (fpropBs trainBs : Nat) : Option (Nat × Nat × Bool) :=
  match isInit4inference t fpropBs with
  | none => none
  | some fb =>
    let tbs := if trainBs ≠ 0 then trainBs else t.maxTrain
    if t.maxTrain == 0 || decide (tbs > t.maxTrain) || (decide (tbs < t.maxFProp) && t.bx.empty) || decide (tbs > fb) then none
    else some (fb, tbs, !t.bx.empty)

/-- Values of the by-reference arguments `fpropBs`, `trainBs` after the call (164-171): the inner call of
`is_initialized4inference` may have changed `fpropBs` before `false` is returned. -/
def isInit4trainArgs (t : TD α β) (fpropBs trainBs : Nat) : Nat × Nat :=
  match isInit4train t fpropBs trainBs with
  | some (fb, tb, _) => (fb, tb)
  | none => ((isInit4inference t fpropBs).getD fpropBs, trainBs)

/-- `batchX()`, `batchY()` _td_base.h:119-120. -/
def batchX (t : TD α β) : Option (Mtx α) :=
  match t.px with
  | .null => none
  | .batch => some t.bx
  | .walk => some t.wx
  | .whole s => some (t.d.X s)
def batchY (t : TD α β) : Option (Mtx β) :=
  match t.py with
  | .null => none
  | .batch => some t.bY
  | .walk => some t.wY
  | .whole s => some (t.d.Y s)

/-- The batch size used by `on_next_epoch` (244-248) and `walk_over_set` (319-323); `dflt` is the value taken for a negative
argument, `cd` is `cd.input_batch_size()`. -/
def effBatch (dflt cd : Nat) (arg : Int) : Int := if arg < 0 then dflt else if arg = 0 then cd else arg

/-- `on_next_epoch` _train_data_simple.h:237-282. `shuffle` is what `random_shuffle` does to the index vector. Returns the
number of batches. The assertions 249, 252, 258-261, 274, 276 are checked (`none`); the assertion 251 that
`is_initialized4train` is true is checked in a weaker form by 249. -/
def onNextEpoch [OfNat α 1] (t : TD α β) (cd : Nat) (arg : Int) (shuffle : List Nat → List Nat) : Option (TD α β × Nat) :=
  let bs := effBatch t.maxTrain cd arg
  if bs > 0 ∧ bs ≤ t.maxTrain ∧ bs ≤ t.d.count .train then
    let b := bs.toNat
    let t := { t with walk := none, cur := bs }
    if t.mini then
      match t.bx.deformBatchSizeWithBiases b, t.bY.deformBatchSize b with
      | some bx, some bY =>
        some ({ t with bx, px := .batch, bY, py := .batch, idxs := shuffle t.idxs }, t.d.count .train / b)
      | _, _ => none
    else if b = (t.d.X .train).batchSize ∧ b = (t.d.Y .train).batchSize then
      some ({ t with px := .whole .train, py := .whole .train }, t.d.count .train / b)
    else none
  else none

/-- `on_next_batch` _train_data_simple.h:285-307 as a relation (the writes of the extraction may be done in any order by the
threads of `exX`, `exY`). Assertions 286-298 are conjuncts. -/
def OnNextBatch (exX exY : Exec) (t : TD α β) (batchIdx : Nat) (t' : TD α β) : Prop :=
  t.walk = none ∧ t.cur > 0 ∧
  if t.mini then
    (t.bx.batchSize : Int) = t.cur ∧ (t.bY.batchSize : Int) = t.cur ∧ t.px = .batch ∧ t.py = .batch ∧
    t.cur.toNat * batchIdx + t.cur.toNat ≤ t.idxs.length ∧
    ∃ dy dx, Outcome (mExtractBatches exY (t.d.Y .train) t.bY (fun i => t.idxs.getD (t.cur.toNat * batchIdx + i) 0)) t.bY.data dy ∧
      Outcome (mExtractBatches exX (t.d.X .train) t.bx (fun i => t.idxs.getD (t.cur.toNat * batchIdx + i) 0)) t.bx.data dx ∧
      t' = { t with bY := { t.bY with data := dy }, bx := { t.bx with data := dx } }
  else batchIdx = 0 ∧ t' = t

/-- `walk_over_set` _train_data_simple.h:310-372. Returns the number of batches. Assertions 324, 329, 343, 355, 363, 365 are
checked. -/
def walkOverSet [OfNat α 1] (t : TD α β) (s : SetId) (cd : Nat) (arg : Int) (exclX exclY : Bool) : Option (TD α β × Nat) :=
  let bs0 := effBatch t.maxFProp cd arg
  let ds := t.d.count s
  if bs0 > 0 ∧ bs0 ≤ t.maxFProp ∧ ds > 0 then
    let b := if bs0.toNat > ds then ds else bs0.toNat
    let n := ds / b + (decide (ds % b > 1)).toNat
    let t := { t with walk := some s }
    if b < ds then
      let t := { t with cur := (b : Int) }
      let tx : Option (TD α β) :=
        if exclX then some { t with px := .null }
        else if (t.d.X .train).bir then some { t with px := .walk }
        else (t.bx.deformBatchSizeWithBiases b).map fun bx => { t with bx, px := .batch }
      match tx with
      | none => none
      | some t =>
        let ty : Option (TD α β) :=
          if exclY then some { t with py := .null }
          else if (t.d.Y .train).bir then some { t with py := .walk }
          else (t.bY.deformBatchSize b).map fun bY => { t with bY, py := .batch }
        ty.map fun t => (t, n)
    else if b = (t.d.X s).batchSize ∧ b = (t.d.Y s).batchSize then
      some ({ t with cur := -1, px := if exclX then .null else .whole s, py := if exclY then .null else .whole s }, n)
    else none
  else none

/-- The view `colDataAsVec(start)` .. used at 427-430 and 440-444: `r` rows and `bs` columns from column `start` on. -/
def colView (w src : Mtx α) (start r bs : Nat) (emul : Bool) : Option (Mtx α) :=
  w.dUseExternal (fun k => src.data (src.rows * start + k)) (src.cap - src.rows * start) r bs emul false true

/-- The change of the batch sizes for the last, smaller batch (408-415); `none` for violated assertions 413, 414 and for
storage that can't be deformed. -/
def shrinkX [OfNat α 1] (t : TD α β) (maxBs : Nat) : Option (Mtx α) :=
  if (maxBs : Int) < t.cur then
    if t.px = .batch then t.bx.deformBatchSizeWithBiases maxBs else some t.bx
  else if t.px = .batch ∧ (t.bx.batchSize : Int) ≠ t.cur then none else some t.bx
def shrinkY (t : TD α β) (maxBs : Nat) : Option (Mtx β) :=
  if (maxBs : Int) < t.cur then
    if t.py = .batch then t.bY.deformBatchSize maxBs else some t.bY
  else if t.py = .batch ∧ (t.bY.batchSize : Int) ≠ t.cur then none else some t.bY

/-- Lines 433-445: fetch the X part of samples `[start, start+bs)` of set `s`. -/
def FetchX (ex : Exec) (d : Data α β) (s : SetId) (px : Cur) (bx wx : Mtx α) (start bs : Nat) (bx' wx' : Mtx α) : Prop :=
  match px with
  | .batch => wx' = wx ∧ ∃ dx, Outcome (mExtractRowsSeq ex (d.X s) bx start) bx.data dx ∧ bx' = { bx with data := dx }
  | .walk => bx' = bx ∧ colView wx (d.X s) start ((d.X s).sampleSize + 1) bs true = some wx'
  | _ => bx' = bx ∧ wx' = wx
/-- Lines 420-431: the same for Y. -/
def FetchY (ex : Exec) (d : Data α β) (s : SetId) (py : Cur) (bY wY : Mtx β) (start bs : Nat) (bY' wY' : Mtx β) : Prop :=
  match py with
  | .batch => wY' = wY ∧ ∃ dy, Outcome (mExtractRowsSeq ex (d.Y s) bY start) bY.data dy ∧ bY' = { bY with data := dy }
  | .walk => bY' = bY ∧ colView wY (d.Y s) start (d.Y s).sampleSize bs false = some wY'
  | _ => bY' = bY ∧ wY' = wY

/-- `next_subset` _train_data_simple.h:375-452. There is no step when the code aborts (402-405). -/
def NextSubset [OfNat α 1] (exX exY : Exec) (t : TD α β) (batchIdx : Nat) (t' : TD α β) : Prop :=
  ∃ s, t.walk = some s ∧
  if t.cur > 0 then
    let start := batchIdx * t.cur.toNat
    let maxBs := (t.d.X s).batchSize - start
    start < (t.d.X s).batchSize ∧
    let bs := if (maxBs : Int) < t.cur then maxBs else t.cur.toNat
    ∃ bx1 bY1, shrinkX t maxBs = some bx1 ∧ shrinkY t maxBs = some bY1 ∧
    ∃ bx2 wx2 bY2 wY2, FetchX exX t.d s t.px bx1 t.wx start bs bx2 wx2 ∧ FetchY exY t.d s t.py bY1 t.wY start bs bY2 wY2 ∧
      t' = { t with bx := bx2, wx := wx2, bY := bY2, wY := wY2 }
  else t.cur = -1 ∧ t' = t

end Nntl.TrainData
