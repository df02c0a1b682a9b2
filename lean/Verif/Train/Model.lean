import Verif.TrainData.Model
/-!
Model of the training loop and of the training options.
Source: /repo/nntl/nnet.h (`train`, `_report_training_progress`, `_set_mode_and_batch_size`, `_init4train`, `deinit`),
/repo/nntl/common_nn_data.h, /repo/nntl/nnet_train_opts.h, /repo/nntl/utils/vector_conditions.h

A run of `train()` is modelled by the sequence of calls it makes to the training data, the layers, the inspector, the observer
and the user's callbacks. Everything these parties decide is a function in `Env`, so that a theorem over all `Env` is a theorem
over all data sets, networks, observers and callbacks. Clocks, thread priorities and text output are left out.
-/
namespace Nntl.Train

/-- The error codes of `_nnet_errs.h` that `train()` itself produces; `other` is a code received from `init4train`, from the
initialisation of the layers or from the user's init callback. -/
inductive Err where
  | success
  | invalidTD
  | invalidInputLayerNeuronsCount
  | invalidOutputLayerNeuronsCount
  | cantInitializeObserver
  | nnDiverged
  | other (code : Nat)
  deriving DecidableEq

/-- Calls made by `train()`. `fprop`/`bprop` carry the mode and batch size the network is in when the call is made (`common_nn_data`).
Epoch `-1` of `report` is the report made before training. -/
inductive Ev where
  | turnInspector (on : Bool)
  | observerInit
  | observerDeinit
  | trainingStart
  | trainingEnd
  | report (epoch : Int)
  | timeReport (epoch : Nat)
  | nextEpoch (epoch : Nat)
  | epochBegin (epoch batches : Nat)
  | batchBegin (batch : Nat)
  | nextBatch (batch : Nat)
  | preFprop
  | fprop (training : Bool) (bs : Nat)
  | preBprop
  | bprop (training : Bool) (bs : Nat)
  | batchEnd
  | epochEnd
  | callback (epoch : Nat)
  | layersBatchSize (bs : Nat)
  | deinit
  deriving DecidableEq

/-- `common_nn_data` common_nn_data.h:67-70,86. -/
structure CD where
  maxFprop : Nat
  trainBs : Nat
  cur : Nat
  training : Bool
  deriving DecidableEq

/-- `common_nn_data::set_mode_and_batch_size` common_nn_data.h:154-165 followed by `on_batch_size_change` of the layers when it
returns true (nnet.h:482-484, 490-492, 497-499). Assertions are left out. -/
def CD.setMode (cd : CD) (training : Bool) (bs : Nat) : CD × List Ev :=
  if training == cd.training && bs == cd.cur then (cd, [])
  else ({ cd with training := training, cur := bs }, [.layersBatchSize bs])

/-- `nnet::_set_mode_and_batch_size` nnet.h:477-485. -/
def CD.setModeBs (cd : CD) (bs : Nat) : CD × List Ev :=
  let isTraining := bs == 0
  cd.setMode isTraining (if isTraining then cd.trainBs else bs)

/-- A series of mode changes made by a report (each batch is evaluated in inference mode, nnet.h:253-257) or by a user's callback
(through `fprop`, gradient check and the like). -/
def CD.setModes (cd : CD) : List (Bool × Nat) → CD × List Ev
  | [] => (cd, [])
  | (t, bs) :: rest =>
    let p := cd.setMode t bs
    let q := p.1.setModes rest
    (q.1, p.2 ++ q.2)

/-- The part of `nnet_train_opts` (nnet_train_opts.h:104-136) the loop reads. `flags` is `m_vbEpochEval`; `maxEpoch()` is its size
(159, vector_conditions.h:85). `L` is the type of loss values. -/
structure Opts (L : Type) where
  flags : List Bool
  divLast : Int
  thr : L
  repOnlyTime : Bool
  immDeinit : Bool
  forceInsp : Bool

/-- What the other parties decide. `ge` is the floating point comparison `>=`. -/
structure Env (L : Type) where
  tdEmpty : Bool
  inputOk : Bool
  outputOk : Bool
  inspActive : Bool
  initErr : Err
  initCbErr : Err
  obsOk : Bool
  /-- number of batches returned by `td.on_next_epoch(epoch, cd)` -/
  batches : Nat → CD → Nat
  /-- training loss computed for the report of an epoch -/
  loss : Int → L
  /-- inference batch sizes used by the report of an epoch -/
  repModes : Int → List Nat
  /-- value returned by the callback after an epoch -/
  cb : Nat → Bool
  /-- mode changes made by the callback -/
  cbModes : Nat → List (Bool × Nat)
  ge : L → L → Bool

variable {L : Type}

/-- `_report_training_progress` nnet.h:237-251: loss over both sets, then the observer. -/
def report (v : Env L) (cd : CD) (e : Int) : CD × List Ev :=
  let p := cd.setModes ((v.repModes e).map fun bs => (false, bs))
  (p.1, p.2 ++ [.report e])

/-- The loop over batches nnet.h:602-622. `b` is `batchIdx`, `k` the number of remaining iterations. -/
def batchLoop (cd : CD) : Nat → Nat → List Ev
  | _, 0 => []
  | b, k + 1 =>
    [.batchBegin b, .nextBatch b, .preFprop, .fprop cd.training cd.cur, .preBprop, .bprop cd.training cd.cur, .batchEnd]
      ++ batchLoop cd (b + 1) k

/-- nnet.h:624-648: the report after the last batch of epoch `e`; `flag` is `reportEpochCond(e)`. The last component is true when the
function returns `NNDiverged`. -/
def afterBatches (o : Opts L) (v : Env L) (cd : CD) (e : Nat) (flag : Bool) : CD × List Ev × Bool :=
  let check := decide ((e : Int) < o.divLast)
  if flag || check then
    if o.repOnlyTime && !check then (cd, [.timeReport e], false)
    else
      let p := report v cd e
      (p.1, p.2, check && v.ge (v.loss e) o.thr)
  else (cd, [], false)

/-- The loop over epochs nnet.h:597-660. `e` is `epochIdx`, `k` the number of remaining iterations. `none`: the vector of flags is
read outside of its bounds. -/
def epochLoop (o : Opts L) (v : Env L) : CD → Nat → Nat → Option (CD × List Ev × Err)
  | cd, _, 0 => some (cd, [], .success)
  | cd, e, k + 1 =>
    let n := v.batches e cd
    let evs := [.nextEpoch e, .epochBegin e n] ++ batchLoop cd 0 n
    match o.flags[e]? with
    | none => none
    | some flag =>
      let r := afterBatches o v cd e flag
      if r.2.2 then some (r.1, evs ++ r.2.1, .nnDiverged)
      else
        let c := r.1.setModes (v.cbModes e)
        let evs := evs ++ r.2.1 ++ [.epochEnd] ++ (.callback e :: c.2)
        if !v.cb e then some (c.1, evs, .success)
        else
          let m := c.1.setModeBs 0
          match epochLoop o v m.1 (e + 1) k with
          | none => none
          | some (cd', evs', err) => some (cd', evs ++ m.2 ++ evs', err)

/-- Part of `train()` between the initialisation of the observer and its release, nnet.h:572-676. -/
def observed (o : Opts L) (v : Env L) (cd : CD) : Option (CD × List Ev × Err) :=
  let p := report v cd (-1)
  let m := p.1.setModeBs 0
  match epochLoop o v m.1 0 o.flags.length with
  | none => none
  | some (cd', evs, err) =>
    let fin : List Ev := if err = .success then (if o.repOnlyTime then [] else [.trainingEnd]) else []
    some (cd', [.trainingStart] ++ p.2 ++ m.2 ++ evs ++ fin, err)

/-- `nnet::train` nnet.h:523-676 on a network whose `common_nn_data` after the initialisation of line 560 is `cd`. The clean-up of
539-546 and 573-575 is appended. -/
def train (o : Opts L) (v : Env L) (cd : CD) : Option (CD × List Ev × Err) :=
  if v.tdEmpty then some (cd, [], .invalidTD)
  else if !v.inputOk then some (cd, [], .invalidInputLayerNeuronsCount)
  else if !v.outputOk then some (cd, [], .invalidOutputLayerNeuronsCount)
  else
    let pre : List Ev := if o.forceInsp then [.turnInspector true] else []
    let post : List Ev := (if o.immDeinit then [.deinit] else []) ++ (if o.forceInsp then [.turnInspector v.inspActive] else [])
    if v.initErr ≠ .success then some (cd, pre ++ post, v.initErr)
    else if v.initCbErr ≠ .success then some (cd, pre ++ post, v.initCbErr)
    else if !v.obsOk then some (cd, pre ++ [.observerInit] ++ post, .cantInitializeObserver)
    else
      match observed o v cd with
      | none => none
      | some (cd', evs, err) => some (cd', pre ++ [.observerInit] ++ evs ++ [.observerDeinit] ++ post, err)

/-! ### vector_conditions -/

/-- `vector_conditions::set(i, v)` vector_conditions.h:90; `none`: outside of the vector. -/
def setFlag (l : List Bool) (i : Int) (v : Bool) : Option (List Bool) :=
  if 0 ≤ i ∧ i < l.length then some (l.set i.toNat v) else none

/-- The loop of `vector_conditions::set(_beg, _end, stride, v)` vector_conditions.h:93. With a stride below 1 the assertion of line 92
fails. -/
def setLoop (l : List Bool) (i stop stride : Int) (v : Bool) (hs : 0 < stride) : Option (List Bool) :=
  if h : i < stop then
    match setFlag l i v with
    | none => none
    | some l' => setLoop l' (i + stride) stop stride v hs
  else some l
termination_by (stop - i).toNat
decreasing_by omega

/-- `vector_conditions::set(_beg, _end, stride, v)` vector_conditions.h:91-95. Of the assertion of line 92 only `stride > 0` is kept
(without it the loop does not end); the other two conditions are not needed. -/
def setFlags (l : List Bool) (beg stop stride : Int) (v : Bool) : Option (List Bool) :=
  if hs : 0 < stride then setLoop l (beg - 1) stop stride v hs else none

/-- Constructor vector_conditions.h:54-57. -/
def flagsDefault (maxEpoch : Nat) (defVal : Bool) : Option (List Bool) :=
  setFlag (List.replicate maxEpoch defVal) ((maxEpoch : Int) - 1) true
/-- Constructor vector_conditions.h:58-62. -/
def flagsStride (maxEpoch : Nat) (stride : Int) : Option (List Bool) :=
  (setFlags (List.replicate maxEpoch false) stride maxEpoch stride true).bind fun l => setFlag l ((maxEpoch : Int) - 1) true
/-- Constructor vector_conditions.h:63-67. -/
def flagsFrom (maxEpoch : Nat) (startsAt stride : Int) : Option (List Bool) :=
  (setFlags (List.replicate maxEpoch false) startsAt maxEpoch stride true).bind fun l => setFlag l ((maxEpoch : Int) - 1) true

/-! ### Batch sizes of the options -/

/-- `m_BatchSize`, `m_maxFpropSize` nnet_train_opts.h:117. -/
structure Sizes where
  batch : Int
  maxFprop : Int
  deriving DecidableEq

/-- Values set by `_ctor` nnet_train_opts.h:139. -/
def Sizes.init : Sizes := ⟨0, 0⟩

/-- `batchSize(val)` nnet_train_opts.h:176-188; `none`: an exception is thrown in a `noexcept` function, the program terminates. -/
def Sizes.setBatch (s : Sizes) (val : Int) : Option Sizes :=
  if val < 0 ∨ (s.maxFprop ≠ 0 ∧ val > s.maxFprop) then none else some { s with batch := val }

/-- `maxFpropSize(val)` nnet_train_opts.h:201-213. -/
def Sizes.setMaxFprop (s : Sizes) (val : Int) : Option Sizes :=
  if val < 0 ∨ (val > 0 ∧ 0 = s.batch) ∨ (val > 0 ∧ val < s.batch) then none else some { s with maxFprop := val }

/-! ### Initialisation of a training session -/

/-- The network's side: `common_nn_data::is_initialized` is `maxFprop > 0` (common_nn_data.h:208-211), `m_bRequireReinit`. -/
structure Net where
  cd : CD
  requireReinit : Bool
  deriving DecidableEq

/-- `nnet::deinit` nnet.h:503-515, `common_nn_data::deinit` common_nn_data.h:115-120 (the mode flag is kept). -/
def Net.deinit (n : Net) : Net := { cd := { n.cd with maxFprop := 0, trainBs := 0, cur := 0 }, requireReinit := false }

/-- `nnet::_is_initialized` nnet.h:327-329 with `is_initialized` 303-307. -/
def Net.isInitialized (n : Net) (fprop batch : Nat) : Bool :=
  !n.requireReinit && decide (n.cd.maxFprop > 0) && decide (fprop ≤ n.cd.maxFprop) && decide (batch ≤ n.cd.trainBs)

/-- `nnet::_full_init` nnet.h:375-413: the sizes are stored first (line 389, `common_nn_data::init` common_nn_data.h:121-130); a
failure in the layers, the math or the random number object (`res`) runs `deinit` (lines 384-387). -/
def Net.fullInit (n : Net) (fprop batch : Nat) (res : Err) : Net × Err :=
  let n1 : Net := { n with cd := { n.cd with maxFprop := fprop, trainBs := batch, cur := 0, training := false } }
  if res = .success then (n1, .success) else (n1.deinit, res)

open Nntl.TrainData in
/-- `nnet::_init4train` nnet.h:351-373. `mathErr` is the outcome of `get_iMath().init()` of line 361, `full` that of the parts of
`_full_init`. `none`: the program is terminated inside of `td.init4train`. -/
def Net.init4train {α β : Type} [OfNat α 1] [OfNat β 1] (vmax : Nat) (n : Net) (td : TD α β) (maxF maxB : Nat) (force : Bool)
    (e : AllocEnv α β) (mathErr full : Err) : Option (Net × TD α β × Nat × Nat × Err) :=
  let go (td : TD α β) (maxF maxB : Nat) : Net × TD α β × Nat × Nat × Err :=
    if n.isInitialized maxF maxB then (n, td, maxF, maxB, mathErr)
    else
      let r := n.deinit.fullInit maxF maxB full
      (r.1, td, maxF, maxB, r.2)
  match if force then none else isInit4train td maxF maxB with
  | some (f, b, _) => some (go td f b)
  | none =>
    let args := if force then (maxF, maxB) else isInit4trainArgs td maxF maxB
    match TrainData.init4train vmax td args.1 args.2 e with
    | none => none
    | some r => if r.err = .success then some (go r.t r.maxFProp r.maxBatch) else some (n, r.t, r.maxFProp, r.maxBatch, .other 0)

end Nntl.Train
