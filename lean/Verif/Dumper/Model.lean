import Verif.MatFile.ExModel
import Verif.Utils.BwList
/-!
Model of the inspector that writes the data flow of the training to MATLAB files: `inspector::dumper` with the conditions that say what is written.
Sources: /repo/nntl/interface/inspectors/dumper.h, /repo/nntl/utils/layer_idx_keeper.h, /repo/nntl/utils/vector_conditions.h. The archive is the one of
`MatFile.ExModel` (`matfile_savingEx`, matfile.h 627-764), the list of layers the one of `Utils.Bw`.

`NNTL_ASSERT`s are left out: this is the program as it runs with `NDEBUG`. Output to the console is left out. A character of a file name is a byte.
-/
namespace Nntl.Dumper
open Nntl.MatFile

/-- How a call ends: normally, by `abort()` (`_epic_fail` dumper.h 278-283; an exception or an invalid parameter inside of a `noexcept` function), or with undefined
behaviour. -/
inductive Res (α : Type) where
  | ok (a : α)
  | abort
  | ub

/-- Sequencing. -/
def Res.bind {α β : Type} : Res α → (α → Res β) → Res β
  | .ok a, f => f a
  | .abort, _ => .abort
  | .ub, _ => .ub

/-! ### Conditions, dumper.h 39-167 -/

/-- The classes of `conds`: `EpochNum` 47-76, `EpochNumWLastBatch` 79-100, `EpochNumWFirstNLastBatch` 104-115, `CalcErrByEpochNum` 119-133,
`CalcErrOnlyByEpochNum` 136-141, `FirstBatches` 144-166. -/
inductive Kind where
  | epochNum | lastBatch | firstN | calcErr | calcErrOnly | firstBatches
  deriving DecidableEq

/-- The members of the classes. `epochs`: `m_epochsToDump`; `flags`: `m_dumpEpochCond`; `initialErr`: `bDumpInitialErr`; `count` and `stride`: `m_firstNBatches` and
`m_firstNBatchesStride`, or `maxBatches` and `stride`. The numbers are signed. -/
structure Cond where
  kind : Kind
  epochs : List Int
  flags : List Bool
  lastEpoch : Int
  lastBatch : Int
  initialErr : Bool
  count : Int
  stride : Int

/-- `operator()`, vector_conditions.h 88: no check of the index. -/
def flagAt (flags : List Bool) (i : Int) : Res Bool :=
  if i < 0 then .ub else match flags[i.toNat]? with
    | some b => .ok b
    | none => .ub

/-- `verbose`, vector_conditions.h 90 and 97: no check of the index. -/
def setFlag (flags : List Bool) (i : Int) : Res (List Bool) :=
  if i < 0 ∨ flags.length ≤ i.toNat then .ub else .ok (flags.set i.toNat true)

/-- The loop of `EpochNum::on_init_nnet`, dumper.h 60-64. -/
def setEpochs (total : Nat) : List Int → List Bool → Res (List Bool)
  | [], fl => .ok fl
  | e :: es, fl => (setFlag fl (if e < total then e else (total : Int) - 1)).bind (setEpochs total es)

/-- `EpochNum::on_init_nnet`, dumper.h 54-65. -/
def initEpochs (total : Nat) (c : Cond) : Res Cond :=
  let es := if c.epochs.isEmpty then [(total : Int) - 1] else c.epochs
  (setEpochs total es (List.replicate total false)).bind fun fl => .ok { c with epochs := es, flags := fl }

/-- `on_init_nnet` of each class, dumper.h 54-65, 85-90, 123-128, 149-159. -/
def Cond.init (total : Nat) (c : Cond) : Res Cond :=
  match c.kind with
  | .epochNum => initEpochs total c
  | .lastBatch | .firstN => initEpochs total { c with lastEpoch := (total : Int) - 1, lastBatch := -1 }
  | .calcErr | .calcErrOnly => (initEpochs total c).bind fun c => .ok { c with initialErr := c.epochs.any fun v => v == -1 }
  | .firstBatches => if c.count = 0 then .abort else .ok { c with stride := if c.stride = 0 then 1 else c.stride }

/-- `on_train_epochBegin` of each class, dumper.h 67-71, 92-96, 137-138, 161. -/
def Cond.epochBegin (e nb : Int) (c : Cond) : Res (Cond × Bool) :=
  match c.kind with
  | .epochNum | .calcErr => (flagAt c.flags e).bind fun b => .ok (c, b)
  | .lastBatch | .firstN => (flagAt c.flags e).bind fun b => .ok ({ c with lastBatch := nb - 1 }, b)
  | .calcErrOnly => .ok (c, false)
  | .firstBatches => .ok (c, true)

/-- `EpochNumWLastBatch::on_train_batchBegin`, dumper.h 97-99. -/
def lastBatchWanted (c : Cond) (b e : Int) : Res Bool :=
  (flagAt c.flags e).bind fun f => .ok (f && (if e = c.lastEpoch then decide (b = c.lastBatch) else decide (b = 0)))

/-- `on_train_batchBegin` of each class, dumper.h 72-74, 97-99, 110-114, 139-140, 162-164. `%` of C++ rounds towards zero. -/
def Cond.batchBegin (b e : Int) (c : Cond) : Res Bool :=
  match c.kind with
  | .epochNum | .calcErr => if b = 0 then flagAt c.flags e else .ok false
  | .lastBatch => lastBatchWanted c b e
  | .firstN => if e = 0 then .ok (decide (b < c.count) && (decide (b = 0) || decide (c.stride ≤ 1) || decide (b.tmod c.stride = 0))) else lastBatchWanted c b e
  | .calcErrOnly => .ok false
  | .firstBatches => if b < c.count then (if c.stride = 0 then .ub else .ok (decide (b.tmod c.stride = 0))) else .ok false

/-- `on_calcErr` of each class, dumper.h 75, 130-132, 165. `train_set_id` is 0. -/
def Cond.calcErr (e set : Int) (c : Cond) : Res Bool :=
  match c.kind with
  | .calcErr | .calcErrOnly => if set = 0 then (if e = -1 then .ok c.initialErr else flagAt c.flags e) else .ok false
  | _ => .ok false

/-! ### Names of files -/

/-- Decimal digits. -/
def digits (n : Nat) : List Char := if n < 10 then [Char.ofNat (48 + n)] else digits (n / 10) ++ [Char.ofNat (48 + n % 10)]
termination_by n
decreasing_by omega

/-- `%0wd`. -/
def printf0 (w : Nat) (i : Int) : List Char :=
  if i < 0 then '-' :: (List.replicate (w - 1 - (digits i.natAbs).length) '0' ++ digits i.natAbs)
  else List.replicate (w - (digits i.natAbs).length) '0' ++ digits i.natAbs

/-- `_ToDump` dumper.h 302-306, the data set for `CalcErrOnSet`. -/
inductive ToDump where
  | fprop | bprop
  | calcErr (set : Int)

/-- The text made by `_make_file_name` (`bSplitFiles` is true), dumper.h 308-320. -/
def fileName (dir : List Char) (epoch batch : Int) : ToDump → List Char
  | .fprop => dir ++ "/ep".toList ++ printf0 3 (epoch + 1) ++ ['_'] ++ printf0 3 batch ++ "_f.mat".toList
  | .bprop => dir ++ "/ep".toList ++ printf0 3 (epoch + 1) ++ ['_'] ++ printf0 3 batch ++ "_b.mat".toList
  | .calcErr set => dir ++ "/ep".toList ++ printf0 3 (epoch + 1) ++ "_err_".toList ++ printf0 0 set ++ ".mat".toList

/-- `maxFileNameLength` (`MAX_PATH`) and `maxDirNameLength`, dumper.h 213-214. -/
def maxFileName : Nat := 260
def maxDirName : Nat := maxFileName - 10

/-! ### The inspector -/

/-- `_dumper_base` dumper.h 196-218. `disk`: the files; `cur`: the name of the open one (the archive's handle). -/
structure St where
  cond : Cond
  names : List String
  bw : Utils.Bw.St
  epoch : Int
  batch : Int
  /-- `m_curLayer`, top first -/
  stack : List Nat
  dir : List Char
  active : Bool
  doDump : Bool
  arch : ExSt
  disk : List Char → Option Vars
  cur : List Char

/-- The constructors dumper.h 245-270. -/
def St.new (c : Cond) (bw : Utils.Bw.St) (dir : List Char) (disk : List Char → Option Vars) : St :=
  ⟨c, [], bw, -1, -1, [], dir, true, false, ⟨MatFile.St.init, []⟩, disk, []⟩

/-- `set_dir_to_dump` dumper.h 378-392. -/
def St.setDir (dir : List Char) (s : St) : Res St := if dir.length > maxDirName then .abort else .ok { s with dir := dir }

/-- A file is created or gets other contents. -/
def onDisk (d : List Char → Option Vars) (n : List Char) (v : Option Vars) : List Char → Option Vars := fun m => if m = n then v else d m

/-- `_open_archive` dumper.h 334-339 with `_make_file_name` 308-320. `sprintf_s` ends the program if the text and its terminating zero do not fit. -/
def St.openArch (E : Env) (t : ToDump) (s : St) : Res St :=
  if s.dir.isEmpty then .abort
  else
    let n := fileName s.dir s.epoch s.batch t
    if maxFileName < n.length + 1 then .abort
    else
      let p := s.arch.base.open E true .updateDelete (s.disk n)
      if p.1.err ≠ .success then .abort
      else .ok { s with arch := { s.arch with base := p.1 }, disk := onDisk s.disk n p.2, cur := n }

/-- `_close_archive` dumper.h 340-343. The contents are on the disk when the file has been closed. -/
def St.closeArch (E : Env) (s : St) : Res St :=
  let p := s.arch.close E
  if p.2 ≠ .success then .abort
  else .ok { s with arch := p.1, disk := if s.arch.base.file.isSome then onDisk s.disk s.cur s.arch.base.file else s.disk }

/-- `bDoDump()` dumper.h 373. -/
def St.dumping (s : St) : Bool := s.active && s.doDump

/-- `bDoDump(lidx)` dumper.h 374-376, with no layer if the index is the default value of the keeper (`layer_index_t(-1)`, outside of the list). -/
def St.dumpingIn (s : St) (l : Option Nat) : Res Bool :=
  if s.dumping then match l with
    | none => .ub
    | some l => match Utils.Bw.allowed s.bw l with
      | .ok b => .ok b
      | _ => .ub
  else .ok false

/-- `bUpperLayerDifferent` layer_idx_keeper.h 91-93. -/
def St.outermost (s : St) : Bool := match s.stack with
  | a :: b :: _ => decide (a ≠ b)
  | _ => true

/-- `_layer_name` dumper.h 272-276. -/
def St.layerName (s : St) : String := match s.stack with
  | [] => "_NoName"
  | l :: _ => (s.names[l]?).getD "_NoName"

/-- `ar & make_nvp(name, v)` and `_check_err(ar.get_last_error(), ..)`. -/
def St.put (E : Env) (n : String) (v : Leaf) (s : St) : Res St :=
  let b := MatFile.save E (.nvp n v) s.arch.base
  if b.err ≠ .success then .abort else .ok { s with arch := { s.arch with base := b } }

/-- Several of them. -/
def St.putAll (E : Env) : List (String × Leaf) → St → Res St
  | [], s => .ok s
  | (n, v) :: r, s => (s.put E n v).bind (St.putAll E r)

/-- `save_struct_begin(_layer_name(), false, true)` in `on_fprop_begin`, `on_bprop_begin`, dumper.h 536-541, 577-586. -/
def St.structBegin (E : Env) (s : St) : Res St :=
  let p := begin' E s.layerName false true s.arch
  if p.2 ≠ .success then .abort else .ok { s with arch := p.1 }

/-- `save_struct_end` in `on_fprop_end`, `on_bprop_end`, dumper.h 542-549, 587-591. -/
def St.structEnd (E : Env) (s : St) : Res St :=
  match end' E s.arch with
  | none => .ub
  | some p => if p.2 ≠ .success then .abort else .ok { s with arch := p.1 }

/-- What a layer tells the inspector while it works: `inspect` dumper.h 478-487 and the overridden functions of `_dumper`, dumper.h 551-571, 593-657. -/
inductive Note where
  | inspect (name : String) (v : Leaf)
  | preNesterov (vW momentum : Leaf)
  | makePre (W : Leaf)
  | dLdZ (v : Leaf)
  | gradBegin (W dLdW : Leaf)
  | gradUpdate (W upd : Leaf)
  | gradEnd (W : Leaf)
  | preILR (gain : Leaf)
  | postILR (gain : Leaf)

/-- What is stored, in this order. -/
def Note.items : Note → List (String × Leaf)
  | .inspect n v => [(n, v)]
  | .preNesterov vW m => [("f_preNM_vW", vW), ("f_preNM_momentum", m)]
  | .makePre W => [("W", W)]
  | .dLdZ v => [("dLdZ", v)]
  | .gradBegin W d => [("W", W), ("dLdW", d)]
  | .gradUpdate W u => [("a_WUpd_W", W), ("a_WUpd", u)]
  | .gradEnd W => [("a_W", W)]
  | .preILR g => [("Gain_preILR", g)]
  | .postILR g => [("Gain_postILR", g)]

/-- The calls of the inspector's interface, and the ones of the user. -/
inductive Call where
  | initNnet (layers epochs : Nat)
  | initLayer (l : Nat) (name : String) (type : Nat)
  | turnOn (b : Bool)
  | epochBegin (e nb : Int)
  | batchBegin (b : Int)
  | preBprop
  | batchEnd
  | preCalcErr (set : Int)
  | postCalcErr
  | fpropBegin (l : Nat)
  | fpropEnd (A : Leaf)
  | bpropBegin (l : Nat) (dLdA : Leaf)
  | bpropEnd
  | note (n : Note)

/-- `init_nnet` dumper.h 403-420. -/
def St.initNnet (layers epochs : Nat) (s : St) : Res St :=
  (s.cond.init epochs).bind fun c =>
    .ok { s with doDump := false, epoch := -1, batch := -1, names := List.replicate layers "", bw := { s.bw with cond := List.replicate layers (!s.bw.white) }, cond := c }

/-- `init_layer` dumper.h 422-428. -/
def St.initLayer (l : Nat) (name : String) (type : Nat) (s : St) : Res St :=
  if l < s.names.length then match Utils.Bw.updateLayer false s.bw l type with
    | .ok bw => .ok { s with names := s.names.set l name, bw := bw }
    | _ => .ub
  else .ub

/-- Every call: `turn_on`, `turn_off` 362-371, `train_epochBegin` 430-433, `train_batchBegin` 434-442, `train_preBprop` 444-452, `train_batchEnd` 454-460,
`train_preCalcError` 462-469, `train_postCalcError` 470-476, `inspect` 478-487, `fprop_begin` .. `bprop_end` 491-511. -/
def St.step (E : Env) (s : St) : Call → Res St
  | .initNnet l e => s.initNnet l e
  | .initLayer l n t => s.initLayer l n t
  | .turnOn b => .ok { s with active := b }
  | .epochBegin e nb => (s.cond.epochBegin e nb).bind fun p => .ok { s with epoch := e, cond := p.1, doDump := p.2 }
  | .batchBegin b => (s.cond.batchBegin b s.epoch).bind fun d =>
      let s := { s with doDump := d }
      if s.dumping then { s with batch := b }.openArch E .fprop else .ok s
  | .preBprop => if s.dumping then (s.closeArch E).bind (St.openArch E .bprop) else .ok s
  | .batchEnd => if s.dumping then (s.closeArch E).bind fun s => .ok { s with doDump := false } else .ok s
  | .preCalcErr set => (s.cond.calcErr s.epoch set).bind fun d =>
      let s := { s with doDump := d }
      if s.dumping then s.openArch E (.calcErr set) else .ok s
  | .postCalcErr => if s.dumping then (s.closeArch E).bind fun s => .ok { s with doDump := false } else .ok s
  | .fpropBegin l =>
      let s := { s with stack := l :: s.stack }
      (s.dumpingIn (some l)).bind fun d => if d && s.outermost then s.structBegin E else .ok s
  | .fpropEnd A => (s.dumpingIn s.stack.head?).bind fun d =>
      (if d && s.outermost then (s.put E "A" A).bind (St.structEnd E) else .ok s).bind fun s => if s.stack.isEmpty then .ub else .ok { s with stack := s.stack.tail }
  | .bpropBegin l d =>
      let s := { s with stack := l :: s.stack }
      (s.dumpingIn (some l)).bind fun b => if b && s.outermost then (s.structBegin E).bind (St.put E "dLdA" d) else .ok s
  | .bpropEnd => (s.dumpingIn s.stack.head?).bind fun d =>
      (if d && s.outermost then s.structEnd E else .ok s).bind fun s => if s.stack.isEmpty then .ub else .ok { s with stack := s.stack.tail }
  | .note n => (s.dumpingIn s.stack.head?).bind fun d => if d then s.putAll E n.items else .ok s

/-- A sequence of calls. -/
def St.run (E : Env) : List Call → St → Res St
  | [], s => .ok s
  | c :: cs, s => (s.step E c).bind (St.run E cs)

end Nntl.Dumper
