import Verif.Dumper.Model
/-! What a training does as the inspector sees it, and what is to be in which file, independently of the inspector's state. -/
namespace Nntl.Dumper
open Nntl.MatFile

/-! ### Trainings -/

/-- What happens while layers work: a layer says something, or a layer (with this index) works; `body` is what happens meanwhile (in the layer itself and in its inner layers), `v` its activations `A` (fprop)
or the `dL/dA` it gets (bprop). -/
inductive Part where
  | note (n : Note)
  | layer (l : Nat) (body : List Part) (v : Leaf)

/-- The direction. -/
inductive Dir where
  | f | b

mutual
/-- The calls to the inspector. -/
def Part.calls (d : Dir) : Part → List Call
  | .note n => [.note n]
  | .layer l body v => match d with
    | .f => .fpropBegin l :: (callsAll d body ++ [.fpropEnd v])
    | .b => .bpropBegin l v :: (callsAll d body ++ [.bpropEnd])
def callsAll (d : Dir) : List Part → List Call
  | [] => []
  | p :: ps => p.calls d ++ callsAll d ps
end

mutual
/-- Indices of layers are below the number of layers. -/
def Part.Fits (L : Nat) : Part → Prop
  | .note _ => True
  | .layer l body _ => l < L ∧ FitsAll L body
def FitsAll (L : Nat) : List Part → Prop
  | [] => True
  | p :: ps => p.Fits L ∧ FitsAll L ps
end

/-- The passes of a network: layers only, nothing is said outside of them. -/
def Pass (L : Nat) (ps : List Part) : Prop := FitsAll L ps ∧ ∀ p ∈ ps, ∃ l body v, p = .layer l body v

/-- A batch: the pass forward and the pass backward. -/
structure Batch where
  fwd : List Part
  bwd : List Part

/-- What a training consists of: an epoch with its batches; the calculation of the error of a data set (all passes, one after another); the user turns the inspector on or off between them. -/
inductive Seg where
  | epoch (e : Nat) (bs : List Batch)
  | err (set : Nat) (ps : List Part)
  | turn (on : Bool)

/-- A batch, with its number. -/
def Batch.calls (k : Nat) (b : Batch) : List Call := .batchBegin k :: (callsAll .f b.fwd ++ .preBprop :: (callsAll .b b.bwd ++ [.batchEnd]))

/-- Batches from number `k` on. -/
def batchCalls : Nat → List Batch → List Call
  | _, [] => []
  | k, b :: bs => b.calls k ++ batchCalls (k + 1) bs

def Seg.calls : Seg → List Call
  | .epoch e bs => .epochBegin e bs.length :: batchCalls 0 bs
  | .err set ps => .preCalcErr set :: (callsAll .f ps ++ [.postCalcErr])
  | .turn on => [.turnOn on]

/-- The epochs' indices are below the number of epochs, and the passes are passes of a network with `L` layers. -/
def Seg.Fits (L T : Nat) : Seg → Prop
  | .epoch e bs => e < T ∧ ∀ b ∈ bs, Pass L b.fwd ∧ Pass L b.bwd
  | .err _ ps => Pass L ps
  | .turn _ => True

/-- The beginning of a training of `T` epochs: the network is initialised and with it the layers given by `order` (with names and types). -/
def initCalls (L T : Nat) (order : List Nat) (nm : Nat → String) (ty : Nat → Nat) : List Call :=
  .initNnet L T :: order.map fun l => .initLayer l (nm l) (ty l)

/-- A training. -/
def training (L T : Nat) (order : List Nat) (nm : Nat → String) (ty : Nat → Nat) (segs : List Seg) : List Call :=
  initCalls L T order nm ty ++ segs.flatMap Seg.calls

/-! ### What is wanted -/

/-- The user's settings of a condition. -/
structure Wish where
  kind : Kind
  epochs : List Int
  count : Int
  stride : Int

/-- The epoch is one the user has listed. Epochs that are not there stand for the last one, and so does an empty list. -/
def Wish.listed (w : Wish) (T : Nat) (e : Nat) : Prop := (e : Int) ∈ w.epochs ∨ (e + 1 = T ∧ (w.epochs = [] ∨ ∃ x ∈ w.epochs, (T : Int) ≤ x))

/-- Batch `k` of `n` batches of epoch `e` is to be written, in a training of `T` epochs. -/
def Wish.batch (w : Wish) (T e n k : Nat) : Prop :=
  match w.kind with
  | .epochNum | .calcErr => k = 0 ∧ w.listed T e
  | .lastBatch => w.listed T e ∧ (if e + 1 = T then k + 1 = n else k = 0)
  | .firstN => if e = 0 then (k : Int) < w.count ∧ (k = 0 ∨ w.stride ≤ 1 ∨ w.stride ∣ k) else w.listed T e ∧ (if e + 1 = T then k + 1 = n else k = 0)
  | .calcErrOnly => False
  | .firstBatches => (k : Int) < w.count ∧ (w.stride = 0 ∨ w.stride ∣ k)

/-- The calculation of the error of this data set after epoch `e` (`none`: before the first one) is to be written. 0 is the training set. -/
def Wish.err (w : Wish) (T : Nat) (e : Option Nat) (set : Nat) : Prop :=
  (w.kind = .calcErr ∨ w.kind = .calcErrOnly) ∧ set = 0 ∧ match e with
    | none => -1 ∈ w.epochs
    | some e => w.listed T e

/-- The condition object has these settings. -/
def Cond.Has (c : Cond) (w : Wish) : Prop := c.kind = w.kind ∧ c.epochs = w.epochs ∧ c.count = w.count ∧ c.stride = w.stride

/-- Settings that make sense: no negative epochs; `FirstBatches` needs a number. -/
def Wish.Ok (w : Wish) : Prop := (w.kind = .firstBatches → w.count ≠ 0) ∧ (w.kind ≠ .firstBatches → ∀ x ∈ w.epochs, 0 ≤ x)

/-- No file is open, no struct has been begun. -/
structure Closed (a : ExSt) : Prop where
  file : a.base.file = none
  cur : a.base.cur = none
  stack : a.base.stack = []
  nested : a.nested = []

/-- The layer may be written: it is named in the white list, or it is not named in the black list. -/
def mayWrite (bw : Utils.Bw.St) (ty : Nat → Nat) (l : Nat) : Bool := if bw.white then bw.types.contains (ty l) || bw.idxs.contains l else !(bw.types.contains (ty l) || bw.idxs.contains l)

/-! ### What is to be in a file -/

/-- The names under which the values a layer reports are to be found: the velocity and the momentum before a Nesterov step, the weights before the preactivations are calculated, `dL/dZ`, the weights and their
gradient before it is applied, the weights and the update, the weights afterwards, and the gains before and after the individual learning rates are updated. -/
def Note.says : Note → List (String × Leaf)
  | .inspect name value => [(name, value)]
  | .preNesterov velocity momentum => [("f_preNM_vW", velocity), ("f_preNM_momentum", momentum)]
  | .makePre weights => [("W", weights)]
  | .dLdZ value => [("dLdZ", value)]
  | .gradBegin weights gradient => [("W", weights), ("dLdW", gradient)]
  | .gradUpdate weights update => [("a_WUpd_W", weights), ("a_WUpd", update)]
  | .gradEnd weights => [("a_W", weights)]
  | .preILR gain => [("Gain_preILR", gain)]
  | .postILR gain => [("Gain_postILR", gain)]

mutual
/-- What layer `l` itself says while it works: in its own body, and in the bodies of inner parts of the same layer. -/
def Part.own (l : Nat) : Part → List (String × Leaf)
  | .note n => n.says
  | .layer l' body _ => if l' = l then ownAll l body else []
def ownAll (l : Nat) : List Part → List (String × Leaf)
  | [] => []
  | p :: ps => p.own l ++ ownAll l ps
end

/-- The fields of the layer's struct. -/
def fields (d : Dir) (own : List (String × Leaf)) (v : Leaf) : List (String × Leaf) := match d with
  | .f => own ++ [("A", v)]
  | .b => ("dLdA", v) :: own

mutual
/-- The structs, in the order in which the layers finish. `up`: the layer all this happens in. A part of a layer inside of the same layer has no struct of its own. -/
def Part.structs (ok : Nat → Bool) (nm : Nat → String) (d : Dir) (up : Option Nat) : Part → List (String × List (String × Leaf))
  | .note _ => []
  | .layer l body v => structsAll ok nm d (some l) body ++ (if ok l = true ∧ up ≠ some l then [(nm l, fields d (ownAll l body) v)] else [])
def structsAll (ok : Nat → Bool) (nm : Nat → String) (d : Dir) (up : Option Nat) : List Part → List (String × List (String × Leaf))
  | [] => []
  | p :: ps => p.structs ok nm d up ++ structsAll ok nm d up ps
end

/-- Variables with these names and values; a later one replaces an earlier one of the same name. -/
def asVars (l : List (String × Var)) : Vars := l.foldl (fun fs p => fput fs p.1 p.2) []

/-- A file with these structs. -/
def asFile (l : List (String × List (String × Leaf))) : Vars := asVars (l.map fun p => (p.1, .strct 1 1 (asVars (p.2.map fun q => (q.1, q.2.var)))))

/-- The file for the passes `ps`. -/
def contents (ok : Nat → Bool) (nm : Nat → String) (d : Dir) (ps : List Part) : Vars := asFile (structsAll ok nm d none ps)

/-- A number with at least three digits. -/
def num3 (n : Nat) : String := let s := toString n; if n < 10 then "00" ++ s else if n < 100 then "0" ++ s else s

/-- The names of the files. Epochs are counted from 1; the time before the first epoch is 0. -/
def batchFile (dir : List Char) (d : Dir) (e k : Nat) : List Char :=
  dir ++ ("/ep" ++ num3 (e + 1) ++ "_" ++ num3 k ++ (match d with | .f => "_f.mat" | .b => "_b.mat")).toList
def errFile (dir : List Char) (e : Option Nat) (set : Nat) : List Char :=
  dir ++ ("/ep" ++ num3 (match e with | none => 0 | some e => e + 1) ++ "_err_" ++ toString set ++ ".mat").toList

open Classical in
/-- The files of an epoch, from batch `k` on, of `n`. -/
noncomputable def batchFiles (w : Wish) (T : Nat) (ok : Nat → Bool) (nm : Nat → String) (dir : List Char) (e n : Nat) : Nat → List Batch → List (List Char × Vars)
  | _, [] => []
  | k, b :: bs => (if w.batch T e n k then [(batchFile dir .f e k, contents ok nm .f b.fwd), (batchFile dir .b e k, contents ok nm .b b.bwd)] else []) ++
      batchFiles w T ok nm dir e n (k + 1) bs

open Classical in
/-- The files of a training, in the order in which they are written. `on`: the inspector is on; `e`: the last epoch that has begun. -/
noncomputable def files (w : Wish) (T : Nat) (ok : Nat → Bool) (nm : Nat → String) (dir : List Char) : Bool → Option Nat → List Seg → List (List Char × Vars)
  | _, _, [] => []
  | on, _, .epoch e bs :: r => (if on then batchFiles w T ok nm dir e bs.length 0 bs else []) ++ files w T ok nm dir on (some e) r
  | on, e, .err set ps :: r => (if on = true ∧ w.err T e set then [(errFile dir e set, contents ok nm .f ps)] else []) ++ files w T ok nm dir on e r
  | _, e, .turn on :: r => files w T ok nm dir on e r

/-- After these parts of a training the inspector is on (it was `on` before). -/
def lastOn : Bool → List Seg → Bool
  | on, [] => on
  | _, .turn on :: r => lastOn on r
  | on, _ :: r => lastOn on r

/-- The last epoch that has begun in these parts of a training (before them: `e`). -/
def lastEp : Option Nat → List Seg → Option Nat
  | e, [] => e
  | _, .epoch e _ :: r => lastEp (some e) r
  | e, _ :: r => lastEp e r

/-- The pass in this direction. -/
def Batch.pass (b : Batch) : Dir → List Part
  | .f => b.fwd
  | .b => b.bwd

/-- The last value with this name. -/
def lastOf {α : Type} (l : List (String × α)) (n : String) : Option α := ((l.filter fun p => p.1 = n).getLast?).map Prod.snd

/-- The disk after the files have been written one after another. -/
def written (disk : List Char → Option Vars) (fs : List (List Char × Vars)) : List Char → Option Vars :=
  fs.foldl (fun d p m => if m = p.1 then some p.2 else d m) disk

end Nntl.Dumper
