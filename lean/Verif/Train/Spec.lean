import Verif.Train.Model
/-! Specification vocabulary for the training loop: what is read off the sequence of calls made by `train()`. -/
namespace Nntl.Train

/-- Epochs for which the on-epoch-end callback was called. -/
def callbacksOf (tr : List Ev) : List Nat := tr.filterMap fun | .callback e => some e | _ => none
/-- Epochs begun, as seen by the inspector. -/
def begunOf (tr : List Ev) : List Nat := tr.filterMap fun | .epochBegin e _ => some e | _ => none
/-- Epochs reported to the observer with computed losses; `-1` is the report made before training. -/
def reportsOf (tr : List Ev) : List Int := tr.filterMap fun | .report e => some e | _ => none
/-- The learning work: calls to the training data and to the layers. -/
def workOf (tr : List Ev) : List Ev :=
  tr.filter fun | .nextEpoch _ => true | .nextBatch _ => true | .fprop _ _ => true | .bprop _ _ => true | _ => false

/-- Learning work of one epoch: all batches in order, each passed forward and then backward in training mode with batch size `bs`. -/
def epochWork (bs e n : Nat) : List Ev :=
  .nextEpoch e :: (List.range n).flatMap fun b => [.nextBatch b, .fprop true bs, .bprop true bs]

/-- Where the inspector is. -/
inductive Pos where
  | idle
  | epoch
  | batch
  deriving DecidableEq

/-- Begin and end events must alternate properly; other events are ignored. -/
def track : Pos → Ev → Option Pos
  | .idle, .epochBegin _ _ => some .epoch
  | .epoch, .batchBegin _ => some .batch
  | .batch, .batchEnd => some .epoch
  | .epoch, .epochEnd => some .idle
  | _, .epochBegin _ _ => none
  | _, .batchBegin _ => none
  | _, .batchEnd => none
  | _, .epochEnd => none
  | p, _ => some p

/-- Every begin event is followed by its end event, batches lie inside of epochs, nothing is left open. -/
def Bracketed (tr : List Ev) : Prop := tr.foldlM track Pos.idle = some Pos.idle

/-- `train()` gets as far as the epoch loop. -/
structure Starts {L : Type} (v : Env L) : Prop where
  td : v.tdEmpty = false
  inp : v.inputOk = true
  out : v.outputOk = true
  init : v.initErr = .success
  cb : v.initCbErr = .success
  obs : v.obsOk = true

/-- The divergence check is on for the epoch and its loss is not below the threshold. -/
def Diverges {L : Type} (o : Opts L) (v : Env L) (e : Nat) : Prop := (e : Int) < o.divLast ∧ v.ge (v.loss e) o.thr = true

/-- A report with computed losses is due after the epoch. -/
def reportDue {L : Type} (o : Opts L) (e : Nat) : Bool :=
  decide ((e : Int) < o.divLast) || (o.flags.getD e false && !o.repOnlyTime)

/-- The state of the network in which an epoch begins. -/
def ready (cd : CD) : CD := { cd with training := true, cur := cd.trainBs }

/-- `s` is the batch size the layers were last told about: every forward and backward pass of training is made with that size. -/
def SizesAgree : Nat → List Ev → Prop
  | _, [] => True
  | _, .layersBatchSize bs :: rest => SizesAgree bs rest
  | s, .fprop _ bs :: rest => bs = s ∧ SizesAgree s rest
  | s, .bprop _ bs :: rest => bs = s ∧ SizesAgree s rest
  | s, _ :: rest => SizesAgree s rest

/-- Whether the inspector is active after the calls. -/
def inspectorAfter (start : Bool) (tr : List Ev) : Bool :=
  tr.foldl (fun a ev => match ev with | .turnInspector on => on | _ => a) start

end Nntl.Train
