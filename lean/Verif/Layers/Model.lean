/-! Layer trees: construction of a layer stack (layer indices, numbers of incoming neurons, receptive field check of the horizontal
packs), announcement of shared temporary memory during initialisation and its distribution.

Modelled: `nntl/layers.h` (constructor, `init_layers`, `initMem`), `nntl/layer/_init_layers.h`, `nntl/layer/_layer_base.h`
(`_preinit_layer`), `nntl/layer/_lph_base.h`, `nntl/layer/pack_vertical.h`, `nntl/layer/pack_tile.h` (the `_preinit_layer`,
`layer_init` and `initMem` functions), `nntl/nnet.h` (`_totalTrainingMemSize`, `_processTmpStor`). -/
namespace Nntl.Layers

/-- `BatchSizes`, `nntl/common.h` 129–131: the biggest batch size for any mode and the one for training; a training size 0 means that
training is impossible. -/
structure BS where
  maxBS : Nat
  maxTrainBS : Nat
deriving DecidableEq, Repr

/-- `BatchSizes::biggest()`, `nntl/common.h` 183–187. -/
def BS.biggest (b : BS) : Nat := b.maxBS

/-- `BatchSizes::operator*`, `nntl/common.h` 206–210, as used in `nntl/layer/pack_tile.h` 228. -/
def BS.mul (b : BS) (k : Nat) : BS := ⟨b.maxBS * k, b.maxTrainBS * k⟩

/-- `BatchSizes::operator/`, `nntl/common.h` 212–216, as used in `nntl/layer/pack_tile.h` 241. -/
def BS.div (b : BS) (k : Nat) : BS := ⟨b.maxBS / k, b.maxTrainBS / k⟩

/-- What an elementary (not a pack) layer announces in its `layer_init` (`nntl/layer/_init_layers.h` 253–262): memory needed by `fprop`,
memory needed for training, size of the biggest gradient matrix passed to its `bprop`, outgoing batch sizes. Each is an arbitrary
function of the incoming batch sizes and of the number of incoming neurons; this covers `nntl/layer/fully_connected.h` 361–390,
`nntl/layer/output.h` 125–145 and user written layers. -/
structure Leaf where
  neurons : Nat
  memF : BS → Nat → Nat
  memB : BS → Nat → Nat
  dLdA : BS → Nat → Nat
  out : BS → BS

mutual
/-- A layer: elementary, a vertical pack, a horizontal pack (`add` is the number of output columns it adds itself: 0 for LPH, the
number of gated layers for `LPHO<true>`, `nntl/layer/pack_horizontal_optional.h` 76–80), a tile pack. Every one is an object with an
identity `id` (packs hold references to the inner layers). -/
inductive Layer
  | leaf (id : Nat) (l : Leaf)
  | vert (id : Nat) (first : Layer) (rest : Stack)
  | horiz (id : Nat) (add : Nat) (fs : Fields)
  | tile (id : Nat) (k : Nat) (l : Layer)
/-- Layers on top of each other, the lowest one first (the tuple of `layers` and of `LPV`). -/
inductive Stack
  | nil
  | cons (l : Layer) (rest : Stack)
/-- Inner layers of a horizontal pack together with their receptive fields (`PHL`, `nntl/layer/_pack_.h` 46–76). -/
inductive Fields
  | nil
  | cons (ofs cnt : Nat) (l : Layer) (rest : Fields)
end

mutual
/-- `get_neurons_cnt()`: `nntl/layer/_layer_base.h`; a vertical pack forwards to its topmost layer (`nntl/layer/pack_vertical.h` 133),
a horizontal one adds up its inner layers (`nntl/layer/_lph_base.h` 131–153), a tile pack multiplies (`nntl/layer/pack_tile.h` 191). -/
def Layer.neurons : Layer → Nat
  | .leaf _ l => l.neurons
  | .vert _ f r => Stack.top f.neurons r
  | .horiz _ add fs => fs.neurons + add
  | .tile _ k l => k * l.neurons
/-- Neurons of the topmost layer, `d` if there is none. -/
def Stack.top (d : Nat) : Stack → Nat
  | .nil => d
  | .cons l r => r.top l.neurons
/-- `_calcNeuronsCnt`, `nntl/layer/_lph_base.h` 131–153. -/
def Fields.neurons : Fields → Nat
  | .nil => 0
  | .cons _ _ l r => l.neurons + r.neurons
end

/-! ### Construction -/

/-- Result of a construction: done, the program was aborted, or undefined behaviour (a write outside of an array). -/
inductive Res (α : Type)
  | ok (a : α)
  | abort
  | undef
deriving DecidableEq, Repr

def Res.bind {α β : Type} : Res α → (α → Res β) → Res β
  | .ok a, f => f a
  | .abort, _ => .abort
  | .undef, _ => .undef

/-- What `_preinit_layer` stores in a layer object: its index and the number of incoming neurons. A vertical pack stores no number of
incoming neurons, it forwards to its lowest layer (`nntl/layer/pack_vertical.h` 169); that forwarded number is recorded here. -/
structure Rec where
  id : Nat
  idx : Nat
  inc : Nat
deriving DecidableEq, Repr

/-- State of the construction: the index to be given next (`init_layer_index::_idx`, a reference to `layers::m_totalLayersCount`,
16 bits wide, `nntl/common.h` 43) and the layer objects processed so far, in order. -/
structure PS where
  next : Nat
  recs : List Rec
deriving DecidableEq, Repr

/-- `nntl/layer/_layer_base.h` 638–650, 685–691 and `init_layer_index::newIndex`, `nntl/layer/_init_layers.h` 165–168: an object that
already has an index makes the program abort, otherwise it gets the next index. Simplified: an object is recognised as already used by
its presence among the processed ones (the code compares the stored index with the value 65535 reserved for "none"). -/
def newIndex (s : PS) (id inc : Nat) : Res PS :=
  if id ∈ s.recs.map Rec.id then .abort
  else .ok ⟨(s.next + 1) % 65536, s.recs ++ [⟨id, s.next, inc⟩]⟩

/-- `preparePHLCheck`, `nntl/layer/_init_layers.h` 209–214: an array of zeros. -/
def prepareCheck (inc : Nat) : List Bool := List.replicate inc false

/-- `_preinit_layers::operator()(PHLT&)`, `nntl/layer/_init_layers.h` 217–229: mark the receptive field. `dbg`: assertions are compiled
in. Without them a field that reaches outside of the array is written outside of the array. -/
def markField (dbg : Bool) (chk : List Bool) (ofs cnt : Nat) : Res (List Bool) :=
  if dbg && !(decide (0 < cnt) && decide (ofs < chk.length) && decide (ofs + cnt ≤ chk.length)) then .abort
  else if ofs + cnt ≤ chk.length then
    .ok (chk.take ofs ++ List.replicate cnt true ++ chk.drop (ofs + cnt))
  else .undef

/-- `PHLCheck`, `nntl/layer/_init_layers.h` 231–239, and the `abort` at `nntl/layer/_lph_base.h` 109–114. -/
def checkAll (chk : List Bool) (s : PS) : Res PS :=
  if chk.all id then .ok s else .abort

mutual
/-- `_preinit_layer` of an elementary layer (`nntl/layer/_layer_base.h` 638–650), of a vertical pack (`nntl/layer/pack_vertical.h`
114–123), of a horizontal pack (`nntl/layer/_lph_base.h` 99–122) and of a tile pack (`nntl/layer/pack_tile.h` 173–191). The allocation
of the check array is assumed to succeed. -/
def preinit (dbg : Bool) : Layer → Nat → PS → Res PS
  | .leaf id _, inc, s => newIndex s id inc
  | .vert id f r, inc, s => (newIndex s id inc).bind fun s =>
      (preinit dbg f inc s).bind fun s => preinitStack dbg r f.neurons s
  | .horiz id _ fs, inc, s => (newIndex s id inc).bind fun s => preinitFields dbg fs (prepareCheck inc) s
  | .tile id k l, inc, s =>
      if k = 0 then (if dbg then .abort else .undef)
      else if dbg && !(decide (inc % k = 0)) then .abort
      else (newIndex s id inc).bind fun s => preinit dbg l (inc / k) s
/-- `for_eachwp_up` with `_preinit_layers::operator()(LCur&, LPrev&, bool)`, `nntl/layer/_init_layers.h` 193–205: every layer gets the
number of neurons of the layer below. -/
def preinitStack (dbg : Bool) : Stack → Nat → PS → Res PS
  | .nil, _, s => .ok s
  | .cons l r, inc, s => (preinit dbg l inc s).bind fun s => preinitStack dbg r l.neurons s
/-- `for_each_up(m_phl_tuple, initializer)`, `nntl/layer/_lph_base.h` 108–114, then the check. -/
def preinitFields (dbg : Bool) : Fields → List Bool → PS → Res PS
  | .nil, chk, s => checkAll chk s
  | .cons ofs cnt l r, chk, s => (markField dbg chk ofs cnt).bind fun chk =>
      (preinit dbg l cnt s).bind fun s => preinitFields dbg r chk s
end

/-- Constructor of `layers`, `nntl/layers.h` 145–152. -/
def construct (dbg : Bool) (st : Stack) : Res PS := preinitStack dbg st 0 ⟨0, []⟩

/-! ### The additional check of the optional pack -/

/-- `get_incoming_neurons_cnt()` of the inner layers added up, `nntl/layer/pack_horizontal_optional.h` 149–152 (the number of incoming
neurons of an inner layer is the width of its field, see `preinitFields`). -/
def Fields.totalInc : Fields → Nat
  | .nil => 0
  | .cons _ cnt _ r => cnt + r.totalInc

/-- `_LPHO::_init_self`, `nntl/layer/pack_horizontal_optional.h` 147–157: `false` is an `abort()`. -/
def optCheck (inc : Nat) (fs : Fields) : Bool := fs.totalInc == inc

/-! ### Announcing shared memory: `layer_init` -/

/-- The part of `_layer_init_data` filled by `layer_init`, `nntl/layer/_init_layers.h` 253–269. -/
structure Lid where
  memF : Nat
  memB : Nat
  dLdA : Nat
  outg : BS
deriving DecidableEq, Repr

/-- `aggregate_from`, `nntl/layer/_init_layers.h` 362–370 (the first three fields; the outgoing sizes are handled by the packs). -/
def Lid.agg (a b : Lid) : Lid := ⟨max a.memF b.memF, max a.memB b.memB, max a.dLdA b.dLdA, a.outg⟩

/-- `_clean_exc_incBS`, `nntl/layer/_init_layers.h` 339–343. -/
def Lid.zero : Lid := ⟨0, 0, 0, ⟨0, 0⟩⟩

/-- `maxIncNeuronsCnt`, `nntl/layer/_lph_base.h` 327–330. -/
def Fields.maxInc : Fields → Nat
  | .nil => 0
  | .cons _ cnt _ r => max cnt r.maxInc

/-- `m_layers_max_dLdA_numel`, `nntl/layer/_lph_base.h` 334–335, from what was gathered from the inner layers. -/
def innerBuf (fs : Fields) (inc : BS) (g : Lid) : Nat := max g.dLdA (inc.maxTrainBS * fs.maxInc)

mutual
/-- `layer_init`: of a vertical pack `nntl/layer/pack_vertical.h` 188–234, of a horizontal pack `nntl/layer/_lph_base.h` 294–357, of a
tile pack `nntl/layer/pack_tile.h` 226–277. `tp` is `is_training_possible()`. `none` is `InvalidBatchSizeCombination`. Allocation
failures are not modelled. -/
def layerInit (tp : Bool) : Layer → BS → Nat → Option Lid
  | .leaf _ l, inc, n => some ⟨l.memF inc n, l.memB inc n, l.dLdA inc n, l.out inc⟩
  | .vert _ f r, inc, n => (layerInit tp f inc n).bind fun d =>
      initStack tp r d.outg f.neurons ⟨max 0 d.memF, max 0 d.memB, max 0 d.dLdA, d.outg⟩
  | .horiz _ add fs, inc, _ => (initFields tp fs inc none Lid.zero).map fun g =>
      if tp then ⟨g.memF + inc.biggest, g.memB + (2 * innerBuf fs inc g + inc.biggest),
        g.outg.maxTrainBS * (fs.neurons + add), g.outg⟩
      else ⟨g.memF + inc.biggest, g.memB, g.dLdA, g.outg⟩
  | .tile _ k l, inc, n => (layerInit tp l (inc.mul k) (n / k)).map fun d =>
      let own := if tp then max ((d.outg.div k).maxTrainBS * (k * l.neurons)) ((inc.mul k).maxTrainBS * (n / k)) else 0
      Lid.agg ⟨0, 0, own, d.outg.div k⟩ d
/-- The loop of `_LPV::layer_init`, `nntl/layer/pack_vertical.h` 204–225; `acc` is `lid`. -/
def initStack (tp : Bool) : Stack → BS → Nat → Lid → Option Lid
  | .nil, _, _, acc => some acc
  | .cons l r, inc, n, acc => (layerInit tp l inc n).bind fun d =>
      initStack tp r d.outg l.neurons ⟨max acc.memF d.memF, max acc.memB d.memB, max acc.dLdA d.dLdA, d.outg⟩
/-- `_init_phls`, `nntl/layer/_lph_base.h` 249–288; `com` is `commonOutgBS` (`none`: not valid yet). -/
def initFields (tp : Bool) : Fields → BS → Option BS → Lid → Option Lid
  | .nil, _, com, acc => com.map fun c => { acc with outg := c }
  | .cons _ cnt l r, inc, com, acc => (layerInit tp l inc cnt).bind fun d =>
      match com with
      | some c => if c = d.outg then initFields tp r inc (some c) (acc.agg d) else none
      | none => initFields tp r inc (some d.outg) (acc.agg d)
end

/-- `layers_mem_requirements`, `nntl/layer/_init_layers.h` 389–425. -/
structure Lmr where
  maxMemTraining : Nat
  maxMemFProp : Nat
  maxSingledLdA : Nat
deriving DecidableEq, Repr

/-- `updateLayerReq`, `nntl/layer/_init_layers.h` 413–425. -/
def Lmr.update (q : Lmr) (d : Lid) : Lmr :=
  ⟨max q.maxMemTraining (max d.memF d.memB), max q.maxMemFProp d.memF, max q.maxSingledLdA d.dLdA⟩

/-- `layers::init_layers`, `nntl/layers.h` 235–259. -/
def initLayers (tp : Bool) : Stack → BS → Nat → Lmr → Option Lmr
  | .nil, _, _, q => some q
  | .cons l r, inc, n, q => (layerInit tp l inc n).bind fun d => initLayers tp r d.outg l.neurons (q.update d)

/-- `_totalTrainingMemSize`, `nntl/nnet.h` 415–433 (`tp` iff the training batch size is positive). -/
def totalMem (tp : Bool) (q : Lmr) : Nat := q.maxMemTraining + (if tp then 2 * q.maxSingledLdA else 0)

/-! ### Distributing it: `initMem` -/

/-- A memory grant: who received it, where it begins, how many elements, and the slices `(begin, length)` that the layer keeps for itself.
`announced` is what this layer announced during `layer_init`. -/
structure Grant where
  id : Nat
  announced : Lid
  ptr : Nat
  cnt : Nat
  own : List (Nat × Nat)
deriving Repr

mutual
/-- `initMem`: `nntl/layer/_lph_base.h` 369–386 (the bias column, then in training two gradient matrices, the rest goes to every inner
layer), `nntl/layer/pack_vertical.h` 241–244, `nntl/layer/pack_tile.h` 286–288. Simplified: the members `m_biggestIncBS` and
`m_layers_max_dLdA_numel` stored by `layer_init` are computed again here from the same data; an elementary layer keeps everything. `none`:
the layer was not initialised successfully. A grant smaller than what is subtracted from it wraps around in the code; here the
subtraction is cut off at 0 and the theorem shows that it does not happen. -/
def initMem (tp : Bool) : Layer → BS → Nat → Nat → Nat → Option (List Grant)
  | .leaf id l, inc, n, ptr, cnt =>
      (layerInit tp (.leaf id l) inc n).map fun d => [⟨id, d, ptr, cnt, [(ptr, cnt)]⟩]
  | .vert id f r, inc, n, ptr, cnt => (layerInit tp (.vert id f r) inc n).bind fun d =>
      (layerInit tp f inc n).bind fun df =>
      (initMem tp f inc n ptr cnt).bind fun g => (initMemStack tp r df.outg f.neurons ptr cnt).map fun g' =>
        ⟨id, d, ptr, cnt, []⟩ :: (g ++ g')
  | .horiz id add fs, inc, n, ptr, cnt => (layerInit tp (.horiz id add fs) inc n).bind fun d =>
      (initFields tp fs inc none Lid.zero).bind fun g =>
      let bias := inc.biggest
      let buf := innerBuf fs inc g
      let own := if tp then [(ptr, bias), (ptr + bias, buf), (ptr + bias + buf, buf)] else [(ptr, bias)]
      let used := if tp then bias + 2 * buf else bias
      (initMemFields tp fs inc (ptr + used) (cnt - used)).map fun gs => ⟨id, d, ptr, cnt, own⟩ :: gs
  | .tile id k l, inc, n, ptr, cnt => (layerInit tp (.tile id k l) inc n).bind fun d =>
      (initMem tp l (inc.mul k) (n / k) ptr cnt).map fun gs => ⟨id, d, ptr, cnt, []⟩ :: gs
/-- Every layer of a stack is given the same memory: `nntl/layers.h` 266–270, `nntl/layer/pack_vertical.h` 241–244. -/
def initMemStack (tp : Bool) : Stack → BS → Nat → Nat → Nat → Option (List Grant)
  | .nil, _, _, _, _ => some []
  | .cons l r, inc, n, ptr, cnt => (layerInit tp l inc n).bind fun d =>
      (initMem tp l inc n ptr cnt).bind fun g => (initMemStack tp r d.outg l.neurons ptr cnt).map fun g' => g ++ g'
/-- `nntl/layer/_lph_base.h` 385. -/
def initMemFields (tp : Bool) : Fields → BS → Nat → Nat → Option (List Grant)
  | .nil, _, _, _ => some []
  | .cons _ cnt l r, inc, ptr, avail =>
      (initMem tp l inc cnt ptr avail).bind fun g => (initMemFields tp r inc ptr avail).map fun g' => g ++ g'
end

/-- `_processTmpStor`, `nntl/nnet.h` 435–474: the two gradient matrices of the whole stack first, the rest for the layers. The result:
the two matrices and the grants, at positions in the storage of `totalMem` elements. The layers are not told anything if none needs
memory. -/
def processTmp (tp : Bool) (st : Stack) (inc : BS) (n : Nat) (q : Lmr) : Option (List (Nat × Nat) × List Grant) :=
  let mats := if tp then [(0, q.maxSingledLdA), (q.maxSingledLdA, q.maxSingledLdA)] else []
  let used := if tp then 2 * q.maxSingledLdA else 0
  if 0 < q.maxMemTraining then (initMemStack tp st inc n used q.maxMemTraining).map fun gs => (mats, gs)
  else some (mats, [])

/-! ### Gradient matrices handed to `bprop` -/

/-- A call of `bprop`: whose, the size of the gradient matrix it announced during `layer_init` (`max_dLdA_numel`; it may use as many
elements of the matrices as it announced), the size of the gradient for the layer below that is to be produced, and the number of
elements both matrices handed to it can hold. -/
structure BufUse where
  id : Nat
  announced : Nat
  lower : Nat
  cap : Nat
deriving Repr

mutual
/-- Which matrices reach the inner layers: a vertical pack passes its own on (`nntl/layer/pack_vertical.h` 274–306), and so does a tile pack
(`nntl/layer/pack_tile.h` 366–378); a horizontal pack has two matrices of `m_layers_max_dLdA_numel` elements for them
(`nntl/layer/_lph_base.h` 376–382, `nntl/layer/pack_horizontal.h` 133–158). For the training batch size of `layer_init`. -/
def gradBufs (tp : Bool) : Layer → BS → Nat → Nat → Option (List BufUse)
  | .leaf id l, inc, n, cap =>
      (layerInit tp (.leaf id l) inc n).map fun d => [⟨id, d.dLdA, inc.maxTrainBS * n, cap⟩]
  | .vert id f r, inc, n, cap => (layerInit tp (.vert id f r) inc n).bind fun d =>
      (layerInit tp f inc n).bind fun df =>
      (gradBufs tp f inc n cap).bind fun g => (gradBufsStack tp r df.outg f.neurons cap).map fun g' =>
        ⟨id, d.dLdA, inc.maxTrainBS * n, cap⟩ :: (g ++ g')
  | .horiz id add fs, inc, n, cap => (layerInit tp (.horiz id add fs) inc n).bind fun d =>
      (initFields tp fs inc none Lid.zero).bind fun g =>
      (gradBufsFields tp fs inc (innerBuf fs inc g)).map fun gs => ⟨id, d.dLdA, inc.maxTrainBS * n, cap⟩ :: gs
  | .tile id k l, inc, n, cap => (layerInit tp (.tile id k l) inc n).bind fun d =>
      (gradBufs tp l (inc.mul k) (n / k) cap).map fun gs => ⟨id, d.dLdA, inc.maxTrainBS * n, cap⟩ :: gs
/-- All layers of a stack work with the same two matrices. -/
def gradBufsStack (tp : Bool) : Stack → BS → Nat → Nat → Option (List BufUse)
  | .nil, _, _, _ => some []
  | .cons l r, inc, n, cap => (layerInit tp l inc n).bind fun d =>
      (gradBufs tp l inc n cap).bind fun g => (gradBufsStack tp r d.outg l.neurons cap).map fun g' => g ++ g'
def gradBufsFields (tp : Bool) : Fields → BS → Nat → Option (List BufUse)
  | .nil, _, _ => some []
  | .cons _ cnt l r, inc, cap =>
      (gradBufs tp l inc cnt cap).bind fun g => (gradBufsFields tp r inc cap).map fun g' => g ++ g'
end

/-- `layers::bprop`, `nntl/layers.h` 318–351: the matrices set up by `_processTmpStor`; the input layer `f` takes no part. -/
def bpropBufs (tp : Bool) (f : Layer) (r : Stack) (inc : BS) (q : Lmr) : Option (List BufUse) :=
  (layerInit tp f inc 0).bind fun d => gradBufsStack tp r d.outg f.neurons q.maxSingledLdA

end Nntl.Layers
