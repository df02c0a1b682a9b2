import Verif.NetFile.Model
/-! Model of saving and loading a whole network (`ar & nnet`, nntl/nnet.h:128-132) with an archive whose options are arbitrary
(nntl/serialization/options.h:41-53, nntl/utils/options.h:41-79; a `_matfile` archive starts with all of them, nntl/_supp/io/matfile.h:777,
789, 801). `write_weights` and `read_weights`, which turn all options off but one, are the subject of `Verif/NetFile`.
The archive is that of `Verif/MatFile`. -/
namespace Nntl.NetState
open Nntl.Matrix Nntl.MatFile Nntl.NetFile

/-- `CommonOptions` options.h:41-53. `serialize_gating_mask` is not here: nothing looks at it. -/
structure Opts where
  dataX : Bool
  params : Bool
  act : Bool
  weights : Bool
  gw : Bool
  gwState : Bool
  dmask : Bool
  deriving DecidableEq

/-- `GradType` grad_works.h:155-174. -/
inductive GradType where
  | classical | rmsHinton | rmsGraves | rprop | modprop | adam | adamax | nadam | radam
  deriving DecidableEq

/-- `static_cast<unsigned int>(m_type)`. -/
def GradType.code : GradType → Nat
  | .classical => 0 | .rmsHinton => 1 | .rmsGraves => 2 | .rprop => 3 | .modprop => 4 | .adam => 5 | .adamax => 6 | .nadam => 7 | .radam => 8

/-- `_optimizerRequiresMatrixA` grad_works.h:177-180. -/
def GradType.needsA : GradType → Bool
  | .rmsHinton | .rmsGraves | .modprop | .adam | .adamax | .nadam | .radam => true
  | _ => false

/-- `_optimizerRequiresMatrixB` grad_works.h:181-183. -/
def GradType.needsB : GradType → Bool
  | .rmsGraves | .adam | .adamax | .nadam | .radam => true
  | _ => false

/-- `ILR` mixin ILR.h:98-112 with `ILR_props` ILR_Props.h: settings (bit patterns), flags, gains, previous gradient. -/
structure Ilr (T : Cls) where
  mulDecr : Nat
  mulIncr : Nat
  capLow : Nat
  capHigh : Nat
  use : Bool
  toMomentum : Bool
  gain : Mtx (Elem T)
  prev : Mtx (Elem T)

/-- `_grad_works` grad_works.h:190-213: settings (bit patterns of `real_t`, which is `T`), type, the flag of momentum, matrices. `ilr = none`: the mixin is
the dummy one (ILR.h:58-95). `flags` are the other flags of `m_opts`. -/
structure Gw (T : Cls) where
  learningRate : Nat
  lrDropout : Nat
  momentum : Nat
  beta1 : Nat
  beta2 : Nat
  gamma : Nat
  eps : Nat
  maxNorm : Nat
  type : GradType
  useMomentum : Bool
  flags : List Bool
  beta1t : Nat
  beta2t : Nat
  Vw : Mtx (Elem T)
  A : Mtx (Elem T)
  B : Mtx (Elem T)
  ilr : Option (Ilr T)

/-- `_dropout_base` dropout.h:55-60; `alpha`: the members `m_a`, `m_b`, `m_mbDropVal` of `AlphaDropout` (alpha_dropout.h:73). -/
structure Drop (T : Cls) where
  keep : Nat
  mask : Mtx (Elem T)
  orig : Mtx (Elem T)
  alpha : Option (Nat × Nat × Nat)

/-- A layer with weights: `_LFC_FProp` fully_connected.h:49-65; with `gw` it is an `LFC` or an output layer; with `bounds` (`m_bRestrictdLdZ`,
`m_dLdZRestrictLowerBnd`, `m_dLdZRestrictUpperBnd`) it is an output layer output.h:60-67; with `drop` it is an `LFC` extended by dropout
(extender.h:113-118; nothing is stored for penalties on activations). -/
structure Fc (T : Cls) where
  neurons : Nat
  incoming : Nat
  act : Mtx (Elem T)
  w : Mtx (Elem T)
  ini : Bool
  gw : Option (Gw T)
  bounds : Option (Bool × Nat × Nat)
  drop : Option (Drop T)

/-- What is stored for a layer besides the layers inside of it.
* `input`: the data the layer refers to, if any (input.h:53).
* `ident`: identity layers, gates included (identity.h:131-133, 259-262).
* `fc`: see `Fc`.
* `pack`: horizontal and vertical packs have nothing of their own (pack_vertical.h:331-336, _lph_base.h:406-410).
* `tile`: `m_activations`, `m_innerLowerLayerActivations`, `m_tiles_count` (pack_tile.h:150-160). -/
inductive Own (T : Cls) where
  | input (x : Option (Mtx (Elem T)))
  | ident (act : Mtx (Elem T))
  | fc (l : Fc T)
  | pack
  | tile (act inner : Mtx (Elem T)) (tiles : Nat)

/-- A layer: its name, its index, what it stores itself, and the layers inside (none but in packs; one in a tile). -/
inductive Lyr (T : Cls) where
  | node (base : String) (idx : Nat) (own : Own T) (sub : List (Lyr T))

/-- `if (binary_option<true>(ar, ..)) ar & ..` options.h:68-76. -/
def opt (b : Bool) (is : List Item) : List Item := if b then is else []

/-- `ar & NNTL_SERIALIZATION_NVP(..)` of a number of type `C`. -/
def sItem (n : String) (C : Cls) (v : Nat) : Item := .nvp n (.scalar C v)

/-- The same of a matrix. -/
def mItem {T : Cls} (n : String) (df : Bool) (m : Mtx (Elem T)) : Item := .nvp n (.mtx T df m)

/-- `_ILR_use_momentum` ILR.h:119-121. -/
def Ilr.useMomentum {T : Cls} (i : Ilr T) (mom : Bool) : Bool := mom && i.toMomentum

/-- `ILR_serialize` ILR.h:66, 123-136, with `serialize` of `ILR_props` ILR_Props.h:85-92. -/
def ilrItems {T : Cls} (o : Opts) (mom : Bool) : Option (Ilr T) → List Item
  | none => []
  | some i =>
    opt o.params [sItem "mulDecr" T i.mulDecr, sItem "mulIncr" T i.mulIncr, sItem "capLow" T i.capLow, sItem "capHigh" T i.capHigh] ++
    opt (o.gwState && i.use) (mItem "m_ILRGain" false i.gain :: opt (!i.useMomentum mom) [mItem "m_prevdLdW" false i.prev])

/-- `_grad_works::serialize` grad_works.h:222-254. `m_optGamma` and `m_opts` are not stored. -/
def gwItems {T : Cls} (o : Opts) (g : Gw T) : List Item :=
  opt o.params [sItem "m_learningRate" T g.learningRate, sItem "m_LRDropoutPercActive" T g.lrDropout, sItem "m_momentum" T g.momentum,
    sItem "m_optBeta1" T g.beta1, sItem "m_optBeta2" T g.beta2, sItem "m_numericStabilizerEps" T g.eps,
    sItem "m_WeightVecNormSqared" T g.maxNorm, sItem "typ" .uint32 g.type.code, sItem "m_optBeta1t" T g.beta1t, sItem "m_optBeta2t" T g.beta2t] ++
  opt o.gwState (opt g.type.needsA [mItem "m_optMtxA" false g.A] ++ opt g.type.needsB [mItem "m_optMtxB" false g.B] ++
    opt g.useMomentum [mItem "m_Vw" false g.Vw]) ++
  ilrItems o g.useMomentum g.ilr

/-- `_dropout_serialize` for a saving archive: dropout.h:66-77, alpha_dropout.h:80-90. `lt1 keep` is `bDropout()`: `m_dropoutPercentActive < 1`
(dropout.h:166) on bit patterns. `m_mbDropVal` is not stored. -/
def dropItems {T : Cls} (lt1 : Nat → Bool) (o : Opts) (d : Drop T) : List Item :=
  (match d.alpha with
    | none => []
    | some (a, b, _) => opt (lt1 d.keep && o.params) [sItem "m_a" T a, sItem "m_b" T b]) ++
  opt o.params [sItem "m_dropoutPercentActive" T d.keep] ++
  opt (lt1 d.keep && o.dmask) [mItem "m_dropoutMask" true d.mask, mItem "m_origActivations" true d.orig]

/-- `save` of an output layer's own members output.h:81-85. -/
def boundsItems (T : Cls) (o : Opts) (b : Bool × Nat × Nat) : List Item :=
  opt o.params [sItem "m_bRestrictdLdZ" .logical b.1.toNat, sItem "m_dLdZRestrictLowerBnd" T b.2.1, sItem "m_dLdZRestrictUpperBnd" T b.2.2]

/-- `save` of `_LFC_FProp` fully_connected.h:70-75, of `LFC` 326-333, of an output layer output.h:74-86, `serialize` of an extended layer
extender.h:112-118. -/
def fcItems {T : Cls} (lt1 : Nat → Bool) (o : Opts) (l : Fc T) : List Item :=
  opt o.act [mItem "m_activations" true l.act] ++ opt o.weights [mItem "m_weights" true l.w] ++
  (match l.gw with | none => [] | some g => opt o.gw (gwItems o g)) ++
  (match l.bounds with | none => [] | some b => boundsItems T o b) ++
  (match l.drop with | none => [] | some d => dropItems lt1 o d)

/-- `serialize` of the other layers for a saving archive: input.h:60-65, identity.h:131-133, pack_tile.h:436-444 (`neurons_count_t` is a 32-bit signed
integer, common.h:50). -/
def ownItems {T : Cls} (lt1 : Nat → Bool) (o : Opts) : Own T → List Item
  | .input none => []
  | .input (some x) => opt o.dataX [mItem "data_x" false x]
  | .ident act => opt o.act [mItem "m_activations" true act]
  | .fc l => fcItems lt1 o l
  | .pack => []
  | .tile act inner k =>
    opt o.act [mItem "m_activations" true act] ++ opt o.dataX [mItem "m_innerLowerLayerActivations" true inner] ++
    [sItem "m_tiles_count" .int32 k]

mutual
/-- `make_named_struct(l.get_layer_name_str().c_str(), l)`, with what is inside: pack_vertical.h:331-336, _lph_base.h:406-410, pack_tile.h:444. -/
def Lyr.item {T : Cls} (lt1 : Nat → Bool) (o : Opts) : Lyr T → Item
  | .node b i own sub => .strct (NetFile.label b i) (ownItems lt1 o own ++ items lt1 o sub)
/-- `serialize` of `layers` layers.h:130-135. -/
def items {T : Cls} (lt1 : Nat → Bool) (o : Opts) : List (Lyr T) → List Item
  | [] => []
  | l :: ls => l.item lt1 o :: items lt1 o ls
end

/-! ### Loading -/

/-- `ar & NNTL_SERIALIZATION_NVP(..)` of a number for a loading archive, if `b`. -/
def ldS (E : Env) (b : Bool) (n : String) (C : Cls) (v : Nat) (s : St) : Nat × St :=
  if b then asNvp n v (loadScalar E C v) s else (v, s)

/-- The same of a matrix (`smatrix_deform`). -/
def ldM {T : Cls} (E : Env) (b : Bool) (n : String) (m : Mtx (Elem T)) (s : St) : Mtx (Elem T) × St :=
  if b then asNvp n m (loadMtx E n true m) s else (m, s)

/-- `AlphaDropout::_dropout_serialize` alpha_dropout.h:80-88 for a loading archive. Whether there is dropout is asked before the new
probability is known. -/
def loadAlpha (E : Env) (T : Cls) (lt1 : Nat → Bool) (o : Opts) (keep : Nat) : Option (Nat × Nat × Nat) → St → Option (Nat × Nat × Nat) × St
  | none, s => (none, s)
  | some (a, b, v), s =>
    let p := ldS E (lt1 keep && o.params) "m_a" T a s
    let q := ldS E (lt1 keep && o.params) "m_b" T b p.2
    (some (p.1, q.1, v), q.2)

/-- `_dropout_serialize` for a loading archive: alpha_dropout.h:80-90, dropout.h:66-77. -/
def loadDrop {T : Cls} (E : Env) (lt1 : Nat → Bool) (o : Opts) (d : Drop T) (s : St) : Drop T × St :=
  let al := loadAlpha E T lt1 o d.keep d.alpha s
  let k := ldS E o.params "m_dropoutPercentActive" T d.keep al.2
  let m := ldM E (lt1 k.1 && o.dmask) "m_dropoutMask" d.mask k.2
  let q := ldM E (lt1 k.1 && o.dmask) "m_origActivations" d.orig m.2
  (⟨k.1, m.1, q.1, al.1⟩, q.2)

/-- Bits of a `bool`. -/
def ofBit (v : Nat) : Bool := decide (v ≠ 0)

/-- `load` of an output layer's own members output.h:92-96. -/
def loadBounds (E : Env) (T : Cls) (o : Opts) (b : Bool × Nat × Nat) (s : St) : (Bool × Nat × Nat) × St :=
  let p := ldS E o.params "m_bRestrictdLdZ" .logical b.1.toNat s
  let q := ldS E o.params "m_dLdZRestrictLowerBnd" T b.2.1 p.2
  let r := ldS E o.params "m_dLdZRestrictUpperBnd" T b.2.2 q.2
  ((ofBit p.1, q.1, r.1), r.2)

/-- `f` for the object, if there is one. -/
def loadOpt {α : Type} (f : α → St → α × St) : Option α → St → Option α × St
  | none, s => (none, s)
  | some x, s => (some (f x s).1, (f x s).2)

/-- `load` of `_LFC_FProp` fully_connected.h:77-94 (`loadWeights` of `Verif/NetFile`), of `LFC` 335-341 (nothing: the optimiser is not
loaded), of an output layer output.h:88-98 (nor is it there), `serialize` of an extended layer extender.h:112-118. -/
def loadFc {T : Cls} (E : Env) (lt1 : Nat → Bool) (o : Opts) (l : Fc T) (s : St) : Fc T × St :=
  let w := if o.weights then loadWeights E l.neurons l.incoming l.w l.ini s else ((l.w, l.ini), s)
  let b := loadOpt (loadBounds E T o) l.bounds w.2
  let d := loadOpt (loadDrop E lt1 o) l.drop b.2
  (⟨l.neurons, l.incoming, l.act, w.1.1, w.1.2, l.gw, b.1, d.1⟩, d.2)

/-- `serialize` of the other layers for a loading archive: input.h:66-68, identity.h:131-133, pack_tile.h:436-442. -/
def loadOwn {T : Cls} (E : Env) (lt1 : Nat → Bool) (o : Opts) : Own T → St → Own T × St
  | .input x, s => (.input x, s)
  | .ident act, s => let r := ldM E o.act "m_activations" act s; (.ident r.1, r.2)
  | .fc l, s => let r := loadFc E lt1 o l s; (.fc r.1, r.2)
  | .pack, s => (.pack, s)
  | .tile act inner k, s =>
    let p := ldM E o.act "m_activations" act s
    let q := ldM E o.dataX "m_innerLowerLayerActivations" inner p.2
    let r := ldS E true "m_tiles_count" .int32 k q.2
    (.tile p.1 q.1 r.1, r.2)

mutual
/-- A layer as a named struct (`inStruct` of `Verif/NetFile`, matfile.h:469-502). -/
def loadLyr {T : Cls} (E : Env) (lt1 : Nat → Bool) (o : Opts) : Lyr T → St → Lyr T × St
  | .node b i own sub, s =>
    let r := inStruct E (NetFile.label b i) (own, sub) (fun s =>
      let p := loadOwn E lt1 o own s
      let q := loadLyrs E lt1 o sub p.2
      ((p.1, q.1), q.2)) s
    (.node b i r.1.1 r.1.2, r.2)
/-- `serialize` of `layers` layers.h:130-135 for a loading archive. -/
def loadLyrs {T : Cls} (E : Env) (lt1 : Nat → Bool) (o : Opts) : List (Lyr T) → St → List (Lyr T) × St
  | [], s => ([], s)
  | l :: ls, s =>
    let r := loadLyr E lt1 o l s
    let q := loadLyrs E lt1 o ls r.2
    (r.1 :: q.1, q.2)
end

/-- Opening a file, `ar & net` with a saving archive of options `o`, closing it: the file and whether every call answered success. `none`: it could not be
opened. -/
def saveNet {T : Cls} (E : Env) (lt1 : Nat → Bool) (o : Opts) (disk : Option Vars) (net : List (Lyr T)) : Option Vars × Bool :=
  let a := St.open E true .writeDelete disk .init
  if a.1.err = .success then
    let s := saveAll E (items lt1 o net) a.1
    (s.file, decide (s.err = .success) && decide ((s.close E).2 = .success))
  else (a.2, false)

/-- Opening a file, `ar & net` with a loading archive of options `o`: the network and whether every call answered success. -/
def loadNet {T : Cls} (E : Env) (lt1 : Nat → Bool) (o : Opts) (disk : Option Vars) (net : List (Lyr T)) : List (Lyr T) × Bool :=
  let a := St.open E false .read disk .init
  if a.1.err = .success then
    let r := loadLyrs E lt1 o net a.1
    (r.1, decide (r.2.err = .success))
  else (net, false)

end Nntl.NetState
