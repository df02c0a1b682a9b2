import Verif.MatFile.Model
/-! Model of `nnet::write_weights` and `nnet::read_weights` (nntl/nnet.h:176-229) and of what the layers hand to the archive when of all
options only `serialize_weights` is on. The archive is that of `Verif/MatFile`. -/
namespace Nntl.NetFile
open Nntl.Matrix Nntl.MatFile

/-- A layer with what matters for serialization: its name (the custom or the default one), its index (_layer_base.h:484-492), and
* `plain`: nothing but the name. The input layer (input.h:61-68), the identity layers (identity.h:131-133, 259-262): without other options they
  save and load nothing.
* `fc`: a layer with weights (`_LFC_FProp`, fully_connected.h:61-64): the numbers of neurons and of incoming neurons, `m_weights`,
  `m_bWeightsInitialized`. `LFC` and `layer_output` add nothing for these options (fully_connected.h:325-341, output.h:75-99), neither does
  the dropout of an extended layer (extender.h:113-118).
* `pack`: layers in a vertical or horizontal pack (pack_vertical.h:331-336, _lph_base.h:406-410).
* `tile`: `_LPT`, pack_tile.h:125-165: the tiled layer and `m_tiles_count`. -/
inductive Lyr (T : Cls) where
  | plain (base : String) (idx : Nat)
  | fc (base : String) (idx : Nat) (neurons incoming : Nat) (w : Mtx (Elem T)) (inited : Bool)
  | pack (base : String) (idx : Nat) (body : List (Lyr T))
  | tile (base : String) (idx : Nat) (tiles : Nat) (inner : Lyr T)

/-- `sprintf_s(.., "%s_%d", name, index)` _layer_base.h:484-492. Names are short enough for the buffer (an assertion of the setter, 477-481). -/
def label (base : String) (idx : Nat) : String := base ++ "_" ++ idx.repr

/-- `get_layer_name_str` _layer_base.h:487-492. -/
def Lyr.label {T : Cls} : Lyr T → String
  | .plain b i => NetFile.label b i
  | .fc b i _ _ _ _ => NetFile.label b i
  | .pack b i _ => NetFile.label b i
  | .tile b i _ _ => NetFile.label b i

mutual
/-- `make_named_struct(l.get_layer_name_str().c_str(), l)` with what `serialize` / `save` of the layer writes: fully_connected.h:70-75,
pack_tile.h:436-445 (`neurons_count_t` is a 32-bit signed integer, common.h:50), pack_vertical.h:331-336. -/
def Lyr.item {T : Cls} : Lyr T → Item
  | .plain b i => .strct (NetFile.label b i) []
  | .fc b i _ _ w _ => .strct (NetFile.label b i) [.nvp "m_weights" (.mtx T true w)]
  | .pack b i l => .strct (NetFile.label b i) (items l)
  | .tile b i k l => .strct (NetFile.label b i) [.nvp "m_tiles_count" (.scalar .int32 k), l.item]
/-- `serialize` of `layers` layers.h:130-135: one packed layer after the other. -/
def items {T : Cls} : List (Lyr T) → List Item
  | [] => []
  | l :: ls => l.item :: items ls
end

/-- `operator>>` of `named_struct` matfile.h:469-502 for an object `x` whose loading is `body`. -/
def inStruct {α : Type} (E : Env) (n : String) (x : α) (body : St → α × St) (s : St) : α × St :=
  if s.err ≠ .success then (x, s)
  else match s.file with
  | none => (x, s.setErr .noFileOpened)
  | some _ =>
    if s.cur.isSome then (x, s.setErr .nameAlreadySet)
    else
      match loadVar E { s with cur := some n } true with
      | (s, some (.strct r c fs)) =>
        if r = 1 ∧ c = 1 then
          let (x, s) := body { s with cur := none, stack := fs :: s.stack }
          (x, { s with stack := s.stack.tail })
        else (x, { s with cur := none }.setErr .wrongVariableType)
      | (s, _) => (x, { s with cur := none })

/-- `operator>>` of `nvp` matfile.h:444-461 for a value whose loading is `body`. -/
def asNvp {α : Type} (n : String) (x : α) (body : St → α × St) (s : St) : α × St :=
  if s.err ≠ .success then (x, s)
  else match s.file with
  | none => (x, s.setErr .noFileOpened)
  | some _ => if s.cur.isSome then (x, s.setErr .nameAlreadySet) else body { s with cur := some n }

/-- `isWeightsSuitable` fully_connected.h:125-134 (what a release build does). -/
def weightsSuitable {T : Cls} (neurons incoming : Nat) (W : Mtx (Elem T)) : Bool :=
  !(W.empty || W.bir || W.emul || decide (W.cols ≠ incoming + 1) || decide (W.rows ≠ neurons))

/-- `load` of a layer with weights fully_connected.h:77-94 with `set_weights` 137-144 (`drop_weights` 160-163, then the move assignment
smatrix.h:1388-1396 with 409-426, which takes over every member). `junk` are contents of the memory of a new matrix. -/
def loadWeights {T : Cls} (E : Env) (neurons incoming : Nat) (w : Mtx (Elem T)) (inited : Bool) (s : St) : (Mtx (Elem T) × Bool) × St :=
  let r := asNvp "m_weights" (Mtx.default (E.elems T s.tick)) (loadMtx E "m_weights" false (Mtx.default (E.elems T s.tick))) s
  if r.2.err = .success then
    if weightsSuitable neurons incoming r.1 then ((r.1.updateOnHiddenResize, true), r.2)
    else ((w, inited), r.2.setErr .failedToAssignDestinationVar)
  else ((w, inited), r.2)

mutual
/-- Loading of a layer as a named struct; what is inside of it as the functions cited at `Lyr.item`, `loadWeights`. -/
def loadLyr {T : Cls} (E : Env) : Lyr T → St → Lyr T × St
  | .plain b i, s =>
    let r := inStruct E (NetFile.label b i) () (fun s => ((), s)) s
    (.plain b i, r.2)
  | .fc b i n c w ini, s =>
    let r := inStruct E (NetFile.label b i) (w, ini) (fun s => loadWeights E n c w ini s) s
    (.fc b i n c r.1.1 r.1.2, r.2)
  | .pack b i l, s =>
    let r := inStruct E (NetFile.label b i) l (fun s => loadLyrs E l s) s
    (.pack b i r.1, r.2)
  | .tile b i k l, s =>
    let r := inStruct E (NetFile.label b i) (k, l) (fun s =>
      let p := asNvp "m_tiles_count" k (loadScalar E .int32 k) s
      let q := loadLyr E l p.2
      ((p.1, q.1), q.2)) s
    (.tile b i r.1.1 r.1.2, r.2)
/-- `serialize` of `layers` layers.h:130-135 for a loading archive. -/
def loadLyrs {T : Cls} (E : Env) : List (Lyr T) → St → List (Lyr T) × St
  | [], s => ([], s)
  | l :: ls, s =>
    let r := loadLyr E l s
    let q := loadLyrs E ls r.2
    (r.1 :: q.1, q.2)
end

/-- `write_weights` nnet.h:205-229. `disk`: the file before the call, if it exists. Returned: the file after the call, the answer, and whether closing the file went
well, of which nobody is told. The file is closed by the destructor of the archive (matfile.h:291-293), after the answer has been decided;
if that fails, the file contains `lost`. -/
def writeWeights {T : Cls} (E : Env) (lost : Option Vars) (disk : Option Vars) (net : List (Lyr T)) : Option Vars × Bool × Bool :=
  let o := St.open E true .writeDelete disk .init
  if o.1.err = .success then
    let s := saveAll E (items net) o.1
    let closed := decide ((s.close E).2 = .success)
    (if closed then s.file else lost, decide (s.err = .success), closed)
  else (o.2, false, true)

/-- `read_weights` nnet.h:176-204. Returned: the network and the answer. -/
def readWeights {T : Cls} (E : Env) (disk : Option Vars) (net : List (Lyr T)) : List (Lyr T) × Bool :=
  if disk.isSome then
    let o := St.open E false .read disk .init
    if o.1.err = .success then
      let r := loadLyrs E net o.1
      (r.1, decide (r.2.err = .success))
    else (net, false)
  else (net, false)

end Nntl.NetFile
