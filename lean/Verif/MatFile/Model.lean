import Verif.Matrix.BiasInv
/-! Model of `nntl/_supp/io/matfile.h`: archives that save objects to and load objects from MATLAB files, together with
`utils/matlab.h` (classes of elements) and the archive operators of `serialization/serialization.h`.

A file is a list of named variables. What the functions of MATLAB's library do with a variable (`mxGetField`, `mxAddField`, `matPutVariable`,
..) is modelled by lookup and replacement in such lists; every one of them and every allocation may fail, as the environment `Env` says.
An element of a variable or of a matrix is its bit pattern. Dimensions are below `2^31`. -/
namespace Nntl.MatFile
open Nntl.Matrix

/-- `mxClassID` as used by `type2id` matlab.h:60-73. `otherCls`: numeric classes nntl does not know (`int16`, ..). -/
inductive Cls where
  | logical | int8 | uint8 | int32 | uint32 | int64 | uint64 | single | double | otherCls
  deriving DecidableEq, Repr

/-- An element of a matrix of type `T`: its bit pattern. -/
structure Elem (T : Cls) where
  bits : Nat
  deriving DecidableEq

/-- The bit pattern of one. -/
def oneBits : Cls → Nat
  | .single => 0x3F800000
  | .double => 0x3FF0000000000000
  | _ => 1
instance (T : Cls) : OfNat (Elem T) 1 := ⟨⟨oneBits T⟩⟩

/-- `mxArray`: a numeric or logical matrix (elements column by column), a struct array (of which nntl only ever looks at the
first element) or something else (`char`, `cell`, ..). -/
inductive Var where
  | num (cls : Cls) (r c : Nat) (data : Nat → Nat)
  | strct (r c : Nat) (fields : List (String × Var))
  | other

/-- A struct's fields or a file's variables. -/
abbrev Vars := List (String × Var)

/-- `mxGetField`, `matGetVariable`. -/
def fget : Vars → String → Option Var
  | [], _ => none
  | (n, v) :: fs, k => if n = k then some v else fget fs k

/-- `mxAddField` with `mxSetFieldByNumber`; `matPutVariable`: replaces the variable of this name, or appends a new one. -/
def fput : Vars → String → Var → Vars
  | [], k, w => [(k, w)]
  | (n, v) :: fs, k, w => if n = k then (n, w) :: fs else (n, v) :: fput fs k w

/-- `_matfile_errs::ErrorCode` matfile.h:66-87. -/
inductive Err where
  | success | failedToOpenFile | fileAlreadyOpened | invalidOpenMode | errorClosingFile | noFileOpened | noStructToSave
  | nameAlreadySet | noName | noStructAllocated | failedToAllocateMxData | failedToTransferVariable
  | failedToCreateStructVariable | cantAddNewFieldToStruct | wrongVariableType | emptyVariable | noMemoryToCreateReadVariable
  | structUnsaved | manualStructUnsaved | failedToAssignDestinationVar
  deriving DecidableEq, Repr

/-- The state of an archive 140-142, errors.h:79. `file = none`: no file is open. `stack`: the structs that are being filled or read,
innermost first. `tick` counts the calls of MATLAB's library and the allocator. -/
structure St where
  file : Option Vars
  cur : Option String
  stack : List Vars
  err : Err
  tick : Nat

/-- What the archive does not decide itself: whether call number `k` of the library succeeds, contents of new memory, and the values of
`static_cast`s between element types (`cast S T b`: the value of type `S` with bits `b`, as a `T`). -/
structure Env where
  ok : Nat → Bool
  junk : Nat → Nat → Nat
  cast : Cls → Cls → Nat → Nat

def Env.elems (E : Env) (T : Cls) (k : Nat) : Nat → Elem T := fun i => ⟨E.junk k i⟩

def St.setErr (s : St) (e : Err) : St := { s with err := e }
def St.next (s : St) : St := { s with tick := s.tick + 1 }

/-! ### Saving -/

/-- `_save_to_file_or_struct` 183-211. Called with an open file and a name only. -/
def toFileOrStruct (E : Env) (s : St) (v : Var) : St × Err :=
  match s.cur, s.file with
  | some n, some f =>
    match s.stack with
    | top :: rest =>
      if (fget top n).isSome then ({ s with stack := fput top n v :: rest, cur := none }, .success)
      else if E.ok s.tick then ({ s.next with stack := fput top n v :: rest, cur := none }, .success)
      else (s.next, .cantAddNewFieldToStruct)
    | [] =>
      if E.ok s.tick then ({ s.next with file := some (fput f n v), cur := none }, .success)
      else (s.next, .failedToTransferVariable)
  | _, _ => (s, .success)

/-- `if (ErrorCode::Success != ec) _set_last_error(ec)`. -/
def St.latch (p : St × Err) : St := if p.2 = .success then p.1 else p.1.setErr p.2

/-- `_save_var` 163-179. -/
def saveVar (E : Env) (s : St) (v : Var) : St :=
  match s.file, s.cur with
  | none, _ => s.setErr .noFileOpened
  | some _, none => s.setErr .noName
  | some _, some _ => if E.ok s.tick then St.latch (toFileOrStruct E s.next v) else s.next.setErr .failedToAllocateMxData

/-- A leaf of an object: an arithmetic value, a matrix (`deform`: `smatrix_deform`). -/
inductive Leaf where
  | scalar (T : Cls) (v : Nat)
  | mtx (T : Cls) (deform : Bool) (m : Mtx (Elem T))

/-- What is written for a leaf: `operator<<` 508-515 for matrices (`rows()`, `cols()`, `data()`: including the bias column), 535-541 for
arithmetic types. -/
def Leaf.var : Leaf → Var
  | .scalar T v => .num T 1 1 fun _ => v
  | .mtx T _ m => .num T m.rows m.cols fun k => (m.data k).bits

/-- What `serialize` of an object hands to the archive: `make_nvp(name, leaf)`, `make_nvp(name, object)`,
`make_named_struct(name, object)` (serialization.h:57-85). An object is the list of what its `serialize` hands over. -/
inductive Item where
  | nvp (name : String) (v : Leaf)
  | nvpObj (name : String) (body : List Item)
  | strct (name : String) (body : List Item)

mutual
/-- `operator<<` of `nvp` 386-402 and of `named_struct` 406-440. -/
def save (E : Env) : Item → St → St
  | .nvp n v, s =>
    if s.err ≠ .success then s
    else match s.file with
    | none => s.setErr .noFileOpened
    | some _ => if s.cur.isSome then s.setErr .nameAlreadySet else saveVar E { s with cur := some n } v.var
  | .nvpObj n b, s =>
    if s.err ≠ .success then s
    else match s.file with
    | none => s.setErr .noFileOpened
    | some _ => if s.cur.isSome then s.setErr .nameAlreadySet else saveAll E b { s with cur := some n }
  | .strct n b, s =>
    if s.err ≠ .success then s
    else match s.file with
    | none => s.setErr .noFileOpened
    | some _ =>
      if s.cur.isSome then s.setErr .nameAlreadySet
      else if E.ok s.tick then
        let s1 := saveAll E b { s.next with stack := [] :: s.stack }
        match s1.stack with
        | top :: rest => St.latch (toFileOrStruct E { s1 with stack := rest, cur := some n } (.strct 1 1 top))
        | [] => s1
      else s.next.setErr .failedToCreateStructVariable
/-- An object: one item after the other. -/
def saveAll (E : Env) : List Item → St → St
  | [], s => s
  | i :: is, s => saveAll E is (save E i s)
end

/-! ### Loading -/

/-- `_load_var` 215-246: the variable, if any. The library's reading from a file may fail. -/
def loadVar (E : Env) (s : St) (wantStruct : Bool) : St × Option Var :=
  match s.file, s.cur with
  | none, _ => (s.setErr .noFileOpened, none)
  | some _, none => (s.setErr .noName, none)
  | some f, some n =>
    let (s, ret) := match s.stack with
      | top :: _ => (s, fget top n)
      | [] => (s.next, if E.ok s.tick then fget f n else none)
    match ret, wantStruct with
    | none, _ => (s.setErr .failedToTransferVariable, none)
    | some (.strct r c fs), true => (if r = 0 ∨ c = 0 then s.setErr .emptyVariable else s, some (.strct r c fs))
    | some (.num S r c d), false => (if r = 0 ∨ c = 0 then s.setErr .emptyVariable else s, some (.num S r c d))
    | some _, _ => (s.setErr .wrongVariableType, none)

/-- `clear` smatrix.h:1024-1032 with `_free` 317-325. -/
def mclear {α : Type} (m : Mtx α) : Mtx α := { m with cap := 0, rows := 0, cols := 0, ext := false, holey := false, bir := false }

/-- The `switch` of `fill_data_no_bias` matlab.h:84-110: the type a variable's elements are read as. -/
def readAs : Cls → Option Cls
  | .double => some .double
  | .single => some .single
  | .int64 => some .uint64
  | .uint64 => some .uint64
  | .int32 => some .uint32
  | .uint32 => some .uint32
  | .int8 => some .uint8
  | .uint8 => some .uint8
  | .logical => some .logical
  | .otherCls => none

/-- The element of a matrix of type `T` for the bits `b` of an element of a variable of class `S`, matlab.h:76-112. -/
def element (E : Env) (S T : Cls) : Option (Nat → Elem T) :=
  if T = S then some fun b => ⟨b⟩ else (readAs S).map fun S' b => ⟨E.cast S' T b⟩

/-- The names the loader of matrices compares with (574). -/
def isX (n : String) : Bool := n == "train_x" || n == "test_x"

/-- `operator>>` of `smatrix` 566-594 and of `smatrix_deform` 598-603. -/
def loadMtx (E : Env) (n : String) {T : Cls} (deform : Bool) (m : Mtx (Elem T)) (s : St) : Mtx (Elem T) × St :=
  match loadVar E s false with
  | (s, some (.num S r c d)) =>
    let m := mclear m
    if isX n && decide (c < 2) then (m, s.setErr .emptyVariable)
    else
      let c := if isX n then c - 1 else c
      match Mtx.resize { m with emul := isX n } r c (E.elems T s.tick) (E.ok s.tick) with
      | some (m, true) =>
        match element E S T with
        | some g =>
          match m.fillFromArrayNoBias fun k => g (d k) with
          | some m =>
            let s := { s.next with cur := none }
            (if deform && decide (s.err = .success) then m.updateOnHiddenResize else m, s)
          | none => (m, s)
        | none => (m, s.next.setErr .wrongVariableType)
      | some (m, false) => (m, s.next.setErr .noMemoryToCreateReadVariable)
      | none => (m, s)
  | (s, _) => (m, s)

/-- `operator>>` of arithmetic types 605-619. -/
def loadScalar (E : Env) (T : Cls) (v : Nat) (s : St) : Nat × St :=
  match loadVar E s false with
  | (s, some (.num S r c d)) =>
    if r = 1 ∧ c = 1 ∧ S = T then (d 0, { s with cur := none }) else (v, s.setErr .wrongVariableType)
  | (s, _) => (v, s)

def loadLeaf (E : Env) (n : String) : Leaf → St → Leaf × St
  | .scalar T v, s => let (v, s) := loadScalar E T v s; (.scalar T v, s)
  | .mtx T df m, s => let (m, s) := loadMtx E n df m s; (.mtx T df m, s)

mutual
/-- `operator>>` of `nvp` 444-461 and of `named_struct` 469-502. The leaves of the item are the objects loaded into. -/
def load (E : Env) : Item → St → Item × St
  | .nvp n v, s =>
    if s.err ≠ .success then (.nvp n v, s)
    else match s.file with
    | none => (.nvp n v, s.setErr .noFileOpened)
    | some _ =>
      if s.cur.isSome then (.nvp n v, s.setErr .nameAlreadySet)
      else let (v, s) := loadLeaf E n v { s with cur := some n }; (.nvp n v, s)
  | .nvpObj n b, s =>
    if s.err ≠ .success then (.nvpObj n b, s)
    else match s.file with
    | none => (.nvpObj n b, s.setErr .noFileOpened)
    | some _ =>
      if s.cur.isSome then (.nvpObj n b, s.setErr .nameAlreadySet)
      else let (b, s) := loadAll E b { s with cur := some n }; (.nvpObj n b, s)
  | .strct n b, s =>
    if s.err ≠ .success then (.strct n b, s)
    else match s.file with
    | none => (.strct n b, s.setErr .noFileOpened)
    | some _ =>
      if s.cur.isSome then (.strct n b, s.setErr .nameAlreadySet)
      else
        match loadVar E { s with cur := some n } true with
        | (s, some (.strct r c fs)) =>
          if r = 1 ∧ c = 1 then
            let (b, s) := loadAll E b { s with cur := none, stack := fs :: s.stack }
            (.strct n b, { s with stack := s.stack.tail })
          else (.strct n b, { s with cur := none }.setErr .wrongVariableType)
        | (s, _) => (.strct n b, { s with cur := none })
def loadAll (E : Env) : List Item → St → List Item × St
  | [], s => ([], s)
  | i :: is, s =>
    let (i, s) := load E i s
    let (is, s) := loadAll E is s
    (i :: is, s)
end

/-! ### Opening and closing -/

/-- `FileOpenMode` 148-153. -/
inductive Mode where
  | read | writeDelete | updateKeepOld | updateDelete
  deriving DecidableEq, Repr

/-- An archive right after construction 296. -/
def St.init : St := { file := none, cur := none, stack := [], err := .success, tick := 0 }

/-- `open` 364-381 with `_open` 253-286. `saving`: which kind of archive. `disk`: the file's contents before, `none` if there is no such
file. The library cannot read or update a file that does not exist. Returns the disk contents too, as deleting happens at once. -/
def St.open (E : Env) (saving : Bool) (m : Mode) (disk : Option Vars) (s : St) : St × Option Vars :=
  if (saving && decide (m = .read)) || (!saving && decide (m = .writeDelete)) then (s.setErr .invalidOpenMode, disk)
  else if s.file.isSome then (s.setErr .fileAlreadyOpened, disk)
  else
    let fin (s : St) (disk : Option Vars) : St × Option Vars :=
      if E.ok s.tick && disk.isSome then ({ s.next with file := disk, err := .success }, disk)
      else (s.next.setErr .failedToOpenFile, disk)
    match m with
    | .read => fin s disk
    | .updateKeepOld => fin s disk
    | .writeDelete =>
      if E.ok s.tick then ({ s.next with file := some [], err := .success }, some [])
      else (s.next.setErr .failedToOpenFile, disk)
    | .updateDelete =>
      if E.ok s.tick then
        let s := s.next
        if E.ok s.tick then fin s.next (some []) else (s.next.setErr .errorClosingFile, some [])
      else (s.next.setErr .failedToOpenFile, none)

/-- `close` 302-329. -/
def St.close (E : Env) (s : St) : St × Err :=
  let ec := if s.cur.isSome then Err.nameAlreadySet else .success
  let ec := if s.stack.length ≠ 0 then Err.structUnsaved else ec
  let (s, ec) := match s.file with
    | some _ => (s.next, if E.ok s.tick then ec else Err.errorClosingFile)
    | none => (s, ec)
  ({ s with file := none, cur := none, stack := [], err := ec }, ec)

end Nntl.MatFile
