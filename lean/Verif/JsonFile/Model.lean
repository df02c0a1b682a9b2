import Verif.Matrix.BiasInv
/-! Model of `nntl/_supp/io/jsonreader.h`: the reader of JSON files, for the destinations `smatrix` and `inmem_train_data_stor`. Parsing of the
text is done by rapidjson and not modelled: a file is a JSON value. Sizes of arrays are below `2^31`. -/
namespace Nntl.JsonFile
open Nntl.Matrix

/-- A number as rapidjson stores it: integers that fit into `int64_t` or `uint64_t`, others as `double` (its bits). -/
inductive JNum where
  | int (z : Int)
  | dbl (bits : Nat)
  deriving DecidableEq

/-- A JSON value. -/
inductive JVal where
  | null
  | bool (b : Bool)
  | num (x : JNum)
  | str (s : String)
  | arr (a : List JVal)
  | obj (o : List (String × JVal))

/-- `_root_members` 183-188. -/
inductive Field where
  | trainX | trainY | testX | testY
  deriving DecidableEq, Repr

/-- `_get_root_member_str` 192-202. -/
def Field.str : Field → String
  | .trainX => "train_x"
  | .trainY => "train_y"
  | .testX => "test_x"
  | .testY => "test_y"

/-- `ErrorCode` 71-89. -/
inductive Err where
  | success | failedToOpenFile | failedToParseJson | rootIsNotAnObject
  | no (f : Field) | invalid (f : Field)
  | mismatchingDataLength | memoryAllocationFailed
  deriving DecidableEq, Repr

/-- Kinds of element types: `is_floating_point`, `is_integral` with and without sign. -/
inductive Kind where
  | float | signed | unsigned
  deriving DecidableEq

/-- Element type: its kind and `static_cast` from the number. -/
structure Ty (α : Type) where
  kind : Kind
  cast : JNum → α

/-- `_extract_value` 285-296: `GetDouble` works for every number, `GetInt64` and `GetUint64` assert that the number is an integer of this type.
`none`: the assertion fails. -/
def Ty.extract {α : Type} (t : Ty α) (x : JNum) : Option α :=
  match t.kind, x with
  | .float, x => some (t.cast x)
  | .signed, .int z => if -2 ^ 63 ≤ z ∧ z < 2 ^ 63 then some (t.cast x) else none
  | .unsigned, .int z => if 0 ≤ z ∧ z < 2 ^ 64 then some (t.cast x) else none
  | _, .dbl _ => none

/-- `FindMember`: the first member of this name. -/
def findMember : List (String × JVal) → String → Option JVal
  | [], _ => none
  | (n, v) :: o, k => if n = k then some v else findMember o k

/-- What the environment decides at a `resize`: whether the allocation succeeds, contents of new memory. -/
structure Env (α : Type) where
  ok : Bool
  junk : Nat → α

variable {α β : Type}

/-- `set` smatrix.h:1005-1009, `none` if there is no memory for the element too. -/
def wr (m : Mtx α) (r c : Nat) (v : α) : Option (Mtx α) := if m.cell r c < m.cap then m.set r c v else none

/-- `clear` smatrix.h:1024-1032 with `_free` 317-325. -/
def mclear (m : Mtx α) : Mtx α := { m with cap := 0, rows := 0, cols := 0, ext := false, holey := false, bir := false }

/-- `_members2ErrorCode` 204-209: the first argument is not used. -/
def members2ErrorCode (_b : Field → Err) (f : Field) : Err := .no f

/-- The inner loop of `_parse_as_mtx` 247-257 (and the loop of `_parse_as_vector` 270-281 with `i = 0`): elements `j`, `j + 1`, .. of column `i`.
`none`: a failed assertion or a wrong memory access; `false`: something is not a number. -/
def readCol (t : Ty α) (i : Nat) : Nat → List JVal → Mtx α → Option (Mtx α × Bool)
  | _, [], m => some (m, true)
  | j, .num x :: vs, m => do readCol t i (j + 1) vs (← wr m j i (← t.extract x))
  | _, _, m => some (m, false)

/-- The outer loop of `_parse_as_mtx` 239-258. -/
def readCols (t : Ty α) (inrd : Nat) : Nat → List JVal → Mtx α → Option (Mtx α × Bool)
  | _, [], m => some (m, true)
  | i, .arr col :: cs, m =>
    if inrd ≠ col.length then some (m, false)
    else do
      match ← readCol t i 0 col m with
      | (m, false) => pure (m, false)
      | (m, true) => readCols t inrd (i + 1) cs m
  | _, _, m => some (m, false)

/-- Result of a loop: on failure the matrix is cleared (243-244, 251-252, 259, 274-275, 282). -/
def finish (f : Field) : Mtx α × Bool → Err × Mtx α
  | (m, true) => (.success, m)
  | (m, false) => (members2ErrorCode .invalid f, mclear m)

/-- `_parse_as_mtx` 228-260. -/
def parseAsMtx [OfNat α 1] (t : Ty α) (e : Env α) (vec first : List JVal) (f : Field) (m : Mtx α) : Option (Err × Mtx α) :=
  if first.length = 0 then some (members2ErrorCode .invalid f, m)
  else do
    match ← m.resize first.length vec.length e.junk e.ok with
    | (m, false) => pure (.memoryAllocationFailed, m)
    | (m, true) => pure (finish f (← readCols t first.length 0 vec m))

/-- `_parse_as_vector` 262-283. -/
def parseAsVector [OfNat α 1] (t : Ty α) (e : Env α) (vec : List JVal) (f : Field) (m : Mtx α) : Option (Err × Mtx α) := do
  match ← m.resize vec.length 1 e.junk e.ok with
  | (m, false) => pure (.memoryAllocationFailed, m)
  | (m, true) => pure (finish f (← readCol t 0 0 vec m))

/-- `_parse_mtx` 211-226. -/
def parseMtx [OfNat α 1] (t : Ty α) (e : Env α) (o : List (String × JVal)) (f : Field) (m : Mtx α) : Option (Err × Mtx α) :=
  match findMember o f.str with
  | none => some (members2ErrorCode .no f, m)
  | some (.arr []) => some (members2ErrorCode .invalid f, m)
  | some (.arr (.arr first :: vec)) => parseAsMtx t e (.arr first :: vec) first f m
  | some (.arr vec) => parseAsVector t e vec f m
  | some _ => some (members2ErrorCode .invalid f, m)

/-- The four matrices of `inmem_train_data_stor` (inmem_train_data_stor.h:63-64). -/
structure TD (α β : Type) where
  trainX : Mtx α
  trainY : Mtx β
  testX : Mtx α
  testY : Mtx β

/-- `absorbsion_will_succeed` inmem_train_data_stor.h:176-189. -/
def absorbOk (d : TD α β) : Bool :=
  !d.trainX.empty && !d.trainY.empty && d.trainX.rows == d.trainY.rows
  && !d.testX.empty && !d.testY.empty && d.testX.rows == d.testY.rows
  && d.trainY.cols == d.testY.cols && d.trainX.cols == d.testX.cols
  && d.trainX.emul && d.testX.emul && !d.trainY.emul && !d.testY.emul
  && !d.trainX.ext && !d.testX.ext && !d.trainY.ext && !d.testY.ext

/-- `_parse_json_doc` for train data 304-331. -/
def parseTD [OfNat α 1] [OfNat β 1] (tx : Ty α) (ty : Ty β) (e1 e3 : Env α) (e2 e4 : Env β) (d : JVal) (dest : TD α β) : Option (Err × TD α β) :=
  match d with
  | .obj o => do
    let (r, x) ← parseMtx tx e1 o .trainX { (Mtx.default e1.junk) with emul := true }
    if r ≠ .success then return (r, dest)
    let (r, y) ← parseMtx ty e2 o .trainY (Mtx.default e2.junk)
    if r ≠ .success then return (r, dest)
    let (r, x') ← parseMtx tx e3 o .testX { (Mtx.default e3.junk) with emul := true }
    if r ≠ .success then return (r, dest)
    let (r, y') ← parseMtx ty e4 o .testY (Mtx.default e4.junk)
    if r ≠ .success then return (r, dest)
    let new : TD α β := ⟨x.updateOnHiddenResize, y.updateOnHiddenResize, x'.updateOnHiddenResize, y'.updateOnHiddenResize⟩
    return if absorbOk new then (.success, new) else (.mismatchingDataLength, dest)
  | _ => some (.rootIsNotAnObject, dest)

/-- `_parse_json_doc` for a matrix 333-342. `will_emulate_biases` (smatrix.h:620-623) asserts that the matrix is empty. -/
def parseOne [OfNat α 1] (t : Ty α) (e : Env α) (biased : Bool) (d : JVal) (dest : Mtx α) : Option (Err × Mtx α) :=
  match d with
  | .obj o =>
    if biased && !(dest.empty && dest.rows == 0 && dest.cols == 0) then none
    else parseMtx t e o .trainX { dest with emul := dest.emul || biased }
  | _ => some (.rootIsNotAnObject, dest)

/-- What is on the disk: no such file, a file that is not JSON, or a JSON value. -/
inductive Disk where
  | missing
  | garbage
  | doc (d : JVal)

/-- `read` 154-181. -/
def read {D : Type} (parse : JVal → D → Option (Err × D)) (f : Disk) (dest : D) : Option (Err × D) :=
  match f with
  | .missing => some (.failedToOpenFile, dest)
  | .garbage => some (.failedToParseJson, dest)
  | .doc d => parse d dest

end Nntl.JsonFile
