import Verif.Matrix.BiasInv
/-! Model of `nntl/_supp/io/binfile.h`: the reader of binary data files, for the destinations `smatrix`, `smatrix_deform` and
`inmem_train_data_stor`. A file is a list of bytes. A matrix element is its byte pattern. -/
namespace Nntl.BinFile
open Nntl.Matrix

/-- `DATA_TYPES` binfile.h:46-49 and the element types `double`, `float`. -/
inductive ETy where
  | dbl
  | flt
  deriving DecidableEq, Repr

/-- `sizeof`. -/
def ETy.size : ETy → Nat
  | .dbl => 8
  | .flt => 4
/-- The value of `bDataType`. -/
def ETy.code : ETy → UInt8
  | .dbl => 0
  | .flt => 1
/-- `correct_data_type` 84-86 and the `switch` 377-389: the type a code stands for. -/
def ETy.ofCode (b : UInt8) : Option ETy := if b = 0 then some .dbl else if b = 1 then some .flt else none

/-- An element of a matrix of `T` is its byte pattern. -/
structure Elem (T : ETy) where
  bytes : List UInt8
  deriving DecidableEq

/-- The byte patterns of `1.0` (IEEE-754, little endian). -/
def oneBytes : ETy → List UInt8
  | .dbl => [0, 0, 0, 0, 0, 0, 0xF0, 0x3F]
  | .flt => [0, 0, 0x80, 0x3F]
instance (T : ETy) : OfNat (Elem T) 1 := ⟨⟨oneBytes T⟩⟩

/-- `ErrorCode` 90-117 (the codes used for the modelled destinations). -/
inductive Err where
  | success | failedToReadHeader | wrongHeaderSignature | unsupportedFormatVersion | wrongElementsCount | invalidSeqClassCount
  | failedToReadFieldEntry | unsupportedIncorrectDataType | failedToAllocateMemoryForDataConvertion | invalidDataSize
  | failedToReadData | unknownFieldName | fieldHasBeenRead | failedToMakeTDOutOfReadData | memoryAllocationFailed
  deriving DecidableEq, Repr

/-- Little endian integer. -/
def leNat : List UInt8 → Nat
  | [] => 0
  | b :: bs => b.toNat + 256 * leNat bs

/-- `1 == fread_s(.., n, 1, fp)`: all of the `n` bytes or failure. -/
def fread (n : Nat) (bs : List UInt8) : Option (List UInt8 × List UInt8) :=
  if n ≤ bs.length then some (bs.take n, bs.drop n) else none

/-- `_root_members` 212-218. -/
inductive FieldId where
  | trainX | trainY | testX | testY
  deriving DecidableEq, Repr

/-- The names as bytes: "train_x", "train_y", "test_x", "test_y". -/
def FieldId.str : FieldId → List UInt8
  | .trainX => [116, 114, 97, 105, 110, 95, 120]
  | .trainY => [116, 114, 97, 105, 110, 95, 121]
  | .testX => [116, 101, 115, 116, 95, 120]
  | .testY => [116, 101, 115, 116, 95, 121]

/-- `_name2id` 220-226 applied to the 15 bytes of `szName`, terminated by the zeroed `bDataType` (361). `strcmp` compares up to the
first zero byte. -/
def name2id (name : List UInt8) : Option FieldId :=
  let s := name.takeWhile (· ≠ 0)
  if s = FieldId.trainX.str then some .trainX
  else if s = FieldId.trainY.str then some .trainY
  else if s = FieldId.testX.str then some .testX
  else if s = FieldId.testY.str then some .testY
  else none

def FieldId.isX : FieldId → Bool
  | .trainX => true
  | .testX => true
  | _ => false

/-- What the environment decides while one field is read: whether the two allocations succeed, contents of new memory. -/
structure FEnv (T : ETy) where
  ok : Bool
  okConv : Bool
  junk : Nat → Elem T

/-- `m.resize(static_cast<vec_len_t>(rows), static_cast<vec_len_t>(cols))` 371-372. `vec_len_t` is `int32_t`: values from `2^31` on become
negative and are refused (smatrix.h:1044, 1056); the bias column's increment wraps around at `2^31-1`. -/
def resizeI {T : ETy} (m : Mtx (Elem T)) (r c : Nat) (e : FEnv T) : Option (Mtx (Elem T) × Bool) :=
  if r + (m.emul && m.bir).toNat < 2 ^ 31 ∧ c + (m.emul && !m.bir).toNat < 2 ^ 31 then m.resize r c e.junk e.ok else some (m, false)

/-- Element `k` of an array of elements of size `sz` at the front of `raw`. -/
def chunk (sz : Nat) (raw : List UInt8) (k : Nat) : List UInt8 := (raw.drop (sz * k)).take sz

/-- `static_cast` between `double` and `float`; the identity for equal types. -/
abbrev Conv := (S T : ETy) → Elem S → Elem T

/-- The value that ends up in the matrix for the raw bytes of one element (smatrix.h:1133-1146; `fread` straight into the storage
for equal types). -/
def convElem (cv : Conv) (S T : ETy) (b : List UInt8) : Elem T := if S = T then ⟨b⟩ else cv S T ⟨b⟩

/-- `will_emulate_biases` / `dont_emulate_biases` 366-368. -/
def applyId {T : ETy} (id : Option FieldId) (m : Mtx (Elem T)) : Mtx (Elem T) :=
  { m with emul := match id with | some i => i.isX | none => m.emul }

/-- Result of reading a field: error code, the matrix, the recognised name, the unread rest of the file. -/
structure FRes (T : ETy) where
  err : Err
  m : Mtx (Elem T)
  id : Option FieldId
  rest : List UInt8

/-- `_impl_read_field_entry` 344-417 with `update_on_hidden_resize` of 339. `wantId`: `pTdFieldId != nullptr`. Contents of the matrix after a
failed read of the data are not modelled (it keeps the contents of new memory). `none`: abort in `resize` of a matrix with external
storage. -/
def readFieldEntry {T : ETy} (cv : Conv) (e : FEnv T) (m : Mtx (Elem T)) (wantId : Bool) (bs : List UInt8) : Option (FRes T) :=
  if !m.empty then some ⟨.fieldHasBeenRead, m, none, bs⟩
  else match fread 24 bs with
  | none => some ⟨.failedToReadFieldEntry, m, none, []⟩
  | some (h, bs) =>
    let rows := leNat (h.take 4)
    let cols := leNat ((h.drop 4).take 4)
    let name := (h.drop 8).take 15
    let dt := (h.drop 23).headD 0
    if rows = 0 ∨ cols = 0 then some ⟨.invalidDataSize, m, none, bs⟩
    else
      let id := if wantId then name2id name else none
      if wantId ∧ id = none then some ⟨.unknownFieldName, m, none, bs⟩
      else
        match resizeI (applyId id m) rows cols e with
        | none => none
        | some (m, false) => some ⟨.memoryAllocationFailed, m, id, bs⟩
        | some (m, true) =>
          let m := { m with maxSize := m.numel }
          match ETy.ofCode dt with
          | none => some ⟨.unsupportedIncorrectDataType, m, id, bs⟩
          | some S =>
            if S ≠ T ∧ e.okConv = false then some ⟨.failedToAllocateMemoryForDataConvertion, m, id, bs⟩
            else match fread (S.size * m.numelNoBias) bs with
            | none => some ⟨.failedToReadData, m, id, []⟩
            | some (raw, bs) =>
              some ⟨.success, { m with data := fun k => if k < m.numelNoBias then convElem cv S T (chunk S.size raw k) else m.data k }, id, bs⟩

/-- The four matrices of `inmem_train_data_stor` (inmem_train_data_stor.h:63-64) or the local array `mtxs` (binfile.h:294). -/
abbrev Four (T : ETy) := FieldId → Mtx (Elem T)

/-- `absorbsion_will_succeed` inmem_train_data_stor.h:176-189. -/
def absorbOk {T : ETy} (f : Four T) : Bool :=
  !(f .trainX).empty && !(f .trainY).empty && (f .trainX).rows == (f .trainY).rows
  && !(f .testX).empty && !(f .testY).empty && (f .testX).rows == (f .testY).rows
  && (f .trainY).cols == (f .testY).cols
  && (f .trainX).cols == (f .testX).cols
  && !(f .trainY).emul && !(f .testY).emul
  && (f .trainX).emul && (f .testX).emul
  && !(f .trainX).ext && !(f .testX).ext && !(f .trainY).ext && !(f .testY).ext

/-- `absorb` inmem_train_data_stor.h:163-173: the new contents and the result. -/
def absorb {T : ETy} (dest f : Four T) : Four T × Bool := if absorbOk f then (f, true) else (dest, false)

/-- The loop 296-303. `k` fields are still to be read, `env i` is the environment of field `i`. -/
def readLoop {T : ETy} (cv : Conv) (env : Nat → FEnv T) : Nat → Nat → Four T → List UInt8 → Option (Err × Four T × List UInt8)
  | 0, _, f, bs => some (.success, f, bs)
  | k + 1, i, f, bs =>
    match readFieldEntry cv (env i) (Mtx.default (env i).junk) true bs with
    | none => none
    | some r =>
      if r.err ≠ .success then some (r.err, f, r.rest)
      else match r.id with
        | none => none
        | some id =>
          if !(f id).empty then some (.fieldHasBeenRead, f, r.rest)
          else readLoop cv env k (i + 1) (fun j => if j = id then r.m else f j) r.rest

/-- `_read_into(fp, train_data&, ..)` 284-312. -/
def readTD {T : ETy} (cv : Conv) (env : Nat → FEnv T) (dest : Four T) (fields classes : Nat) (bs : List UInt8) :
    Option (Err × Four T × List UInt8) :=
  if fields ≠ 4 then some (.wrongElementsCount, dest, bs)
  else if classes ≠ 0 then some (.invalidSeqClassCount, dest, bs)
  else match readLoop cv env 4 0 (fun _ => Mtx.default (env 0).junk) bs with
    | none => none
    | some (.success, f, rest) =>
      match absorb dest f with
      | (d, true) => some (.success, d, rest)
      | (d, false) => some (.failedToMakeTDOutOfReadData, d, rest)
    | some (err, _, rest) => some (err, dest, rest)

/-- `_read_into(fp, smatrix&, ..)` 313-329. -/
def readMtx {T : ETy} (cv : Conv) (e : FEnv T) (dest : Mtx (Elem T)) (fields classes : Nat) (bs : List UInt8) :
    Option (Err × Mtx (Elem T) × List UInt8) :=
  if fields ≠ 1 then some (.wrongElementsCount, dest, bs)
  else if classes ≠ 0 then some (.invalidSeqClassCount, dest, bs)
  else (readFieldEntry cv e dest false bs).map fun r => (r.err, r.m, r.rest)

/-- `sSignature == 'ltnn'` 60. -/
def signature : Nat := 0x6C746E6E

/-- `read` 184-209 for an existing file with contents `bs`, with the destination's `_read_into` as `cont`. -/
def readFile {D : Type} (dest : D) (cont : Nat → Nat → List UInt8 → Option (Err × D × List UInt8)) (bs : List UInt8) :
    Option (Err × D × List UInt8) :=
  match fread 10 bs with
  | none => some (.failedToReadHeader, dest, [])
  | some (h, bs) =>
    if leNat (h.take 4) ≠ signature then some (.wrongHeaderSignature, dest, bs)
    else if leNat ((h.drop 4).take 2) ≠ 0 then some (.unsupportedFormatVersion, dest, bs)
    else cont (leNat ((h.drop 6).take 2)) (leNat ((h.drop 8).take 2)) bs

/-- `binfile::read` into a train data object. -/
def readTrainData {T : ETy} (cv : Conv) (env : Nat → FEnv T) (dest : Four T) (bs : List UInt8) : Option (Err × Four T × List UInt8) :=
  readFile dest (readTD cv env dest) bs
/-- `binfile::read` into a matrix. -/
def readMatrix {T : ETy} (cv : Conv) (e : FEnv T) (dest : Mtx (Elem T)) (bs : List UInt8) : Option (Err × Mtx (Elem T) × List UInt8) :=
  readFile dest (readMtx cv e dest) bs

end Nntl.BinFile
