import Verif.BinFile.Model
/-!
Model of the sets of sequences for classification and of reading them from a binary file.
Sources: /repo/nntl/train_data/seq_data.h, /repo/nntl/_supp/io/binfile.h 184-209 and 228-282.

Reading a field is `BinFile.readFieldEntry`. Assertions that only compare (`NNTL_ASSERT`) are left out: this is the program as it runs with
`NDEBUG`; the outcome `none` is undefined behaviour or an abort.
-/
namespace Nntl.SeqFile
open Nntl.Matrix Nntl.BinFile

/-- `seq_data` seq_data.h 57-58. -/
structure Seqs (T : ETy) where
  /-- `m_seqStor`: for every class its matrices -/
  stor : List (List (Mtx (Elem T)))
  /-- `m_classSeqCnt` -/
  cnt : List Nat

/-- `is_clear` seq_data.h 97-100. -/
def Seqs.isClear {T : ETy} (d : Seqs T) : Bool := d.stor.isEmpty && d.cnt.isEmpty

/-- `empty` seq_data.h 86-93. -/
def Seqs.empty {T : ETy} (d : Seqs T) : Bool := d.stor.isEmpty || d.cnt.isEmpty || d.stor.any fun e => e.isEmpty || e.any fun m => m.empty

/-- `clear` seq_data.h 102-108. -/
def Seqs.clear {T : ETy} (_ : Seqs T) : Seqs T := ⟨[], []⟩

/-- Error codes binfile.h 90-116: the ones of `BinFile.Err` (with success) and those of sequences. -/
inductive SErr where
  | base (e : Err)
  | failedToReadSeqClassHeader | invalidSeqClassElement | failedToPreallocateSeqData | failedToChangeFilePtr | failedToParseClassId
  | incoherentSeqClassCount | incoherentMetaAndContent
  deriving DecidableEq

/-- What the environment decides: whether the vector of counts can be allocated, after how many classes an allocation throws (if one does), what
happens while field `i` is read and whether the file pointer can be moved back to its beginning. -/
structure Env (T : ETy) where
  vecOk : Bool
  pre : Option Nat
  field : Nat → FEnv T
  seekOk : Nat → Bool

/-- `_prealloc_classes` seq_data.h 140-158. `junk`: the storage of a new matrix. -/
def prealloc {T : ETy} (d : Seqs T) (counts : List Nat) (pre : Option Nat) (junk : Nat → Elem T) : Seqs T × Bool :=
  if !d.isClear || counts.isEmpty then (d, false)
  else match pre with
    | none => (⟨counts.map fun c => List.replicate c (Mtx.default junk), counts⟩, true)
    | some k => (⟨(counts.take k).map fun c => List.replicate c (Mtx.default junk), counts⟩, false)

/-- `_next_mtx_for_class` seq_data.h 160-169: place of the first empty matrix of the class. -/
def nextMtx {T : ETy} (d : Seqs T) (c : Nat) : Option Nat := (d.stor[c]?).bind fun l => l.findIdx? fun m => m.empty

/-- Writing through the pointer that was returned. -/
def put {T : ETy} (d : Seqs T) (c j : Nat) (m : Mtx (Elem T)) : Seqs T := { d with stor := d.stor.modify c fun l => l.set j m }

/-- Outcome of `sscanf_s(name, "c%d", &id)`. -/
inductive Parse where
  | fail
  | ub
  | val (i : Int)
  deriving DecidableEq

def isSpace (b : UInt8) : Bool := b == 32 || (9 ≤ b && b ≤ 13)
def isDigit (b : UInt8) : Bool := 48 ≤ b && b ≤ 57

/-- The digits at the front as a number; at least one is needed. A number that is no `int` is undefined behaviour. -/
def parseNum (neg : Bool) (s : List UInt8) : Parse :=
  let ds := s.takeWhile isDigit
  if ds.isEmpty then .fail
  else
    let v : Nat := ds.foldl (fun a b => a * 10 + (b.toNat - 48)) 0
    if neg then (if v ≤ 2147483648 then .val (-(v : Int)) else .ub)
    else if v ≤ 2147483647 then .val v else .ub

/-- `sscanf_s(fe.szName, "c%d", &classId)` binfile.h 267: the name ends at its first zero byte (or at `bDataType`, zeroed in 264); a `c`, then optional
white space, an optional sign and digits; what follows is ignored. -/
def parseClass (name : List UInt8) : Parse :=
  match name.takeWhile (· ≠ 0) with
  | [] => .fail
  | b :: s =>
    if b ≠ 99 then .fail
    else match s.dropWhile isSpace with
      | 45 :: s => parseNum true s
      | 43 :: s => parseNum false s
      | s => parseNum false s

/-- The loop over the CLASS_ENTRYs, binfile.h 235-246: `n` are left, `cs` were read, `tot` is their sum, an `int`. -/
def readCounts : Nat → List Nat → Nat → List UInt8 → Option ((SErr ⊕ (List Nat × Nat)) × List UInt8)
  | 0, cs, tot, bs => some (.inr (cs, tot), bs)
  | n + 1, cs, tot, bs =>
    match fread 2 bs with
    | none => some (.inl .failedToReadSeqClassHeader, [])
    | some (h, bs) =>
      let sc := leNat h
      if sc = 0 then some (.inl .invalidSeqClassElement, bs)
      else if tot + sc > 2147483647 then none
      else readCounts n (cs ++ [sc]) (tot + sc) bs

/-- The loop over the FIELD_ENTRYs, binfile.h 252-277: `k` are left, `i` were read. -/
def readSeqs {T : ETy} (cv : Conv) (env : Env T) : Nat → Nat → Seqs T → List UInt8 → Option (SErr × Seqs T × List UInt8)
  | 0, _, d, bs => some (.base .success, d, bs)
  | k + 1, i, d, bs =>
    match fread 24 bs with
    | none => some (.base .failedToReadFieldEntry, d, [])
    | some (h, bs1) =>
      match parseClass ((h.drop 8).take 15) with
      | .ub => none
      | .fail => some (.failedToParseClassId, d, bs1)
      | .val id =>
        if id < 1 then some (.failedToParseClassId, d, bs1)
        else
          let c := (id - 1).toNat
          match nextMtx d c with
          | none => some (.incoherentSeqClassCount, d, bs1)
          | some j =>
            if !env.seekOk i then some (.failedToChangeFilePtr, d, bs1)
            else match readFieldEntry cv (env.field i) (((d.stor[c]?.getD [])[j]?).getD (Mtx.default (env.field i).junk)) false bs with
              | none => none
              | some r =>
                if r.err ≠ .success then some (.base r.err, put d c j r.m, r.rest) else readSeqs cv env k (i + 1) (put d c j r.m) r.rest

/-- `_read_into(fp, seq_data&, ..)` binfile.h 228-282. -/
def readInto {T : ETy} (cv : Conv) (env : Env T) (dest : Seqs T) (fields classes : Nat) (bs : List UInt8) : Option (SErr × Seqs T × List UInt8) :=
  if fields ≤ classes then some (.base .wrongElementsCount, dest, bs)
  else if !env.vecOk then none
  else match readCounts classes [] 0 bs with
    | none => none
    | some (.inl e, bs) => some (e, dest, bs)
    | some (.inr (counts, tot), bs) =>
      if tot + classes > 2147483647 then none
      else if tot + classes ≠ fields then some (.base .wrongElementsCount, dest, bs)
      else match prealloc dest counts env.pre (env.field 0).junk with
        | (d, false) => some (.failedToPreallocateSeqData, d, bs)
        | (d, true) =>
          match readSeqs cv env tot 0 d bs with
          | none => none
          | some (.base .success, d, bs) => if d.empty then some (.incoherentMetaAndContent, d, bs) else some (.base .success, d, bs)
          | some (e, d, bs) => some (e, d, bs)

/-- `read` binfile.h 184-209 for an existing file with contents `bs`. -/
def read {T : ETy} (cv : Conv) (env : Env T) (dest : Seqs T) (bs : List UInt8) : Option (SErr × Seqs T × List UInt8) :=
  match fread 10 bs with
  | none => some (.base .failedToReadHeader, dest, [])
  | some (h, bs) =>
    if leNat (h.take 4) ≠ signature then some (.base .wrongHeaderSignature, dest, bs)
    else if leNat ((h.drop 4).take 2) ≠ 0 then some (.base .unsupportedFormatVersion, dest, bs)
    else readInto cv env dest (leNat ((h.drop 6).take 2)) (leNat ((h.drop 8).take 2)) bs

end Nntl.SeqFile
