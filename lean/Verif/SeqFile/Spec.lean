import Verif.SeqFile.Model
import Verif.BinFile.Spec
import Mathlib.Data.List.Forall2
/-! Files with sequences for classification as a writer makes them, independently of the reader. -/
namespace Nntl.SeqFile
open Nntl.Matrix Nntl.BinFile

/-- `n` in decimal, as characters. -/
def decimal (n : Nat) : List UInt8 := if n < 10 then [UInt8.ofNat (48 + n)] else decimal (n / 10) ++ [UInt8.ofNat (48 + n % 10)]
termination_by n
decreasing_by omega

/-- A sequence to be stored: its class (counted from 0), what follows the number of the class in its name, and the matrix. -/
structure Entry where
  cls : Nat
  suffix : List UInt8
  mtx : FileMtx

/-- The name: `c`, the number of the class counted from 1, the suffix. -/
def Entry.name (e : Entry) : List UInt8 := 99 :: (decimal (e.cls + 1) ++ e.suffix)

/-- The file: signature, version, number of entries (of both kinds), number of classes; for every class how many sequences it has; the sequences, in
any order. -/
def encSeqFile (n : Nat) (es : List Entry) : List UInt8 :=
  [110, 110, 116, 108] ++ leBytes 2 0 ++ leBytes 2 (es.length + n) ++ leBytes 2 n ++
  ((List.range n).flatMap fun k => leBytes 2 (es.countP fun e => e.cls == k)) ++ es.flatMap fun e => encField e.name e.mtx

/-- A set of sequences a file can hold: every class has one, the suffix of a name does not begin with a digit, and the name fits. -/
structure SetOk (n : Nat) (es : List Entry) : Prop where
  fits : es.length + n < 65536
  some_class : 0 < n
  cls : ∀ e ∈ es, e.cls < n
  every : ∀ k, k < n → ∃ e ∈ es, e.cls = k
  mtx : ∀ e ∈ es, e.mtx.Ok
  suffix : ∀ e ∈ es, ∀ b, e.suffix.head? = some b → b < 48 ∨ 57 < b
  name : ∀ e ∈ es, e.name.length ≤ 15

/-- The sequences of a class in the order of the file. -/
def ofClass (es : List Entry) (k : Nat) : List FileMtx := (es.filter fun e => e.cls == k).map (·.mtx)

/-- The object holds exactly these sequences. -/
structure Holds (cv : Conv) {T : ETy} (n : Nat) (es : List Entry) (d : Seqs T) : Prop where
  classes : d.stor.length = n
  counts : d.cnt = (List.range n).map fun k => (ofClass es k).length
  seqs : ∀ k, k < n → ∃ l, d.stor[k]? = some l ∧ List.Forall₂ (fun f m => Decoded cv f false m) (ofClass es k) l

/-- Nothing fails: memory is there, files can be positioned. -/
structure Env.Ok {T : ETy} (env : Env T) : Prop where
  vec : env.vecOk = true
  pre : env.pre = none
  field : ∀ i, (env.field i).ok = true ∧ (env.field i).okConv = true
  seek : ∀ i, env.seekOk i = true

/-- `is_clear()`. -/
def Clear {T : ETy} (d : Seqs T) : Prop := d.stor = [] ∧ d.cnt = []

/-- Every class has as many sequences as it was announced to have, at least one, and each of them is a matrix with elements. -/
structure Full {T : ETy} (d : Seqs T) : Prop where
  some_class : d.stor ≠ []
  counts : d.cnt = d.stor.map List.length
  nonempty : ∀ l ∈ d.stor, l ≠ []
  filled : ∀ l ∈ d.stor, ∀ m ∈ l, 0 < m.rows ∧ 0 < m.cols ∧ m.cap = m.rows * m.cols

/-- A file that announces `cs.length` classes with `cs[k]` sequences each, and begins with the sequences `es`. -/
def encSeqPart (cs : List Nat) (es : List Entry) : List UInt8 :=
  [110, 110, 116, 108] ++ leBytes 2 0 ++ leBytes 2 (cs.sum + cs.length) ++ leBytes 2 cs.length ++
  cs.flatMap (leBytes 2) ++ es.flatMap fun e => encField e.name e.mtx

/-- The sequences `es` are well-formed and no more than announced. -/
structure PartOk (cs : List Nat) (es : List Entry) : Prop where
  fits : cs.sum + cs.length < 65536
  some_class : cs ≠ []
  pos : ∀ c ∈ cs, 0 < c
  cls : ∀ e ∈ es, e.cls < cs.length
  room : ∀ k c, cs[k]? = some c → (es.countP fun e => e.cls == k) ≤ c
  mtx : ∀ e ∈ es, e.mtx.Ok
  suffix : ∀ e ∈ es, ∀ b, e.suffix.head? = some b → b < 48 ∨ 57 < b
  name : ∀ e ∈ es, e.name.length ≤ 15

/-- The object has places for all the announced sequences, those in front hold `es`, the others are empty. -/
structure HoldsPart (cv : Conv) {T : ETy} (cs : List Nat) (es : List Entry) (d : Seqs T) : Prop where
  counts : d.cnt = cs
  classes : d.stor.length = cs.length
  seqs : ∀ k, k < cs.length → ∃ l r, d.stor[k]? = some (l ++ r) ∧ List.Forall₂ (fun f m => Decoded cv f false m) (ofClass es k) l ∧
    (∀ m ∈ r, m.cap = 0) ∧ cs[k]? = some (l.length + r.length)

/-- Names that give no class: another first letter; nothing behind the `c`; something there that is no number; the number 0 or a negative one. -/
inductive BadName : List UInt8 → Prop where
  | nothing : BadName []
  | letter (b : UInt8) (s : List UInt8) (h : b ≠ 99) : BadName (b :: s)
  | only : BadName [99]
  | noNumber (b : UInt8) (s : List UInt8) (h : b < 48 ∨ 57 < b) (h1 : b ≠ 43) (h2 : b ≠ 45) (h3 : b ≠ 32) (h4 : b < 9 ∨ 13 < b) : BadName (99 :: b :: s)
  | zero (s : List UInt8) (h : ∀ b, s.head? = some b → b < 48 ∨ 57 < b) : BadName (99 :: (decimal 0 ++ s))
  | negative (n : Nat) (s : List UInt8) (hn : n ≤ 2147483648) (h : ∀ b, s.head? = some b → b < 48 ∨ 57 < b) : BadName (99 :: 45 :: (decimal n ++ s))

end Nntl.SeqFile
