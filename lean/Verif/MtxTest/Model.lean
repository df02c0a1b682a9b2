import Verif.Matrix.Model
import Verif.MtxTest.Float
import Verif.Gemm.Model
/-!
Checks of the contents of matrices, flags and contents of biases, matrices that share the storage of another one. Line numbers without a file
name refer to `/repo/nntl/interface/math/smatrix.h`.

`dbg` tells whether the program is compiled with assertions: a violated `NNTL_ASSERT` then ends the program. A read past the end of the storage, or a
loop that never ends, has the outcome `ub`.
-/
namespace Nntl.MtxTest
open Nntl.Matrix

inductive Out where
  | ret (b : Bool) | abort | ub
  deriving DecidableEq, Repr

/-- `similar_FWI_one`, `similar_FWI_pos_zero`, `similar_FWI_neg_zero`, `_base.h` 169–189: the bits of `1.`, `+0.`, `-0.`; `T(1)`, `T(0)` of integral
types, 141–142. -/
def oneBits : VT → Nat
  | .f32 => 0x3f800000 | .f64 => 0x3ff0000000000000 | .int => 1
def negZeroBits : VT → Nat
  | .f32 => 0x80000000 | .f64 => 0x8000000000000000 | .int => 0

theorem one_lt (t : VT) : oneBits t < 2 ^ t.width := by cases t <;> decide
theorem zero_lt (t : VT) : 0 < 2 ^ t.width := by cases t <;> decide
theorem neg_lt (t : VT) : negZeroBits t < 2 ^ t.width := by cases t <;> decide

/-- `value_type(1)`, `value_type(0)`. -/
instance (t : VT) : OfNat (Bits t) 1 := ⟨⟨oneBits t, one_lt t⟩⟩
instance (t : VT) : OfNat (Bits t) 0 := ⟨⟨0, zero_lt t⟩⟩

/-- The loop of the checks: `while (ptr goes on) { c = ok(*ptr); NNTL_ASSERT(quiet || c); cond = cond & c; ptr += ld; }`. `cap`: number of elements
that may be addressed. -/
def scan {β : Type} (dbg quiet : Bool) (ok : β → Bool) (d : Nat → β) (cap ld : Nat) (goesOn : Nat → Bool) : Nat → Nat → Bool → Out
  | 0, _, _ => .ub
  | fuel + 1, pos, cond =>
    if !goesOn pos then .ret cond
    else if cap ≤ pos then .ub
    else if dbg && !quiet && !ok (d pos) then .abort
    else scan dbg quiet ok d cap ld goesOn fuel (pos + ld) (cond && ok (d pos))

/-- `while (ptr != pE)` over `ne` elements from `ofs`: 103–111, 128–136, 144–152, `pE = ptr + ne`. A loop that has not ended when all the addressable
elements were visited does not end any more (the step is at least one). -/
def scanNe {β : Type} (dbg quiet : Bool) (ok : β → Bool) (d : Nat → β) (cap ofs ne ld : Nat) : Out :=
  scan dbg quiet ok d cap ld (fun p => p != ofs + ne) (cap + 2) ofs true

/-- `c` of `_isBinaryVec` 108, of the integral variant 114–117. -/
def binC {t : VT} (b : Bits t) : Bool :=
  match t with
  | .int => b.v == 1 || b.v == 0
  | t => b.v == oneBits t || b.v == 0 || b.v == negZeroBits t

/-- `c` of `_isBinaryStrictVec` 133, 149. -/
def strictC {t : VT} (b : Bits t) : Bool := b.v == oneBits t || b.v == 0

/-- `_isBinaryVec` 91–117. -/
def isBinaryVec {t : VT} (dbg quiet : Bool) (d : Nat → Bits t) (cap ofs ne : Nat) : Out := scanNe dbg quiet binC d cap ofs ne 1
/-- `_isBinaryStrictVec` 119–154. -/
def isBinaryStrictVec {t : VT} (dbg quiet : Bool) (d : Nat → Bits t) (cap ofs ne : Nat) : Out := scanNe dbg quiet strictC d cap ofs ne 1
/-- `_isBinaryVecWLd` 159–189: the end is `ptr + ne` here too, the step is `ld`. -/
def isBinaryVecWLd {t : VT} (dbg quiet : Bool) (d : Nat → Bits t) (cap ofs ne ld : Nat) : Out := scanNe dbg quiet binC d cap ofs ne ld

/-- `_isBinary` 746–748. -/
def isBinary {t : VT} (dbg quiet : Bool) (m : Mtx (Bits t)) : Out := isBinaryVec dbg quiet m.data m.cap 0 m.numel
/-- `_isBinaryStrict` 750–752. -/
def isBinaryStrict {t : VT} (dbg quiet : Bool) (m : Mtx (Bits t)) : Out := isBinaryStrictVec dbg quiet m.data m.cap 0 m.numel
/-- `_isBinaryStrictNoBias` 755–758. -/
def isBinaryStrictNoBias {t : VT} (dbg quiet : Bool) (m : Mtx (Bits t)) : Out :=
  if dbg && m.emul && m.bir then .abort else isBinaryStrictVec dbg quiet m.data m.cap 0 m.numelNoBias

/-- `::std::isnan`: above the pattern of infinity when the sign is dropped. -/
def isnan {t : VT} (b : Bits t) : Bool :=
  match t with
  | .f32 => decide (0x7f800000 < b.v % 0x80000000)
  | .f64 => decide (0x7ff0000000000000 < b.v % 0x8000000000000000)
  | .int => false

/-- `test_noNaNs` 727–742. -/
def testNoNaNs {t : VT} (dbg : Bool) (m : Mtx (Bits t)) : Out :=
  match t with
  | .int => .ret true
  | _ => scanNe dbg false (fun b => !isnan b) m.data m.cap 0 m.numel 1

/-- `c` of `_isAlmostBinary` 772: `rnd` rounds the difference; comparisons with infinities and NaNs are false. -/
def almostC {t : VT} (rnd : ℚ → ℚ) (eps : ℚ) (b : Bits t) : Bool :=
  match b.num with
  | some x => decide (|rnd (x - 1)| < eps) || decide (|x| < eps)
  | none => false

/-- `_isAlmostBinary` 766–777. -/
def isAlmostBinary {t : VT} (rnd : ℚ → ℚ) (dbg : Bool) (eps : ℚ) (m : Mtx (Bits t)) : Out :=
  scanNe dbg false (almostC rnd eps) m.data m.cap 0 m.numel 1

/-- `*pS == value_type(1.0)`: `1.0` has one pattern only. -/
def isOne {t : VT} (b : Bits t) : Bool := b.v == oneBits t

/-- `test_biases_strict` 686–712. With samples in columns the loop is `while (pS < pE)`. -/
def testBiasesStrict {t : VT} (dbg : Bool) (m : Mtx (Bits t)) : Out :=
  if dbg && !(m.emul && !m.holey && m.cap != 0 && m.rows != 0 && m.cols != 0) then .abort
  else if m.bir then scan dbg false isOne m.data m.cap m.rows (fun p => decide (p < m.rows - 1 + m.numel)) (m.cap + 2) (m.rows - 1) true
  else scanNe dbg false isOne m.data m.cap (m.rows * (m.cols - 1)) m.rows 1

/-- `test_biases_holey` 715–722. -/
def testBiasesHoley {t : VT} (dbg : Bool) (m : Mtx (Bits t)) : Out :=
  if dbg && !(m.emul && m.holey && m.cap != 0 && m.rows != 0 && m.cols != 0) then .abort
  else if m.bir then isBinaryVecWLd dbg false m.data m.cap (m.rows - 1) m.cols m.rows
  else isBinaryVec dbg false m.data m.cap (m.rows * (m.cols - 1)) m.rows

/-- `test_biases_ok` 675–677. -/
def testBiasesOk {t : VT} (dbg : Bool) (m : Mtx (Bits t)) : Out :=
  if m.holey then testBiasesHoley dbg m else testBiasesStrict dbg m

/-- `if_biases_test_strict` 680–682. -/
def ifBiasesTestStrict {t : VT} (dbg : Bool) (m : Mtx (Bits t)) : Out :=
  if m.emul then testBiasesStrict dbg m else .ret true

/-! ### Flags and contents of biases. `none`: an assertion fails. -/

/-- `memcpy(dst + ofs, src, n)`. -/
def copyAt {α : Type} (dst : Nat → α) (ofs : Nat) (src : Nat → α) : Nat → Nat → α
  | 0 => dst
  | n + 1 => upd (copyAt dst ofs src n) (ofs + n) (src n)

/-- `copy_biases_from(ptr, countNonZeros)` 650–656; `ptr` points to at least `rows()` elements. -/
def copyBiasesPtr {t : VT} (m : Mtx (Bits t)) (ptr : Nat → Bits t) (cnt : Nat) : Option (Mtx (Bits t)) :=
  if m.emul && !m.empty && decide (cnt ≤ m.rows) && !m.bir && isBinaryVec true false ptr m.rows 0 m.rows == .ret true then
    some { m with data := copyAt m.data (m.rows * (m.cols - 1)) ptr m.rows, holey := cnt != m.rows }
  else none

/-- `copy_biases_from(src)` 658–668. `bias_column()` of the source asserts the default layout (993–1000). -/
def copyBiasesMtx {t : VT} (m src : Mtx (Bits t)) : Option (Mtx (Bits t)) :=
  if m.emul && !m.empty && src.emul && !src.empty && src.rows == m.rows && !m.bir then
    if src.holey then
      if !src.bir && isBinaryVec true false src.data src.cap (src.rows * (src.cols - 1)) src.rows == .ret true then
        some { m with data := copyAt m.data (m.rows * (m.cols - 1)) (fun k => src.data (src.rows * (src.cols - 1) + k)) m.rows, holey := true }
      else none
    else some { m.fillCol (m.cols - 1) 1 with holey := false }
  else none

/-- `holey_biases(b)` 644–647. -/
def holeyBiases {t : VT} (m : Mtx (Bits t)) (b : Bool) : Option (Mtx (Bits t)) := if m.emul then some { m with holey := b } else none

/-- `nans` 1114–1117; `q` is the pattern of the quiet NaN. -/
def nans {t : VT} (q : Bits t) (m : Mtx (Bits t)) : Mtx (Bits t) := { m.fill q with holey := false }

/-- `nans_no_bias` 1120–1126. -/
def nansNoBias {t : VT} (q : Bits t) (m : Mtx (Bits t)) : Option (Mtx (Bits t)) :=
  if m.empty || (m.emul && m.bir) then none else some { m with data := fillSeq m.data 0 q m.numelNoBias, holey := false }

/-! ### Matrices in the storage of another one -/

/-- A matrix made by pointing into the storage of another one: where it begins, its size and flags. -/
structure View where
  ofs : Nat
  rows : Nat
  cols : Nat
  emul : Bool
  holey : Bool
  bir : Bool
  deriving DecidableEq, Repr

variable {α : Type}

/-- `submatrix_cols_no_bias` of `smatrix` 436–440. -/
def submatrixCols (m : Mtx α) (c n : Nat) : Option View :=
  if decide (n ≠ 0) && decide (c + n ≤ m.colsNoBias) then some ⟨m.rows * c, m.rows, n, false, false, m.bir⟩ else none

/-- `submatrix_cols_no_bias` of `smatrix_deform` 1410–1415: the layout is not handed on. -/
def submatrixColsDef (m : Mtx α) (c n : Nat) : Option View :=
  if decide (n ≠ 0) && decide (c + n ≤ m.colsNoBias) && !(m.emul && m.bir) then some ⟨m.rows * c, m.rows, n, false, false, false⟩ else none

/-- `useExternalStorage_no_bias(smatrix&)` 1152–1156. -/
def useStorageNoBias (m : Mtx α) : Option View :=
  if m.emul && m.bir then none else some ⟨0, m.rowsNoBias, m.colsNoBias, false, false, m.bir⟩

/-- `useExternalStorage(smatrix&)` 1158–1161. -/
def useStorage (m : Mtx α) : View := ⟨0, m.rows, m.cols, m.emul, m.emul && m.holey, m.bir⟩

/-- `useExternalStorage_no_bias(smatrix&, cBeg, totCols)` 1164–1168. -/
def useStorageColsNoBias (m : Mtx α) (c n : Nat) : Option View :=
  if decide (c + n ≤ m.colsNoBias) && !(m.emul && m.bir) then some ⟨m.rows * c, m.rows, n, false, false, m.bir⟩ else none

/-- `get` of the new matrix, 1010–1014. -/
def View.get (w : View) (m : Mtx α) (r c : Nat) : Option α :=
  if r < w.rows ∧ c < w.cols then some (m.data (w.ofs + (r + w.rows * c))) else none

/-- `set` of the new matrix, 1005–1009: what it does to the storage of the old one. -/
def View.set (w : View) (m : Mtx α) (r c : Nat) (v : α) : Option (Mtx α) :=
  if r < w.rows ∧ c < w.cols then some { m with data := upd m.data (w.ofs + (r + w.rows * c)) v } else none

/-! ### Orthogonality -/

/-- The loops of `_mIsOrthogonal`, `mathn.h` 2746–2755; `far i j` is `abs(real_t(i==j) - ICand.get(i,j)) > epsV`. -/
def farRow (far : Nat → Nat → Bool) (r : Nat) : Nat → Nat → Bool
  | 0, _ => true
  | n + 1, c => if far r c then false else farRow far r n (c + 1)
def farLoop (far : Nat → Nat → Bool) (sz : Nat) : Nat → Nat → Bool
  | 0, _ => true
  | n + 1, r => if farRow far r sz 0 then farLoop far sz n (r + 1) else false

/-- `_mIsOrthogonal`, `mathn.h` 2727–2757; `junk` is what the memory of `ICand` contains (the allocation is taken to succeed). -/
def isOrthogonal (A : Mtx ℚ) (trans : Bool) (eps : ℚ) (junk : Nat → ℚ) : Option Bool :=
  let opArows := if trans then A.cols else A.rows
  let opAcols := if trans then A.rows else A.cols
  let ldab := if trans then opAcols else opArows
  match Gemm.gemm trans (!trans) opArows opArows opAcols 1 (Gemm.buf A) ldab (Gemm.buf A) ldab 0 ⟨junk, opArows * opArows⟩ opArows with
  | none => none
  | some I => some (farLoop (fun i j => decide (eps < |(if i = j then 1 else 0) - I (i + opArows * j)|)) opArows opArows 0)

end Nntl.MtxTest
