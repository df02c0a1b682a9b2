import Verif.Kernel.Each
import Verif.Matrix.Model
/-! Model of the element-wise operations of `nntl/interface/math/mathn.h` (line numbers without a file are of this file). Nothing is assumed about the
arithmetic of the elements, so the model is meant for floating point numbers as well; what is modelled is which elements are
combined, and that on any number of threads. Matrices of one operation are different objects with storages that do not overlap. The variant (`_st`
or `_mt`) that the threshold selects is `ex`. An outcome `none` is a violated assertion. -/
namespace Nntl.EW
open Nntl.Kernel Nntl.Matrix
variable {α β : Type}

/-! ### Operations with constants -/

/-- `_universal_range_BiR_aware` smatrix.h:1272-1277. -/
def universalRange (A : Mtx α) (ib : Bool) : Nat :=
  if ib && A.bir && A.emul then A.cols else if A.bir then A.numel else if ib then A.numelNoBias else A.numel

/-- The loop `while (pA != pAE)` over a vector: `vMulCAddC_ip_st` 1562-1571, `vMulC_ip_st` 1637-1643, `vAddC_ip_st` 1818-1824. -/
def vecSteps (f : α → α) (p pE : Nat) : List (Step α) := eachSteps (fun _ => f) p pE

/-- The loop over columns with a row of biases: 1616-1621, 1702-1707, 1864-1869. -/
def colLoop (f : α → α) (rowsNb p pE : Nat) : List (Step α) :=
  if p < pE then vecSteps f p (p + rowsNb) ++ colLoop f rowsNb (p + rowsNb + 1) pE else []
termination_by pE - p

/-- `_ievMulCAddC_ip_st` 1607-1626, `_ievMulC_ip_st` 1694-1712, `_ievAddC_ip_st` 1856-1874. -/
def constSteps (f : α → α) (A : Mtx α) (ib : Bool) (b e : Nat) : List (Step α) :=
  if ib && A.bir && A.emul then colLoop f (A.rows - 1) (A.rows * b) (A.rows * e) else vecSteps f b e

/-- A kernel on `cnt` items of a matrix. -/
def onMtx (ex : Exec) (cnt : Nat) (kernel : Nat → Nat → List (Step α)) (A : Mtx α) (o : Option (Mtx α)) : Prop :=
  ∃ d, Runs ex cnt kernel A.data d ∧ o = some { A with data := d }

/-- The assertions (1578-1580, 1669-1670, 1830-1831) and the work. -/
def constOp (ex : Exec) (f : α → α) (A : Mtx α) (ib : Bool) (o : Option (Mtx α)) : Prop :=
  if A.empty || !(ib || !A.emul) then o = none else onMtx ex (universalRange A ib) (constSteps f A ib) A o

/-- `evMulCAddC_ip` 1577-1605. -/
def evMulCAddC_ip [Mul α] [Add α] [OfNat α 0] [DecidableEq α] (ex : Exec) (A : Mtx α) (sc ofs : α) (ib : Bool) (o : Option (Mtx α)) : Prop :=
  if sc = 0 then o = none else constOp ex (fun v => sc * v + ofs) A ib o

/-- `evMulCAddC_ip_nb` 1587-1589. -/
def evMulCAddC_ip_nb [Mul α] [Add α] [OfNat α 0] [DecidableEq α] (ex : Exec) (A : Mtx α) (sc ofs : α) (o : Option (Mtx α)) : Prop :=
  evMulCAddC_ip ex A sc ofs true o

/-- `evMulC_ip` 1668-1692. -/
def evMulC_ip [Mul α] [OfNat α 0] [DecidableEq α] (ex : Exec) (A : Mtx α) (c : α) (ib : Bool) (o : Option (Mtx α)) : Prop :=
  if c = 0 then o = none else constOp ex (fun v => v * c) A ib o

/-- `evMulC_ip_nb` 1676-1678. -/
def evMulC_ip_nb [Mul α] [OfNat α 0] [DecidableEq α] (ex : Exec) (A : Mtx α) (c : α) (o : Option (Mtx α)) : Prop := evMulC_ip ex A c true o

/-- `evAddC_ip` 1829-1854. -/
def evAddC_ip [Add α] (ex : Exec) (A : Mtx α) (c : α) (ib : Bool) (o : Option (Mtx α)) : Prop := constOp ex (fun v => v + c) A ib o

/-- `evAddC_ip_nb` 1838-1840. -/
def evAddC_ip_nb [Add α] (ex : Exec) (A : Mtx α) (c : α) (o : Option (Mtx α)) : Prop := evAddC_ip ex A c true o

/-! ### Operations with another matrix of the same size -/

/-- `while (pA != pAE) *pA++ = f(*pA, *pB++)` over all elements, after the assertion that the sizes are equal. -/
def zipAll (ex : Exec) (f : α → β → α) (A : Mtx α) (B : Mtx β) (o : Option (Mtx α)) : Prop :=
  if A.empty || B.empty || !(A.rows == B.rows && A.cols == B.cols) then o = none
  else onMtx ex A.numel (eachSteps fun k v => f v (B.data k)) A o

/-- `math::sign` nntl/interface/math/_base.h:97-99. -/
def sign [LT α] [DecidableLT α] [OfNat α 0] (v : α) : Int := (if 0 < v then 1 else 0) - (if v < 0 then 1 else 0)

/-- `evMul_ip` 1757-1796. -/
def evMul_ip [Mul α] (ex : Exec) (A B : Mtx α) := zipAll ex (fun a b => a * b) A B
/-- `evAdd_ip` 1921-1935. -/
def evAdd_ip [Add α] (ex : Exec) (A B : Mtx α) := zipAll ex (fun a b => a + b) A B
/-- `evSub_ip` 2154-2182. -/
def evSub_ip [Sub α] (ex : Exec) (A B : Mtx α) := zipAll ex (fun a b => a - b) A B
/-- `evAddScaled_ip` 1956-1980. -/
def evAddScaled_ip [Add α] [Mul α] [OfNat α 0] [DecidableEq α] (ex : Exec) (A : Mtx α) (c : α) (B : Mtx α) (o : Option (Mtx α)) : Prop :=
  if c = 0 then o = none else zipAll ex (fun a b => a + c * b) A B o
/-- `evNZAddScaled_ip` 1984-2013. -/
def evNZAddScaled_ip [Add α] [Mul α] [OfNat α 0] [DecidableEq α] (ex : Exec) (A : Mtx α) (c : α) (B : Mtx α) (o : Option (Mtx α)) : Prop :=
  if c = 0 then o = none else zipAll ex (fun a b => if a = 0 then 0 else a + c * b) A B o
/-- `evAddScaledSign_ip` 2018-2043. -/
def evAddScaledSign_ip [Add α] [Mul α] [LT α] [DecidableLT α] [IntCast α] [OfNat α 0] [DecidableEq α] (ex : Exec) (A : Mtx α) (c : α) (B : Mtx α)
    (o : Option (Mtx α)) : Prop := if c = 0 then o = none else zipAll ex (fun a b => a + c * (sign b : α)) A B o
/-- `evNZAddScaledSign_ip` 2045-2067. -/
def evNZAddScaledSign_ip [Add α] [Mul α] [LT α] [DecidableLT α] [IntCast α] [OfNat α 0] [DecidableEq α] (ex : Exec) (A : Mtx α) (c : α) (B : Mtx α)
    (o : Option (Mtx α)) : Prop := if c = 0 then o = none else zipAll ex (fun a b => if a = 0 then 0 else a + c * (sign b : α)) A B o
/-- `evSign` 2072-2091. -/
def evSign [LT α] [DecidableLT α] [IntCast α] [OfNat α 0] (ex : Exec) (A B : Mtx α) := zipAll ex (fun _ b => (sign b : α)) A B
/-- `evSquare` 2248-2277 (`A` is the destination). -/
def evSquare [Mul α] (ex : Exec) (A B : Mtx α) := zipAll ex (fun _ b => b * b) A B
/-- `evAbs` 2323-2346 (`A` is the destination). -/
def evAbs (abs : α → α) (ex : Exec) (A B : Mtx α) := zipAll ex (fun _ b => abs b) A B
/-- `evSub` 2186-2207: `C = A − B`. -/
def evSub [Sub α] (ex : Exec) (A B C : Mtx α) (o : Option (Mtx α)) : Prop :=
  if !(A.rows == B.rows && A.cols == B.cols && A.rows == C.rows && A.cols == C.cols) then o = none
  else onMtx ex A.numel (eachSteps fun k _ => A.data k - B.data k) C o

/-! ### Operations with another matrix, biases of the first one left out -/

/-- The same over `B.numel()` elements, after the assertion `A.size_no_bias() == B.size()`. -/
def zipNb (ex : Exec) (f : α → β → α) (A : Mtx α) (B : Mtx β) (o : Option (Mtx α)) : Prop :=
  if A.empty || B.empty || !(A.rowsNoBias == B.rows && A.colsNoBias == B.cols) then o = none
  else onMtx ex B.numel (eachSteps fun k v => f v (B.data k)) A o

/-- `evMul_ip_Anb` 1799-1813. -/
def evMul_ip_Anb [Mul α] (ex : Exec) (A B : Mtx α) := zipNb ex (fun a b => a * b) A B
/-- `evAdd_Anb_ip` 1938-1952. -/
def evAdd_Anb_ip [Add α] (ex : Exec) (A B : Mtx α) := zipNb ex (fun a b => a + b) A B
/-- `evSubMtxMulC_ip_nb` 1716-1752; `numel_no_bias` asserts the default layout (smatrix.h:856-858). -/
def evSubMtxMulC_ip_nb [Sub α] [Mul α] [OfNat α 0] [DecidableEq α] (ex : Exec) (A M : Mtx α) (c : α) (o : Option (Mtx α)) : Prop :=
  if c = 0 || (A.emul && A.bir) then o = none else zipNb ex (fun a b => (a - b) * c) A M o
/-- `apply_dropout_mask` 1248-1276. The assertions about the probability and the random values are left out. -/
def apply_dropout_mask [Mul α] [LT α] [DecidableLT α] [OfNat α 0] [OfNat α 1] (ex : Exec) (A : Mtx α) (p : α) (mask : Mtx α) :=
  zipNb ex (fun a b => a * (if b < p then 1 else 0)) A mask

/-- `evOneCompl` 2096-2149, with the assertions about the elements of the gate (2137, 2139). -/
def evOneCompl [Sub α] [OfNat α 0] [OfNat α 1] [DecidableEq α] (ex : Exec) (gate gcompl : Mtx α) (o : Option (Mtx α)) : Prop :=
  if gate.empty || gcompl.empty || (gate.emul && gate.bir) || !(gate.rowsNoBias == gcompl.rowsNoBias && gate.colsNoBias == gcompl.colsNoBias)
  || !((List.range gate.numelNoBias).all fun k => decide ((gate.data k = 1 ∨ gate.data k = 0) ∧ (1 - gate.data k = 1 ∨ 1 - gate.data k = 0)))
  then o = none else onMtx ex gate.numelNoBias (eachSteps fun k _ => 1 - gate.data k) gcompl o

/-! ### One matrix -/

/-- `evClamp` 1164-1187, `boost::algorithm::clamp` being `v < lo ? lo : hi < v ? hi : v`. All elements. -/
def evClamp [LT α] [DecidableLT α] (ex : Exec) (A : Mtx α) (lo hi : α) (o : Option (Mtx α)) : Prop :=
  if A.empty || A.numel == 0 || !decide (lo < hi) then o = none
  else onMtx ex A.numel (eachSteps fun _ v => if v < lo then lo else if hi < v then hi else v) A o

/-- `ewBinarize_ip` 274-302 where the value of the assignment `*pA++ = *pA > frac ? uBnd : lBnd` (290) is computed before the pointer is advanced, as
C++17 prescribes. -/
def ewBinarize_ip [LT α] [DecidableLT α] (ex : Exec) (A : Mtx α) (frac l u : α) (o : Option (Mtx α)) : Prop :=
  if A.empty || (A.emul && A.bir) then o = none
  else onMtx ex A.numelNoBias (eachSteps fun _ v => if frac < v then u else l) A o

/-- The loop 287-291 on one thread where the left side is evaluated first, which C++14 (the language of the library, README.md:85) does not forbid (it
leaves the behaviour undefined): the element read is the one after the element written. `none`: memory that does not belong to the matrix is read. -/
def binarizeLeftFirst [LT α] [DecidableLT α] (cap : Nat) (frac l u : α) : Nat → Nat → (Nat → α) → Option (Nat → α)
  | 0, _, d => some d
  | n + 1, p, d => if p + 1 < cap then binarizeLeftFirst cap frac l u n (p + 1) (upd d p (if frac < d (p + 1) then u else l)) else none

/-- `ewBinarize_ip_st` 280-284 with that order. -/
def ewBinarize_ip_leftFirst [LT α] [DecidableLT α] (A : Mtx α) (frac l u : α) : Option (Mtx α) :=
  (binarizeLeftFirst A.cap frac l u A.numelNoBias 0 A.data).map fun d => { A with data := d }

end Nntl.EW
