import Verif.Matrix.Model
import Mathlib.Algebra.BigOperators.Group.Finset.Basic
import Mathlib.Algebra.Ring.Defs

/-!
The matrix products of `nntl/interface/math/mathn.h` (2378–2665): how the library turns matrices with biases and two
layouts into calls of the column-major BLAS.

Simplifications. Numbers are exact: the elements belong to a commutative ring, so the order in which BLAS adds does not matter.
The BLAS routines themselves are not code of the library: `gemm`, `syrk` are their contract, as written in the comments of
`nntl/interface/math/bindings/b_open_blas.h` 140–227. A call that breaks the contract (a leading dimension that is too small, a
read or a write past the end of a buffer) has the outcome `none`, and so has a call that violates an `NNTL_ASSERT`.
`assert_storage_does_not_intersect` holds by construction: the destination is a separate value.
-/
namespace Nntl.Gemm

open Nntl.Matrix
open Finset

variable {α : Type}

/-- What a pointer passed to BLAS points to: the contents and the number of elements that may be addressed. -/
structure Buf (α : Type) where
  at_ : Nat → α
  cap : Nat

/-- An array that is read or written as `rows × cols` with the leading dimension `ld` lies inside its buffer and `ld` is at least
`max(1, rows)`. `b_open_blas.h` 140–167. -/
def fits (rows cols ld cap : Nat) : Bool :=
  decide (1 ≤ ld) && decide (rows ≤ ld) &&
    (decide (rows = 0) || decide (cols = 0) || decide (rows - 1 + ld * (cols - 1) < cap))

/-- `op(X)(r, c)` of a column-major array, `b_open_blas.h` 140–167. -/
def op (t : Bool) (X : Nat → α) (ld r c : Nat) : α := if t then X (c + ld * r) else X (r + ld * c)

variable [CommRing α]

/-- `gemm`, `b_open_blas.h` 168–193: `C := alpha*op(A)*op(B) + beta*C`, where `op(A)` is `M × K`, `op(B)` is `K × N`. -/
def gemm (tA tB : Bool) (M N K : Nat) (alpha : α) (A : Buf α) (lda : Nat) (B : Buf α) (ldb : Nat) (beta : α) (C : Buf α) (ldc : Nat) :
    Option (Nat → α) :=
  if fits (if tA then K else M) (if tA then M else K) lda A.cap && fits (if tB then N else K) (if tB then K else N) ldb B.cap
      && fits M N ldc C.cap then
    some fun k =>
      if k % ldc < M ∧ k / ldc < N then
        alpha * (∑ l ∈ range K, op tA A.at_ lda (k % ldc) l * op tB B.at_ ldb l (k / ldc)) + beta * C.at_ k
      else C.at_ k
  else none

/-- `syrk`, `b_open_blas.h` 207–227: `C := alpha*op(A)*op(A)' + beta*C`; `op(A)` is `N × K`; only one triangle of `C` is touched. -/
def syrk (lower tA : Bool) (N K : Nat) (alpha : α) (A : Buf α) (lda : Nat) (beta : α) (C : Buf α) (ldc : Nat) : Option (Nat → α) :=
  if fits (if tA then K else N) (if tA then N else K) lda A.cap && fits N N ldc C.cap then
    some fun k =>
      if k % ldc < N ∧ k / ldc < N ∧ (if lower then k / ldc ≤ k % ldc else k % ldc ≤ k / ldc) then
        alpha * (∑ l ∈ range K, op tA A.at_ lda (k % ldc) l * op tA A.at_ lda (k / ldc) l) + beta * C.at_ k
      else C.at_ k
  else none

/-- `data()` of a matrix. -/
def buf (m : Mtx α) : Buf α := ⟨m.data, m.cap⟩

/-- `rows(bNoBias)`, `smatrix.h` 813–821: without the row of biases if asked for. -/
def rowsB (m : Mtx α) (noBias : Bool) : Nat := m.rows - (noBias && m.emul && m.bir).toNat
/-- `cols(bNoBias)`, `smatrix.h` 800–808: without the column of biases if asked for. -/
def colsB (m : Mtx α) (noBias : Bool) : Nat := m.cols - (noBias && m.emul && !m.bir).toNat

/-- `mMulAB_C`, `mathn.h` 2380–2397. -/
def mMulABC (A B C : Mtx α) : Option (Mtx α) :=
  if A.cols = B.rows ∧ A.rows = C.rows ∧ B.cols = C.cols then
    (gemm false false A.rows C.cols A.cols 1 (buf A) A.rows (buf B) B.rows 0 (buf C) C.rows).map fun d => { C with data := d }
  else none

/-- `mMulABt_Cnb`, `mathn.h` 2400–2418. -/
def mMulABtCnb (A B C : Mtx α) : Option (Mtx α) :=
  let ccols := C.colsNoBias
  if A.cols = B.cols ∧ A.rows = C.rows ∧ B.rows = ccols then
    (gemm false true A.rows ccols A.cols 1 (buf A) A.rows (buf B) ccols 0 (buf C) C.rows).map fun d => { C with data := d }
  else none

/-- `mScaledMulAtB_C`, `mathn.h` 2421–2446. -/
def mScaledMulAtBC (alpha : α) (A B C : Mtx α) : Option (Mtx α) :=
  let acols := A.cols
  let arows := A.rows
  if arows = B.rows ∧ acols = C.rows ∧ B.cols = C.cols then
    (gemm true false acols B.cols arows alpha (buf A) arows (buf B) arows 0 (buf C) acols).map fun d => { C with data := d }
  else none

/-- `mMul_prevAct_weights_2_act`, `mathn.h` 2453–2527. -/
def mMulPrevActWeights (prevAct weights act : Mtx α) : Option (Mtx α) :=
  if prevAct.emul ∧ ¬ weights.emul ∧ ¬ weights.bir ∧ prevAct.sampleSize + 1 = weights.cols ∧ act.sampleSize = weights.rows ∧
      prevAct.batchSize = act.batchSize then
    let aBir := act.bir
    let t1 := if aBir then false else prevAct.bir
    let t2 := if aBir then !prevAct.bir else true
    let p1 := if aBir then weights else prevAct
    let p2 := if aBir then prevAct else weights
    (gemm t1 t2 (rowsB act aBir) (colsB act (!aBir)) weights.cols 1 (buf p1) p1.rows (buf p2) p2.rows 0 (buf act) act.rows).map
      fun d => { act with data := d }
  else none

/-- `mMul_dLdZ_weights_2_dLdAPrev`, `mathn.h` 2538–2588. Result: the weights (whose header is changed for the time of the call) and
the destination. -/
def mMulDLdZWeights (dLdZ weights dLdAPrev : Mtx α) : Option (Mtx α × Mtx α) :=
  if ¬ weights.bir ∧ ¬ dLdZ.bir ∧ dLdAPrev.sampleSize + 1 = weights.cols ∧ dLdZ.sampleSize = weights.rows ∧
      dLdAPrev.batchSize = dLdZ.batchSize ∧ ¬ dLdZ.emul ∧ ¬ weights.emul ∧ ¬ dLdAPrev.emul then
    weights.hideLastCol.bind fun w =>
    let t := dLdAPrev.bir
    let p1 := if t then w else dLdZ
    let p2 := if t then dLdZ else w
    (gemm t t dLdAPrev.rows dLdAPrev.cols dLdZ.sampleSize 1 (buf p1) p1.rows (buf p2) p2.rows 0 (buf dLdAPrev) dLdAPrev.rows).bind
      fun d => w.restoreLastCol.map fun w' => (w', { dLdAPrev with data := d })
  else none

/-- `mMulScaled_dLdZ_prevAct_2_dLdW`, `mathn.h` 2599–2636. Nothing checks that `prevAct` has biases. -/
def mMulScaledDLdZPrevAct (sc : α) (dLdZ prevAct dLdW : Mtx α) : Option (Mtx α) :=
  if ¬ dLdW.bir ∧ ¬ dLdZ.bir ∧ prevAct.sampleSize + 1 = dLdW.cols ∧ dLdZ.sampleSize = dLdW.rows ∧
      prevAct.batchSize = dLdZ.batchSize then
    (gemm true prevAct.bir dLdW.rows dLdW.cols dLdZ.batchSize sc (buf dLdZ) dLdZ.rows (buf prevAct) prevAct.rows 0
      (buf dLdW) dLdW.rows).map fun d => { dLdW with data := d }
  else none

/-- `mColumnsCov`, `mathn.h` 2645–2665; `inv n` is `real_t(1.)/real_t(n)`. -/
def mColumnsCov (inv : Nat → α) (lower : Bool) (A C : Mtx α) : Option (Mtx α) :=
  if 1 < A.cols ∧ C.rows = A.cols ∧ C.cols = A.cols then
    (syrk lower true A.cols A.rows (inv A.rows) (buf A) A.rows 0 (buf C) A.cols).map fun d => { C with data := d }
  else none

end Nntl.Gemm
