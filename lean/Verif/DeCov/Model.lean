import Verif.Cols.Model
import Verif.Gemm.Model
import Mathlib.Data.Real.Basic

/-!
The DeCov regulariser: `loss_deCov`, `dLoss_deCov`, `dLoss_deCov_ip` of `nntl/interface/math/mathn.h` 5036–5175 and the loss addendum
`nntl/loss_addendum/DeCov.h` with its base `nntl/loss_addendum/_i_loss_addendum.h`.

Simplifications. Numbers are real. Temporary storage (`_istor_alloc`) is a fresh buffer with arbitrary contents; that the allocator
delivers separate buffers is the subject of C38. `symm` is the contract of the BLAS routine. Each kernel may run in one thread or in
many, independently of the others.
-/
namespace Nntl.DeCov

open Nntl.Matrix
open Nntl.Kernel
open Finset

/-- How each of the kernels is executed. -/
structure How where
  mean : Exec
  sum : Exec
  diag : Exec
  add : Exec

/-- The thread pool has sane ranges whenever it is used. -/
def How.Ok (H : How) : Prop := H.mean.Ok ∧ H.sum.Ok ∧ H.diag.Ok ∧ H.add.Ok

/-- Element `(r, c)` of a symmetric matrix of which one triangle is stored. -/
def symAt (lower : Bool) (A : ℕ → ℝ) (lda r c : ℕ) : ℝ :=
  if (if lower then c ≤ r else r ≤ c) then A (r + lda * c) else A (c + lda * r)

/-- `symm` with the symmetric matrix on the right, `nntl/interface/math/bindings/b_open_blas.h` 228–262:
`C := alpha*B*A + beta*C`, `A` is `N × N`, `B` and `C` are `M × N`. -/
noncomputable def symmRight (lower : Bool) (M N : ℕ) (alpha : ℝ) (A : Gemm.Buf ℝ) (lda : ℕ) (B : Gemm.Buf ℝ) (ldb : ℕ) (beta : ℝ)
    (C : Gemm.Buf ℝ) (ldc : ℕ) : Option (ℕ → ℝ) :=
  if Gemm.fits N N lda A.cap && Gemm.fits M N ldb B.cap && Gemm.fits M N ldc C.cap then
    some fun k =>
      if k % ldc < M ∧ k / ldc < N then
        alpha * (∑ l ∈ range N, B.at_ (k % ldc + ldb * l) * symAt lower A.at_ lda l (k / ldc)) + beta * C.at_ k
      else C.at_ k
  else none

/-- A matrix over a temporary buffer: constructors `smatrix.h` 361–395. -/
def scratch (junk : ℕ → ℝ) (rows cols : ℕ) : Mtx ℝ :=
  { data := junk, cap := rows * cols, rows := rows, cols := cols, emul := false, ext := true, holey := false, bir := false,
    maxSize := rows * cols }

/-- The first half of both functions, `mathn.h` 5064–5086 and 5130–5145: a copy without biases, centred, and the covariances of its
columns. `jd`, `jc` are the former contents of the temporary buffers. -/
noncomputable def Centred (H : How) (lower ns : Bool) (jd jc : ℕ → ℝ) (V DM C : Mtx ℝ) : Prop :=
  ∃ D, V.cloneToNoBias (scratch jd V.rows V.colsNoBias) (fun _ => 0) true = some (D, true) ∧ Cols.mcwDeMean H.mean ns D DM ∧
    Gemm.mColumnsCov (fun n => 1 / (n : ℝ)) lower DM (scratch jc DM.cols DM.cols) = some C

/-- `loss_deCov`, `mathn.h` 5058–5099; `x` is the returned value. -/
noncomputable def lossDeCov (H : How) (lower ns : Bool) (jd jc : ℕ → ℝ) (V : Mtx ℝ) (x : ℝ) : Prop :=
  ¬ (V.emul ∧ V.holey) ∧ 1 < V.colsNoBias ∧
  ∃ DM C s, Centred H lower ns jd jc V DM C ∧ Cols.sumSquaresTriang H.sum lower ns C = some s ∧ x = s / ((V.colsNoBias - 1 : ℕ) : ℝ)

/-- `dLoss_deCov_ip`, `mathn.h` 5124–5175. -/
noncomputable def dLossDeCovIp (H : How) (lower ns : Bool) (jd jc : ℕ → ℝ) (scale : ℝ) (V V' : Mtx ℝ) : Prop :=
  ¬ V.emul ∧
  ∃ DM C V1 V2 d, Centred H lower ns jd jc V DM C ∧
    DM.cloneTo V (fun _ => 0) true = some (V1, true) ∧ Cols.mcwMulDiagIp H.diag V1 C V2 ∧
    symmRight lower V.rows V.cols (2 * scale / ((V.rows * V.cols - V.rows : ℕ) : ℝ)) (Gemm.buf C) V.cols (Gemm.buf DM) V.rows
      (-(2 * scale / ((V.rows * V.cols - V.rows : ℕ) : ℝ))) (Gemm.buf V2) V.rows = some d ∧ V' = { V2 with data := d }

/-- `dLoss_deCov`, `mathn.h` 5101–5117. `dest` is the object the gradient is stored into. -/
noncomputable def dLossDeCov (H : How) (lower ns : Bool) (jd jc : ℕ → ℝ) (scale : ℝ) (V dest dest' : Mtx ℝ) : Prop :=
  V.colsNoBias = dest.cols ∧ V.rows = dest.rows ∧ ¬ (V.emul ∧ V.holey) ∧ 1 < V.colsNoBias ∧ ¬ dest.emul ∧
  ∃ d1, V.cloneToNoBias dest (fun _ => 0) true = some (d1, true) ∧ dLossDeCovIp H lower ns jd jc scale d1 dest'

/-- `DeCov<..>` with its template parameters and its state: `m_scale` and, for `bCalcOnFProp`, `m_Mtx`. -/
structure Addendum where
  ns : Bool
  lower : Bool
  nz : Bool
  scale : ℝ

/-- `DeCov::lossAdd`, `DeCov.h` 73–78. -/
noncomputable def Addendum.lossAdd (a : Addendum) (H : How) (jd jc : ℕ → ℝ) (V : Mtx ℝ) (x : ℝ) : Prop :=
  ¬ V.emul ∧ ∃ y, lossDeCov H a.lower a.ns jd jc V y ∧ x = a.scale * y

open Classical in
/-- `_appendGradient`, `_i_loss_addendum.h` 152–160, with `evAddScaled_ip`, `mathn.h` 1956–1980, or `evNZAddScaled_ip` 1984–2014. -/
noncomputable def Addendum.append (a : Addendum) (H : How) (G N G' : Mtx ℝ) : Prop :=
  G.rows = N.rows ∧ G.cols = N.cols ∧
  ∃ d, Runs H.add (G.rows * G.cols)
    (eachSteps fun i v => if a.nz then (if v = 0 then 0 else v + a.scale * N.data i) else v + a.scale * N.data i) G.data d ∧
  G' = { G with data := d }

/-- `DeCov::on_fprop`, `DeCov.h` 80–85: the gradient of the addendum is kept in `m_Mtx`. -/
noncomputable def Addendum.onFprop (a : Addendum) (H : How) (jd jc jm : ℕ → ℝ) (V M : Mtx ℝ) : Prop :=
  ¬ V.emul ∧ dLossDeCov H a.lower a.ns jd jc 1 V (scratch jm V.rows V.cols) M

/-- `DeCov::dLossAdd` for `bCalcOnFProp`, `DeCov.h` 88–97. -/
noncomputable def Addendum.dLossAddStored (a : Addendum) (H : How) (M V G G' : Mtx ℝ) : Prop :=
  ¬ V.emul ∧ ¬ G.emul ∧ M.rows = V.rows ∧ M.cols = V.cols ∧ V.rows = G.rows ∧ V.cols = G.cols ∧ a.append H G M G'

/-- `DeCov::dLossAdd` without `bCalcOnFProp`, `DeCov.h` 101–119; `jm` is the former contents of the buffer for the gradient. -/
noncomputable def Addendum.dLossAdd (a : Addendum) (H : How) (jd jc jm : ℕ → ℝ) (V G G' : Mtx ℝ) : Prop :=
  ¬ V.emul ∧ ¬ G.emul ∧ ∃ N, dLossDeCov H a.lower a.ns jd jc 1 V (scratch jm G.rows G.cols) N ∧ a.append H G N G'

end Nntl.DeCov
