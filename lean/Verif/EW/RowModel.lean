import Verif.Grad.Kernels
import Verif.Kernel.RowModel
import Verif.Kernel.Reduce
/-! Model of the row-wise OR of binary matrices (`/repo/nntl/interface/math/smath.h`), of the counters of elements that are not zero, of the sum of
products and of the scaling of rows to a given norm (`/repo/nntl/interface/math/mathn.h`). -/
namespace Nntl.EW
open Nntl.Kernel Nntl.Matrix Nntl.Threads

/-! ### OR of rows -/

/-- A floating point number as its bits, the unsigned integer of the same width (`similar_FWI_t` _base.h:102-166). -/
structure Bits where
  val : Nat
  deriving DecidableEq

/-- The bits of `1`, `+0`, `-0` of a floating point type (`similar_FWI_one`, `similar_FWI_pos_zero`, `similar_FWI_neg_zero` _base.h:169-189). -/
structure FloatBits where
  one : Nat
  negZero : Nat

/-- `float` and `double` _base.h:102-166. -/
def float32 : FloatBits := ⟨0x3F800000, 0x80000000⟩
def float64 : FloatBits := ⟨0x3FF0000000000000, 0x8000000000000000⟩

/-- `_isBinary` smatrix.h:93-113 and 157-163: the assertion of `mrwOr`. -/
def isBinary (fb : FloatBits) (A : Mtx Bits) : Prop :=
  ∀ k, k < A.numel → A.data k = ⟨fb.one⟩ ∨ A.data k = ⟨0⟩ ∨ A.data k = ⟨fb.negZero⟩

/-- `_mrw_BinaryOR::op` smath.h:669-674. -/
def opOr (_ : Nat) (e v : Bits) : Bits := ⟨v.val ||| e.val⟩

/-- `mrwBinaryOR_st_cw` smath.h:1769-1779 on a range. -/
def orStCw (A : Mtx Bits) (cb ce rb re : Nat) : List (Step Bits) :=
  if A.cols = 1 ∨ cb = ce then copyFirst A cb rb re
  else setRange ⟨0⟩ rb re ++ mrwCw opOr A cb ce rb re

/-- `mrwBinaryOR_st_rw` smath.h:1760-1768 on a range (not used by the library itself). -/
def orStRw (A : Mtx Bits) (cb ce rb re : Nat) : List (Step Bits) :=
  if A.cols = 1 ∨ cb = ce then copyFirst A cb rb re
  else mrwRw id opOr (fun v _ => v) A cb ce rb re

/-- `mrwBinaryOR_st` smath.h:1735-1747: always by columns. -/
def orSt (A : Mtx Bits) (cb ce rb re : Nat) : List (Step Bits) :=
  if A.cols = 1 ∨ cb = ce then copyFirst A cb rb re else orStCw A cb ce rb re

/-- `mrwBinaryOR_mt_rw` smath.h:1780-1790. -/
def orMtRw (rs : List ParRange) (A : Mtx Bits) (m m' : Nat → Bits) : Prop :=
  if A.cols = 1 then m' = runSteps m (copyFirst A 0 0 A.rows) else Runs (.mt rs) A.rows (orSt A 0 A.cols) m m'

/-- `mrwBinaryOR_mt_cw` smath.h:1791-1800 with `_processMtx_cw` 868-900. -/
def orMtCw (rs : List ParRange) (perThread : Nat) (A : Mtx Bits) (m m' : Nat → Bits) : Prop :=
  ∃ (tmp0 : Nat → Bits) (w : List (Step Bits)),
    Interleaves (cwThreads rs A perThread fun cb ce => orSt A cb ce 0 A.rows) w ∧
    let fin := finMtx A (runSteps tmp0 w) (threadsUsed rs.length A.cols (threadsForCols perThread A.cols (rs.length + 1)))
    m' = runSteps m (orSt fin 0 fin.cols 0 fin.rows)

/-- The variants of the function a user can call, smath.h:1677-1718. -/
inductive OrCall where
  | default | st | stCw | stRw | mt | mtCw | mtRw

/-- `mrwOr` and `mrwOr_*` smath.h:1677-1718 with the functions `mrwBinaryOR*` 1725-1800 they call; `perThread` is
`mrwBinaryOR_mt_cw_colsPerThread`. The vector is `m`, `none` a violated assertion. -/
def mrwOr (fb : FloatBits) (call : OrCall) (rs : List ParRange) (perThread : Nat) (A : Mtx Bits) (m : Nat → Bits) (o : Option (Nat → Bits)) : Prop :=
  if A.empty = true ∨ A.numel = 0 then o = none
  else (¬ isBinary fb A ∧ o = none) ∨ (isBinary fb A ∧
    match call with
    | .default => if A.emul then o = none else o = some (runSteps m (orStCw A 0 A.cols 0 A.rows))
    | .st => o = some (runSteps m (orSt A 0 A.cols 0 A.rows))
    | .stCw => o = some (runSteps m (orStCw A 0 A.cols 0 A.rows))
    | .stRw => o = some (runSteps m (orStRw A 0 A.cols 0 A.rows))
    | .mt => ∃ m', o = some m' ∧
        if A.cols = 1 then m' = runSteps m (copyFirst A 0 0 A.rows)
        else if A.cols ≤ max perThread (rs.length + 1) then orMtRw rs A m m' else orMtCw rs perThread A m m'
    | .mtCw => if A.cols ≤ perThread then o = none else ∃ m', o = some m' ∧ orMtCw rs perThread A m m'
    | .mtRw => ∃ m', o = some m' ∧ orMtRw rs A m m')

/-! ### Counters -/

/-- `vCountNonZeros` mathn.h:1047-1057 (the counter has 64 bits and is taken as unbounded); `none`: assertion. -/
def vCountNonZeros {α : Type} [LT α] [DecidableLT α] [OfNat α 0] (v : Nat → α) (ne : Nat) : Option Nat :=
  if ne = 0 then none
  else some ((List.range ne).foldl (fun nz i => nz + ((if 0 < v i then 1 else 0) + (if v i < 0 then 1 else 0))) 0)

/-- `vCountNonZerosStrict` mathn.h:1060-1077: on bits, the counter is an unsigned integer of as many bits (`w`) as the floating point type has. -/
def vCountNonZerosStrict (w : Nat) (v : Nat → Bits) (ne : Nat) : Option Nat :=
  if ne = 0 then none
  else some ((List.range ne).foldl (fun nz i => (nz + (if 0 < (v i).val then 1 else 0)) % 2 ^ w) 0)

/-- `ewSumProd` smath.h:968-992. -/
def ewSumProd {R : Type} [CommRing R] (ex : Exec) (A B : Mtx R) : Option R :=
  if A.empty = true ∨ B.empty = true ∨ B.rows ≠ A.rows ∨ B.cols ≠ A.cols then none
  else some (reduceSum ex A.numel (sumLoop fun i => A.data i * B.data i))

/-! ### Scaling of rows to a norm -/

/-- What becomes of the elements: real numbers, or some of them are no numbers (a division by zero has happened). -/
inductive Scaled where
  | assertion
  | numbers (A : Mtx ℝ)
  | notANumber

/-- `mrwSetL2Norm` mathn.h:973-978, `mrwSetL2Norm_st` 985-1014, `mrwSetL2Norm_mt` 1016-1042. Norms and products are those of `Grad/Kernels.lean`,
`exs` and `cws` say how partial sums are added up there. The coefficient of a row of zeros is `sqrt(x/0)`, infinite, and its product with `0` is not a
number: outcome `notANumber`. -/
def mrwSetL2Norm (E : Grad.Env) (norm2 : ℝ) (inclBias : Bool) (A : Mtx ℝ) (o : Scaled) : Prop :=
  let st := decide (A.numel < E.thr .normRows)
  if A.empty = true ∨ ¬ 0 < norm2 then o = .assertion
  else match (if inclBias then some A else A.hideLastCol) with
  | none => o = .assertion
  | some B =>
    ∃ (exs : Exec) (cws : Bool) (v0 v d' : Nat → ℝ), (exs = .st ∨ exs = .mt E.rs) ∧ Grad.l2NormSquared E exs cws st B v0 v ∧
      match (if inclBias then some B else B.restoreLastCol) with
      | none => o = .assertion
      | some C =>
        ((∃ r, r < A.rows ∧ v r = 0) ∧ o = .notANumber) ∨
        ((∀ r, r < A.rows → v r ≠ 0) ∧
          Grad.mulByVec E st C (fun r => if r < A.rows then Real.sqrt (norm2 / v r) else v r) C.data d' ∧ o = .numbers { C with data := d' })

/-- `mrwSetL2Norm` for a matrix that cannot be deformed mathn.h:967-972: a deformable one is made over its memory. The flags come from the matrix. -/
def mrwSetL2NormMtx (E : Grad.Env) (norm2 : ℝ) (inclBias : Bool) (A : Mtx ℝ) (o : Scaled) : Prop :=
  if A.empty = true then o = .assertion
  else ∃ o', mrwSetL2Norm E norm2 inclBias { A with ext := true, maxSize := A.rows * A.cols } o' ∧
    o = match o' with
      | .numbers D => .numbers { A with data := D.data }
      | x => x

end Nntl.EW
