import Verif.Kernel.Each
import Verif.Kernel.Reduce
import Verif.Matrix.Model
import Verif.Act.LossModel

/-!
Operations on the columns of a matrix and sums over one triangle of a square matrix: `nntl/interface/math/smath.h` 250–500, 1076–1107,
1803–2010.

Simplifications. Numbers are real. A thread works through its columns one after another; a column is updated as one step, because no
other thread has anything to do with it. The kernels expect matrices without biases in the default layout (asserted in the code).
-/
namespace Nntl.Cols

open Nntl.Matrix
open Nntl.Kernel
open Nntl.Act (kahanStep)

/-! ### `_vec_apply_func` with the summing functors -/

/-- `_vec_sum`, `smath.h` 252–318, 408–415: the values are given to the functor one after another; `func_SUM` adds up plainly or, with
`bNumStab`, with compensation. -/
noncomputable def applySum (ns : Bool) (vs : List ℝ) : ℝ :=
  if ns then (vs.foldl kahanStep (0, 0)).1 else vs.foldl (· + ·) 0

/-- `func_SUMNZ`, `smath.h` 320–366: sum and number of the values that differ from the central one. -/
structure SumNz where
  ret : ℝ
  C : ℝ
  cnt : ℕ

open Classical in
/-- `op` of both variants, `smath.h` 332–337 and 352–363. -/
noncomputable def SumNz.op (ns : Bool) (cp : ℝ) (s : SumNz) (v : ℝ) : SumNz :=
  if ns then
    let b := v = cp
    let Y := v - s.C
    let T := s.ret + Y
    { ret := if b then s.ret else T, C := if b then s.C else T - s.ret - Y, cnt := s.cnt + (if b then 0 else 1) }
  else
    let b : Bool := !decide (v = cp)
    { ret := s.ret + (if b then 1 else 0) * v, C := s.C, cnt := s.cnt + b.toNat }

/-- The elements of column `c`. -/
def column (A : Mtx ℝ) (c : ℕ) : ℕ → ℝ := fun r => A.data (A.rows * c + r)

/-- The values of a column in order. -/
def colList (n : ℕ) (col : ℕ → ℝ) : List ℝ := (List.range n).map col

/-- The matrix after its columns have become `cs`. -/
noncomputable def withColumns (A : Mtx ℝ) (cs : ℕ → ℕ → ℝ) : Mtx ℝ :=
  { A with data := fun k => if k < A.rows * A.cols then cs (k / A.rows) (k % A.rows) else A.data k }

/-- `_imcwMean_st`, `smath.h` 1830–1847; `m` is the vector of means. -/
noncomputable def mcwMean (ex : Exec) (ns : Bool) (A : Mtx ℝ) (m m' : ℕ → ℝ) : Prop :=
  Runs ex A.cols (eachSteps fun c _ => applySum ns (colList A.rows (column A c)) / A.rows) m m'

/-- The body of `_imcwDeMean_st`, `smath.h` 1880–1888. -/
noncomputable def deMeanCol (ns : Bool) (n : ℕ) (_c : ℕ) (col : ℕ → ℝ) : ℕ → ℝ :=
  let mean := applySum ns (colList n col) / n
  fun i => if i < n then col i - mean else col i

/-- `mcwDeMean`, `smath.h` 1851–1889. -/
noncomputable def mcwDeMean (ex : Exec) (ns : Bool) (A A' : Mtx ℝ) : Prop :=
  ∃ cs, Runs ex A.cols (eachSteps (deMeanCol ns A.rows)) (column A) cs ∧ A' = withColumns A cs

open Classical in
/-- The body of `_imcwDeMeanNZ_st`, `smath.h` 1925–1949. If no element differs from the central one the quotient is `0/0`; it is not
used then. -/
noncomputable def deMeanNzCol (ns : Bool) (cp : ℝ) (n : ℕ) (_c : ℕ) (col : ℕ → ℝ) : ℕ → ℝ :=
  let s := (colList n col).foldl (SumNz.op ns cp) ⟨0, 0, 0⟩
  let mean := s.ret / s.cnt - cp
  fun i => if i < n then (if col i = cp then cp else col i - mean) else col i

/-- `mcwDeMeanNZ`, `smath.h` 1893–1951. -/
noncomputable def mcwDeMeanNZ (ex : Exec) (ns : Bool) (cp : ℝ) (A A' : Mtx ℝ) : Prop :=
  ∃ cs, Runs ex A.cols (eachSteps (deMeanNzCol ns cp A.rows)) (column A) cs ∧ A' = withColumns A cs

/-- `_mcwVecOperation_st` with `_mcwSUB_ip`, `smath.h` 765–799: the pointer into the vector starts at `colBegin`. -/
noncomputable def subSteps (n : ℕ) (v : ℕ → ℝ) (b e : ℕ) : List (Step (ℕ → ℝ)) :=
  (List.range (e - b)).map fun j => (b + j, fun col i => if i < n then col i - v (b + j) else col i)

/-- `mcwSub_ip`, `smath.h` 1955–1972. -/
noncomputable def mcwSubIp (ex : Exec) (A : Mtx ℝ) (v : ℕ → ℝ) (A' : Mtx ℝ) : Prop :=
  ∃ cs, Runs ex A.cols (subSteps A.rows v) (column A) cs ∧ A' = withColumns A cs

/-- `_imcwMulDiag_ip_st`, `smath.h` 1993–2017: the pointer into `B` starts at row and column `colBegin` and moves by `B.rows() + 1`. -/
noncomputable def mulDiagSteps (n : ℕ) (B : Mtx ℝ) (b e : ℕ) : List (Step (ℕ → ℝ)) :=
  (List.range (e - b)).map fun j => (b + j, fun col i => if i < n then col i * B.data (B.rows * b + b + j * (B.rows + 1)) else col i)

/-- `mcwMulDiag_ip`, `smath.h` 1977–2017. -/
noncomputable def mcwMulDiagIp (ex : Exec) (A B A' : Mtx ℝ) : Prop :=
  B.rows = B.cols ∧ A.cols = B.cols ∧
    ∃ cs, Runs ex A.cols (mulDiagSteps A.rows B) (column A) cs ∧ A' = withColumns A cs

/-! ### One triangle of a square matrix -/

/-- `triangl_coords_from_idx`, `nntl/interface/math/smatrix.h` 882–914. -/
def coords (lower : Bool) (n k : ℕ) : ℕ × ℕ := if lower then lowerCoords n k else upperCoords k

/-- `_vec_apply_func(ptr, cnt, F)`, `smath.h` 252–268: the addresses whose elements are given to the functor; the count is asserted to
be positive. -/
def visit (ptr cnt : ℕ) : Option (List ℕ) := if 0 < cnt then some (List.range' ptr cnt) else none

/-- The loop over the intermediate columns, `smath.h` 472–482. `cnt` columns are left; the state is (`ri`, `ci`). Result: the addresses
and the last `ri`. -/
def midLoop (lower : Bool) (n : ℕ) : ℕ → ℕ → ℕ → Option (List ℕ × ℕ)
  | 0, ri, _ => some ([], ri)
  | cnt + 1, ri, ci =>
    (visit (if lower then n * ci + ri else n * ci) (if lower then n - ri else ci)).bind fun l =>
      (midLoop lower n cnt (if lower then ri + 1 else ri) (ci + 1)).map fun r => (l ++ r.1, r.2)

/-- `_triang_apply_func_get_result`, `smath.h` 443–500: the addresses that are visited, in order, for the range `[b, e)` of indices in
the triangle. -/
def triangVisit (lower : Bool) (n b e : ℕ) : Option (List ℕ) :=
  let s := coords lower n b
  let t := coords lower n e
  let ri := s.1
  let ci := s.2
  let last : ℕ := if ci = t.2 then 1 else 0
  (visit (n * ci + ri) (if lower then n - ri - last * (n - t.1) else ci - ri - last * (ci - t.1))).bind fun l1 =>
  (midLoop lower n (t.2 - (ci + 1)) (if lower then ci + 2 else ri) (ci + 1)).bind fun m =>
  (if last = 1 then some []
   else if lower then (if t.1 > t.2 + 1 then visit (n * t.2 + m.2) (t.1 - m.2) else some [])
   else if t.1 > 0 then visit (n * t.2) t.1 else some []).map fun l3 => l1 ++ m.1 ++ l3

/-- The sum of squares that one call computes. -/
noncomputable def triangPart (lower ns : Bool) (A : Mtx ℝ) (b e : ℕ) : Option ℝ :=
  (triangVisit lower A.rows b e).map fun l => applySum ns (l.map fun k => A.data k * A.data k)

/-- `ewSumSquaresTriang`, `smath.h` 1079–1107; `none` if an assertion of one of the calls fails. -/
noncomputable def sumSquaresTriang (ex : Exec) (lower ns : Bool) (A : Mtx ℝ) : Option ℝ :=
  if A.rows = A.cols ∧ 1 < A.rows then
    ((ex.calls (numelTriangl A.rows)).mapM fun r => triangPart lower ns A r.1 r.2).map fun ps =>
      match ex with
      | .st => ps.headD 0
      | .mt _ => applySum ns ps
  else none

end Nntl.Cols
