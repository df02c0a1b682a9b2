import Verif.Kernel.RowProps
import Verif.Kernel.Elem
import Mathlib.Analysis.SpecialFunctions.Exp
/-! Softmax over exact real numbers.

Modelled: `nntl/interface/math/mathn.h` `_mrw_SOFTMAXPARTS` 75–119, `softmax_parts*` 158–196, `softmax*` 217–265;
`nntl/interface/math/smath.h` `mrwDivideByVec*` 1115–1150. Rounding and the limits of the floating point range are not modelled. The
temporary buffer (numerators, then maxima, then denominators) is modelled as three separate memories; that the parts do not overlap and
fit is `softmax_temp_layout`. -/
namespace Nntl.Num
open Nntl.Kernel Nntl.Matrix Nntl.Threads

/-- The matrix of the numerators that `op` computes, `nntl/interface/math/mathn.h` 85–97: `exp(elem − max of the row)`. -/
noncomputable def numerOf (A : Mtx ℝ) (mx : Nat → ℝ) : Mtx ℝ := { A with data := fun i => Real.exp (A.data i - mx (i % A.rows)) }

/-- `softmax_parts_st_cw` 171–175, what is done to the denominators: the rows are zeroed, then every numerator is added. -/
def softVec (N : Mtx ℝ) (cb ce rb re : Nat) : List (Step ℝ) := setRange 0 rb re ++ mrwCw opSum N cb ce rb re

/-- `softmax_parts_st_cw` 171–175, what is written to the numerators: `initOperation` 101–104 and `cw_toNextCol` 106–109 place the columns. -/
noncomputable def softNum (A : Mtx ℝ) (mx : Nat → ℝ) (cb ce rb re : Nat) : List (Nat × ℝ) :=
  (List.range' cb (ce - cb)).flatMap fun c =>
    (List.range' rb (re - rb)).map fun r => (A.rows * c + r, Real.exp (A.data (A.rows * c + r) - mx r))

/-- `softmax_parts_st` 163–165 and `softmax_parts_mt_rw` 181–185. -/
def softPartsByRows (ex : Exec) (A : Mtx ℝ) (mx den num den' num' : Nat → ℝ) : Prop :=
  Runs ex A.rows (softVec (numerOf A mx) 0 A.cols) den den' ∧ Outcome (ex.writes A.rows (softNum A mx 0 A.cols)) num num'

/-- `softmax_parts_mt_cw` 188–196: every thread has its own vector of partial denominators; `mrwSum_ip` adds them up. -/
def softPartsMtCw (rs : List ParRange) (per : Nat) (exs : Exec) (cws : Bool) (A : Mtx ℝ) (mx den num den' num' : Nat → ℝ) : Prop :=
  ∃ w : List (Step ℝ), Interleaves (cwThreads rs A per fun cb ce => softVec (numerOf A mx) cb ce 0 A.rows) w ∧
    mrwSumIp exs cws (finMtx A (runSteps den w) (threadsUsed rs.length A.cols (threadsForCols per A.cols (rs.length + 1)))) den' ∧
    Outcome ((runCalls rs A.cols (threadsForCols per A.cols (rs.length + 1))).flatMap fun pr => softNum A mx pr.offset (pr.offset + pr.cnt) 0 A.rows)
      num num'

/-- The thresholds `Thresholds_t::` used here. -/
structure Thr where
  softmax : Nat
  parts : Nat
  partsColsPerThread : Nat
  partsRows : Nat
  rowMax : Nat
  divide : Nat
  divideRw : Nat
  divideMtRows : Nat

/-- `softmax_parts` 158–162, `softmax_parts_mt` 176–180. `exs`, `cws`: how `mrwSum_ip` is done. -/
def softmaxParts (t : Thr) (rs : List ParRange) (exs : Exec) (cws : Bool) (A : Mtx ℝ) (mx den num den' num' : Nat → ℝ) : Prop :=
  if A.numel < t.parts then softPartsByRows .st A mx den num den' num'
  else if A.cols ≤ t.partsColsPerThread ∨ A.rows > t.partsRows then softPartsByRows (.mt rs) A mx den num den' num'
  else softPartsMtCw rs t.partsColsPerThread exs cws A mx den num den' num'

/-- `mrwDivideByVec` `nntl/interface/math/smath.h` 1115–1119, `_st` 1120–1125, `_mt` 1126–1130. -/
noncomputable def divideByVec (t : Thr) (rs : List ParRange) (A : Mtx ℝ) (den : Nat → ℝ) (d d' : Nat → ℝ) : Prop :=
  ElemRuns (if A.numel < t.divide then .byRows .st else if A.rows < t.divideMtRows then .byCols (.mt rs) else .byRows (.mt rs))
    (decide (A.numel < t.divideRw)) (fun r _ v => v / den r) A.rows A.cols d d'

/-- `softmax` 217–221, `softmax_st` 222–242, `softmax_mt` 243–265. `mx`, `den`, `num` are what is in the temporary buffer in the end. -/
noncomputable def softmax (t : Thr) (rs : List ParRange) (exs : Exec) (cws : Bool) (A A' : Mtx ℝ) (mx den num : Nat → ℝ) : Prop :=
  ∃ B b, A.hideBiases = some (B, b) ∧ ∃ (mx0 den0 num0 d : Nat → ℝ),
    mrwMax (if A.numel < t.softmax ∨ B.numel < t.rowMax then .st else .mt rs) B mx0 mx ∧
    (if A.numel < t.softmax then softPartsByRows .st B mx den0 num0 den num else softmaxParts t rs exs cws B mx den0 num0 den num) ∧
    divideByVec t rs B den (copyN B.data num B.numel) d ∧
    ({ B with data := d }).restoreBiases b = some A'

/-- Addresses in the temporary buffer, 228–231: numerators, maxima, denominators; `workers` is the number of threads. -/
def tmpNum : Nat := 0
def tmpMax (rows cols : Nat) : Nat := tmpNum + rows * cols
def tmpDen (rows cols : Nat) : Nat := tmpMax rows cols + rows
/-- `___softmax_needTempMem` 202–211. -/
def softmaxNeed (rows cols workers : Nat) : Nat := rows * (cols + 1 + workers)

end Nntl.Num
