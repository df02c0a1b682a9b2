import Verif.Kernel.Rmw
import Mathlib.Order.Defs.LinearOrder
import Mathlib.Algebra.Group.Defs
/-!
Model of the row-wise reductions: maximum, index of the maximum, sum.
Source: /repo/nntl/interface/math/smath.h

Matrix elements are from a linear order (maximum) or a commutative monoid (sum): not-a-number values and rounding are not
modelled. `colBegin`, `colEnd`, `rowBegin`, `rowEnd` of `rowcol_range` (smatrix.h:1775-1830) are `cb ce rb re`.
-/
namespace Nntl.Kernel
open Nntl.Matrix Nntl.Threads
variable {α σ : Type}

/-- `_mrwVecOperation_st_cw` smath.h:710-739 with its `colBegin` already added to that of the range: for every column, for
every row, `op` on the vector element of the row. -/
def mrwCw (op : Nat → α → σ → σ) (A : Mtx α) (cb ce rb re : Nat) : List (Step σ) :=
  (List.range' cb (ce - cb)).flatMap fun c =>
    (List.range' rb (re - rb)).map fun r => (r, op c (A.data (A.rows * c + r)))

/-- Inner loop of `_mrwVecOperation_st_rw` smath.h:757-761 over the columns from `c` on. `pElm` is the element pointer. -/
def mrwRwLoop (op : Nat → α → σ → σ) (d : Nat → α) (rm : Nat) : Nat → Nat → Nat → σ → σ
  | 0, _, _, v => v
  | n + 1, c, pElm, v => mrwRwLoop op d rm n (c + 1) (pElm + rm) (op c (d pElm) v)

/-- `_mrwVecOperation_st_rw` smath.h:743-765 for operations initialised by the first matrix element
(`rw_FirstColumnIdx == 1`, smath.h:553-564): `ini` makes the accumulator from the first element of the row, `fin` stores it
(`rw_updVecElm`). -/
def mrwRw (ini : α → σ) (op : Nat → α → σ → σ) (fin : σ → σ → σ) (A : Mtx α) (cb ce rb re : Nat) : List (Step σ) :=
  (List.range' rb (re - rb)).map fun r =>
    (r, fun old => fin (mrwRwLoop op A.data A.rows (ce - (cb + 1)) (cb + 1) (A.rows * cb + r + A.rows) (ini (A.data (A.rows * cb + r)))) old)

/-- `_memcpy_rowcol_range` smath.h:506-519. -/
def copyFirst (A : Mtx α) (cb rb re : Nat) : List (Step α) :=
  (List.range' rb (re - rb)).map fun r => (r, fun _ => A.data (A.rows * cb + r))

/-- `_memset_rowrange` smath.h:521-530. -/
def setRange (v : σ) (rb re : Nat) : List (Step σ) := (List.range' rb (re - rb)).map fun r => (r, fun _ => v)

/-! ### mrwMax -/
section Max
variable [LinearOrder α]

/-- `_mrwFind_MAX::op` smath.h:613-618. -/
def opMax (_ : Nat) (e v : α) : α := if e > v then e else v

/-- `mrwMax_st_cw` smath.h:1487-1492 for the rows `[rb,re)` (all columns). -/
def mrwMaxCw (A : Mtx α) (rb re : Nat) : List (Step α) :=
  copyFirst A 0 rb re ++ if A.cols > 1 then mrwCw opMax A 1 A.cols rb re else []

/-- `mrwMax_st_rw` smath.h:1512-1515. -/
def mrwMaxRw (A : Mtx α) (rb re : Nat) : List (Step α) := mrwRw id opMax (fun v _ => v) A 0 A.cols rb re

/-- Loop smath.h:1504-1508 of `mrwMax_st_rw_small`. -/
def maxSmallLoop (d : Nat → α) (rm : Nat) : Nat → Nat → α → α
  | 0, _, m => m
  | n + 1, pV, m => maxSmallLoop d rm n (pV + rm) (if d pV > m then d pV else m)
/-- `mrwMax_st_rw_small` smath.h:1494-1511. -/
def mrwMaxRwSmall (A : Mtx α) (rb re : Nat) : List (Step α) :=
  (List.range' rb (re - rb)).map fun ri => (ri, fun _ => maxSmallLoop A.data A.rows (A.cols - 1) (ri + A.rows) (A.data ri))

/-- `mrwMax` smath.h:1474-1485, 1516-1521: single-threaded or split over the rows. -/
def mrwMax (ex : Exec) (A : Mtx α) (m m' : Nat → α) : Prop := Runs ex A.rows (mrwMaxCw A) m m'

/-! ### mrwIdxsOfMax. A vector cell is the pair of `pMax[r]` and `pDest[r]`. -/

/-- `_mrwFindIdxsOf_MAX::op` smath.h:627-640 (both variants). -/
def opIdx (c : Nat) (e : α) (v : α × Nat) : α × Nat := if e > v.1 then (e, c) else v

/-- `mrwIdxsOfMax_st_rw` smath.h:1341-1351 for a range, `rw_initVecElm` 644-651, `rw_updVecElm` 653-661; `save` is
`bSaveMaxOnUpdate`. -/
def idxRw (save : Bool) (A : Mtx α) (cb ce rb re : Nat) : List (Step (α × Nat)) :=
  mrwRw (fun e => (e, cb)) opIdx (fun v old => (if save then v.1 else old.1, v.2)) A cb ce rb re

/-- `mrwIdxsOfMax_st_cw` smath.h:1273-1291 without a range. -/
def idxCw (A : Mtx α) : List (Step (α × Nat)) :=
  ((List.range' 0 A.rows).map fun r => (r, fun (v : α × Nat) => (v.1, 0))) ++
  if A.cols > 1 then
    ((List.range' 0 A.rows).map fun r => (r, fun (v : α × Nat) => (A.data r, v.2))) ++ mrwCw opIdx A 1 A.cols 0 A.rows
  else []

/-- Loop smath.h:1308-1316 of `mrwIdxsOfMax_st_rw_small`. -/
def idxSmallLoop (d : Nat → α) (rm : Nat) : Nat → Nat → Nat → α × Nat → α × Nat
  | 0, _, _, m => m
  | n + 1, pV, c, m => idxSmallLoop d rm n (pV + rm) (c + 1) (if d pV > m.1 then (d pV, c) else m)
/-- `mrwIdxsOfMax_st_rw_small` smath.h:1292-1340 without a range (the maximum is not stored). -/
def idxRwSmall (A : Mtx α) : List (Step (α × Nat)) :=
  (List.range' 0 A.rows).map fun ri =>
    (ri, fun old => (old.1, (idxSmallLoop A.data A.rows (A.cols - 1) (ri + A.rows) 1 (A.data ri, 0)).2))

/-- `_howMuchThreadsNeededForCols` smath.h:804-812; `workers` is `cur_workers_count()`, main thread included. -/
def threadsForCols (perThread cols workers : Nat) : Nat :=
  let minReq := (cols + perThread - 1) / perThread
  if minReq < workers then minReq else workers

/-- The threads of `_processMtx_cw` smath.h:905-945 (and 868-900): call `pr` works on its columns and on the temporary vector that
starts at `rm * tid`. `kernel cb ce` is the kernel for a column range with vector elements from 0. `rs` are the ranges of the pool. -/
def cwThreads (rs : List ParRange) (A : Mtx α) (perThread : Nat) (kernel : Nat → Nat → List (Step σ)) : List (List (Step σ)) :=
  (runCalls rs A.cols (threadsForCols perThread A.cols (rs.length + 1))).map fun pr =>
    (kernel pr.offset (pr.offset + pr.cnt)).map fun s => (A.rows * pr.tid + s.1, s.2)

/-- The merge in `mrwIdxsOfMax_mt_cw` smath.h:1360-1378 for row `r`: over the temporary vectors `1 ..`. -/
def idxMerge (tmp : Nat → α × Nat) (rm : Nat) : Nat → Nat → Nat → α × Nat → α × Nat
  | 0, _, _, best => best
  | n + 1, p, r, best => idxMerge tmp rm n (p + rm) r (if (tmp (p + r)).1 > best.1 then tmp (p + r) else best)

/-- `mrwIdxsOfMax_mt_cw` smath.h:1353-1382: the temporary storage is filled by the threads, then merged. The result is `pDest`. -/
def idxMtCw (rs : List ParRange) (perThread : Nat) (A : Mtx α) (dest : Nat → Nat) : Prop :=
  ∃ (tmp0 : Nat → α × Nat) (w : List (Step (α × Nat))),
    Interleaves (cwThreads rs A perThread fun cb ce => idxRw true A cb ce 0 A.rows) w ∧
    ∀ r, r < A.rows → dest r =
      (idxMerge (runSteps tmp0 w) A.rows (threadsUsed rs.length A.cols (threadsForCols perThread A.cols (rs.length + 1)) - 1)
        A.rows r (runSteps tmp0 w r)).2

/-- `mrwIdxsOfMax_mt_rw` smath.h:1459-1468 and `mrwIdxsOfMax_st` 1259-1266: over the rows. -/
def idxByRows (ex : Exec) (save : Bool) (A : Mtx α) (dest : Nat → Nat) : Prop :=
  ∃ m m' : Nat → α × Nat, Runs ex A.rows (idxRw save A 0 A.cols) m m' ∧ ∀ r, r < A.rows → dest r = (m' r).2

/-- `mrwIdxsOfMax` smath.h:1252-1258, 1267-1271. `thr`, `thrRows`, `perThread` are the thresholds `mrwIdxsOfMax`,
`mrwIdxsOfMax_mt_rows`, `mrwIdxsOfMax_ColsPerThread`. -/
def mrwIdxsOfMax (rs : List ParRange) (thr thrRows perThread : Nat) (A : Mtx α) (dest : Nat → Nat) : Prop :=
  if A.numel < thr then idxByRows .st false A dest
  else if A.rows < thrRows ∧ A.cols > perThread then idxMtCw rs perThread A dest
  else idxByRows (.mt rs) true A dest

end Max

/-! ### mrwSum -/
section Sum
variable [AddCommMonoid α]

/-- `_mrw_SUM::op` smath.h:664-668. -/
def opSum (_ : Nat) (e v : α) : α := v + e

/-- `mrwSum_st` smath.h:1617-1627 with `mrwSum_st_rw` 1641-1644, `mrwSum_st_cw` 1645-1650. `rw` tells which one the threshold selects
(`A.numel() < Thresholds_t::mrwSum_st`). -/
def mrwSumSt (rw : Bool) (A : Mtx α) (cb ce rb re : Nat) : List (Step α) :=
  if A.cols = 1 ∨ cb = ce then copyFirst A cb rb re
  else if rw then mrwRw id opSum (fun v _ => v) A cb ce rb re
  else setRange 0 rb re ++ mrwCw opSum A cb ce rb re

/-- `mrwSum_st` over the whole matrix and `mrwSum_mt_rw` smath.h:1651-1656. -/
def mrwSumByRows (ex : Exec) (rw : Bool) (A : Mtx α) (m m' : Nat → α) : Prop :=
  Runs ex A.rows (mrwSumSt rw A 0 A.cols) m m'

/-- The matrix `fin` of partial sums, `smath.h:896`. -/
def finMtx (A : Mtx α) (tmp : Nat → α) (threads : Nat) : Mtx α :=
  { data := tmp, cap := A.rows * threads, rows := A.rows, cols := threads, emul := false, ext := true, holey := false, bir := false,
    maxSize := A.rows * threads }

/-- `mrwSum_mt_cw` smath.h:1657-1665 with `_processMtx_cw` 868-900. `rw`, `rw'`: choices of the two `mrwSum_st`. -/
def mrwSumMtCw (rs : List ParRange) (perThread : Nat) (rw rw' : Bool) (A : Mtx α) (m m' : Nat → α) : Prop :=
  ∃ (tmp0 : Nat → α) (w : List (Step α)),
    Interleaves (cwThreads rs A perThread fun cb ce => mrwSumSt rw A cb ce 0 A.rows) w ∧
    mrwSumByRows .st rw' (finMtx A (runSteps tmp0 w)
      (threadsUsed rs.length A.cols (threadsForCols perThread A.cols (rs.length + 1)))) m m'

/-- `mrwSum` smath.h:1610-1615, 1628-1640. `thr`, `thrSt`, `perThread` are the thresholds `mrwSum`, `mrwSum_st`,
`mrwSum_mt_cw_colsPerThread`. The second `mrwSum_st` works on the matrix of partial sums. -/
def mrwSum (rs : List ParRange) (thr thrSt perThread : Nat) (A : Mtx α) (m m' : Nat → α) : Prop :=
  if A.numel < thr then mrwSumByRows .st (decide (A.numel < thrSt)) A m m'
  else if A.cols = 1 then m' = runSteps m (copyFirst A 0 0 A.rows)
  else if A.cols ≤ max perThread (rs.length + 1) then mrwSumByRows (.mt rs) (decide (A.numel < thrSt)) A m m'
  else mrwSumMtCw rs perThread (decide (A.numel < thrSt))
    (decide (A.rows * threadsUsed rs.length A.cols (threadsForCols perThread A.cols (rs.length + 1)) < thrSt)) A m m'

/-- Inner loop smath.h:1577-1580 of `mrwSum_ip_st_rw_small`. -/
def sumSmallLoop (d : Nat → α) (rm : Nat) : Nat → Nat → α → α
  | 0, _, s => s
  | n + 1, pElm, s => sumSmallLoop d rm n (pElm + rm) (s + d pElm)

/-- `mrwSum_ip_st` smath.h:1549-1555 in place: `mrwSum_ip_st_cw` 1563-1566 and `mrwSum_ip_st_rw_small` 1568-1585. The first column is the
vector; the other columns are only read, so their contents are those at the beginning. `cw` is the choice made by the thresholds. -/
def mrwSumIpSt (cw : Bool) (A : Mtx α) (rb re : Nat) : List (Step α) :=
  if A.cols ≤ 1 then []
  else if cw then mrwCw opSum A 1 A.cols rb re
  else (List.range' rb (re - rb)).map fun r =>
    (r, fun v => v + sumSmallLoop A.data A.rows (A.cols - 1) (r + A.rows) 0)

/-- `mrwSum_ip` smath.h:1544-1548 (`mrwSum_ip_st`) and `mrwSum_ip_mt_rw` 1593-1598. -/
def mrwSumIp (ex : Exec) (cw : Bool) (A : Mtx α) (m' : Nat → α) : Prop := Runs ex A.rows (mrwSumIpSt cw A) A.data m'

end Sum

end Nntl.Kernel
