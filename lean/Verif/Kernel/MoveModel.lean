import Verif.Kernel.Writes
/-!
Model of the data-moving kernels.
Sources: /repo/nntl/interface/math/mathn.h (extraction, transposition), /repo/nntl/interface/math/smath.h (column cloning,
tiling).

Each kernel is modelled by the list of element writes it performs. Pointers are offsets from `data()`. Loops of the form
`while (p != pEnd)` get a fuel argument (an upper bound on the number of iterations; the theorems show it is enough, since
the written area is complete).
-/
namespace Nntl.Kernel
open Nntl.Matrix
variable {α : Type}

/-! ### mExtractRows (mathn.h:529-596) -/

/-- Inner loop mathn.h:565-569: `*destCur++ = *(pSrc + *pRI++)`, `n` iterations. -/
def exRowsInner (src : Nat → α) (pSrc : Nat) (idx : Nat → Nat) : Nat → Nat → Nat → List (Nat × α)
  | _, _, 0 => []
  | pRI, destCur, n + 1 => (destCur, src (pSrc + idx pRI)) :: exRowsInner src pSrc idx (pRI + 1) (destCur + 1) n

/-- Outer loop mathn.h:560-571. -/
def exRowsOuter (src : Nat → α) (idx : Nat → Nat) (destRows srcRows pThreadRI rCnt pDestEnd : Nat) :
    Nat → Nat → Nat → List (Nat × α)
  | 0, _, _ => []
  | fuel + 1, pDest, pSrc =>
    if pDest = pDestEnd then []
    else exRowsInner src pSrc idx pThreadRI pDest rCnt ++
      exRowsOuter src idx destRows srcRows pThreadRI rCnt pDestEnd fuel (pDest + destRows) (pSrc + srcRows)

/-- `_imExtractRows_seqWrite_st` mathn.h:537-572 for the rows `[b,e)` of `dest`. -/
def exRowsKernel (src dest : Mtx α) (idx : Nat → Nat) (b e : Nat) : List (Nat × α) :=
  exRowsOuter src.data idx dest.rows src.rows b (e - b) (b + dest.numelNoBias) (dest.numelNoBias + 1) b 0

/-- `mExtractRows` mathn.h:529-533, 573-596: work is split over the rows of `dest`. -/
def mExtractRows (ex : Exec) (src dest : Mtx α) (idx : Nat → Nat) : List (Nat × α) :=
  ex.writes dest.rows (exRowsKernel src dest idx)

/-! ### mExtractCols (mathn.h:481-521) -/

/-- `_imExtractCols_st` mathn.h:490-507 for the columns `[b,e)` of `dest`: the `for` loop at 504. -/
def exColsKernel (src dest : Mtx α) (idx : Nat → Nat) (b e : Nat) : List (Nat × α) :=
  (List.range' b (e - b)).flatMap fun ci =>
    memcpyW src.data (dest.rows * ci) (src.rows * idx ci) src.rowsNoBias

/-- `mExtractCols` mathn.h:481-488, 508-521. -/
def mExtractCols (ex : Exec) (src dest : Mtx α) (idx : Nat → Nat) : List (Nat × α) :=
  ex.writes dest.colsNoBias (exColsKernel src dest idx)

/-- `mExtractBatches` mathn.h:463-470 (`bSampleInColumn()` is `m_bBatchInRow`). -/
def mExtractBatches (ex : Exec) (src dest : Mtx α) (idx : Nat → Nat) : List (Nat × α) :=
  if src.bir then mExtractCols ex src dest idx else mExtractRows ex src dest idx

/-! ### mExtractRowsSeq (mathn.h:732-796) -/

/-- Loop mathn.h:769-776. -/
def exSeqLoop (src : Nat → α) (destRows srcRows : Nat) : Nat → Nat → Nat → List (Nat × α)
  | 0, _, _ => []
  | n + 1, pD, pS => memcpyW src pD pS destRows ++ exSeqLoop src destRows srcRows n (pD + destRows) (pS + srcRows)

/-- `_imExtractRowsSeq_st` mathn.h:754-777 for the columns `[b,e)`. -/
def exSeqKernel (src dest : Mtx α) (rowOfs b e : Nat) : List (Nat × α) :=
  exSeqLoop src.data dest.rows src.rows (e - b) (dest.rows * b) (src.rows * b + rowOfs)

/-- `mExtractRowsSeq` mathn.h:732-751, 778-796. -/
def mExtractRowsSeq (ex : Exec) (src dest : Mtx α) (rowOfs : Nat) : List (Nat × α) :=
  ex.writes dest.colsNoBias (exSeqKernel src dest rowOfs)

/-! ### mExtractRowsByMask, mFillRowsByMask (mathn.h:602-726). The mask is what `m != _z` evaluates to. -/

/-- Inner loop mathn.h:640-646 from `i` on: returns the writes and the final `pD`. -/
def exMaskInner (src : Nat → α) (pS : Nat) (mask : Nat → Bool) : Nat → Nat → Nat → List (Nat × α) × Nat
  | _, 0, pD => ([], pD)
  | i, n + 1, pD =>
    if mask i then
      let r := exMaskInner src pS mask (i + 1) n (pD + 1)
      ((pD, src (pS + i)) :: r.1, r.2)
    else exMaskInner src pS mask (i + 1) n pD

/-- Outer loop mathn.h:637-647; `pD` keeps running over the columns. -/
def exMaskOuter (src : Nat → α) (mask : Nat → Bool) (tr : Nat) : Nat → Nat → Nat → List (Nat × α)
  | 0, _, _ => []
  | tc + 1, pS, pD =>
    let r := exMaskInner src pS mask 0 tr pD
    r.1 ++ exMaskOuter src mask tr tc (pS + tr) r.2

/-- `_imExtractRowsByMask_st` mathn.h:623-648 for the columns `[b,e)`. -/
def exMaskKernel (src dest : Mtx α) (mask : Nat → Bool) (b e : Nat) : List (Nat × α) :=
  exMaskOuter src.data mask src.rows (e - b) (src.rows * b) (dest.rows * b)

/-- `mExtractRowsByMask` mathn.h:602-622, 649-663. When the row counts agree the data is copied as a whole
(`copy_data_skip_bias`, smatrix.h:512-522). -/
def mExtractRowsByMask (ex : Exec) (src dest : Mtx α) (mask : Nat → Bool) : List (Nat × α) :=
  if dest.rows = src.rows then memcpyW src.data 0 0 src.numelNoBias
  else ex.writes src.colsNoBias (exMaskKernel src dest mask)

/-- Inner loop mathn.h:705-709: returns the writes and the final `pS`. -/
def fillMaskInner (src : Nat → α) (zero : α) (pD : Nat) (mask : Nat → Bool) : Nat → Nat → Nat → List (Nat × α) × Nat
  | _, 0, pS => ([], pS)
  | i, n + 1, pS =>
    if mask i then
      let r := fillMaskInner src zero pD mask (i + 1) n (pS + 1)
      ((pD + i, src pS) :: r.1, r.2)
    else
      let r := fillMaskInner src zero pD mask (i + 1) n pS
      ((pD + i, zero) :: r.1, r.2)

/-- Outer loop mathn.h:701-710. -/
def fillMaskOuter (src : Nat → α) (zero : α) (mask : Nat → Bool) (tr : Nat) : Nat → Nat → Nat → List (Nat × α)
  | 0, _, _ => []
  | tc + 1, pS, pD =>
    let r := fillMaskInner src zero pD mask 0 tr pS
    r.1 ++ fillMaskOuter src zero mask tr tc r.2 (pD + tr)

/-- `_imFillRowsByMask_st` mathn.h:687-711 for the columns `[b,e)`. -/
def fillMaskKernel (src dest : Mtx α) (zero : α) (mask : Nat → Bool) (b e : Nat) : List (Nat × α) :=
  fillMaskOuter src.data zero mask dest.rows (e - b) (src.rows * b) (dest.rows * b)

/-- `mFillRowsByMask` mathn.h:668-686, 712-726. -/
def mFillRowsByMask (ex : Exec) (src dest : Mtx α) (zero : α) (mask : Nat → Bool) : List (Nat × α) :=
  if dest.rows = src.rows then memcpyW src.data 0 0 src.numelNoBias
  else ex.writes dest.colsNoBias (fillMaskKernel src dest zero mask)

/-! ### mTranspose (mathn.h:2803-2889) -/

/-- `rows(bIgnoreBias)` / `cols(bIgnoreBias)` smatrix.h:813-836. -/
def rowsIf (m : Mtx α) (ignoreBias : Bool) : Nat := if ignoreBias then m.rowsNoBias else m.rows
def colsIf (m : Mtx α) (ignoreBias : Bool) : Nat := if ignoreBias then m.colsNoBias else m.cols

/-- Inner loop mathn.h:2853-2856: `*pD = *pS++; pD += ldDest`. -/
def trReadInner (src : Nat → α) (ldDest : Nat) : Nat → Nat → Nat → List (Nat × α)
  | 0, _, _ => []
  | n + 1, pD, pS => (pD, src pS) :: trReadInner src ldDest n (pD + ldDest) (pS + 1)

/-- Outer loop mathn.h:2847-2857. -/
def trReadOuter (src : Nat → α) (sRows ldDest biasRow pDE : Nat) : Nat → Nat → Nat → List (Nat × α)
  | 0, _, _ => []
  | fuel + 1, pDest, pSrc =>
    if pDest = pDE then []
    else trReadInner src ldDest sRows pDest pSrc ++
      trReadOuter src sRows ldDest biasRow pDE fuel (pDest + 1) (pSrc + sRows + biasRow)

/-- `mTranspose_seq_read` mathn.h:2835-2860. -/
def mTransposeSeqRead (src dest : Mtx α) (ignoreBias : Bool) : List (Nat × α) :=
  trReadOuter src.data (rowsIf src ignoreBias) dest.rows (ignoreBias && src.hasBiasRow).toNat
    (rowsIf dest ignoreBias) (rowsIf dest ignoreBias + 1) 0 0

/-- Inner loop mathn.h:2882-2885: `*pD++ = *pS; pS += ldSrc`. -/
def trWriteInner (src : Nat → α) (ldSrc : Nat) : Nat → Nat → Nat → List (Nat × α)
  | 0, _, _ => []
  | n + 1, pD, pS => (pD, src pS) :: trWriteInner src ldSrc n (pD + 1) (pS + ldSrc)

/-- Outer loop mathn.h:2876-2886. -/
def trWriteOuter (src : Nat → α) (ldSrc dRows biasRow pSE : Nat) : Nat → Nat → Nat → List (Nat × α)
  | 0, _, _ => []
  | fuel + 1, pSrc, pDest =>
    if pSrc = pSE then []
    else trWriteInner src ldSrc dRows pDest pSrc ++
      trWriteOuter src ldSrc dRows biasRow pSE fuel (pSrc + 1) (pDest + dRows + biasRow)

/-- `mTranspose_seq_write` mathn.h:2864-2889. -/
def mTransposeSeqWrite (src dest : Mtx α) (ignoreBias : Bool) : List (Nat × α) :=
  trWriteOuter src.data src.rows (rowsIf dest ignoreBias) (ignoreBias && dest.hasBiasRow).toNat
    (rowsIf src ignoreBias) (rowsIf src ignoreBias + 1) 0 0

/-- `mTranspose` mathn.h:2803-2814, `mTranspose_ignore_bias` 2820-2831 (`thr` is `Thresholds_t::mTransposeTrsh`). -/
def mTranspose (thr : Nat) (src dest : Mtx α) (ignoreBias : Bool) : List (Nat × α) :=
  if (decide (src.rows < src.cols)) ^^ (decide (src.numel ≥ thr)) then mTransposeSeqWrite src dest ignoreBias
  else mTransposeSeqRead src dest ignoreBias
def mTransposeIgnoreBias (thr : Nat) (src dest : Mtx α) : List (Nat × α) :=
  if (decide (src.rowsNoBias < src.colsNoBias)) ^^ (decide (src.numel ≥ thr)) then mTransposeSeqWrite src dest true
  else mTransposeSeqRead src dest true

/-! ### Tiling (smath.h:2136-2440) -/

/-- Loop smath.h:2182-2193 (`seqread` roll): `p` is the moving pointer that wraps (`pD`), `first` is `pDFirst`. The list of
`memcpy` calls as (`pD`,`pS`). -/
def tileLoopA (m km pLast pEnd : Nat) : Nat → Nat → Nat → Nat → List (Nat × Nat)
  | 0, _, _, _ => []
  | fuel + 1, pSeq, p, first =>
    if pSeq = pEnd then []
    else (p, pSeq) ::
      (if p < pLast then tileLoopA m km pLast pEnd fuel (pSeq + m) (p + km) first
       else tileLoopA m km pLast pEnd fuel (pSeq + m) (first + m) (first + m))

/-- `mTilingRoll_seqread_st` smath.h:2152-2197 for the source columns `[b,e)`. -/
def rollSeqReadKernel (src dest : Mtx α) (b e : Nat) : List (Nat × α) :=
  let m := src.rows
  let km := dest.rows
  let n := dest.colsNoBias
  let kIdx := b / n
  let pDFirst := m * kIdx
  (tileLoopA m km (km * (n - 1)) (m * b + m * (e - b)) (e - b + 1) (m * b) (pDFirst + km * (b - kIdx * n)) pDFirst).flatMap
    fun q => memcpyW src.data q.1 q.2 m

/-- `mTilingRoll_seqwrite_st` smath.h:2217-2262 for the destination columns `[b,e)`. The loop 2248-2259 has the shape of
`tileLoopA` with the roles of the pointers exchanged (`pD` sequential, `pS` wrapping with step `nm`). -/
def rollSeqWriteKernel (src dest : Mtx α) (b e : Nat) : List (Nat × α) :=
  let n := dest.colsNoBias
  let m := src.rows
  let k := dest.rows / m
  let nm := m * n
  (tileLoopA m nm (m * (src.colsNoBias - n)) (dest.rows * b + dest.rows * (e - b)) (k * (e - b) + 1)
      (dest.rows * b) (m * b) (m * b)).flatMap
    fun q => memcpyW src.data q.2 q.1 m

/-- `mTilingRoll` smath.h:2136-2150: single-threaded `seqwrite`, or `seqread`/`seqwrite` on the pool. -/
def mTilingRollRead (ex : Exec) (src dest : Mtx α) : List (Nat × α) :=
  ex.writes src.colsNoBias (rollSeqReadKernel src dest)
def mTilingRollWrite (ex : Exec) (src dest : Mtx α) : List (Nat × α) :=
  ex.writes dest.colsNoBias (rollSeqWriteKernel src dest)

/-- `mTilingUnroll_seqwrite_st` smath.h:2311-2357 for the destination columns `[b,e)`. -/
def unrollSeqWriteKernel (src dest : Mtx α) (b e : Nat) : List (Nat × α) :=
  let m := dest.rows
  let km := src.rows
  let n := src.colsNoBias
  let kIdx := b / n
  let pSFirst := m * kIdx
  (tileLoopA m km (km * (n - 1)) (m * b + m * (e - b)) (e - b + 1) (m * b) (pSFirst + km * (b - kIdx * n)) pSFirst).flatMap
    fun q => memcpyW src.data q.2 q.1 m

/-- `mTilingUnroll_seqread_st` smath.h:2377-2421 for the source columns `[b,e)`. -/
def unrollSeqReadKernel (src dest : Mtx α) (b e : Nat) : List (Nat × α) :=
  let n := src.colsNoBias
  let m := dest.rows
  let k := src.rows / m
  let nm := m * n
  (tileLoopA m nm (m * (dest.colsNoBias - n)) (src.rows * b + src.rows * (e - b)) (k * (e - b) + 1)
      (src.rows * b) (m * b) (m * b)).flatMap
    fun q => memcpyW src.data q.1 q.2 m

/-- `mTilingUnroll` smath.h:2295-2309 and the `_mt` wrappers 2358-2375, 2422-2440. -/
def mTilingUnrollRead (ex : Exec) (src dest : Mtx α) : List (Nat × α) :=
  ex.writes src.colsNoBias (unrollSeqReadKernel src dest)
def mTilingUnrollWrite (ex : Exec) (src dest : Mtx α) : List (Nat × α) :=
  ex.writes dest.colsNoBias (unrollSeqWriteKernel src dest)

/-! ### mCloneCols (smath.h:2025-2085), mCloneCol (2091-2122) -/

/-- Search loop smath.h:2042-2049: remaining entries of `pColSpec`, `csIdx`, `colsLeft`; `none` if it runs out. -/
def cloneFind (firstCol : Nat) : List Nat → Nat → Nat → Option (Nat × Nat)
  | [], _, _ => none
  | s :: ss, csIdx, colsLeft =>
    if colsLeft + s ≥ firstCol then some (csIdx, colsLeft + s - firstCol) else cloneFind firstCol ss (csIdx + 1) (colsLeft + s)

/-- Copy loop smath.h:2059-2069 for `n` destination columns from column `c` on, as (destination column, source column)
pairs. `rest` are the entries at `pnCS`; reading past them is `none`. `colsLeft` is a signed `vec_len_t`. -/
def cloneLoop : Nat → Nat → Nat → Int → List Nat → Option (List (Nat × Nat))
  | 0, _, _, _, _ => some []
  | n + 1, c, srcCol, colsLeft, rest =>
    if colsLeft = 0 then
      match rest with
      | [] => none
      | s :: ss => (cloneLoop n (c + 1) (srcCol + 1) ((s : Int) - 1) ss).map ((c, srcCol + 1) :: ·)
    else (cloneLoop n (c + 1) srcCol (colsLeft - 1) rest).map ((c, srcCol) :: ·)

/-- `mCloneCols_st` smath.h:2030-2074 for the destination columns `[b,e)`: column copies, or `none` for `abort()`/bad read. -/
def cloneColsKernel (spec : List Nat) (destCols b e : Nat) : Option (List (Nat × Nat)) :=
  match cloneFind b spec 0 0 with
  | none => none
  | some (csIdx, colsLeft) =>
    if colsLeft ≤ destCols then cloneLoop (e - b) b csIdx colsLeft (spec.drop (csIdx + 1)) else none

/-- The writes of the column copies. -/
def cloneWrites (src : Mtx α) (rows : Nat) (cc : List (Nat × Nat)) : List (Nat × α) :=
  cc.flatMap fun q => memcpyW src.data (rows * q.1) (rows * q.2) rows

/-- `mCloneCols` smath.h:2025-2029, 2075-2085: `none` if any call aborts. -/
def mCloneCols (ex : Exec) (src dest : Mtx α) (spec : List Nat) : Option (List (Nat × α)) :=
  ((ex.calls dest.cols).mapM fun r => cloneColsKernel spec dest.cols r.1 r.2).map
    fun ls => ls.flatMap (cloneWrites src dest.rows)

/-- `mCloneCol` smath.h:2091-2122. -/
def mCloneCol (ex : Exec) (src dest : Mtx α) : List (Nat × α) :=
  ex.writes dest.cols fun b e => (List.range' b (e - b)).flatMap fun c => memcpyW src.data (dest.rows * c) 0 dest.rows

end Nntl.Kernel
