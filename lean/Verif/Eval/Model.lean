import Verif.Kernel.RowModel
import Mathlib.Algebra.Field.Rat
/-!
Model of the evaluators, of the part of the observer that counts correct answers, and of the loss reported by the network.
Sources: /repo/nntl/nnet_evaluator.h, /repo/nntl/training_observer.h, /repo/nntl/nnet.h, /repo/nntl/interface/math/mathn.h

A matrix batch has samples in rows (`bSampleInRow`; the evaluators use `rows()`), no bias column. Elements are from a linear
order. Integer types are unbounded.
-/
namespace Nntl.Eval
open Nntl.Matrix Nntl.Kernel Nntl.Threads
variable {α : Type} [LinearOrder α]

/-! ### Binarisation kernels -/

/-- Inner loops mathn.h:420-422, 433-435, 446-448: binarise `n` elements from `pS` to `pD`. -/
def binRow (frac : α) (src : Nat → α) (pD pS n : Nat) : List (Nat × Bool) :=
  (List.range n).map fun r => (pD + r, decide (src (pS + r) > frac))

/-- Loop over the intermediate columns mathn.h:428-437; returns the pointers after it. -/
def binCols (frac : α) (src : Nat → α) (srcRows ofs : Nat) : Nat → Nat → Nat → List (Nat × Bool) × Nat × Nat
  | 0, pD, pS => ([], pD, pS)
  | n + 1, pD, pS =>
    let r := binCols frac src srcRows ofs n (pD + (srcRows + ofs)) (pS + srcRows)
    (binRow frac src pD pS srcRows ++ r.1, r.2)

/-- `_iewBinarizeBatch_st` mathn.h:388-451 for the elements `[b,e)` of the source. -/
def binBatchKernel (destRows start : Nat) (src : Mtx α) (frac : α) (b e : Nat) : List (Nat × Bool) :=
  let R := src.rows
  let ofs := destRows - R
  let bc := b / R
  let br := b % R
  let ec := e / R
  let er := e % R
  let pD := destRows * bc + start + br
  let pS := R * bc + br
  let tot := (if bc = ec then er else R) - br
  let mid := binCols frac src.data R ofs (ec - (bc + 1)) (pD + (tot + ofs)) (pS + tot)
  binRow frac src.data pD pS tot ++ mid.1 ++ if bc ≠ ec then binRow frac src.data mid.2.1 mid.2.2 er else []

/-- `ewBinarizeBatch` mathn.h:371-386. -/
def ewBinarizeBatch (ex : Exec) (destRows start : Nat) (src : Mtx α) (frac : α) : List (Nat × Bool) :=
  ex.writes (src.rows * src.cols) (binBatchKernel destRows start src frac)

/-- `ewBinarize` mathn.h:326-364. -/
def ewBinarize (ex : Exec) (src : Mtx α) (frac : α) : List (Nat × Bool) :=
  ex.writes (src.rows * src.cols) fun b e => (List.range' b (e - b)).map fun k => (k, decide (src.data k > frac))

/-! ### Counting equal elements -/

/-- `vCountSame_st_naive` mathn.h:1090-1105 (`n` is the size of `B`). -/
def countSame {β : Type} [DecidableEq β] (A : Nat → β) (ofs : Nat) (B : Nat → β) (n : Nat) : Nat :=
  (List.range n).foldl (fun ret i => ret + (decide (A (ofs + i) = B i)).toNat) 0

/-- Loop over the columns of `vCountSameBatch_st_naive` mathn.h:1150-1161. -/
def countSameBatch {β : Type} [DecidableEq β] (A B : Nat → β) (aRows bRows : Nat) : Nat → Nat → Nat → Nat → Nat
  | 0, _, _, ret => ret
  | n + 1, pA, pB, ret =>
    countSameBatch A B aRows bRows n (pA + aRows) (pB + bRows)
      ((List.range bRows).foldl (fun ret r => ret + (decide (A (pA + r) = B (pB + r))).toNat) ret)

/-! ### Evaluator for binary answers -/

/-- `binarizeYOfDataset` nnet_evaluator.h:138-152: the batches of Y in the order of the walk, each with its own execution. `D` is the
number of rows of the cache, the third argument is `rOfs`. -/
def fillCache (D : Nat) (frac : α) : List (Exec × Mtx α) → Nat → (Nat → Bool) → (Nat → Bool) → Prop
  | [], _, d, d' => d' = d
  | b :: bs, ofs, d, d' => ∃ d1, Outcome (ewBinarizeBatch b.1 D ofs b.2 frac) d d1 ∧ fillCache D frac bs (ofs + b.2.rows) d1 d'

/-- One reported batch: the data and the executions of the kernels. -/
structure Rep (α : Type) where
  exP : Exec
  exY : Exec
  y : Mtx α
  act : Mtx α

/-- `correctlyClassified` of the binary evaluator, nnet_evaluator.h:169-189. `cached` is `m_ydataPP[dataSetId]` (rows and data) for
the training and the test set, `none` for other sets; `cur`, `cur'` are `m_curYOfs`. -/
def binCorrect (frac : α) (cached : Option (Nat × (Nat → Bool))) (cur : Nat) (b : Rep α) (ret cur' : Nat) : Prop :=
  ∃ p0 p, Outcome (ewBinarize b.exP b.act frac) p0 p ∧
    match cached with
    | some (D, yd) => ret = countSameBatch yd p D b.act.rows b.act.cols cur 0 0 ∧ cur' = cur + b.act.rows
    | none => ∃ q0 q, Outcome (ewBinarize b.exY b.y frac) q0 q ∧ ret = countSame q 0 p (b.act.rows * b.act.cols) ∧ cur' = cur

/-- Counters of one data set: `totalElements`, `correctlyClassif` (training_observer.h) and `m_curYOfs`. -/
structure Cnt where
  total : Nat
  correct : Nat
  cur : Nat
deriving DecidableEq

/-- `report_results_begin` training_observer.h:230-237 with `prepare_to_dataset` nnet_evaluator.h:161-164. -/
def Cnt.begin : Cnt := ⟨0, 0, 0⟩

/-- The calls of `report_results` (training_observer.h:240-249) for a walk. `cls cur b ret cur'` is `correctlyClassified`, `tot` is
`totalSamples`. -/
def reports (tot : Mtx α → Nat) (cls : Nat → Rep α → Nat → Nat → Prop) : List (Rep α) → Cnt → Cnt → Prop
  | [], c, c' => c' = c
  | b :: bs, c, c' => ∃ ret cur', cls c.cur b ret cur' ∧ reports tot cls bs ⟨c.total + tot b.y, c.correct + ret, cur'⟩ c'

/-- A report of a set with the binary evaluator; `totalSamples` nnet_evaluator.h:191-194. -/
def binReport (frac : α) (cached : Option (Nat × (Nat → Bool))) (bs : List (Rep α)) (c' : Cnt) : Prop :=
  reports (fun y => y.rows * y.cols) (binCorrect frac cached) bs Cnt.begin c'

/-! ### Evaluator for one-hot answers -/

/-- State of the math object that selects the variant of `mrwIdxsOfMax`. -/
structure MathCfg where
  rs : List ParRange
  thr : Nat
  thrRows : Nat
  per : Nat

/-- `iM.mrwIdxsOfMax(A, pDest)`. -/
def idxs (c : MathCfg) (A : Mtx α) (dest : Nat → Nat) : Prop := mrwIdxsOfMax c.rs c.thr c.thrRows c.per A dest

/-- `maxYOfDataset` nnet_evaluator.h:268-281: the indices of each batch are stored from `rOfs` on. -/
def fillIdxs : List (MathCfg × Mtx α) → Nat → (Nat → Nat) → (Nat → Nat) → Prop
  | [], _, d, d' => d' = d
  | b :: bs, ofs, d, d' => ∃ v, idxs b.1 b.2 v ∧
      fillIdxs bs (ofs + b.2.rows) (fun k => if ofs ≤ k ∧ k < ofs + b.2.rows then v (k - ofs) else d k) d'

/-- `correctlyClassified` of the one-hot evaluator, nnet_evaluator.h:298-319. -/
def hotCorrect (cfg : MathCfg) (cached : Option (Nat → Nat)) (cur : Nat) (b : Rep α) (ret cur' : Nat) : Prop :=
  ∃ p, idxs cfg b.act p ∧
    match cached with
    | some yd => ret = countSame yd cur p b.act.rows ∧ cur' = cur + b.act.rows
    | none => ∃ q, idxs cfg b.y q ∧ ret = countSame q 0 p b.act.rows ∧ cur' = cur

/-- A report of a set with the one-hot evaluator; `totalSamples` nnet_evaluator.h:321-324. -/
def hotReport (cfg : MathCfg) (cached : Option (Nat → Nat)) (bs : List (Rep α)) (c' : Cnt) : Prop :=
  reports (fun y => y.rows) (hotCorrect cfg cached) bs Cnt.begin c'

/-! ### Loss -/

/-- `calcLossAndReport` nnet.h:264-301 with `_calcLoss4batch` 323-325. Every batch is given by the (non-normalised) losses of its
samples, `calc_loss` of the output layer being their sum; `addendum` is `m_Layers.calcLossAddendum()` if `m_bCalcFullLossValue`. Exact
arithmetic. -/
def reportedLoss (addendum : Option ℚ) (batches : List (List ℚ)) : ℚ :=
  let l := batches.foldl (fun lossVal b => lossVal + b.sum / (b.length : ℚ)) 0
  match addendum with
  | some a => l + a
  | none => l

end Nntl.Eval
