import Verif.Kernel.Each
import Verif.Kernel.Elem
import Verif.Kernel.RowModel
import Verif.Kernel.Reduce
import Verif.Num.SoftmaxModel
import Mathlib.Analysis.Real.Sqrt
/-! Math kernels used to apply a gradient: element-by-element operations, the optimisers, gains, dropout masks, norms of rows.

All from `/repo/nntl/interface/math/mathn.h` unless said otherwise. Numbers are exact reals. A kernel is a relation between the memories
before and after it, because its threads may interleave in any way; `n` is the number of elements of the matrices. Assertions on scalar
arguments that only guard against useless calls (a factor of zero, a learning rate outside of `(0,1)`) are not modelled: the calculation
is defined without them, and release builds do not check them. -/
namespace Nntl.Grad
open Nntl.Kernel Nntl.Matrix Nntl.Threads

/-- Names of the thresholds `Thresholds_t::` that choose between the one-thread and the many-threads variant. -/
inductive Thr
  | evMulC | evMulCSub | evAdd | evSub | evSquare | evAbs | addScaled | addScaledSign | momentum | ilr | ilrStVec | ilrMtVec | ilrMtVec2
  | rmsHinton | rmsGraves | rprop | modprop | adam | adamax | rnadam | dropoutMask | normRows | l2norm | l2normCols | mulByVec
  | mulByVecStRows | mulByVecMtRows | makeDropout | alphaDropout | sumAbs | sumSquares
  deriving DecidableEq

/-- What the machine decides: the work ranges of the threads of the pool and the values of the thresholds. -/
structure Env where
  rs : List ParRange
  thr : Thr → Nat

/-- The pool is in the state it is in between two jobs. -/
def Env.Ok (E : Env) : Prop := RangesOk E.rs

/-- `if (n < Thresholds_t::x) x_st(...) else x_mt(...)`. -/
def Env.exec (E : Env) (t : Thr) (n : Nat) : Exec := if n < E.thr t then .st else .mt E.rs

/-- `math::sign`, `nntl/interface/math/_base.h` 97–99. -/
noncomputable def sgn (v : ℝ) : ℝ := (if 0 < v then 1 else 0) - (if v < 0 then 1 else 0)

/-! ### Operations on elements -/

/-- `evMulC_ip` 1642–1662 on all elements. -/
noncomputable def evMulCIp (E : Env) (n : Nat) (b : ℝ) (A A' : Nat → ℝ) : Prop :=
  Runs (E.exec .evMulC n) n (eachSteps fun _ v => v * b) A A'

/-- `evAdd_ip` 1921–1935. -/
noncomputable def evAddIp (E : Env) (n : Nat) (B A A' : Nat → ℝ) : Prop :=
  Runs (E.exec .evAdd n) n (eachSteps fun i v => v + B i) A A'

/-- `evSub_ip` 2154–2182. -/
noncomputable def evSubIp (E : Env) (n : Nat) (B A A' : Nat → ℝ) : Prop :=
  Runs (E.exec .evSub n) n (eachSteps fun i v => v - B i) A A'

/-- `evAddScaled_ip` 1956–1980. -/
noncomputable def evAddScaledIp (E : Env) (n : Nat) (c : ℝ) (B A A' : Nat → ℝ) : Prop :=
  Runs (E.exec .addScaled n) n (eachSteps fun i v => v + c * B i) A A'

/-- `evAddScaledSign_ip` 2018–2043. -/
noncomputable def evAddScaledSignIp (E : Env) (n : Nat) (c : ℝ) (B A A' : Nat → ℝ) : Prop :=
  Runs (E.exec .addScaledSign n) n (eachSteps fun i v => v + c * sgn (B i)) A A'

/-- `evSquare` 2248–2277: `dest = src²`. -/
noncomputable def evSquare (E : Env) (n : Nat) (src dest dest' : Nat → ℝ) : Prop :=
  Runs (E.exec .evSquare n) n (eachSteps fun i _ => src i * src i) dest dest'

/-- `evAbs` 2323–2345. -/
noncomputable def evAbs (E : Env) (n : Nat) (src dest dest' : Nat → ℝ) : Prop :=
  Runs (E.exec .evAbs n) n (eachSteps fun i _ => |src i|) dest dest'

/-- `evMulC_ip_Sub_ip` 2212–2244: `vW = momentum*vW; W = W − vW`. -/
noncomputable def evMulCIpSubIp (E : Env) (n : Nat) (mom : ℝ) (V W V' W' : Nat → ℝ) : Prop :=
  Runs (E.exec .evMulCSub n) n (eachSteps fun _ (c : ℝ × ℝ) => (c.1 * mom, c.2 - c.1 * mom)) (fun i => (V i, W i)) (fun i => (V' i, W' i))

/-- `apply_momentum` 1530–1557: `vW = momentum*vW + dW`. -/
noncomputable def applyMomentum (E : Env) (n : Nat) (mom : ℝ) (dW V V' : Nat → ℝ) : Prop :=
  Runs (E.exec .momentum n) n (eachSteps fun i v => mom * v + dW i) V V'

/-- Copy of the elements, `copy_to`/`clone_to` `nntl/interface/math/smatrix.h` 580–640 (`memcpy`). -/
def copyTo (n : Nat) (src dest : Nat → ℝ) (i : Nat) : ℝ := if i < n then src i else dest i

/-- `zeros()`/`ones()` on `n` elements. -/
def fillWith (n : Nat) (v : ℝ) (dest : Nat → ℝ) (i : Nat) : ℝ := if i < n then v else dest i

/-- `vSumAbs` 2349–2375. -/
noncomputable def vSumAbs (E : Env) (A : Mtx ℝ) : ℝ := reduceSum (E.exec .sumAbs A.numel) A.numel (sumLoop fun i => |A.data i|)

/-- `ewSumSquares` `nntl/interface/math/smath.h` 997–1022. -/
noncomputable def ewSumSquares (E : Env) (A : Mtx ℝ) : ℝ := reduceSum (E.exec .sumSquares A.numel) A.numel (sumLoop fun i => A.data i * A.data i)

/-! ### Individual gains. A cell is (dLdW, gain, pCond). -/

/-- The factor of a gain, 1396–1399. -/
noncomputable def gainFactor (decr incr capLow capHigh cond g : ℝ) : ℝ :=
  let bUp := 0 < cond ∧ g < capHigh
  let bDown := cond < 0 ∧ capLow < g
  (if ¬ (bUp ∨ bDown) then 1 else 0) * 1 + (if bUp then 1 else 0) * incr + (if bDown then 1 else 0) * decr

/-- One iteration of `apply_ILR_st_naive` 1380–1403 (also `apply_ILR_mt_naive` 1419–1438). -/
noncomputable def ilrNaive (decr incr capLow capHigh : ℝ) (prev : Nat → ℝ) (i : Nat) (c : ℝ × ℝ × ℝ) : ℝ × ℝ × ℝ :=
  let g := c.2.1 * gainFactor decr incr capLow capHigh (prev i * c.1) c.2.1
  (c.1 * g, g, c.2.2)

/-- The three loops of `apply_ILR_st_vec` 1456–1478 (also `apply_ILR_mt_vec` 1504–1519): conditions, gains, gradient. -/
noncomputable def ilrVec (decr incr capLow capHigh : ℝ) (prev : Nat → ℝ) (b e : Nat) : List (Step (ℝ × ℝ × ℝ)) :=
  eachSteps (fun i c => (c.1, c.2.1, c.1 * prev i)) b e ++
  eachSteps (fun _ c => (c.1, c.2.1 * gainFactor decr incr capLow capHigh c.2.2 c.2.1, c.2.2)) b e ++
  eachSteps (fun _ c => (c.1 * c.2.1, c.2.1, c.2.2)) b e

/-- `apply_ILR` 1357–1371: selection of the variant. `tmp` is the temporary vector of conditions. -/
noncomputable def applyILR (E : Env) (n : Nat) (decr incr capLow capHigh : ℝ) (prev dW gain dW' gain' : Nat → ℝ) : Prop :=
  ∃ tmp tmp' : Nat → ℝ, Runs (if n < E.thr .ilr then .st else .mt E.rs) n
    (if n < E.thr .ilr then
      if n ≤ E.thr .ilrStVec then ilrVec decr incr capLow capHigh prev else eachSteps (ilrNaive decr incr capLow capHigh prev)
    else
      if n ≤ E.thr .ilrMtVec ∨ E.thr .ilrMtVec2 ≤ n then ilrVec decr incr capLow capHigh prev
      else eachSteps (ilrNaive decr incr capLow capHigh prev))
    (fun i => (dW i, gain i, tmp i)) (fun i => (dW' i, gain' i, tmp' i))

/-! ### Optimisers -/

/-- The loops of `RMSProp_Hinton_st` 4612–4618 and `RMSProp_Hinton_mt` 4632–4638. A cell is (dW, rmsF). -/
noncomputable def hintonCell (lr decay eps : ℝ) (c : ℝ × ℝ) : ℝ × ℝ :=
  let rms := decay * c.2 + c.1 * c.1 * (1 - decay)
  (lr * (c.1 / (Real.sqrt rms + eps)), rms)

/-- `RMSProp_Hinton` 4593–4642. -/
noncomputable def rmsPropHinton (E : Env) (n : Nat) (lr decay eps : ℝ) (dW F dW' F' : Nat → ℝ) : Prop :=
  Runs (E.exec .rmsHinton n) n (eachSteps fun _ => hintonCell lr decay eps) (fun i => (dW i, F i)) (fun i => (dW' i, F' i))

/-- The loops of `RMSProp_Graves_st` 4665–4674 and `RMSProp_Graves_mt` 4690–4700. A cell is (dW, rmsF, rmsG). -/
noncomputable def gravesCell (lr decay eps : ℝ) (c : ℝ × ℝ × ℝ) : ℝ × ℝ × ℝ :=
  let wdec := c.1 * (1 - decay)
  let rF := decay * c.2.1 + c.1 * wdec
  let rG := decay * c.2.2 + wdec
  (lr * (c.1 / Real.sqrt (rF - rG * rG + eps)), rF, rG)

/-- `RMSProp_Graves` 4644–4703. -/
noncomputable def rmsPropGraves (E : Env) (n : Nat) (lr decay eps : ℝ) (dW F G dW' F' G' : Nat → ℝ) : Prop :=
  Runs (E.exec .rmsGraves n) n (eachSteps fun _ => gravesCell lr decay eps) (fun i => (dW i, F i, G i)) (fun i => (dW' i, F' i, G' i))

/-- `RProp` 4706–4725. The loop `*p++ = learningRate*sign(*p)` is modelled with the operand read before the pointer is advanced, which the
language guarantees only from C++17 on. -/
noncomputable def rProp (E : Env) (n : Nat) (lr : ℝ) (dW dW' : Nat → ℝ) : Prop :=
  Runs (E.exec .rprop n) n (eachSteps fun _ v => lr * sgn v) dW dW'

/-- The loops of `ModProp_st` 4748–4755 and `ModProp_mt` 4771–4778. A cell is (dW, rmsF). -/
noncomputable def modCell (lr decay eps : ℝ) (c : ℝ × ℝ) : ℝ × ℝ :=
  let ema := c.2 * decay + |c.1| * (1 - decay)
  (lr * (c.1 / (ema + eps)), ema)

/-- `ModProp` 4729–4782. -/
noncomputable def modProp (E : Env) (n : Nat) (lr decay eps : ℝ) (dW F dW' F' : Nat → ℝ) : Prop :=
  Runs (E.exec .modprop n) n (eachSteps fun _ => modCell lr decay eps) (fun i => (dW i, F i)) (fun i => (dW' i, F' i))

/-- `_iAdam_st` 4801–4851 on a range, after the powers were updated. A cell is (dW, Mt, Vt). -/
noncomputable def adamCell (b1t b2t lr b1 b2 eps : ℝ) (c : ℝ × ℝ × ℝ) : ℝ × ℝ × ℝ :=
  let alphat := lr * Real.sqrt (1 - b2t) / (1 - b1t)
  let m := c.2.1 * b1 + c.1 * (1 - b1)
  let v := c.2.2 * b2 + c.1 * c.1 * (1 - b2)
  (alphat * m / (Real.sqrt v + eps), m, v)

/-- `Adam` 4788–4800, `Adam_mt` 4852–4869: the powers are multiplied once, then the elements are processed. -/
noncomputable def adam (E : Env) (n : Nat) (lr b1 b2 eps b1t b2t : ℝ) (dW M V : Nat → ℝ) (b1t' b2t' : ℝ) (dW' M' V' : Nat → ℝ) : Prop :=
  b1t' = b1t * b1 ∧ b2t' = b2t * b2 ∧
  Runs (E.exec .adam n) n (eachSteps fun _ => adamCell b1t' b2t' lr b1 b2 eps) (fun i => (dW i, M i, V i)) (fun i => (dW' i, M' i, V' i))

/-- `_iAdaMax_st` 4886–4912, after the power was updated. A cell is (dW, Mt, Ut). -/
noncomputable def adaMaxCell (b1t lr b1 b2 eps : ℝ) (c : ℝ × ℝ × ℝ) : ℝ × ℝ × ℝ :=
  let alphat := lr / (1 - b1t)
  let m := c.2.1 * b1 + c.1 * (1 - b1)
  let u := max |c.1| (b2 * c.2.2)
  (alphat * m / (u + eps), m, u)

/-- `AdaMax` 4874–4927. -/
noncomputable def adaMax (E : Env) (n : Nat) (lr b1 b2 eps b1t : ℝ) (dW M U : Nat → ℝ) (b1t' : ℝ) (dW' M' U' : Nat → ℝ) : Prop :=
  b1t' = b1t * b1 ∧
  Runs (E.exec .adamax n) n (eachSteps fun _ => adaMaxCell b1t' lr b1 b2 eps) (fun i => (dW i, M i, U i)) (fun i => (dW' i, M' i, U' i))

/-- `_iRNadam_st` 4954–5010, after the powers were updated. A cell is (dW, Mt, Nt). -/
noncomputable def rNadamCell (mup etat lr mu eta gamma eps : ℝ) (c : ℝ × ℝ × ℝ) : ℝ × ℝ × ℝ :=
  let muT := (mu - mup) / (1 - mup)
  let etaT := (eta - etat) / (1 - etat)
  let cM := if gamma = 0 then mu * ((1 - mup) / (1 - mu * mup)) else 1 - gamma
  let cG := if gamma = 0 then 1 - muT else gamma
  let nn := c.2.2 * etaT + c.1 * c.1 * (1 - etaT)
  let m := c.2.1 * muT + c.1 * (1 - muT)
  (lr * ((cM * m + cG * c.1) / (Real.sqrt nn + eps)), m, nn)

/-- `RNadam` 4937–5028. -/
noncomputable def rNadam (E : Env) (n : Nat) (lr mu eta gamma eps mup etat : ℝ) (dW M N : Nat → ℝ) (mup' etat' : ℝ) (dW' M' N' : Nat → ℝ) : Prop :=
  mup' = mup * mu ∧ etat' = etat * eta ∧
  Runs (E.exec .rnadam n) n (eachSteps fun _ => rNadamCell mup' etat' lr mu eta gamma eps) (fun i => (dW i, M i, N i)) (fun i => (dW' i, M' i, N' i))

/-! ### Dropout -/

/-- `apply_dropout_mask` 1248–1283: keeps the elements whose draw is below `p`. -/
noncomputable def applyDropoutMask (E : Env) (n : Nat) (p : ℝ) (draw A A' : Nat → ℝ) : Prop :=
  Runs (E.exec .dropoutMask n) n (eachSteps fun i v => v * (if draw i < p then 1 else 0)) A A'

/-! ### Norms of rows -/

/-- The matrix of squares summed up by `_imrwL2NormSquared_st` 820–842. -/
noncomputable def sqOf (A : Mtx ℝ) : Mtx ℝ := { A with data := fun i => A.data i * A.data i }

/-- `_imrwL2NormSquared_st` 820–842: the vector is zeroed, then the squares are added column by column. -/
noncomputable def l2Vec (A : Mtx ℝ) (cb ce rb re : Nat) : List (Step ℝ) := setRange 0 rb re ++ mrwCw opSum (sqOf A) cb ce rb re

/-- `mrwL2NormSquared` 808–860, `mrwL2NormSquared_st` 816–818, `mrwL2NormSquared_mt` 843–860. `exs`, `cws`: how `mrwSum_ip` is done. -/
noncomputable def l2NormSquared (E : Env) (exs : Exec) (cws : Bool) (st : Bool) (A : Mtx ℝ) (v v' : Nat → ℝ) : Prop :=
  if st = true ∨ A.cols ≤ E.thr .l2normCols ∨ A.numel < E.thr .l2norm then Runs .st A.rows (l2Vec A 0 A.cols) v v'
  else ∃ w : List (Step ℝ), Interleaves (cwThreads E.rs A (E.thr .l2normCols) fun cb ce => l2Vec A cb ce 0 A.rows) w ∧
    mrwSumIp exs cws (finMtx A (runSteps v w)
      (threadsUsed E.rs.length A.cols (threadsForCols (E.thr .l2normCols) A.cols (E.rs.length + 1)))) v'

/-- `mrwMulByVec` `nntl/interface/math/smath.h` 1155–1187; `st`: the one-thread variant is called directly. -/
noncomputable def mulByVec (E : Env) (st : Bool) (A : Mtx ℝ) (v : Nat → ℝ) (d d' : Nat → ℝ) : Prop :=
  ElemRuns (if st = true ∨ A.numel < E.thr .mulByVec then .byRows .st
      else if A.rows < E.thr .mulByVecMtRows then .byCols (.mt E.rs) else .byRows (.mt E.rs))
    (decide (¬ A.rows < E.thr .mulByVecStRows)) (fun r _ a => a * v r) A.rows A.cols d d'

/-- The coefficient of a row, 926–929, 952–955. -/
noncomputable def normCoef (maxNorm2 rowNorm : ℝ) : ℝ := if maxNorm2 < rowNorm then Real.sqrt (maxNorm2 / rowNorm) else 1

/-- `mCheck_normalize_rows` 900–961. `none`: a one-column matrix cannot have its last column hidden (assertion). -/
noncomputable def checkNormalizeRows (E : Env) (maxNorm2 : ℝ) (inclBias : Bool) (A : Mtx ℝ) (A' : Option (Mtx ℝ)) : Prop :=
  let st := decide (A.numel < E.thr .normRows)
  match (if inclBias then some A else A.hideLastCol) with
  | none => A' = none
  | some B =>
    ∃ (exs : Exec) (cws : Bool) (v0 v d' : Nat → ℝ), (exs = .st ∨ exs = .mt E.rs) ∧ l2NormSquared E exs cws st B v0 v ∧
      match (if inclBias then some B else B.restoreLastCol) with
      | none => A' = none
      | some C => mulByVec E st C (fun r => if r < A.rows then normCoef maxNorm2 (v r) else v r) C.data d' ∧ A' = some { C with data := d' }

end Nntl.Grad
