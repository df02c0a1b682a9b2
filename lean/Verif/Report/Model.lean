import Verif.TrainData.Model
import Mathlib.Data.Real.Basic
/-!
Model of the calculation of the loss that is reported during training.
Source: /repo/nntl/nnet.h (`calcLossAndReport`, `_calcLoss4batch`, `_report_training_progress`), /repo/nntl/layers.h (`calcLossAddendum`).

Numbers are reals. What a network computes is a parameter: a theorem over all `Nn` is a theorem over all networks. Inspectors and observers are
left out.
-/
namespace Nntl.Report
open Nntl.Matrix

/-- What the layers compute. `W` is the type of all weights and settings of the layers together. -/
structure Nn (W α β : Type) where
  /-- `_fprop(x)` followed by `calc_loss(y)` of the output layer, nnet.h:313-316: loss of a batch, not divided by its size -/
  loss : W → Mtx α → Mtx β → ℝ
  /-- `lossAddendum()` of each layer: depends on weights and on the activations, hence on the features of the last forward pass -/
  addenda : List (W → Mtx α → ℝ)
  /-- `hasLossAddendum()` of the optimisers, evaluated on the weights and settings, fully_connected.h:388, output.h:147 -/
  hasW : W → Bool
  /-- penalties on activations are compiled in, extender.h:190-193 -/
  hasA : Bool

/-- State of the network that matters here. -/
structure St (W α : Type) where
  w : W
  /-- features of the last forward pass -/
  x : Mtx α
  /-- `m_lossAddendum` layers.h:117 -/
  cache : ℝ
  /-- `m_bCalcFullLossValue` -/
  full : Bool

variable {W α β : Type}

/-- nnet.h:556, 563: `want` is `opts.calcFullLossValue()`, the flags are collected by the initialisation of the layers. -/
def init (nn : Nn W α β) (want : Bool) (st : St W α) : St W α :=
  { st with full := if want then nn.hasW st.w || nn.hasA else want }

/-- `resetCalcLossAddendum` layers.h:280-282. -/
def reset (st : St W α) : St W α := { st with cache := 0 }

open Classical in
/-- `calcLossAddendum` layers.h:283-297. -/
noncomputable def calcAddendum (nn : Nn W α β) (st : St W α) : ℝ × St W α :=
  if st.cache = 0 then
    let ret := nn.addenda.foldl (fun ret f => ret + f st.w st.x) 0
    (ret, { st with cache := ret })
  else (st.cache, st)

/-- `_calcLoss4batch` nnet.h:321-324. -/
noncomputable def calcBatch (nn : Nn W α β) (st : St W α) (x : Mtx α) (y : Mtx β) : ℝ × St W α :=
  (nn.loss st.w x y / y.batchSize, { st with x := x })

/-- The loop over batches nnet.h:284-291; the list holds `batchX()`, `batchY()` after each call of `next_subset`. -/
noncomputable def loop (nn : Nn W α β) : ℝ → St W α → List (Mtx α × Mtx β) → ℝ × St W α
  | l, st, [] => (l, st)
  | l, st, (x, y) :: bs =>
    let p := calcBatch nn st x y
    loop nn (l + p.1) p.2 bs

/-- `calcLossAndReport` nnet.h:264-301. -/
noncomputable def calcLoss (nn : Nn W α β) (st : St W α) (bs : List (Mtx α × Mtx β)) : ℝ × St W α :=
  let st := if nn.hasA then reset st else st
  let p := loop nn 0 st bs
  if p.2.full then
    let q := calcAddendum nn p.2
    (p.1 + q.1, q.2)
  else p

/-- `_report_training_progress` nnet.h:237-251: losses of the training and of the test set. -/
noncomputable def report (nn : Nn W α β) (st : St W α) (tr te : List (Mtx α × Mtx β)) : (ℝ × ℝ) × St W α :=
  let p := calcLoss nn (reset st) tr
  let q := calcLoss nn p.2 te
  ((p.1, q.1), q.2)

/-- What happens to a network in the course of training: a step of training, or a change made by a callback, gives other weights and leaves other
activations; a callback may calculate a loss itself. -/
inductive Op (W α β : Type) where
  | change (w : W) (x : Mtx α)
  | report (tr te : List (Mtx α × Mtx β))
  | calc (bs : List (Mtx α × Mtx β))

noncomputable def step (nn : Nn W α β) (st : St W α) : Op W α β → St W α
  | .change w x => { st with w := w, x := x }
  | .report tr te => (report nn st tr te).2
  | .calc bs => (calcLoss nn st bs).2

noncomputable def runOps (nn : Nn W α β) : St W α → List (Op W α β) → St W α
  | st, [] => st
  | st, o :: os => runOps nn (step nn st o) os

end Nntl.Report
