import Verif.Grad.Model
import Mathlib.Algebra.BigOperators.Fin
/-! What the theorems about the application of gradients are stated with: training histories and the textbook formulas. -/
namespace Nntl.Grad
open Nntl.Kernel Nntl.Matrix Nntl.Threads
open scoped BigOperators

/-- A matrix of weights or gradients: allocated, at least one neuron, at least one input and the column of biases. -/
structure WeightsOk (W : Mtx ℝ) : Prop where
  nonempty : W.empty = false
  notBatchInRow : W.bir = false
  rows : 0 < W.rows
  cols : 2 ≤ W.cols
  room : W.rows * W.cols ≤ W.maxSize

/-- The matrices a configuration needs were allocated. -/
structure Ready (c : Cfg) (s : St) : Prop where
  a : c.type.needsA = true → s.hasA = true
  b : c.type.needsB = true → s.hasB = true
  v : c.useMom = true → s.hasV = true
  gain : c.useILR = true → s.hasGain = true
  prev : c.useILR = true → c.ilrUseMom = false → s.hasPrev = true

/-- The settings a session starts with, kept during the session: they decide which matrices `gw_init` allocates. Everything else (rates, momentum
value and its kind, betas, norms, caps, addendums, dropout) may be different at each step. -/
structure SameKind (c c' : Cfg) : Prop where
  type : c'.type = c.type
  useMom : c'.useMom = c.useMom
  useILR : c'.useILR = c.useILR
  ilrToMom : c'.ilrToMom = c.ilrToMom

/-- A training session of one layer: after `gw_init`, for `t = 0, 1, …, T−1` the layer calls `pre_training_fprop`, gets the gradient `g t` of
its weights, and calls `apply_grad`; `s t` is the state before step `t`, `p t` the state in which the gradient is calculated. The machine
(threads, thresholds), the settings and the draws may be different at each call. -/
structure Session (T : Nat) (E E' : Nat → Env) (c : Nat → Cfg) (g : Nat → Mtx ℝ) (draw draw' : Nat → Nat → ℝ) (s p : Nat → St) : Prop where
  init : ∃ W, WeightsOk W ∧ GwInit (c 0) W (s 0)
  env : ∀ t, t < T → (E t).Ok ∧ (E' t).Ok
  kind : ∀ t, t < T → SameKind (c 0) (c t)
  grad : ∀ t, t < T → WeightsOk (g t) ∧ (g t).rows = (s 0).W.rows ∧ (g t).cols = (s 0).W.cols
  pre : ∀ t, t < T → step (E t) (.pre (c t) false (draw t)) (s t) (some (p t))
  apply : ∀ t, t < T → step (E' t) (.apply (c t) false (g t) (draw' t)) (p t) (some (s (t + 1)))

/-- The gradient with the derivatives of the enabled L1 and L2 penalties added: `scale·sign(w)` and `scale·w`; a penalty that ignores biases leaves
the last column alone. -/
noncomputable def penalised (c : Cfg) (W g : Mtx ℝ) (i : Nat) : ℝ :=
  g.data i + (if c.l1IgnBias = true ∧ W.rows * (W.cols - 1) ≤ i then 0 else c.l1 * sgn (W.data i))
    + (if c.l2IgnBias = true ∧ W.rows * (W.cols - 1) ≤ i then 0 else c.l2 * W.data i)

/-- The number of weights a penalty looks at. -/
def penaltyCount (ignBias : Bool) (W : Mtx ℝ) : Nat := W.rows * (if ignBias then W.cols - 1 else W.cols)

/-- The value of the penalties as documented: `l1·Σ|w| + l2/2·Σw²`, each over all weights or over those that are not biases. -/
noncomputable def penalty (c : Cfg) (W : Mtx ℝ) : ℝ :=
  c.l1 * ∑ i ∈ Finset.range (penaltyCount c.l1IgnBias W), |W.data i| +
  c.l2 / 2 * ∑ i ∈ Finset.range (penaltyCount c.l2IgnBias W), W.data i ^ 2

/-- The weights with element `i` replaced. -/
def setElem (W : Mtx ℝ) (i : Nat) (x : ℝ) : Mtx ℝ := { W with data := fun k => if k = i then x else W.data k }

/-- `Σ_{k<T} (Π_{k<j<T} m_j)·x_k`: the value of `v ← m·v + x` after `T` steps from zero. -/
noncomputable def weightedSum (m x : Nat → ℝ) (T : Nat) : ℝ := ∑ k ∈ Finset.range T, (∏ j ∈ Finset.Ico (k + 1) T, m j) * x k

/-- The same settings without momentum, norm constraint and learning rate dropout. -/
noncomputable def Cfg.plain (c : Cfg) : Cfg := { c with useMom := false, useMaxNorm := false, lrDrop := 1 }

/-- The first `n` elements as a vector. -/
def vec (n : Nat) (f : Nat → ℝ) : Fin n → ℝ := fun i => f i

/-- The squared length of row `r` over the first `cols` columns. -/
noncomputable def rowLen2 (W : Mtx ℝ) (cols r : Nat) : ℝ := ∑ c ∈ Finset.range cols, (W.data (r + W.rows * c)) ^ 2

/-- Whether an event happens while learning is blocked. -/
def Ev.blocked : Ev → Bool
  | .pre _ b _ => b
  | .apply _ b _ _ => b
  | .setGamma _ => false

/-- The event can be handled in state `s`: the matrices its settings need were allocated by `gw_init`, and the gradient has the shape of the
weights. -/
def Ev.Fits (s : St) : Ev → Prop
  | .pre c _ _ => Ready c s
  | .apply c _ g _ => Ready c s ∧ WeightsOk g ∧ g.rows = s.W.rows ∧ g.cols = s.W.cols
  | .setGamma _ => True

/-- All that lives longer than a call is equal: weights, velocity, optimiser state, gains. The gradient buffer belongs to the caller. -/
def SameLasting (s t : St) : Prop :=
  t.W = s.W ∧ t.V = s.V ∧ t.A = s.A ∧ t.B = s.B ∧ t.gain = s.gain ∧ t.prev = s.prev ∧ t.b1t = s.b1t ∧ t.b2t = s.b2t ∧ t.gamma = s.gamma ∧
  t.firstRun = s.firstRun ∧ t.hasV = s.hasV ∧ t.hasA = s.hasA ∧ t.hasB = s.hasB ∧ t.hasGain = s.hasGain ∧ t.hasPrev = s.hasPrev

end Nntl.Grad
