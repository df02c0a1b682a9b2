import Verif.Dropout.Model
/-! What dropout has to do, in words of the API. -/
namespace Nntl.Dropout
open Nntl.Matrix Nntl.Grad

/-- The two numbers of alpha dropout: `a` and `b` of "Self-Normalizing Neural Networks" for the keep probability `p`, the value `-al` of a dropped neuron and the wanted mean and variance. -/
noncomputable def alphaA (al mean var p : ℝ) : ℝ := Real.sqrt (var / (p * ((1 - p) * (al + mean) ^ 2 + var)))
noncomputable def alphaB (al mean var p : ℝ) : ℝ := mean - alphaA al mean var p * (p * mean - (1 - p) * al)

/-- What an activation `x` becomes if its random number is `u`. -/
noncomputable def dropped (k : Kind) (p u x : ℝ) : ℝ :=
  match k with
  | .classical => if u < p then x / p else 0
  | .alpha al mean var => if u < p then alphaA al mean var p * x + alphaB al mean var p else alphaA al mean var p * -al + alphaB al mean var p

/-- The derivative of `dropped` with respect to `x`. -/
noncomputable def slope (k : Kind) (p u : ℝ) : ℝ :=
  match k with
  | .classical => if u < p then 1 / p else 0
  | .alpha al mean var => if u < p then alphaA al mean var p else 0

/-- Activations of `bs` samples of a layer of `n` neurons, with biases. -/
def ActOk (bs n : Nat) (act : Mtx ℝ) : Prop := act.rows = bs ∧ act.cols = n + 1 ∧ act.emul = true ∧ act.bir = false

/-- A gradient for them, without biases. -/
def GradOk (bs n : Nat) (g : Mtx ℝ) : Prop := g.rows = bs ∧ g.cols = n ∧ g.emul = false

/-- What has to come out of a training batch with the keep probability `p`: `up` goes to the upper layer, `grad` and `down` are the gradient and the activations for the backward pass of the
wrapped layer. -/
def RightBatch (k : Kind) (p : ℝ) (act dLdA : Mtx ℝ) (draw : Nat → ℝ) (up grad down : Mtx ℝ) : Prop :=
  (up.rows = act.rows ∧ up.cols = act.cols ∧ up.emul = act.emul) ∧ (grad.rows = dLdA.rows ∧ grad.cols = dLdA.cols) ∧
  (down.rows = act.rows ∧ down.cols = act.cols ∧ down.emul = act.emul ∧ ∀ i, down.data i = act.data i) ∧
  (∀ r c, r < act.rows → c + 1 < act.cols →
    up.data (r + act.rows * c) = (if p < 1 then dropped k p (draw (r + act.rows * c)) (act.data (r + act.rows * c)) else act.data (r + act.rows * c)) ∧
    grad.data (r + act.rows * c) = (if p < 1 then dLdA.data (r + act.rows * c) * slope k p (draw (r + act.rows * c)) else dLdA.data (r + act.rows * c))) ∧
  (∀ r, r < act.rows → up.data (r + act.rows * (act.cols - 1)) = act.data (r + act.rows * (act.cols - 1)))

/-- The keep probability after a call. -/
noncomputable def pAfter (p : ℝ) : Call → ℝ
  | .setP x => if 0 < x ∧ x ≤ 1 then x else 1
  | _ => p

/-- The number of samples the masks are prepared for. -/
noncomputable def curAfter (p : ℝ) (cur : Nat) : Call → Nat
  | .size training bs => if training = true ∧ p < 1 then bs else cur
  | _ => cur

/-- Correct use: batch sizes are announced and within the limit, and matrices have the announced sizes. If dropout is off, a batch may have any size. -/
noncomputable def Used (maxBS n : Nat) : ℝ → Nat → List Call → Prop
  | _, _, [] => True
  | p, cur, c :: cs =>
    (match c with
      | .setP _ => True
      | .size _ bs => 0 < bs ∧ bs ≤ maxBS
      | .batch act dLdA _ => ∃ bs, 0 < bs ∧ ActOk bs n act ∧ GradOk bs n dLdA ∧ (p < 1 → cur = bs)
      | .eval _ => True) ∧ Used maxBS n (pAfter p c) (curAfter p cur c) cs

/-- All results are right. -/
inductive Right (k : Kind) : ℝ → List Call → List Out → Prop
  | nil (p) : Right k p [] []
  | setP {p x cs os} : Right k (pAfter p (.setP x)) cs os → Right k p (.setP x :: cs) (.quiet :: os)
  | size {p t bs cs os} : Right k p cs os → Right k p (.size t bs :: cs) (.quiet :: os)
  | batch {p act dLdA draw up grad down cs os} : RightBatch k p act dLdA draw up grad down → Right k p cs os →
      Right k p (.batch act dLdA draw :: cs) (.batch up grad down :: os)
  | eval {p act cs os} : Right k p cs os → Right k p (.eval act :: cs) (.eval act :: os)

end Nntl.Dropout
