import Verif.Sgd.AnySpec
import Verif.Backprop.LexSpec

/-!
Training with dropout and with penalties on activations: what a network with them is meant to calculate, batch by batch. `Backprop.Ext` says what a layer is extended with:
a kind of dropout with a probability to keep (`Dropout.dropped` says what becomes of an activation), the random numbers of the first, second, … draw, and penalties with
their values. Nothing here speaks about memory, passes or optimisers.
-/
namespace Nntl.Sgd

open Nntl.Layers Nntl.Pass Nntl.Backprop
open Finset

/-- What becomes of the activation `x` of the neuron `c` in row `r` of a batch of `R` rows. `k`: the number of the draw in training; nothing in evaluation, where nothing
is dropped. -/
noncomputable def thinned (e : Ext) (k : Option ℕ) (R r c : ℕ) (x : ℝ) : ℝ :=
  match k, e.drop with
  | some k, some (kind, p) => Dropout.dropped kind p (e.draws k (r + R * c)) x
  | _, _ => x

/-- Activations of a fully connected layer with `n` inputs for a batch, before dropout. -/
noncomputable def plainActs (f : ℝ → ℝ) (n : ℕ) (W : Mat ℝ) (X : Mat ℝ) : Mat ℝ := fun r c => f (neuron n W (X r) c)

mutual
/-- The activations of a layer for a batch of `R` rows `X` of `n` values, when its weights are `W`. As `netFn`, but the activations of each fully connected layer are
thinned. A tile pack sees each part of each row as a row of its own. -/
noncomputable def batchFn (act : ℕ → ℝ → ℝ) (e : ℕ → Ext) (k : Option ℕ) : Layer → ℕ → (ℕ → Mat ℝ) → ℕ → Mat ℝ → Mat ℝ
  | .leaf id _, n, W, R, X => fun r c => thinned (e id) k R r c (plainActs (act id) n (W 0) X r c)
  | .vert _ f r, n, W, R, X => batchFnS act e k r f.neurons (after (mats f n).length W) R (batchFn act e k f n W R X)
  | .horiz _ _ fs, _, W, R, X => batchFnF act e k fs W R X
  | .tile _ t l, n, W, R, X => fun r c =>
    batchFn act e k l (n / t) W (t * R) (fun q j => X (q % R) (q / R * (n / t) + j)) (c / l.neurons * R + r) (c % l.neurons)
  termination_by structural l => l
noncomputable def batchFnS (act : ℕ → ℝ → ℝ) (e : ℕ → Ext) (k : Option ℕ) : Stack → ℕ → (ℕ → Mat ℝ) → ℕ → Mat ℝ → Mat ℝ
  | .nil, _, _, _, X => X
  | .cons l r, n, W, R, X => batchFnS act e k r l.neurons (after (mats l n).length W) R (batchFn act e k l n W R X)
noncomputable def batchFnF (act : ℕ → ℝ → ℝ) (e : ℕ → Ext) (k : Option ℕ) : Fields → (ℕ → Mat ℝ) → ℕ → Mat ℝ → Mat ℝ
  | .nil, _, _, X => X
  | .cons ofs cnt l r, W, R, X => fun q c =>
    if c < l.neurons then batchFn act e k l cnt W R (fun q j => X q (ofs + j)) q c
    else batchFnF act e k r (after (mats l cnt).length W) R X q (c - l.neurons)
end

mutual
/-- The sum of all penalties on activations (before dropout) for the batch. -/
noncomputable def penalties (act : ℕ → ℝ → ℝ) (e : ℕ → Ext) (k : Option ℕ) : Layer → ℕ → (ℕ → Mat ℝ) → ℕ → Mat ℝ → ℝ
  | .leaf id l, n, W, R, X => ((e id).pens.map fun p => p.val R l.neurons (plainActs (act id) n (W 0) X)).sum
  | .vert _ f r, n, W, R, X => penalties act e k f n W R X + penaltiesS act e k r f.neurons (after (mats f n).length W) R (batchFn act e k f n W R X)
  | .horiz _ _ fs, _, W, R, X => penaltiesF act e k fs W R X
  | .tile _ t l, n, W, R, X => penalties act e k l (n / t) W (t * R) (fun q j => X (q % R) (q / R * (n / t) + j))
  termination_by structural l => l
noncomputable def penaltiesS (act : ℕ → ℝ → ℝ) (e : ℕ → Ext) (k : Option ℕ) : Stack → ℕ → (ℕ → Mat ℝ) → ℕ → Mat ℝ → ℝ
  | .nil, _, _, _, _ => 0
  | .cons l r, n, W, R, X => penalties act e k l n W R X + penaltiesS act e k r l.neurons (after (mats l n).length W) R (batchFn act e k l n W R X)
noncomputable def penaltiesF (act : ℕ → ℝ → ℝ) (e : ℕ → Ext) (k : Option ℕ) : Fields → (ℕ → Mat ℝ) → ℕ → Mat ℝ → ℝ
  | .nil, _, _, _ => 0
  | .cons ofs cnt l r, W, R, X => penalties act e k l cnt W R (fun q j => X q (ofs + j)) + penaltiesF act e k r (after (mats l cnt).length W) R X
end

mutual
/-- For the batch every activation function and every penalty has a derivative where it is used. -/
def SmoothOn (act : ℕ → ℝ → ℝ) (e : ℕ → Ext) (k : Option ℕ) : Layer → ℕ → (ℕ → Mat ℝ) → ℕ → Mat ℝ → Prop
  | .leaf id l, n, W, R, X => (∀ r < R, ∀ c < l.neurons, DifferentiableAt ℝ (act id) (neuron n (W 0) (X r) c)) ∧
    ∀ p ∈ (e id).pens, p.ok R l.neurons (plainActs (act id) n (W 0) X)
  | .vert _ f r, n, W, R, X => SmoothOn act e k f n W R X ∧ SmoothOnS act e k r f.neurons (after (mats f n).length W) R (batchFn act e k f n W R X)
  | .horiz _ _ fs, _, W, R, X => SmoothOnF act e k fs W R X
  | .tile _ t l, n, W, R, X => SmoothOn act e k l (n / t) W (t * R) (fun q j => X (q % R) (q / R * (n / t) + j))
  termination_by structural l => l
def SmoothOnS (act : ℕ → ℝ → ℝ) (e : ℕ → Ext) (k : Option ℕ) : Stack → ℕ → (ℕ → Mat ℝ) → ℕ → Mat ℝ → Prop
  | .nil, _, _, _, _ => True
  | .cons l r, n, W, R, X => SmoothOn act e k l n W R X ∧ SmoothOnS act e k r l.neurons (after (mats l n).length W) R (batchFn act e k l n W R X)
def SmoothOnF (act : ℕ → ℝ → ℝ) (e : ℕ → Ext) (k : Option ℕ) : Fields → (ℕ → Mat ℝ) → ℕ → Mat ℝ → Prop
  | .nil, _, _, _ => True
  | .cons ofs cnt l r, W, R, X => SmoothOn act e k l cnt W R (fun q j => X q (ofs + j)) ∧ SmoothOnF act e k r (after (mats l cnt).length W) R X
end

/-- The output neurons before the activation, for row `r` of the batch. -/
noncomputable def Shape.rawOn (S : Shape) (e : ℕ → Ext) (k : Option ℕ) (W : Weights) (R : ℕ) (X : Mat ℝ) (r : ℕ) : ℕ → ℝ :=
  neuron S.tree.neurons W.out (batchFn S.act e k S.tree S.inputs W.body R X r)

/-- What the thinned network answers in row `r` of the batch. -/
noncomputable def Shape.answerOn (S : Shape) (e : ℕ → Ext) (k : Option ℕ) (W : Weights) (R : ℕ) (X : Mat ℝ) (r : ℕ) : ℕ → ℝ := S.last (S.rawOn e k W R X r)

/-- The mean loss of the network thinned with the `k`-th draw, and the penalties divided by the size of the batch. -/
noncomputable def Shape.thinLoss (S : Shape) (e : ℕ → Ext) (k R : ℕ) (X Y : Mat ℝ) (W : Weights) : ℝ :=
  (∑ r ∈ range R, S.loss (S.answerOn e (some k) W R X r) (Y r)) / R + penalties S.act e (some k) S.tree S.inputs W.body R X / R

/-- The batch can be trained on with the weights `W` and the `k`-th draw. -/
def Shape.RegularOn (S : Shape) (e : ℕ → Ext) (dz : ℝ → ℝ → ℝ) (k R : ℕ) (X Y : Mat ℝ) (W : Weights) : Prop :=
  SmoothOn S.act e (some k) S.tree S.inputs W.body R X ∧ ∀ r < R, LossGrad S.outputs S.last S.loss dz (S.rawOn e (some k) W R X r) (Y r)

/-! ### Any objective -/

/-- Partial derivatives of a function of all weights. -/
noncomputable def partBody (J : Weights → ℝ) (W : Weights) (i c j : ℕ) : ℝ := deriv (fun t => J (W.bumpBody i c j t)) 0
noncomputable def partOut (J : Weights → ℝ) (W : Weights) (c j : ℕ) : ℝ := deriv (fun t => J (W.bumpOut c j t)) 0

/-- As `Shape.Trained`, but with the derivatives of `J`. -/
def Shape.TrainedOn (S : Shape) (upd : ℕ → Bool) (uo : Bool) (J : Weights → ℝ) (C C' : Cells) : Prop :=
  (∀ i m, (mats S.tree S.inputs)[i]? = some m →
    if upd m.id then ∃ d : Mat ℝ, (∀ c < m.rows, ∀ j < m.cols, d c j = partBody J C.pre.weights i c j / m.tiles) ∧ C'.body i = (C.body i).pre.apply d
    else C'.body i = (C.body i).pre) ∧
  if uo then ∃ d : Mat ℝ, (∀ c < S.outputs, ∀ j < S.tree.neurons + 1, d c j = partOut J C.pre.weights c j) ∧ C'.out = C.out.pre.apply d
  else C'.out = C.out.pre

/-- One objective after the other. -/
def Shape.CourseOn (S : Shape) (upd : ℕ → Bool) (uo : Bool) : List (Weights → ℝ) → Cells → Cells → Prop
  | [], C, C' => S.SameCells C C'
  | J :: Js, C, C' => ∃ C1, S.TrainedOn upd uo J C C1 ∧ S.CourseOn upd uo Js C1 C'

/-- The objectives of a list of batches: each batch has a draw of its own, the first one the draw number `k`. -/
noncomputable def Shape.objectives (S : Shape) (e : ℕ → Ext) : ℕ → List (ℕ × Mat ℝ × Mat ℝ) → List (Weights → ℝ)
  | _, [] => []
  | k, b :: bs => S.thinLoss e k b.1 b.2.1 b.2.2 :: S.objectives e (k + 1) bs

end Nntl.Sgd
