import Verif.Backprop.Props

/-!
Networks as functions of their weights, and plain gradient descent on such functions: what a network of fully connected layers in packs is meant to
calculate for one sample, and how its weights are meant to move. Nothing here speaks about memory, batches in memory, passes or optimisers.

The weights of a network are a list of matrices, from the lowest layer up and from the first inner layer of a horizontal pack to the last; a matrix has
a row for each neuron, and one column more than there are inputs (the last one is for the biases).
-/
namespace Nntl.Sgd

open Nntl.Layers Nntl.Pass
open Finset

/-- A matrix of weights: the layer it belongs to, its size, and the number of tiles it is used for (1 outside of tile packs). -/
structure MatInfo where
  id : ℕ
  rows : ℕ
  cols : ℕ
  tiles : ℕ

mutual
/-- The matrices of a layer with `n` inputs. -/
def mats : Layer → ℕ → List MatInfo
  | .leaf id l, n => [⟨id, l.neurons, n + 1, 1⟩]
  | .vert _ f r, n => mats f n ++ matsS r f.neurons
  | .horiz _ _ fs, _ => matsF fs
  | .tile _ k l, n => (mats l (n / k)).map fun m => { m with tiles := k * m.tiles }
  termination_by structural l => l
def matsS : Stack → ℕ → List MatInfo
  | .nil, _ => []
  | .cons l r, n => mats l n ++ matsS r l.neurons
def matsF : Fields → List MatInfo
  | .nil => []
  | .cons _ cnt l r => mats l cnt ++ matsF r
end

/-- One neuron before its activation function: `n` inputs and the bias. -/
noncomputable def neuron (n : ℕ) (W : Mat ℝ) (x : ℕ → ℝ) (c : ℕ) : ℝ := ∑ j ∈ range n, W c j * x j + W c n

/-- The matrices after the first `k`. -/
def after (k : ℕ) (W : ℕ → Mat ℝ) : ℕ → Mat ℝ := fun i => W (k + i)

mutual
/-- The activations of a layer for one sample `x` of `n` values, when its weights are `W`. A vertical pack is a composition. Each inner layer of a
horizontal pack looks at the columns of its field, and the activations stand side by side. A tile pack applies the same layer to each of `k` parts of
the sample. -/
noncomputable def netFn (act : ℕ → ℝ → ℝ) : Layer → ℕ → (ℕ → Mat ℝ) → (ℕ → ℝ) → ℕ → ℝ
  | .leaf id _, n, W, x => fun c => act id (neuron n (W 0) x c)
  | .vert _ f r, n, W, x => stackFn act r f.neurons (after (mats f n).length W) (netFn act f n W x)
  | .horiz _ _ fs, _, W, x => fieldsFn act fs W x
  | .tile _ k l, n, W, x => fun c => netFn act l (n / k) W (fun j => x (c / l.neurons * (n / k) + j)) (c % l.neurons)
  termination_by structural l => l
noncomputable def stackFn (act : ℕ → ℝ → ℝ) : Stack → ℕ → (ℕ → Mat ℝ) → (ℕ → ℝ) → ℕ → ℝ
  | .nil, _, _, x => x
  | .cons l r, n, W, x => stackFn act r l.neurons (after (mats l n).length W) (netFn act l n W x)
noncomputable def fieldsFn (act : ℕ → ℝ → ℝ) : Fields → (ℕ → Mat ℝ) → (ℕ → ℝ) → ℕ → ℝ
  | .nil, _, x => x
  | .cons ofs cnt l r, W, x => fun c =>
    if c < l.neurons then netFn act l cnt W (fun j => x (ofs + j)) c else fieldsFn act r (after (mats l cnt).length W) x (c - l.neurons)
end

mutual
/-- For the sample `x` every activation function has a derivative where it is used. -/
def SmoothAt (act : ℕ → ℝ → ℝ) : Layer → ℕ → (ℕ → Mat ℝ) → (ℕ → ℝ) → Prop
  | .leaf id l, n, W, x => ∀ c < l.neurons, DifferentiableAt ℝ (act id) (neuron n (W 0) x c)
  | .vert _ f r, n, W, x => SmoothAt act f n W x ∧ SmoothAtS act r f.neurons (after (mats f n).length W) (netFn act f n W x)
  | .horiz _ _ fs, _, W, x => SmoothAtF act fs W x
  | .tile _ k l, n, W, x => ∀ t < k, SmoothAt act l (n / k) W fun j => x (t * (n / k) + j)
  termination_by structural l => l
def SmoothAtS (act : ℕ → ℝ → ℝ) : Stack → ℕ → (ℕ → Mat ℝ) → (ℕ → ℝ) → Prop
  | .nil, _, _, _ => True
  | .cons l r, n, W, x => SmoothAt act l n W x ∧ SmoothAtS act r l.neurons (after (mats l n).length W) (netFn act l n W x)
def SmoothAtF (act : ℕ → ℝ → ℝ) : Fields → (ℕ → Mat ℝ) → (ℕ → ℝ) → Prop
  | .nil, _, _ => True
  | .cons ofs cnt l r, W, x => SmoothAt act l cnt W (fun j => x (ofs + j)) ∧ SmoothAtF act r (after (mats l cnt).length W) x
end

/-- Weights of a whole network: of the layers below the output layer, and of the output layer. -/
structure Weights where
  body : ℕ → Mat ℝ
  out : Mat ℝ

/-- What a network is: its layers below the output layer, the number of its inputs, its activation functions, the number of its outputs, the activation of
the output layer (a function of all its neurons) and the loss of one sample. -/
structure Shape where
  tree : Layer
  inputs : ℕ
  act : ℕ → ℝ → ℝ
  outputs : ℕ
  last : (ℕ → ℝ) → ℕ → ℝ
  loss : (ℕ → ℝ) → (ℕ → ℝ) → ℝ

/-- The output neurons of the network before the activation, for the sample `x`. -/
noncomputable def Shape.raw (S : Shape) (W : Weights) (x : ℕ → ℝ) : ℕ → ℝ := neuron S.tree.neurons W.out (netFn S.act S.tree S.inputs W.body x)

/-- What the network answers to the sample `x`. -/
noncomputable def Shape.answer (S : Shape) (W : Weights) (x : ℕ → ℝ) : ℕ → ℝ := S.last (S.raw W x)

/-- The mean loss over a batch of `R` samples, the rows of `X`, with the expected answers `Y`. -/
noncomputable def Shape.meanLoss (S : Shape) (R : ℕ) (X Y : Mat ℝ) (W : Weights) : ℝ := (∑ r ∈ range R, S.loss (S.answer W (X r)) (Y r)) / R

/-- `t` is added to the element `c`, `j` of a matrix. -/
def bump (c j : ℕ) (t : ℝ) (M : Mat ℝ) : Mat ℝ := fun a b => if a = c ∧ b = j then M a b + t else M a b

/-- `t` is added to the element `c`, `j` of the matrix `i` below the output layer. -/
def Weights.bumpBody (W : Weights) (i c j : ℕ) (t : ℝ) : Weights := { W with body := fun k => if k = i then bump c j t (W.body k) else W.body k }
def Weights.bumpOut (W : Weights) (c j : ℕ) (t : ℝ) : Weights := { W with out := bump c j t W.out }

/-- Partial derivatives of the mean loss. -/
noncomputable def Shape.dBody (S : Shape) (R : ℕ) (X Y : Mat ℝ) (W : Weights) (i c j : ℕ) : ℝ := deriv (fun t => S.meanLoss R X Y (W.bumpBody i c j t)) 0
noncomputable def Shape.dOut (S : Shape) (R : ℕ) (X Y : Mat ℝ) (W : Weights) (c j : ℕ) : ℝ := deriv (fun t => S.meanLoss R X Y (W.bumpOut c j t)) 0

/-- Weights are the same as far as they exist. -/
def Same (ms : List MatInfo) (W W' : ℕ → Mat ℝ) : Prop := ∀ i m, ms[i]? = some m → ∀ c < m.rows, ∀ j < m.cols, W i c j = W' i c j

def Shape.Same (S : Shape) (W W' : Weights) : Prop :=
  Sgd.Same (mats S.tree S.inputs) W.body W'.body ∧ ∀ c < S.outputs, ∀ j < S.tree.neurons + 1, W.out c j = W'.out c j

/-- Learning rates: of the layers by their identifiers, and of the output layer. -/
structure Rates where
  body : ℕ → ℝ
  out : ℝ

/-- `W'` is one step of gradient descent from `W`: from every weight its learning rate times the derivative of the mean loss is subtracted. In a tile pack the
derivative is divided by the number of tiles the matrix is used for. -/
def Shape.Descent (S : Shape) (η : Rates) (R : ℕ) (X Y : Mat ℝ) (W W' : Weights) : Prop :=
  (∀ i m, (mats S.tree S.inputs)[i]? = some m → ∀ c < m.rows, ∀ j < m.cols,
    W'.body i c j = W.body i c j - η.body m.id * (S.dBody R X Y W i c j / m.tiles)) ∧
  ∀ c < S.outputs, ∀ j < S.tree.neurons + 1, W'.out c j = W.out c j - η.out * S.dOut R X Y W c j

/-- Gradient descent over a list of batches: the size, the samples and the expected answers of each. -/
def Shape.Path (S : Shape) (η : Rates) : List (ℕ × Mat ℝ × Mat ℝ) → Weights → Weights → Prop
  | [], W, W' => S.Same W W'
  | b :: bs, W, W' => ∃ W1, S.Descent η b.1 b.2.1 b.2.2 W W1 ∧ S.Path η bs W1 W'

/-- The batches a history of uses trains on. -/
def batches : List (Use ℝ) → List (ℕ × Mat ℝ × Mat ℝ)
  | [] => []
  | .eval _ _ :: us => batches us
  | .train R X Y :: us => (R, matOf R X, matOf R Y) :: batches us

/-- All learning rates times `ε`. -/
def Rates.times (η : Rates) (ε : ℝ) : Rates := ⟨fun id => ε * η.body id, ε * η.out⟩

/-- Some weight that is trained has a derivative other than 0. -/
def Shape.Slope (S : Shape) (η : Rates) (R : ℕ) (X Y : Mat ℝ) (W : Weights) : Prop :=
  (∃ i m c j, (mats S.tree S.inputs)[i]? = some m ∧ c < m.rows ∧ j < m.cols ∧ 0 < η.body m.id ∧ S.dBody R X Y W i c j ≠ 0) ∨
  ∃ c j, c < S.outputs ∧ j < S.tree.neurons + 1 ∧ 0 < η.out ∧ S.dOut R X Y W c j ≠ 0

/-- The batch can be trained on with the weights `W`: derivatives exist where they are needed; `dz` is the derivative of the loss with respect to the output
neurons (`Backprop.LossGrad`). -/
def Shape.Regular (S : Shape) (dz : ℝ → ℝ → ℝ) (R : ℕ) (X Y : Mat ℝ) (W : Weights) : Prop :=
  ∀ r < R, SmoothAt S.act S.tree S.inputs W.body (X r) ∧ Backprop.LossGrad S.outputs S.last S.loss dz (S.raw W (X r)) (Y r)

/-! ### Optimisers -/

/-- A matrix of weights with its optimiser: what the optimiser does (`Pass.GradWorks`: before a forward pass, and with a gradient), its state, the weights. -/
structure Cell where
  gw : GradWorks ℝ
  g : gw.G
  w : Mat ℝ

/-- Before a forward pass in training. -/
def Cell.pre (c : Cell) : Cell := ⟨c.gw, (c.gw.pre c.g c.w).1, (c.gw.pre c.g c.w).2⟩
/-- Given a gradient. -/
def Cell.apply (c : Cell) (d : Mat ℝ) : Cell := ⟨c.gw, (c.gw.apply c.g c.w d).1, (c.gw.apply c.g c.w d).2.1⟩

end Nntl.Sgd
