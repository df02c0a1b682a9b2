import Verif.Pass.Fc
import Mathlib.Analysis.Calculus.Deriv.Basic
import Mathlib.Data.Real.Basic

/-!
What it means that backward passes calculate derivatives.

`Pass.Law` says what matrix a layer hands down (`bwd`) and how it may change (`Upd`), as formulas. Here these formulas are compared with
derivatives. The weights of a network are a list of matrices (one for each fully connected layer, from the lowest layer up and from the first
inner layer of a horizontal pack to the last); a direction `V` gives a matrix for each of them.
-/
namespace Nntl.Backprop

open Nntl.Pass
open Finset

/-- One matrix of weights: its size, and the number of tiles it is used for at the same time (1 outside of tile packs). -/
structure Wt where
  rows : ℕ
  cols : ℕ
  tiles : ℕ

/-- Sum over the elements of two matrices of `m` rows and `n` columns. -/
def inner (m n : ℕ) (A B : Mat ℝ) : ℝ := ∑ r ∈ range m, ∑ c ∈ range n, A r c * B r c

/-- Sum over all weights of gradient times direction; the gradient of a matrix counts once for each tile. -/
def pairing : List Wt → (ℕ → Mat ℝ) → (ℕ → Mat ℝ) → ℝ
  | [], _, _ => 0
  | w :: ws, g, V => w.tiles * inner w.rows w.cols (g 0) (V 0) + pairing ws (fun i => g (i + 1)) (fun i => V (i + 1))

/-- How the state of a layer depends on its weights. `line s V t`: the state with `t * V` added to the weights. `grad R s X G`: the matrices
that are given to the optimisers when the batch is `X` and the gradient with respect to the activations is `G`. `Step s g s'`: `s'` is the
state after the optimisers have been given `g`. `Smooth R s X`: the activation functions have derivatives where they are needed. `pen R s X`: the sum
of all penalties on activations for the batch `X`. -/
structure Diff {o : Obj ℝ} (L : Law o) : Type 1 where
  ws : List Wt
  line : o.S → (ℕ → Mat ℝ) → ℝ → o.S
  grad : ℕ → o.S → Mat ℝ → Mat ℝ → ℕ → Mat ℝ
  Smooth : ℕ → o.S → Mat ℝ → Prop
  Step : o.S → (ℕ → Mat ℝ) → o.S → Prop
  pen : ℕ → o.S → Mat ℝ → ℝ

/-- The layer calculates derivatives: along any path of the input and any direction of the weights, the weighted sum of the activations
together with the penalties, changes with the rate given by the gradient handed down and by the gradients handed to the optimisers. The latter are
averaged over the rows of the batch, hence the factor `R`. -/
structure IsDiff {o : Obj ℝ} {L : Law o} (D : Diff L) : Prop where
  line_zero : ∀ s V, D.line s V 0 = s
  upd : ∀ R s X G s', D.Smooth R s X → L.Upd R s X G s' → D.Step s (D.grad R s X G) s'
  step_congr : ∀ s g g' s', (∀ i < D.ws.length, g i = g' i) → D.Step s g s' → D.Step s g' s'
  deriv : ∀ (R : ℕ) (s : o.S) (V : ℕ → Mat ℝ) (X : ℝ → Mat ℝ) (X' G : Mat ℝ), 0 < R → D.Smooth R s (X 0) →
    (∀ r < R, ∀ c < o.inc, HasDerivAt (fun t => X t r c) (X' r c) 0) →
    HasDerivAt (fun t => inner R o.neurons G (L.fwd R (D.line s V t) (X t)) + D.pen R (D.line s V t) (X t))
      (inner R o.inc (L.bwd R s (X 0) G) X' + R * pairing D.ws (D.grad R s (X 0) G) V) 0

/-- The same with the input fixed: enough for the lowest trained layers. -/
structure IsDiff0 {o : Obj ℝ} {L : Law o} (D : Diff L) : Prop where
  line_zero : ∀ s V, D.line s V 0 = s
  upd : ∀ R s X G s', D.Smooth R s X → L.Upd R s X G s' → D.Step s (D.grad R s X G) s'
  step_congr : ∀ s g g' s', (∀ i < D.ws.length, g i = g' i) → D.Step s g s' → D.Step s g' s'
  deriv : ∀ (R : ℕ) (s : o.S) (V : ℕ → Mat ℝ) (X G : Mat ℝ), 0 < R → D.Smooth R s X →
    HasDerivAt (fun t => inner R o.neurons G (L.fwd R (D.line s V t) X) + D.pen R (D.line s V t) X) (R * pairing D.ws (D.grad R s X G) V) 0

/-- Exact arithmetic. -/
noncomputable def realArith : Arith ℝ := ⟨fun n x y => ∑ i ∈ range n, x i * y i, fun a b => a * b, fun R => 1 / R⟩

/-- Gradients of the first `n` matrices, then of the others. -/
def glue (n : ℕ) (g h : ℕ → Mat ℝ) : ℕ → Mat ℝ := fun i => if i < n then g i else h (i - n)

/-- The fully connected layer: one matrix of `m` rows and `n + 1` columns. Smoothness: at each preactivation `df`, given the activation, is the
derivative of `f`. -/
noncomputable def fcDiff (gw : GradWorks ℝ) (f df : ℝ → ℝ) (upd : Bool) (NT n m : ℕ) : Diff (fcLaw realArith gw f df upd NT n m) where
  ws := [⟨m, n + 1, 1⟩]
  line := fun s V t => { s with w := fun c j => s.w c j + t * V 0 c j }
  grad := fun R s X G _ => gradW realArith R n X fun r c => df (f (preAct realArith n s.w X r c)) * G r c
  Smooth := fun R s X => ∀ r < R, ∀ c < m, HasDerivAt f (df (f (preAct realArith n s.w X r c))) (preAct realArith n s.w X r c)
  Step := fun s g s' => Updated upd m (n + 1) s (g 0) s'
  pen := fun _ _ _ => 0

def identityDiff (n : ℕ) : Diff (identityLaw (α := ℝ) n) where
  ws := []
  line := fun s _ _ => s
  grad := fun _ _ _ _ _ _ _ => 0
  Smooth := fun _ _ _ => True
  Step := fun _ _ _ => True
  pen := fun _ _ _ => 0

/-- Layers on top of each other. -/
def overDiff {l u : Obj ℝ} {L : Law l} {U : Law u} (D : Diff L) (E : Diff U) : Diff (overLaw L U) where
  ws := D.ws ++ E.ws
  line := fun s V t => (D.line s.1 V t, s.2.1, E.line s.2.2 (fun i => V (D.ws.length + i)) t)
  grad := fun R s X G => glue D.ws.length (D.grad R s.1 X (U.bwd R s.2.2 (L.fwd R s.1 X) G)) (E.grad R s.2.2 (L.fwd R s.1 X) G)
  Smooth := fun R s X => D.Smooth R s.1 X ∧ E.Smooth R s.2.2 (L.fwd R s.1 X)
  Step := fun s g s' => D.Step s.1 g s'.1 ∧ E.Step s.2.2 (fun i => g (D.ws.length + i)) s'.2.2
  pen := fun R s X => D.pen R s.1 X + E.pen R s.2.2 (L.fwd R s.1 X)

/-- Layers above layers that take no part in training: only the weights of the upper ones move. -/
def frozenDiff {l u : Obj ℝ} {L : Law l} {U : Law u} (E : Diff U) : Diff (frozenLaw L U) where
  ws := E.ws
  line := fun s V t => (s.1, s.2.1, E.line s.2.2 V t)
  grad := fun R s X G => E.grad R s.2.2 (L.fwd R s.1 X) G
  Smooth := fun R s X => E.Smooth R s.2.2 (L.fwd R s.1 X)
  Step := fun s g s' => s'.1 = s.1 ∧ E.Step s.2.2 g s'.2.2
  pen := fun R s X => E.pen R s.2.2 (L.fwd R s.1 X)

/-- The inner layers of a horizontal pack as functions of their weights. -/
def Diffs : (fs : List (Fld ℝ)) → Laws fs → Type 1
  | [], _ => PUnit
  | _ :: fs, Ls => Diff Ls.head × Diffs fs Ls.tail

def fWs : (fs : List (Fld ℝ)) → (Ls : Laws fs) → Diffs fs Ls → List Wt
  | [], _, _ => []
  | _ :: fs, Ls, D => D.1.ws ++ fWs fs Ls.tail D.2

def fLine : (fs : List (Fld ℝ)) → (Ls : Laws fs) → Diffs fs Ls → FState fs → (ℕ → Mat ℝ) → ℝ → FState fs
  | [], _, _, s, _, _ => s
  | _ :: fs, Ls, D, s, V, t => (D.1.line s.1 V t, fLine fs Ls.tail D.2 s.2 (fun i => V (D.1.ws.length + i)) t)

def fGrad (R : ℕ) (X : Mat ℝ) : (fs : List (Fld ℝ)) → (Ls : Laws fs) → Diffs fs Ls → FState fs → Mat ℝ → ℕ → Mat ℝ
  | [], _, _, _, _ => fun _ _ _ => 0
  | f :: fs, Ls, D, s, G =>
    glue D.1.ws.length (D.1.grad R s.1 (colsFrom f.ofs X) G) (fGrad R X fs Ls.tail D.2 s.2 (colsFrom f.obj.neurons G))

def fSmooth (R : ℕ) (X : Mat ℝ) : (fs : List (Fld ℝ)) → (Ls : Laws fs) → Diffs fs Ls → FState fs → Prop
  | [], _, _, _ => True
  | f :: fs, Ls, D, s => D.1.Smooth R s.1 (colsFrom f.ofs X) ∧ fSmooth R X fs Ls.tail D.2 s.2

def fStep : (fs : List (Fld ℝ)) → (Ls : Laws fs) → Diffs fs Ls → FState fs → (ℕ → Mat ℝ) → FState fs → Prop
  | [], _, _, _, _, _ => True
  | _ :: fs, Ls, D, s, g, s' => D.1.Step s.1 g s'.1 ∧ fStep fs Ls.tail D.2 s.2 (fun i => g (D.1.ws.length + i)) s'.2

def fPen (R : ℕ) (X : Mat ℝ) : (fs : List (Fld ℝ)) → (Ls : Laws fs) → Diffs fs Ls → FState fs → ℝ
  | [], _, _, _ => 0
  | f :: fs, Ls, D, s => D.1.pen R s.1 (colsFrom f.ofs X) + fPen R X fs Ls.tail D.2 s.2

/-- Layers side by side. -/
def horizDiff (inc bias buf cap : ℕ) {fs : List (Fld ℝ)} {Ls : Laws fs} (Ds : Diffs fs Ls) : Diff (horizLaw inc bias buf cap Ls) where
  ws := fWs fs Ls Ds
  line := fun s V t => fLine fs Ls Ds s V t
  grad := fun R s X G => fGrad R X fs Ls Ds s G
  Smooth := fun R s X => fSmooth R X fs Ls Ds s
  Step := fun s g s' => fStep fs Ls Ds s g s'
  pen := fun R s X => fPen R X fs Ls Ds s

/-- A tile pack: each matrix is used for `k` tiles. -/
def tileDiff (k cap : ℕ) {l : Obj ℝ} {L : Law l} (D : Diff L) : Diff (tileLaw k cap L) where
  ws := D.ws.map fun w => ⟨w.rows, w.cols, k * w.tiles⟩
  line := fun s V t => (D.line s.1 V t, s.2)
  grad := fun R s X G => D.grad (k * R) s.1 (roll R l.inc X) (roll R l.neurons G)
  Smooth := fun R s X => D.Smooth (k * R) s.1 (roll R l.inc X)
  Step := fun s g s' => D.Step s.1 g s'.1
  pen := fun R s X => D.pen (k * R) s.1 (roll R l.inc X)

/-! ### The output layer and the loss -/

/-- `dz a y` is the derivative of the loss of one sample with respect to its preactivations: along any path `z` through the preactivations `p`.
`act` are the activations of the layer as a function of the preactivations of the sample, `y` the answers. -/
def LossGrad (m : ℕ) (act : (ℕ → ℝ) → ℕ → ℝ) (loss : (ℕ → ℝ) → (ℕ → ℝ) → ℝ) (dz : ℝ → ℝ → ℝ) (p y : ℕ → ℝ) : Prop :=
  ∀ (z : ℝ → ℕ → ℝ) (z' : ℕ → ℝ), (∀ c, z 0 c = p c) → (∀ c < m, HasDerivAt (fun t => z t c) (z' c) 0) →
    HasDerivAt (fun t => loss (act (z t)) y) (∑ c ∈ range m, dz (act p c) (y c) * z' c) 0

/-- The mean loss of a batch of `R` samples with the outputs `O` and the answers `Y`. -/
noncomputable def meanLoss (R : ℕ) (loss : (ℕ → ℝ) → (ℕ → ℝ) → ℝ) (O Y : Mat ℝ) : ℝ := (∑ r ∈ range R, loss (O r) (Y r)) / R

/-- The state of the output layer with `t * V` added to its weights. -/
def outLine {gw : GradWorks ℝ} (s : FcS gw) (V : Mat ℝ) (t : ℝ) : FcS gw := { s with w := fun c j => s.w c j + t * V c j }

end Nntl.Backprop
