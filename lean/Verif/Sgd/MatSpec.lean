import Verif.Sgd.AllSpec

/-!
Training with every setting of the optimisers: limits of the lengths of weight vectors, dropout of learning rates, blocked learning, and layers that are not trained. What
happens to a weight may then depend on all weights of its neuron, so optimisers are described matrix by matrix.
-/
namespace Nntl.Sgd

open Nntl.Layers Nntl.Pass Nntl.Grad
open Finset

/-- An optimiser of a matrix of weights with a state: what it does before a forward pass in training, and what it does with the derivatives. -/
structure MatRule (σ : Type) where
  before : σ → Mat ℝ → σ × Mat ℝ
  after : σ → Mat ℝ → Mat ℝ → σ × Mat ℝ

/-- Weights with the states of the optimisers of their matrices. -/
structure Stock (σ : Type) where
  W : Weights
  body : ℕ → σ
  out : σ

/-- The matrix `w` with `m` rows and `k` columns is `w'`. -/
def Agree (m k : ℕ) (w w' : Mat ℝ) : Prop := ∀ c < m, ∀ j < k, w c j = w' c j

/-- One step of the optimisers `ρ` (of layers by their identifiers and sizes) and `ρo` (of the output layer) on the mean loss of a batch. First all of them do what they do
before a forward pass; then all derivatives are taken at the weights `L` this gives, and the optimisers of the layers that are trained get them. -/
def Shape.MatStep {σ : Type} (S : Shape) (upd : ℕ → Bool) (uo : Bool) (ρ : ℕ → ℕ → ℕ → MatRule σ) (ρo : MatRule σ) (R : ℕ) (X Y : Mat ℝ) (h h' : Stock σ) : Prop :=
  ∃ L : Weights,
    (∀ i m, (mats S.tree S.inputs)[i]? = some m →
      let b := (ρ m.id m.rows m.cols).before (h.body i) (h.W.body i)
      Agree m.rows m.cols (L.body i) b.2 ∧
      let a := if upd m.id then (ρ m.id m.rows m.cols).after b.1 b.2 fun c j => S.dBody R X Y L i c j / m.tiles else b
      h'.body i = a.1 ∧ Agree m.rows m.cols (h'.W.body i) a.2) ∧
    let b := ρo.before h.out h.W.out
    Agree S.outputs (S.tree.neurons + 1) L.out b.2 ∧
    let a := if uo then ρo.after b.1 b.2 (S.dOut R X Y L) else b
    h'.out = a.1 ∧ Agree S.outputs (S.tree.neurons + 1) h'.W.out a.2

/-- The optimisers over a list of batches. -/
def Shape.MatPath {σ : Type} (S : Shape) (upd : ℕ → Bool) (uo : Bool) (ρ : ℕ → ℕ → ℕ → MatRule σ) (ρo : MatRule σ) :
    List (ℕ × Mat ℝ × Mat ℝ) → Stock σ → Stock σ → Prop
  | [], h, h' => S.Same h.W h'.W ∧ (∀ i m, (mats S.tree S.inputs)[i]? = some m → h'.body i = h.body i) ∧ h'.out = h.out
  | b :: bs, h, h' => ∃ h1, S.MatStep upd uo ρ ρo b.1 b.2.1 b.2.2 h h1 ∧ S.MatPath upd uo ρ ρo bs h1 h'

/-! ### What the library does -/

/-- A limit of the squared length of the weight vector of a neuron; the bias may count or not. -/
structure Limit where
  bound : ℝ
  bias : Bool

/-- The weights of a neuron, the bias too, are scaled such that the length becomes the limit, if it is above. -/
noncomputable def Limit.shrink (l : Limit) (k : ℕ) (w : Mat ℝ) : Mat ℝ := fun c j =>
  let len := ∑ i ∈ range (if l.bias then k else k - 1), w c i ^ 2
  if l.bound < len then Real.sqrt (l.bound / len) * w c j else w c j

noncomputable def limited (k : ℕ) (l : Option Limit) (w : Mat ℝ) : Mat ℝ :=
  match l with
  | none => w
  | some l => l.shrink k w

/-- Nesterov's momentum before a forward pass: the weights with `keep` move by the velocity times `μ`. -/
structure Ahead where
  μ : ℝ
  keep : ℕ → ℕ → Bool
  limit : Option Limit

noncomputable def Ahead.go (a : Ahead) (k : ℕ) (st : ℕ → ℕ → Memo) (w : Mat ℝ) : (ℕ → ℕ → Memo) × Mat ℝ :=
  (fun c j => { st c j with v := a.μ * (st c j).v }, limited k a.limit fun c j => if a.keep c j then w c j - a.μ * (st c j).v else w c j)

/-- How a step enters the velocity: it does not; it is added to the velocity times `μ`, and the weight moves by that; it is added to the velocity (which was multiplied
before the forward pass), and the weight moves by the step. -/
inductive Push
  | off
  | classical (μ : ℝ)
  | added

/-- What is done with the derivatives: the method with its numbers, momentum, gains, penalties (of biases and of ordinary weights), the weights that may move, and the
limit. -/
structure After where
  type : GradType
  q : Numbers
  push : Push
  gains : Option Gains
  pen : Bool → ℝ → ℝ
  keep : ℕ → ℕ → Bool
  limit : Option Limit

/-- For one weight: what is remembered, and by how much it is to be decreased. -/
noncomputable def After.cell (a : After) (bias : Bool) (s : Memo) (w d : ℝ) : Memo × ℝ :=
  let x := method a.type a.q s.n s.a s.b (d + a.pen bias w)
  let gain := match a.gains with
    | none => s.gain
    | some G => if s.n = 0 then s.gain else G.next s.gain ((if G.byVelocity then s.v else s.prev) * x.2)
  let y := match a.gains with
    | none => x.2
    | some _ => if s.n = 0 then x.2 else x.2 * gain
  let prev := match a.gains with
    | none => s.prev
    | some G => if G.byVelocity then s.prev else y
  let v := match a.push with
    | .off => s.v
    | .classical μ => μ * s.v + y
    | .added => s.v + y
  (⟨s.n + 1, x.1.1, x.1.2, v, gain, prev⟩, match a.push with
    | .classical _ => v
    | _ => y)

noncomputable def After.go (a : After) (k : ℕ) (st : ℕ → ℕ → Memo) (w d : Mat ℝ) : (ℕ → ℕ → Memo) × Mat ℝ :=
  (fun c j => (a.cell (decide (j + 1 = k)) (st c j) (w c j) (d c j)).1,
    limited k a.limit fun c j => if a.keep c j then w c j - (a.cell (decide (j + 1 = k)) (st c j) (w c j) (d c j)).2 else w c j)

/-- What is remembered for a matrix: how often it was asked before a forward pass and with derivatives, and for each weight. -/
structure LayerMemo where
  p : ℕ
  t : ℕ
  cell : ℕ → ℕ → Memo

/-- A rule with settings that may change from call to call; in a call without settings nothing is done. -/
noncomputable def MatRule.scheduled (k : ℕ) (before : ℕ → Option Ahead) (after : ℕ → Option After) : MatRule LayerMemo :=
  ⟨fun s w => match before s.p with
      | none => (⟨s.p + 1, s.t, s.cell⟩, w)
      | some a => (⟨s.p + 1, s.t, (a.go k s.cell w).1⟩, (a.go k s.cell w).2),
    fun s w d => match after s.t with
      | none => (⟨s.p, s.t + 1, s.cell⟩, w)
      | some a => (⟨s.p, s.t + 1, (a.go k s.cell w d).1⟩, (a.go k s.cell w d).2)⟩

end Nntl.Sgd
