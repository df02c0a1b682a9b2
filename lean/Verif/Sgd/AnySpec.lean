import Verif.Sgd.Net

/-!
Training with any optimisers: what every optimiser is given, and what well known optimisers are meant to do with it, weight by weight.
-/
namespace Nntl.Sgd

open Nntl.Layers Nntl.Pass
open Finset

/-- All matrices of a network with their optimisers. -/
structure Cells where
  body : ℕ → Cell
  out : Cell

/-- Before a forward pass in training. -/
def Cells.pre (C : Cells) : Cells := ⟨fun i => (C.body i).pre, C.out.pre⟩

def Cells.weights (C : Cells) : Weights := ⟨fun i => (C.body i).w, C.out.w⟩

/-- The same matrices with the same states of the same optimisers. -/
def Shape.SameCells (S : Shape) (C C' : Cells) : Prop := (∀ i m, (mats S.tree S.inputs)[i]? = some m → C'.body i = C.body i) ∧ C'.out = C.out

/-- `C'` is what the optimisers make of `C` with the batch: before the forward pass they may move the weights; then each one, if its layer is trained, is given the
partial derivatives of the mean loss with respect to its weights, where they are now. -/
def Shape.Trained (S : Shape) (upd : ℕ → Bool) (uo : Bool) (R : ℕ) (X Y : Mat ℝ) (C C' : Cells) : Prop :=
  (∀ i m, (mats S.tree S.inputs)[i]? = some m →
    if upd m.id then ∃ d : Mat ℝ, (∀ c < m.rows, ∀ j < m.cols, d c j = S.dBody R X Y C.pre.weights i c j / m.tiles) ∧ C'.body i = (C.body i).pre.apply d
    else C'.body i = (C.body i).pre) ∧
  if uo then ∃ d : Mat ℝ, (∀ c < S.outputs, ∀ j < S.tree.neurons + 1, d c j = S.dOut R X Y C.pre.weights c j) ∧ C'.out = C.out.pre.apply d
  else C'.out = C.out.pre

/-- The same for a list of batches. -/
def Shape.Course (S : Shape) (upd : ℕ → Bool) (uo : Bool) : List (ℕ × Mat ℝ × Mat ℝ) → Cells → Cells → Prop
  | [], C, C' => S.SameCells C C'
  | b :: bs, C, C' => ∃ C1, S.Trained upd uo b.1 b.2.1 b.2.2 C C1 ∧ S.Course upd uo bs C1 C'

/-- The matrices of a network in a state. -/
noncomputable def Plan.cells (P : Plan) (s : NetS P.net) : Cells :=
  ⟨(treeGet P.gw P.act P.upd P.tree P.bs P.inputs).cells s.body, ⟨P.go, FcS.g (gw := P.go) s.out, FcS.w (gw := P.go) s.out⟩⟩

/-! ### Optimisers, weight by weight -/

/-- An optimiser as in textbooks: a weight `w` has a state; `look` is where the derivative is taken, `move` are the new state and the new weight, given the
derivative. -/
structure Rule (σ : Type) where
  look : σ → ℝ → ℝ
  move : σ → ℝ → ℝ → σ × ℝ

/-- A rule whose parameters change from step to step: the state counts the steps. -/
def Rule.scheduled {σ : Type} (ρ : ℕ → Rule σ) : Rule (ℕ × σ) :=
  ⟨fun s w => (ρ s.1).look s.2 w, fun s w d => ((s.1 + 1, ((ρ s.1).move s.2 w d).1), ((ρ s.1).move s.2 w d).2)⟩

/-- An optimiser of a matrix of `m` neurons with `k` weights each (the last one is the bias) does what the rules say, weight by weight: `rep g st` says that the state
`g` of the optimiser stands for the states `st` of the rules. -/
structure Follows {σ : Type} (gw : GradWorks ℝ) (m k : ℕ) (ρ : Bool → Rule σ) (rep : gw.G → (ℕ → ℕ → σ) → Prop) : Prop where
  inside : ∀ g st st', rep g st → (∀ c < m, ∀ j < k, st' c j = st c j) → rep g st'
  look : ∀ g st w, rep g st → ∀ c < m, ∀ j < k, (gw.pre g w).2 c j = (ρ (decide (j + 1 = k))).look (st c j) (w c j)
  move : ∀ g st w d, rep g st →
    (∀ c < m, ∀ j < k, (gw.apply (gw.pre g w).1 (gw.pre g w).2 d).2.1 c j = ((ρ (decide (j + 1 = k))).move (st c j) (w c j) (d c j)).2) ∧
    rep (gw.apply (gw.pre g w).1 (gw.pre g w).2 d).1 fun c j => ((ρ (decide (j + 1 = k))).move (st c j) (w c j) (d c j)).1

/-- Weights with the states of the optimisers. -/
structure Held (σ : Type) where
  W : Weights
  body : ℕ → ℕ → ℕ → σ
  out : ℕ → ℕ → σ

/-- One step of the optimisers `ρ` (of layers by their identifiers; for ordinary weights and for biases) and `ρo` (of the output layer) on the mean loss of a batch. All
derivatives are taken at the same weights `L`. -/
def Shape.RuleStep {σ : Type} (S : Shape) (ρ : ℕ → Bool → Rule σ) (ρo : Bool → Rule σ) (R : ℕ) (X Y : Mat ℝ) (h h' : Held σ) : Prop :=
  ∃ L : Weights,
    (∀ i m, (mats S.tree S.inputs)[i]? = some m → ∀ c < m.rows, ∀ j < m.cols,
      L.body i c j = (ρ m.id (decide (j + 1 = m.cols))).look (h.body i c j) (h.W.body i c j) ∧
      (h'.body i c j, h'.W.body i c j) =
        (ρ m.id (decide (j + 1 = m.cols))).move (h.body i c j) (h.W.body i c j) (S.dBody R X Y L i c j / m.tiles)) ∧
    ∀ c < S.outputs, ∀ j < S.tree.neurons + 1,
      L.out c j = (ρo (decide (j = S.tree.neurons))).look (h.out c j) (h.W.out c j) ∧
      (h'.out c j, h'.W.out c j) = (ρo (decide (j = S.tree.neurons))).move (h.out c j) (h.W.out c j) (S.dOut R X Y L c j)

/-- The optimisers over a list of batches. -/
def Shape.RulePath {σ : Type} (S : Shape) (ρ : ℕ → Bool → Rule σ) (ρo : Bool → Rule σ) : List (ℕ × Mat ℝ × Mat ℝ) → Held σ → Held σ → Prop
  | [], h, h' => S.Same h.W h'.W ∧ (∀ i m, (mats S.tree S.inputs)[i]? = some m → ∀ c < m.rows, ∀ j < m.cols, h'.body i c j = h.body i c j) ∧
    ∀ c < S.outputs, ∀ j < S.tree.neurons + 1, h'.out c j = h.out c j
  | b :: bs, h, h' => ∃ h1, S.RuleStep ρ ρo b.1 b.2.1 b.2.2 h h1 ∧ S.RulePath ρ ρo bs h1 h'

/-- The matrices `C` of a network hold the weights and the states of `h`. -/
def Plan.Holds {σ : Type} (P : Plan) (rep : ∀ id m k, (P.gw id m k).G → (ℕ → ℕ → σ) → Prop) (repo : P.go.G → (ℕ → ℕ → σ) → Prop) (C : Cells) (h : Held σ) : Prop :=
  (∀ i m, (mats P.tree P.inputs)[i]? = some m → ∃ g w, C.body i = ⟨P.gw m.id m.rows m.cols, g, w⟩ ∧
    (∀ c < m.rows, ∀ j < m.cols, w c j = h.W.body i c j) ∧ rep m.id m.rows m.cols g (h.body i)) ∧
  ∃ g w, C.out = ⟨P.go, g, w⟩ ∧ (∀ c < P.outputs, ∀ j < P.tree.neurons + 1, w c j = h.W.out c j) ∧ repo g h.out

/-- Momentum: the velocity is multiplied by `μ` and the derivative times the learning rate is added; the weight moves by the velocity. `pen` is the derivative of a
penalty on the weight. -/
def momentumRule (η μ : ℝ) (pen : ℝ → ℝ) : Rule ℝ := ⟨fun _ w => w, fun v w d => (μ * v + η * (d + pen w), w - (μ * v + η * (d + pen w)))⟩

/-- Nesterov's momentum: the same, but the derivative is taken where the velocity would bring the weight. -/
def nesterovRule (η μ : ℝ) (pen : ℝ → ℝ) : Rule ℝ :=
  ⟨fun v w => w - μ * v, fun v w d => (μ * v + η * (d + pen (w - μ * v)), w - (μ * v + η * (d + pen (w - μ * v))))⟩

/-- Adam (Kingma and Ba), in the form with one corrected learning rate: the state is the number of steps, the mean of derivatives and that of their squares. -/
noncomputable def adamRule (η β1 β2 ε : ℝ) (pen : ℝ → ℝ) : Rule (ℕ × ℝ × ℝ) :=
  ⟨fun _ w => w, fun s w d =>
    let m := β1 * s.2.1 + (1 - β1) * (d + pen w)
    let v := β2 * s.2.2 + (1 - β2) * (d + pen w) ^ 2
    ((s.1 + 1, m, v), w - η * Real.sqrt (1 - β2 ^ (s.1 + 1)) / (1 - β1 ^ (s.1 + 1)) * m / (Real.sqrt v + ε))⟩

/-- RMSProp (Hinton): the state is the mean of squares of derivatives, nothing before the first step; the first step is a plain one. -/
noncomputable def rmsRule (η β ε : ℝ) (pen : ℝ → ℝ) : Rule (Option ℝ) :=
  ⟨fun _ w => w, fun s w d => match s with
    | none => (some ((d + pen w) ^ 2), w - η * (d + pen w))
    | some a => (some (β * a + (1 - β) * (d + pen w) ^ 2), w - η * (d + pen w) / (Real.sqrt (β * a + (1 - β) * (d + pen w) ^ 2) + ε))⟩

/-- The derivative of the penalties `λ₁|w| + λ₂w²/2`; weights at 0 are left alone by the first one, biases by those with `ign`. -/
noncomputable def penaltySlope (l1 l2 : ℝ) (ign1 ign2 bias : Bool) (w : ℝ) : ℝ :=
  (if ign1 && bias then 0 else l1 * ((if 0 < w then 1 else 0) - if w < 0 then 1 else 0)) + if ign2 && bias then 0 else l2 * w

end Nntl.Sgd
