import Verif.Sgd.ExtSpec
import Verif.Sgd.MatSpec

/-! As `MatSpec`, for any objectives in place of the mean losses of batches. -/
namespace Nntl.Sgd

open Nntl.Layers Nntl.Pass
open Finset

/-- One step of the optimisers `ρ` (of layers by their identifiers and sizes) and `ρo` (of the output layer) on the objective `J`. First all of them do what they do
before a forward pass; then all derivatives are taken at the weights `L` this gives, and the optimisers of the layers that are trained get them. -/
def Shape.MatStepOn {σ : Type} (S : Shape) (upd : ℕ → Bool) (uo : Bool) (ρ : ℕ → ℕ → ℕ → MatRule σ) (ρo : MatRule σ) (J : Weights → ℝ) (h h' : Stock σ) : Prop :=
  ∃ L : Weights,
    (∀ i m, (mats S.tree S.inputs)[i]? = some m →
      let b := (ρ m.id m.rows m.cols).before (h.body i) (h.W.body i)
      Agree m.rows m.cols (L.body i) b.2 ∧
      let a := if upd m.id then (ρ m.id m.rows m.cols).after b.1 b.2 fun c j => partBody J L i c j / m.tiles else b
      h'.body i = a.1 ∧ Agree m.rows m.cols (h'.W.body i) a.2) ∧
    let b := ρo.before h.out h.W.out
    Agree S.outputs (S.tree.neurons + 1) L.out b.2 ∧
    let a := if uo then ρo.after b.1 b.2 (partOut J L) else b
    h'.out = a.1 ∧ Agree S.outputs (S.tree.neurons + 1) h'.W.out a.2

/-- The optimisers over a list of objectives. -/
def Shape.MatPathOn {σ : Type} (S : Shape) (upd : ℕ → Bool) (uo : Bool) (ρ : ℕ → ℕ → ℕ → MatRule σ) (ρo : MatRule σ) :
    List (Weights → ℝ) → Stock σ → Stock σ → Prop
  | [], h, h' => S.Same h.W h'.W ∧ (∀ i m, (mats S.tree S.inputs)[i]? = some m → h'.body i = h.body i) ∧ h'.out = h.out
  | J :: Js, h, h' => ∃ h1, S.MatStepOn upd uo ρ ρo J h h1 ∧ S.MatPathOn upd uo ρ ρo Js h1 h'

end Nntl.Sgd
