import Verif.Pass.OptModel
/-! The loop over the layers in a backward pass, with the two gradient matrices and the index of the current one. -/
namespace Nntl.Pass
open Nntl.Kernel

/-- `bprop` of one layer as the loop sees it: it is given the matrix with the gradient and the other one, and it returns `bAlternate` and
leaves something in both. -/
abbrev BStep (α : Type) := Mem α → Mem α → Bool × Mem α × Mem α

/-- The loop of `layers::bprop`, `nntl/layers.h` 330–350, and of `_lpv_bprop`, `nntl/layer/pack_vertical.h` 276–306 (the last round is the
call for the lowest layer). The layers are listed from the topmost one. `i` is `mtxIdx`. The result: the contents of the gradient matrix
at the call of each layer, then `mtxIdx` and both matrices at the end. -/
def downLoop {α : Type} : List (BStep α) → Bool → Mem α → Mem α → List (Mem α) × Bool × Mem α × Mem α
  | [], i, m0, m1 => ([], i, m0, m1)
  | f :: fs, i, m0, m1 =>
    let cur := if i then m1 else m0
    let other := if i then m0 else m1
    let x := f cur other
    let r := downLoop fs (xor i x.1) (if i then x.2.2 else x.2.1) (if i then x.2.1 else x.2.2)
    (cur :: r.1, r.2)

/-- A layer in a backward pass: its number of neurons, the number of its incoming neurons, `bprop`, and the gradient it has to produce from
the gradient it gets. -/
structure BLayer (α : Type) where
  neurons : Nat
  inc : Nat
  step : BStep α
  grad : Mat α → Mat α

/-- Given the gradient in the first matrix the layer leaves its gradient in the matrix that it reports, whatever was in the second one. -/
def BLayer.Delivers {α : Type} (R : Nat) (l : BLayer α) : Prop := ∀ D P G, Shows R l.neurons D G →
  Shows R l.inc (if (l.step D P).1 then (l.step D P).2.2 else (l.step D P).2.1) (l.grad G)

/-- Each layer is fed by the next one of the list. -/
def Stacked {α : Type} : List (BLayer α) → Prop
  | [] => True
  | [_] => True
  | a :: b :: r => a.inc = b.neurons ∧ Stacked (b :: r)

/-- The gradient after the first `k` layers. -/
def gradAfter {α : Type} (ls : List (BLayer α)) (k : Nat) (G : Mat α) : Mat α := (ls.take k).foldl (fun g l => l.grad g) G

/-! ### Inner layers of a horizontal pack, one by one -/

/-- Activations of the inner layers: for each its number of neurons and what it computes from the columns of its field. -/
def outs {α : Type} (R : Nat) (X : Mat α) : (fs : List (Fld α)) → Laws fs → FState fs → List (Nat × Mat α)
  | [], _, _ => []
  | f :: fs, Ls, s => (f.obj.neurons, Ls.head.fwd R s.1 (colsFrom f.ofs X)) :: outs R X fs Ls.tail s.2

/-- The same for the layers under a gate with output `g`: layer `k` computes from the rows in which column `k` of the gate is not zero, in their
order. -/
def gouts {α : Type} [Zero α] [DecidableEq α] (R : Nat) (g X : Mat α) : (fs : List (Fld α)) → (k : Nat) → Laws fs → OState fs →
    List (Nat × Mat α)
  | [], _, _, _ => []
  | f :: fs, k, Ls, s => (f.obj.neurons, Ls.head.fwd ((List.range R).filter fun r => g r k ≠ 0).length s.1.1
      fun q c => X (((List.range R).filter fun r => g r k ≠ 0).getD q 0) (f.ofs + c)) :: gouts R g X fs (k + 1) Ls.tail s.2

/-- The layers act on every row separately: layer `i` as the function `φs[i]` on a row. -/
def RowWise {α : Type} : (fs : List (Fld α)) → Laws fs → OState fs → List ((Nat → α) → Nat → α) → Prop
  | [], _, _, φs => φs = []
  | f :: fs, Ls, s, φs => ∃ φ φs', φs = φ :: φs' ∧
    (∀ n X q c, q < n → c < f.obj.neurons → Ls.head.fwd n s.1.1 X q c = φ (X q) c) ∧ RowWise fs Ls.tail s.2 φs'

/-- Gradients of the inner layers: for each its field and the gradient it computes from its own columns of the gradient of the pack. -/
def grads {α : Type} (R : Nat) (X : Mat α) : (fs : List (Fld α)) → Laws fs → FState fs → Mat α → List (Nat × Nat × Mat α)
  | [], _, _, _ => []
  | f :: fs, Ls, s, G => (f.ofs, f.cnt, Ls.head.bwd R s.1 (colsFrom f.ofs X) G) ::
    grads R X fs Ls.tail s.2 (colsFrom f.obj.neurons G)

/-- Where the block of layer `i` begins. -/
def blockStart {α : Type} (os : List (Nat × Mat α)) (i : Nat) : Nat := ((os.take i).map Prod.fst).sum

/-- What the gradients contribute to the incoming neuron `j` in row `r`. -/
def contributions {α : Type} (gs : List (Nat × Nat × Mat α)) (r j : Nat) : List α :=
  (gs.filter fun g => g.1 ≤ j ∧ j < g.1 + g.2.1).map fun g => g.2.2 r (j - g.1)

end Nntl.Pass
