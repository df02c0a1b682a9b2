import Verif.Backprop.Spec
import Verif.Pass.OptModel

/-!
Derivatives through optional (gated) packs, `nntl/layer/pack_horizontal_optional.h`.

A layer under the gate sees the open rows of the batch only and averages its gradient over these rows, while the loss is averaged over all
rows of the batch. `ρ k` is the share of the rows of the batch that are open for layer `k`: the derivative of the loss is `ρ k` times the matrix
the optimiser of a layer under gate `k` is given.
-/
namespace Nntl.Backprop

open Nntl.Pass
open Nntl.Kernel (openRows)
open Finset

/-- Number of open rows for layer `k` when the gate's output is `γ`. -/
noncomputable def openCount (R : ℕ) (γ : Mat ℝ) (k : ℕ) : ℕ := (openRows (gmask γ k) R).length

def oLine : (fs : List (Fld ℝ)) → (Ls : Laws fs) → Diffs fs Ls → OState fs → (ℕ → Mat ℝ) → ℝ → OState fs
  | [], _, _, s, _, _ => s
  | _ :: fs, Ls, D, s, V, t => ((D.1.line s.1.1 V t, s.1.2), oLine fs Ls.tail D.2 s.2 (fun i => V (D.1.ws.length + i)) t)

/-- The matrices given to the optimisers of layer `k`, times the share of open rows. -/
noncomputable def oGrad (R : ℕ) (ρ : ℕ → ℝ) (γ X : Mat ℝ) : (fs : List (Fld ℝ)) → (k : ℕ) → (Ls : Laws fs) → Diffs fs Ls → OState fs → Mat ℝ → ℕ → Mat ℝ
  | [], _, _, _, _, _ => fun _ _ _ => 0
  | f :: fs, k, Ls, D, s, G =>
    glue D.1.ws.length
      (fun i c j => ρ k * D.1.grad (openCount R γ k) s.1.1 (pick R (gmask γ k) (colsFrom f.ofs X)) (pick R (gmask γ k) G) i c j)
      (oGrad R ρ γ X fs (k + 1) Ls.tail D.2 s.2 (colsFrom f.obj.neurons G))

/-- Layers with open rows are smooth on these rows. -/
def oSmooth (R : ℕ) (γ X : Mat ℝ) : (fs : List (Fld ℝ)) → (k : ℕ) → (Ls : Laws fs) → Diffs fs Ls → OState fs → Prop
  | [], _, _, _, _ => True
  | f :: fs, k, Ls, D, s =>
    (0 < openCount R γ k → D.1.Smooth (openCount R γ k) s.1.1 (pick R (gmask γ k) (colsFrom f.ofs X))) ∧ oSmooth R γ X fs (k + 1) Ls.tail D.2 s.2

/-- The optimisers of an open layer have been given matrices `h` that are, times the share of open rows, the gradient `g`; a closed layer (its part
of `g` is zero) is as it was. -/
def oStep (ρ : ℕ → ℝ) : (fs : List (Fld ℝ)) → (k : ℕ) → (Ls : Laws fs) → Diffs fs Ls → OState fs → (ℕ → Mat ℝ) → OState fs → Prop
  | [], _, _, _, _, _, _ => True
  | _ :: fs, k, Ls, D, s, g, s' =>
    (∃ h : ℕ → Mat ℝ, (∀ i < D.1.ws.length, ∀ c j, g i c j = ρ k * h i c j) ∧ (0 < ρ k → D.1.Step s.1.1 h s'.1.1) ∧ (ρ k = 0 → s'.1 = s.1)) ∧
    oStep ρ fs (k + 1) Ls.tail D.2 s.2 (fun i => g (D.1.ws.length + i)) s'.2

/-- Penalties of the layers with open rows, for these rows. -/
noncomputable def oPen (R : ℕ) (γ X : Mat ℝ) : (fs : List (Fld ℝ)) → (k : ℕ) → (Ls : Laws fs) → Diffs fs Ls → OState fs → ℝ
  | [], _, _, _, _ => 0
  | f :: fs, k, Ls, D, s =>
    (if 0 < openCount R γ k then D.1.pen (openCount R γ k) s.1.1 (pick R (gmask γ k) (colsFrom f.ofs X)) else 0) + oPen R γ X fs (k + 1) Ls.tail D.2 s.2

/-- The gate's output does not change near `X`. -/
def GateFlat {g : Obj ℝ} (Lg : Law g) (R : ℕ) (s : g.S) (X : Mat ℝ) : Prop :=
  ∀ Y : ℝ → Mat ℝ, Y 0 = X → (∀ r < R, ∀ c < g.inc, ContinuousAt (fun t => Y t r c) 0) →
    ∀ᶠ t in nhds 0, ∀ r < R, ∀ k < g.neurons, Lg.fwd R s (Y t) r k = Lg.fwd R s X r k

/-- The optional pack. `C` is what is asked from the gate: `GateFlat`, or nothing for inputs that do not move. -/
noncomputable def optDiff (inc bbs buf cap : ℕ) (add : Bool) (compl : ℝ → ℝ) {g : Fld ℝ} {fs : List (Fld ℝ)} (Lg : Law g.obj) {Ls : Laws fs}
    (Ds : Diffs fs Ls) (ρ : ℕ → ℝ) (C : ℕ → g.obj.S → Mat ℝ → Prop) : Diff (optionalLaw inc bbs buf cap add compl Lg Ls) where
  ws := fWs fs Ls Ds
  line := fun s V t => (s.1, s.2.1, oLine fs Ls Ds s.2.2 V t)
  grad := fun R s X G => oGrad R ρ (Lg.fwd R s.1 (colsFrom g.ofs X)) X fs 0 Ls Ds s.2.2 (colsFrom (g.obj.neurons + if add then g.obj.neurons else 0) G)
  Smooth := fun R s X => C R s.1 (colsFrom g.ofs X) ∧ oSmooth R (Lg.fwd R s.1 (colsFrom g.ofs X)) X fs 0 Ls Ds s.2.2 ∧
    ∀ k < fs.length, ρ k = openCount R (Lg.fwd R s.1 (colsFrom g.ofs X)) k / R
  Step := fun s h s' => s'.1 = s.1 ∧ oStep ρ fs 0 Ls Ds s.2.2 h s'.2.2
  pen := fun R s X => oPen R (Lg.fwd R s.1 (colsFrom g.ofs X)) X fs 0 Ls Ds s.2.2

/-- Sum over all weights under the gate of gradient times direction; the gradient of a layer counts with the share of open rows. -/
noncomputable def gatedSum (R : ℕ) (γ : Mat ℝ) : (fs : List (Fld ℝ)) → (k : ℕ) → (Ls : Laws fs) → Diffs fs Ls → (ℕ → Mat ℝ) → (ℕ → Mat ℝ) → ℝ
  | [], _, _, _, _, _ => 0
  | _ :: fs, k, Ls, D, h, V =>
    openCount R γ k / R * pairing D.1.ws h V + gatedSum R γ fs (k + 1) Ls.tail D.2 (fun i => h (D.1.ws.length + i)) (fun i => V (D.1.ws.length + i))

/-- The optimisers of the layers with open rows have been given their matrices of `h`; layers without open rows are as they were. -/
def Given (R : ℕ) (γ : Mat ℝ) : (fs : List (Fld ℝ)) → (k : ℕ) → (Ls : Laws fs) → Diffs fs Ls → OState fs → (ℕ → Mat ℝ) → OState fs → Prop
  | [], _, _, _, _, _, _ => True
  | _ :: fs, k, Ls, D, s, h, s' =>
    (if 0 < openCount R γ k then D.1.Step s.1.1 h s'.1.1 else s'.1 = s.1) ∧
    Given R γ fs (k + 1) Ls.tail D.2 s.2 (fun i => h (D.1.ws.length + i)) s'.2

/-- The fields are apart from each other. -/
def Apart : List (Fld ℝ) → Prop
  | [] => True
  | f :: fs => (∀ f' ∈ fs, f.ofs + f.cnt ≤ f'.ofs ∨ f'.ofs + f'.cnt ≤ f.ofs) ∧ Apart fs

end Nntl.Backprop
