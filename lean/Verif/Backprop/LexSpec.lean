import Verif.Backprop.Net
import Verif.Pass.Lex
import Verif.Dropout.Props
import Verif.Grad.AddendumProps
import Verif.DeCov.Props

/-! Dropout and penalties on activations as functions on real matrices. -/
namespace Nntl.Backprop

open Nntl.Pass Nntl.Layers
open Finset

/-- A penalty on activations: what the layer does (`add`), its value for `R` samples and `n` neurons, and where it has a derivative. -/
structure Pen where
  add : Addend ℝ
  val : ℕ → ℕ → Mat ℝ → ℝ
  ok : ℕ → ℕ → Mat ℝ → Prop

/-- What is added to the gradient is the derivative of the value. -/
structure Pen.Correct (p : Pen) : Prop where
  local_ : p.add.Ok
  adds : ∀ d x, p.add.app d x = d + p.add.app 0 x
  deriv : ∀ (R n : ℕ) (A : ℝ → Mat ℝ) (A' : Mat ℝ), p.ok R n (A 0) → (∀ r < R, ∀ c < n, HasDerivAt (fun t => A t r c) (A' r c) 0) →
    HasDerivAt (fun t => p.val R n (A t)) (inner R n (fun r c => p.add.app 0 (p.add.term R n (A 0) r c)) A') 0

/-- `L2`, `nntl/loss_addendum/L2.h`: value 48–51, gradient 60–75 (`on_fprop` 53–58 keeps a copy of the activations). -/
noncomputable def l2Pen (onFprop : Bool) (scale : ℝ) : Pen :=
  ⟨⟨onFprop, fun _ _ A => A, fun d x => d + scale * x⟩, fun R n A => scale * (1 / 2) * ∑ r ∈ range R, ∑ c ∈ range n, A r c ^ 2, fun _ _ _ => True⟩

/-- `L1`, `nntl/loss_addendum/L1.h`: value 48–51, gradient 61–76 (`on_fprop` 53–58 keeps the signs). -/
noncomputable def l1Pen (onFprop : Bool) (scale : ℝ) : Pen :=
  ⟨⟨onFprop, fun _ _ A => if onFprop then fun r c => Grad.sgn (A r c) else A, fun d x => if onFprop then d + scale * x else d + scale * Grad.sgn x⟩,
    fun R n A => scale * ∑ r ∈ range R, ∑ c ∈ range n, |A r c|, fun R n A => ∀ r < R, ∀ c < n, A r c ≠ 0⟩

/-- `DeCov`, `nntl/loss_addendum/DeCov.h` (C84). -/
noncomputable def deCovPen (onFprop : Bool) (scale : ℝ) : Pen :=
  ⟨⟨onFprop, fun R n A => DeCov.slope R n A, fun d x => d + scale * x⟩, fun R n A => scale * DeCov.penalty R n A, fun _ _ _ => True⟩

/-- The cell function of a dropout with the keep probability `p`: `mathn.h` 1221–1227 and 1326–1332, with the coefficients of `_SNN_common.h` 82–103. -/
noncomputable def cellOf (k : Dropout.Kind) (p : ℝ) : ℝ → ℝ → ℝ × ℝ :=
  match k with
  | .classical => fun x u => Dropout.dropCell p (x, u)
  | .alpha al mean var => fun x u =>
    Dropout.alphaCell p (Dropout.coeffs al mean var p).1 (Dropout.coeffs al mean var p).2.1 (Dropout.coeffs al mean var p).2.2 (x, u)

/-- The extension of a layer: a dropout that is switched on, the random numbers it is given, and the penalties that are switched on. -/
structure Ext where
  drop : Option (Dropout.Kind × ℝ)
  draws : ℕ → Mem ℝ
  pens : List Pen

noncomputable def Ext.cfg (e : Ext) : LexCfg ℝ :=
  ⟨e.drop.map fun d => cellOf d.1 d.2, fun a b => a * b, e.draws, e.pens.map Pen.add, 0⟩

/-- Keep probabilities that switch dropout on; alpha dropout with a positive variance; penalties as above. -/
structure Ext.Ok (e : Ext) : Prop where
  prob : ∀ k p, e.drop = some (k, p) → 0 < p ∧ p < 1
  var : ∀ al mean var p, e.drop = some (.alpha al mean var, p) → 0 < var
  pens : ∀ p ∈ e.pens, p.Correct

/-- A wrapped layer as a function of its weights: the random numbers of the last forward pass are kept, the penalties of the activations before
dropout are added. -/
noncomputable def lexDiff (x : LexCfg ℝ) (ps : List Pen) {o : Obj ℝ} {L : Law o} (D : Diff L) : Diff (lexLaw x L) where
  ws := D.ws
  line := fun s V t => (D.line s.1 V t, s.2)
  grad := fun R s X G => D.grad R s.1 X (x.down s.2 R o.neurons (L.fwd R s.1 X) G)
  Smooth := fun R s X => D.Smooth R s.1 X ∧ ∀ p ∈ ps, p.ok R (o.neurons - x.gate) (colsFrom x.gate (L.fwd R s.1 X))
  Step := fun s g s' => D.Step s.1 g s'.1 ∧ s'.2 = s.2
  pen := fun R s X => D.pen R s.1 X + (ps.map fun p => p.val R (o.neurons - x.gate) (colsFrom x.gate (L.fwd R s.1 X))).sum

/-- A fully connected layer with an extension for every elementary layer of a tree. `gw id m k` is the optimiser of a layer with `m`×`k` weights. -/
noncomputable def exLayers (gw : ℕ → ℕ → ℕ → GradWorks ℝ) (act : ℕ → Act.Act) (upd : ℕ → Bool) (e : ℕ → Ext) : ℕ → Leaf → BS → ℕ → Sem ℝ := fun id l inc n =>
  ⟨lex (e id).cfg (fc realArith (gw id l.neurons (n + 1)) (act id).f (act id).df (upd id) inc.maxTrainBS n l.neurons),
    lexLaw (e id).cfg (fcLaw realArith (gw id l.neurons (n + 1)) (act id).f (act id).df (upd id) inc.maxTrainBS n l.neurons)⟩

noncomputable def exDiff (gw : ℕ → ℕ → ℕ → GradWorks ℝ) (act : ℕ → Act.Act) (upd : ℕ → Bool) (e : ℕ → Ext) :
    ∀ id l inc n, Diff (exLayers gw act upd e id l inc n).law := fun id l inc n =>
  lexDiff (e id).cfg (e id).pens (fcDiff (gw id l.neurons (n + 1)) (act id).f (act id).df (upd id) inc.maxTrainBS n l.neurons)

end Nntl.Backprop
