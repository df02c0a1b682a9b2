import Verif.Backprop.Lemmas
import Verif.Pass.Tree

/-! Derivatives through trees of layers. -/
namespace Nntl.Backprop

open Nntl.Pass Nntl.Layers
open Finset

variable {I : Nat → Leaf → BS → Nat → Sem ℝ}

mutual
/-- The tree of layers as a function of its weights, from those of the elementary layers. -/
def semDiff (DI : ∀ id l inc n, Diff (I id l inc n).law) : (l : Layer) → (inc : BS) → (n : Nat) → Diff (sem I l inc n).law
  | .leaf id l, inc, n => DI id l inc n
  | .vert _ f r, inc, n => stackDiff DI r inc (sem I f inc n) (semDiff DI f inc n)
  | .horiz _ _ fs, inc, n => horizDiff n inc.biggest _ _ (fieldsDiff DI fs inc)
  | .tile _ k l, inc, n => tileDiff k _ (semDiff DI l (inc.mul k) (n / k))
  termination_by structural l => l
def stackDiff (DI : ∀ id l inc n, Diff (I id l inc n).law) : (r : Stack) → (inc : BS) → (acc : Sem ℝ) → Diff acc.law → Diff (semStack I r inc acc).law
  | .nil, _, _, D => D
  | .cons l r, inc, acc, D => stackDiff DI r inc ⟨over acc.obj (sem I l inc acc.obj.neurons).obj, overLaw acc.law (sem I l inc acc.obj.neurons).law⟩
      (overDiff D (semDiff DI l inc acc.obj.neurons))
def fieldsDiff (DI : ∀ id l inc n, Diff (I id l inc n).law) : (fs : Fields) → (inc : BS) → Diffs (semFields I fs inc).fs (semFields I fs inc).laws
  | .nil, _ => ⟨⟩
  | .cons _ cnt l r, inc => (semDiff DI l inc cnt, fieldsDiff DI r inc)
end

/-- An elementary layer has the sizes it should have and calculates derivatives. -/
structure LeafDiff (DI : ∀ id l inc n, Diff (I id l inc n).law) (l : Leaf) : Prop where
  sizes : ∀ id inc n, (I id l inc n).obj.inc = n ∧ (I id l inc n).obj.neurons = l.neurons
  diff : ∀ id inc n, IsDiff (DI id l inc n)

mutual
theorem allLeaves_of {P : Leaf → Prop} (h : ∀ l, P l) : (l : Layer) → l.AllLeaves P
  | .leaf _ l => h l
  | .vert _ f r => ⟨allLeaves_of h f, stackLeaves_of h r⟩
  | .horiz _ _ fs => fieldsLeaves_of h fs
  | .tile _ _ l => allLeaves_of h l
theorem stackLeaves_of {P : Leaf → Prop} (h : ∀ l, P l) : (r : Stack) → r.AllLeaves P
  | .nil => trivial
  | .cons l r => ⟨allLeaves_of h l, stackLeaves_of h r⟩
theorem fieldsLeaves_of {P : Leaf → Prop} (h : ∀ l, P l) : (fs : Fields) → fs.AllLeaves P
  | .nil => trivial
  | .cons _ _ l r => ⟨allLeaves_of h l, fieldsLeaves_of h r⟩
end

mutual
theorem semDiff_ok {DI : ∀ id l inc n, Diff (I id l inc n).law} (l : Layer) (inc : BS) (n : Nat)
    (hp : l.AllPacks FieldsInside Divisible n) (hl : l.AllLeaves (LeafDiff DI)) (hx : NoExtra l) :
    IsDiff (semDiff DI l inc n) ∧ (sem I l inc n).obj.inc = n ∧ (sem I l inc n).obj.neurons = l.neurons := by
  match l with
  | .leaf id l => exact ⟨hl.diff id inc n, hl.sizes id inc n⟩
  | .vert _ f r =>
    obtain ⟨h1, h2, h3⟩ := semDiff_ok f inc n hp.1 hl.1 hx.1
    obtain ⟨a1, a2, a3⟩ := stackDiff_ok r inc f.neurons hp.2 hl.2 hx.2 (sem I f inc n) h3 (semDiff DI f inc n) h1
    exact ⟨a1, a2.trans h2, a3⟩
  | .horiz _ add fs =>
    simp only [Layer.AllPacks] at hp
    obtain ⟨h1, h2⟩ := fieldsDiff_ok fs inc n hp.1 hp.2 hl hx.2
    refine ⟨horiz_isDiff h1, rfl, ?_⟩
    have := hx.1
    subst this
    exact h2
  | .tile _ k l =>
    obtain ⟨⟨hk, hm⟩, hp⟩ := hp
    obtain ⟨h1, h2, h3⟩ := semDiff_ok l (inc.mul k) (n / k) hp hl hx
    refine ⟨tile_isDiff hk h1, ?_, ?_⟩
    · have := Nat.div_add_mod n k
      show k * (sem I l (inc.mul k) (n / k)).obj.inc = n
      rw [h2]; omega
    · show k * (sem I l (inc.mul k) (n / k)).obj.neurons = _
      rw [h3]; rfl
theorem stackDiff_ok {DI : ∀ id l inc n, Diff (I id l inc n).law} (r : Stack) (inc : BS) (m : Nat)
    (hp : r.AllPacks FieldsInside Divisible m) (hl : r.AllLeaves (LeafDiff DI)) (hx : NoExtraS r) (acc : Sem ℝ) (hm : acc.obj.neurons = m)
    (D : Diff acc.law) (hD : IsDiff D) :
    IsDiff (stackDiff DI r inc acc D) ∧ (semStack I r inc acc).obj.inc = acc.obj.inc ∧ (semStack I r inc acc).obj.neurons = r.top m := by
  match r with
  | .nil => exact ⟨hD, rfl, hm⟩
  | .cons l r =>
    obtain ⟨h1, h2, h3⟩ := semDiff_ok l inc m hp.1 hl.1 hx.1
    subst hm
    obtain ⟨a1, a2, a3⟩ := stackDiff_ok r inc l.neurons hp.2 hl.2 hx.2
      ⟨over acc.obj (sem I l inc acc.obj.neurons).obj, overLaw acc.law (sem I l inc acc.obj.neurons).law⟩ h3
      (overDiff D (semDiff DI l inc acc.obj.neurons)) (over_isDiff hD h1 h2)
    exact ⟨a1, a2, a3⟩
theorem fieldsDiff_ok {DI : ∀ id l inc n, Diff (I id l inc n).law} (fs : Fields) (inc : BS) (n : Nat)
    (hr : FieldsInside n fs.coords) (hp : fs.AllPacks FieldsInside Divisible) (hl : fs.AllLeaves (LeafDiff DI)) (hx : NoExtraF fs) :
    fOk n (semFields I fs inc).fs (semFields I fs inc).laws (fieldsDiff DI fs inc) ∧ fNeurons (semFields I fs inc).fs = fs.neurons := by
  match fs with
  | .nil => exact ⟨trivial, rfl⟩
  | .cons ofs cnt l r =>
    obtain ⟨h1, h2, h3⟩ := semDiff_ok l inc cnt hp.1 hl.1 hx.1
    obtain ⟨a1, a2⟩ := fieldsDiff_ok r inc n (fun c hc => hr c (List.mem_cons_of_mem _ hc)) hp.2 hl.2 hx.2
    refine ⟨⟨h1, h2, hr (ofs, cnt) List.mem_cons_self, a1⟩, ?_⟩
    show (sem I l inc cnt).obj.neurons + fNeurons (semFields I r inc).fs = _
    rw [h3, a2]; rfl
end

mutual
/-- Smooth activation functions everywhere: the whole tree is smooth. -/
theorem semDiff_smooth {DI : ∀ id l inc n, Diff (I id l inc n).law} (h : ∀ id l inc n R s X, (DI id l inc n).Smooth R s X) (l : Layer) (inc : BS)
    (n R : Nat) (s : (sem I l inc n).obj.S) (X : Mat ℝ) : (semDiff DI l inc n).Smooth R s X := by
  match l with
  | .leaf id l => exact h id l inc n R s X
  | .vert _ f r => exact stackDiff_smooth h r inc (sem I f inc n) (semDiff DI f inc n) (fun R s X => semDiff_smooth h f inc n R s X) R s X
  | .horiz _ add fs => exact fieldsDiff_smooth h fs inc R s X
  | .tile _ k l => exact semDiff_smooth h l (inc.mul k) (n / k) _ _ _
theorem stackDiff_smooth {DI : ∀ id l inc n, Diff (I id l inc n).law} (h : ∀ id l inc n R s X, (DI id l inc n).Smooth R s X) (r : Stack) (inc : BS)
    (acc : Sem ℝ) (D : Diff acc.law) (hD : ∀ R s X, D.Smooth R s X) (R : Nat) (s : (semStack I r inc acc).obj.S) (X : Mat ℝ) :
    (stackDiff DI r inc acc D).Smooth R s X := by
  match r with
  | .nil => exact hD R s X
  | .cons l r =>
    exact stackDiff_smooth h r inc ⟨over acc.obj (sem I l inc acc.obj.neurons).obj, overLaw acc.law (sem I l inc acc.obj.neurons).law⟩
      (overDiff D (semDiff DI l inc acc.obj.neurons)) (fun R s X => ⟨hD _ _ _, semDiff_smooth h l inc _ _ _ _⟩) R s X
theorem fieldsDiff_smooth {DI : ∀ id l inc n, Diff (I id l inc n).law} (h : ∀ id l inc n R s X, (DI id l inc n).Smooth R s X) (fs : Fields) (inc : BS)
    (R : Nat) (s : FState (semFields I fs inc).fs) (X : Mat ℝ) : fSmooth R X (semFields I fs inc).fs (semFields I fs inc).laws (fieldsDiff DI fs inc) s := by
  match fs with
  | .nil => trivial
  | .cons ofs cnt l r => exact ⟨semDiff_smooth h l inc cnt _ _ _, fieldsDiff_smooth h r inc R s.2 X⟩
end

mutual
/-- No penalties in the elementary layers: none in the tree. -/
theorem semDiff_pen {DI : ∀ id l inc n, Diff (I id l inc n).law} (h : ∀ id l inc n R s X, (DI id l inc n).pen R s X = 0) (l : Layer) (inc : BS)
    (n R : Nat) (s : (sem I l inc n).obj.S) (X : Mat ℝ) : (semDiff DI l inc n).pen R s X = 0 := by
  match l with
  | .leaf id l => exact h id l inc n R s X
  | .vert _ f r => exact stackDiff_pen h r inc (sem I f inc n) (semDiff DI f inc n) (fun R s X => semDiff_pen h f inc n R s X) R s X
  | .horiz _ add fs => exact fieldsDiff_pen h fs inc R s X
  | .tile _ k l => exact semDiff_pen h l (inc.mul k) (n / k) _ _ _
theorem stackDiff_pen {DI : ∀ id l inc n, Diff (I id l inc n).law} (h : ∀ id l inc n R s X, (DI id l inc n).pen R s X = 0) (r : Stack) (inc : BS)
    (acc : Sem ℝ) (D : Diff acc.law) (hD : ∀ R s X, D.pen R s X = 0) (R : Nat) (s : (semStack I r inc acc).obj.S) (X : Mat ℝ) :
    (stackDiff DI r inc acc D).pen R s X = 0 := by
  match r with
  | .nil => exact hD R s X
  | .cons l r =>
    exact stackDiff_pen h r inc ⟨over acc.obj (sem I l inc acc.obj.neurons).obj, overLaw acc.law (sem I l inc acc.obj.neurons).law⟩
      (overDiff D (semDiff DI l inc acc.obj.neurons)) (fun R s X => by
        show D.pen R s.1 X + (semDiff DI l inc acc.obj.neurons).pen R s.2.2 _ = 0
        rw [hD, semDiff_pen h l, add_zero]) R s X
theorem fieldsDiff_pen {DI : ∀ id l inc n, Diff (I id l inc n).law} (h : ∀ id l inc n R s X, (DI id l inc n).pen R s X = 0) (fs : Fields) (inc : BS)
    (R : Nat) (s : FState (semFields I fs inc).fs) (X : Mat ℝ) : fPen R X (semFields I fs inc).fs (semFields I fs inc).laws (fieldsDiff DI fs inc) s = 0 := by
  match fs with
  | .nil => rfl
  | .cons ofs cnt l r =>
    show (semDiff DI l inc cnt).pen R s.1 _ + fPen R X (semFields I r inc).fs (semFields I r inc).laws (fieldsDiff DI r inc) s.2 = 0
    rw [semDiff_pen h l, fieldsDiff_pen h r, add_zero]
end

end Nntl.Backprop
