import Verif.Pass.Lex
import Verif.Pass.Tree
import Verif.Pass.Net
/-! Which parts of the state of a network matter: two states are twins if they have the same weights, the same optimiser state and the same number of
random numbers drawn. Activations, masks, temporary memory and gradients of earlier steps may differ. -/
namespace Nntl.Pass
open Nntl.Layers

/-- The same elements in `m` rows and `n` columns. -/
def Agree {α : Type} (m n : Nat) (X Y : Mat α) : Prop := ∀ r < m, ∀ c < n, X r c = Y r c

/-- An optimiser looks only at the elements of the matrices it is given; `Q` relates states of it that do not differ. -/
structure GradWorks.Local {α : Type} (gw : GradWorks α) (m k : Nat) (Q : gw.G → gw.G → Prop) : Prop where
  refl : ∀ g, Q g g
  symm : ∀ g h, Q g h → Q h g
  trans : ∀ g h i, Q g h → Q h i → Q g i
  pre : ∀ g h w v, Q g h → Agree m k w v → Q (gw.pre g w).1 (gw.pre h v).1 ∧ Agree m k (gw.pre g w).2 (gw.pre h v).2
  apply : ∀ g h w v d e, Q g h → Agree m k w v → Agree m k d e →
    Q (gw.apply g w d).1 (gw.apply h v e).1 ∧ Agree m k (gw.apply g w d).2.1 (gw.apply h v e).2.1

/-- Twin states of a layer with weights: same weights, same optimiser state. -/
def FcTwin {α : Type} {gw : GradWorks α} (m k : Nat) (Q : gw.G → gw.G → Prop) (s t : FcS gw) : Prop := Q s.g t.g ∧ Agree m k s.w t.w

/-- Twins of a wrapped layer: the same number of random numbers drawn. -/
def LexTwin {α : Type} {σ : Type} (E : σ → σ → Prop) (s t : σ × LexS α) : Prop := E s.1 t.1 ∧ s.2.drawn = t.2.drawn

/-- Which states of a layer are twins. -/
structure Twin {α : Type} (o : Obj α) : Type 1 where
  E : o.S → o.S → Prop

/-- Relations for the inner layers of a pack. -/
def FTwins {α : Type} : List (Fld α) → Type 1
  | [] => PUnit
  | f :: fs => Twin f.obj × FTwins fs

def fTwin {α : Type} : (fs : List (Fld α)) → FTwins fs → FState fs → FState fs → Prop
  | [], _, _, _ => True
  | _ :: fs, E, s, t => E.1.E s.1 t.1 ∧ fTwin fs E.2 s.2 t.2

section
variable {α : Type} [Zero α] [One α] [Add α]

mutual
/-- Twins of trees: all elementary layers are twins. -/
def treeTwin {I : Nat → Leaf → BS → Nat → Sem α} (E : ∀ id l inc n, Twin (I id l inc n).obj) :
    (l : Layer) → (inc : BS) → (n : Nat) → Twin (sem I l inc n).obj
  | .leaf id l, inc, n => E id l inc n
  | .vert _ f r, inc, n => stackTwin E r inc (sem I f inc n) (treeTwin E f inc n)
  | .horiz _ _ fs, inc, _ => ⟨fun s t => fTwin _ (fieldsTwin E fs inc) s t⟩
  | .tile _ k l, inc, n => ⟨fun s t => (treeTwin E l (inc.mul k) (n / k)).E s.1 t.1⟩
  termination_by structural l => l
def stackTwin {I : Nat → Leaf → BS → Nat → Sem α} (E : ∀ id l inc n, Twin (I id l inc n).obj) :
    (r : Stack) → (inc : BS) → (acc : Sem α) → Twin acc.obj → Twin (semStack I r inc acc).obj
  | .nil, _, _, A => A
  | .cons l r, inc, acc, A => stackTwin E r inc ⟨over acc.obj (sem I l inc acc.obj.neurons).obj, overLaw acc.law (sem I l inc acc.obj.neurons).law⟩
      ⟨fun s t => A.E s.1 t.1 ∧ (treeTwin E l inc acc.obj.neurons).E s.2.2 t.2.2⟩
def fieldsTwin {I : Nat → Leaf → BS → Nat → Sem α} (E : ∀ id l inc n, Twin (I id l inc n).obj) :
    (fs : Fields) → (inc : BS) → FTwins (semFields I fs inc).fs
  | .nil, _ => ⟨⟩
  | .cons _ cnt l r, inc => (treeTwin E l inc cnt, fieldsTwin E r inc)
end
end

/-- Twins cannot be told apart: they calculate the same, and they stay twins in a training step and in any number of inference passes of one of
them. -/
structure Det {α : Type} {o : Obj α} (L : Law o) (E : o.S → o.S → Prop) : Prop where
  refl : ∀ s, E s s
  symm : ∀ s t, E s t → E t s
  trans : ∀ s t u, E s t → E t u → E s u
  mode : ∀ b s, E s (o.mode b s)
  resize : ∀ R s, E s (o.resize R s)
  idle : ∀ R s A T O, L.Inv false R s → E s (o.fprop R s A T O).s
  pass : ∀ R s t A T O A' T' O', L.Inv true R s → L.Inv true R t → E s t → E (o.fprop R s A T O).s (o.fprop R t A' T' O').s
  fwd : ∀ b R s t X Y, L.Inv b R s → L.Inv b R t → E s t → Agree R o.inc X Y → Agree R o.neurons (L.fwd R s X) (L.fwd R t Y)
  bwd : ∀ R s t X Y G H, L.Inv true R s → L.Inv true R t → E s t → Agree R o.inc X Y → Agree R o.neurons G H →
    Agree R o.inc (L.bwd R s X G) (L.bwd R t Y H)
  upd : ∀ R s t X Y G H s' t', L.Inv true R s → L.Inv true R t → E s t → Agree R o.inc X Y → Agree R o.neurons G H →
    L.Upd R s X G s' → L.Upd R t Y H t' → E s' t'

end Nntl.Pass
