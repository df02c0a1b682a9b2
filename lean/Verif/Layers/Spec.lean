import Verif.Layers.Model
/-! Specification for C31, C32 and C33. -/
namespace Nntl.Layers

mutual
/-- All layers of a tree, depth first, a pack before its inner layers and lower layers before upper ones, each with the number of neurons it
is fed with: the whole input of a pack goes to its lowest layer, every other layer of a vertical pack is fed by the one below, an inner
layer of a horizontal pack by its receptive field and a tiled layer by its share of the input. -/
def Layer.listing : Layer → Nat → List (Nat × Nat)
  | .leaf id _, inc => [(id, inc)]
  | .vert id f r, inc => (id, inc) :: (f.listing inc ++ r.listing f.neurons)
  | .horiz id _ fs, inc => (id, inc) :: fs.listing
  | .tile id k l, inc => (id, inc) :: l.listing (inc / k)
def Stack.listing : Stack → Nat → List (Nat × Nat)
  | .nil, _ => []
  | .cons l r, inc => l.listing inc ++ r.listing l.neurons
def Fields.listing : Fields → List (Nat × Nat)
  | .nil => []
  | .cons _ cnt l r => l.listing cnt ++ r.listing
end

/-- The receptive fields `(first neuron, number of neurons)` of a horizontal pack. -/
def Fields.coords : Fields → List (Nat × Nat)
  | .nil => []
  | .cons ofs cnt _ r => (ofs, cnt) :: r.coords

/-- Neuron `j` belongs to the field. -/
def Covers (c : Nat × Nat) (j : Nat) : Prop := c.1 ≤ j ∧ j < c.1 + c.2

/-- No field reaches outside of the `inc` incoming neurons. -/
def InRange (inc : Nat) (cs : List (Nat × Nat)) : Prop := ∀ c ∈ cs, c.1 + c.2 ≤ inc

/-- Every incoming neuron belongs to some field. -/
def Covered (inc : Nat) (cs : List (Nat × Nat)) : Prop := ∀ j < inc, ∃ c ∈ cs, Covers c j

/-- No field is empty. -/
def NonEmpty (cs : List (Nat × Nat)) : Prop := ∀ c ∈ cs, 0 < c.2

mutual
/-- `P inc fields` holds for every horizontal pack of the tree, `inc` being the number of its incoming neurons, and `Q inc k` for every
tile pack. -/
def Layer.AllPacks (P : Nat → List (Nat × Nat) → Prop) (Q : Nat → Nat → Prop) : Layer → Nat → Prop
  | .leaf _ _, _ => True
  | .vert _ f r, inc => f.AllPacks P Q inc ∧ r.AllPacks P Q f.neurons
  | .horiz _ _ fs, inc => P inc fs.coords ∧ fs.AllPacks P Q
  | .tile _ k l, inc => Q inc k ∧ l.AllPacks P Q (inc / k)
def Stack.AllPacks (P : Nat → List (Nat × Nat) → Prop) (Q : Nat → Nat → Prop) : Stack → Nat → Prop
  | .nil, _ => True
  | .cons l r, inc => l.AllPacks P Q inc ∧ r.AllPacks P Q l.neurons
def Fields.AllPacks (P : Nat → List (Nat × Nat) → Prop) (Q : Nat → Nat → Prop) : Fields → Prop
  | .nil => True
  | .cons _ cnt l r => l.AllPacks P Q cnt ∧ r.AllPacks P Q
end

/-- Every neuron belongs to one field only. -/
def Separate (cs : List (Nat × Nat)) : Prop := cs.Pairwise fun a b => ∀ j, ¬(Covers a j ∧ Covers b j)

mutual
/-- `R` holds for every elementary layer of the tree. -/
def Layer.AllLeaves (R : Leaf → Prop) : Layer → Prop
  | .leaf _ l => R l
  | .vert _ f r => f.AllLeaves R ∧ r.AllLeaves R
  | .horiz _ _ fs => fs.AllLeaves R
  | .tile _ _ l => l.AllLeaves R
def Stack.AllLeaves (R : Leaf → Prop) : Stack → Prop
  | .nil => True
  | .cons l r => l.AllLeaves R ∧ r.AllLeaves R
def Fields.AllLeaves (R : Leaf → Prop) : Fields → Prop
  | .nil => True
  | .cons _ _ l r => l.AllLeaves R ∧ r.AllLeaves R
end

/-- The layers `l, r` end with an elementary layer (the output layer), and `R` holds for all other elementary layers. -/
def Stack.LeavesBelowTop (R : Leaf → Prop) (l : Layer) : Stack → Prop
  | .nil => ∃ id x, l = .leaf id x
  | .cons l' r => l.AllLeaves R ∧ Stack.LeavesBelowTop R l' r

/-- The elementary layer announces at least the size of the gradient with respect to its activations. -/
def Leaf.AnnouncesGradient (l : Leaf) : Prop := ∀ inc n, (l.out inc).maxTrainBS * l.neurons ≤ l.dLdA inc n

/-- What a layer needs of the memory handed to it: what it announced for training if training is possible, otherwise what it announced for
`fprop`. -/
def Lid.need (tp : Bool) (d : Lid) : Nat := if tp then d.memB else d.memF

/-- The layer needs more memory to run forward than to be trained. -/
def Leaf.FpropHungry (l : Leaf) : Prop := ∃ inc n, l.memB inc n < l.memF inc n

/-- A slice `(begin, length)` lies in `[lo, hi)`. -/
def Inside (s : Nat × Nat) (lo hi : Nat) : Prop := lo ≤ s.1 ∧ s.1 + s.2 ≤ hi

/-- Two slices have no element in common. -/
def Apart (a b : Nat × Nat) : Prop := ∀ k, ¬((a.1 ≤ k ∧ k < a.1 + a.2) ∧ (b.1 ≤ k ∧ k < b.1 + b.2))

mutual
/-- All layers of a tree in the order of `listing`, each with the number of rows it sees for one row of the batch given to the tree:
`m` for the tree itself; a tile pack cuts every row into `k` rows for its inner layer, the other packs pass rows on. -/
def Layer.rowsListing : Layer → Nat → List (Nat × Nat)
  | .leaf id _, m => [(id, m)]
  | .vert id f r, m => (id, m) :: (f.rowsListing m ++ r.rowsListing m)
  | .horiz id _ fs, m => (id, m) :: fs.rowsListing m
  | .tile id k l, m => (id, m) :: l.rowsListing (m * k)
def Stack.rowsListing : Stack → Nat → List (Nat × Nat)
  | .nil, _ => []
  | .cons l r, m => l.rowsListing m ++ r.rowsListing m
def Fields.rowsListing : Fields → Nat → List (Nat × Nat)
  | .nil, _ => []
  | .cons _ _ l r, m => l.rowsListing m ++ r.rowsListing m
end

/-- The elementary layer puts out as many rows as it is fed with. -/
def Leaf.KeepsRows (l : Leaf) : Prop := ∀ b, l.out b = b

end Nntl.Layers
