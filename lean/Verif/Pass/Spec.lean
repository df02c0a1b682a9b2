import Verif.Pass.Model
/-! Specification of the passes: what layers compute as functions on matrices. A matrix is a function of row and column. -/
namespace Nntl.Pass

abbrev Mat (α : Type) := Nat → Nat → α

/-- The first `n` columns of a matrix of `R` rows stored at `A` are those of `X`. -/
def Shows {α : Type} (R n : Nat) (A : Mem α) (X : Mat α) : Prop := ∀ r < R, ∀ c < n, A (r + R * c) = X r c

/-- Column `n` consists of ones. -/
def Ones {α : Type} [One α] (R n : Nat) (A : Mem α) : Prop := ∀ r < R, A (r + R * n) = 1

/-- Only elements before `k` differ. -/
def SameFrom {α : Type} (k : Nat) (m m' : Mem α) : Prop := ∀ p, k ≤ p → m' p = m p

/-- What a layer is meant to do. Everything may depend on the state of the layer object (weights, masks, …).
`Inv b R s`: the object is consistent and prepared for the batch size `R`, in training mode if `b`. `Ready R s X`: it has last run forward on `X`.
`fwd R s X`: the activations for the input `X` (`s` is the state after the forward pass). `bwd R s X G`: the gradient with respect to
the input, when `G` is the gradient with respect to the activations. `Upd R s X G s'`: `s'` is an acceptable state after the backward
pass (that is where the weights are updated). -/
structure Law {α : Type} (o : Obj α) where
  Inv : Bool → Nat → o.S → Prop
  Ready : Nat → o.S → Mat α → Prop
  fwd : Nat → o.S → Mat α → Mat α
  bwd : Nat → o.S → Mat α → Mat α → Mat α
  Upd : Nat → o.S → Mat α → Mat α → o.S → Prop

/-- The layer does what it is meant to do for all batch sizes up to `N` forward and up to `NT` in training, touches only the memory that belongs to it, and leaves the
activations of the lower layer as they were. -/
structure Lawful {α : Type} [One α] (N NT : Nat) (o : Obj α) (L : Law o) : Prop where
  mode_ok : ∀ b b' R s, L.Inv b R s → L.Inv b' R (o.mode b' s)
  resize_ok : ∀ b R0 R s, R ≤ N → L.Inv b R0 s → L.Inv b R (o.resize R s)
  fprop_ok : ∀ b R s A T O X, 0 < R → R ≤ N → L.Inv b R s → Shows R o.inc A X → (o.biases = true → Ones R o.inc A) →
    (o.fprop R s A T O).A = A ∧ SameFrom o.tmp T (o.fprop R s A T O).T ∧
    SameFrom (R * o.neurons) O (o.fprop R s A T O).O ∧
    L.Inv b R (o.fprop R s A T O).s ∧ L.Ready R (o.fprop R s A T O).s X ∧
    Shows R o.neurons (o.fprop R s A T O).O (L.fwd R (o.fprop R s A T O).s X)
  bprop_ok : ∀ R need s A T O D P X G, 0 < R → R ≤ NT → L.Inv true R s → L.Ready R s X →
    Shows R o.inc A X → (o.biases = true → Ones R o.inc A) → Shows R o.neurons O (L.fwd R s X) → Shows R o.neurons D G →
    (o.bprop R need s A T O D P).A = A ∧ SameFrom o.tmp T (o.bprop R need s A T O D P).T ∧
    SameFrom (R * o.neurons) O (o.bprop R need s A T O D P).O ∧
    SameFrom (max o.cap (R * o.inc)) D (o.bprop R need s A T O D P).D ∧
    SameFrom (max o.cap (R * o.inc)) P (o.bprop R need s A T O D P).P ∧
    L.Inv true R (o.bprop R need s A T O D P).s ∧ L.Upd R s X G (o.bprop R need s A T O D P).s ∧
    (need = true → Shows R o.inc
      (if (o.bprop R need s A T O D P).flag then (o.bprop R need s A T O D P).P else (o.bprop R need s A T O D P).D)
      (L.bwd R s X G))

/-- Two layers on top of each other: composition and the chain rule. -/
def overLaw {α : Type} [One α] {l u : Obj α} (L : Law l) (U : Law u) : Law (over l u) where
  Inv := fun b R s => L.Inv b R s.1 ∧ U.Inv b R s.2.2 ∧ s.2.1.rows = R ∧ Ones R l.neurons s.2.1.m
  Ready := fun R s X => L.Ready R s.1 X ∧ U.Ready R s.2.2 (L.fwd R s.1 X) ∧ Shows R l.neurons s.2.1.m (L.fwd R s.1 X)
  fwd := fun R s X => U.fwd R s.2.2 (L.fwd R s.1 X)
  bwd := fun R s X G => L.bwd R s.1 X (U.bwd R s.2.2 (L.fwd R s.1 X) G)
  Upd := fun R s X G s' => U.Upd R s.2.2 (L.fwd R s.1 X) G s'.2.2 ∧
    L.Upd R s.1 X (U.bwd R s.2.2 (L.fwd R s.1 X) G) s'.1

/-- The columns of a receptive field. -/
def colsFrom {α : Type} (ofs : Nat) (X : Mat α) : Mat α := fun r c => X r (ofs + c)

/-- Inner layers with what they are meant to do. -/
inductive Laws {α : Type} : List (Fld α) → Type 1
  | nil : Laws []
  | cons {f : Fld α} {fs : List (Fld α)} (L : Law f.obj) (Ls : Laws fs) : Laws (f :: fs)

def Laws.head {α : Type} {f : Fld α} {fs : List (Fld α)} : Laws (f :: fs) → Law f.obj
  | .cons L _ => L

def Laws.tail {α : Type} {f : Fld α} {fs : List (Fld α)} : Laws (f :: fs) → Laws fs
  | .cons _ Ls => Ls

def fInv {α : Type} (b : Bool) (R : Nat) : (fs : List (Fld α)) → Laws fs → FState fs → Prop
  | [], _, _ => True
  | _ :: fs, Ls, s => Ls.head.Inv b R s.1 ∧ fInv b R fs Ls.tail s.2

def fReady {α : Type} (R : Nat) (X : Mat α) : (fs : List (Fld α)) → Laws fs → FState fs → Prop
  | [], _, _ => True
  | f :: fs, Ls, s => Ls.head.Ready R s.1 (colsFrom f.ofs X) ∧ fReady R X fs Ls.tail s.2

/-- Activations of the inner layers side by side in the order of the layers. -/
def fFwd {α : Type} (R : Nat) (X : Mat α) : (fs : List (Fld α)) → Laws fs → FState fs → Mat α
  | [], _, _ => X
  | f :: fs, Ls, s => fun r c =>
    if c < f.obj.neurons then Ls.head.fwd R s.1 (colsFrom f.ofs X) r c
    else fFwd R X fs Ls.tail s.2 r (c - f.obj.neurons)

/-- Every inner layer updates itself from the columns of its field and its own columns of the gradient. -/
def fUpd {α : Type} (R : Nat) (X : Mat α) : (fs : List (Fld α)) → Laws fs → FState fs → Mat α → FState fs → Prop
  | [], _, _, _, _ => True
  | f :: fs, Ls, s, G, s' => Ls.head.Upd R s.1 (colsFrom f.ofs X) G s'.1 ∧
    fUpd R X fs Ls.tail s.2 (colsFrom f.obj.neurons G) s'.2

/-- The gradient with respect to the input: beginning from 0 the gradients of the inner layers are added to the columns of their fields, the
last layer first. -/
def fBwd {α : Type} [Zero α] [Add α] (R : Nat) (X : Mat α) : (fs : List (Fld α)) → Laws fs → FState fs → Mat α → Mat α
  | [], _, _, _ => fun _ _ => 0
  | f :: fs, Ls, s, G => fun r j =>
    let rest := fBwd R X fs Ls.tail s.2 (colsFrom f.obj.neurons G) r j
    if f.ofs ≤ j ∧ j < f.ofs + f.cnt then rest + Ls.head.bwd R s.1 (colsFrom f.ofs X) G r (j - f.ofs) else rest

def horizLaw {α : Type} [Zero α] [One α] [Add α] (inc bias buf cap : Nat) {fs : List (Fld α)} (Ls : Laws fs) :
    Law (horiz inc bias buf cap fs) where
  Inv := fun b R s => fInv b R fs Ls s
  Ready := fun R s X => fReady R X fs Ls s
  fwd := fun R s X => fFwd R X fs Ls s
  bwd := fun R s X G => fBwd R X fs Ls s G
  Upd := fun R s X G s' => fUpd R X fs Ls s G s'

/-- Tile `t` of every row becomes row `t * R + r`. -/
def roll {α : Type} (R m : Nat) (X : Mat α) : Mat α := fun q c => X (q % R) (q / R * m + c)

def unroll {α : Type} (R m : Nat) (Y : Mat α) : Mat α := fun r c => Y (c / m * R + r) (c % m)

/-- The same layer is applied to every tile. -/
def tileLaw {α : Type} [One α] (k cap : Nat) {l : Obj α} (L : Law l) : Law (tile k cap l) where
  Inv := fun b R s => L.Inv b (k * R) s.1 ∧ s.2.1.rows = k * R ∧ Ones (k * R) l.inc s.2.1.m
  Ready := fun R s X => L.Ready (k * R) s.1 (roll R l.inc X) ∧ Shows (k * R) l.inc s.2.1.m (roll R l.inc X) ∧
    Shows (k * R) l.neurons s.2.2.m (L.fwd (k * R) s.1 (roll R l.inc X))
  fwd := fun R s X => unroll R l.neurons (L.fwd (k * R) s.1 (roll R l.inc X))
  bwd := fun R s X G => unroll R l.inc (L.bwd (k * R) s.1 (roll R l.inc X) (roll R l.neurons G))
  Upd := fun R s X G s' => L.Upd (k * R) s.1 (roll R l.inc X) (roll R l.neurons G) s'.1

def identityLaw {α : Type} (n : Nat) : Law (identity (α := α) n) where
  Inv := fun _ _ _ => True
  Ready := fun _ _ _ => True
  fwd := fun _ _ X => X
  bwd := fun _ _ _ G => G
  Upd := fun _ _ _ _ _ => True

def idGateLaw {α : Type} (bin : α → α) (n : Nat) : Law (idGate bin n) where
  Inv := fun _ _ _ => True
  Ready := fun _ _ _ => True
  fwd := fun _ _ X => fun r c => bin (X r c)
  bwd := fun _ _ _ G => G
  Upd := fun _ _ _ _ _ => True

end Nntl.Pass
