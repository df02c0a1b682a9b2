import Verif.Pass.Spec
/-! The whole network: `nntl/layers.h` (`on_batch_size_change`, `fprop`, `bprop`), and the order of the `bprop` calls in a vertical pack with
layers that take no part in training. -/
namespace Nntl.Pass

/-- Layers `u` above layers `l` that take no part in training (`is_layer_stops_bprop`): `for_each_down4bprop_no_last`,
`nntl/layer/_tuple_utils.h` 46–81, stops above them; the lowest layer of `u` produces no gradient (`bNoBprop4Prev`, `nntl/layers.h` 333). -/
def frozenBelow {α : Type} [One α] (l u : Obj α) : Obj α where
  S := l.S × Stor α × u.S
  inc := l.inc
  neurons := u.neurons
  biases := l.biases
  tmp := max l.tmp u.tmp
  cap := u.cap
  mode := fun b s => (l.mode b s.1, s.2.1, u.mode b s.2.2)
  resize := fun R s => (l.resize R s.1, s.2.1.deform R l.neurons, u.resize R s.2.2)
  fprop := fun R s A T O =>
    let x := l.fprop R s.1 A T s.2.1.m
    let y := u.fprop R s.2.2 x.O x.T O
    ⟨(x.s, ⟨y.A, s.2.1.rows⟩, y.s), x.A, y.T, y.O⟩
  bprop := fun R _ s A T O D P =>
    let y := u.bprop R false s.2.2 s.2.1.m T O D P
    ⟨y.flag, (s.1, ⟨y.A, s.2.1.rows⟩, y.s), A, y.T, y.O, y.D, y.P⟩

/-- What `bprop` of the output layer leaves. -/
structure OutB (σ α : Type) where
  s : σ
  A : Mem α
  T : Mem α
  O : Mem α
  P : Mem α

/-- The output layer, `nntl/layer/output.h`. `bprop R s A T O Y P`: `Y` is the target data, `P` the matrix for the gradient with respect
to the activations of the layer below. -/
structure OutObj (α : Type) where
  S : Type
  inc : Nat
  neurons : Nat
  tmp : Nat
  cap : Nat
  mode : Bool → S → S
  resize : Nat → S → S
  fprop : Nat → S → Mem α → Mem α → Mem α → FOut S α
  bprop : Nat → S → Mem α → Mem α → Mem α → Mem α → Mem α → OutB S α

/-- The layers between the input layer and the output layer (a chain made with `over` and `frozenBelow`), and the output layer. -/
structure Net (α : Type) where
  body : Obj α
  out : OutObj α

/-- State of the network: whether it is in training mode, current batch size, the layers with their activation storages, temporary memory, the two gradient matrices. -/
structure NetS {α : Type} (w : Net α) where
  training : Bool
  R : Nat
  body : w.body.S
  ab : Stor α
  out : w.out.S
  ao : Mem α
  T : Mem α
  m0 : Mem α
  m1 : Mem α

/-- `_set_mode_and_batch_size`, `nntl/nnet.h` 477–485, with `set_mode_and_batch_size`, `nntl/common_nn_data.h` 154–165, and `layers::on_batch_size_change`, `nntl/layers.h` 299–303. -/
def Net.to {α : Type} [One α] (w : Net α) (b : Bool) (R : Nat) (s : NetS w) : NetS w :=
  if s.training = b ∧ s.R = R then s
  else { s with
    training := b
    R := R
    body := w.body.resize R (w.body.mode b s.body)
    ab := s.ab.deform R w.body.neurons
    out := w.out.resize R (w.out.mode b s.out) }

/-- `layers::fprop`, `nntl/layers.h` 305–315. The input layer shows the data itself. The second component is the data afterwards. -/
def Net.fprop {α : Type} (w : Net α) (s : NetS w) (X : Mem α) : NetS w × Mem α :=
  let b := w.body.fprop s.R s.body X s.T s.ab.m
  let c := w.out.fprop s.R s.out b.O b.T s.ao
  ({ s with body := b.s, ab := ⟨c.A, s.ab.rows⟩, out := c.s, ao := c.O, T := c.T }, b.A)

/-- `layers::bprop`, `nntl/layers.h` 317–350: the output layer writes to `m_a_dLdA[0]`, then the other layers go down, alternating the
matrices; the lowest trained one is above a layer that stops `bprop` (the input layer at least). -/
def Net.bprop {α : Type} (w : Net α) (s : NetS w) (X Y : Mem α) : NetS w × Mem α :=
  let c := w.out.bprop s.R s.out s.ab.m s.T s.ao Y s.m0
  let b := w.body.bprop s.R false s.body X c.T c.A c.P s.m1
  ({ s with body := b.s, ab := ⟨b.O, s.ab.rows⟩, out := c.s, ao := c.O, T := b.T, m0 := b.D, m1 := b.P }, b.A)

/-- One use of the network with `R` samples: a forward pass, or a training step (`nntl/nnet.h` 600–620) with targets `Y`. -/
inductive Use (α : Type)
  | eval (R : Nat) (X : Mem α)
  | train (R : Nat) (X Y : Mem α)

/-- The network and the data after the step. -/
def Net.step {α : Type} [One α] (w : Net α) (s : NetS w) : Use α → NetS w × Mem α
  | .eval R X => w.fprop (w.to false R s) X
  | .train R X Y => w.bprop (w.fprop (w.to true R s) X).1 (w.fprop (w.to true R s) X).2 Y

/-- A history. -/
def Net.run {α : Type} [One α] (w : Net α) (s : NetS w) (us : List (Use α)) : NetS w := us.foldl (fun s u => (w.step s u).1) s

/-! ### Specification -/

/-- The forward half of `Lawful`: enough for a layer that takes no part in training. -/
structure Forward {α : Type} [One α] (N : Nat) (o : Obj α) (L : Law o) : Prop where
  mode_ok : ∀ b b' R s, L.Inv b R s → L.Inv b' R (o.mode b' s)
  resize_ok : ∀ b R0 R s, R ≤ N → L.Inv b R0 s → L.Inv b R (o.resize R s)
  fprop_ok : ∀ b R s A T O X, 0 < R → R ≤ N → L.Inv b R s → Shows R o.inc A X → (o.biases = true → Ones R o.inc A) →
    (o.fprop R s A T O).A = A ∧ SameFrom o.tmp T (o.fprop R s A T O).T ∧
    SameFrom (R * o.neurons) O (o.fprop R s A T O).O ∧
    L.Inv b R (o.fprop R s A T O).s ∧ L.Ready R (o.fprop R s A T O).s X ∧
    Shows R o.neurons (o.fprop R s A T O).O (L.fwd R (o.fprop R s A T O).s X)

/-- `Lawful` when no gradient for the layer below is wanted. -/
structure Trains {α : Type} [One α] (N NT : Nat) (o : Obj α) (L : Law o) : Prop extends Forward N o L where
  bprop_ok : ∀ R s A T O D P X G, 0 < R → R ≤ NT → L.Inv true R s → L.Ready R s X →
    Shows R o.inc A X → (o.biases = true → Ones R o.inc A) → Shows R o.neurons O (L.fwd R s X) → Shows R o.neurons D G →
    (o.bprop R false s A T O D P).A = A ∧ SameFrom o.tmp T (o.bprop R false s A T O D P).T ∧
    SameFrom (R * o.neurons) O (o.bprop R false s A T O D P).O ∧
    SameFrom (max o.cap (R * o.inc)) D (o.bprop R false s A T O D P).D ∧
    SameFrom (max o.cap (R * o.inc)) P (o.bprop R false s A T O D P).P ∧
    L.Inv true R (o.bprop R false s A T O D P).s ∧ L.Upd R s X G (o.bprop R false s A T O D P).s

/-- Composition; the lower layers keep their state in training, the upper ones are updated. There is no gradient for the layer below. -/
def frozenLaw {α : Type} [Zero α] [One α] {l u : Obj α} (L : Law l) (U : Law u) : Law (frozenBelow l u) where
  Inv := fun b R s => L.Inv b R s.1 ∧ U.Inv b R s.2.2 ∧ s.2.1.rows = R ∧ Ones R l.neurons s.2.1.m
  Ready := fun R s X => L.Ready R s.1 X ∧ U.Ready R s.2.2 (L.fwd R s.1 X) ∧ Shows R l.neurons s.2.1.m (L.fwd R s.1 X)
  fwd := fun R s X => U.fwd R s.2.2 (L.fwd R s.1 X)
  bwd := fun _ _ _ _ _ _ => 0
  Upd := fun R s X G s' => s'.1 = s.1 ∧ U.Upd R s.2.2 (L.fwd R s.1 X) G s'.2.2

/-- What the output layer is meant to do: `grad R s X Y` is the gradient of the loss with respect to its input `X` for the targets `Y`. -/
structure OutLaw {α : Type} (o : OutObj α) where
  Inv : Bool → Nat → o.S → Prop
  Ready : Nat → o.S → Mat α → Prop
  fwd : Nat → o.S → Mat α → Mat α
  grad : Nat → o.S → Mat α → Mat α → Mat α
  Upd : Nat → o.S → Mat α → Mat α → o.S → Prop

structure OutLawful {α : Type} [One α] (N NT : Nat) (o : OutObj α) (L : OutLaw o) : Prop where
  mode_ok : ∀ b b' R s, L.Inv b R s → L.Inv b' R (o.mode b' s)
  resize_ok : ∀ b R0 R s, R ≤ N → L.Inv b R0 s → L.Inv b R (o.resize R s)
  fprop_ok : ∀ b R s A T O X, 0 < R → R ≤ N → L.Inv b R s → Shows R o.inc A X → Ones R o.inc A →
    (o.fprop R s A T O).A = A ∧ SameFrom o.tmp T (o.fprop R s A T O).T ∧
    SameFrom (R * o.neurons) O (o.fprop R s A T O).O ∧
    L.Inv b R (o.fprop R s A T O).s ∧ L.Ready R (o.fprop R s A T O).s X ∧
    Shows R o.neurons (o.fprop R s A T O).O (L.fwd R (o.fprop R s A T O).s X)
  bprop_ok : ∀ R s A T O Y P X Y', 0 < R → R ≤ NT → L.Inv true R s → L.Ready R s X →
    Shows R o.inc A X → Ones R o.inc A → Shows R o.neurons O (L.fwd R s X) → Shows R o.neurons Y Y' →
    (o.bprop R s A T O Y P).A = A ∧ SameFrom o.tmp T (o.bprop R s A T O Y P).T ∧
    SameFrom (R * o.neurons) O (o.bprop R s A T O Y P).O ∧
    SameFrom (max o.cap (R * o.inc)) P (o.bprop R s A T O Y P).P ∧
    L.Inv true R (o.bprop R s A T O Y P).s ∧ L.Upd R s X Y' (o.bprop R s A T O Y P).s ∧
    Shows R o.inc (o.bprop R s A T O Y P).P (L.grad R s X Y')

/-- A memory area read as a matrix of `R` rows. -/
def matOf {α : Type} (R : Nat) (A : Mem α) : Mat α := fun r c => A (r + R * c)

/-- The data of the step: batch size within the limits of the initialisation, bias column in place. -/
def Use.Ok {α : Type} [One α] (N NT inc : Nat) : Use α → Prop
  | .eval R X => 0 < R ∧ R ≤ N ∧ Ones R inc X
  | .train R X _ => 0 < R ∧ R ≤ NT ∧ Ones R inc X

/-- The state of the network is consistent. -/
def NetInv {α : Type} [One α] {w : Net α} (L : Law w.body) (U : OutLaw w.out) (s : NetS w) : Prop :=
  L.Inv s.training s.R s.body ∧ U.Inv s.training s.R s.out ∧ s.ab.rows = s.R ∧ Ones s.R w.body.neurons s.ab.m

/-! ### The order of the calls in a vertical pack -/

/-- `_lpv_bprop`, `nntl/layer/pack_vertical.h` 271–313, with `_down4bprop`, `nntl/layer/_tuple_utils.h` 46–74, for a pack of `n + 1` layers (0
is the lowest). The current gradient matrix is represented by the number of the layer with respect to whose activations it holds the
gradient; `none`: nothing in particular. A layer above one that stops `bprop` produces no gradient (`is_layer_with_bprop`,
`nntl/layer/fully_connected.h` 527). The result lists the calls of `bprop`: which layer, with which gradient. -/
def lpvLoop (stops : Nat → Bool) : Nat → Option Nat → List (Nat × Option Nat) × Option Nat
  | 0, g => ([], g)
  | i + 1, g =>
    if stops (i + 1) then ([], g)
    else
      let r := lpvLoop stops i (if stops i then none else some i)
      ((i + 1, g) :: r.1, r.2)

def lpvCalls (stops : Nat → Bool) (n : Nat) : List (Nat × Option Nat) :=
  let r := lpvLoop stops n (some n)
  r.1 ++ [(0, r.2)]

end Nntl.Pass
