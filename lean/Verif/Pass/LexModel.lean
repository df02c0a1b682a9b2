import Verif.Pass.FcModel
/-! A layer wrapped for dropout and for penalties on its activations: `_LEx`, `nntl/layer/extender.h`, with `nntl/dropout/dropout.h`,
`nntl/dropout/alpha_dropout.h`, `nntl/layer/_penalized_activations_base.h`, `nntl/loss_addendum/*`. Any layer object may be wrapped. -/
namespace Nntl.Pass

/-- A loss addendum that is switched on (`bEnabled`), `nntl/loss_addendum/L1.h`, `L2.h`, `DeCov.h`. `onFprop` is `calcOnFprop`: the matrix `term` is
calculated in the forward pass and kept in `m_Mtx`. `term R n A` is made of the activations `A` of `R` samples and `n` neurons; `app d x` is what
`_appendGradient` (`_i_loss_addendum.h` 152–160) or `_appendGradientSign` (`L1.h` 79–86) does with an element `d` of the gradient and the element
`x` of the term. -/
structure Addend (α : Type) where
  onFprop : Bool
  term : Nat → Nat → Mat α → Mat α
  app : α → α → α

/-- The term depends on the elements of the matrix only. -/
def Addend.Ok {α : Type} (a : Addend α) : Prop :=
  ∀ R n A B, (∀ r < R, ∀ c < n, A r c = B r c) → ∀ r < R, ∀ c < n, a.term R n A r c = a.term R n B r c

/-- What a layer is extended with. `drop`: nothing if there is no dropout or `bDropout()` is false, else the function that makes of an activation
and a random number the new activation and the element of the mask (`mathn.h` 1221–1227, 1326–1332; the threaded kernels are the subject of C53).
`mul` multiplies a gradient by the mask. `draws k` are the numbers the generator gives on its `k`-th use by this layer. `adds` are the addendums.
`gate` is `gate_neurons_count` of a gated pack, 0 for others. -/
structure LexCfg (α : Type) where
  drop : Option (α → α → α × α)
  mul : α → α → α
  draws : Nat → Mem α
  adds : List (Addend α)
  gate : Nat

/-- State of the extension: `is_training_mode()` of the common data, `m_dropoutMask`, `m_origActivations` (`dropout.h` 56–60), how often random numbers
were drawn, and the matrices `m_Mtx` of the addendums. -/
structure LexS (α : Type) where
  training : Bool
  mask : Mem α
  orig : Mem α
  drawn : Nat
  kept : Nat → Mat α

/-- `_pab_update_dLdA`, `_penalized_activations_base.h` 204–219: the addendums in the order of the tuple; `i` is the index of the first of them,
`O` the activations and `D` the gradient from the first column on that is not of the gate; `n` columns. -/
def addAll {α : Type} (R n : Nat) (kept : Nat → Mat α) (O : Mem α) : List (Addend α) → Nat → Mem α → Mem α
  | [], _, D => D
  | a :: as, i, D =>
    let x := if a.onFprop then kept i else a.term R n (matOf R O)
    addAll R n kept O as (i + 1) (copy (R * n) D fun p => a.app (D p) (x (p % R) (p / R)))

/-- `_fprop4PA`, `extender.h` 228–254, and `_pab_fprop`, `_penalized_activations_base.h` 191–199. -/
def keepAll {α : Type} (R n : Nat) (O : Mem α) (as : List (Addend α)) (kept : Nat → Mat α) : Nat → Mat α := fun i =>
  match as[i]? with
  | some a => if a.onFprop then a.term R n (matOf R O) else kept i
  | none => kept i

/-- `_LEx`, `nntl/layer/extender.h`: `on_batch_size_change` 210–215, `fprop` 276–281, `bprop` 325–346, `_dropout_apply` `dropout.h` 224–246,
`_dropout_restoreScaling` `dropout.h` 144–157. Sizes of the mask and the saved activations are the subject of C53. Neither the memory for
gradients nor the temporary one grows (`layer_init` 178–200). -/
def lex {α : Type} (x : LexCfg α) (o : Obj α) : Obj α where
  S := o.S × LexS α
  inc := o.inc
  neurons := o.neurons
  biases := o.biases
  tmp := o.tmp
  cap := o.cap
  mode := fun b s => (o.mode b s.1, { s.2 with training := b })
  resize := fun R s => (o.resize R s.1, s.2)
  fprop := fun R s A T O =>
    let y := o.fprop R s.1 A T O
    let k : LexS α := if s.2.training then
      { s.2 with kept := keepAll R (o.neurons - x.gate) (shift (R * x.gate) y.O) x.adds s.2.kept } else s.2
    match x.drop with
    | none => ⟨(y.s, k), y.A, y.T, y.O⟩
    | some cell =>
      if s.2.training then
        let u := x.draws s.2.drawn
        let k' : LexS α :=
          { k with
            orig := copy (R * o.neurons) s.2.orig y.O
            mask := copy (R * o.neurons) s.2.mask fun p => (cell (y.O p) (u p)).2
            drawn := s.2.drawn + 1 }
        ⟨(y.s, k'), y.A, y.T, copy (R * o.neurons) y.O fun p => (cell (y.O p) (u p)).1⟩
      else ⟨(y.s, k), y.A, y.T, y.O⟩
  bprop := fun R need s A T O D P =>
    let D1 := if x.drop.isSome then copy (R * o.neurons) D fun p => x.mul (D p) (s.2.mask p) else D
    let O1 := if x.drop.isSome then copy (R * o.neurons) O s.2.orig else O
    let D2 := unshift (R * x.gate) D1 (addAll R (o.neurons - x.gate) s.2.kept (shift (R * x.gate) O1) x.adds 0 (shift (R * x.gate) D1))
    let y := o.bprop R need s.1 A T O1 D2 P
    ⟨y.flag, (y.s, s.2), y.A, y.T, y.O, y.D, y.P⟩

/-! ### Specification -/

/-- Dropout is at work: training mode, and switched on. -/
def LexCfg.active {α : Type} (x : LexCfg α) (s : LexS α) : Option (α → α → α × α) := if s.training then x.drop else none

/-- The random numbers of the last forward pass. -/
def LexCfg.last {α : Type} (x : LexCfg α) (s : LexS α) : Mem α := x.draws (s.drawn - 1)

/-- The activations after dropout. -/
def LexCfg.dropped {α : Type} (x : LexCfg α) (s : LexS α) (R : Nat) (Y : Mat α) : Mat α :=
  match x.active s with
  | none => Y
  | some cell => fun r c => (cell (Y r c) (x.last s (r + R * c))).1

/-- The gradient with respect to the activations `Y` before dropout, as far as it comes from above. -/
def LexCfg.masked {α : Type} (x : LexCfg α) (s : LexS α) (R : Nat) (Y G : Mat α) : Mat α :=
  match x.active s with
  | none => G
  | some cell => fun r c => x.mul (G r c) (cell (Y r c) (x.last s (r + R * c))).2

/-- The terms of the addendums, appended one after the other, for the columns that are not of the gate. -/
def LexCfg.penalised {α : Type} (x : LexCfg α) (R n : Nat) (Y G : Mat α) : Mat α := fun r c =>
  if c < x.gate then G r c else x.adds.foldl (fun d a => a.app d (a.term R (n - x.gate) (colsFrom x.gate Y) r (c - x.gate))) (G r c)

/-- The gradient the wrapped layer has to be given. -/
def LexCfg.down {α : Type} (x : LexCfg α) (s : LexS α) (R n : Nat) (Y G : Mat α) : Mat α := x.penalised R n Y (x.masked s R Y G)

def lexLaw {α : Type} (x : LexCfg α) {o : Obj α} (L : Law o) : Law (lex x o) where
  Inv := fun b R s => L.Inv b R s.1 ∧ s.2.training = b
  Ready := fun R s X => L.Ready R s.1 X ∧
    (s.2.training = true → ∀ i a, x.adds[i]? = some a → a.onFprop = true → ∀ r < R, ∀ c < o.neurons - x.gate,
      s.2.kept i r c = a.term R (o.neurons - x.gate) (colsFrom x.gate (L.fwd R s.1 X)) r c) ∧
    ∀ cell, x.active s.2 = some cell → Shows R o.neurons s.2.orig (L.fwd R s.1 X) ∧
      Shows R o.neurons s.2.mask fun r c => (cell (L.fwd R s.1 X r c) (x.last s.2 (r + R * c))).2
  fwd := fun R s X => x.dropped s.2 R (L.fwd R s.1 X)
  bwd := fun R s X G => L.bwd R s.1 X (x.down s.2 R o.neurons (L.fwd R s.1 X) G)
  Upd := fun R s X G s' => L.Upd R s.1 X (x.down s.2 R o.neurons (L.fwd R s.1 X) G) s'.1 ∧ s'.2 = s.2

end Nntl.Pass
