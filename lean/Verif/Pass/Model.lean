import Mathlib.Algebra.Notation.Defs
/-! Forward and backward passes through layer packs, on the level of memory.

Modelled: `nntl/layer/_pack_.h` (`_trainable_partial_layer_wrapper`), `nntl/layer/_lph_base.h` (`initMem`, `on_batch_size_change`),
`nntl/layer/pack_horizontal.h`, `nntl/layer/pack_vertical.h`, `nntl/layer/pack_tile.h`, `nntl/layer/pack_horizontal_optional.h`,
`nntl/layers.h` (`fprop`, `bprop`), `nntl/layer/identity.h`.

A memory area is a function from addresses to elements; a pointer into the middle of an area is a shifted function. Matrices are stored
column by column: element `(r, c)` of a matrix with `R` rows is at `r + R * c`; the bias column follows the last one. Elements are of any
type with `0`, `1` and `+` (nothing is assumed about them, so that rounding is covered). The batch size does not change on the way through
a layer. Sizes of matrices after `deform` are not stored: they follow from the layer. Inspectors are left out. -/
namespace Nntl.Pass

abbrev Mem (α : Type) := Nat → α

/-- A pointer `k` elements further. -/
def shift {α : Type} (k : Nat) (m : Mem α) : Mem α := fun p => m (k + p)

/-- The area `m` after the code that was given the pointer `m + k` has left `m'` there. -/
def unshift {α : Type} (k : Nat) (m m' : Mem α) : Mem α := fun p => if p < k then m p else m' (p - k)

/-- `memcpy(dst, src, n elements)`. -/
def copy {α : Type} (n : Nat) (dst src : Mem α) : Mem α := fun p => if p < n then src p else dst p

/-- `n` elements set to `v`. -/
def fill {α : Type} (n : Nat) (v : α) (dst : Mem α) : Mem α := fun p => if p < n then v else dst p

/-- What `fprop` leaves: state of the layer object, memory of the lower layer's activations, temporary memory, own activations. -/
structure FOut (σ α : Type) where
  s : σ
  A : Mem α
  T : Mem α
  O : Mem α

/-- What `bprop` leaves: returned value, state, memory of the lower layer's activations, temporary memory, own activations, the matrix
passed as `dLdA`, the matrix passed as `dLdAPrev`. -/
structure BOut (σ α : Type) where
  flag : Bool
  s : σ
  A : Mem α
  T : Mem α
  O : Mem α
  D : Mem α
  P : Mem α

/-- A layer object: interface `_i_layer_trainable`, `nntl/layer/_layer_base.h` 60–344. `biases`: needs the bias column of the lower layer
(`!bLayerToleratesNoBiases`); `tmp` elements of temporary memory and `cap` elements of each gradient matrix were announced. `R` is the
batch size. `fprop R s A T O`: `A` is the pointer to the activations of the lower layer, `T` to the temporary memory, `O` to the storage for
its own activations. `bprop R need s A T O D P`: `need` means `is_layer_with_bprop<LowerLayer>`. `resize` is `on_batch_size_change`. `mode` makes
visible what `set_mode_and_batch_size`, `nntl/common_nn_data.h` 154–165, has written to the data shared by all layers (`is_training_mode()`). -/
structure Obj (α : Type) where
  S : Type
  inc : Nat
  neurons : Nat
  biases : Bool
  tmp : Nat
  cap : Nat
  mode : Bool → S → S
  resize : Nat → S → S
  fprop : Nat → S → Mem α → Mem α → Mem α → FOut S α
  bprop : Nat → Bool → S → Mem α → Mem α → Mem α → Mem α → Mem α → BOut S α

/-! ### Storage owned by a layer -/

/-- Activation storage of a layer that owns it: contents and the current number of rows. -/
structure Stor (α : Type) where
  m : Mem α
  rows : Nat

/-- `deform_batch_size_with_biases`, `nntl/interface/math/smatrix.h` 1647–1651; `n` is the number of columns before the bias column. -/
def Stor.deform {α : Type} [One α] (x : Stor α) (R n : Nat) : Stor α :=
  if x.rows = R then x else ⟨unshift (R * n) x.m (fill R 1 (shift (R * n) x.m)), R⟩

/-! ### Vertical pack -/

/-- Two layers on top of each other; the lower one owns its activation storage. `_LPV` is the iteration of it (`nntl/layer/pack_vertical.h`
`on_batch_size_change` 246–251, `_lpv_fprop` 255–269, `_lpv_bprop` 271–313): there the loop over all layers but the lowest one keeps the
index of the matrix with the current gradient in `mtxIdx`; the matrix passed next is the other one, and `mtxIdx ^= bAlternate`. -/
def over {α : Type} [One α] (l u : Obj α) : Obj α where
  S := l.S × Stor α × u.S
  inc := l.inc
  neurons := u.neurons
  biases := l.biases
  tmp := max l.tmp u.tmp
  cap := max l.cap u.cap
  mode := fun b s => (l.mode b s.1, s.2.1, u.mode b s.2.2)
  resize := fun R s => (l.resize R s.1, s.2.1.deform R l.neurons, u.resize R s.2.2)
  fprop := fun R s A T O =>
    let x := l.fprop R s.1 A T s.2.1.m
    let y := u.fprop R s.2.2 x.O x.T O
    ⟨(x.s, ⟨y.A, s.2.1.rows⟩, y.s), x.A, y.T, y.O⟩
  bprop := fun R need s A T O D P =>
    let y := u.bprop R true s.2.2 s.2.1.m T O D P
    let x := if y.flag then l.bprop R need s.1 A y.T y.A y.P y.D else l.bprop R need s.1 A y.T y.A y.D y.P
    ⟨xor y.flag x.flag, (x.s, ⟨x.O, s.2.1.rows⟩, y.s), x.A, x.T, y.O,
      if y.flag then x.P else x.D, if y.flag then x.D else x.P⟩

/-! ### The wrapper that shows some columns of the lower layer -/

/-- Constructor of `_trainable_partial_layer_wrapper`, `nntl/layer/_pack_.h` 159–187: `inc` columns (without the bias column) in the matrix
`A`, the field is `ofs`, `cnt`; `mk` is `bMakeBiases`. Result: whether something was saved, `A`, the storage for the saved column. -/
def enter {α : Type} [One α] (R inc ofs cnt : Nat) (mk : Bool) (A T : Mem α) : Bool × Mem α × Mem α :=
  if inc ≤ ofs + cnt then (false, A, T)
  else if mk then
    let b := R * ofs + R * cnt
    (true, unshift b A (fill R 1 (shift b A)), copy R T (shift b A))
  else (false, A, T)

/-- Its destructor, `nntl/layer/_pack_.h` 148–155. -/
def leave {α : Type} (R ofs cnt : Nat) (saved : Bool) (A T : Mem α) : Mem α :=
  if saved then unshift (R * ofs + R * cnt) A (copy R (shift (R * ofs + R * cnt) A) T) else A

/-! ### Horizontal pack -/

/-- `PHL`, `nntl/layer/_pack_.h` 46–76: a layer with its receptive field. -/
structure Fld (α : Type) where
  ofs : Nat
  cnt : Nat
  obj : Obj α

def FState {α : Type} : List (Fld α) → Type
  | [] => Unit
  | f :: fs => f.obj.S × FState fs

/-- `get_neurons_cnt` of the pack, `nntl/layer/_lph_base.h` 131–153. -/
def fNeurons {α : Type} : List (Fld α) → Nat
  | [] => 0
  | f :: fs => f.obj.neurons + fNeurons fs

def fTmp {α : Type} : List (Fld α) → Nat
  | [] => 0
  | f :: fs => max f.obj.tmp (fTmp fs)

/-- `on_batch_size_change`, `nntl/layer/_lph_base.h` 388–401 (the storage for the activations of the inner layers is handed over in
`fFprop`, see `fo` there). -/
def fResize {α : Type} (R : Nat) : (fs : List (Fld α)) → FState fs → FState fs
  | [], s => s
  | f :: fs, s => (f.obj.resize R s.1, fResize R fs s.2)

/-- The mode is seen by all inner layers. -/
def fMode {α : Type} (b : Bool) : (fs : List (Fld α)) → FState fs → FState fs
  | [], s => s
  | f :: fs, s => (f.obj.mode b s.1, fMode b fs s.2)

/-- The loop of `_lph_fprop`, `nntl/layer/pack_horizontal.h` 79–81. `T` begins with the storage for the bias column; the memory for the
inner layers begins at `used` (`nntl/layer/_lph_base.h` 369–386). `fo` is `firstNeuronOfs`, `nntl/layer/_lph_base.h` 391–397. -/
def fFprop {α : Type} [One α] (R inc used : Nat) :
    (fs : List (Fld α)) → (fo : Nat) → FState fs → Mem α → Mem α → Mem α → FOut (FState fs) α
  | [], _, s, A, T, O => ⟨s, A, T, O⟩
  | f :: fs, fo, s, A, T, O =>
    let w := enter R inc f.ofs f.cnt true A T
    let x := f.obj.fprop R s.1 (shift (R * f.ofs) w.2.1) (shift used w.2.2) (shift (R * fo) O)
    let T1 := unshift used w.2.2 x.T
    let A1 := leave R f.ofs f.cnt w.1 (unshift (R * f.ofs) w.2.1 x.A) T1
    let y := fFprop R inc used fs (fo + f.obj.neurons) s.2 A1 T1 (unshift (R * fo) O x.O)
    ⟨(x.s, y.s), y.A, y.T, y.O⟩

/-- `vAdd_ip` of `n` elements. -/
def addTo {α : Type} [Add α] (n : Nat) (dst src : Mem α) : Mem α := fun p => if p < n then dst p + src p else dst p

/-- What the backward loop of a horizontal pack leaves (it returns nothing and does not touch `dLdA`). -/
structure FBOut (σ α : Type) where
  s : σ
  A : Mem α
  T : Mem α
  O : Mem α
  P : Mem α

/-- The loop of `_lph_bprop`, `nntl/layer/pack_horizontal.h` 124–160, from the last inner layer to the first one. The two gradient matrices
for the inner layers are at `bias` and at `bias + buf` in the temporary memory, the memory for the inner layers after them. An inner
layer gets three pointers into the same area; the area is put together again from what it left within the limits that belong to it. -/
def fBprop {α : Type} [One α] [Add α] (R inc bias buf : Nat) (need : Bool) :
    (fs : List (Fld α)) → (fo : Nat) → FState fs → Mem α → Mem α → Mem α → Mem α → Mem α → FBOut (FState fs) α
  | [], _, s, A, T, O, _, P => ⟨s, A, T, O, P⟩
  | f :: fs, fo, s, A, T, O, D, P =>
    let y := fBprop R inc bias buf need fs (fo + f.obj.neurons) s.2 A T O D P
    let T0 := unshift bias y.T (copy (R * f.obj.neurons) (shift bias y.T) (shift (R * fo) D))
    let w := enter R inc f.ofs f.cnt true y.A T0
    let x := f.obj.bprop R need s.1 (shift (R * f.ofs) w.2.1) (shift (bias + 2 * buf) w.2.2) (shift (R * fo) y.O)
      (shift bias w.2.2) (shift (bias + buf) w.2.2)
    let T1 := unshift bias w.2.2 (unshift buf x.D (unshift buf x.P x.T))
    let A1 := leave R f.ofs f.cnt w.1 (unshift (R * f.ofs) w.2.1 x.A) T1
    let P1 := if need then
        unshift (R * f.ofs) y.P (addTo (R * f.cnt) (shift (R * f.ofs) y.P)
          (if x.flag then shift (bias + buf) T1 else shift bias T1))
      else y.P
    ⟨(x.s, y.s), A1, T1, unshift (R * fo) y.O x.O, P1⟩

/-- `_LPH`, `nntl/layer/pack_horizontal.h` 69–176, initialised for training. `bias` is `m_biggestIncBS`, `buf` is
`m_layers_max_dLdA_numel`. -/
def horiz {α : Type} [Zero α] [One α] [Add α] (inc bias buf cap : Nat) (fs : List (Fld α)) : Obj α where
  S := FState fs
  inc := inc
  neurons := fNeurons fs
  biases := true
  tmp := bias + 2 * buf + fTmp fs
  cap := cap
  mode := fun b s => fMode b fs s
  resize := fun R s => fResize R fs s
  fprop := fun R s A T O => fFprop R inc (bias + 2 * buf) fs 0 s A T O
  bprop := fun R need s A T O D P =>
    let P0 := if need then fill (R * inc) 0 P else P
    let y := fBprop R inc bias buf need fs 0 s A T O D P0
    ⟨true, y.s, y.A, y.T, y.O, D, y.P⟩

/-! ### Tile pack -/

/-- `mTilingRoll`: a matrix of `R` rows and `k * m` columns into one of `k * R` rows and `m` columns, tile below tile (the threaded kernel is
the subject of C43). `nntl/interface/math/smath.h`. -/
def rollMem {α : Type} (R k m : Nat) (dst src : Mem α) : Mem α := fun p =>
  if p < k * R * m then src (p % (k * R) % R + R * (p % (k * R) / R * m + p / (k * R))) else dst p

/-- `mTilingUnroll`: the reverse. -/
def unrollMem {α : Type} (R k m : Nat) (dst src : Mem α) : Mem α := fun p =>
  if p < k * R * m then src (p / R / m * R + p % R + k * R * (p / R % m)) else dst p

/-- `_LPT`, `nntl/layer/pack_tile.h`: `on_batch_size_change` 290–304, `_lpt_fprop` 342–361 (not the variant with specially prepared
data), `_lpt_bprop` 364–415. State: the inner layer, `m_innerLowerLayerActivations`, the activations of the inner layer. -/
def tile {α : Type} [One α] (k : Nat) (cap : Nat) (l : Obj α) : Obj α where
  S := l.S × Stor α × Stor α
  inc := k * l.inc
  neurons := k * l.neurons
  biases := false
  tmp := l.tmp
  cap := cap
  mode := fun b s => (l.mode b s.1, s.2)
  resize := fun R s => (l.resize (k * R) s.1, s.2.1.deform (k * R) l.inc, s.2.2.deform (k * R) l.neurons)
  fprop := fun R s A T O =>
    let ll := rollMem R k l.inc s.2.1.m A
    let x := l.fprop (k * R) s.1 ll T s.2.2.m
    ⟨(x.s, ⟨x.A, s.2.1.rows⟩, ⟨x.O, s.2.2.rows⟩), A, x.T, unrollMem R k l.neurons O x.O⟩
  bprop := fun R need s A T O D P =>
    let P1 := rollMem R k l.neurons P D
    let x := l.bprop (k * R) need s.1 s.2.1.m T s.2.2.m P1 D
    let D2 := if need && !x.flag then unrollMem R k l.inc x.P x.D else x.P
    let P2 := if need && x.flag then unrollMem R k l.inc x.D x.P else x.D
    ⟨xor x.flag (!need), (x.s, ⟨x.A, s.2.1.rows⟩, ⟨x.O, s.2.2.rows⟩), A, x.T, O, D2, P2⟩

/-! ### Elementary layers that only copy -/

/-- `_LI`, `nntl/layer/identity.h` 66–122: copies the activations of the lower layer; its `bprop` does nothing and returns 0. -/
def identity {α : Type} (n : Nat) : Obj α where
  S := Unit
  inc := n
  neurons := n
  biases := false
  tmp := 0
  cap := 0
  mode := fun _ s => s
  resize := fun _ s => s
  fprop := fun R s A T O => ⟨s, A, T, copy (R * n) O A⟩
  bprop := fun _ _ s A T O D P => ⟨false, s, A, T, O, D, P⟩

/-- `_LIG` with binarisation, `nntl/layer/identity.h` 124–256; `bin` is `ewBinarize_ip` on one element. -/
def idGate {α : Type} (bin : α → α) (n : Nat) : Obj α where
  S := Unit
  inc := n
  neurons := n
  biases := false
  tmp := 0
  cap := 0
  mode := fun _ s => s
  resize := fun _ s => s
  fprop := fun R s A T O => ⟨s, A, T, copy (R * n) O (fun p => bin (A p))⟩
  bprop := fun _ _ s A T O D P => ⟨false, s, A, T, O, D, P⟩

end Nntl.Pass
