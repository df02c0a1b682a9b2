import Verif.Pass.Spec
import Verif.Kernel.MoveLemmas
/-! The optional (gated) pack on the level of memory: `nntl/layer/pack_horizontal_optional.h`. -/
namespace Nntl.Pass
open Nntl.Kernel (openRows)

/-- `mExtractRowsByMask` of a matrix of `R` rows and `n` columns (the threaded kernel is the subject of
`Nntl.Kernel.extract_rows_by_mask`). -/
def extractMem {α : Type} (R : Nat) (mask : Nat → Bool) (n : Nat) (dst src : Mem α) : Mem α := fun p =>
  if p < (openRows mask R).length * n then
    src ((openRows mask R).getD (p % (openRows mask R).length) 0 + R * (p / (openRows mask R).length))
  else dst p

/-- `mFillRowsByMask` into a matrix of `R` rows and `n` columns (the threaded kernel is the subject of
`Nntl.Kernel.fill_rows_by_mask`). -/
def fillMem {α : Type} [Zero α] (R : Nat) (mask : Nat → Bool) (n : Nat) (dst src : Mem α) : Mem α := fun p =>
  if p < R * n then
    (if mask (p % R) then src ((openRows mask (p % R)).length + (openRows mask R).length * (p / R)) else 0)
  else dst p

/-- The mask: which elements of column `k` of the gate's activations are not zero. -/
def maskOf {α : Type} [Zero α] [DecidableEq α] (R k : Nat) (O : Mem α) : Nat → Bool := fun r => decide (O (r + R * k) ≠ 0)

/-- The third constructor of `_trainable_partial_layer_wrapper`, `nntl/layer/_pack_.h` 203–222, for a matrix of `n` rows and `cnt + 1`
columns; `maxNumel` elements are safe. -/
def enterOpt {α : Type} [One α] (n cnt maxNumel : Nat) (A T : Mem α) : Bool × Mem α × Mem α :=
  if n * (cnt + 1) ≤ maxNumel then (false, A, T)
  else (true, unshift (n * cnt) A (fill n 1 (shift (n * cnt) A)), copy n T (shift (n * cnt) A))

/-- Its destructor, `nntl/layer/_pack_.h` 148–155. -/
def leaveOpt {α : Type} (n cnt : Nat) (saved : Bool) (A T : Mem α) : Mem α :=
  if saved then unshift (n * cnt) A (copy n (shift (n * cnt) A) T) else A

/-- State of the layers under the gate; each of them owns its activation storage. -/
def OState {α : Type} : List (Fld α) → Type
  | [] => Unit
  | f :: fs => (f.obj.S × Stor α) × OState fs

/-- The mode is seen by all inner layers. -/
def oMode {α : Type} (b : Bool) : (fs : List (Fld α)) → OState fs → OState fs
  | [], s => s
  | f :: fs, s => ((f.obj.mode b s.1.1, s.1.2), oMode b fs s.2)

/-- What the loop over the layers under the gate leaves forward. `Q` is the storage `m_prevActsStor`. -/
structure OFOut (σ α : Type) where
  s : σ
  Q : Mem α
  T : Mem α
  O : Mem α

/-- The loop of `_lpho_fprop`, `nntl/layer/pack_horizontal_optional.h` 243–285. `k` is `lIdx`, `fo` is `ofs`, `po` is where the matrix
`m_aPrevActs[k]` begins (`_init_self` 171–180: `bbs` times the number of incoming neurons further for every layer, without the bias
column). -/
def oFprop {α : Type} [Zero α] [One α] [DecidableEq α] (R bbs used : Nat) :
    (fs : List (Fld α)) → (k fo po : Nat) → OState fs → Mem α → Mem α → Mem α → Mem α → OFOut (OState fs) α
  | [], _, _, _, s, _, Q, T, O => ⟨s, Q, T, O⟩
  | f :: fs, k, fo, po, s, A, Q, T, O =>
    let mask := maskOf R k O
    let n := (openRows mask R).length
    if 0 < n then
      let st := s.1.2.deform n f.obj.neurons
      let q := extractMem R mask f.cnt (shift po Q) (shift (R * f.ofs) A)
      let q1 := unshift (n * f.cnt) q (fill n 1 (shift (n * f.cnt) q))
      let x := f.obj.fprop n (f.obj.resize n s.1.1) q1 (shift used T) st.m
      let O1 := unshift (R * fo) O (fillMem R mask f.obj.neurons (shift (R * fo) O) x.O)
      let y := oFprop R bbs used fs (k + 1) (fo + f.obj.neurons) (po + bbs * f.cnt) s.2 A (unshift po Q x.A) (unshift used T x.T) O1
      ⟨((x.s, ⟨x.O, st.rows⟩), y.s), y.Q, y.T, y.O⟩
    else
      let O1 := unshift (R * fo) O (fill (R * f.obj.neurons) 0 (shift (R * fo) O))
      let y := oFprop R bbs used fs (k + 1) (fo + f.obj.neurons) (po + bbs * f.cnt) s.2 A Q T O1
      ⟨(s.1, y.s), y.Q, y.T, y.O⟩

/-- What the loop leaves backward. -/
structure OBOut (σ α : Type) where
  s : σ
  Q : Mem α
  T : Mem α
  P : Mem α

/-- The loop of `_lpho_bprop`, `nntl/layer/pack_horizontal_optional.h` 319–379, from the last layer to the first one. The number of rows
of `m_aPrevActs[k]` is the number of open rows set by `_lpho_fprop` (the assertion at 338). -/
def oBprop {α : Type} [Zero α] [One α] [DecidableEq α] (R bbs bias buf : Nat) (need : Bool) :
    (fs : List (Fld α)) → (k fo po : Nat) → OState fs → Mem α → Mem α → Mem α → Mem α → Mem α → OBOut (OState fs) α
  | [], _, _, _, s, Q, T, _, _, P => ⟨s, Q, T, P⟩
  | f :: fs, k, fo, po, s, Q, T, O, D, P =>
    let y := oBprop R bbs bias buf need fs (k + 1) (fo + f.obj.neurons) (po + bbs * f.cnt) s.2 Q T O D P
    let mask := maskOf R k O
    let n := (openRows mask R).length
    if 0 < n then
      let T0 := unshift bias y.T (extractMem R mask f.obj.neurons (shift bias y.T) (shift (R * fo) D))
      let w := enterOpt n f.cnt (bbs * f.cnt) (shift po y.Q) T0
      let x := f.obj.bprop n need s.1.1 w.2.1 (shift (bias + 2 * buf) w.2.2) s.1.2.m (shift bias w.2.2) (shift (bias + buf) w.2.2)
      let T1 := unshift bias w.2.2 (unshift buf x.D (unshift buf x.P x.T))
      let Q1 := unshift po y.Q (leaveOpt n f.cnt w.1 x.A T1)
      let P1 := if need then
          unshift (R * f.ofs) y.P (fillMem R mask f.cnt (shift (R * f.ofs) y.P) (if x.flag then shift (bias + buf) T1 else shift bias T1))
        else y.P
      ⟨((x.s, ⟨x.O, s.1.2.rows⟩), y.s), Q1, T1, P1⟩
    else
      let P1 := if need then unshift (R * f.ofs) y.P (fill (R * f.cnt) 0 (shift (R * f.ofs) y.P)) else y.P
      ⟨(s.1, y.s), y.Q, y.T, P1⟩

/-- `_LPHO`, `nntl/layer/pack_horizontal_optional.h`. `g` is the gate with its field, `add` is `bAddDataNotPresentFeature` with `compl` for
`evOneCompl`, `triv` is `layer_has_trivial_bprop` of the gate. `on_batch_size_change` 193–203 resizes the gate only. `_lpho_fprop` 224–294;
`_lpho_bprop` 296–408. -/
def optional {α : Type} [Zero α] [One α] [DecidableEq α] (inc bbs buf cap : Nat) (add : Bool) (compl : α → α) (triv : Bool)
    (g : Fld α) (fs : List (Fld α)) : Obj α where
  S := g.obj.S × Mem α × OState fs
  inc := inc
  neurons := g.obj.neurons + (if add then g.obj.neurons else 0) + fNeurons fs
  biases := true
  tmp := bbs + 2 * buf + max g.obj.tmp (fTmp fs)
  cap := cap
  mode := fun b s => (g.obj.mode b s.1, s.2.1, oMode b fs s.2.2)
  resize := fun R s => (g.obj.resize R s.1, s.2)
  fprop := fun R s A T O =>
    let w := enter R inc g.ofs g.cnt g.obj.biases A T
    let x := g.obj.fprop R s.1 (shift (R * g.ofs) w.2.1) (shift (bbs + 2 * buf) w.2.2) O
    let T1 := unshift (bbs + 2 * buf) w.2.2 x.T
    let A1 := leave R g.ofs g.cnt w.1 (unshift (R * g.ofs) w.2.1 x.A) T1
    let O1 := if add then
        unshift (R * g.obj.neurons) x.O (copy (R * g.obj.neurons) (shift (R * g.obj.neurons) x.O) (fun p => compl (x.O p)))
      else x.O
    let y := oFprop R bbs (bbs + 2 * buf) fs 0 (g.obj.neurons + if add then g.obj.neurons else 0) 0 s.2.2 A1 s.2.1 T1 O1
    ⟨(x.s, y.Q, y.s), A1, y.T, y.O⟩
  bprop := fun R need s A T O D P =>
    let y := oBprop R bbs bbs buf need fs 0 (g.obj.neurons + if add then g.obj.neurons else 0) 0 s.2.2 s.2.1 T O D P
    if triv then
      ⟨true, (s.1, y.Q, y.s), A, y.T, O, D,
        if need then unshift (R * g.ofs) y.P (fill (R * g.cnt) 0 (shift (R * g.ofs) y.P)) else y.P⟩
    else
      let w := enter R inc g.ofs g.cnt true A y.T
      let x := g.obj.bprop R need s.1 (shift (R * g.ofs) w.2.1) (shift (bbs + 2 * buf) w.2.2) O
        (shift bbs w.2.2) (shift (bbs + buf) w.2.2)
      let T1 := unshift bbs w.2.2 (unshift buf x.D (unshift buf x.P x.T))
      let A1 := leave R g.ofs g.cnt w.1 (unshift (R * g.ofs) w.2.1 x.A) T1
      ⟨true, (x.s, y.Q, y.s), A1, T1, x.O, D,
        if need then unshift (R * g.ofs) y.P (copy (R * g.cnt) (shift (R * g.ofs) y.P)
          (if x.flag then shift (bbs + buf) T1 else shift bbs T1)) else y.P⟩

/-! ### Specification -/

/-- The rows whose mask is set, in order. -/
def pick {α : Type} (R : Nat) (mask : Nat → Bool) (X : Mat α) : Mat α := fun q c => X ((openRows mask R).getD q 0) c

/-- The rows of `Y` put back to the places where the mask is set, zeros elsewhere. -/
def scatter {α : Type} [Zero α] (mask : Nat → Bool) (Y : Mat α) : Mat α := fun r c =>
  if mask r then Y (openRows mask r).length c else 0

/-- Mask of layer `k` from the gate's output `g`. -/
def gmask {α : Type} [Zero α] [DecidableEq α] (g : Mat α) (k : Nat) : Nat → Bool := fun r => decide (g r k ≠ 0)

def oInv {α : Type} (b : Bool) : (fs : List (Fld α)) → Laws fs → OState fs → Prop
  | [], _, _ => True
  | _ :: fs, Ls, s => Ls.head.Inv b s.1.2.rows s.1.1 ∧ oInv b fs Ls.tail s.2

/-- The layer under gate `k` sees the open rows of its columns only and its output goes to the open rows; the other rows are zeros. -/
def oFwd {α : Type} [Zero α] [DecidableEq α] (R : Nat) (g X : Mat α) : (fs : List (Fld α)) → (k : Nat) → Laws fs → OState fs → Mat α
  | [], _, _, _ => X
  | f :: fs, k, Ls, s => fun r c =>
    if c < f.obj.neurons then
      scatter (gmask g k) (Ls.head.fwd (openRows (gmask g k) R).length s.1.1 (pick R (gmask g k) (colsFrom f.ofs X))) r c
    else oFwd R g X fs (k + 1) Ls.tail s.2 r (c - f.obj.neurons)

/-- Gradient: the open rows are handed back, the closed rows get no gradient. -/
def oBwd {α : Type} [Zero α] [DecidableEq α] (R : Nat) (g X : Mat α) :
    (fs : List (Fld α)) → (k : Nat) → Laws fs → OState fs → Mat α → Mat α
  | [], _, _, _, _ => fun _ _ => 0
  | f :: fs, k, Ls, s, G => fun r j =>
    if f.ofs ≤ j ∧ j < f.ofs + f.cnt then
      scatter (gmask g k) (Ls.head.bwd (openRows (gmask g k) R).length s.1.1 (pick R (gmask g k) (colsFrom f.ofs X))
        (pick R (gmask g k) G)) r (j - f.ofs)
    else oBwd R g X fs (k + 1) Ls.tail s.2 (colsFrom f.obj.neurons G) r j

/-- A layer with open rows updates itself from these rows of its input and of its gradient; a layer without is left as it was. -/
def oUpd {α : Type} [Zero α] [DecidableEq α] (R : Nat) (g X : Mat α) :
    (fs : List (Fld α)) → (k : Nat) → Laws fs → OState fs → Mat α → OState fs → Prop
  | [], _, _, _, _, _ => True
  | f :: fs, k, Ls, s, G, s' =>
    (if 0 < (openRows (gmask g k) R).length then
      Ls.head.Upd (openRows (gmask g k) R).length s.1.1 (pick R (gmask g k) (colsFrom f.ofs X)) (pick R (gmask g k) G) s'.1.1
    else s'.1 = s.1) ∧ oUpd R g X fs (k + 1) Ls.tail s.2 (colsFrom f.obj.neurons G) s'.2

/-- The layers under the gate have last run forward on the open rows of their columns of `X`. -/
def oReady {α : Type} [Zero α] [One α] [DecidableEq α] (R bbs : Nat) (g X : Mat α) (Q : Mem α) :
    (fs : List (Fld α)) → (k po : Nat) → Laws fs → OState fs → Prop
  | [], _, _, _, _ => True
  | f :: fs, k, po, Ls, s =>
    (0 < (openRows (gmask g k) R).length → s.1.2.rows = (openRows (gmask g k) R).length ∧
      Ls.head.Ready (openRows (gmask g k) R).length s.1.1 (pick R (gmask g k) (colsFrom f.ofs X)) ∧
      Shows (openRows (gmask g k) R).length f.obj.neurons s.1.2.m
        (Ls.head.fwd (openRows (gmask g k) R).length s.1.1 (pick R (gmask g k) (colsFrom f.ofs X))) ∧
      Shows (openRows (gmask g k) R).length f.cnt (shift po Q) (pick R (gmask g k) (colsFrom f.ofs X)) ∧
      ((openRows (gmask g k) R).length * (f.cnt + 1) ≤ bbs * f.cnt → Ones (openRows (gmask g k) R).length f.cnt (shift po Q))) ∧
    oReady R bbs g X Q fs (k + 1) (po + bbs * f.cnt) Ls.tail s.2

/-- What the gated pack is meant to do: the gate's output, with `add` its complement, then the outputs of the layers under the gate. No
gradient is propagated through the gate. -/
def optionalLaw {α : Type} [Zero α] [One α] [DecidableEq α] (inc bbs buf cap : Nat) (add : Bool) (compl : α → α)
    {g : Fld α} {fs : List (Fld α)} (Lg : Law g.obj) (Ls : Laws fs) : Law (optional inc bbs buf cap add compl true g fs) where
  Inv := fun b R s => Lg.Inv b R s.1 ∧ oInv b fs Ls s.2.2
  Ready := fun R s X => Lg.Ready R s.1 (colsFrom g.ofs X) ∧
    oReady R bbs (Lg.fwd R s.1 (colsFrom g.ofs X)) X s.2.1 fs 0 0 Ls s.2.2
  fwd := fun R s X r c =>
    if c < g.obj.neurons then Lg.fwd R s.1 (colsFrom g.ofs X) r c
    else if add = true ∧ c < g.obj.neurons + g.obj.neurons then compl (Lg.fwd R s.1 (colsFrom g.ofs X) r (c - g.obj.neurons))
    else oFwd R (Lg.fwd R s.1 (colsFrom g.ofs X)) X fs 0 Ls s.2.2 r
      (c - (g.obj.neurons + if add then g.obj.neurons else 0))
  bwd := fun R s X G r j =>
    if g.ofs ≤ j ∧ j < g.ofs + g.cnt then 0
    else oBwd R (Lg.fwd R s.1 (colsFrom g.ofs X)) X fs 0 Ls s.2.2
      (colsFrom (g.obj.neurons + if add then g.obj.neurons else 0) G) r j
  Upd := fun R s X G s' => s'.1 = s.1 ∧
    oUpd R (Lg.fwd R s.1 (colsFrom g.ofs X)) X fs 0 Ls s.2.2
      (colsFrom (g.obj.neurons + if add then g.obj.neurons else 0) G) s'.2.2

end Nntl.Pass
