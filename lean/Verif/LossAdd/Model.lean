import Verif.Matrix.Model
/-! Loss addendums: the regularisers of the weights of a layer and the penalties on its activations.

Modelled: `/repo/nntl/loss_addendum/_i_loss_addendum.h` (`scaled_addendum` 137–167, `scaled_addendum_with_mtx4fprop` 169–192), `L1.h` 42–86,
`L2.h` 42–75, the interface of `DeCov.h` 56–118; `/repo/nntl/grad_works/loss_addendums.h` 108–283 (`Loss_Addendums`);
`/repo/nntl/layer/_penalized_activations_base.h` 119–230 (`_PA_base`) as used by `/repo/nntl/layer/extender.h` 132–150, 178–206, 228–251, 286–303.

Simplified: numbers are rational and arithmetic is exact. What a class of addendum computes of a matrix is an arbitrary function (the
kernels are the subject of C60, C84, C128–C132). A violated assertion, an access to memory never allocated or never written, and a call that does not
compile are `none`. The options of other mixins are the subject of C58. -/
namespace Nntl.LossAdd
open Nntl.Matrix

/-- A class of addendums. `id`: the type. `onFprop`, `nz`: `calcOnFprop`, `appendToNZGrad` (`_i_loss_addendum.h` 140–142). `val R C x`: what
`lossAdd` multiplies by the scale, for a matrix of `R` rows and `C` columns with elements `x r c`. `term`: the matrix whose multiple is
appended to the gradient. -/
structure Kind where
  id : Nat
  onFprop : Bool
  nz : Bool
  val : Nat → Nat → (Nat → Nat → Rat) → Rat
  term : Nat → Nat → (Nat → Nat → Rat) → Nat → Nat → Rat

/-- `m_Mtx` of `scaled_addendum_with_mtx4fprop` (179): `m_maxSize`, sizes, elements (`none`: never written). -/
structure Kept where
  max : Nat
  rows : Nat
  cols : Nat
  el : Option (Nat → Nat → Rat)

/-- An addendum: `m_scale` (145) and `m_Mtx` (`none`: no memory). -/
structure Add where
  kind : Kind
  scale : Rat
  mem : Option Kept

/-- Constructor `_i_loss_addendum.h` 148. -/
def Add.fresh (k : Kind) : Add := { kind := k, scale := 0, mem := none }

/-- `bEnabled` `_i_loss_addendum.h` 156. -/
def Add.on (a : Add) : Bool := decide (a.scale ≠ 0)

/-- The elements of a matrix. -/
def els (m : Mtx Rat) : Nat → Nat → Rat := fun r c => m.data (m.cell r c)

/-- `lossAdd`: `L1.h` 48–51, `L2.h` 48–51, `DeCov.h` 74–78. -/
def Add.lossAdd (a : Add) (m : Mtx Rat) : Rat := a.scale * a.kind.val m.rows m.cols (els m)

/-- An element of the gradient after `_appendGradient` `_i_loss_addendum.h` 159–166 or `_appendGradientSign` `L1.h` 77–84. -/
def app (nz : Bool) (scale d t : Rat) : Rat := if nz && decide (d = 0) then d else d + scale * t

/-- `evAddScaled_ip` and its kin: each element of the matrix once. -/
def appendTo (nz : Bool) (scale : Rat) (t : Nat → Nat → Rat) (g : Mtx Rat) : Mtx Rat :=
  { g with data := fun p => if p < g.numel then app nz scale (g.data p) (t (p % g.rows) (p / g.rows)) else g.data p }

/-- `dLossAdd`: calculated of the values (`L1.h` 68–74, `L2.h` 68–73, `DeCov.h` 100–118) or kept since the forward pass (`L1.h` 60–66, `L2.h` 60–66,
`DeCov.h` 88–96). -/
def Add.dLossAdd (a : Add) (v g : Mtx Rat) : Option (Mtx Rat) :=
  if v.emul || g.emul then none
  else if v.rows ≠ g.rows ∨ v.cols ≠ g.cols then none
  else if a.kind.onFprop then
    match a.mem with
    | none => none
    | some k =>
      if k.rows ≠ v.rows ∨ k.cols ≠ v.cols then none
      else match k.el with
        | none => none
        | some t => some (appendTo a.kind.nz a.scale t g)
  else some (appendTo a.kind.nz a.scale (a.kind.term v.rows v.cols (els v)) g)

/-! ### Regularisers of the weights: `/repo/nntl/grad_works/loss_addendums.h` -/

/-- `m_addendumsTuple` 108 and the options 111–117. -/
structure Reg where
  adds : List Add
  flags : Nat → Bool

/-- Construction: the tuple is made of its default-constructed members, `_la_construct` 223–228. -/
def construct (ks : List Kind) : Reg := { adds := ks.map Add.fresh, flags := fun i => decide (i < ks.length) }

/-- `tuple_element_idx_safe` `/repo/nntl/utils/tuple_utils.h` 314–328. -/
def typeIdx (t : Nat) : List Add → Nat
  | [] => 0
  | a :: as => if a.kind.id = t then 0 else 1 + typeIdx t as

/-- `::std::get<LaT>` of a tuple, as in `addendum<LaT>()` 124–125: the type has to occur exactly once. -/
def onceIn (t : Nat) (as : List Add) : Bool := (as.filter fun a => a.kind.id = t).length = 1

/-- `scale(s)` `_i_loss_addendum.h` 150–153 of one member of the tuple. -/
def scaleAt (i : Nat) (x : Rat) (as : List Add) : List Add := as.modify i fun a => { a with scale := x }

/-- Calls: `addendum<i>().scale(x)` 122–123, `addendum<T>().scale(x)` 124–125, `addendumIgnoresBias(i, b)` 160–163,
`addendumIgnoresBias<T>(b)` 164–169, and `L1(x, b)`, `L2(x, b)` 260–267, 272–279. -/
inductive Op
  | scaleAt (i : Nat) (x : Rat)
  | scaleOf (t : Nat) (x : Rat)
  | ignoreAt (i : Nat) (b : Bool)
  | ignoreOf (t : Nat) (b : Bool)
  | set (t : Nat) (x : Rat) (b : Bool)

def Reg.ignoreAt (r : Reg) (i : Nat) (b : Bool) : Option Reg :=
  if i < r.adds.length then some { r with flags := fun j => if j = i then b else r.flags j } else none

def Reg.scaleAt (r : Reg) (i : Nat) (x : Rat) : Option Reg :=
  if i < r.adds.length then some { r with adds := LossAdd.scaleAt i x r.adds } else none

def Reg.scaleOf (r : Reg) (t : Nat) (x : Rat) : Option Reg :=
  if onceIn t r.adds then r.scaleAt (typeIdx t r.adds) x else none

def Reg.ignoreOf (r : Reg) (t : Nat) (b : Bool) : Option Reg := r.ignoreAt (typeIdx t r.adds) b

def Reg.step (r : Reg) : Op → Option Reg
  | .scaleAt i x => r.scaleAt i x
  | .scaleOf t x => r.scaleOf t x
  | .ignoreAt i b => r.ignoreAt i b
  | .ignoreOf t b => r.ignoreOf t b
  | .set t x b => (r.scaleOf t x).bind fun r' => r'.ignoreOf t b

def Reg.run (r : Reg) : List Op → Option Reg
  | [] => some r
  | o :: os => (r.step o).bind fun r' => r'.run os

/-- `hasLossAddendum` 174–183, `_pab_hasLossAddendum` `_penalized_activations_base.h` 136–143. -/
def hasAny (as : List Add) : Bool := as.foldl (fun b a => b || a.on) false

/-- The flag is looked up by the type of the addendum: `addendumIgnoresBias<la_t>()` 198, 215. -/
def Reg.flagOf (r : Reg) (a : Add) : Bool := r.flags (typeIdx a.kind.id r.adds)

/-- The lambda of `lossAddendum` 194–203. -/
def Reg.valueOne (r : Reg) (a : Add) (s : Rat × Mtx Rat) : Option (Rat × Mtx Rat) :=
  if a.on then
    (if r.flagOf a then s.2.hideLastCol else some s.2).bind fun w =>
      (if r.flagOf a then w.restoreLastCol else some w).bind fun w' => some (s.1 + a.lossAdd w, w')
  else some s

def Reg.valueAll (r : Reg) : List Add → Rat × Mtx Rat → Option (Rat × Mtx Rat)
  | [], s => some s
  | a :: as, s => (r.valueOne a s).bind fun s' => r.valueAll as s'

/-- `lossAddendum` 187–206. -/
def Reg.lossAddendum (r : Reg) (w : Mtx Rat) : Option (Rat × Mtx Rat) := r.valueAll r.adds (0, w)

/-- The lambda of `_applyLossAddendums` 210–221. -/
def Reg.gradOne (r : Reg) (a : Add) (s : Mtx Rat × Mtx Rat) : Option (Mtx Rat × Mtx Rat) :=
  if a.on then
    (if r.flagOf a then s.2.hideLastCol else some s.2).bind fun g =>
    (if r.flagOf a then s.1.hideLastCol else some s.1).bind fun w =>
    (a.dLossAdd w g).bind fun g' =>
    (if r.flagOf a then g'.restoreLastCol else some g').bind fun g'' =>
    (if r.flagOf a then w.restoreLastCol else some w).bind fun w' => some (w', g'')
  else some s

def Reg.gradAll (r : Reg) : List Add → Mtx Rat × Mtx Rat → Option (Mtx Rat × Mtx Rat)
  | [], s => some s
  | a :: as, s => (r.gradOne a s).bind fun s' => r.gradAll as s'

/-- `_applyLossAddendums` 209–222. -/
def Reg.apply (r : Reg) (w g : Mtx Rat) : Option (Mtx Rat × Mtx Rat) := r.gradAll r.adds (w, g)

/-! ### Penalties on activations: `/repo/nntl/layer/_penalized_activations_base.h`, `/repo/nntl/layer/extender.h` -/

/-- `init` of one addendum: `_i_loss_addendum.h` 84–88, 182–186; `ok`: the allocation succeeds. Memory is asked for by addendums
calculated in the forward pass only. -/
def Add.init (a : Add) (R C : Nat) (ok : Bool) : Add × Bool :=
  if a.kind.onFprop then
    if R = 0 ∨ C = 0 then (a, false)
    else if ok then ({ a with mem := some { max := R * C, rows := R, cols := C, el := none } }, true)
    else ({ a with mem := none }, false)
  else (a, true)

/-- `_pab_init` 119–127 (`_la_init` of `loss_addendums.h` 230–237 is the same): the result is the conjunction, all are initialised.
`oks`: which allocations succeed. -/
def initAll (R C : Nat) : List Add → List Bool → List Add × Bool
  | [], _ => ([], true)
  | a :: as, oks =>
    let x := a.init R C (oks.headD true)
    let y := initAll R C as oks.tail
    (x.1 :: y.1, x.2 && y.2)

/-- `_pab_deinit` 128–133, `deinit` `_i_loss_addendum.h` 89, 188–191. -/
def deinitAll (as : List Add) : List Add := as.map fun a => { a with mem := none }

/-- The part of `layer_init` of the extender that concerns addendums, `extender.h` 181–188: a failure calls `layer_deinit`. -/
def layerInit (R C : Nat) (as : List Add) (oks : List Bool) : List Add × Bool :=
  let y := initAll R C as oks
  if y.2 then y else (deinitAll y.1, false)

/-- `on_fprop`: `L1.h` 53–58, `L2.h` 53–58, `DeCov.h` 80–85, with `deform_like` `smatrix.h` 1682–1685. -/
def Add.onFpropCall (a : Add) (v : Mtx Rat) : Option Add :=
  if v.emul then none
  else match a.mem with
    | none => none
    | some k =>
      if k.max < v.rows * v.cols then none
      else some { a with mem := some { k with rows := v.rows, cols := v.cols, el := some (a.kind.term v.rows v.cols (els v)) } }

/-- `call_on_fprop` 172–188 for all members. -/
def fpropAll (v : Mtx Rat) : List Add → Option (List Add)
  | [] => some []
  | a :: as =>
    (if a.kind.onFprop && a.on then a.onFpropCall v else some a).bind fun a' =>
      (fpropAll v as).bind fun as' => some (a' :: as')

/-- The lambda of `_pab_update_dLdA` 223–227 for all members. -/
def bpropAll (v : Mtx Rat) : List Add → Mtx Rat → Option (Mtx Rat)
  | [], g => some g
  | a :: as, g => (if a.on then a.dLossAdd v g else some g).bind fun g' => bpropAll v as g'

/-- The lambda of `_pab_lossAddendum` 159–163 for all members. -/
def lossAll (v : Mtx Rat) : List Add → Rat → Rat
  | [], s => s
  | a :: as, s => lossAll v as (if a.on then s + a.lossAdd v else s)

/-- `submatrix_cols_no_bias` of matrices that can be deformed, `smatrix.h` 1410–1415. -/
def noGate (gate : Nat) (m : Mtx Rat) : Option (Mtx Rat) :=
  if m.emul && m.bir then none
  else if m.colsNoBias - gate = 0 ∨ m.colsNoBias < gate then none
  else some { data := fun p => m.data (m.rows * gate + p), cap := m.rows * (m.colsNoBias - gate), rows := m.rows,
              cols := m.colsNoBias - gate, emul := false, ext := true, holey := false, bir := false, maxSize := m.rows * (m.colsNoBias - gate) }

/-- The matrix of a gradient after the part behind the gate was written through its wrapper. -/
def putBack (gate : Nat) (g sub : Mtx Rat) : Mtx Rat :=
  { g with data := fun p => if p < g.rows * gate then g.data p else sub.data (p - g.rows * gate) }

/-- `_fprop4PA` `extender.h` 228–251 in training mode, `_for_each_call_functor` 190–200. The activations are returned too. -/
def fprop (gate : Nat) (as : List Add) (act : Mtx Rat) : Option (List Add × Mtx Rat) :=
  if act.bir then none
  else if gate = 0 then
    act.hideBiases.bind fun h => (fpropAll h.1 as).bind fun as' => (h.1.restoreBiases h.2).bind fun act' => some (as', act')
  else if !act.emul then none
  else (noGate gate act).bind fun v => (fpropAll v as).bind fun as' => some (as', act)

/-- `_update_dLdA4PA` `extender.h` 286–303, `_pab_update_dLdA` 216–230. -/
def bprop (gate : Nat) (as : List Add) (act g : Mtx Rat) : Option (Mtx Rat × Mtx Rat) :=
  if act.bir then none
  else if gate = 0 then
    act.hideBiases.bind fun h => (bpropAll h.1 as g).bind fun g' => (h.1.restoreBiases h.2).bind fun act' => some (act', g')
  else if !act.emul || g.emul then none
  else if act.rows ≠ g.rows ∨ act.colsNoBias ≠ g.cols then none
  else (noGate gate act).bind fun v => (noGate gate g).bind fun d => (bpropAll v as d).bind fun d' => some (act, putBack gate g d')

/-- `lossAddendum` `extender.h` 141–148 without the part of the base class, `_pab_lossAddendum` 148–169: whatever the layer is. -/
def loss (as : List Add) (act : Mtx Rat) : Option (Rat × Mtx Rat) :=
  if act.bir then none
  else act.hideBiases.bind fun h => (h.1.restoreBiases h.2).bind fun act' => some (lossAll h.1 as 0, act')

/-- What happens to the layer between its initialisation and deinitialisation: a scale is set; a training batch goes forward (activations before
dropout), and backward (activations and the gradient given to the layer). -/
inductive Ev
  | scale (i : Nat) (x : Rat)
  | fprop (act : Mtx Rat)
  | bprop (act g : Mtx Rat)

def step (gate : Nat) (as : List Add) : Ev → Option (List Add)
  | .scale i x => if i < as.length then some (scaleAt i x as) else none
  | .fprop act => (fprop gate as act).map Prod.fst
  | .bprop act g => (bprop gate as act g).map fun _ => as

def run (gate : Nat) (as : List Add) : List Ev → Option (List Add)
  | [] => some as
  | e :: es => (step gate as e).bind fun as' => run gate as' es

/-- `L1` (`L1.h` 42–86) with the type number `id`. -/
def kindL1 (id : Nat) (onFprop nz : Bool) : Kind :=
  { id, onFprop, nz
    val := fun R C x => ((List.range R).map fun r => ((List.range C).map fun c => if x r c < 0 then -(x r c) else x r c).sum).sum
    term := fun _ _ x r c => if x r c < 0 then -1 else if 0 < x r c then 1 else 0 }

/-- `L2` (`L2.h` 42–75). -/
def kindL2 (id : Nat) (onFprop nz : Bool) : Kind :=
  { id, onFprop, nz
    val := fun R C x => mkRat 1 2 * ((List.range R).map fun r => ((List.range C).map fun c => x r c * x r c).sum).sum
    term := fun _ _ x r c => x r c }

end Nntl.LossAdd
