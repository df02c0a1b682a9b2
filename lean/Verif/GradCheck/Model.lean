import Verif.Utils.Holder

/-!
Model of the numeric gradient check: `nnet::gradcheck` and its `GradCheckFunctor` (nntl/nnet.h 738–1206), the inspector it works through
(nntl/interface/inspectors/gradcheck.h), the stack of layer indices (nntl/utils/layer_idx_keeper.h) and the settings (nntl/utils/gradcheck.h). The feeder of
batches is `Verif/Utils/Holder`.

Numbers are values of any type with the operations used (`Arith`), without laws: what does not depend on arithmetic holds for floating point numbers. Matrices are functions of row
and column. What the layers calculate is given by functions: the check only sees the calls to the inspector, which are modelled one by one, in the order of the code.
-/
namespace Nntl.GradCheck

open Nntl.Utils

/-- The operations on `real_t` used by the check. -/
structure Arith (R : Type) where
  zero : R
  add : R → R → R
  sub : R → R → R
  mul : R → R → R
  div : R → R → R
  neg : R → R
  abs : R → R
  /-- `real_t(n)`, conversions of integers. -/
  nat : Nat → R
  /-- `a < b`. -/
  lt : R → R → Bool
  /-- `0 == a`. -/
  isZero : R → Bool
  nan : R
  isNaN : R → Bool

variable {R S G : Type}

/-- `::std::max(a, b)`: `(a < b) ? b : a`. -/
def Arith.max (A : Arith R) (a b : R) : R := if A.lt a b then b else a

/-- A matrix of weights: neuron, incoming weight (the last column are the biases). -/
abbrev Mat (R : Type) := Nat → Nat → R

/-- Activations or `dL/dA` of a batch: its number of rows and the values by row and neuron. -/
structure Acts (R : Type) where
  rows : Nat
  v : Mat R

/-- The element at a pair of coordinates replaced. -/
def Mat.set (m : Mat R) (c : Nat × Nat) (x : R) : Mat R := fun i j => if (i, j) = c then x else m i j

/-- One layer's entry of a family replaced. -/
def put {α : Type} (f : Nat → α) (l : Nat) (a : α) : Nat → α := fun k => if k = l then a else f k

/-! ### The inspector -/

/-- `gradcheck_paramsGroup`, utils/gradcheck.h 39–42. -/
inductive Group where
  | dLdA
  | dLdW
deriving DecidableEq

/-- `gradcheck_phase`, utils/gradcheck.h 50–54. -/
inductive Phase where
  | analytical
  | plus
  | minus
deriving DecidableEq

/-- The fields of `inspector::GradCheck`, inspectors/gradcheck.h 62–82. `changed` is `m_pChangedEl`: the layer and the coordinates of the changed weight. The fields below `changed` are
not initialised by the constructor (line 86); `toCheck = 0` makes them irrelevant. -/
structure Insp (R : Type) where
  toCheck : Nat
  stack : List Nat
  changed : Option (Nat × (Nat × Nat))
  group : Group
  phase : Phase
  coord : Nat × Nat
  step : R
  an : R
  realBs : Nat
  orig : R
  mayNeverRun : Bool

/-- `gc_reset`, inspectors/gradcheck.h 88–91. -/
def Insp.reset (i : Insp R) : Insp R := { i with toCheck := 0, changed := none }
/-- `gc_init`, inspectors/gradcheck.h 93–96. -/
def Insp.init (i : Insp R) (h : R) : Insp R := { i with step := h, changed := none }
/-- `gc_deinit`, inspectors/gradcheck.h 97. -/
def Insp.deinit (i : Insp R) : Insp R := { i with changed := none }
/-- `gc_prep_check_layer`, inspectors/gradcheck.h 103–111. -/
def Insp.prep (i : Insp R) (l : Nat) (g : Group) (c : Nat × Nat) (skip : Bool) : Insp R := { i with toCheck := l, group := g, coord := c, mayNeverRun := skip }
/-- `gc_set_phase`, inspectors/gradcheck.h 122–126. -/
def Insp.setPhase (A : Arith R) (i : Insp R) (p : Phase) : Insp R := { i with phase := p, an := A.nan, realBs := 0 }
/-- `get_analytical_value`, inspectors/gradcheck.h 112–116 (the assertions are for debug builds). -/
def Insp.value (A : Arith R) (i : Insp R) : R := if i.mayNeverRun && A.isNaN i.an then A.zero else i.an
/-- `get_real_batch_size`, inspectors/gradcheck.h 117–120. -/
def Insp.batchSize (i : Insp R) : Nat := if i.mayNeverRun && i.realBs == 0 then 1 else i.realBs

/-- `push`, layer_idx_keeper.h 59–66, under the condition of `fprop_begin` and `bprop_begin`, inspectors/gradcheck.h 129–132, 198–201. -/
def Insp.push (i : Insp R) (l : Nat) : Insp R := if i.toCheck = 0 then i else { i with stack := l :: i.stack }
/-- `pop`, layer_idx_keeper.h 68–71, under the condition of `fprop_end` and `bprop_end`, inspectors/gradcheck.h 192–195, 235–238. -/
def Insp.pop (i : Insp R) : Insp R := if i.toCheck = 0 then i else { i with stack := i.stack.tail }
/-- `m_layerIdxToCheck && m_layerIdxToCheck == m_curLayer`: the layer on the top of the stack is checked (`top`, layer_idx_keeper.h 72–74: a default value, no layer, if the stack is empty). -/
def Insp.here (i : Insp R) : Bool := decide (i.toCheck ≠ 0) && decide (i.stack.head? = some i.toCheck)
/-- `bUpperLayerDifferent`, layer_idx_keeper.h 91–93. -/
def Insp.outermost (i : Insp R) : Bool := match i.stack with
  | a :: b :: _ => decide (a ≠ b)
  | _ => true

/-- What a network consists of besides its activations: the weights and the state of the optimiser of every layer (by index). -/
structure Mem (R S : Type) where
  w : Nat → Mat R
  opt : Nat → S

/-- The inspector and the network: what a pass changes. -/
structure St (R S : Type) where
  insp : Insp R
  mem : Mem R S

/-- `±m_stepSize`, as added in the phase. -/
def Insp.shift (A : Arith R) (i : Insp R) : R := if i.phase = .plus then i.step else A.neg i.step

/-- `fprop_makePreActivations(W, prevAct)` in the layer `l`, inspectors/gradcheck.h 134–148: the weight is changed in place, its value is remembered. -/
def St.makePre (A : Arith R) (l rows : Nat) (s : St R S) : St R S :=
  if s.insp.here && decide (s.insp.group = .dLdW) && decide (s.insp.phase ≠ .analytical) then
    let c := s.insp.coord
    let x := s.mem.w l c.1 c.2
    { s with
      insp := { s.insp with changed := some (l, c), orig := x, realBs := rows }
      mem := { s.mem with w := put s.mem.w l ((s.mem.w l).set c (A.add x (s.insp.shift A))) } }
  else s

/-- `fprop_preactivations`, inspectors/gradcheck.h 152–164: the remembered value is written back where the pointer points. -/
def St.preAct (s : St R S) : St R S :=
  if s.insp.here && decide (s.insp.group = .dLdW) && decide (s.insp.phase ≠ .analytical) then
    match s.insp.changed with
    | some (l, c) => { s with insp := { s.insp with changed := none }, mem := { s.mem with w := put s.mem.w l ((s.mem.w l).set c s.insp.orig) } }
    | none => s
  else s

/-- `fprop_activations`, inspectors/gradcheck.h 166–178. -/
def St.acts (A : Arith R) (a : Acts R) (s : St R S) : Acts R × St R S :=
  if s.insp.here && decide (s.insp.group = .dLdA) && decide (s.insp.phase ≠ .analytical) && s.insp.outermost then
    ({ a with v := a.v.set s.insp.coord (A.add (a.v s.insp.coord.1 s.insp.coord.2) (s.insp.shift A)) }, { s with insp := { s.insp with realBs := a.rows } })
  else (a, s)

/-- `bprop_finaldLdA`, inspectors/gradcheck.h 203–215. -/
def St.finaldLdA (d : Acts R) (s : St R S) : St R S :=
  if s.insp.here && decide (s.insp.group = .dLdA) && decide (s.insp.phase = .analytical) && s.insp.outermost then
    { s with insp := { s.insp with an := d.v s.insp.coord.1 s.insp.coord.2, realBs := d.rows } }
  else s

/-- `bprop_dLdW`, inspectors/gradcheck.h 217–233. -/
def St.dLdW (rows : Nat) (g : Mat R) (s : St R S) : St R S :=
  if s.insp.here && decide (s.insp.group = .dLdW) && decide (s.insp.phase = .analytical) then
    { s with insp := { s.insp with an := g s.insp.coord.1 s.insp.coord.2, realBs := rows } }
  else s

/-- `fprop_begin` and `bprop_begin`. -/
def St.begin (l : Nat) (s : St R S) : St R S := { s with insp := s.insp.push l }
/-- `fprop_end` and `bprop_end`. -/
def St.finish (s : St R S) : St R S := { s with insp := s.insp.pop }

/-! ### Layers -/

/-- Layers, packs of layers and networks (without the input layer), by the calls they make to the inspector. Each function stands for what the layer calculates.

* `fc`: fully connected and output layers (layer/fully_connected.h 241–284, 407–520; layer/output.h 178–253). `pre`: the product with the weights, `act` the activation function; `dz`: `dL/dZ` from the activations and `dL/dA` (the
  answers, in an output layer); `prev`: `dL/dA` of the layer below from the weights and `dL/dZ`; `dw`: `dL/dW` from `dL/dZ` and the incoming activations. `out`: an output layer, which does not report
  `dL/dA`. `upd`: `bUpdateWeights()`.
* `plain`: a layer without weights, layer/identity.h 63–98.
* `ext`: dropout and penalties on activations, layer/extender.h 286–292, 326–346, over a layer with the same index. `post` and `back` are what they do to activations and to `dL/dA`, depending on
  the random mask of this pass; `pen` the penalty.
* `seq`: one layer over another one. `par`: two layers side by side: `f`, `g` select the inputs, `mix` puts the results together, `fb`, `gb` cut `dL/dA` up, `sum` adds the results.
* `map`: the rearrangements of tile packs, layer/pack_tile.h 338–353, 370–414.
* `gate`: a layer that is run only for some inputs, layer/pack_horizontal_optional.h 228–293, 306–402.
* `pack`: the calls of a pack around its layers, layer/pack_vertical.h 250–309, layer/pack_horizontal.h 74–172, and the two above. -/
inductive Node (R : Type) where
  | fc (idx n inc : Nat) (out upd : Bool) (pre : Mat R → Acts R → Acts R) (act : Acts R → Acts R) (dz : Acts R → Acts R → Acts R) (prev : Mat R → Acts R → Acts R)
      (dw : Acts R → Acts R → Mat R)
  | plain (idx n : Nat) (f : Acts R → Acts R) (b : Acts R → Acts R)
  | ext (idx : Nat) (post : Mat R → Acts R → Acts R) (pen : Acts R → R) (back : Mat R → Acts R → Acts R → Acts R) (a : Node R)
  | seq (l u : Node R)
  | par (f g : Acts R → Acts R) (mix : Acts R → Acts R → Acts R) (fb gb : Acts R → Acts R) (sum : Acts R → Acts R → Acts R) (a b : Node R)
  | map (f g : Acts R → Acts R) (gb fb : Acts R → Acts R) (a : Node R)
  | gate (run : Acts R → Bool) (dflt : Acts R → Acts R) (bdflt : Acts R → Acts R) (a : Node R)
  | pack (idx n : Nat) (a : Node R)

/-- What a pass depends on. `pre` and `app` are what `pre_training_fprop` and `apply_grad` of the optimiser of a layer do to its weights and its state when learning is not blocked (modelled in `Verif/Grad`);
when it is blocked they do nothing (grad_works.h 340, 409; theorem C49). `masks`: the random masks drawn in the pass. -/
structure Env (R S : Type) where
  A : Arith R
  pre : Nat → Mat R → S → Mat R × S
  app : Nat → Mat R → S → Mat R → Mat R × S
  training : Bool
  blocked : Bool

/-- A call of `pre_training_fprop` (fully_connected.h 263, grad_works.h 333–366). -/
def Env.doPre (E : Env R S) (l : Nat) (s : St R S) : St R S :=
  if E.training && !E.blocked then
    let r := E.pre l (s.mem.w l) (s.mem.opt l)
    { s with mem := ⟨put s.mem.w l r.1, put s.mem.opt l r.2⟩ }
  else s

/-- A call of `apply_grad` (fully_connected.h 510, output.h 245, grad_works.h 388–412). -/
def Env.doApp (E : Env R S) (l : Nat) (g : Mat R) (s : St R S) : St R S :=
  if !E.blocked then
    let r := E.app l (s.mem.w l) (s.mem.opt l) g
    { s with mem := ⟨put s.mem.w l r.1, put s.mem.opt l r.2⟩ }
  else s

/-- The forward pass: the activations, the penalties on activations (from below), the new state. -/
def Node.fprop (E : Env R S) (om : Nat → Mat R) : Node R → Acts R → St R S → Acts R × List R × St R S
  | .fc idx _ _ _ _ pre act _ _ _, x, s =>
    let s := (E.doPre idx (s.begin idx)).makePre E.A idx x.rows
    let z := pre (s.mem.w idx) x
    let r := s.preAct.acts E.A (act z)
    (r.1, [], r.2.finish)
  | .plain idx _ f _, x, s =>
    let r := (s.begin idx).acts E.A (f x)
    (r.1, [], r.2.finish)
  | .ext idx post pen _ a, x, s =>
    let r := a.fprop E om x s
    let y := post (om idx) r.1
    (y, r.2.1 ++ [pen y], r.2.2)
  | .seq l u, x, s =>
    let r := l.fprop E om x s
    let q := u.fprop E om r.1 r.2.2
    (q.1, r.2.1 ++ q.2.1, q.2.2)
  | .par f g mix _ _ _ a b, x, s =>
    let r := a.fprop E om (f x) s
    let q := b.fprop E om (g x) r.2.2
    (mix r.1 q.1, r.2.1 ++ q.2.1, q.2.2)
  | .map f g _ _ a, x, s =>
    let r := a.fprop E om (f x) s
    (g r.1, r.2)
  | .gate run dflt _ a, x, s => if run x then a.fprop E om x s else (dflt x, [], s)
  | .pack idx _ a, x, s =>
    let r := a.fprop E om x (s.begin idx)
    let q := r.2.2.acts E.A r.1
    (q.1, r.2.1, q.2.finish)

/-- The activations of a forward pass nobody interferes with: used for the activations that the layers keep for the backward pass. -/
def Node.keep (om : Nat → Mat R) (w : Nat → Mat R) : Node R → Acts R → Acts R
  | .fc idx _ _ _ _ pre act _ _ _, x => act (pre (w idx) x)
  | .plain _ _ f _, x => f x
  | .ext idx post _ _ a, x => post (om idx) (a.keep om w x)
  | .seq l u, x => u.keep om w (l.keep om w x)
  | .par f g mix _ _ _ a b, x => mix (a.keep om w (f x)) (b.keep om w (g x))
  | .map f g _ _ a, x => g (a.keep om w (f x))
  | .gate run dflt _ a, x => if run x then a.keep om w x else dflt x
  | .pack _ _ a, x => a.keep om w x

/-- The backward pass: `dL/dA` of the input, the new state. The activations kept by the layers are calculated again from the input `x` of the pass (simplification: the code stores them; `Verif/Pass`
models that). -/
def Node.bprop (E : Env R S) (om : Nat → Mat R) : Node R → Acts R → Acts R → St R S → Acts R × St R S
  | .fc idx _ _ out upd pre act dz prev dw, x, d, s =>
    let s := s.begin idx
    let s := if out then s else s.finaldLdA d
    let w := s.mem.w idx
    let dZ := dz (act (pre w x)) d
    let s := if upd then E.doApp idx (dw dZ x) (s.dLdW dZ.rows (dw dZ x)) else s
    (prev w dZ, s.finish)
  | .plain idx _ _ b, _, d, s => (b d, ((s.begin idx).finaldLdA d).finish)
  | .ext idx _ _ back a, x, d, s =>
    let d := back (om idx) (a.keep om s.mem.w x) d
    let r := a.bprop E om x d ((s.begin idx).finaldLdA d)
    (r.1, r.2.finish)
  | .seq l u, x, d, s =>
    let r := u.bprop E om (l.keep om s.mem.w x) d s
    l.bprop E om x r.1 r.2
  | .par f g _ fb gb sum a b, x, d, s =>
    let r := a.bprop E om (f x) (fb d) s
    let q := b.bprop E om (g x) (gb d) r.2
    (sum r.1 q.1, q.2)
  | .map f _ gb fb a, x, d, s =>
    let r := a.bprop E om (f x) (gb d) s
    (fb r.1, r.2)
  | .gate run _ bdflt a, x, d, s => if run x then a.bprop E om x d s else (bdflt d, s)
  | .pack idx _ a, x, d, s =>
    let r := a.bprop E om x d ((s.begin idx).finaldLdA d)
    (r.1, r.2.finish)

/-- A layer as the check visits it: index, neurons, incoming neurons, `is_layer_learnable`. -/
structure Info where
  idx : Nat
  n : Nat
  inc : Nat
  learn : Bool
deriving DecidableEq

/-- The layers in the order in which `operator()` checks them, nnet.h 815–852: `for_each_packed_layer_exc_input_down` (layers.h 222) and, in packs, `for_each_packed_layer_down` go from the last layer to the
first one, and the layers of a pack are checked before the pack. -/
def Node.visits : Node R → List Info
  | .fc idx n inc .. => [⟨idx, n, inc, true⟩]
  | .plain idx n .. => [⟨idx, n, 0, false⟩]
  | .ext _ _ _ _ a => a.visits
  | .seq l u => u.visits ++ l.visits
  | .par _ _ _ _ _ _ a b => b.visits ++ a.visits
  | .map _ _ _ _ a => a.visits
  | .gate _ _ _ a => a.visits
  | .pack idx n a => a.visits ++ [⟨idx, n, 0, false⟩]

/-! ### The settings -/

/-- `gradcheck_groupSetts`, utils/gradcheck.h 62–115. -/
inductive Count where
  | totalMin (ptc : Nat)
  | percentOrMin (ptc perc : Nat)

/-- `set(ptc)`, utils/gradcheck.h 80–84. -/
def Count.ofTotal (ptc : Nat) : Count := .totalMin (if ptc > 0 then ptc else 1)
/-- `set(ptc, percCnt)`, utils/gradcheck.h 86–91. -/
def Count.ofPercent (ptc perc : Nat) : Count := .percentOrMin (if ptc > 0 then ptc else 1) (if perc > 100 then 100 else perc)

/-- A product of two values of type `int`; `none`: it does not fit (undefined). -/
def mulInt (a b : Nat) : Option Nat := if a * b < 2 ^ 31 then some (a * b) else none

/-- `countToCheck`, utils/gradcheck.h 93–114. -/
def Count.toCheck : Count → Nat → Option Nat
  | .totalMin ptc, n => some (min n ptc)
  | .percentOrMin ptc perc, n => (mulInt n perc).map fun p => max (p / 100) (min n ptc)

/-- `gradcheck_evalSetts_group`, utils/gradcheck.h 138–158. -/
structure Limits (R : Type) where
  warn : R
  fail : R
  perc : Nat

/-- `gradcheck_settings` and `gradcheck_evalSetts`, utils/gradcheck.h 161–222. -/
structure Setts (R : Type) where
  group : Count
  sub : Count
  dLdA : Limits R
  dLdW : Limits R
  ignoreZero1 : Bool
  ignore : List Nat
  canSkip : List Nat
  step : R
  force : Bool
  online : Nat

/-! ### The functor -/

/-- The network as the check sees it. `loss`: `calc_loss` of the output layer, `addend`: `calcLossAddendum` after `resetCalcLossAddendum` (layers.h 280–297), from the weights and the penalties on activations of the pass;
`x`, `y`: rows of the data. `masks`: what a forward pass draws; `rngB` what a backward pass does to the generator. `shuffle` is `::std::random_shuffle` with the generator. `time n`: the clock at its `n`-th reading. -/
structure Net (R S G : Type) where
  A : Arith R
  pre : Nat → Mat R → S → Mat R × S
  app : Nat → Mat R → S → Mat R → Mat R × S
  root : Node R
  outIdx : Nat
  loss : Acts R → Acts R → R
  addend : (Nat → Mat R) → List R → R
  x : List Nat → Acts R
  y : List Nat → Acts R
  masks : G → (Nat → Mat R) × G
  rngB : G → G
  seed : Nat → G
  shuffle : G → List Nat → List Nat × G
  time : Nat → Nat

/-- The state of the check: `failed` = `m_failedLayerIdx`, `hold` = `m_data`, `clk` the number of readings of the clock so far; and of the network: `training`, `cur` the current mode and batch size
(common_nn_data.h 161–176), `blocked` = `m_bLearningBlockedFlag`. -/
structure F (R S G : Type) where
  st : St R S
  hold : Dh.St
  rng : G
  failed : Nat
  clk : Nat
  training : Bool
  cur : Nat
  blocked : Bool

/-- What the passes depend on, in the current state. -/
def Net.env (N : Net R S G) (f : F R S G) : Env R S := ⟨N.A, N.pre, N.app, f.training, f.blocked⟩

/-- `if (bForceSeed) seed64(s)`. -/
def Net.reseed (N : Net R S G) (c : Setts R) (sd : Nat) (g : G) : G := if c.force then N.seed sd else g

/-- `_calcLossF`, nnet.h 1131–1153. -/
def Net.calcLoss (N : Net R S G) (c : Setts R) (sd : Nat) (f : F R S G) : R × F R S G :=
  let m := N.masks (N.reseed c sd f.rng)
  let r := N.root.fprop (N.env f) m.1 (N.x f.hold.shownX) f.st
  (N.A.add (N.loss r.1 (N.y f.hold.shownY)) (N.addend r.2.2.mem.w r.2.1), { f with st := r.2.2, rng := m.2 })

/-- `fprop` and `bprop` of the third phase, nnet.h 935–938, 984–987. -/
def Net.analytic (N : Net R S G) (c : Setts R) (sd : Nat) (f : F R S G) : F R S G :=
  let m := N.masks (N.reseed c sd f.rng)
  let r := N.root.fprop (N.env f) m.1 (N.x f.hold.shownX) f.st
  let q := N.root.bprop (N.env f) m.1 (N.x f.hold.shownX) (N.y f.hold.shownY) r.2.2
  { f with st := q.2, rng := N.rngB (N.reseed c sd m.2) }

/-- The result of a comparison: accepted, accepted with a warning, rejected; and whether both values were zero. -/
inductive Verdict where
  | zero
  | ok
  | warn
  | fail
deriving DecidableEq

/-- The comparison of `_checkErr`, nnet.h 1078, 1089–1104. -/
def compare (A : Arith R) (lim : Limits R) (an num : R) : Verdict :=
  if A.isZero an && A.isZero num then .zero
  else
    let e := A.div (A.abs (A.sub an num)) (A.max (A.abs an) (A.abs num))
    if A.lt lim.warn e then (if A.lt e lim.fail then .warn else .fail) else .ok

/-- `_checkErr`, nnet.h 1053–1107: the new number of zeros and whether `_fail` is called. -/
def checkErr (A : Arith R) (c : Setts R) (g : Group) (l : Nat) (an num : R) (maxZero zeros : Nat) : Nat × Bool :=
  match compare A (match g with | .dLdA => c.dLdA | .dLdW => c.dLdW) an num with
  | .zero => (zeros + 1, !(decide (g = .dLdW) && decide (l = 1) && c.ignoreZero1) && decide (maxZero < zeros + 1))
  | .ok => (zeros, false)
  | .warn => (zeros, false)
  | .fail => (zeros, true)

/-- The numeric derivative: nnet.h 899, 930 for `dL/dA`, 979 for `dL/dW`. -/
def numeric (A : Arith R) (g : Group) (h : R) (bs : Nat) (plus minus : R) : R :=
  match g with
  | .dLdA => A.mul (A.div (A.nat 1) (A.mul h (A.nat 2))) (A.sub plus minus)
  | .dLdW => A.div (A.sub plus minus) (A.mul (A.mul h (A.nat 2)) (A.nat bs))

/-- One pass of the loop of `_checkdLdA`, nnet.h 905–941, or one call of `_checkWeight`, nnet.h 955–991: the new number of zeros. `none`: undefined behaviour. -/
def Net.entry (N : Net R S G) (c : Setts R) (g : Group) (l : Nat) (co : Nat × Nat) (maxZero zeros : Nat) (f : F R S G) : Option (Nat × F R S G) :=
  let sh := N.shuffle f.rng
  match f.hold.nextBatch (fun i => (sh i).1) with
  | .ub => none
  | .ok hold =>
    let f := { f with hold, rng := if !f.hold.full && Dh.wraps f.hold then (sh f.hold.idxs).2 else f.rng }
    let sd := if c.force then N.time f.clk else 0
    let f := { f with clk := f.clk + 1, st := { f.st with insp := (f.st.insp.prep l g co (c.canSkip.contains l)).setPhase N.A .minus } }
    let m := N.calcLoss c sd f
    let f := m.2
    let bs := f.st.insp.batchSize
    let p := N.calcLoss c sd { f with st := { f.st with insp := f.st.insp.setPhase N.A .plus } }
    let f := p.2
    let num := numeric N.A g c.step bs p.1 m.1
    let f := N.analytic c sd { f with st := { f.st with insp := f.st.insp.setPhase N.A .analytical } }
    let r := checkErr N.A c g l (f.st.insp.value N.A) num maxZero zeros
    some (r.1, { f with failed := if r.2 then l else f.failed })

/-- The entries of a list checked one after the other until one fails. -/
def Net.entries (N : Net R S G) (c : Setts R) (g : Group) (l maxZero : Nat) : List (Nat × Nat) → Nat → F R S G → Option (Nat × F R S G)
  | [], z, f => some (z, f)
  | co :: cs, z, f =>
    if f.failed ≠ 0 then some (z, f)
    else match N.entry c g l co maxZero z f with
      | none => none
      | some (z, f) => N.entries c g l maxZero cs z f

/-- `random_shuffle` of a vector of indices. -/
def Net.mix (N : Net R S G) (is : List Nat) (f : F R S G) : List Nat × F R S G :=
  let r := N.shuffle f.rng is
  (r.1, { f with rng := r.2 })

/-- The first `cnt` elements of a vector, which are read one by one in the loops over neurons and weights; `none`: the vector is shorter (undefined). -/
def first (is : List Nat) (cnt : Nat) : Option (List Nat) := if cnt ≤ is.length then some (is.take cnt) else none

/-- `_checkdLdA`, nnet.h 877–952. -/
def Net.checkA (N : Net R S G) (c : Setts R) (i : Info) (f : F R S G) : Option (F R S G) := do
  let cnt ← c.group.toCheck i.n
  let (ix, f) := N.mix (List.range i.n) f
  let maxZero := (← mulInt cnt c.dLdA.perc) / 100
  let ks ← first ix cnt
  let r ← N.entries c .dLdA i.idx maxZero (ks.map fun k => (0, k)) 0 f
  some r.2

/-- The loop over neurons of `_checkdLdW`, nnet.h 1012–1027: the incoming weights to check are shuffled again for every neuron. -/
def Net.neurons (N : Net R S G) (c : Setts R) (l maxZero cntW : Nat) : List Nat → List Nat → Nat → F R S G → Option (Nat × F R S G)
  | [], _, z, f => some (z, f)
  | k :: ks, sub, z, f =>
    if f.failed ≠ 0 then some (z, f)
    else
      let (sub, f) := N.mix sub f
      match first sub cntW with
      | none => none
      | some js =>
        match N.entries c .dLdW l maxZero (js.map fun j => (k, j)) z f with
        | none => none
        | some (z, f) => N.neurons c l maxZero cntW ks sub z f

/-- `_checkdLdW`, nnet.h 993–1051. -/
def Net.checkW (N : Net R S G) (c : Setts R) (i : Info) (f : F R S G) : Option (F R S G) := do
  let cnt ← c.group.toCheck i.n
  let cntW ← c.sub.toCheck i.inc
  let (ix, f) := N.mix (List.range i.n) f
  let maxZero := (← mulInt (← mulInt cnt (cntW + 1)) c.dLdW.perc) / 100
  let ks ← first ix cnt
  let (z, f) ← N.neurons c i.idx maxZero cntW ks (List.range i.inc) 0 f
  if f.failed ≠ 0 then some f
  else
    let (ix, f) := N.mix ix f
    let ks ← first ix cnt
    let r ← N.entries c .dLdW i.idx maxZero (ks.map fun k => (k, i.inc)) z f
    some r.2

/-- `gradcheck_mode`, utils/gradcheck.h 44–48. -/
inductive Mode where
  | batch
  | online
deriving DecidableEq

/-- `operator()` for one layer, nnet.h 815–852. -/
def Net.layer (N : Net R S G) (c : Setts R) (m : Mode) (i : Info) (f : F R S G) : Option (F R S G) :=
  if f.failed ≠ 0 then some f
  else if c.ignore.contains i.idx then some f
  else match m with
    | .batch => if i.learn then N.checkW c i f else some f
    | .online => if i.idx ≠ N.outIdx then N.checkA c i f else some f

/-- The layers one after the other. -/
def Net.walk (N : Net R S G) (c : Setts R) (m : Mode) : List Info → F R S G → Option (F R S G)
  | [], f => some f
  | i :: is, f => (N.layer c m i f).bind (N.walk c m is)

/-- `_launchCheck`, nnet.h 866–872, with `_setMode` and `_reset`, and with `_prepNetToBatchSize`, nnet.h 874–879 (`on_batch_size_change` concerns the storage of the activations only). -/
def Net.launch (N : Net R S G) (c : Setts R) (m : Mode) (bs : Nat) (f : F R S G) : Option (F R S G) :=
  match f.hold.prepare bs with
  | .ub => none
  | .ok hold => N.walk c m N.root.visits { f with hold, failed := 0, training := true, cur := bs, st := { f.st with insp := f.st.insp.reset } }

/-- `performCheck`, nnet.h 784–811: the answer, and the state after it. `init` is the state at the call, for the given feeder of batches. -/
def Net.perform (N : Net R S G) (c : Setts R) (rows bs : Nat) (init : Dh.St → F R S G) : Option (Bool × F R S G) :=
  let big := max bs c.online
  match Dh.St.init rows true (if big = rows then 0 else big) with
  | .ub => none
  | .ok hold => do
    let f ← N.launch c .online c.online (init hold)
    if f.failed ≠ 0 then some (false, f)
    else
      let f ← N.launch c .batch bs f
      some (decide (f.failed = 0), f)

/-! ### `nnet::gradcheck` -/

/-- The parts of the network object that the function reads or writes. `maxF`, `maxB`: `m_max_fprop_batch_size`, `m_training_batch_size` (0: not initialised); `cur`, `training`: the current batch size and mode; `full`:
`m_bCalcFullLossValue`; `blocked`: `m_bLearningBlockedFlag`; `reinit`: `m_bRequireReinit`. -/
structure Obj (R S G : Type) where
  st : St R S
  rng : G
  clk : Nat
  maxF : Nat
  maxB : Nat
  cur : Nat
  training : Bool
  full : Bool
  blocked : Bool
  reinit : Bool

/-- `_init(big, big, false)`, nnet.h 335–349. If the network is not initialised for such batches, or is required to initialise again, it is deinitialised and initialised: weights stay (layer/fully_connected.h
186–196), the optimisers start anew (`fresh`; layer/fully_connected.h 394–397, 369–391, grad_works `gw_deinit`, `gw_init`), batch sizes are the given ones, the current batch size is 0 (common_nn_data.h 116–131),
the generator is initialised again (`rng0`). The initialisation is taken to succeed. -/
def Obj.init (fresh : Nat → S) (rng0 : G) (o : Obj R S G) (big : Nat) : Obj R S G :=
  if !o.reinit && decide (0 < o.maxF) && decide (big ≤ o.maxF) && decide (big ≤ o.maxB) then o
  else { o with st := { o.st with mem := { o.st.mem with opt := fresh } }, rng := rng0, maxF := big, maxB := big, cur := 0, training := false, reinit := false }

/-- The constructor of the functor, nnet.h 768–781: learning is blocked. -/
def Obj.start (o : Obj R S G) (h : R) (hold : Dh.St) : F R S G := ⟨{ o.st with insp := o.st.insp.init h }, hold, o.rng, 0, o.clk, o.training, o.cur, true⟩

/-- The destructor of the functor, nnet.h 760–767: the flags, the mode and the batch size the network had in the constructor (`o`) are set again, learning is not blocked any more. -/
def Obj.finish (o : Obj R S G) (f : F R S G) : Obj R S G :=
  { o with st := { f.st with insp := f.st.insp.deinit }, rng := f.rng, clk := f.clk, blocked := false, training := o.training, cur := o.cur, full := o.full }

/-- `gradcheck(data_x, data_y, batchSize, settings)`, nnet.h 1165–1206. `rowsX`, `colsX`, `rowsY`, `colsY`: the sizes of the data, `ni`, `no` the numbers of neurons of
the input and the output layer. `none`: undefined behaviour. -/
def gradcheck (N : Net R S G) (fresh : Nat → S) (rng0 : G) (ni no : Nat) (o : Obj R S G) (rowsX colsX rowsY colsY bs : Nat) (c : Setts R) : Option (Bool × Obj R S G) :=
  if bs = 0 then some (false, o)
  else
    let big := max bs c.online
    if !(decide (colsX = ni) && decide (big ≤ rowsX)) || !(decide (colsY = no) && decide (big ≤ rowsY)) || !decide (rowsX = rowsY) then some (false, o)
    else
      let o := o.init fresh rng0 big
      match N.perform c rowsX bs (o.start c.step) with
      | none => none
      | some (ok, f) => some (ok, o.finish f)

end Nntl.GradCheck
