import Verif.GradCheck.Model
import Mathlib.Data.List.Basic

/-!
What the gradient check is expected to do, without an inspector: the loss of a network in which one weight or one activation has another value, the derivatives that the layers calculate, and
what a trial compares.
-/
namespace Nntl.GradCheck

open Nntl.Utils

variable {R S G : Type}

/-- The activations of layer `idx`, with the value at `c` increased by `d` if it is the layer `l` of `some (l, c, d)`. -/
def changeA (A : Arith R) (chg : Option (Nat × (Nat × Nat) × R)) (idx : Nat) (a : Acts R) : Acts R :=
  match chg with
  | some (l, c, d) => if idx = l then { a with v := a.v.set c (A.add (a.v c.1 c.2) d) } else a
  | none => a

/-- The weights, with the one at `c` of layer `l` increased by `d`. -/
def changeW (A : Arith R) (w : Nat → Mat R) (l : Nat) (c : Nat × Nat) (d : R) : Nat → Mat R := put w l ((w l).set c (A.add (w l c.1 c.2) d))

/-- The function that a network with weights `w` calculates, with masks `om`, if an activation is changed: the activations of the last layer and the penalties. -/
def Node.eval (A : Arith R) (om : Nat → Mat R) (chg : Option (Nat × (Nat × Nat) × R)) (w : Nat → Mat R) : Node R → Acts R → Acts R × List R
  | .fc idx _ _ _ _ pre act _ _ _, x => (changeA A chg idx (act (pre (w idx) x)), [])
  | .plain idx _ f _, x => (changeA A chg idx (f x), [])
  | .ext idx post pen _ a, x =>
    let y := post (om idx) (a.eval A om chg w x).1
    (y, (a.eval A om chg w x).2 ++ [pen y])
  | .seq l u, x => ((u.eval A om chg w (l.eval A om chg w x).1).1, (l.eval A om chg w x).2 ++ (u.eval A om chg w (l.eval A om chg w x).1).2)
  | .par f g mix _ _ _ a b, x => (mix (a.eval A om chg w (f x)).1 (b.eval A om chg w (g x)).1, (a.eval A om chg w (f x)).2 ++ (b.eval A om chg w (g x)).2)
  | .map f g _ _ a, x => (g (a.eval A om chg w (f x)).1, (a.eval A om chg w (f x)).2)
  | .gate run dflt _ a, x => if run x then a.eval A om chg w x else (dflt x, [])
  | .pack idx _ a, x => (changeA A chg idx (a.eval A om chg w x).1, (a.eval A om chg w x).2)

/-- The inputs for which the weights of layer `l` are used, with their numbers of rows. -/
def Node.uses (A : Arith R) (om : Nat → Mat R) (w : Nat → Mat R) (l : Nat) : Node R → Acts R → List Nat
  | .fc idx .., x => if idx = l then [x.rows] else []
  | .plain .., _ => []
  | .ext _ _ _ _ a, x => a.uses A om w l x
  | .seq lo u, x => lo.uses A om w l x ++ u.uses A om w l (lo.eval A om none w x).1
  | .par f g _ _ _ _ a b, x => a.uses A om w l (f x) ++ b.uses A om w l (g x)
  | .map f _ _ _ a, x => a.uses A om w l (f x)
  | .gate run _ _ a, x => if run x then a.uses A om w l x else []
  | .pack _ _ a, x => a.uses A om w l x

/-- Backpropagation without inspector and optimisers. -/
def Node.back (om : Nat → Mat R) (w : Nat → Mat R) : Node R → Acts R → Acts R → Acts R
  | .fc idx _ _ _ _ pre act dz prev _, x, d => prev (w idx) (dz (act (pre (w idx) x)) d)
  | .plain _ _ _ b, _, d => b d
  | .ext idx _ _ back a, x, d => a.back om w x (back (om idx) (a.keep om w x) d)
  | .seq l u, x, d => l.back om w x (u.back om w (l.keep om w x) d)
  | .par f g _ fb gb sum a b, x, d => sum (a.back om w (f x) (fb d)) (b.back om w (g x) (gb d))
  | .map f _ gb fb a, x, d => fb (a.back om w (f x) (gb d))
  | .gate run _ bdflt a, x, d => if run x then a.back om w x d else bdflt d
  | .pack _ _ a, x, d => a.back om w x d

/-- The gradients `dL/dW` that the layer `l` calculates. -/
def Node.gradW (om : Nat → Mat R) (w : Nat → Mat R) (l : Nat) : Node R → Acts R → Acts R → List (Mat R)
  | .fc idx _ _ _ upd pre act dz _ dw, x, d => if idx = l ∧ upd = true then [dw (dz (act (pre (w idx) x)) d) x] else []
  | .plain .., _, _ => []
  | .ext idx _ _ back a, x, d => a.gradW om w l x (back (om idx) (a.keep om w x) d)
  | .seq lo u, x, d => u.gradW om w l (lo.keep om w x) d ++ lo.gradW om w l x (u.back om w (lo.keep om w x) d)
  | .par f g _ fb gb _ a b, x, d => a.gradW om w l (f x) (fb d) ++ b.gradW om w l (g x) (gb d)
  | .map f _ gb _ a, x, d => a.gradW om w l (f x) (gb d)
  | .gate run _ _ a, x, d => if run x then a.gradW om w l x d else []
  | .pack _ _ a, x, d => a.gradW om w l x d

/-- The gradients `dL/dA` of the activations of the layer `l`, as they are before dropout and penalties of the layer. `own = false`: the outermost layer does not count (it is the inside of a layer with the same index). -/
def Node.gradA (om : Nat → Mat R) (w : Nat → Mat R) (l : Nat) : Bool → Node R → Acts R → Acts R → List (Mat R)
  | own, .fc idx _ _ out .., _, d => if own = true ∧ idx = l ∧ out = false then [d.v] else []
  | own, .plain idx .., _, d => if own = true ∧ idx = l then [d.v] else []
  | own, .ext idx _ _ back a, x, d =>
    (if own = true ∧ idx = l then [(back (om idx) (a.keep om w x) d).v] else []) ++ a.gradA om w l false x (back (om idx) (a.keep om w x) d)
  | _, .seq lo u, x, d => u.gradA om w l true (lo.keep om w x) d ++ lo.gradA om w l true x (u.back om w (lo.keep om w x) d)
  | _, .par f g _ fb gb _ a b, x, d => a.gradA om w l true (f x) (fb d) ++ b.gradA om w l true (g x) (gb d)
  | _, .map f _ gb _ a, x, d => a.gradA om w l true (f x) (gb d)
  | _, .gate run _ _ a, x, d => if run x then a.gradA om w l true x d else []
  | own, .pack idx _ a, x, d => (if own = true ∧ idx = l then [d.v] else []) ++ a.gradA om w l true x d

/-! ### Networks that can be built -/

/-- The indices of the layers. -/
def Node.ids : Node R → List Nat
  | .fc idx .. => [idx]
  | .plain idx .. => [idx]
  | .ext _ _ _ _ a => a.ids
  | .seq l u => l.ids ++ u.ids
  | .par _ _ _ _ _ _ a b => a.ids ++ b.ids
  | .map _ _ _ _ a => a.ids
  | .gate _ _ _ a => a.ids
  | .pack idx _ a => idx :: a.ids

/-- The index of a single layer or pack. -/
def Node.top : Node R → Option Nat
  | .fc idx .. => some idx
  | .plain idx .. => some idx
  | .ext idx .. => some idx
  | .pack idx .. => some idx
  | _ => none

/-- Dropout and penalties belong to one layer; the index of a pack is not used inside of it. -/
def Node.Wf : Node R → Prop
  | .fc .. => True
  | .plain .. => True
  | .ext idx _ _ _ a => a.top = some idx ∧ a.Wf
  | .seq l u => l.Wf ∧ u.Wf
  | .par _ _ _ _ _ _ a b => a.Wf ∧ b.Wf
  | .map _ _ _ _ a => a.Wf
  | .gate _ _ _ a => a.Wf
  | .pack idx _ a => idx ∉ a.ids ∧ a.Wf

/-! ### Trials -/

/-- A trial: one weight or one activation, the rows of the data it is tried on, and the random masks of the three passes. -/
structure Trial (R : Type) where
  g : Group
  l : Nat
  co : Nat × Nat
  rows : List Nat
  omMinus : Nat → Mat R
  omPlus : Nat → Mat R
  omAn : Nat → Mat R

/-- The loss of the network with the weight or the activation of the trial changed by `d` (penalties on weights are those of the weights without the change). -/
def Trial.loss (N : Net R S G) (w : Nat → Mat R) (t : Trial R) (om : Nat → Mat R) (d : R) : R :=
  let r := match t.g with
    | .dLdA => N.root.eval N.A om (some (t.l, t.co, d)) w (N.x t.rows)
    | .dLdW => N.root.eval N.A om none (changeW N.A w t.l t.co d) (N.x t.rows)
  N.A.add (N.loss r.1 (N.y t.rows)) (N.addend w r.2)

/-- The batch size that the layer of the trial works with (in the pass with the weight decreased). -/
def Trial.batch (N : Net R S G) (c : Setts R) (w : Nat → Mat R) (t : Trial R) : Nat :=
  let b := (N.root.uses N.A t.omMinus (changeW N.A w t.l t.co (N.A.neg c.step)) t.l (N.x t.rows)).getLast?.getD 0
  if c.canSkip.contains t.l && b == 0 then 1 else b

/-- The numeric derivative of the trial. -/
def Trial.num (N : Net R S G) (c : Setts R) (w : Nat → Mat R) (t : Trial R) : R :=
  numeric N.A t.g c.step (match t.g with | .dLdA => 1 | .dLdW => t.batch N c w) (t.loss N w t.omPlus c.step) (t.loss N w t.omMinus (N.A.neg c.step))

/-- The derivative that the layers calculate: none if the layer of the trial does not take part. -/
def Trial.found (N : Net R S G) (w : Nat → Mat R) (t : Trial R) : Option R :=
  (match t.g with
    | .dLdA => (N.root.gradA t.omAn w t.l true (N.x t.rows) (N.y t.rows)).getLast?
    | .dLdW => (N.root.gradW t.omAn w t.l (N.x t.rows) (N.y t.rows)).getLast?).map fun (m : Mat R) => m t.co.1 t.co.2

/-- The value that the numeric derivative is compared with. -/
def Trial.an (N : Net R S G) (c : Setts R) (w : Nat → Mat R) (t : Trial R) : R :=
  let v := (t.found N w).getD N.A.nan
  if c.canSkip.contains t.l && N.A.isNaN v then N.A.zero else v

/-- The limits that apply. -/
def Setts.limits (c : Setts R) : Group → Limits R
  | .dLdA => c.dLdA
  | .dLdW => c.dLdW

/-- The outcome of the trial. -/
def Trial.verdict (N : Net R S G) (c : Setts R) (w : Nat → Mat R) (t : Trial R) : Verdict := compare N.A (c.limits t.g) (t.an N c w) (t.num N c w)

/-- The data of a trial are `bs` different rows of the data set, and the masks of the three passes are the same if the generator is seeded for each pass. -/
structure Trial.Fair (c : Setts R) (dataRows bs : Nat) (t : Trial R) : Prop where
  size : t.rows.length = bs
  nodup : t.rows.Nodup
  inside : ∀ r ∈ t.rows, r < dataRows
  seeded : c.force = true → t.omPlus = t.omMinus ∧ t.omAn = t.omMinus

/-- The number of trials of a list in which both derivatives are zero. -/
def zeros (N : Net R S G) (c : Setts R) (w : Nat → Mat R) (ts : List (Trial R)) : Nat := (ts.filter fun t => t.verdict N c w = .zero).length

/-- Zeros are not limited for the weights of the first layer, on request. -/
def Setts.zerosFree (c : Setts R) (g : Group) (l : Nat) : Prop := g = .dLdW ∧ l = 1 ∧ c.ignoreZero1 = true

/-- The trials of a layer of which nothing is wrong: no failure, and at most `maxZero` zeros. -/
def Passed (N : Net R S G) (c : Setts R) (w : Nat → Mat R) (g : Group) (l maxZero : Nat) (ts : List (Trial R)) : Prop :=
  (∀ t ∈ ts, t.verdict N c w ≠ .fail) ∧ (c.zerosFree g l ∨ zeros N c w ts ≤ maxZero)

/-- Trials of the activations of a layer: as many different neurons as the settings say, in the first row of the batch. -/
def CoversA (c : Setts R) (i : Info) (ts : List (Trial R)) : Prop :=
  ∃ ks : List Nat, ks.Nodup ∧ (∀ k ∈ ks, k < i.n) ∧ c.group.toCheck i.n = some ks.length ∧ ts.map (·.co) = ks.map fun k => (0, k)

/-- Trials of the weights of a layer: as many different neurons as the settings say, for each of them as many different incoming weights as the settings say, and as many biases as neurons. -/
def CoversW (c : Setts R) (i : Info) (ts : List (Trial R)) : Prop :=
  ∃ (ks : List (Nat × List Nat)) (bs : List Nat), (ks.map (·.1)).Nodup ∧ bs.Nodup ∧
    (∀ p ∈ ks, p.1 < i.n ∧ p.2.Nodup ∧ (∀ j ∈ p.2, j < i.inc) ∧ c.sub.toCheck i.inc = some p.2.length) ∧ (∀ b ∈ bs, b < i.n) ∧
    c.group.toCheck i.n = some ks.length ∧ bs.length = ks.length ∧
    ts.map (·.co) = (ks.flatMap fun p => p.2.map fun j => (p.1, j)) ++ bs.map fun b => (b, i.inc)

/-- The zeros allowed among the trials of a layer: a percentage of them. -/
def maxZeros (c : Setts R) (g : Group) (i : Info) : Nat :=
  match g with
  | .dLdA => (c.group.toCheck i.n).getD 0 * c.dLdA.perc / 100
  | .dLdW => (c.group.toCheck i.n).getD 0 * ((c.sub.toCheck i.inc).getD 0 + 1) * c.dLdW.perc / 100

/-- The elements of a layer: its neurons (in the first row of the batch), its weights with the biases last. -/
def Info.Has (i : Info) (g : Group) (co : Nat × Nat) : Prop :=
  match g with
  | .dLdA => co.1 = 0 ∧ co.2 < i.n
  | .dLdW => co.1 < i.n ∧ co.2 ≤ i.inc

/-- Which layers are checked: those that are not to be ignored; activations of all layers but the output layer, weights of layers that have weights. -/
def Setts.Checks (N : Net R S G) (c : Setts R) (g : Group) (i : Info) : Prop :=
  i.idx ∉ c.ignore ∧ (match g with | .dLdA => i.idx ≠ N.outIdx | .dLdW => i.learn = true)

instance (N : Net R S G) (c : Setts R) (g : Group) (i : Info) : Decidable (c.Checks N g i) := by
  unfold Setts.Checks
  cases g <;> infer_instance

/-- A layer has stood a test: trials of all the elements to be tried, of which nothing is wrong. -/
def Accepted (N : Net R S G) (c : Setts R) (w : Nat → Mat R) (rows bs : Nat) (g : Group) (i : Info) : Prop :=
  ∃ ts : List (Trial R), (∀ t ∈ ts, t.g = g ∧ t.l = i.idx ∧ t.Fair c rows bs) ∧ (match g with | .dLdA => CoversA c i ts | .dLdW => CoversW c i ts) ∧ Passed N c w g i.idx (maxZeros c g i) ts

/-- A layer has failed a test: trials of different elements of which something is wrong. -/
def Rejected (N : Net R S G) (c : Setts R) (w : Nat → Mat R) (rows bs : Nat) (g : Group) (i : Info) : Prop :=
  ∃ ts : List (Trial R), (∀ t ∈ ts, t.g = g ∧ t.l = i.idx ∧ t.Fair c rows bs) ∧ (ts.map (·.co)).Nodup ∧ (∀ t ∈ ts, i.Has g t.co) ∧ ¬ Passed N c w g i.idx (maxZeros c g i) ts

/-- The counts as `gradcheck_groupSetts` can be set: at least one, at most 100 percent. -/
def Count.Valid : Count → Prop
  | .totalMin p => 0 < p
  | .percentOrMin p q => 0 < p ∧ q ≤ 100

/-- The numbers of trials and of allowed zeros of a layer can be calculated with values of type `int`. -/
def NoOverflow (c : Setts R) (i : Info) : Prop :=
  ∃ cnt cntW, c.group.toCheck i.n = some cnt ∧ c.sub.toCheck i.inc = some cntW ∧ cnt * c.dLdA.perc < 2 ^ 31 ∧ cnt * (cntW + 1) < 2 ^ 31 ∧ cnt * (cntW + 1) * c.dLdW.perc < 2 ^ 31

end Nntl.GradCheck
