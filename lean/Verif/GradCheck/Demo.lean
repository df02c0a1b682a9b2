import Verif.GradCheck.Props

/-! Concrete networks for the gradient check: the hypotheses of the theorems are met, and both answers occur. -/
namespace Nntl.GradCheck

open Nntl.Utils

/-- Fractions. -/
def ratArith : Arith Rat where
  zero := 0
  add := (· + ·)
  sub := (· - ·)
  mul := (· * ·)
  div := (· / ·)
  neg := fun a => -a
  abs := fun a => if a < 0 then -a else a
  nat := fun n => n
  lt := fun a b => decide (a < b)
  isZero := fun a => decide (a = 0)
  nan := 0
  isNaN := fun _ => false

/-- The sum of `f` over the first numbers. -/
def sumTo (n : Nat) (f : Nat → Rat) : Rat := (List.range n).foldl (fun s i => s + f i) 0

/-- A linear layer with `inc` incoming neurons; `fac` is what its `dL/dW` is multiplied with (1 is right). -/
def demoFc (idx n inc : Nat) (out upd : Bool) (fac : Rat) : Node Rat :=
  .fc idx n inc out upd (fun w x => ⟨x.rows, fun r k => sumTo inc (fun j => w k j * x.v r j) + w k inc⟩) (fun a => a) (fun a d => if out then ⟨a.rows, fun _ _ => 1⟩ else d)
    (fun w d => ⟨d.rows, fun r j => sumTo n (fun k => w k j * d.v r k)⟩)
    (fun d x k j => fac * (sumTo d.rows (fun r => d.v r k * if j = inc then 1 else x.v r j) / d.rows))

/-- Two layers; the loss is the sum of the results. -/
def demoNet (upd : Bool) (fac : Rat) : Net Rat Unit Nat where
  A := ratArith
  pre := fun _ w s => (w, s)
  app := fun _ w s _ => (w, s)
  root := .seq (demoFc 1 2 1 false upd fac) (demoFc 2 1 2 true true 1)
  outIdx := 2
  loss := fun a _ => sumTo a.rows fun r => a.v r 0
  addend := fun _ _ => 0
  x := fun rs => ⟨rs.length, fun _ _ => 3⟩
  y := fun rs => ⟨rs.length, fun _ _ => 0⟩
  masks := fun g => (fun _ _ _ => 1, g + 1)
  rngB := fun g => g
  seed := fun n => n
  shuffle := fun g l => (if g % 2 = 0 then l else l.reverse, g + 1)
  time := fun n => n

def demoSetts : Setts Rat := ⟨.ofPercent 2 50, .ofTotal 1, ⟨0, 1, 0⟩, ⟨0, 1, 0⟩, false, [], [], 1, true, 1⟩

def demoInsp : Insp Rat := ⟨0, [], none, .dLdA, .analytical, (0, 0), 0, 0, 0, 0, false⟩

/-- A network with weights 2, 5, 4, … that is initialised for batches of up to 8 rows. -/
def demoObj : Obj Rat Unit Nat := ⟨⟨demoInsp, ⟨fun l k j => 2 + 3 * j + 2 * k + l, fun _ => ()⟩⟩, 0, 0, 8, 8, 5, true, false, false, false⟩

theorem demoNet_ok (upd : Bool) (fac : Rat) : (demoNet upd fac).Ok := by
  refine ⟨⟨trivial, trivial⟩, ?_, ?_⟩
  · intro i hi
    simp only [demoNet, demoFc, Node.visits, List.mem_append, List.mem_singleton] at hi
    rcases hi with rfl | rfl <;> simp
  · intro g l
    show (if g % 2 = 0 then l else l.reverse).Perm l
    split
    · exact List.Perm.refl _
    · exact List.reverse_perm l

theorem demo_overflow (upd : Bool) (fac : Rat) : ∀ i ∈ (demoNet upd fac).root.visits, i.idx ∉ demoSetts.ignore → NoOverflow demoSetts i := by
  intro i hi _
  simp only [demoNet, demoFc, Node.visits, List.mem_append, List.mem_singleton] at hi
  rcases hi with rfl | rfl
  · exact ⟨1, 1, rfl, rfl, by decide, by decide, by decide⟩
  · exact ⟨2, 1, rfl, rfl, by decide, by decide, by decide⟩

/-- The hypotheses of the theorems C102 and C103 are met. -/
example : (demoNet true 1).Ok ∧ demoSetts.group.Valid ∧ demoSetts.sub.Valid ∧ Fits 6 4 demoSetts.online ∧ demoObj.st.insp.stack = [] ∧ demoObj.Ready (max 4 demoSetts.online) ∧ ¬ demoObj.Ready (max 10 demoSetts.online) :=
  ⟨demoNet_ok _ _, ⟨by decide, by decide⟩, by show 0 < _; decide, by unfold Fits; decide, rfl, by unfold Obj.Ready; decide, by unfold Obj.Ready; decide⟩

/-- The derivatives of the network are right: the check answers `true`. -/
theorem demo_true : (gradcheck (demoNet true 1) (fun _ => ()) 0 1 1 demoObj 6 1 6 1 4 demoSetts).map (·.1) = some true := by decide +kernel

/-- `dL/dW` of the first layer has the wrong sign: the check answers `false`. -/
theorem demo_false : (gradcheck (demoNet true (-1)) (fun _ => ()) 0 1 1 demoObj 6 1 6 1 4 demoSetts).map (·.1) = some false := by decide +kernel

end Nntl.GradCheck
