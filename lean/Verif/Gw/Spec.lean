import Verif.Gw.Model
/-! What the user of the optimiser has asked for, read off the list of calls. -/
namespace Nntl.Gw

/-- The last thing asked for by the calls, `d` if nothing was. -/
def asked {α : Type} (f : Op → Option α) (d : α) : List Op → α
  | [] => d
  | o :: os => asked f ((f o).getD d) os

/-- Coefficient of momentum and whether it is Nesterov's. -/
def Op.mom? : Op → Option (Rat × Bool)
  | .momentum x => some (x, false)
  | .nesterov x => some (x, true)
  | _ => none

/-- Share of weights updated at a step; zero means that dropout of updates is off. -/
def Op.drop? : Op → Option Rat
  | .drop x => some (if x = 0 then 1 else x)
  | _ => none

def Op.dropNesterov? : Op → Option Bool
  | .dropNesterov b => some b
  | _ => none

/-- Square of the greatest norm (zero: no bound) and whether it includes the bias. -/
def Op.norm? : Op → Option (Rat × Bool)
  | .maxNorm x b => some (x * x, b)
  | .maxNorm2 x b => some (x, b)
  | _ => none

def Op.ilr? : Op → Option (Rat × Rat × Rat × Rat)
  | .setILR d i l h => some (d, i, l, h)
  | .clearILR => some (0, 0, 0, 0)
  | _ => none

def Op.ilrToMom? : Op → Option Bool | .ilrToMom b => some b | _ => none
def Op.type? : Op → Option GradType | .type t => some t | _ => none
def Op.lr? : Op → Option Rat | .lr x => some x | _ => none
def Op.beta1? : Op → Option Rat | .beta1 x => some x | _ => none
def Op.beta2? : Op → Option Rat | .beta2 x => some x | _ => none
def Op.gamma? : Op → Option Rat | .gamma x => some x | _ => none
def Op.eps? : Op → Option Rat | .eps x => some x | _ => none

/-- The calls a training step makes. -/
def Op.isStep : Op → Bool | .pre _ | .apply _ => true | _ => false

/-- Calls that begin or end the life of the run-time data. -/
def Op.isLife : Op → Bool | .init _ _ _ | .deinit => true | _ => false

/-- Calls that store a setting. -/
def Op.isSetting (o : Op) : Bool := !o.isStep && !o.isLife

/-- The run-time data are made (`init`) or gone (`deinit`). -/
def Op.life? : Op → Option Bool | .init _ _ _ => some true | .deinit => some false | _ => none

/-- Steps that have learnt from a gradient. -/
def Op.learns : Op → Bool | .apply false => true | _ => false

/-- What `k` steps leave in a matrix that was only allocated. -/
def after : Nat → Mem
  | 0 => .raw
  | k + 1 => .of (k + 1)

/-- The argument is in the range the function states. -/
def Op.Legal : Op → Prop
  | .drop x => 0 ≤ x ∧ x ≤ 1
  | .momentum x | .nesterov x | .eps x => 0 ≤ x ∧ x < 1
  | .beta1 x | .beta2 x | .gamma x => 0 < x ∧ x < 1
  | .maxNorm x _ | .maxNorm2 x _ => 0 ≤ x
  | .setILR d i l h => (0 < d ∧ d < 1 ∧ 1 < i ∧ l < h ∧ 0 < l) ∨ (d = 0 ∧ i = 0 ∧ h = 0 ∧ l = 0)
  | _ => True

/-- After the calls `h` momentum is on. -/
def momentumOn (h : List Op) : Prop := 0 < (asked Op.mom? (0, true) h).1

/-- After the calls `h` the updates made by Nesterov momentum before the forward pass are dropped at random. -/
def dropsVelocity (h : List Op) : Prop :=
  momentumOn h ∧ (asked Op.mom? (0, true) h).2 = true ∧ asked Op.dropNesterov? true h = true ∧ asked Op.drop? 1 h < 1

/-- After the calls `h` individual learning rates are on. -/
def ilrOn (h : List Op) : Prop := 0 < (asked Op.ilr? (0, 0, 0, 0) h).1

/-- The settings after the calls `H` need no more memory than those at the initialisation after the calls `h`. -/
def NoMore (h H : List Op) : Prop :=
  asked Op.type? .classical H = asked Op.type? .classical h ∧ (momentumOn H → momentumOn h) ∧ (dropsVelocity H → dropsVelocity h) ∧ ¬ ilrOn H

end Nntl.Gw
