import Verif.BgWork.Model
/-!
What the log of events has to look like. The log has the last event first.
-/
namespace Nntl.BgWork

/-- The task whose call by worker `i` has begun and not yet returned. -/
def running (i : Nat) : List Ev → Option (Nat × Int)
  | [] => none
  | .taskB t p j :: l => if j = i then some (t, p) else running i l
  | .taskE _ j _ :: l => if j = i then none else running i l
  | _ :: l => running i l

/-- The finished calls of tasks by worker `i` in its present pass over the tasks, last one first: which task, what it returned. -/
def passCalls (i : Nat) : List Ev → List (Nat × Bool)
  | [] => []
  | .pass j :: l => if j = i then [] else passCalls i l
  | .taskE t j r :: l => if j = i then (t, r) :: passCalls i l else passCalls i l
  | _ :: l => passCalls i l

/-- What is left of the list of tasks after the calls (last one first), if they follow the list: each task is called again and again until it
returns false, then comes the next one. -/
def rest (tasks : List (Nat × Int)) : List (Nat × Bool) → Option (List (Nat × Int))
  | [] => some tasks
  | (t, r) :: cs =>
    match rest tasks cs with
    | some (x :: l) => if t = x.1 then some (if r then x :: l else l) else none
    | _ => none

/-- Number of calls of tasks by worker `i` that returned true. -/
def trues (i : Nat) (l : List Ev) : Nat := l.countP fun e => match e with | .taskE _ j true => j = i | _ => false

/-- Number of steps by worker `i`. -/
def stepsOf (i : Nat) (l : List Actor) : Nat := l.countP fun a => match a with | .worker j => j = i | _ => false

/-! ### Accesses to members that are neither atomic nor synchronisation objects -/

inductive Loc
  | tasks            -- `m_tasks`
  | fn               -- `m_execFn`
  | flag (i : Nat)   -- `m_threadHasSmth2Exec[i]`
  deriving DecidableEq

/-- What the next action of worker `i` reads (a call of `m_execFn` uses it until it returns) .. -/
def WPc.reads (i : Nat) : WPc → Loc → Prop
  | .wait, l => l = .tasks ∨ l = .flag i
  | .chkExec, l => l = .flag i
  | .exec, l | .run _, l => l = .fn
  | .pick _, l | .loop _, l | .task _, l => l = .tasks
  | _, _ => False

/-- .. and writes. -/
def WPc.writes (i : Nat) : WPc → Loc → Prop
  | .clr, l => l = .flag i
  | _, _ => False

/-- What the next action of the main thread writes; it reads nothing of this kind without writing it. -/
def MPc.writes : MPc → Loc → Prop
  | .dDo (.add _ _), l | .dDo .del, l => l = .tasks
  | .eFn, l | .eReset, l => l = .fn
  | .eSet k, l => l = .flag k
  | _, _ => False

/-- A worker and the main thread can both act next, both actions access `l`, the main thread writes it. -/
def Race (cfg : Cfg) (s : S) (l : Loc) : Prop :=
  s.mpc.writes l ∧ (∃ s', MStep cfg s s') ∧ ∃ i, i < cfg.n ∧ ((s.wpc i).reads i l ∨ (s.wpc i).writes i l) ∧ ∃ s', WStep cfg s i s'

end Nntl.BgWork
