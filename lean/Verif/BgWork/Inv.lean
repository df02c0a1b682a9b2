import Verif.BgWork.Model
import Mathlib.Algebra.BigOperators.Group.Finset.Basic
import Mathlib.Algebra.BigOperators.Intervals
import Mathlib.Algebra.Order.BigOperators.Group.Finset
import Mathlib.Algebra.Order.Group.Int
import Mathlib.Data.List.Count
import Mathlib.Tactic.SplitIfs
/-! The invariant of the background workers and its preservation. -/
namespace Nntl.BgWork
open Finset

/-- In the function given to `exec` or about to call it or to report the end. -/
def WPc.exc : WPc → Bool
  | .exec | .run _ | .execL | .clr => true
  | _ => false

def WPc.booting : WPc → Bool
  | .boot | .bootDec => true
  | _ => false

inductive Ph
  | boot
  | quiet
  | pub (k : Nat)

/-- `pub k`: a call of `exec` is in progress and the flags of the workers below `k` have been set. -/
def phase (n : Nat) : MPc → Ph
  | .wlock false | .wtest false | .wsleep false | .wblocked false | .wwoken false | .wunl false => .boot
  | .eFlag | .eLock | .eFn => .pub 0
  | .eSet k => .pub k
  | .eCnt | .eGo | .eUnl | .wlock true | .wtest true | .wsleep true | .wblocked true | .wwoken true | .wunl true => .pub n
  | _ => .quiet

/-- The function is published. -/
def fnPhase : MPc → Bool
  | .eSet _ | .eCnt | .eGo | .eUnl | .wlock true | .wtest true | .wsleep true | .wblocked true | .wwoken true | .wunl true => true
  | _ => false

/-- In a call of `exec`. -/
def inExec : MPc → Bool
  | .eFlag | .eLock | .eFn | .eSet _ | .eCnt | .eGo | .eUnl | .wlock true | .wtest true | .wsleep true | .wblocked true | .wwoken true | .wunl true
  | .eReset => true
  | _ => false

def strict : MPc → Bool
  | .eSet _ | .eCnt | .eGo | .eUnl => true
  | _ => false

def counted : MPc → Bool
  | .eSet _ | .eCnt => false
  | _ => true

def pend (w : WPc) (h : Bool) : Int := if h = true ∨ w = .dec ∨ w.booting = true then 1 else 0

/-- State of worker `i`: `b`, `e` are the numbers of beginnings and ends of its calls of the current function. -/
def WOk (n : Nat) (m : MPc) (cid i : Nat) (w : WPc) (h : Bool) (b e : Nat) : Prop :=
  match phase n m with
  | .boot => h = false ∧ w.exc = false ∧ w ≠ .dec ∧ b = 0 ∧ e = 0 ∧ cid = 0
  | .quiet => h = false ∧ w.exc = false ∧ w ≠ .dec ∧ w.booting = false ∧ b = (if cid = 0 then 0 else 1) ∧ e = (if cid = 0 then 0 else 1)
  | .pub k =>
    w.booting = false ∧ cid ≠ 0 ∧
    if i < k then
      (h = true ∧ (w.exc = false ∨ w = .exec) ∧ w ≠ .dec ∧ b = 0 ∧ e = 0)
      ∨ (h = true ∧ w = .run cid ∧ b = 1 ∧ e = 0)
      ∨ (h = true ∧ (w = .execL ∨ w = .clr) ∧ b = 1 ∧ e = 1)
      ∨ (h = false ∧ w.exc = false ∧ b = 1 ∧ e = 1)
    else h = false ∧ w.exc = false ∧ w ≠ .dec ∧ b = 0 ∧ e = 0

def cB (s : S) (c i : Nat) : Nat := s.log.count (.execB c i)
def cE (s : S) (c i : Nat) : Nat := s.log.count (.execE c i)

/-- Priority of the last task called by worker `i` in its present pass over the tasks. -/
def lastPrio (i : Nat) : List Ev → Option Int
  | [] => none
  | .pass j :: l => if j = i then none else lastPrio i l
  | .taskB _ p j :: l => if j = i then some p else lastPrio i l
  | _ :: l => lastPrio i l

/-- Index of the next task the worker may call. -/
def WPc.next : WPc → Option Nat
  | .pick k | .loop k | .task k => some k
  | _ => none

structure Inv (cfg : Cfg) (s : S) : Prop where
  excl : s.mpc.holds = true → Free cfg s
  wok : ∀ i, i < cfg.n → WOk cfg.n s.mpc s.cid i (s.wpc i) (s.has i) (cB s s.cid i) (cE s s.cid i)
  old : ∀ c i, i < cfg.n → c ≠ s.cid → cB s c i = (if 1 ≤ c ∧ c < s.cid then 1 else 0) ∧ cE s c i = (if 1 ≤ c ∧ c < s.cid then 1 else 0)
  str : strict s.mpc = true → ∀ i, i < cfg.n → (∀ k, s.mpc = .eSet k → i < k) → s.has i = true
  cnt : counted s.mpc = true → s.cnt = ∑ i ∈ range cfg.n, pend (s.wpc i) (s.has i)
  fnok : fnPhase s.mpc = true → s.fn = some s.cid
  slp : ∀ e, s.mpc = .wsleep e → 0 < s.cnt
  blk : ∀ e, s.mpc = .wblocked e → 0 < s.cnt ∨ ∃ i, i < cfg.n ∧ (s.wpc i = .ntf ∨ s.wpc i = .bootNtf)
  unl : ∀ e, s.mpc = .wunl e → s.cnt ≤ 0
  tsk : ∀ i k, i < cfg.n → (s.wpc i = .loop k ∨ s.wpc i = .task k) → k < s.tasks.length
  srt : s.tasks.Pairwise fun a b => a.2 ≥ b.2
  stp : s.stop = true ↔ (s.mpc = .xGo ∨ s.mpc = .xNtf ∨ (∃ k, s.mpc = .join k) ∨ s.mpc = .gone)
  dne : ∀ i, i < cfg.n → s.wpc i = .done → s.stop = true
  gox : (s.mpc = .xNtf ∨ (∃ k, s.mpc = .join k) ∨ s.mpc = .gone) → s.go = true
  jnd : ∀ k, s.mpc = .join k → ∀ i, i < k → i < cfg.n → s.wpc i = .done
  gnd : s.mpc = .gone → ∀ i, i < cfg.n → s.wpc i = .done
  ret : ∀ l1 l2 c, s.log = l1 ++ .ret c :: l2 → ∀ i, i < cfg.n → l2.count (.execB c i) = 1 ∧ l2.count (.execE c i) = 1
  prio : ∀ i k, i < cfg.n → (s.wpc i).next = some k → ∀ p, lastPrio i s.log = some p → ∀ j, k ≤ j → ∀ x, s.tasks[j]? = some x → x.2 ≤ p
  cpos : inExec s.mpc = true → 1 ≤ s.cid
  retc : ∀ c, Ev.ret c ∈ s.log → 1 ≤ c ∧ c ≤ s.cid ∧ (c = s.cid → inExec s.mpc = false)

@[simp] theorem set_same {α : Type} (f : Nat → α) (i v) : set f i v i = v := by simp [set]
theorem set_ne {α : Type} (f : Nat → α) {i j} (v) (h : j ≠ i) : set f i v j = f j := by simp [set, h]

@[simp] theorem fnPhase_wlock (e) : fnPhase (.wlock e) = e := by cases e <;> rfl
@[simp] theorem fnPhase_wtest (e) : fnPhase (.wtest e) = e := by cases e <;> rfl
@[simp] theorem fnPhase_wsleep (e) : fnPhase (.wsleep e) = e := by cases e <;> rfl
@[simp] theorem fnPhase_wblocked (e) : fnPhase (.wblocked e) = e := by cases e <;> rfl
@[simp] theorem fnPhase_wwoken (e) : fnPhase (.wwoken e) = e := by cases e <;> rfl
@[simp] theorem fnPhase_wunl (e) : fnPhase (.wunl e) = e := by cases e <;> rfl
@[simp] theorem inExec_wlock (e) : inExec (.wlock e) = e := by cases e <;> rfl
@[simp] theorem inExec_wtest (e) : inExec (.wtest e) = e := by cases e <;> rfl
@[simp] theorem inExec_wsleep (e) : inExec (.wsleep e) = e := by cases e <;> rfl
@[simp] theorem inExec_wblocked (e) : inExec (.wblocked e) = e := by cases e <;> rfl
@[simp] theorem inExec_wwoken (e) : inExec (.wwoken e) = e := by cases e <;> rfl
@[simp] theorem inExec_wunl (e) : inExec (.wunl e) = e := by cases e <;> rfl

@[simp] theorem phase_wake (n m) : phase n (wakeMain m) = phase n m := by cases m <;> simp [wakeMain]; rename_i e; cases e <;> rfl
@[simp] theorem holds_wake (m) : (wakeMain m).holds = m.holds := by cases m <;> rfl
@[simp] theorem fnPhase_wake (m) : fnPhase (wakeMain m) = fnPhase m := by cases m <;> simp [wakeMain]
@[simp] theorem inExec_wake (m) : inExec (wakeMain m) = inExec m := by cases m <;> simp [wakeMain]
@[simp] theorem strict_wake (m) : strict (wakeMain m) = strict m := by cases m <;> rfl
@[simp] theorem counted_wake (m) : counted (wakeMain m) = counted m := by cases m <;> rfl
theorem wok_wake {n m cid i w h b e} : WOk n (wakeMain m) cid i w h b e ↔ WOk n m cid i w h b e := by simp [WOk]

theorem sum_set {n i : Nat} (hi : i < n) (w : Nat → WPc) (h : Nat → Bool) (v : WPc) (u : Bool) :
    ∑ j ∈ range n, pend (set w i v j) (set h i u j) = (∑ j ∈ range n, pend (w j) (h j)) - pend (w i) (h i) + pend v u := by
  have hm := mem_range.2 hi
  rw [← sum_erase_add _ _ hm, ← sum_erase_add (a := i) (range n) (fun j => pend (w j) (h j)) hm]
  have : ∑ j ∈ (range n).erase i, pend (set w i v j) (set h i u j) = ∑ j ∈ (range n).erase i, pend (w j) (h j) := by
    apply sum_congr rfl
    intro j hj
    have := (mem_erase.1 hj).1
    rw [set_ne _ _ this, set_ne _ _ this]
  rw [this]; simp

theorem set_self {α : Type} (f : Nat → α) (i) : set f i (f i) = f := by
  funext j; by_cases h : j = i
  · subst h; simp
  · rw [set_ne _ _ h]

theorem sum_setw {n i : Nat} (hi : i < n) (w : Nat → WPc) (h : Nat → Bool) (v : WPc) :
    ∑ j ∈ range n, pend (set w i v j) (h j) = (∑ j ∈ range n, pend (w j) (h j)) - pend (w i) (h i) + pend v (h i) := by
  have := sum_set hi w h v (h i)
  rwa [set_self h i] at this

end Nntl.BgWork
