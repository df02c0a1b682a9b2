import Verif.Text.Model
import Verif.Threads.PartitionModel
/-! Small tools: timers, durations as texts, sizes of batches, loops over tuples, the mode of floating point numbers. -/
namespace Nntl.Tools
open Nntl.Text Nntl.Threads

/-! ### `tictoc`, `nntl/utils/tictoc.h` 41–112 -/

/-- Members 50–53; times in nanoseconds. -/
structure Timer where
  start : Int
  first : Int
  best : Int
  all : Int
  repeats : Nat

/-- The greatest value of `duration_t::rep`, 64 bits with sign. -/
def maxRep : Int := 2 ^ 63 - 1

/-- `reset` 58–63. -/
def Timer.reset (t : Timer) : Timer := { t with repeats := 0, first := 0, best := maxRep, all := 0 }

/-- The constructor, 56; `m_tStart` is the epoch of the clock. -/
def Timer.new : Timer := Timer.reset { start := 0, first := 0, best := 0, all := 0, repeats := 0 }

/-- `store` 81–86; `none`: overflow of the sum. -/
def Timer.store (t : Timer) (d : Int) : Option Timer :=
  if -maxRep - 1 ≤ t.all + d ∧ t.all + d ≤ maxRep then
    some { t with first := if t.repeats = 0 then d else t.first, best := min d t.best, all := t.all + d, repeats := t.repeats + 1 }
  else none

/-- Calls of a timer: `reset`, `tic` 73–75 and `toc` 77–79 at a time, `store`, `set_repeats` 69–71. -/
inductive TOp
  | reset
  | tic (now : Int)
  | toc (now : Int)
  | store (d : Int)
  | setRepeats (r : Nat)

def Timer.step (t : Timer) : TOp → Option Timer
  | .reset => some t.reset
  | .tic n => some { t with start := n }
  | .toc n => t.store (n - t.start)
  | .store d => t.store d
  | .setRepeats r => some { t with repeats := r }

def Timer.run (t : Timer) : List TOp → Option Timer
  | [] => some t
  | o :: os => (t.step o).bind fun t' => t'.run os

/-! ### `duration_readable`, `nntl/utils/chrono.h` 47–126 -/

/-- Types of durations: the four the header knows, others (minutes, hours). -/
inductive Per
  | ns
  | us
  | ms
  | s
  | other
  deriving DecidableEq

/-- `period_3oom_bigger` 55–63. -/
def Per.bigger : Per → Per
  | .ns => .us
  | .us => .ms
  | _ => .s

/-- `period_name` 65–88. -/
def Per.name : Per → Text
  | .ns => "ns".toList
  | .us => "us".toList
  | .ms => "ms".toList
  | .s => "s".toList
  | .other => "??".toList

/-- `duration_readable` 92–126 of `count` units, measured `repeats` times; exact numbers. The text never reaches the size of the buffer (256). -/
def readable (up : Nat → Bool) (p : Per) (count : Int) (repeats : Nat) : Text :=
  let v := fun k : Nat => FVal.fin (decide (count < 0)) count.natAbs (repeats * k)
  let r := if count < 1000 * repeats then (v 1, p.name)
    else if count < 1000000 * repeats then (v 1000, p.bigger.name)
    else if count < 1000000000 * repeats then (v 1000000, p.bigger.bigger.name)
    else (v 1000000000, p.bigger.bigger.bigger.name)
  fltText up false 8 3 r.1 ++ " ".toList ++ padR 2 r.2

/-- `to_string` of a timer, `tictoc.h` 88–94. -/
def Timer.toText (up : Nat → Bool) (t : Timer) : Text :=
  if 0 < t.repeats then readable up .ns t.first 1 ++ "  ".toList ++ readable up .ns t.best 1 ++ "  ".toList ++ readable up .ns t.all t.repeats
  else "never run!".toList

/-! ### `BatchSizes`, `nntl/common.h` 129–218, with assertions (`none`) -/

structure BS where
  max : Nat
  train : Nat
  deriving DecidableEq

/-- `vec_len_t` has 31 bits; beyond: overflow. -/
def lenMax : Nat := 2 ^ 31 - 1

/-- The constructor and `set`, 135–137, 144–148. -/
def BS.make (m t : Nat) : Option BS :=
  if 0 < m ∧ (t = 0 ∨ (0 < t ∧ t ≤ m)) ∧ m ≤ lenMax then some ⟨m, t⟩ else none

/-- `isValid` 173–176. -/
def BS.isValid (b : BS) : Option Bool :=
  if (b.max = 0 ∧ b.train = 0) ∨ (0 < b.max ∧ (b.train = 0 ∨ (0 < b.train ∧ b.train ≤ b.max))) then some (decide (0 < b.max)) else none

/-- `isValidForTraining` 178–181. -/
def BS.isValidForTraining (b : BS) : Option Bool := if b.train ≤ b.max then some (decide (0 < b.max) && decide (0 < b.train)) else none

/-- `NNTL_ASSERT(isValid())`. -/
def BS.check (b : BS) : Option Unit := match b.isValid with
  | some true => some ()
  | _ => none

/-- `biggest` 183–187. -/
def BS.biggest (b : BS) : Option Nat := b.check.bind fun _ => some b.max

/-- `max_bs4mode` 189–193. -/
def BS.forMode (b : BS) (training : Bool) : Option Nat :=
  b.check.bind fun _ => if training = true ∧ b.train = 0 then none else some (if training then b.train else b.max)

/-- `operator*` 206–210. -/
def BS.mul (b : BS) (k : Nat) : Option BS := b.check.bind fun _ => if 0 < k then BS.make (b.max * k) (b.train * k) else none

/-- `operator/` 212–216. -/
def BS.div (b : BS) (k : Nat) : Option BS := b.check.bind fun _ => if 0 < k ∧ b.max % k = 0 then BS.make (b.max / k) (b.train / k) else none

/-! ### Loops over tuples, `nntl/utils/tuple_utils.h` 63–180. The tuple is a list, the functor a function that changes a state; `none`: no such element. -/

variable {α σ : Type}

/-- `_for_each_up<I>` 68–80. -/
def upTo (t : List α) (f : α → σ → σ) : Nat → σ → Option σ
  | 0, s => t[0]?.map fun x => f x s
  | i + 1, s => (upTo t f i s).bind fun s' => t[i + 1]?.map fun x => f x s'

/-- `for_each_up` 81–85. An empty tuple does not compile. -/
def forEachUp (t : List α) (f : α → σ → σ) (s : σ) : Option σ := if t.length = 0 then none else upTo t f (t.length - 1) s

/-- `for_each_exc_last_up` 87–92. -/
def forEachExcLastUp (t : List α) (f : α → σ → σ) (s : σ) : Option σ := if 1 < t.length then upTo t f (t.length - 2) s else none

/-- `_for_each_exc_first_up<I + 1>` 96–108. -/
def upFrom1 (t : List α) (f : α → σ → σ) : Nat → σ → Option σ
  | 0, s => t[1]?.map fun x => f x s
  | i + 1, s => (upFrom1 t f i s).bind fun s' => t[i + 2]?.map fun x => f x s'

/-- `for_each_exc_first_up` 110–115. -/
def forEachExcFirstUp (t : List α) (f : α → σ → σ) (s : σ) : Option σ := if 1 < t.length then upFrom1 t f (t.length - 2) s else none

/-- `_for_each_down<I>` 118–130. -/
def downFrom (t : List α) (f : α → σ → σ) : Nat → σ → Option σ
  | 0, s => t[0]?.map fun x => f x s
  | i + 1, s => t[i + 1]?.bind fun x => downFrom t f i (f x s)

/-- `for_each_down` 131–135. -/
def forEachDown (t : List α) (f : α → σ → σ) (s : σ) : Option σ := if t.length = 0 then none else downFrom t f (t.length - 1) s

/-- `_for_each_exc_first_down<I + 1>` 137–149. -/
def downTo1 (t : List α) (f : α → σ → σ) : Nat → σ → Option σ
  | 0, s => t[1]?.map fun x => f x s
  | i + 1, s => t[i + 2]?.bind fun x => downTo1 t f i (f x s)

/-- `for_each_exc_first_down` 150–155. -/
def forEachExcFirstDown (t : List α) (f : α → σ → σ) (s : σ) : Option σ := if 1 < t.length then downTo1 t f (t.length - 2) s else none

/-- `_for_eachwp_up<I + 1>` 161–173. -/
def wpUp (t : List α) (f : α → α → Bool → σ → σ) : Nat → σ → Option σ
  | 0, s => t[1]?.bind fun x => t[0]?.map fun y => f x y true s
  | i + 1, s => (wpUp t f i s).bind fun s' => t[i + 2]?.bind fun x => t[i + 1]?.map fun y => f x y false s'

/-- `for_eachwp_up` 174–179. -/
def forEachWpUp (t : List α) (f : α → α → Bool → σ → σ) (s : σ) : Option σ := if 1 < t.length then wpUp t f (t.length - 2) s else none

/-! ### Denormalized numbers, `nntl/utils/denormal_floats.h` 39–80, and rounding, `nntl/math.h` 72–79 -/

/-- The control register of a thread: operands that are denormalized count as zero, such results become zero, rounding towards zero. -/
structure FpMode where
  daz : Bool
  ftz : Bool
  chop : Bool
  deriving DecidableEq

/-- The field `_MCW_DN` of the control word as `_controlfp_s` reports it on x64. -/
inductive Dn
  | save
  | flush
  | flushOperands
  | flushResults
  deriving DecidableEq

def FpMode.dn (m : FpMode) : Dn :=
  match m.daz, m.ftz with
  | false, false => .save
  | true, true => .flush
  | true, false => .flushOperands
  | false, true => .flushResults

/-- `_controlfp_s(&w, d, _MCW_DN)`. -/
def FpMode.setDn (m : FpMode) : Dn → FpMode
  | .save => { m with daz := false, ftz := false }
  | .flush => { m with daz := true, ftz := true }
  | .flushOperands => { m with daz := true, ftz := false }
  | .flushResults => { m with daz := false, ftz := true }

/-- `disable_denormals` 39–44. -/
def FpMode.disable (m : FpMode) : FpMode := { { m.setDn .flush with daz := true } with ftz := true }

/-- `enable_denormals` 46–51. -/
def FpMode.enable (m : FpMode) : FpMode := { { m.setDn .save with daz := false } with ftz := false }

/-- `global_denormalized_floats_mode` 53–58; `d2z`: `NNTL_DENORMALS2ZERO`, `rz`: `NNTL_FP_ROUND_TO_ZERO`. -/
def FpMode.lib (d2z rz : Bool) (m : FpMode) : FpMode :=
  let m1 := if d2z then m.disable else m
  if rz then { m1 with chop := true } else m1

/-- `isDenormalsOn` 60–77. -/
def FpMode.denormalsOn (m : FpMode) : Bool :=
  let bDisabled := if m.dn = .flush then true else false
  let bDisabled := if m.daz = false then false else bDisabled
  let bDisabled := if m.ftz = false then false else bDisabled
  !bDisabled

/-- `_scoped_restore_FPU` around other code, `math.h` 95–103. -/
def FpMode.scoped (rz : Bool) (work : FpMode → FpMode) (m : FpMode) : FpMode :=
  let m1 := work (if rz then { m with chop := false } else m)
  if rz then { m1 with chop := true } else m1

/-- `denormalsOnInAnyThread`, `workers.h` 137–160. `calls`: the calls of the functor in the order they happen; thread `r.tid` runs the call of range `r`; `on t`: what
`isDenormalsOn` returns in thread `t`; `used`: `thdUsed`. The cache holds 1 and 0. -/
def anyThread (workers used : Nat) (calls : List ParRange) (on : Nat → Bool) : Bool :=
  let cache := calls.foldl (fun c r => fun i => if i = r.tid then (if on r.tid then 1 else 0) else c i) (fun _ => (1 : Nat))
  if used = workers + 1 then decide (((List.range (workers + 1)).map cache).sum ≠ 0) else true

/-- What sets the mode of threads: the thread's own code (any mode), a thread of the pool at its start (`workers.h` 287) or the construction of the math object
(`smath.h` 138), `train` (`nnet.h` 532). -/
inductive MEvent
  | own (t : Nat) (m : FpMode)
  | lib (t : Nat)

def modes (d2z rz : Bool) (ms : Nat → FpMode) : List MEvent → Nat → FpMode
  | [] => ms
  | .own t m :: es => modes d2z rz (fun i => if i = t then m else ms i) es
  | .lib t :: es => modes d2z rz (fun i => if i = t then (ms t).lib d2z rz else ms i) es

end Nntl.Tools
