/-! Model of `nntl/interface/threads/_sync_primitives.h` (`spin_lock`, timed waits of `win_condition_var`) and of
`nntl/interface/threads/prioritize_workers.h`. -/
namespace Nntl.Sync

/-- Assignment to one element. -/
def upd {α : Type} (f : Nat → α) (k : Nat) (v : α) : Nat → α := fun j => if j = k then v else f j

/-! ### `spin_lock` -/

/-- Where a thread is: outside, in `lock()`/`lock_yield()`, or after it, with `k` steps of its critical section done. -/
inductive PC
  | out
  | trying
  | inside (k : Nat)
  deriving DecidableEq

/-- Threads that use one spin lock: the flag `m_lock` (_sync_primitives.h:95), the data it protects, and for each thread its place and its
local variables. -/
structure SL (L D : Type) where
  flag : Bool
  data : D
  pc : Nat → PC
  loc : Nat → L

variable {L D : Type}

/-- Thread `t` makes one step. `lock()` and `lock_yield()` (_sync_primitives.h:106-115) repeat `test_and_set`, which sets the flag and tells what
it was; `unlock()` (116-119) clears it; `lock_guard_yield` (135-159) calls the two. The steps of the critical section are given for each
thread. Simplification: one order of all steps (the acquire and release fences give it for data accessed under the lock). -/
def SL.step (body : Nat → List (L × D → L × D)) (s : SL L D) (t : Nat) : SL L D :=
  match s.pc t with
  | .out => { s with pc := upd s.pc t .trying }
  | .trying =>
    let old := s.flag
    let s := { s with flag := true }
    if old then s else { s with pc := upd s.pc t (.inside 0) }
  | .inside k =>
    match (body t)[k]? with
    | some f =>
      let x := f (s.loc t, s.data)
      { s with data := x.2, loc := upd s.loc t x.1, pc := upd s.pc t (.inside (k + 1)) }
    | none => { s with flag := false, pc := upd s.pc t .out }

/-- Steps in the order of a schedule. -/
def SL.run (body : Nat → List (L × D → L × D)) (s : SL L D) (sched : List Nat) : SL L D := sched.foldl (SL.step body) s

/-- A new lock: the flag is clear (`ATOMIC_FLAG_INIT`, _sync_primitives.h:95). -/
def SL.start (loc : Nat → L) (d : D) : SL L D := ⟨false, d, fun _ => .out, loc⟩

/-! ### Timed waits of `win_condition_var` -/

/-- `std::cv_status`. -/
inductive Status
  | timeout
  | noTimeout
  deriving DecidableEq

/-- The status of `wait_for(l, rel_time)` and `wait_for_shared` (_sync_primitives.h:283-295): `t0` is the time of the call, `t1` the time the sleep is over. -/
def waitStatus (t0 rel t1 : Nat) : Status := if t0 + rel > t1 then .timeout else .noTimeout

/-- What happens in one round of a wait with a predicate: the predicate is evaluated and, if the thread goes to sleep, the times of falling
asleep and of waking up. -/
structure Round where
  pred : Bool
  t0 : Nat
  t1 : Nat

/-- `wait_for(l, rel_time, pred)`, `wait_for_shared(l, rel_time, pred)` (_sync_primitives.h:308-317, 323-333) in a history of rounds. `none`: the
call has not returned. -/
def waitPred (rel : Nat) : Status → List Round → Option Bool
  | _, [] => none
  | r, e :: es => if e.pred then some (if r = .noTimeout then true else e.pred) else waitPred rel (waitStatus e.t0 rel e.t1) es

/-- The call: `r` starts as `no_timeout` (_sync_primitives.h:309, 325). -/
def waitForPred (rel : Nat) (h : List Round) : Option Bool := waitPred rel .noTimeout h

/-- `_to_ms` (_sync_primitives.h:227-235), release build: whole milliseconds of a duration in nanoseconds, as a `DWORD`. -/
def toMs (ns : Nat) : Nat := ns / 1000000 % 4294967296

/-- `INFINITE` of the operating system, for which a sleep never ends by itself. -/
def infinite : Nat := 4294967295

/-! ### `prioritize_workers_win` -/

/-- Priorities: of the process, the main thread and the threads of the pool; `calls` counts requests to the operating system. -/
structure Prio where
  cls : Nat
  main : Int
  wk : Nat → Int
  calls : Nat

/-- `SetPriorityClass`, `SetThreadPriority`: `ok k` tells whether request number `k` is granted. -/
def setCls (ok : Nat → Bool) (v : Nat) (w : Prio) : Bool × Prio :=
  if ok w.calls then (true, { w with cls := v, calls := w.calls + 1 }) else (false, { w with calls := w.calls + 1 })
def setMain (ok : Nat → Bool) (v : Int) (w : Prio) : Bool × Prio :=
  if ok w.calls then (true, { w with main := v, calls := w.calls + 1 }) else (false, { w with calls := w.calls + 1 })
def setWk (ok : Nat → Bool) (i : Nat) (v : Int) (w : Prio) : Bool × Prio :=
  if ok w.calls then (true, { w with wk := upd w.wk i v, calls := w.calls + 1 }) else (false, { w with calls := w.calls + 1 })

/-- `for (i..cnt) if (!SetThreadPriority(..)) {..; break;}` (prioritize_workers.h:92-104, 202-214): the index at which it ends. `k` threads are left. -/
def raise (ok : Nat → Bool) (v : Int) : Nat → Nat → Prio → Nat × Prio
  | 0, i, w => (i, w)
  | k + 1, i, w => let x := setWk ok i v w; if x.1 then raise ok v k (i + 1) x.2 else (i, x.2)

/-- The loops that set priorities back and only report failures (prioritize_workers.h:96-100, 144-148, 206-210). -/
def lower (ok : Nat → Bool) (v : Int) : Nat → Nat → Prio → Prio
  | 0, _, w => w
  | k + 1, i, w => lower ok v k (i + 1) (setWk ok i v w).2

/-- The value `GetThreadPriority` gives on failure (`THREAD_PRIORITY_ERROR_RETURN`). -/
def errorReturn : Int := 2147483647

/-- The fields of the object (prioritize_workers.h:115-119). -/
structure Guard where
  cls : Nat
  main : Int
  restore : Bool
  all : Bool

/-- The constructor with `_apply` (prioritize_workers.h:153-161, 190-234), release build, with `cnt` threads in the pool, for the class `c` and the priority
`p` of the mode (121-133). -/
def construct (ok : Nat → Bool) (cnt c : Nat) (p : Int) (all : Bool) (w : Prio) : Guard × Prio :=
  let g : Guard := ⟨w.cls, w.main, false, all⟩
  if g.cls ≠ 0 ∧ g.main ≠ errorReturn then
    let x := setCls ok c w
    if x.1 then
      let y := setMain ok p x.2
      let z : Bool × Prio :=
        if y.1 then
          if all then
            let r := raise ok p cnt 0 y.2
            let w' := if r.1 = cnt then r.2 else lower ok g.main r.1 0 r.2
            (r.1 == cnt, w')
          else (true, y.2)
        else (false, y.2)
      if z.1 then ({ g with restore := true }, z.2)
      else
        let w1 := if y.1 then (setMain ok g.main z.2).2 else z.2
        (g, (setCls ok g.cls w1).2)
    else (g, x.2)
  else (g, w)

/-- The destructor (prioritize_workers.h:136-151). -/
def destroy (ok : Nat → Bool) (cnt : Nat) (g : Guard) (w : Prio) : Prio :=
  if g.restore then
    let w1 := (setMain ok g.main (setCls ok g.cls w).2).2
    if g.all then lower ok g.main cnt 0 w1 else w1
  else w

/-- `ChangeThreadsPriorities` (prioritize_workers.h:81-106); `less` is 0, 1 or 2. -/
def changeThreads (ok : Nat → Bool) (cnt : Nat) (less : Int) (w : Prio) : Bool × Prio :=
  let r := raise ok (w.main - less) cnt 0 w
  (r.1 == cnt, if r.1 = cnt then r.2 else lower ok w.main r.1 0 r.2)

end Nntl.Sync
