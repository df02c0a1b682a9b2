import Verif.Threads.PartitionModel
/-!
Transition-system model of the thread pool `threads::Workers` under all schedules.
Source: /repo/nntl/interface/threads/workers.h, /repo/nntl/interface/threads/_sync_primitives.h

Every transition is one atomic action of one thread. Sequentially consistent memory is assumed; the code uses
`std::atomic` for `m_workingCnt` and `m_bStop`, all other shared members are written under the exclusive lock.
A lock is "owned" by the threads whose program counter lies between the acquire and the release, so ownership is
derived from program counters. Blocking on a condition variable releases the lock and enters the wait set in one
action (the guarantee of `SleepConditionVariableSRW` / `std::condition_variable::wait`).
-/
namespace Nntl.Threads

/-- `JobType` (workers.h:61). -/
inductive Kind | run | reduce
deriving DecidableEq, Repr

/-- Arguments of one `run()`/`reduce()` call. -/
structure Call where
  kind : Kind
  cnt : Nat
  useN : Int
deriving DecidableEq, Repr

/-- Program counter of a worker thread, `_worker` (workers.h:291-324). -/
inductive WPc
  | boot      -- before `m_mutex.lock()`                                   workers.h:292
  | bootDec   -- owns the lock exclusively, before `m_workingCnt--`          workers.h:293
  | bootNtf   -- before `m_orderDone.notify_one()`                           workers.h:294
  | bootUnl   -- before `m_mutex.unlock()`                                   workers.h:295
  | lock      -- before the (shared) lock of `lockShared_wait_unlock`        workers.h:299
  | test      -- owns the lock, before evaluating the predicate              workers.h:300
  | sleep     -- predicate was false, still owns the lock, about to block    _sync_primitives.h:260,267
  | blocked   -- in the wait set of `m_waitingOrders`, lock released
  | woken     -- left the wait set, about to re-acquire the lock
  | unl       -- predicate was true, before the unlock                       _sync_primitives.h:376
  | chkStop   -- before `if (m_bStop) break`                                 workers.h:302
  | work      -- before executing the job                                    workers.h:304-314
  | lock2     -- before `lockShared`                                         workers.h:318
  | clr       -- before `thrdRange.cnt(0)`                                   workers.h:319
  | dec       -- before `m_workingCnt--`                                     workers.h:320
  | ntf       -- before `m_orderDone.notify_one()`                           workers.h:321
  | unl2      -- before `unlockShared`                                       workers.h:322
  | done      -- thread function returned
deriving DecidableEq, Repr

/-- Program counter of the main (calling) thread. `o` is the range the main thread keeps for itself. -/
inductive MPc
  | idle                      -- outside of the pool's functions
  | inlined                   -- executes the functor directly                          workers.h:165-167, 221-222
  | lock                      -- before `m_mutex.lock()`                                workers.h:178, 236
  | order                     -- owns the lock: store functor, job type, partition      workers.h:180-183, 238-241
  | notify (o : ParRange)     -- before `m_waitingOrders.notify_all()`                  workers.h:187, 248
  | unlock (o : ParRange)     -- before `m_mutex.unlock()`                              workers.h:188, 249
  | own (o : ParRange)        -- before executing its own range                         workers.h:192, 252
  | check                     -- before `if (m_workingCnt > 0)`                         workers.h:194, 254
  | wlock                     -- before the lock of `lock_wait_unlock`                  workers.h:195, 255; 123
  | wtest                     -- owns the lock, before the predicate `wc <= 0`
  | wsleep                    -- predicate false, about to block
  | wblocked                  -- in the wait set of `m_orderDone`
  | wwoken                    -- left the wait set, about to re-acquire the lock
  | wunl                      -- predicate true, before the unlock
  | dstop                     -- destructor, before `m_bStop = true`                    workers.h:95
  | dnotify                   -- before `m_waitingOrders.notify_all()` (no lock!)       workers.h:98
  | join (k : Nat)            -- joining thread `k`                                     workers.h:101
  | gone                      -- destructor returned
deriving DecidableEq, Repr

/-- The pool. `fn`/`jobType` stand for `m_fnRun`/`m_fnReduce`/`m_jobType`; a functor is identified with the number
of the call it belongs to. `cache` is `m_reduceCache`: slot contents are "value of functor `c` on range `r`".
Ghost fields: `cid` (number of calls so far), `cur` (arguments of the current call), `log` (functor executions),
`returned` (finished calls), `lost` (a worker was between predicate and blocking when the destructor notified). -/
structure Pool where
  mpc : MPc
  wpc : Nat → WPc
  ranges : Nat → ParRange
  working : Int
  stop : Bool
  fn : Nat
  jobType : Kind
  cache : Nat → Option (Nat × ParRange)
  cid : Nat
  cur : Call
  log : List (Nat × ParRange)
  returned : List (Nat × Call)
  lost : Bool

/-- One scheduling decision. -/
inductive Act
  | call (c : Call)      -- the user calls run()/reduce() from the main thread
  | destroy              -- the user destroys the pool
  | main                 -- the main thread makes its next step
  | worker (i : Nat)     -- worker thread `i` makes its next step
  | spurMain             -- spurious wake-up of the main thread
  | spur (i : Nat)       -- spurious wake-up of worker `i`
deriving DecidableEq, Repr

/-- Pool configuration: `n = m_workersCnt`; `shared` tells whether the mutex type has a shared mode
(`win_srwlock`, `has_lock_shared`, _sync_primitives.h:369-446) or not (`std::mutex`). -/
structure Cfg where
  n : Nat
  shared : Bool

/-- Worker owns the lock in (possibly) shared mode. -/
def WPc.holdsSh : WPc → Bool
  | .test | .sleep | .unl | .clr | .dec | .ntf | .unl2 => true
  | _ => false
/-- Worker owns the lock in exclusive mode (only in its first lines, workers.h:292-295). -/
def WPc.holdsEx : WPc → Bool
  | .bootDec | .bootNtf | .bootUnl => true
  | _ => false
def WPc.holds (p : WPc) : Bool := p.holdsSh || p.holdsEx
/-- Main thread owns the lock (always exclusively). -/
def MPc.holds : MPc → Bool
  | .order | .notify _ | .unlock _ | .wtest | .wsleep | .wunl => true
  | _ => false

/-- The lock can be taken exclusively by the main thread. -/
def Pool.freeForMain (cfg : Cfg) (s : Pool) : Bool :=
  decide (∀ j, j < cfg.n → (s.wpc j).holds = false)
/-- The lock can be taken exclusively by a worker. -/
def Pool.freeForBoot (cfg : Cfg) (s : Pool) : Bool :=
  !s.mpc.holds && decide (∀ j, j < cfg.n → (s.wpc j).holds = false)
/-- The lock can be taken by a worker in shared mode (exclusive mode if there is no shared one). -/
def Pool.freeForShared (cfg : Cfg) (s : Pool) : Bool :=
  !s.mpc.holds && decide (∀ j, j < cfg.n → (s.wpc j).holdsEx = false) &&
    (cfg.shared || decide (∀ j, j < cfg.n → (s.wpc j).holds = false))

def setW (f : Nat → α) (i : Nat) (v : α) : Nat → α := fun j => if j = i then v else f j

/-- `notify_one`/`notify_all` on `m_orderDone`: only the main thread ever waits there. -/
def wakeMain : MPc → MPc
  | .wblocked => .wwoken
  | p => p
/-- `notify_all` on `m_waitingOrders`. -/
def wakeWorker : WPc → WPc
  | .blocked => .woken
  | p => p

/-- The call is executed directly on the main thread: workers.h:165 (`run`), workers.h:221 (`reduce`). -/
def Call.inlined (c : Call) : Bool :=
  match c.kind with
  | .run => decide (c.cnt ≤ 1)
  | .reduce => decide (c.cnt ≤ 1) || decide (c.useN = 1)

/-- Workers.h:182-183, 240-241 together with 264-284, all under the exclusive lock. -/
def Pool.order (cfg : Cfg) (s : Pool) : Pool :=
  let p := partitionCountToWorkers ((List.range cfg.n).map s.ranges) s.cur.cnt s.cur.useN
  { s with
    fn := s.cid
    jobType := s.cur.kind
    ranges := fun i => (p.1[i]?).getD (s.ranges i)
    working := workingCnt cfg.n s.cur.cnt s.cur.useN
    mpc := .notify { offset := p.2, cnt := s.cur.cnt - p.2, tid := 0 } }

/-- The call returns to the user. -/
def Pool.ret (s : Pool) : Pool :=
  { s with mpc := .idle, returned := (s.cid, s.cur) :: s.returned }

/-- Next step of the main thread. -/
def Pool.stepMain (cfg : Cfg) (s : Pool) : Option Pool :=
  match s.mpc with
  | .idle | .gone | .wblocked => none
  | .inlined =>
    -- workers.h:167 / 222; `par_range_t(cnt)` has offset 0 and tid 0 (parallel_range.h:58)
    let r : ParRange := { offset := 0, cnt := s.cur.cnt, tid := 0 }
    some { s.ret with log := (s.cid, r) :: s.log }
  | .lock => if s.freeForMain cfg then some { s with mpc := .order } else none
  | .order => some (s.order cfg)
  | .notify o => some { s with mpc := .unlock o, wpc := fun i => wakeWorker (s.wpc i) }
  | .unlock o => some { s with mpc := .own o }
  | .own o =>
    some { s with
      mpc := .check
      log := (s.cid, o) :: s.log
      cache := if s.cur.kind = .reduce then setW s.cache 0 (some (s.cid, o)) else s.cache }
  | .check => if s.working > 0 then some { s with mpc := .wlock } else some s.ret
  | .wlock | .wwoken => if s.freeForMain cfg then some { s with mpc := .wtest } else none
  | .wtest => some { s with mpc := if s.working ≤ 0 then .wunl else .wsleep }
  | .wsleep => some { s with mpc := .wblocked }
  | .wunl => if s.cid = 0 then some { s with mpc := .idle } else some s.ret
      -- `cid = 0`: this is the wait in the constructor (workers.h:123-124), no call returns
  | .dstop => some { s with mpc := .dnotify, stop := true }
  | .dnotify =>
    some { s with
      mpc := .join 0
      lost := decide (∃ i, i < cfg.n ∧ s.wpc i = .sleep)
      wpc := fun i => wakeWorker (s.wpc i) }
  | .join k =>
    if k < cfg.n then (if s.wpc k = .done then some { s with mpc := .join (k + 1) } else none)
    else some { s with mpc := .gone }

/-- Next step of worker `i`. -/
def Pool.stepWorker (cfg : Cfg) (s : Pool) (i : Nat) : Option Pool :=
  match s.wpc i with
  | .blocked | .done => none
  | .boot => if s.freeForBoot cfg then some { s with wpc := setW s.wpc i .bootDec } else none
  | .bootDec => some { s with working := s.working - 1, wpc := setW s.wpc i .bootNtf }
  | .bootNtf => some { s with mpc := wakeMain s.mpc, wpc := setW s.wpc i .bootUnl }
  | .bootUnl => some { s with wpc := setW s.wpc i .lock }
  | .lock | .woken => if s.freeForShared cfg then some { s with wpc := setW s.wpc i .test } else none
  | .test =>
    some { s with wpc := setW s.wpc i (if s.stop || decide ((s.ranges i).cnt ≠ 0) then .unl else .sleep) }
  | .sleep => some { s with wpc := setW s.wpc i .blocked }
  | .unl => some { s with wpc := setW s.wpc i .chkStop }
  | .chkStop => some { s with wpc := setW s.wpc i (if s.stop then .done else .work) }
  | .work =>
    some { s with
      wpc := setW s.wpc i .lock2
      log := (s.fn, s.ranges i) :: s.log
      cache := if s.jobType = .reduce then setW s.cache (i + 1) (some (s.fn, s.ranges i)) else s.cache }
  | .lock2 => if s.freeForShared cfg then some { s with wpc := setW s.wpc i .clr } else none
  | .clr => some { s with ranges := setW s.ranges i { s.ranges i with cnt := 0 }, wpc := setW s.wpc i .dec }
  | .dec => some { s with working := s.working - 1, wpc := setW s.wpc i .ntf }
  | .ntf => some { s with mpc := wakeMain s.mpc, wpc := setW s.wpc i .unl2 }
  | .unl2 => some { s with wpc := setW s.wpc i .lock }

/-- The whole system. `none`: the action is not enabled. -/
def Pool.step (cfg : Cfg) (s : Pool) : Act → Option Pool
  | .call c =>
    if s.mpc = .idle then
      some { s with cid := s.cid + 1, cur := c, mpc := if c.inlined then .inlined else .lock }
    else none
  | .destroy => if s.mpc = .idle then some { s with mpc := .dstop } else none
  | .main => s.stepMain cfg
  | .worker i => if i < cfg.n then s.stepWorker cfg i else none
  | .spurMain => if s.mpc = .wblocked then some { s with mpc := .wwoken } else none
  | .spur i => if i < cfg.n ∧ s.wpc i = .blocked then some { s with wpc := setW s.wpc i .woken } else none

/-- State in the constructor right after the threads were created and the lock was released (workers.h:104-121). -/
def Pool.init (cfg : Cfg) : Pool :=
  { mpc := .wlock, wpc := fun _ => .boot, ranges := fun i => { offset := 0, cnt := 0, tid := i + 1 },
    working := cfg.n, stop := false, fn := 0, jobType := .run, cache := fun _ => none,
    cid := 0, cur := ⟨.run, 0, 0⟩, log := [], returned := [], lost := false }

/-- Run a schedule. -/
def Pool.exec (cfg : Cfg) (s : Pool) : List Act → Option Pool
  | [] => some s
  | a :: as => (s.step cfg a).bind (fun s' => Pool.exec cfg s' as)

/-- States reachable under some schedule. -/
def Reachable (cfg : Cfg) (s : Pool) : Prop := ∃ as, (Pool.init cfg).exec cfg as = some s

end Nntl.Threads
