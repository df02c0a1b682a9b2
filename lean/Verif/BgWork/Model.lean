import Mathlib.Data.Int.Init
/-!
Transition system of the background workers under all schedules.
Source: /repo/nntl/interface/threads/bgworkers.h, /repo/nntl/interface/threads/_sync_primitives.h

Each rule of `Step` is one atomic action of one thread; memory is sequentially consistent. The lock `m_mutexTasks` is owned by the threads whose
program counter lies between acquiring and releasing it. The workers wait on `m_waitingOrders` with a timeout, so a wait may end without a
notification at any time; what matters is whether it may end with a false predicate (`std::condition_variable`) or not (`win_condition_var`,
_sync_primitives.h:301-310, which starts to wait again). The main thread waits on `m_orderDone` without a timeout.

Left out: thread priorities, clocks (a time limit may have passed or not), the functions' own effects.
-/
namespace Nntl.BgWork

/-- Program counter of a worker, `_worker` bgworkers.h:282-323. -/
inductive WPc
  | boot            -- before `lock_shared`                                                 283
  | bootDec         -- owns the lock, before `m_workingCnt--`                               284
  | bootNtf         -- before `m_orderDone.notify_one()`                                    285
  | bootUnl         -- before `unlock_shared`                                               286
  | wait            -- in `lockShared_waitFor_unlock`, not owning the lock                  292
  | unl             -- the wait is over, owns the lock, before its release                  _sync_primitives.h:406
  | chkStop         -- before `if (m_bStop)`                                                298
  | chkExec         -- before `if (bHas2Exec)`                                              300
  | exec            -- before the call of `m_execFn`                                        301
  | run (f : Nat)   -- in the call of function number `f`
  | execL           -- the call has returned, before `lock_shared`                          303
  | clr             -- owns the lock, before `bHas2Exec = false`                            305
  | dec             -- before `m_workingCnt--`                                              306
  | ntf             -- before `m_orderDone.notify_one()`                                    307
  | unl2            -- before `unlock_shared`                                               309
  | lockT           -- before `lock_shared`                                                 311
  | pick (k : Nat)  -- owns the lock, before the test of the outer loop, `itCur` at `k`     315
  | loop (k : Nat)  -- before the test `!m_bGo2Waiting` of the inner loop for task `k`      317
  | task (k : Nat)  -- in the call of task `k`                                              317
  | unlT            -- before `unlock_shared`                                               320
  | done            -- returned
  deriving DecidableEq

/-- Operations of the public interface that take the lock by `disperse_locker` (72-84): `add_task` 229-246, `delete_tasks` 248-252,
`expect_tasks_count` and `set_task_wait_timeout` 204-221 (`other`). A task is a number and a priority. -/
inductive Op
  | add (t : Nat) (p : Int)
  | del
  | other
  deriving DecidableEq

/-- Program counter of the thread that owns the object. In the wait for `m_orderDone` the argument tells whether `exec` waits or the
constructor. -/
inductive MPc
  | idle
  | dFlag (o : Op)  -- before `bDisperser = true`                                           73
  | dLock (o : Op)  -- before the lock                                                      74
  | dDo (o : Op)    -- owns the lock, before the operation
  | dGo             -- before `bDisperser = false`                                          77
  | dUnl            -- before the unlock                                                    78
  | eFlag           -- `exec`: before `m_bGo2Waiting = true`                                257
  | eLock           -- before the lock                                                      258
  | eFn             -- owns the lock, before `m_execFn = ..`                                260
  | eSet (k : Nat)  -- before `m_threadHasSmth2Exec[k] = true`                              261
  | eCnt            -- before `m_workingCnt = ..`                                           262
  | eGo             -- before `m_bGo2Waiting = false`                                       264
  | eUnl            -- before the unlock                                                    265
  | wlock (e : Bool)    -- before the lock of the wait                                      267, 162
  | wtest (e : Bool)    -- owns the lock, before the predicate `wc <= 0`
  | wsleep (e : Bool)   -- predicate false, owns the lock, about to block
  | wblocked (e : Bool) -- waits
  | wwoken (e : Bool)   -- woken up, about to take the lock again
  | wunl (e : Bool)     -- predicate true, before the unlock
  | eReset          -- before `m_execFn.reset()`                                            269
  | xStop           -- destructor, before `m_bStop = true`                                  173
  | xGo             -- before `m_bGo2Waiting = true`                                        174
  | xNtf            -- before `notify_all`, without lock                                    177
  | join (k : Nat)  -- joining thread `k`                                                   180
  | gone            -- destroyed
  deriving DecidableEq

/-- Events; functions given to `exec` are numbered by the calls of `exec`. -/
inductive Ev
  | execB (c i : Nat)             -- worker `i` begins to call the function of call `c`
  | execE (c i : Nat)             -- that call returns
  | ret (c : Nat)                 -- `exec` number `c` returns to its caller
  | pass (i : Nat)                -- worker `i` begins to go over the tasks
  | taskB (t : Nat) (p : Int) (i : Nat)  -- worker `i` begins to call task `t`
  | taskE (t : Nat) (i : Nat) (r : Bool)  -- that call returns `r`
  deriving DecidableEq

/-- The object. `tasks` is `m_tasks`, `has` is `m_threadHasSmth2Exec`, `cnt` is `m_workingCnt`, `go` is `m_bGo2Waiting`, `fn` is `m_execFn`.
Ghosts: `cid` (number of calls of `exec` so far), `log` (events, last one first). -/
structure S where
  mpc : MPc
  wpc : Nat → WPc
  has : Nat → Bool
  cnt : Int
  stop : Bool
  go : Bool
  fn : Option Nat
  tasks : List (Nat × Int)
  cid : Nat
  log : List Ev

/-- `n` is the number of threads; `std` tells whether a wait may end with a false predicate. -/
structure Cfg where
  n : Nat
  std : Bool

/-- The worker owns the lock (shared). -/
def WPc.holds : WPc → Bool
  | .bootDec | .bootNtf | .bootUnl | .unl | .clr | .dec | .ntf | .unl2 | .pick _ | .loop _ | .task _ | .unlT => true
  | _ => false

/-- The main thread owns the lock (exclusively). -/
def MPc.holds : MPc → Bool
  | .dDo _ | .dGo | .dUnl | .eFn | .eSet _ | .eCnt | .eGo | .eUnl | .wtest _ | .wsleep _ | .wunl _ => true
  | _ => false

def set {α : Type} (f : Nat → α) (i : Nat) (v : α) : Nat → α := fun j => if j = i then v else f j

/-- `notify_one` on `m_orderDone`: only the main thread waits there. -/
def wakeMain : MPc → MPc
  | .wblocked e => .wwoken e
  | p => p

/-- What an operation may do with the tasks. `std::sort` by descending priority may put tasks of equal priority in any order. -/
def Op.Result (o : Op) (old new : List (Nat × Int)) : Prop :=
  match o with
  | .add t p => new.Perm (old ++ [(t, p)]) ∧ new.Pairwise fun a b => a.2 ≥ b.2
  | .del => new = []
  | .other => new = old

/-- Calls of the interface. -/
inductive Call
  | op (o : Op)
  | exec
  | destroy
  deriving DecidableEq

/-- Which thread acts; `user` is the main thread calling a function of the interface. -/
inductive Actor
  | user (c : Call)
  | main
  | worker (i : Nat)
  deriving DecidableEq

/-- The workers' steps, 282-323. `late` tells whether the time limit of the predicate (290, 296) has passed. -/
inductive WStep (cfg : Cfg) (s : S) (i : Nat) : S → Prop
  | boot : s.wpc i = .boot → s.mpc.holds = false → WStep cfg s i { s with wpc := set s.wpc i .bootDec }
  | bootDec : s.wpc i = .bootDec → WStep cfg s i { s with wpc := set s.wpc i .bootNtf, cnt := s.cnt - 1 }
  | bootNtf : s.wpc i = .bootNtf → WStep cfg s i { s with wpc := set s.wpc i .bootUnl, mpc := wakeMain s.mpc }
  | bootUnl : s.wpc i = .bootUnl → WStep cfg s i { s with wpc := set s.wpc i .wait }
  | wait (late : Bool) : s.wpc i = .wait → s.mpc.holds = false →
      cfg.std = true ∨ s.stop = true ∨ (late = true ∧ s.go = false ∧ s.tasks ≠ []) ∨ s.has i = true → WStep cfg s i { s with wpc := set s.wpc i .unl }
  | unl : s.wpc i = .unl → WStep cfg s i { s with wpc := set s.wpc i .chkStop }
  | stopYes : s.wpc i = .chkStop → s.stop = true → WStep cfg s i { s with wpc := set s.wpc i .done }
  | stopNo : s.wpc i = .chkStop → s.stop = false → WStep cfg s i { s with wpc := set s.wpc i .chkExec }
  | execYes : s.wpc i = .chkExec → s.has i = true → WStep cfg s i { s with wpc := set s.wpc i .exec }
  | execNo : s.wpc i = .chkExec → s.has i = false → WStep cfg s i { s with wpc := set s.wpc i .lockT }
  | exec (f : Nat) : s.wpc i = .exec → s.fn = some f → WStep cfg s i { s with wpc := set s.wpc i (.run f), log := .execB f i :: s.log }
  | run (f : Nat) : s.wpc i = .run f → WStep cfg s i { s with wpc := set s.wpc i .execL, log := .execE f i :: s.log }
  | execL : s.wpc i = .execL → s.mpc.holds = false → WStep cfg s i { s with wpc := set s.wpc i .clr }
  | clr : s.wpc i = .clr → WStep cfg s i { s with wpc := set s.wpc i .dec, has := set s.has i false }
  | dec : s.wpc i = .dec → WStep cfg s i { s with wpc := set s.wpc i .ntf, cnt := s.cnt - 1 }
  | ntf : s.wpc i = .ntf → WStep cfg s i { s with wpc := set s.wpc i .unl2, mpc := wakeMain s.mpc }
  | unl2 : s.wpc i = .unl2 → WStep cfg s i { s with wpc := set s.wpc i .wait }
  | lockT : s.wpc i = .lockT → s.mpc.holds = false → WStep cfg s i { s with wpc := set s.wpc i (.pick 0), log := .pass i :: s.log }
  | pick (k : Nat) : s.wpc i = .pick k → s.go = false → k < s.tasks.length → WStep cfg s i { s with wpc := set s.wpc i (.loop k) }
  | pickEnd (k : Nat) : s.wpc i = .pick k → s.go = true ∨ s.tasks.length ≤ k → WStep cfg s i { s with wpc := set s.wpc i .unlT }
  | loopGo (k : Nat) : s.wpc i = .loop k → s.go = true → WStep cfg s i { s with wpc := set s.wpc i (.pick (k + 1)) }
  | loop (k : Nat) (t : Nat) (p : Int) : s.wpc i = .loop k → s.go = false → s.tasks[k]? = some (t, p) →
      WStep cfg s i { s with wpc := set s.wpc i (.task k), log := .taskB t p i :: s.log }
  | taskTrue (k : Nat) (t : Nat) (p : Int) : s.wpc i = .task k → s.tasks[k]? = some (t, p) →
      WStep cfg s i { s with wpc := set s.wpc i (.loop k), log := .taskE t i true :: s.log }
  | taskFalse (k : Nat) (t : Nat) (p : Int) : s.wpc i = .task k → s.tasks[k]? = some (t, p) →
      WStep cfg s i { s with wpc := set s.wpc i (.pick (k + 1)), log := .taskE t i false :: s.log }
  | unlT : s.wpc i = .unlT → WStep cfg s i { s with wpc := set s.wpc i .wait }

/-- No worker owns the lock. -/
def Free (cfg : Cfg) (s : S) : Prop := ∀ j, j < cfg.n → (s.wpc j).holds = false

/-- The steps of the main thread. -/
inductive MStep (cfg : Cfg) (s : S) : S → Prop
  | dFlag (o) : s.mpc = .dFlag o → MStep cfg s { s with mpc := .dLock o, go := true }
  | dLock (o) : s.mpc = .dLock o → Free cfg s → MStep cfg s { s with mpc := .dDo o }
  | dDo (o new) : s.mpc = .dDo o → o.Result s.tasks new → MStep cfg s { s with mpc := .dGo, tasks := new }
  | dGo : s.mpc = .dGo → MStep cfg s { s with mpc := .dUnl, go := false }
  | dUnl : s.mpc = .dUnl → MStep cfg s { s with mpc := .idle }
  | eFlag : s.mpc = .eFlag → MStep cfg s { s with mpc := .eLock, go := true }
  | eLock : s.mpc = .eLock → Free cfg s → MStep cfg s { s with mpc := .eFn }
  | eFn : s.mpc = .eFn → MStep cfg s { s with mpc := .eSet 0, fn := some s.cid }
  | eSet (k) : s.mpc = .eSet k → k < cfg.n → MStep cfg s { s with mpc := .eSet (k + 1), has := set s.has k true }
  | eSetEnd (k) : s.mpc = .eSet k → cfg.n ≤ k → MStep cfg s { s with mpc := .eCnt }
  | eCnt : s.mpc = .eCnt → MStep cfg s { s with mpc := .eGo, cnt := cfg.n }
  | eGo : s.mpc = .eGo → MStep cfg s { s with mpc := .eUnl, go := false }
  | eUnl : s.mpc = .eUnl → MStep cfg s { s with mpc := .wlock true }
  | wlock (e) : s.mpc = .wlock e → Free cfg s → MStep cfg s { s with mpc := .wtest e }
  | wtestYes (e) : s.mpc = .wtest e → s.cnt ≤ 0 → MStep cfg s { s with mpc := .wunl e }
  | wtestNo (e) : s.mpc = .wtest e → 0 < s.cnt → MStep cfg s { s with mpc := .wsleep e }
  | wsleep (e) : s.mpc = .wsleep e → MStep cfg s { s with mpc := .wblocked e }
  | spurious (e) : s.mpc = .wblocked e → MStep cfg s { s with mpc := .wwoken e }
  | wwoken (e) : s.mpc = .wwoken e → Free cfg s → MStep cfg s { s with mpc := .wtest e }
  | wunlExec : s.mpc = .wunl true → MStep cfg s { s with mpc := .eReset }
  | wunlCtor : s.mpc = .wunl false → MStep cfg s { s with mpc := .idle }
  | eReset : s.mpc = .eReset → MStep cfg s { s with mpc := .idle, fn := none, log := .ret s.cid :: s.log }
  | xStop : s.mpc = .xStop → MStep cfg s { s with mpc := .xGo, stop := true }
  | xGo : s.mpc = .xGo → MStep cfg s { s with mpc := .xNtf, go := true }
  | xNtf : s.mpc = .xNtf → MStep cfg s { s with mpc := .join 0 }
  | join (k) : s.mpc = .join k → k < cfg.n → s.wpc k = .done → MStep cfg s { s with mpc := .join (k + 1) }
  | joinEnd (k) : s.mpc = .join k → cfg.n ≤ k → MStep cfg s { s with mpc := .gone }

/-- Calls of the interface, from the main thread only. -/
inductive UStep (s : S) : Call → S → Prop
  | op (o) : s.mpc = .idle → UStep s (.op o) { s with mpc := .dFlag o }
  | exec : s.mpc = .idle → UStep s .exec { s with mpc := .eFlag, cid := s.cid + 1 }
  | destroy : s.mpc = .idle → UStep s .destroy { s with mpc := .xStop }

/-- One step of the system. -/
inductive Step (cfg : Cfg) : S → Actor → S → Prop
  | user {s s' c} : UStep s c s' → Step cfg s (.user c) s'
  | main {s s'} : MStep cfg s s' → Step cfg s .main s'
  | worker {s s'} (i) : i < cfg.n → WStep cfg s i s' → Step cfg s (.worker i) s'

/-- After the constructor (145-169) has created the threads and given back the lock; the threads could not pass `boot` before. The initial
value of `m_workingCnt` is the number of threads (147). -/
def start (cfg : Cfg) : S :=
  { mpc := .wlock false, wpc := fun _ => .boot, has := fun _ => false, cnt := cfg.n, stop := false, go := false, fn := none, tasks := [], cid := 0, log := [] }

/-- Executions: any number of steps by any threads. -/
inductive Reach (cfg : Cfg) : S → Prop
  | start : Reach cfg (start cfg)
  | step {s a s'} : Reach cfg s → Step cfg s a s' → Reach cfg s'

/-- A stretch of an execution with the threads that acted, the last one first. -/
inductive Run (cfg : Cfg) (s : S) : List Actor → S → Prop
  | nil : Run cfg s [] s
  | step {l s' a s''} : Run cfg s l s' → Step cfg s' a s'' → Run cfg s (a :: l) s''

end Nntl.BgWork
