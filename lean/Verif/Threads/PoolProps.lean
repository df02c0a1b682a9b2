import Verif.Threads.PoolProgress
import Mathlib.Algebra.BigOperators.Group.List.Basic
import Mathlib.Data.List.Nodup
/-!
C02-C05: what a user of `threads::Workers` observes, under every schedule.

Reading guide. `Reachable cfg s`: `s` is the pool after some schedule (any interleaving of the main thread, the
worker threads, user calls and spurious wake-ups) that starts right after thread creation in the constructor.
`s.log` lists the functor executions `(call number, range)`, `s.returned` the calls that returned to the user.
-/
namespace Nntl.Threads

/-- The ranges the functor of call number `c` has been executed with so far. -/
def executionsOf (s : Pool) (c : Nat) : List ParRange := (s.log.filter (fun e => e.1 == c)).map (·.2)

/-- Items a range stands for. -/
def items (r : ParRange) : List Nat := List.range' r.offset r.cnt

theorem count_executionsOf (s : Pool) (c : Nat) (r : ParRange) :
    (executionsOf s c).count r = s.log.count (c, r) := by
  unfold executionsOf
  generalize s.log = l
  induction l with
  | nil => rfl
  | cons e l ih =>
    obtain ⟨a, b⟩ := e
    by_cases h : a = c
    · subst h; simp [List.count_cons, ih]
    · simp [ih, h]

theorem count_items (r : ParRange) (k : Nat) :
    (items r).count k = if r.offset ≤ k ∧ k < r.offset + r.cnt then 1 else 0 := by
  unfold items
  by_cases h : r.offset ≤ k ∧ k < r.offset + r.cnt
  · rw [if_pos h]
    exact List.count_eq_one_of_mem List.nodup_range' (by rw [List.mem_range'_1]; exact h)
  · rw [if_neg h]
    exact List.count_eq_zero_of_not_mem (by rw [List.mem_range'_1]; exact h)

theorem count_flatMap_items (l : List ParRange) (k : Nat) : (l.flatMap items).count k = timesProcessed l k := by
  induction l with
  | nil => rfl
  | cons r l ih =>
    rw [List.flatMap_cons, List.count_append, ih, count_items]
    simp only [timesProcessed, List.countP_cons, Bool.and_eq_true, decide_eq_true_eq]
    omega

/-- The items handed out for one user call are `0, 1, .., cnt-1`, each exactly once. -/
theorem callsOf_items (n : Nat) (c : Call) : ((callsOf n c).flatMap items).Perm (List.range c.cnt) := by
  rw [List.perm_iff_count]
  intro k
  rw [count_flatMap_items]
  have h2 : (List.range c.cnt).count k = if k < c.cnt then 1 else 0 := by
    by_cases h : k < c.cnt
    · rw [if_pos h]; exact List.count_eq_one_of_mem List.nodup_range (List.mem_range.2 h)
    · rw [if_neg h]; exact List.count_eq_zero_of_not_mem (by simpa using h)
  rw [h2]
  unfold callsOf
  split
  · simp [timesProcessed, List.countP_cons]
  · exact run_processes_each_item_once _ _ _ (initRanges_ok n) k

/-- **C02a.** Whenever `run()`/`reduce()` has returned, the functor of that call has been executed exactly once with
every range of the partition and with nothing else, no matter how threads were scheduled; and this stays so at every
later moment (no late execution). -/
theorem returned_call_executed_exactly (cfg : Cfg) (s : Pool) (hr : Reachable cfg s) (c : Nat) (call : Call)
    (h : (c, call) ∈ s.returned) : (executionsOf s c).Perm (callsOf cfg.n call) := by
  rw [List.perm_iff_count]
  intro r
  rw [count_executionsOf]
  exact (invB_reachable hr).retOk (c, call) h r

/-- **C02b.** Every item `k < cnt` was processed exactly once, by the call's own functor. -/
theorem returned_call_processed_every_item_once (cfg : Cfg) (s : Pool) (hr : Reachable cfg s) (c : Nat) (call : Call)
    (h : (c, call) ∈ s.returned) : ((executionsOf s c).flatMap items).Perm (List.range call.cnt) :=
  ((returned_call_executed_exactly cfg s hr c call h).flatMap_right items).trans (callsOf_items cfg.n call)

/-- **C02c.** Outside of a call no worker is executing or about to execute a functor. -/
theorem no_execution_outside_calls (cfg : Cfg) (s : Pool) (hr : Reachable cfg s) (h : s.mpc = .idle) :
    ∀ i, i < cfg.n → s.wpc i ≠ .work ∧ (s.ranges i).cnt = 0 := by
  intro i hi
  have ha := invA_reachable hr
  have h1 := cnt_zero_of_owes (ha.quiet (by rw [h]; rfl) i hi)
  refine ⟨fun e => ?_, h1⟩
  have := ha.wok i hi
  rw [e] at this
  exact this.1 h1

/-- **C02d.** While a call is in progress nothing but (parts of) its own partition is executed under its number. -/
theorem running_call_executes_only_its_partition (cfg : Cfg) (s : Pool) (hr : Reachable cfg s)
    (h : s.mpc.inCall = true) (h0 : s.cid ≠ 0) (r : ParRange) :
    (executionsOf s s.cid).count r ≤ (callsOf cfg.n s.cur).count r := by
  rw [count_executionsOf]
  have := (invB_reachable hr).actL h h0 r
  omega

/-- No thread of the pool (the calling thread included) can make a step. -/
def Stuck (cfg : Cfg) (s : Pool) : Prop := ∀ a : Act, a.isThread = true → s.step cfg a = none

/-- **C03a.** No deadlock: unless the user is outside of the pool's functions or has destroyed it, some thread can
always move. (The constructor's wait is included.) -/
theorem call_never_stuck (cfg : Cfg) (s : Pool) (hr : Reachable cfg s) (h1 : s.mpc ≠ .idle)
    (h2 : s.mpc.joining = false) : ¬ Stuck cfg s := by
  intro hst
  have ha := invA_reachable hr
  have hl : s.lost = false := by
    cases e : s.lost
    · rfl
    · have := ha.lst e; simp_all
  rcases progress ha h1 (by intro e; rw [e] at h2; cases h2) hl with h | ⟨i, _, h⟩
  · rw [hst .main rfl] at h; cases h
  · rw [hst (.worker i) rfl] at h; cases h

/-- **C03b.** No livelock: any schedule of thread steps and spurious wake-ups has a bounded number of thread steps. -/
theorem thread_steps_bounded (cfg : Cfg) (s s' : Pool) (hr : Reachable cfg s) (as : List Act)
    (has : ∀ a ∈ as, a.isThread = true ∨ a.isSpurious = true) (he : s.exec cfg as = some s') :
    as.countP (·.isThread) ≤ s.fuel cfg + 4 * as.countP (·.isSpurious) := by
  have key : ∀ (as : List Act) (s : Pool), InvA cfg s → (∀ a ∈ as, a.isThread = true ∨ a.isSpurious = true) →
      s.exec cfg as = some s' → as.countP (·.isThread) + s'.fuel cfg ≤ s.fuel cfg + 4 * as.countP (·.isSpurious) := by
    intro as
    induction as with
    | nil => intro s _ _ he; cases he; simp
    | cons a as ih =>
      intro s ha has he
      simp only [Pool.exec, Option.bind_eq_some_iff] at he
      obtain ⟨t, h1, h2⟩ := he
      have := ih t (invA_step ha a h1) (fun b hb => has b (List.mem_cons_of_mem _ hb)) h2
      rw [List.countP_cons, List.countP_cons]
      rcases has a List.mem_cons_self with h | h
      · have h3 := fuel_thread ha a h h1
        have h4 : a.isSpurious = false := by cases a <;> simp_all [Act.isThread, Act.isSpurious]
        rw [h, h4]; simp; omega
      · have h3 := fuel_spur a h h1
        have h4 : a.isThread = false := by cases a <;> simp_all [Act.isThread, Act.isSpurious]
        rw [h, h4]; simp; omega
  have := key as s (invA_reachable hr) has he
  omega

/-- Progress of one call: what thread steps cannot change. -/
theorem call_frame (cfg : Cfg) : ∀ (as : List Act) (s s' : Pool),
    (∀ a ∈ as, a.isThread = true ∨ a.isSpurious = true) → 
    (s.mpc.inCall = true ∨ s.mpc.fresh = true ∨ s.mpc = .idle) → s.exec cfg as = some s' →
    s'.cid = s.cid ∧ s'.cur = s.cur ∧ (s'.mpc.inCall = true ∨ s'.mpc.fresh = true ∨ s'.mpc = .idle) := by
  intro as
  induction as with
  | nil => intro s s' _ h he; cases he; exact ⟨rfl, rfl, h⟩
  | cons a as ih =>
    intro s s' has h he
    simp only [Pool.exec, Option.bind_eq_some_iff] at he
    obtain ⟨t, h1, h2⟩ := he
    have hstep : t.cid = s.cid ∧ t.cur = s.cur ∧ (t.mpc.inCall = true ∨ t.mpc.fresh = true ∨ t.mpc = .idle) := by
      cases a with
      | call c => have := has _ List.mem_cons_self; simp [Act.isThread, Act.isSpurious] at this
      | destroy => have := has _ List.mem_cons_self; simp [Act.isThread, Act.isSpurious] at this
      | main =>
        simp only [Pool.step, Pool.stepMain] at h1
        split at h1 <;> rename_i hpc
        all_goals try (split at h1)
        all_goals try (contradiction)
        all_goals try (split at h1)
        all_goals try (contradiction)
        all_goals (obtain rfl := Option.some.inj h1)
        all_goals simp_all [MPc.inCall, MPc.fresh, Pool.ret, Pool.order]
      | worker i =>
        have hwake : ∀ m : MPc, (m.inCall = true ∨ m.fresh = true ∨ m = .idle) →
            ((wakeMain m).inCall = true ∨ (wakeMain m).fresh = true ∨ wakeMain m = .idle) := by
          intro m; cases m <;> simp [wakeMain, MPc.inCall, MPc.fresh]
        simp only [Pool.step] at h1
        split at h1
        · unfold Pool.stepWorker at h1
          split at h1
          all_goals try (split at h1)
          all_goals try (contradiction)
          all_goals (obtain rfl := Option.some.inj h1)
          all_goals first
            | exact ⟨rfl, rfl, h⟩
            | exact ⟨rfl, rfl, hwake _ h⟩
        · contradiction
      | spurMain =>
        simp only [Pool.step] at h1
        split at h1
        · obtain rfl := Option.some.inj h1; simp [MPc.inCall]
        · contradiction
      | spur i =>
        simp only [Pool.step] at h1
        split at h1
        · obtain rfl := Option.some.inj h1; exact ⟨rfl, rfl, h⟩
        · contradiction
    obtain ⟨e1, e2, e3⟩ := hstep
    have := ih t s' (fun b hb => has b (List.mem_cons_of_mem _ hb)) e3 h2
    rw [e1, e2] at this
    exact this

theorem exec_append (cfg : Cfg) : ∀ (as bs : List Act) (s : Pool),
    s.exec cfg (as ++ bs) = (s.exec cfg as).bind (fun t => t.exec cfg bs)
  | [], bs, s => rfl
  | a :: as, bs, s => by
    simp only [List.cons_append, Pool.exec]
    cases s.step cfg a with
    | none => rfl
    | some t => simpa using exec_append cfg as bs t

theorem Reachable.exec {cfg : Cfg} {s s' : Pool} (h : Reachable cfg s) (as : List Act)
    (he : s.exec cfg as = some s') : Reachable cfg s' := by
  obtain ⟨bs, hb⟩ := h
  exact ⟨bs ++ as, by rw [exec_append, hb]; exact he⟩

/-- **C03c.** Every call returns: start a call in any reachable state, let the threads run in any order (with any
number of spurious wake-ups) until no thread can move; then the call has returned to the user. Together with
`thread_steps_bounded` this is termination under every schedule that keeps scheduling enabled threads. -/
theorem call_returns (cfg : Cfg) (s s1 s2 : Pool) (hr : Reachable cfg s) (c : Call)
    (hcall : s.step cfg (.call c) = some s1) (as : List Act)
    (has : ∀ a ∈ as, a.isThread = true ∨ a.isSpurious = true) (he : s1.exec cfg as = some s2)
    (hmax : Stuck cfg s2) : s2.mpc = .idle ∧ (s1.cid, c) ∈ s2.returned := by
  have hr1 : Reachable cfg s1 := hr.exec [.call c] (by simp [Pool.exec, hcall])
  have hr2 : Reachable cfg s2 := hr1.exec as he
  have h1 : s1.cid ≠ 0 ∧ s1.cur = c ∧ (s1.mpc.inCall = true ∨ s1.mpc.fresh = true ∨ s1.mpc = .idle) := by
    simp only [Pool.step] at hcall
    split at hcall
    · obtain rfl := Option.some.inj hcall
      refine ⟨Nat.succ_ne_zero _, rfl, Or.inr (Or.inl ?_)⟩
      dsimp only
      split <;> rfl
    · contradiction
  obtain ⟨e1, e2, e3⟩ := call_frame cfg as s1 s2 has h1.2.2 he
  have hidle : s2.mpc = .idle := by
    apply Classical.byContradiction
    intro hne
    refine call_never_stuck cfg s2 hr2 hne ?_ hmax
    rcases e3 with e | e | e <;> revert e <;> cases s2.mpc <;> simp [MPc.inCall, MPc.fresh, MPc.joining]
  refine ⟨hidle, ?_⟩
  have := (invB_reachable hr2).last hidle (by rw [e1]; exact h1.1)
  rw [e1, e2, h1.2.1] at this
  exact this

/-- **C05a.** When `reduce()` returns after a parallel run, slot `j` of the result cache, for every `j` below the
count given to the final reducer, holds the value computed by this call's functor on the range with thread id `j`. -/
theorem reduce_cache_complete (cfg : Cfg) (s : Pool) (hr : Reachable cfg s) (h : s.mpc = .idle) (h0 : s.cid ≠ 0)
    (hk : s.cur.kind = .reduce) (hn : s.cur.inlined = false) :
    (List.range (workingCnt cfg.n s.cur.cnt s.cur.useN + 1)).map s.cache
      = (callsOf cfg.n s.cur).map (fun r => some (s.cid, r)) := by
  have hb := invB_reachable hr
  rw [callsOf_eq _ _ hn, List.range_succ_eq_map, List.map_cons, List.map_cons, List.map_map, List.map_map]
  rw [hb.cacheM (by rw [h]; rfl) h0 hk hn]
  congr 1
  apply List.map_congr_left
  intro i hi
  have hi := List.mem_range.1 hi
  have hin : i < cfg.n := Nat.lt_of_lt_of_le hi (workingCnt_le _ _ _)
  have := (no_execution_outside_calls cfg s hr h i hin).2
  exact hb.cacheW (Or.inr h) h0 hk hn i hi (by simp [isPend, this])

/-- **C05b.** Summing partial sums over the slots gives the sum over the whole range: for a functor that adds up
`g k` over its range, the final sum is `∑ g k` over `k < cnt`, whatever the partition was. -/
theorem reduce_sum {M : Type} [AddCommMonoid M] (n : Nat) (c : Call) (g : Nat → M) :
    ((callsOf n c).map (fun r => ((items r).map g).sum)).sum = ((List.range c.cnt).map g).sum := by
  rw [← ((callsOf_items n c).map g).sum_eq]
  generalize callsOf n c = l
  induction l with
  | nil => rfl
  | cons a l ih => simp [List.flatMap_cons, ih]

/-- **C05c.** End to end: after `reduce` returned, the final reducer (sum of the first `workingCnt+1` slots) yields the
sum over the whole range. `val f r` interprets a slot: the value of functor number `f` on range `r`. -/
theorem reduce_result {M : Type} [AddCommMonoid M] (cfg : Cfg) (s : Pool) (hr : Reachable cfg s) (h : s.mpc = .idle)
    (h0 : s.cid ≠ 0) (hk : s.cur.kind = .reduce) (hn : s.cur.inlined = false) (val : Nat → ParRange → M) (g : Nat → M)
    (hg : ∀ r, val s.cid r = ((items r).map g).sum) :
    ((List.range (workingCnt cfg.n s.cur.cnt s.cur.useN + 1)).map (fun j =>
      match s.cache j with
      | some (f, r) => val f r
      | none => 0)).sum = ((List.range s.cur.cnt).map g).sum := by
  have hc := reduce_cache_complete cfg s hr h h0 hk hn
  have h2 := congrArg (List.map (fun o : Option (Nat × ParRange) => match o with
      | some (f, r) => val f r
      | none => (0 : M))) hc
  simp only [List.map_map] at h2
  have h3 : (List.map ((fun o : Option (Nat × ParRange) => match o with
      | some (f, r) => val f r
      | none => (0 : M)) ∘ fun r => some (s.cid, r)) (callsOf cfg.n s.cur))
      = (callsOf cfg.n s.cur).map (fun r => ((items r).map g).sum) := by
    apply List.map_congr_left
    intro r _
    exact hg r
  rw [h3] at h2
  rw [← reduce_sum cfg.n s.cur g, ← h2]
  rfl

/-! ### Concrete schedules (non-vacuity) and the destructor's lost wake-up -/

/-- One worker; constructor. -/
def bootSched : List Act :=
  [.worker 0, .worker 0, .worker 0, .worker 0, .main, .main, .main]
/-- A `reduce` over two items with one worker, in one possible order. -/
def callSched (c : Call) : List Act :=
  [.call c, .main, .main, .main, .main, .main] ++ List.replicate 10 (.worker 0) ++ [.main]

example : (((Pool.init ⟨1, true⟩).exec ⟨1, true⟩ (bootSched ++ callSched ⟨.reduce, 2, 0⟩)).map
    (fun s => (s.mpc, s.returned, s.log, (List.range 2).map s.cache))) =
    some (.idle, [(1, ⟨.reduce, 2, 0⟩)], [(1, ⟨0, 1, 1⟩), (1, ⟨1, 1, 0⟩)],
      [some (1, ⟨1, 1, 0⟩), some (1, ⟨0, 1, 1⟩)]) := by rfl

/-- The main thread really blocks and is woken in some schedules. -/
example : (((Pool.init ⟨1, false⟩).exec ⟨1, false⟩ (bootSched ++ [.call ⟨.run, 2, 0⟩] ++ List.replicate 9 .main)).map
    (fun s => s.mpc)) = some .wblocked := by decide

/-- Schedule that loses the destructor's wake-up: the worker has evaluated its predicate to false, the destructor
stores the flag and notifies, and only then the worker blocks. -/
def lostSched : List Act :=
  bootSched ++ [.worker 0, .worker 0, .destroy, .main, .main, .worker 0]

/-- **C04 (disproved).** The destructor may never return: because `notify_all()` is called without the mutex
(workers.h:95-99, the lock is commented out), a worker may block after the notification; then no thread can ever move
and the destructor waits forever in `join()` (only a spurious wake-up could help). -/
theorem destroy_may_hang : ∃ cfg s, Reachable cfg s ∧ s.mpc = .join 0 ∧ s.wpc 0 = .blocked ∧ Stuck cfg s := by
  refine ⟨⟨1, true⟩, ((Pool.init ⟨1, true⟩).exec ⟨1, true⟩ lostSched).get (by decide), ⟨lostSched, ?_⟩, ?_, ?_, ?_⟩
  · simp
  · decide
  · decide
  · intro a ha
    cases a with
    | main => decide
    | worker i =>
      cases i with
      | zero => decide
      | succ i =>
        simp only [Pool.step]
        rw [if_neg (by simp)]
    | _ => cases ha

/-- **C04 (partial).** Unless a wake-up was lost that way (`lost`: some worker was between its predicate and blocking
at the moment of `notify_all()`), the destructor terminates: in every reachable state of it some thread can move until
it has returned, and then every worker has finished. Missing w.r.t. C04: the schedules with `lost = true`. -/
theorem destroy_terminates_partial (cfg : Cfg) (s : Pool) (hr : Reachable cfg s) (hd : s.stop = true)
    (hl : s.lost = false) (hst : Stuck cfg s) : s.mpc = .gone ∧ ∀ i, i < cfg.n → s.wpc i = .done := by
  have ha := invA_reachable hr
  have hg : s.mpc = .gone := by
    apply Classical.byContradiction
    intro hne
    have hi : s.mpc ≠ .idle := by
      intro e; have := ha.stp; rw [e, hd] at this; cases this
    rcases progress ha hi hne hl with h | ⟨i, _, h⟩
    · rw [hst .main rfl] at h; cases h
    · rw [hst (.worker i) rfl] at h; cases h
  exact ⟨hg, ha.gon hg⟩

/-- The destructor does terminate in some schedules. -/
example : (((Pool.init ⟨1, true⟩).exec ⟨1, true⟩
    (bootSched ++ [.worker 0, .worker 0, .worker 0, .destroy, .main, .main] ++ List.replicate 4 (.worker 0) ++
      [.main, .main])).map (fun s => (s.mpc, s.lost))) = some (.gone, false) := by decide

/-- The destructor returns only when all workers have finished (any schedule). -/
theorem destroyed_pool_has_no_running_worker (cfg : Cfg) (s : Pool) (hr : Reachable cfg s) (h : s.mpc = .gone) :
    ∀ i, i < cfg.n → s.wpc i = .done := (invA_reachable hr).gon h

end Nntl.Threads
