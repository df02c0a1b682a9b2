import Verif.BgWork.Progress
/-! Properties C88-C91: background workers. -/
namespace Nntl.BgWork
variable {cfg : Cfg} {s s' : S}

/-! ### C88: a function given to `exec` -/

/-- In every execution no worker calls the function of a call of `exec` twice; a call ends at most once, after it has begun; and no function
is called before its `exec`. -/
theorem exec_at_most_once (h : Reach cfg s) (c i : Nat) (hi : i < cfg.n) :
    s.log.count (.execE c i) ≤ s.log.count (.execB c i) ∧ s.log.count (.execB c i) ≤ 1 ∧ (s.cid < c → s.log.count (.execB c i) = 0) := by
  have I := inv_reach h
  by_cases hc : c = s.cid
  · subst hc
    have W := I.wok i hi
    unfold WOk at W
    simp only [cB, cE] at W
    refine ⟨?_, ?_, fun h => absurd h (lt_irrefl _)⟩ <;> split at W <;> (try split_ifs at W) <;> omega
  · have O := I.old c i hi hc
    simp only [cB, cE] at O
    rw [O.1, O.2]
    refine ⟨le_refl _, by split <;> omega, fun h => by rw [if_neg]; omega⟩

/-- When `exec` returns, every worker has called the function exactly once and every call has ended; and no worker calls it later. -/
theorem exec_all_done (h : Reach cfg s) (l1 l2 : List Ev) (c : Nat) (hl : s.log = l1 ++ .ret c :: l2) (i : Nat) (hi : i < cfg.n) :
    l2.count (.execB c i) = 1 ∧ l2.count (.execE c i) = 1 ∧ l1.count (.execB c i) = 0 ∧ l1.count (.execE c i) = 0 := by
  have R := (inv_reach h).ret l1 l2 c hl i hi
  have A := exec_at_most_once h c i hi
  rw [hl] at A
  simp [List.count_append] at A
  omega

/-- Every call of `exec` that has been made returns before the next call of the interface, so the log has one return per finished call. -/
theorem exec_returns (h : Reach cfg s) (c : Nat) (hm : s.mpc = .idle) (h1 : 1 ≤ c) (h2 : c ≤ s.cid) (i : Nat) (hi : i < cfg.n) :
    s.log.count (.execB c i) = 1 ∧ s.log.count (.execE c i) = 1 := by
  have I := inv_reach h
  by_cases hc : c = s.cid
  · subst hc
    have W := I.wok i hi
    rw [hm] at W
    have : s.cid ≠ 0 := by omega
    simp [WOk, phase, cB, cE, this] at W
    exact ⟨W.2.2.2.2.1, W.2.2.2.2.2⟩
  · have O := I.old c i hi hc
    rw [if_pos (by omega)] at O
    exact O

/-- A worker about to call the function finds it, and it is the one of the present call of `exec`; a worker in the function is in the one of
the present call, which has not returned. -/
theorem exec_function (h : Reach cfg s) (i : Nat) (hi : i < cfg.n) :
    (s.wpc i = .exec → s.fn = some s.cid) ∧ (∀ f, s.wpc i = .run f → f = s.cid ∧ s.fn = some s.cid ∧ Ev.ret f ∉ s.log) := by
  have I := inv_reach h
  refine ⟨fun hw => I.fnok (exec_cid I hi hw), fun f hw => ?_⟩
  have hf := run_cid I hi hw
  have W := I.wok i hi
  rw [hw] at W
  have hp : fnPhase s.mpc = true := by
    unfold WOk at W
    generalize hm : s.mpc = m at W ⊢
    cases m <;> simp_all [phase, WPc.exc] <;> first | rfl | (rename_i e; cases e <;> simp_all [phase, WPc.exc])
  have hx : inExec s.mpc = true := by
    generalize s.mpc = m at hp ⊢; cases m <;> simp_all <;> simp_all [fnPhase, inExec]
  refine ⟨hf, I.fnok hp, fun hr => ?_⟩
  have := (I.retc f hr).2.2 hf
  rw [hx] at this; simp at this

/-! ### C89: tasks -/

/-- A task that is being executed is in the list of tasks at that time. -/
theorem running_listed (h : Reach cfg s) (i : Nat) (hi : i < cfg.n) (x : Nat × Int) (hr : running i s.log = some x) : x ∈ s.tasks := by
  have T := (tinv_reach h).run i hi
  rw [hr] at T
  generalize s.wpc i = w at T
  cases w <;> simp at T
  exact List.mem_of_getElem? T.symm

/-- Once `delete_tasks` has cleared the list no task is being executed. -/
theorem deleted_not_running (h : Reach cfg s) (ht : s.tasks = []) (i : Nat) (hi : i < cfg.n) : running i s.log = none := by
  cases hr : running i s.log with
  | none => rfl
  | some x => have := running_listed h i hi x hr; simp [ht] at this

/-- `delete_tasks` returns with an empty list. -/
theorem delete_clears (h : Reach cfg s) (h1 : s.mpc = .dDo .del) (h2 : MStep cfg s s') : s'.tasks = [] := by
  cases h2 <;> simp_all [Op.Result]

/-- A task that is not in the list is not called until it is added. -/
theorem not_listed_not_called {l} (hr : Reach cfg s) (h : Run cfg s l s') (t : Nat) (ht : ∀ p, (t, p) ∉ s.tasks)
    (hm : ∀ p, s.mpc ≠ .dFlag (.add t p) ∧ s.mpc ≠ .dLock (.add t p) ∧ s.mpc ≠ .dDo (.add t p))
    (hl : ∀ p, Actor.user (.op (.add t p)) ∉ l) (p : Int) (i : Nat) : s'.log.count (.taskB t p i) = s.log.count (.taskB t p i) := by
  have key : (∀ p, (t, p) ∉ s'.tasks) ∧ (∀ p, s'.mpc ≠ .dFlag (.add t p) ∧ s'.mpc ≠ .dLock (.add t p) ∧ s'.mpc ≠ .dDo (.add t p))
      ∧ s'.log.count (.taskB t p i) = s.log.count (.taskB t p i) := by
    induction h with
    | nil => exact ⟨ht, hm, rfl⟩
    | step hrun hs ih =>
      rename_i l s1 a s2
      obtain ⟨i1, i2, i3⟩ := ih (fun p hp => hl p (List.mem_cons_of_mem _ hp))
      have hl' : ∀ p, a ≠ Actor.user (.op (.add t p)) := fun p e => hl p (by simp [e])
      rw [← i3]
      cases hs with
      | user hu => cases hu <;> simp_all
      | main hm' =>
        cases hm' with
        | dDo o new h1 h2 =>
          refine ⟨?_, by simp, rfl⟩
          cases o with
          | add t' p' =>
            intro p hp
            have := h2.1.mem_iff.1 hp
            simp at this
            rcases this with h | ⟨rfl, rfl⟩
            · exact i1 p h
            · exact (i2 p).2.2 h1
          | del => have : new = [] := h2; simp [this]
          | other => have : new = s1.tasks := h2; simpa [this] using i1
        | _ => simp_all
      | worker j hj hw =>
        refine ⟨by rw [(w_frame hw).2.2.2.2.1]; exact i1, ?_, ?_⟩
        · intro p
          refine ⟨fun e => (i2 p).1 (w_join hw e (by simp)), fun e => (i2 p).2.1 (w_join hw e (by simp)), fun e => (i2 p).2.2 (w_join hw e (by simp))⟩
        · cases hw with
          | loop k t' p' h1 h2 h3 =>
            have := List.mem_of_getElem? h3
            rw [List.count_cons_of_ne]
            intro e
            simp at e
            obtain ⟨rfl, rfl, rfl⟩ := e
            exact i1 _ this
          | _ => simp [List.count_cons]
  exact key.2.2

/-- The calls a worker makes in one pass follow the list of tasks: each task is called again until it returns false, then the next one. A pass
that was not interrupted has gone over all tasks. -/
theorem pass_follows (h : Reach cfg s) (i : Nat) (hi : i < cfg.n) :
    ((s.wpc i).inPass = true → ∃ l, rest s.tasks (passCalls i s.log) = some l)
    ∧ (s.wpc i = .unlT → s.go = false → rest s.tasks (passCalls i s.log) = some [])
    ∧ (∀ x, running i s.log = some x → ∃ l, rest s.tasks (passCalls i s.log) = some (x :: l)) := by
  have T := tinv_reach h
  refine ⟨T.any i hi, T.fin i hi, fun x hx => ?_⟩
  have R := T.run i hi
  rw [hx] at R
  cases hw : s.wpc i <;> simp [hw] at R
  rename_i k
  rw [T.task i hi k hw]
  obtain ⟨hl, e⟩ := List.getElem?_eq_some_iff.1 R.symm
  exact ⟨_, by rw [List.drop_eq_getElem_cons hl, e]⟩

/-- Tasks are called in the order of descending priority in each pass. -/
theorem pass_priorities (h : Reach cfg s) : (∀ i, i < cfg.n → ∀ l1 l2 t p q, s.log = l1 ++ .taskB t p i :: l2 → lastPrio i l2 = some q → p ≤ q)
    ∧ s.tasks.Pairwise fun a b => a.2 ≥ b.2 := by
  refine ⟨?_, (inv_reach h).srt⟩
  intro i hi
  induction h with
  | start => intro l1 l2 t p q e; simp [start] at e
  | step hr hs ih =>
    rename_i s a s'
    intro l1 l2 t p q e hq
    have I := inv_reach hr
    cases hs with
    | user hu => cases hu <;> exact ih l1 l2 t p q e hq
    | main hm =>
      cases hm with
      | eReset h1 =>
        cases l1 with
        | nil => simp at e
        | cons y l => simp at e; exact ih l l2 t p q e.2 hq
      | _ => exact ih l1 l2 t p q e hq
    | worker j hj hw =>
      cases l1 with
      | cons y l =>
        rcases w_log hw with h' | ⟨e', he, h'⟩
        · exact ih _ l2 t p q (by rw [← h']; exact e) hq
        · rw [h'] at e; simp at e; exact ih l l2 t p q e.2 hq
      | nil =>
        cases hw with
        | loop k t' p' h1 h2 h3 =>
          simp at e
          obtain ⟨⟨rfl, rfl, rfl⟩, rfl⟩ := e
          exact I.prio j k hj (by simp [h1, WPc.next]) q hq k (le_refl _) _ h3
        | exec f h1 h2 => simp at e
        | run f h1 => simp at e
        | lockT h1 h2 => simp at e
        | taskTrue k t' p' h1 h2 => simp at e
        | taskFalse k t' p' h1 h2 => simp at e
        | _ => exact ih [] l2 t p q e hq

/-- While the list of tasks is being changed no worker is in a pass over it; and while the flag is up no task is begun. -/
theorem no_pass_while_changing (h : Reach cfg s) (hm : s.mpc.holds = true) (i : Nat) (hi : i < cfg.n) :
    (s.wpc i).inPass = false ∧ running i s.log = none := by
  have F := (inv_reach h).excl hm i hi
  have n : (s.wpc i).inPass = false := by
    generalize s.wpc i = w at F ⊢; cases w <;> simp_all [WPc.inPass, WPc.holds]
  refine ⟨n, ?_⟩
  rw [(tinv_reach h).run i hi]
  generalize s.wpc i = w at n ⊢; cases w <;> simp_all [WPc.inPass]

theorem no_task_begun_under_flag {a} (h : Step cfg s a s') (hg : s.go = true) (t : Nat) (p : Int) (i : Nat) :
    s'.log.count (.taskB t p i) = s.log.count (.taskB t p i) := by
  cases h with
  | user hu => cases hu <;> rfl
  | main hm => cases hm <;> simp [List.count_cons]
  | worker j hj hw => cases hw <;> simp_all [List.count_cons]

/-- The main thread is changing the tasks or giving out a function, or the object is being destroyed. -/
def MPc.raised : MPc → Bool
  | .dLock _ | .dDo _ | .dGo | .eLock | .eFn | .eSet _ | .eCnt | .eGo | .xNtf | .join _ | .gone => true
  | _ => false

/-- Tasks are interrupted exactly while a call of the interface asks for it: the flag is up from the request until the tasks are changed (the function given out),
and from the destructor on. -/
theorem flag_exact (h : Reach cfg s) : s.go = s.mpc.raised := by
  induction h with
  | start => rfl
  | step h hs ih =>
    cases hs with
    | user hu => cases hu <;> simp_all [MPc.raised]
    | main hm => cases hm <;> simp_all [MPc.raised]
    | worker i hi hw =>
      cases hw <;> first | exact ih | (rw [show ∀ m, (wakeMain m).raised = m.raised from fun m => by cases m <;> rfl]; exact ih)

/-- Between the calls of the interface and while `exec` waits nothing keeps the tasks from running. -/
theorem flag_down_when_idle (h : Reach cfg s) (hm : s.mpc = .idle ∨ s.mpc = .wblocked true) : s.go = false := by
  rw [flag_exact h]
  rcases hm with hm | hm <;> rw [hm] <;> rfl

/-! ### C90: progress -/

/-- No deadlock: while the main thread is in a function of the interface some thread can act. -/
theorem no_deadlock (h : Reach cfg s) (h1 : s.mpc ≠ .idle) (h2 : s.mpc ≠ .gone) : ∃ a s', (∀ c, a ≠ .user c) ∧ Step cfg s a s' :=
  can_step (inv_reach h) h1 h2

/-- No lost wake-up: while the main thread sleeps some worker can act without any help by spurious wake-ups. -/
theorem no_lost_wakeup (h : Reach cfg s) {e} (hm : s.mpc = .wblocked e) : ∃ i, i < cfg.n ∧ ∃ s', WStep cfg s i s' :=
  blocked_worker (inv_reach h) hm

/-- From the moment when the destructor has set its flags every execution is finite: it makes at most `12 n + 2` steps. Where it cannot go on,
the threads are joined and the object is gone. The notification is not needed. -/
theorem destructor_terminates (h : Reach cfg s) (hm : s.mpc = .xNtf) {l} (hr : Run cfg s l s') :
    l.length ≤ 12 * cfg.n + 2 ∧ ((¬ ∃ a s'', Step cfg s' a s'') → s'.mpc = .gone ∧ ∀ i, i < cfg.n → s'.wpc i = .done) := by
  obtain ⟨i1, i2⟩ := mu_run hr h (.inl hm)
  have I := inv_reach (hr.reach h)
  refine ⟨?_, fun hn => ?_⟩
  · have : mu cfg s ≤ 12 * cfg.n + 2 := by
      unfold mu
      rw [hm]
      have : ∑ i ∈ Finset.range cfg.n, stopRank (s.wpc i) ≤ ∑ i ∈ Finset.range cfg.n, 11 := Finset.sum_le_sum fun i _ => stopRank_le _
      rw [Finset.sum_const, Finset.card_range, Nat.nsmul_eq_mul] at this
      simp only [joinRank]
      omega
    omega
  · have hg : s'.mpc = .gone := by
      by_contra hg
      refine hn ?_
      obtain ⟨a, s'', -, h⟩ := can_step I (by rcases i1 with h | ⟨k, h⟩ | h <;> simp [h]) hg
      exact ⟨a, s'', h⟩
    exact ⟨hg, I.gnd hg⟩

/-- While `exec` waits, the steps a worker makes before it has reported the end of the function are bounded by the number of tasks and of the
calls of tasks that returned true meanwhile. -/
theorem exec_wait_bounded_partial (h : Reach cfg s) (hm : s.mpc = .wlock true) {l} (hr : Run cfg s l s') (hl : .user .exec ∉ l) (i : Nat)
    (hi : i < cfg.n) (hp : s'.has i = true) : stepsOf i l + 2 * trues i s.log ≤ 13 + 3 * s.tasks.length + 2 * trues i s'.log := by
  have := (owes_run hr h hi (by rw [hm]; rfl) hl).2
  rcases this with h' | ⟨-, -, h'⟩
  · exact absurd (.inl hp) h'
  · have : execRank s.tasks.length (s.wpc i) ≤ 13 + 3 * s.tasks.length := by
      generalize s.wpc i = w; cases w <;> simp [execRank] <;> omega
    omega

/-- An operation on the list of tasks waits for at most the present call of a task by each worker: with the flag up, a worker that owns the
lock gives it back within four of its own steps and begins no task. -/
def holdRank : WPc → Nat
  | .task _ => 4 | .loop _ => 3 | .pick _ => 2 | .unlT => 1
  | .bootDec => 3 | .bootNtf => 2 | .bootUnl => 1 | .unl => 1
  | .clr => 4 | .dec => 3 | .ntf => 2 | .unl2 => 1
  | _ => 0

theorem flag_releases_lock {i : Nat} (h : WStep cfg s i s') (hg : s.go = true) (hh : (s.wpc i).holds = true) :
    holdRank (s.wpc i) ≤ 4 ∧ holdRank (s'.wpc i) < holdRank (s.wpc i) ∧ ((s'.wpc i).holds = false ↔ holdRank (s'.wpc i) = 0) := by
  cases h <;> simp_all [WPc.holds, holdRank]

/-! ### C91: accesses outside of the lock -/

/-- The list of tasks and the function are never accessed by a worker while the main thread changes them; a flag never is by a worker that
clears it. -/
theorem no_race_partial (h : Reach cfg s) : ¬ Race cfg s .tasks ∧ ¬ Race cfg s .fn
    ∧ ∀ i, i < cfg.n → s.mpc.writes (.flag i) → (s.wpc i).writes i (.flag i) → False := by
  have I := inv_reach h
  refine ⟨?_, ?_, ?_⟩
  · rintro ⟨hm, -, i, hi, hw, s', hs⟩
    have hh : s.mpc.holds = true := by
      generalize s.mpc = m at hm; cases m <;> simp_all [MPc.writes, MPc.holds]
    have F := I.excl hh i hi
    cases hs <;> simp_all [WPc.reads, WPc.writes, WPc.holds]
  · rintro ⟨hm, -, i, hi, hw, s', hs⟩
    have W := I.wok i hi
    have : (s.wpc i).exc = false := by
      unfold WOk at W
      generalize s.mpc = m at hm W
      cases m <;> simp_all [MPc.writes, phase]
    generalize s.wpc i = w at hw this
    cases w <;> simp_all [WPc.reads, WPc.writes, WPc.exc]
  · intro i hi hm hw
    have hh : s.mpc.holds = true := by
      generalize s.mpc = m at hm; cases m <;> simp_all [MPc.writes, MPc.holds]
    have F := I.excl hh i hi
    generalize s.wpc i = w at hw F
    cases w <;> simp_all [WPc.writes, WPc.holds]

/-! ### Witnesses -/

def one (std : Bool) : Cfg := ⟨1, std⟩

theorem free_one {std s} (h : (s.wpc 0).holds = false) : Free (one std) s := by
  intro j hj; simp only [one] at hj; obtain rfl : j = 0 := by omega
  exact h

/-- One worker, one task has been added, and the worker has read the flag of the task wait. -/
theorem reach_idle (std : Bool) : ∃ s, Reach (one std) s ∧ s.mpc = .idle ∧ s.wpc 0 = .wait ∧ s.has 0 = false ∧ s.stop = false ∧ s.go = false
    ∧ s.tasks = [(7, 3)] ∧ s.cid = 0 ∧ s.log = [] := by
  have hi : 0 < (one std).n := by simp [one]
  have r0 := Reach.start (cfg := one std)
  have r1 := r0.step (.worker 0 hi (.boot rfl rfl))
  have r2 := r1.step (.worker 0 hi (.bootDec rfl))
  have r3 := r2.step (.worker 0 hi (.bootNtf rfl))
  have r4 := r3.step (.worker 0 hi (.bootUnl rfl))
  have r5 := r4.step (.main (.wlock false rfl (free_one rfl)))
  have r6 := r5.step (.main (.wtestYes false rfl (by simp [start, one])))
  have r7 := r6.step (.main (.wunlCtor rfl))
  have r8 := r7.step (.user (.op (.add 7 3) rfl))
  have r9 := r8.step (.main (.dFlag _ rfl))
  have r10 := r9.step (.main (.dLock _ rfl (free_one rfl)))
  have r11 := r10.step (.main (.dDo _ [(7, 3)] rfl ⟨List.Perm.refl _, by simp⟩))
  have r12 := r11.step (.main (.dGo rfl))
  have r13 := r12.step (.main (.dUnl rfl))
  exact ⟨_, r13, rfl, rfl, rfl, rfl, rfl, rfl, rfl, rfl⟩

/-- The worker reads its flag outside of the lock while `exec` writes it: a data race. -/
theorem flag_race (std : Bool) : ∃ s, Reach (one std) s ∧ Race (one std) s (.flag 0) := by
  have hi : 0 < (one std).n := by simp [one]
  obtain ⟨s, r, h1, h2, h3, h4, h5, h6, h7, h8⟩ := reach_idle std
  have r1 := r.step (.worker 0 hi (.wait true h2 (by rw [h1]; rfl) (.inr (.inr (.inl ⟨rfl, h5, by simp [h6]⟩)))))
  have r2 := r1.step (.worker 0 hi (.unl (by simp)))
  have r3 := r2.step (.worker 0 hi (.stopNo (by simp) h4))
  have r4 := r3.step (.user (.exec h1))
  have r5 := r4.step (.main (.eFlag rfl))
  have r6 := r5.step (.main (.eLock rfl (free_one (by simp [WPc.holds]))))
  have r7 := r6.step (.main (.eFn rfl))
  refine ⟨_, r7, rfl, ⟨_, .eSet 0 rfl hi⟩, 0, hi, .inl ?_, ⟨_, .execNo (by simp) h3⟩⟩
  simp [WPc.reads]

theorem reach_stale (std : Bool) : ∃ s, Reach (one std) s ∧ s.mpc = .wlock true ∧ s.wpc 0 = .lockT ∧ s.has 0 = true ∧ s.go = false ∧ s.cnt = 1
    ∧ s.tasks = [(7, 3)] ∧ s.log = [] := by
  have hi : 0 < (one std).n := by simp [one]
  obtain ⟨s, r, h1, h2, h3, h4, h5, h6, h7, h8⟩ := reach_idle std
  have r1 := r.step (.worker 0 hi (.wait true h2 (by rw [h1]; rfl) (.inr (.inr (.inl ⟨rfl, h5, by simp [h6]⟩)))))
  have r2 := r1.step (.worker 0 hi (.unl (by simp)))
  have r3 := r2.step (.worker 0 hi (.stopNo (by simp) h4))
  have r3' := r3.step (.worker 0 hi (.execNo (by simp) h3))
  have r4 := r3'.step (.user (.exec h1))
  have r5 := r4.step (.main (.eFlag rfl))
  have r6 := r5.step (.main (.eLock rfl (free_one (by simp [WPc.holds]))))
  have r7 := r6.step (.main (.eFn rfl))
  have r8 := r7.step (.main (.eSet 0 rfl hi))
  have r9 := r8.step (.main (.eSetEnd 1 rfl (le_refl _)))
  have r10 := r9.step (.main (.eCnt rfl))
  have r11 := r10.step (.main (.eGo rfl))
  have r12 := r11.step (.main (.eUnl rfl))
  exact ⟨_, r12, rfl, by simp, by simp, rfl, rfl, h6, h8⟩

/-- `exec` may be delayed by a task without any bound: a worker that has looked at its flag just before `exec` raised it goes over the tasks
although `exec` waits, and stays with a task as long as it returns true. -/
theorem exec_delayed_by_task (std : Bool) (m : Nat) : ∃ s l s', Reach (one std) s ∧ s.mpc = .wlock true ∧ Run (one std) s l s' ∧ s'.mpc = .wblocked true
    ∧ s'.has 0 = true ∧ trues 0 s'.log = trues 0 s.log + m ∧ ∀ f, Ev.execB f 0 ∉ s'.log := by
  have hi : 0 < (one std).n := by simp [one]
  obtain ⟨s, r, h1, h2, h3, h4, h5, h6, h7⟩ := reach_stale std
  refine ⟨s, ?_⟩
  suffices H : ∃ l s', Run (one std) s l s' ∧ s'.mpc = .wblocked true ∧ s'.wpc 0 = .loop 0 ∧ s'.go = false ∧ s'.tasks = [(7, 3)]
      ∧ s'.has 0 = true ∧ trues 0 s'.log = trues 0 s.log + m ∧ ∀ f, Ev.execB f 0 ∉ s'.log by
    obtain ⟨l, s', q1, q2, q3, q4, q5, q6, q7, q8⟩ := H
    exact ⟨l, s', r, h1, q1, q2, q6, q7, q8⟩
  induction m with
  | zero =>
    have q0 := Run.nil (cfg := one std) (s := s)
    have q1 := q0.step (.main (.wlock true h1 (free_one (by simp [h2, WPc.holds]))))
    have q2 := q1.step (.main (.wtestNo true rfl (by simp [h5])))
    have q3 := q2.step (.main (.wsleep true rfl))
    have q4 := q3.step (.worker 0 hi (.lockT h2 rfl))
    have q5 := q4.step (.worker 0 hi (.pick 0 (by simp) h4 (by simp [h6])))
    exact ⟨_, _, q5, rfl, by simp, h4, h6, h3, by simp [trues, h7], by simp [h7]⟩
  | succ m ih =>
    obtain ⟨l, s', q1, q2, q3, q4, q5, q6, q7, q8⟩ := ih
    have p1 := q1.step (.worker 0 hi (.loop 0 7 3 q3 q4 (by simp [q5])))
    have p2 := p1.step (.worker 0 hi (.taskTrue 0 7 3 (by simp) (by simp [q5])))
    refine ⟨_, _, p2, q2, by simp, q4, q5, q6, ?_, by simpa using q8⟩
    simp only [trues] at q7 ⊢
    simp [List.countP_cons, q7]; omega

/-- Non-vacuity: an `exec` returns, tasks are called, the object is destroyed. -/
theorem demo_exec (std : Bool) : ∃ s, Reach (one std) s ∧ s.mpc = .xNtf ∧ s.log = [.ret 1, .execE 1 0, .execB 1 0, .taskE 7 0 false, .taskB 7 3 0, .pass 0] := by
  have hi : 0 < (one std).n := by simp [one]
  obtain ⟨s, r, h1, h2, h3, h4, h5, h6, h7, h8⟩ := reach_idle std
  have r1 := r.step (.worker 0 hi (.wait true h2 (by rw [h1]; rfl) (.inr (.inr (.inl ⟨rfl, h5, by simp [h6]⟩)))))
  have r2 := r1.step (.worker 0 hi (.unl (by simp)))
  have r3 := r2.step (.worker 0 hi (.stopNo (by simp) h4))
  have r4 := r3.step (.worker 0 hi (.execNo (by simp) h3))
  have a1 := r4.step (.worker 0 hi (.lockT (by simp) (by rw [h1]; rfl)))
  have a2 := a1.step (.worker 0 hi (.pick 0 (by simp) h5 (by simp [h6])))
  have a3 := a2.step (.worker 0 hi (.loop 0 7 3 (by simp) h5 (by simp [h6])))
  have a4 := a3.step (.worker 0 hi (.taskFalse 0 7 3 (by simp) (by simp [h6])))
  have a5 := a4.step (.worker 0 hi (.pickEnd 1 (by simp) (by simp [h6])))
  have a6 := a5.step (.worker 0 hi (.unlT (by simp)))
  have b0 := a6.step (.user (.exec h1))
  have b1 := b0.step (.main (.eFlag rfl))
  have b2 := b1.step (.main (.eLock rfl (free_one (by simp [WPc.holds]))))
  have b3 := b2.step (.main (.eFn rfl))
  have b4 := b3.step (.main (.eSet 0 rfl hi))
  have b5 := b4.step (.main (.eSetEnd 1 rfl (le_refl _)))
  have b6 := b5.step (.main (.eCnt rfl))
  have b7 := b6.step (.main (.eGo rfl))
  have b8 := b7.step (.main (.eUnl rfl))
  have c1 := b8.step (.worker 0 hi (.wait false (by simp) rfl (by simp)))
  have c2 := c1.step (.worker 0 hi (.unl (by simp)))
  have c3 := c2.step (.worker 0 hi (.stopNo (by simp) h4))
  have c4 := c3.step (.worker 0 hi (.execYes (by simp) (by simp)))
  have c5 := c4.step (.worker 0 hi (.exec 1 (by simp) (by simp [h7])))
  have c6 := c5.step (.worker 0 hi (.run 1 (by simp)))
  have c7 := c6.step (.worker 0 hi (.execL (by simp) rfl))
  have c8 := c7.step (.worker 0 hi (.clr (by simp)))
  have c9 := c8.step (.worker 0 hi (.dec (by simp)))
  have c10 := c9.step (.worker 0 hi (.ntf (by simp)))
  have c11 := c10.step (.worker 0 hi (.unl2 (by simp)))
  have d1 := c11.step (.main (.wlock true rfl (free_one (by simp [WPc.holds]))))
  have d2 := d1.step (.main (.wtestYes true rfl (by simp [one])))
  have d3 := d2.step (.main (.wunlExec rfl))
  have d4 := d3.step (.main (.eReset rfl))
  have d5 := d4.step (.user (.destroy rfl))
  have d6 := d5.step (.main (.xStop rfl))
  have d7 := d6.step (.main (.xGo rfl))
  exact ⟨_, d7, rfl, by simp [h8, h7]⟩

end Nntl.BgWork
