import Verif.Sync.Spec
/-! C112: the spin lock. C113: timed waits. C114: priorities. -/
namespace Nntl.Sync
variable {L D : Type}

theorem upd_same {α : Type} (f : Nat → α) (k : Nat) (v : α) : upd f k v k = v := if_pos rfl
theorem upd_other {α : Type} (f : Nat → α) (k : Nat) (v : α) (j : Nat) (h : j ≠ k) : upd f k v j = f j := if_neg h
theorem upd_id {α : Type} (f : Nat → α) (k : Nat) : upd f k (f k) = f := by
  funext j; unfold upd; split
  · rename_i h; rw [h]
  · rfl
theorem upd_upd {α : Type} (f : Nat → α) (k : Nat) (v w : α) : upd (upd f k v) k w = upd f k w := by
  funext j; unfold upd; split <;> rfl

/-! ### The spin lock -/

/-- What holds at every moment: `order` has left, `m0` is the beginning. -/
structure Inv (body : Nat → List (L × D → L × D)) (m0 : (Nat → L) × D) (order : List Nat) (s : SL L D) : Prop where
  free : s.flag = false → (∀ t k, s.pc t ≠ .inside k) ∧ (s.loc, s.data) = oneByOne body order m0
  held : s.flag = true → ∃ t k, s.pc t = .inside k ∧ k ≤ (body t).length ∧ (∀ t' k', s.pc t' = .inside k' → t' = t) ∧
    (s.loc, s.data) = atomically ((body t).take k) t (oneByOne body order m0)

theorem inv_step (body : Nat → List (L × D → L × D)) (m0 : (Nat → L) × D) (order : List Nat) (s : SL L D) (h : Inv body m0 order s) (t : Nat) :
    Inv body m0 (order ++ if leaves body s t then [t] else []) (s.step body t) := by
  rcases hp : s.pc t with _ | _ | k
  · -- calls lock
    have hl : leaves body s t = false := by unfold leaves; rw [hp]
    have hs : s.step body t = { s with pc := upd s.pc t .trying } := by unfold SL.step; rw [hp]
    rw [hl, hs]
    simp only [Bool.false_eq_true, if_false, List.append_nil]
    refine ⟨?_, ?_⟩
    · intro hf
      obtain ⟨a, b⟩ := h.free hf
      refine ⟨?_, b⟩
      intro t' k'
      by_cases e : t' = t
      · subst e; simp only [upd_same]; intro h; cases h
      · simp only [upd_other _ _ _ _ e]; exact a t' k'
    · intro hf
      obtain ⟨t1, k1, a, b, c, d⟩ := h.held hf
      have ne : t1 ≠ t := by intro e; subst e; rw [hp] at a; cases a
      refine ⟨t1, k1, by simp only [upd_other _ _ _ _ ne]; exact a, b, ?_, d⟩
      intro t' k'
      by_cases e : t' = t
      · subst e; simp only [upd_same]; intro h; cases h
      · simp only [upd_other _ _ _ _ e]; exact c t' k'
  · -- test_and_set
    have hl : leaves body s t = false := by unfold leaves; rw [hp]
    rw [hl]
    simp only [Bool.false_eq_true, if_false, List.append_nil]
    cases hf : s.flag with
    | true =>
      have hs : s.step body t = s := by
        unfold SL.step; rw [hp]; simp only [hf, if_true]
        cases s; simp only at hf; subst hf; rfl
      rw [hs]; exact h
    | false =>
      have hs : s.step body t = { s with flag := true, pc := upd s.pc t (.inside 0) } := by
        unfold SL.step; rw [hp]; simp only [hf, Bool.false_eq_true, if_false]
      rw [hs]
      obtain ⟨a, b⟩ := h.free hf
      refine ⟨fun x => (by cases x), fun _ => ⟨t, 0, upd_same _ _ _, Nat.zero_le _, ?_, ?_⟩⟩
      · intro t' k'
        by_cases e : t' = t
        · exact fun _ => e
        · simp only [upd_other _ _ _ _ e]; intro x; exact absurd x (a t' k')
      · simp only [List.take_zero, atomically, List.foldl_nil]
        rw [b, upd_id]
  · -- inside
    cases hf : s.flag with
    | false => exact absurd hp ((h.free hf).1 t k)
    | true =>
      obtain ⟨t1, k1, a, b, c, d⟩ := h.held hf
      have e := c t k hp
      subst e
      rw [hp] at a
      have ek : k = k1 := by cases a; rfl
      subst ek
      rcases hb : (body t)[k]? with _ | f
      · -- unlock
        have hk : (body t).length ≤ k := List.getElem?_eq_none_iff.1 hb
        have hl : leaves body s t = true := by unfold leaves; rw [hp]; exact decide_eq_true hk
        have hs : s.step body t = { s with flag := false, pc := upd s.pc t .out } := by unfold SL.step; rw [hp]; simp only [hb]
        rw [hl, hs]
        refine ⟨fun _ => ⟨?_, ?_⟩, fun x => (by cases x)⟩
        · intro t' k'
          by_cases e : t' = t
          · subst e; simp only [upd_same]; intro h; cases h
          · simp only [upd_other _ _ _ _ e]; intro x; exact e (c t' k' x)
        · simp only [if_true, oneByOne, List.foldl_append, List.foldl_cons, List.foldl_nil]
          rw [List.take_of_length_le hk] at d
          exact d
      · have hk : k < (body t).length := (List.getElem?_eq_some_iff.1 hb).1
        have hl : leaves body s t = false := by unfold leaves; rw [hp]; exact decide_eq_false (Nat.not_le.2 hk)
        have hs : s.step body t = { s with data := (f (s.loc t, s.data)).2, loc := upd s.loc t (f (s.loc t, s.data)).1, pc := upd s.pc t (.inside (k + 1)) } := by
          unfold SL.step; rw [hp]; simp only [hb]
        rw [hl, hs]
        simp only [Bool.false_eq_true, if_false, List.append_nil]
        refine ⟨fun x => (by rw [hf] at x; cases x), fun _ => ⟨t, k + 1, upd_same _ _ _, hk, ?_, ?_⟩⟩
        · intro t' k'
          by_cases e : t' = t
          · exact fun _ => e
          · simp only [upd_other _ _ _ _ e]; exact c t' k'
        · have d1 : s.loc = _ := congrArg Prod.fst d
          have d2 : s.data = _ := congrArg Prod.snd d
          simp only [atomically] at d1 d2
          rw [d1, d2]
          simp only [atomically, upd_same, upd_upd]
          have ht : (body t).take (k + 1) = (body t).take k ++ [f] := by
            rw [List.take_add_one, hb]; rfl
          rw [ht, List.foldl_append]
          rfl

theorem inv_run (body : Nat → List (L × D → L × D)) (m0 : (Nat → L) × D) (sched : List Nat) :
    ∀ (order : List Nat) (s : SL L D), Inv body m0 order s → Inv body m0 (order ++ left body s sched) (s.run body sched) := by
  induction sched with
  | nil => intro order s h; simpa [left, SL.run] using h
  | cons t ts ih =>
    intro order s h
    have := ih _ _ (inv_step body m0 order s h t)
    simpa [left, SL.run, List.append_assoc] using this

theorem inv_start (body : Nat → List (L × D → L × D)) (loc : Nat → L) (d : D) : Inv body (loc, d) [] (SL.start loc d) :=
  ⟨fun _ => ⟨fun _ _ h => (by cases h), rfl⟩, fun h => by cases h⟩

/-- **C112a.** Never two threads between `lock()` and `unlock()`, whatever the threads do and however they are scheduled. -/
theorem spin_lock_excludes (body : Nat → List (L × D → L × D)) (loc : Nat → L) (d : D) (sched : List Nat) (t1 t2 k1 k2 : Nat)
    (h1 : ((SL.start loc d).run body sched).pc t1 = .inside k1) (h2 : ((SL.start loc d).run body sched).pc t2 = .inside k2) : t1 = t2 := by
  have h := inv_run body (loc, d) sched [] _ (inv_start body loc d)
  cases hf : ((SL.start loc d).run body sched).flag with
  | false => exact absurd h1 ((h.free hf).1 t1 k1)
  | true =>
    obtain ⟨t, k, _, _, c, _⟩ := h.held hf
    rw [c t1 k1 h1, c t2 k2 h2]

/-- **C112b.** Under the lock the data change as if the critical sections had been executed one after the other, in the order of leaving, followed
by what the thread inside has done so far. -/
theorem spin_lock_serialises (body : Nat → List (L × D → L × D)) (loc : Nat → L) (d : D) (sched : List Nat) :
    let s := (SL.start loc d).run body sched
    let done := oneByOne body (left body (SL.start loc d) sched) (loc, d)
    ((∀ t k, s.pc t ≠ .inside k) → (s.loc, s.data) = done) ∧
    ∀ t k, s.pc t = .inside k → (s.loc, s.data) = atomically ((body t).take k) t done := by
  have h := inv_run body (loc, d) sched [] _ (inv_start body loc d)
  rw [List.nil_append] at h
  refine ⟨?_, ?_⟩
  · intro hn
    cases hf : ((SL.start loc d).run body sched).flag with
    | false => exact (h.free hf).2
    | true =>
      obtain ⟨t, k, a, _⟩ := h.held hf
      exact absurd a (hn t k)
  · intro t k hi
    cases hf : ((SL.start loc d).run body sched).flag with
    | false => exact absurd hi ((h.free hf).1 t k)
    | true =>
      obtain ⟨t1, k1, a, _, c, e⟩ := h.held hf
      have := c t k hi
      subst this
      rw [hi] at a
      cases a
      exact e

/-- **C112c.** If nobody is inside, the next attempt succeeds: `unlock` always gives the lock free. -/
theorem spin_lock_free_is_taken (body : Nat → List (L × D → L × D)) (loc : Nat → L) (d : D) (sched : List Nat) (t : Nat)
    (hn : ∀ t k, ((SL.start loc d).run body sched).pc t ≠ .inside k) (ht : ((SL.start loc d).run body sched).pc t = .trying) :
    ((SL.start loc d).run body (sched ++ [t])).pc t = .inside 0 := by
  have h := inv_run body (loc, d) sched [] _ (inv_start body loc d)
  have hf : ((SL.start loc d).run body sched).flag = false := by
    cases hf : ((SL.start loc d).run body sched).flag with
    | false => rfl
    | true => obtain ⟨t, k, a, _⟩ := h.held hf; exact absurd a (hn t k)
  unfold SL.run at *
  rw [List.foldl_append]
  simp only [List.foldl_cons, List.foldl_nil]
  generalize List.foldl (SL.step body) (SL.start loc d) sched = s at *
  unfold SL.step
  rw [ht]
  simp only [hf, Bool.false_eq_true, if_false, upd_same]

/-- Reading a shared counter, then writing it back increased. -/
def increment : List (Nat × Nat → Nat × Nat) := [fun p => (p.2, p.2), fun p => (p.1, p.1 + 1)]

/-- **C112d.** No update is lost: a counter that is incremented under the lock counts the sections. -/
theorem spin_lock_counter (sched : List Nat) (loc : Nat → Nat) (n : Nat) (hn : ∀ t k, ((SL.start loc n).run (fun _ => increment) sched).pc t ≠ .inside k) :
    ((SL.start loc n).run (fun _ => increment) sched).data = n + (left (fun _ => increment) (SL.start loc n) sched).length := by
  have h := congrArg Prod.snd ((spin_lock_serialises (fun _ => increment) loc n sched).1 hn)
  have key : ∀ (order : List Nat) (m : (Nat → Nat) × Nat), (oneByOne (fun _ => increment) order m).2 = m.2 + order.length := by
    intro order
    induction order with
    | nil => intro m; rfl
    | cons t ts ih =>
      intro m
      have := ih (atomically increment t m)
      simp only [oneByOne, List.foldl_cons] at this ⊢
      rw [this]
      simp only [atomically, increment, List.foldl_cons, List.foldl_nil, List.length_cons]
      omega
  rw [key] at h
  exact h

/-- One round in which thread 0 takes and releases the lock while thread 1 tries in vain. -/
def unfairRound : List Nat := [0, 0, 1, 0]

/-- **C112e.** The lock is not fair: a thread can try any number of times in vain while another one takes the lock again and again. -/
theorem spin_lock_starves (n : Nat) : let s := (SL.start (fun _ => ()) ()).run (fun _ => ([] : List (Unit × Unit → Unit × Unit))) (1 :: (List.replicate n unfairRound).flatten)
    s.pc 1 = .trying ∧ left (fun _ => []) (SL.start (fun _ => ()) ()) (1 :: (List.replicate n unfairRound).flatten) = List.replicate n 0 ∧
    (1 :: (List.replicate n unfairRound).flatten).count 1 = n + 1 := by
  have key : ∀ n, ∀ s : SL Unit Unit, s.flag = false → s.pc 0 = .out → s.pc 1 = .trying →
      (s.run (fun _ => ([] : List (Unit × Unit → Unit × Unit))) (List.replicate n unfairRound).flatten).pc 1 = .trying ∧
      left (fun _ => []) s (List.replicate n unfairRound).flatten = List.replicate n 0 := by
    intro n
    induction n with
    | zero => intro s _ _ h; exact ⟨h, rfl⟩
    | succ n ih =>
      intro s hf h0 h1
      have hr : (s.run (fun _ => ([] : List (Unit × Unit → Unit × Unit))) unfairRound).flag = false ∧
          (s.run (fun _ => ([] : List (Unit × Unit → Unit × Unit))) unfairRound).pc 0 = .out ∧
          (s.run (fun _ => ([] : List (Unit × Unit → Unit × Unit))) unfairRound).pc 1 = .trying ∧
          left (fun _ => ([] : List (Unit × Unit → Unit × Unit))) s unfairRound = [0] := by
        simp [SL.run, unfairRound, SL.step, hf, h0, h1, upd, left, leaves]
      obtain ⟨a, b, c, d⟩ := hr
      obtain ⟨e, f⟩ := ih _ a b c
      have app : ∀ (xs ys : List Nat) (s : SL Unit Unit), left (fun _ => ([] : List (Unit × Unit → Unit × Unit))) s (xs ++ ys) =
          left (fun _ => []) s xs ++ left (fun _ => []) (s.run (fun _ => []) xs) ys := by
        intro xs
        induction xs with
        | nil => intro ys s; rfl
        | cons x xs ih => intro ys s; simp only [List.cons_append, left, ih, List.append_assoc]; rfl
      rw [List.replicate_succ, List.flatten_cons]
      refine ⟨?_, ?_⟩
      · unfold SL.run at e ⊢
        rw [List.foldl_append]; exact e
      · rw [app, d, f]; rfl
  obtain ⟨a, b⟩ := key n ((SL.start (fun _ => ()) ()).step (fun _ => []) 1) rfl rfl rfl
  refine ⟨a, ?_, ?_⟩
  · exact b
  · rw [List.count_cons_self]
    congr 1
    clear key a b
    induction n with
    | zero => rfl
    | succ n ih => rw [List.replicate_succ, List.flatten_cons, List.count_append, ih]; simp [unfairRound]; omega

/- Non-vacuity: three threads, interleaved, one still inside. -/
example : let s := (SL.start (fun _ => 0) 5).run (fun _ => increment) [0, 1, 2, 1, 0, 1, 2, 1, 0, 1, 0, 0, 1]
    s.data = 6 ∧ s.pc 0 = .inside 1 ∧ left (fun _ => increment) (SL.start (fun _ => 0) 5) [0, 1, 2, 1, 0, 1, 2, 1, 0, 1, 0, 0, 1] = [1] := by decide

/-! ### Timed waits -/

/-- **C113a.** The wait with a predicate returns only when the predicate holds, right then, and returns `true`. -/
theorem timed_wait_returns (rel : Nat) (h : List Round) (b : Bool) :
    waitForPred rel h = some b ↔ b = true ∧ ∃ e ∈ h, e.pred = true := by
  unfold waitForPred
  generalize Status.noTimeout = r
  induction h generalizing r with
  | nil => simp [waitPred]
  | cons e es ih =>
    unfold waitPred
    cases hp : e.pred with
    | true =>
      simp only [if_true]
      constructor
      · intro h
        refine ⟨?_, e, List.mem_cons_self, hp⟩
        have := Option.some.inj h
        rw [← this]; split <;> rfl
      · rintro ⟨rfl, _⟩
        congr 1
        split <;> rfl
    | false =>
      rw [if_neg (by decide), ih]
      constructor
      · rintro ⟨a, x, hx, hx'⟩; exact ⟨a, x, List.mem_cons_of_mem _ hx, hx'⟩
      · rintro ⟨a, x, hx, hx'⟩
        rcases List.mem_cons.1 hx with rfl | hx
        · rw [hp] at hx'; cases hx'
        · exact ⟨a, x, hx, hx'⟩

/-- **C113b.** So the time limit does nothing: while the predicate is false the call does not return, however late it is. -/
theorem timed_wait_never_times_out (rel : Nat) (h : List Round) (hf : ∀ e ∈ h, e.pred = false) : waitForPred rel h = none := by
  rcases hw : waitForPred rel h with _ | b
  · rfl
  · obtain ⟨_, e, he, hp⟩ := (timed_wait_returns rel h b).1 hw
    rw [hf e he] at hp; cases hp

/-- **C113c.** A history that passes the limit by any time. -/
theorem timed_wait_overdue (rel late : Nat) : ∃ h : List Round, (∃ e ∈ h, ∃ e0 ∈ h, e.t1 ≥ e0.t0 + rel + late) ∧ waitForPred rel h = none :=
  ⟨[⟨false, 0, rel + late⟩], ⟨_, List.mem_singleton.2 rfl, _, List.mem_singleton.2 rfl, by simp⟩,
    timed_wait_never_times_out _ _ (by intro e he; rw [List.mem_singleton.1 he])⟩

/-- **C113d.** The status of a wait without a predicate is the wrong way round: `timeout` is reported exactly if the sleep ended before the limit. -/
theorem wait_status_inverted (t0 rel t1 : Nat) : (waitStatus t0 rel t1 = .timeout ↔ t1 < t0 + rel) ∧ (waitStatus t0 rel t1 = .noTimeout ↔ t0 + rel ≤ t1) := by
  unfold waitStatus
  by_cases h : t0 + rel > t1
  · rw [if_pos h]; simp; omega
  · rw [if_neg h]; simp; omega

/-- **C113e.** The number of milliseconds a thread sleeps: whole milliseconds below 49.7 days, never more than asked for. -/
theorem sleep_length (ns : Nat) : toMs ns * 1000000 ≤ ns ∧ (ns < 4294967296 * 1000000 → ns < toMs ns * 1000000 + 1000000) := by
  unfold toMs
  refine ⟨?_, ?_⟩
  · have h1 := Nat.mod_le (ns / 1000000) 4294967296
    have h2 := Nat.div_mul_le_self ns 1000000
    exact Nat.le_trans (Nat.mul_le_mul_right _ h1) h2
  · intro h; omega

/-- **C113f.** Exceptions: a wait shorter than a millisecond does not sleep, one of `2^32` milliseconds does not either, and one of `2^32-1`
milliseconds never ends by itself. -/
theorem sleep_length_extremes : (∀ ns, ns < 1000000 → toMs ns = 0) ∧ toMs (4294967296 * 1000000) = 0 ∧ toMs (4294967295 * 1000000) = infinite := by
  refine ⟨?_, by decide, by decide⟩
  intro ns h; unfold toMs; omega

end Nntl.Sync
