import Verif.Fwd.Lemmas
/-
Properties of the callable handles and of what the thread pools do with the user's functors.
-/
namespace Nntl.Fwd

variable {S A R : Type}

/-- **C168.** Whatever a program does, it sees the same as if a handle were a value that is empty, or has a functor of
its own, or refers to somebody's functor: same results, same answers of `bool(h)`, and undefined behaviour and refusal
to compile at the same operation. The raw storage is never interpreted as something it does not hold. -/
theorem handles_are_values (e : Env S A R) (ops : List (Op S A)) :
    seen (run e World.start ops) = sRun e SWorld.start ops :=
  run_sim e ops _ _ start_sim

/-- **C168.** The storage is the least multiple of its alignment that is not less than `N`; a functor the policy keeps
by value always fits into it. -/
theorem storage_fits (e : Env S A R) (ha : 0 < e.al) :
    e.al ∣ e.storeSize ∧ e.N ≤ e.storeSize ∧ e.storeSize < e.N + e.al ∧
    ∀ T : FType S A R, Small e T → T.size ≤ e.storeSize := by
  have h0 : e.storeSize = e.al * ((e.N + e.al - 1) / e.al) := Nat.mul_comm _ _
  have h1 := Nat.div_add_mod (e.N + e.al - 1) e.al
  have h2 := Nat.mod_lt (e.N + e.al - 1) ha
  have h3 : e.N ≤ e.storeSize := by rw [h0]; omega
  refine ⟨⟨_, h0⟩, h3, by rw [h0]; omega, fun T hT => Nat.le_trans hT.1 h3⟩

/-- **C169.** A small functor is kept by value: once it is in a handle, whatever the program does without putting
something else into this handle (the original may be called, changed, ended, its address reused), calls of the handle
are defined and give what the functor gives that started as the original was and was called with nothing but the
arguments the handle was called with; and a call of the handle changes no functor of the user and no other handle. -/
theorem kept_copy {e : Env S A R} {w w1 : World S} {h a t : Nat} {s : S} {c : Cat} {put : Op S A} {o : Obs R}
    (hobj : w.objs a = some ⟨t, s⟩)
    (hput : put = .assign h a c ∨ (put = .give h a c ∧ Small e (e.ty t)))
    (h1 : step e w put = .ok (w1, o))
    {ops : List (Op S A)} {w2 : World S} {obs : List (Obs R)} (h2 : run e w1 ops = .ok (w2, obs))
    (hr : ∀ op ∈ ops, ¬ Replaces h op) (x : A) :
    ∃ w3, step e w2 (.callH h x) =
        .ok (w3, .res ((e.ty t).call (stateAfter (e.ty t) s (argsOf h ops)) x).2) ∧
      w3.objs = w2.objs ∧ ∀ k, k ≠ h → w3.hs k = w2.hs k := by
  have hw1 : w1.hs h = ⟨some (.val t), .bytes s⟩ := by
    rcases hput with rfl | ⟨rfl, hs⟩
    · simp only [step, hobj] at h1
      obtain ⟨y, hy, h3⟩ := bind_ok h1
      have := assignVal_ok hy
      cases h3
      simp [setH, this]
    · simp only [step, hobj] at h1
      obtain ⟨y, hy, h3⟩ := bind_ok h1
      rw [give_small hs] at hy
      have := assignVal_ok hy
      cases h3
      simp [setH, this]
  have hw2 := run_own h t ops w1 s (w2, obs) hw1 h2 hr
  refine ⟨setH w2 h ⟨some (.val t), .bytes ((e.ty t).call (stateAfter (e.ty t) s (argsOf h ops)) x).1⟩, ?_, ?_, ?_⟩
  · simp only [step]; rw [callHandle_own x hw2]; rfl
  · rfl
  · intro k hk
    have : ¬ k = h := hk
    simp [setH, this]

/-- **C169.** The calls of a handle that keeps a functor by value are nobody else's business: leave them out of a
program that does not copy this handle, and every functor and every other handle ends the same. -/
theorem copy_is_private {e : Env S A R} {w w1 : World S} {h a t : Nat} {s : S} {c : Cat} {o : Obs R}
    (hobj : w.objs a = some ⟨t, s⟩) (hs : Small e (e.ty t)) (h1 : step e w (.give h a c) = .ok (w1, o))
    {ops : List (Op S A)} {w2 : World S} {obs : List (Obs R)} (h2 : run e w1 ops = .ok (w2, obs))
    (hr : ∀ op ∈ ops, ¬ Replaces h op ∧ ¬ CopiesFrom h op) :
    ∃ w3 obs', run e w1 (withoutCalls h ops) = .ok (w3, obs') ∧ w3.objs = w2.objs ∧
      ∀ k, k ≠ h → w3.hs k = w2.hs k := by
  simp only [step, hobj] at h1
  obtain ⟨y, hy, h3⟩ := bind_ok h1
  rw [give_small hs] at hy
  have hy' := assignVal_ok hy
  cases h3
  have hw1 : (setH w h y).hs h = ⟨some (.val t), .bytes s⟩ := by simp [setH, hy']
  obtain ⟨q, hq, hS⟩ := run_same h t ops _ _ _ ⟨rfl, fun _ _ => rfl, ⟨s, hw1⟩, ⟨s, hw1⟩⟩ h2 hr
  exact ⟨q.1, q.2, hq, hS.objs.symm, fun k hk => (hS.hs k hk).symm⟩

/-- **C170.** A functor that is not small is kept by reference: whatever the program does without putting something
else into the handle and without ending the functor, a call of the handle is the call of the functor. -/
theorem kept_reference {e : Env S A R} {w w1 : World S} {h a t : Nat} {s : S} {c : Cat} {o : Obs R}
    (hobj : w.objs a = some ⟨t, s⟩) (hb : ¬ Small e (e.ty t)) (h1 : step e w (.give h a c) = .ok (w1, o))
    {ops : List (Op S A)} {w2 : World S} {obs : List (Obs R)} (h2 : run e w1 ops = .ok (w2, obs))
    (hr : ∀ op ∈ ops, ¬ Replaces h op) (hk : ∀ op ∈ ops, op ≠ .kill a) (x : A) :
    ∃ s', w2.objs a = some ⟨t, s'⟩ ∧ step e w2 (.callH h x) = step e w2 (.callObj a x) ∧
      ∃ w3, step e w2 (.callH h x) = .ok (w3, .res ((e.ty t).call s' x).2) ∧
        w3.objs a = some ⟨t, ((e.ty t).call s' x).1⟩ ∧ w3.hs = w2.hs := by
  simp only [step, hobj] at h1
  obtain ⟨y, hy, h3⟩ := bind_ok h1
  rw [give_big hb] at hy
  have hy' := assignRef_ok hy
  cases h3
  have hw2 := run_ref h t a ops _ _ (by simp [setH, hy']) h2 hr
  obtain ⟨s', hs'⟩ := run_type a t ops _ s _ (show (setH w h y).objs a = _ from hobj) h2 hk
  have hw2' : w2.hs h = ⟨some (.ref t), .addr a⟩ := hw2
  have hs'' : w2.objs a = some ⟨t, s'⟩ := hs'
  refine ⟨s', hs'', ?_, ?_⟩
  · simp only [step, hs'']; rw [callHandle_ref x hw2']
  · refine ⟨setObj w2 a (some ⟨t, ((e.ty t).call s' x).1⟩), ?_, by simp [setObj], rfl⟩
    simp only [step]
    rw [callHandle_ref x hw2', callAt_eq x hs'']
    rfl

/-- **C170.** Once that functor has ended, a call of the handle is undefined behaviour. -/
theorem dangling_reference {e : Env S A R} {w w1 : World S} {h a t : Nat} {s : S} {c : Cat} {o : Obs R}
    (hobj : w.objs a = some ⟨t, s⟩) (hb : ¬ Small e (e.ty t)) (h1 : step e w (.give h a c) = .ok (w1, o))
    {ops : List (Op S A)} {w2 : World S} {obs : List (Obs R)} (h2 : run e w1 ops = .ok (w2, obs))
    (hr : ∀ op ∈ ops, ¬ Replaces h op) (hk : w2.objs a = none) (x : A) :
    step e w2 (.callH h x) = .ub := by
  simp only [step, hobj] at h1
  obtain ⟨y, hy, h3⟩ := bind_ok h1
  rw [give_big hb] at hy
  have hy' := assignRef_ok hy
  cases h3
  have hw2 : w2.hs h = ⟨some (.ref t), .addr a⟩ := run_ref h t a ops _ _ (by simp [setH, hy']) h2 hr
  simp only [step]
  rw [callHandle_ref x hw2]
  unfold callAt
  rw [hk]
  rfl

/-- **C171.** A task given to the background threads as an lvalue and small is a copy: it runs as the functor was when
the task was added, however long the functor lives. -/
theorem task_keeps_copy {e : Env S A R} {w w1 : World S} {h a t : Nat} {s : S}
    (hobj : w.objs a = some ⟨t, s⟩) (hs : Small e (e.ty t)) (h1 : addTask e w h a .lv = .ok w1)
    {ops : List (Op S A)} {w2 : World S} {obs : List (Obs R)} (h2 : run e w1 ops = .ok (w2, obs))
    (hr : ∀ op ∈ ops, ¬ Replaces h op) (x : A) :
    ∃ w3, step e w2 (.callH h x) =
        .ok (w3, .res ((e.ty t).call (stateAfter (e.ty t) s (argsOf h ops)) x).2) := by
  have hg : step e w (.give h a .lv) = .ok (w1, Obs.none) := by
    simp only [addTask, hobj, if_pos (Or.inl rfl : Cat.lv = .lv ∨ _)] at h1
    obtain ⟨y, hy, h3⟩ := bind_ok h1
    simp only [step, hobj, hy, Out.bind]
    rw [ok_inj h3]
  obtain ⟨w3, h3, _⟩ := kept_copy hobj (.inr ⟨rfl, hs⟩) hg h2 hr x
  exact ⟨w3, h3⟩

/-- **C171.** Which temporaries are accepted as tasks: not the small ones, which could be kept, but those kept by
reference (provided there is room for a reference). -/
theorem temporary_tasks (e : Env S A R) (w : World S) (h a t : Nat) (s : S) (hfree : w.objs a = none) :
    (addTaskTemp e w h a t s = .reject ↔ Small e (e.ty t) ∨ e.storeSize < e.ptr) ∧
    ∀ w', addTaskTemp e w h a t s = .ok w' → w'.objs a = none ∧ ∀ x, step e w' (.callH h x) = .ub := by
  have e1 : step e w (.new a t s) = .ok (setObj w a (some ⟨t, s⟩), Obs.none) := by simp only [step, hfree]
  have ho : (setObj w a (some ⟨t, s⟩)).objs a = some ⟨t, s⟩ := by simp [setObj]
  have key : addTaskTemp e w h a t s =
      (addTask e (setObj w a (some ⟨t, s⟩)) h a .rv).bind fun w' =>
        (step e w' (.kill a)).bind fun q => .ok q.1 := by
    unfold addTaskTemp; rw [e1]; rfl
  by_cases hs : Small e (e.ty t)
  · have : addTask e (setObj w a (some ⟨t, s⟩)) h a .rv = .reject := by
      simp only [addTask, ho, wrap_small hs]
      rfl
    rw [key, this]
    exact ⟨⟨fun _ => .inl hs, fun _ => rfl⟩, fun w' hw' => by cases hw'⟩
  · have h1 : addTask e (setObj w a (some ⟨t, s⟩)) h a .rv =
        (assignRef e t a).bind fun x => .ok (setH (setObj w a (some ⟨t, s⟩)) h x) := by
      simp only [addTask, ho, wrap_big hs, or_true, if_true]
      rw [give_big hs]
    rw [key, h1]
    unfold assignRef
    by_cases hp : e.ptr ≤ e.storeSize
    · rw [if_pos hp]
      by_cases hq : e.ptr ≤ e.al
      · rw [if_pos hq]
        constructor
        · constructor
          · intro hh
            simp [Out.bind, step, setH, setObj] at hh
          · intro hh
            rcases hh with hh | hh
            · exact absurd hh hs
            · omega
        · intro w' hw'
          simp only [Out.bind, step] at hw'
          rw [show (setH (setObj w a (some ⟨t, s⟩)) h ⟨some (.ref t), .addr a⟩).objs a = some ⟨t, s⟩ from ho] at hw'
          simp only at hw'
          cases hw'
          refine ⟨by simp [setObj], fun x => ?_⟩
          simp only [step]
          rw [callHandle_ref (t := t) (a := a) x (by simp [setObj, setH])]
          unfold callAt
          simp [setObj, Out.bind]
      · rw [if_neg hq]
        refine ⟨⟨fun hh => (by cases hh), fun hh => ?_⟩, fun w' hw' => (by cases hw')⟩
        rcases hh with hh | hh
        · exact absurd hh hs
        · omega
    · rw [if_neg hp]
      exact ⟨⟨fun _ => .inr (by omega), fun _ => rfl⟩, fun w' hw' => by cases hw'⟩

theorem poolCalls_own {e : Env S A R} (h a t : Nat) : ∀ (l : List (Who × A)) (w : World S) (s0 s1 : S),
    w.objs a = some ⟨t, s0⟩ → w.hs h = ⟨some (.val t), .bytes s1⟩ →
    ∃ w' rs, poolCalls e w h a l = .ok (w', rs) ∧ rs.length = l.length ∧
      w'.objs a = some ⟨t, stateAfter (e.ty t) s0 (argsBy .main l)⟩ ∧
      ((l.zip rs).filter fun p => p.1.1 = .main).map (·.2) = resultsOf (e.ty t) s0 (argsBy .main l) ∧
      ((l.zip rs).filter fun p => p.1.1 = .worker).map (·.2) = resultsOf (e.ty t) s1 (argsBy .worker l) := by
  intro l
  induction l with
  | nil => intro w s0 s1 h0 _; exact ⟨w, [], rfl, rfl, h0, rfl, rfl⟩
  | cons p l ih =>
    intro w s0 s1 h0 h1
    obtain ⟨who, x⟩ := p
    cases who with
    | main =>
      obtain ⟨w', rs, h2, h3, h4, h5, h6⟩ := ih (setObj w a (some ⟨t, ((e.ty t).call s0 x).1⟩))
        ((e.ty t).call s0 x).1 s1 (by simp [setObj]) h1
      refine ⟨w', ((e.ty t).call s0 x).2 :: rs, ?_, by simp [h3], ?_, ?_, ?_⟩
      · simp only [poolCalls, h0]
        rw [callAt_eq x h0]
        simp only [Out.bind, h2]
      · rw [h4]; simp [argsBy, stateAfter]
      · simp only [List.zip_cons_cons]
        rw [List.filter_cons_of_pos (by simp), List.map_cons, h5]
        simp [argsBy, resultsOf]
      · simp only [List.zip_cons_cons]
        rw [List.filter_cons_of_neg (by simp), h6]
        simp [argsBy]
    | worker =>
      obtain ⟨w', rs, h2, h3, h4, h5, h6⟩ := ih (setH w h ⟨some (.val t), .bytes ((e.ty t).call s1 x).1⟩)
        s0 ((e.ty t).call s1 x).1 h0 (by simp [setH])
      refine ⟨w', ((e.ty t).call s1 x).2 :: rs, ?_, by simp [h3], ?_, ?_, ?_⟩
      · simp only [poolCalls]
        rw [callHandle_own x h1]
        simp only [Out.bind, h2]
      · rw [h4]; simp [argsBy, stateAfter]
      · simp only [List.zip_cons_cons]
        rw [List.filter_cons_of_neg (by simp), h5]
        simp [argsBy]
      · simp only [List.zip_cons_cons]
        rw [List.filter_cons_of_pos (by simp), List.map_cons, h6]
        simp [argsBy, resultsOf]

theorem poolCalls_ref {e : Env S A R} (h a t : Nat) : ∀ (l : List (Who × A)) (w : World S) (s0 : S),
    w.objs a = some ⟨t, s0⟩ → w.hs h = ⟨some (.ref t), .addr a⟩ →
    ∃ w', poolCalls e w h a l = .ok (w', resultsOf (e.ty t) s0 (l.map (·.2))) ∧
      w'.objs a = some ⟨t, stateAfter (e.ty t) s0 (l.map (·.2))⟩ := by
  intro l
  induction l with
  | nil => intro w s0 h0 _; exact ⟨w, rfl, h0⟩
  | cons p l ih =>
    intro w s0 h0 h1
    obtain ⟨who, x⟩ := p
    obtain ⟨w', h2, h3⟩ := ih (setObj w a (some ⟨t, ((e.ty t).call s0 x).1⟩)) ((e.ty t).call s0 x).1
      (by simp [setObj]) h1
    refine ⟨w', ?_, ?_⟩
    · cases who with
      | main =>
        simp only [poolCalls, h0]
        rw [callAt_eq x h0]
        simp only [Out.bind, h2]
        rfl
      | worker =>
        simp only [poolCalls]
        rw [callHandle_ref x h1, callAt_eq x h0]
        simp only [Out.bind, h2]
        rfl
    · rw [h3]; rfl

/-- **C172.** `run`/`reduce` of the pool with a small functor splits it in two: the functor of the user gets the calls
of the calling thread, a copy made at the beginning gets all calls of the workers and is then forgotten. -/
theorem run_splits_small {e : Env S A R} {w : World S} {h a t : Nat} {s : S} (hobj : w.objs a = some ⟨t, s⟩)
    (hs : Small e (e.ty t)) (hc : Compiles e (e.ty t) .lv) (hal : (e.ty t).align ≤ e.al) (l : List (Who × A)) :
    ∃ w' rs, poolRun e w h a l = .ok (w', rs) ∧ rs.length = l.length ∧
      w'.objs a = some ⟨t, stateAfter (e.ty t) s (argsBy .main l)⟩ ∧
      ((l.zip rs).filter fun p => p.1.1 = .main).map (·.2) = resultsOf (e.ty t) s (argsBy .main l) ∧
      ((l.zip rs).filter fun p => p.1.1 = .worker).map (·.2) = resultsOf (e.ty t) s (argsBy .worker l) := by
  have hg : giveHandle e ⟨t, s⟩ a .lv = .ok ⟨some (.val t), .bytes s⟩ := by
    rw [give_small hs]
    unfold assignVal
    rw [if_pos ((accepts_iff _ _ _).2 hc), if_pos hal]
  have := poolCalls_own (e := e) h a t l (setH w h ⟨some (.val t), .bytes s⟩) s s hobj (by simp [setH])
  simp only [poolRun, hobj, hg, Out.bind]
  exact this

/-- **C172.** With a functor that is not small every call, of the calling thread and of the workers, is a call of the
functor of the user. -/
theorem run_shares_big {e : Env S A R} {w : World S} {h a t : Nat} {s : S} (hobj : w.objs a = some ⟨t, s⟩)
    (hb : ¬ Small e (e.ty t)) (hp : e.ptr ≤ e.storeSize) (hal : e.ptr ≤ e.al) (l : List (Who × A)) :
    ∃ w', poolRun e w h a l = .ok (w', resultsOf (e.ty t) s (l.map (·.2))) ∧
      w'.objs a = some ⟨t, stateAfter (e.ty t) s (l.map (·.2))⟩ := by
  have hg : giveHandle e ⟨t, s⟩ a .lv = .ok ⟨some (.ref t), .addr a⟩ := by
    rw [give_big hb]
    unfold assignRef
    rw [if_pos hp, if_pos hal]
  have := poolCalls_ref (e := e) h a t l (setH w h ⟨some (.ref t), .addr a⟩) s hobj (by simp [setH])
  simp only [poolRun, hobj, hg, Out.bind]
  exact this

theorem resultsOf_const {T : FType S A R} (hT : ∀ s x, (T.call s x).1 = s) (s : S) (xs : List A) :
    resultsOf T s xs = xs.map fun x => (T.call s x).2 := by
  induction xs with
  | nil => rfl
  | cons x l ih => simp only [resultsOf, List.map_cons, hT, ih]

theorem stateAfter_const {T : FType S A R} (hT : ∀ s x, (T.call s x).1 = s) (s : S) (xs : List A) :
    stateAfter T s xs = s := by
  unfold stateAfter
  induction xs with
  | nil => rfl
  | cons x l ih => rw [List.foldl_cons, hT]; exact ih

theorem poolCalls_const {e : Env S A R} (h a t : Nat) (hT : ∀ s x, ((e.ty t).call s x).1 = s) (s : S) :
    ∀ (l : List (Who × A)) (w : World S), w.objs a = some ⟨t, s⟩ →
    (w.hs h = ⟨some (.val t), .bytes s⟩ ∨ w.hs h = ⟨some (.ref t), .addr a⟩) →
    ∃ w', poolCalls e w h a l = .ok (w', l.map fun p => ((e.ty t).call s p.2).2) ∧ w'.objs = w.objs := by
  intro l
  induction l with
  | nil => intro w h0 _; exact ⟨w, rfl, rfl⟩
  | cons p l ih =>
    intro w h0 h1
    have hsame : (setObj w a (some ⟨t, s⟩)).objs = w.objs := by
      funext b
      by_cases hb : b = a
      · simp [setObj, hb, h0]
      · simp [setObj, hb]
    obtain ⟨who, x⟩ := p
    obtain ⟨w', h2, h3⟩ := ih (setObj w a (some ⟨t, s⟩)) (by simp [setObj]) h1
    cases who with
    | main =>
      refine ⟨w', ?_, by rw [h3, hsame]⟩
      simp only [poolCalls, h0]
      rw [callAt_eq x h0, hT]
      simp only [Out.bind, h2]
      rfl
    | worker =>
      rcases h1 with h1 | h1
      · obtain ⟨w'', h4, h5⟩ := ih (setH w h ⟨some (.val t), .bytes s⟩) h0 (.inl (by simp [setH]))
        refine ⟨w'', ?_, h5⟩
        simp only [poolCalls]
        rw [callHandle_own x h1, hT]
        simp only [Out.bind, h4]
        rfl
      · refine ⟨w', ?_, by rw [h3, hsame]⟩
        simp only [poolCalls]
        rw [callHandle_ref x h1, callAt_eq x h0, hT]
        simp only [Out.bind, h2]
        rfl

/-- **C172.** A functor whose calls do not change it may be of any size: every call gives what the functor of the user
gives, whoever calls and in whatever order, and the functor is left as it was. -/
theorem run_constant_functor {e : Env S A R} {w : World S} {h a t : Nat} {s : S} (hobj : w.objs a = some ⟨t, s⟩)
    (hT : ∀ s x, ((e.ty t).call s x).1 = s)
    (hok : (Small e (e.ty t) ∧ Compiles e (e.ty t) .lv ∧ (e.ty t).align ≤ e.al) ∨
      (¬ Small e (e.ty t) ∧ e.ptr ≤ e.storeSize ∧ e.ptr ≤ e.al)) (l : List (Who × A)) :
    ∃ w', poolRun e w h a l = .ok (w', l.map fun p => ((e.ty t).call s p.2).2) ∧ w'.objs = w.objs := by
  rcases hok with ⟨hs, hc, hal⟩ | ⟨hb, hp, hal⟩
  · have hg : giveHandle e ⟨t, s⟩ a .lv = .ok ⟨some (.val t), .bytes s⟩ := by
      rw [give_small hs]
      unfold assignVal
      rw [if_pos ((accepts_iff _ _ _).2 hc), if_pos hal]
    have := poolCalls_const (e := e) h a t hT s l (setH w h ⟨some (.val t), .bytes s⟩) hobj (.inl (by simp [setH]))
    simp only [poolRun, hobj, hg, Out.bind]
    exact this
  · have hg : giveHandle e ⟨t, s⟩ a .lv = .ok ⟨some (.ref t), .addr a⟩ := by
      rw [give_big hb]
      unfold assignRef
      rw [if_pos hp, if_pos hal]
    have := poolCalls_const (e := e) h a t hT s l (setH w h ⟨some (.ref t), .addr a⟩) hobj (.inr (by simp [setH]))
    simp only [poolRun, hobj, hg, Out.bind]
    exact this

end Nntl.Fwd
