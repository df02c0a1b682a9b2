import Verif.AsRng.Props
/-! C135: numbers made by the background threads are used once, in their order. C136: `init_rng`. -/
namespace Nntl.AsRng
open Nntl.DataBuf Nntl.Threads
variable {σ δ R : Type}

/-- Numbers of the kind `t` granted to a thread. -/
def amount (t : Task) : Option (Task × Nat) → Nat
  | some (u, g) => if u = t then g else 0
  | none => 0

/-- Numbers of the kind `t` the first `n` background threads are going to deliver. -/
def claimed (busy : Nat → Option (Task × Nat)) (t : Task) : Nat → Nat
  | 0 => 0
  | n + 1 => claimed busy t n + amount t (busy n)

theorem claimed_set (busy : Nat → Option (Task × Nat)) (t : Task) (i : Nat) (v : Option (Task × Nat)) : ∀ n,
    claimed (setN busy i v) t n + (if i < n then amount t (busy i) else 0) = claimed busy t n + (if i < n then amount t v else 0)
  | 0 => by simp [claimed]
  | n + 1 => by
    have ih := claimed_set busy t i v n
    simp only [claimed]
    by_cases e : n = i
    · subst e
      rw [setN_same]
      simp only [Nat.lt_irrefl, if_false, Nat.lt_succ_self, if_true] at ih ⊢
      omega
    · rw [setN_ne _ _ e]
      by_cases h : i < n
      · simp only [h, if_true, show i < n + 1 by omega] at ih ⊢; omega
      · simp only [h, if_false, show ¬ i < n + 1 by omega] at ih ⊢; omega

theorem claimed_le (busy : Nat → Option (Task × Nat)) (t : Task) (N : Nat) (hN : ∀ i g, busy i = some (t, g) → g ≤ N) (i0 : Nat) (h0 : busy i0 = none) :
    ∀ n, claimed busy t n ≤ n * N ∧ (i0 < n → claimed busy t n ≤ (n - 1) * N)
  | 0 => by simp [claimed]
  | n + 1 => by
    obtain ⟨h1, h2⟩ := claimed_le busy t N hN i0 h0 n
    have ha : amount t (busy n) ≤ N := by
      unfold amount
      split
      · rename_i u g e
        split
        · rename_i e2; subst e2; exact hN n g e
        · omega
      · omega
    simp only [claimed]
    refine ⟨?_, fun hi => ?_⟩
    · have : (n + 1) * N = n * N + N := by ring
      omega
    · by_cases e : n = i0
      · subst e; rw [h0]; simp only [amount, Nat.add_sub_cancel]; omega
      · have hi' : i0 < n := by omega
        have := h2 hi'
        have e3 : (n + 1 - 1) * N = (n - 1) * N + N := by
          obtain ⟨m, rfl⟩ : ∃ m, n = m + 1 := ⟨n - 1, by omega⟩
          simp only [Nat.add_sub_cancel]; ring
        omega

theorem release_total (b : Buf R) (r : Range) : (b.release r).total = b.total := by
  simp only [Buf.release]
  repeat' split
  all_goals rfl

/-- The buffer of the kind `t` is larger than what all background threads but one can claim. -/
def Roomy (E : Rng.Env σ δ R) (s : Sys σ δ R) (t : Task) : Prop :=
  0 < memCount E.thr t ∧ (s.as.wc - 1) * memCount E.thr t < (s.as.buf t).total

structure K (E : Rng.Env σ δ R) (s : Sys σ δ R) (t : Task) (q : List R) : Prop where
  log : s.made t = s.used t ++ q
  good : Good (s.as.buf t) q (claimed s.busy t s.as.wc)
  call : ∀ c r arr, s.call = some (c, r, arr) → c.task = t →
    0 < c.n ∧ c.n ≤ q.length ∧ r = fullRange (s.as.buf t).total (s.as.buf t).cur c.n

theorem copyOut_read (b : Buf R) (r : Range) (arr : Nat → R) : (List.range r.size).map (copyOut b r arr) = b.read r := by
  cases r with
  | one p n =>
    simp only [Range.size, Buf.read, copyOut]
    apply List.map_congr_left
    intro k hk
    rw [if_pos (List.mem_range.1 hk)]
  | two p n1 n2 =>
    simp only [Range.size, Buf.read]
    rw [List.range_add, List.map_append, List.map_map]
    congr 1
    · apply List.map_congr_left
      intro k hk
      have := List.mem_range.1 hk
      simp only [copyOut]; rw [if_neg (by omega), if_pos this]
    · apply List.map_congr_left
      intro k hk
      have := List.mem_range.1 hk
      simp only [copyOut, Function.comp]; rw [if_pos (by omega)]; congr 1; omega

theorem k_step [Field R] [LinearOrder R] {E : Rng.Env σ δ R} {mul : Nat → Nat} {W : Nat} {s s' : Sys σ δ R} (hJ : J E s)
    (hs : Step E mul (Rng.Pool W) s s') (t : Task) (h : Roomy E s t → ∃ q, K E s t q) : Roomy E s' t → ∃ q, K E s' t q := by
  intro hr'
  cases hs with
  | work i u hi ht hb =>
    have hr : Roomy E s t := by
      refine ⟨hr'.1, ?_⟩
      have := hr'.2
      dsimp only at this
      by_cases e : t = u
      · subst e; rw [setT_same, (shouldWork_keeps _ _).1] at this; exact this
      · rw [setT_ne _ _ e] at this; exact this
    obtain ⟨q, hq⟩ := h hr
    refine ⟨q, hq.log, ?_, fun c r arr hc ht => ?_⟩
    · dsimp only
      have hcl := claimed_set s.busy t i (if ((s.as.buf u).shouldWork (memCount E.thr u)).2 = 0 then none
          else some (u, ((s.as.buf u).shouldWork (memCount E.thr u)).2)) s.as.wc
      rw [if_pos hi, if_pos hi, hb] at hcl
      by_cases e : t = u
      · subst e
        rw [setT_same]
        have hle : claimed s.busy t s.as.wc ≤ (s.as.wc - 1) * memCount E.thr t :=
          (claimed_le s.busy t _ (fun j g hj => (hJ.busy j t g hj).2.1) i hb s.as.wc).2 hi
        obtain ⟨e1, e2, e3⟩ := shouldWork_good hq.good (memCount E.thr t) hr.1 (.inr (by have := hr.2; omega))
        have : claimed (setN s.busy i (if ((s.as.buf t).shouldWork (memCount E.thr t)).2 = 0 then none
          else some (t, ((s.as.buf t).shouldWork (memCount E.thr t)).2))) t s.as.wc
            = claimed s.busy t s.as.wc + ((s.as.buf t).shouldWork (memCount E.thr t)).2 := by
          split at hcl
          · rename_i hz; rw [if_pos hz]; simp only [amount] at hcl; omega
          · rename_i hz; rw [if_neg hz]; simp only [amount, if_true] at hcl; omega
        rw [this]; exact e2
      · rw [setT_ne _ _ e]
        have : claimed (setN s.busy i (if ((s.as.buf u).shouldWork (memCount E.thr u)).2 = 0 then none
          else some (u, ((s.as.buf u).shouldWork (memCount E.thr u)).2))) t s.as.wc = claimed s.busy t s.as.wc := by
          split at hcl
          · rename_i hz; rw [if_pos hz]; simp only [amount] at hcl; omega
          · rename_i hz; rw [if_neg hz]; simp only [amount, if_neg (Ne.symm e)] at hcl; omega
        rw [this]; exact hq.good
    · obtain ⟨c1, c2, c3⟩ := hq.call c r arr hc ht
      refine ⟨c1, c2, ?_⟩
      dsimp only
      by_cases e : t = u
      · subst e; rw [setT_same, (shouldWork_keeps _ _).1, (shouldWork_keeps _ _).2.2.1]; exact c3
      · rw [setT_ne _ _ e]; exact c3
  | done i u g hi hb =>
    obtain ⟨g1, g2⟩ := generate_makes E u g (s.as.ctx i)
    have hg0 := (hJ.busy i u g hb).1
    have hx : (generate E u g (s.as.ctx i)).1 ≠ [] := by
      intro e; rw [e] at g1; exact hg0 g1.symm
    have hr : Roomy E s t := by
      refine ⟨hr'.1, ?_⟩
      have := hr'.2
      dsimp only at this
      by_cases e : t = u
      · subst e; rw [setT_same, (inv_done (hJ.inv t) hx).2.1] at this; exact this
      · rw [setT_ne _ _ e] at this; exact this
    obtain ⟨q, hq⟩ := h hr
    have hcl := claimed_set s.busy t i none s.as.wc
    rw [if_pos hi, if_pos hi, hb] at hcl
    by_cases e : t = u
    · subst e
      simp only [amount, if_true] at hcl
      obtain ⟨d1, d2, d3, -⟩ := done_good hq.good (generate E t g (s.as.ctx i)).1 (by omega) (by omega)
      refine ⟨q ++ (generate E t g (s.as.ctx i)).1, ?_, ?_, fun c r arr hc ht => ?_⟩
      · dsimp only; rw [setT_same, hq.log, List.append_assoc]
      · dsimp only; rw [setT_same]
        have : claimed (setN s.busy i none) t s.as.wc = claimed s.busy t s.as.wc - (generate E t g (s.as.ctx i)).1.length := by omega
        rw [this]; exact d1
      · obtain ⟨c1, c2, c3⟩ := hq.call c r arr hc ht
        refine ⟨c1, by rw [List.length_append]; omega, ?_⟩
        dsimp only; rw [setT_same, d2, d3]; exact c3
    · simp only [amount, if_neg (Ne.symm e)] at hcl
      refine ⟨q, ?_, ?_, fun c r arr hc ht => ?_⟩
      · dsimp only; rw [setT_ne _ _ e]; exact hq.log
      · dsimp only; rw [setT_ne _ _ e]
        have : claimed (setN s.busy i none) t s.as.wc = claimed s.busy t s.as.wc := by omega
        rw [this]; exact hq.good
      · dsimp only; rw [setT_ne _ _ e]; exact hq.call c r arr hc ht
  | take c arr r hf hm hz hr =>
    obtain ⟨q, hq⟩ := h hr'
    refine ⟨q, hq.log, hq.good, fun c' r' arr' hc ht => ?_⟩
    obtain ⟨rfl, hc'⟩ := Prod.mk.inj (Option.some.inj hc)
    obtain ⟨rfl, rfl⟩ := Prod.mk.inj hc'
    subst ht
    rw [acquire_good hq.good] at hr
    split at hr
    · rename_i hh; exact ⟨hh.1, hh.2, (Option.some.inj hr).symm⟩
    · cases hr
  | release c arr r hc =>
    have hr : Roomy E s t := by
      refine ⟨hr'.1, ?_⟩
      have := hr'.2
      dsimp only at this
      by_cases e : t = c.task
      · subst e; rw [setT_same, release_total] at this; exact this
      · rw [setT_ne _ _ e] at this; exact this
    obtain ⟨q, hq⟩ := h hr
    by_cases e : t = c.task
    · subst e
      obtain ⟨c1, c2, rfl⟩ := hq.call c r arr hc rfl
      have hsz := fullRange_size c.n hq.good.cur
      refine ⟨q.drop c.n, ?_, ?_, by simp⟩
      · dsimp only
        rw [setT_same, hq.log]
        have e1 := copyOut_read (s.as.buf c.task) (fullRange (s.as.buf c.task).total (s.as.buf c.task).cur c.n) arr
        rw [hsz] at e1
        rw [e1, read_good hq.good c2, List.append_assoc, List.take_append_drop]
      · dsimp only
        rw [setT_same]
        have e1 := shrink_self (r := fullRange (s.as.buf c.task).total (s.as.buf c.task).cur c.n)
        rw [hsz] at e1
        have := (release_good hq.good c1 (Nat.le_refl _) c2).1
        rw [e1] at this
        exact this
    · refine ⟨q, ?_, ?_, by simp⟩
      · dsimp only; rw [setT_ne _ _ e]; exact hq.log
      · dsimp only; rw [setT_ne _ _ e]; exact hq.good
  | pass => obtain ⟨q, hq⟩ := h hr'; exact ⟨q, hq.log, hq.good, hq.call⟩
  | other => obtain ⟨q, hq⟩ := h hr'; exact ⟨q, hq.log, hq.good, hq.call⟩
  | seed => obtain ⟨q, hq⟩ := h hr'; exact ⟨q, hq.log, hq.good, hq.call⟩
  | seedThread => obtain ⟨q, hq⟩ := h hr'; exact ⟨q, hq.log, hq.good, hq.call⟩
  | seeded => obtain ⟨q, hq⟩ := h hr'; exact ⟨q, hq.log, hq.good, hq.call⟩
  | preinit => obtain ⟨q, hq⟩ := h hr'; exact ⟨q, hq.log, hq.good, hq.call⟩
  | init alloc b a hf hi =>
    obtain ⟨-, h0, -, hw, -, hc⟩ := init_cases hi
    rcases hc with ⟨h1, h2, h3⟩ | ⟨h1, h2⟩
    · simp only [h1, Option.isSome_none, Bool.false_eq_true, if_false] at hr' ⊢
      have hr : Roomy E s t := by
        refine ⟨hr'.1, ?_⟩
        have := hr'.2
        dsimp only at this
        rw [hw, h2] at this; exact this
      obtain ⟨q, hq⟩ := h hr
      refine ⟨q, hq.log, by dsimp only; rw [hw, h2]; exact hq.good, ?_⟩
      dsimp only; rw [h2]; exact hq.call
    · simp only [h1, if_true] at hr' ⊢
      obtain ⟨n, mem, e⟩ := h2 t
      have hn : 0 < n := by
        have := hr'.2
        dsimp only at this
        rw [e] at this
        exact Nat.lt_of_le_of_lt (Nat.zero_le _) this
      refine ⟨[], rfl, ?_, fun c r arr hc => ?_⟩
      · dsimp only
        rw [e]
        have : ∀ m, claimed s.busy t m = 0 := by
          intro m
          induction m with
          | zero => rfl
          | succ m ih => simp only [claimed, ih, (hJ.idle h0).1 m, amount]
        rw [this]; exact init_good n mem hn
      · rw [hf.1] at hc; cases hc
  | deinit hf hb => obtain ⟨q, hq⟩ := h hr'; exact ⟨q, hq.log, hq.good, hq.call⟩

/-- **C135 (partial).** As long as the background threads but one cannot claim the whole buffer: the numbers made for it are given to the filling calls
in the order they were made, each of them once, none is lost; and a filling call finds its numbers there exactly if so many are unread.
Missing: smaller buffers, where numbers get lost (`DataBuf.overclaim_loses_data`). -/
theorem numbers_used_once_in_order_partial [Field R] [LinearOrder R] {E : Rng.Env σ δ R} {mul : Nat → Nat} {W wc : Nat} {sd : Int} {junk : Nat → σ}
    {mem : Nat → R} {a0 : As σ δ R} (h0 : As.construct E W wc sd junk mem = some a0) {s : Sys σ δ R} (h : Reach E mul (Rng.Pool W) a0 s) (t : Task)
    (hN : 0 < memCount E.thr t) (hr : (wc - 1) * memCount E.thr t < (s.as.buf t).total) :
    ∃ unread, s.made t = s.used t ++ unread ∧
      ∀ n, ((s.as.buf t).acquire n).isSome = true ↔ 0 < n ∧ n ≤ unread.length := by
  have hwc : s.as.wc = wc := by
    clear hr
    induction h with
    | start => exact (construct_fresh E h0).2.2.1
    | step _ hs ih =>
      cases hs with
      | init alloc b a hf hi => exact (init_cases hi).2.2.2.1.trans ih
      | _ => exact ih
  have key : Roomy E s t → ∃ q, K E s t q := by
    clear hr hwc
    induction h with
    | start =>
      intro hr
      have := hr.2
      simp only [Sys.start] at this
      rw [(construct_fresh E h0).2.2.2.2] at this
      exact absurd this (Nat.not_lt_zero _)
    | step hr hs ih => exact k_step (reach_j h0 hr) hs t ih
  obtain ⟨q, hq⟩ := key ⟨hN, by rw [hwc]; exact hr⟩
  refine ⟨q, hq.log, fun n => ?_⟩
  rw [acquire_good hq.good]
  by_cases c : 0 < n ∧ n ≤ q.length
  · rw [if_pos c]; exact ⟨fun _ => c, fun _ => rfl⟩
  · rw [if_neg c]; exact ⟨fun e => (by cases e), fun e => absurd e c⟩

/-! ### `init_rng` -/

/-- **C136 (partial).** `init_rng` after the announcements, if there is memory for the buffers: it returns true, the object is initialised, every announced
kind of numbers has a buffer of the enlarged size, the buffers are disjoint parts of the allocated block that fill it, and exactly the tasks
of the announced kinds are given to the background threads. Missing: the result when there is no memory (`init_hides_failure`). -/
theorem init_prepares_partial (mul : Nat → Nat) (alloc : Nat → Option (Nat → R)) (a : As σ δ R) (hm : a.main = none) (ht : a.tasks = [])
    (hp : mul (a.size .normal) + mul (a.size .norm) ≠ 0) {mem : Nat → R} (hal : alloc (mul (a.size .normal) + mul (a.size .norm)) = some mem) :
    ∃ a', a.initRng mul alloc = some (true, a') ∧ a'.isInitialized = true ∧
      (∀ t, (a'.buf t).total = mul (a.size t) ∧ (t ∈ a'.tasks ↔ mul (a.size t) ≠ 0)) ∧ a'.tasks.Nodup ∧
      (∀ k, k < mul (a.size .normal) + mul (a.size .norm) ↔
        (a'.ofs .normal ≤ k ∧ k < a'.ofs .normal + (a'.buf .normal).total) ∨ (a'.ofs .norm ≤ k ∧ k < a'.ofs .norm + (a'.buf .norm).total)) ∧
      (∀ k, ¬ ((a'.ofs .normal ≤ k ∧ k < a'.ofs .normal + (a'.buf .normal).total) ∧ (a'.ofs .norm ≤ k ∧ k < a'.ofs .norm + (a'.buf .norm).total))) := by
  unfold As.initRng As.initAsynch
  simp only [hm, Option.isSome_none, Bool.false_eq_true, if_false, hp, hal, ht]
  refine ⟨_, rfl, rfl, fun t => ⟨?_, ?_⟩, ?_, ?_, ?_⟩
  · dsimp only
    split
    · rfl
    · rename_i h; simp only [ne_eq, Decidable.not_not] at h; simp only [Buf.init]; exact h.symm
  · cases t <;> by_cases h1 : mul (a.size .normal) = 0 <;> by_cases h2 : mul (a.size .norm) = 0 <;> simp [h1, h2]
  · by_cases h1 : mul (a.size .normal) = 0 <;> by_cases h2 : mul (a.size .norm) = 0 <;> simp [h1, h2]
  · intro k
    dsimp only
    by_cases h1 : mul (a.size .normal) = 0 <;> by_cases h2 : mul (a.size .norm) = 0 <;> simp [h1, h2, Buf.init] <;> omega
  · intro k
    dsimp only
    by_cases h1 : mul (a.size .normal) = 0 <;> by_cases h2 : mul (a.size .norm) = 0 <;> simp [h1, h2, Buf.init] <;> omega

/-- **C136 (negation).** Without memory `init_rng` returns true all the same: the object is not initialised, no task runs, and the sizes stay enlarged, so
that another attempt asks for even more memory. -/
theorem init_hides_failure (mul : Nat → Nat) (alloc : Nat → Option (Nat → R)) (a : As σ δ R) (hm : a.main = none) (ht : a.tasks = [])
    (hp : mul (a.size .normal) + mul (a.size .norm) ≠ 0) (hal : alloc (mul (a.size .normal) + mul (a.size .norm)) = none) :
    ∃ a', a.initRng mul alloc = some (true, a') ∧ a'.isInitialized = false ∧ a'.tasks = [] ∧ ∀ t, a'.size t = mul (a.size t) := by
  unfold As.initRng As.initAsynch
  simp only [hm, Option.isSome_none, Bool.false_eq_true, if_false, hp, hal]
  refine ⟨_, rfl, ?_, ht, fun t => rfl⟩
  simp only [As.isInitialized, Option.isSome_none]

/-- **C136.** It never returns false; it aborts exactly if the object is initialised; and after `deinit_rng` it can be called again, with sizes that count from 0. -/
theorem init_protocol (mul : Nat → Nat) (alloc : Nat → Option (Nat → R)) (a : As σ δ R) :
    (∀ b a', a.initRng mul alloc = some (b, a') → b = true) ∧ (a.initRng mul alloc = none ↔ a.isInitialized = true) ∧
    a.deinitRng.isInitialized = false ∧ a.deinitRng.tasks = [] ∧ ∀ t, a.deinitRng.size t = 0 := by
  refine ⟨fun b a' h => (init_cases h).1, ?_, rfl, rfl, fun _ => rfl⟩
  constructor
  · intro h
    unfold As.initRng at h
    cases hm : a.main with
    | some n => simp [As.isInitialized, hm]
    | none =>
      exfalso
      split at h
      · rename_i heq
        unfold As.initAsynch at heq
        simp only [hm, Option.isSome_none, Bool.false_eq_true, if_false] at heq
        repeat' split at heq
        all_goals cases heq
      · cases h
  · intro h
    have h : a.main.isSome = true := h
    unfold As.initRng As.initAsynch
    simp only [h, if_true]

end Nntl.AsRng
