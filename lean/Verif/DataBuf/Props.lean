import Verif.DataBuf.Lemmas
import Mathlib.Tactic.Ring
/-! Property theorems C22-C24: the circular buffer of random numbers. -/
namespace Nntl.DataBuf
variable {α : Type}

/-- The invariant of the whole system. -/
structure SInv (total : Nat) (s : Sys α) (q : List α) : Prop where
  log : s.delivered = s.consumed ++ q
  good : Good s.buf q s.claims.sum
  pos : ∀ c ∈ s.claims, 0 < c
  acq : ∀ r, s.acq = some r → ∃ n, 0 < n ∧ n ≤ q.length ∧ r = fullRange s.buf.total s.buf.cur n
  total : s.buf.total = total

theorem sinv_step {G : Sys α → Nat → Prop} {total : Nat} {s s' : Sys α} {q : List α} (h : SInv total s q)
    (hG : ∀ n, G s n → NotAllClaimed s n) (hs : Step G s s') : ∃ q', SInv total s' q' := by
  have hlen : s.consumed.length < s.delivered.length ↔ 0 < q.length := by rw [h.log]; simp
  have guard : ∀ n, G s n → 0 < q.length ∨ s.claims.sum < s.buf.total := fun n hg => (hG n hg).imp_left hlen.1
  have cur : ∀ n, ((s.buf.shouldWork n).1).cur = s.buf.cur := by
    intro n
    unfold Buf.shouldWork
    dsimp only
    repeat' split
    all_goals rfl
  cases hs with
  | refused n hn hg hr =>
    obtain ⟨e1, e2, e3⟩ := shouldWork_good h.good n hn (guard n hg)
    rw [hr, Nat.add_zero] at e2
    refine ⟨q, h.log, e2, h.pos, ?_, e3.trans h.total⟩
    intro r hr'; obtain ⟨m, a, b, c⟩ := h.acq r hr'
    exact ⟨m, a, b, by rw [c]; simp only [e3, cur]⟩
  | claim n hn hg hr =>
    obtain ⟨e1, e2, e3⟩ := shouldWork_good h.good n hn (guard n hg)
    refine ⟨q, h.log, ?_, ?_, ?_, e3.trans h.total⟩
    · simp only [List.sum_cons]; rw [Nat.add_comm]; exact e2
    · intro c hc
      rcases List.mem_cons.1 hc with rfl | hc
      · omega
      · exact h.pos c hc
    · intro r hr'; obtain ⟨m, a, b, c⟩ := h.acq r hr'
      exact ⟨m, a, b, by rw [c]; simp only [e3, cur]⟩
  | deliver l1 l2 xs hc =>
    have hx : 0 < xs.length := h.pos _ (by rw [hc]; simp)
    have hsum : s.claims.sum = l1.sum + xs.length + l2.sum := by rw [hc]; simp; omega
    obtain ⟨g, e1, e2, -⟩ := done_good h.good xs hx (by omega)
    refine ⟨q ++ xs, by simp [h.log], ?_, ?_, ?_, e1.trans h.total⟩
    · have : (l1 ++ l2).sum = s.claims.sum - xs.length := by rw [hsum]; simp; omega
      dsimp only; rw [this]; exact g
    · intro c hcm
      exact h.pos c (by rw [hc]; simp at hcm ⊢; tauto)
    · intro r hr'; obtain ⟨m, a, b, c⟩ := h.acq r hr'
      exact ⟨m, a, by simp; omega, by rw [c]; simp only [e1, e2]⟩
  | acquire n r ha hr =>
    rw [acquire_good h.good] at hr
    split at hr
    · rename_i hh
      cases hr
      refine ⟨q, h.log, h.good, h.pos, ?_, h.total⟩
      intro r' hr'
      cases hr'
      exact ⟨n, hh.1, hh.2, rfl⟩
    · cases hr
  | release r k ha hk hkn =>
    obtain ⟨n, a, b, rfl⟩ := h.acq r ha
    rw [fullRange_size n h.good.cur] at hkn
    obtain ⟨g, e⟩ := release_good h.good hk hkn b
    refine ⟨q.drop k, ?_, g, h.pos, by simp, e.trans h.total⟩
    dsimp only
    rw [read_good h.good b, List.take_take, Nat.min_eq_left hkn, List.append_assoc, List.take_append_drop]
    exact h.log

theorem sinv_init {total : Nat} (h : 0 < total) (mem : Nat → α) : SInv total (Sys.init total mem) [] :=
  ⟨rfl, init_good total mem h, by simp [Sys.init], by simp [Sys.init], rfl⟩

theorem reach_sinv {G : Sys α → Nat → Prop} {total : Nat} (ht : 0 < total) {mem : Nat → α} {s : Sys α}
    (hG : ∀ s q n, SInv total s q → G s n → NotAllClaimed s n) (h : Reach G total mem s) : ∃ q, SInv total s q := by
  induction h with
  | init => exact ⟨[], sinv_init ht mem⟩
  | step _ hs ih => obtain ⟨q, hq⟩ := ih; exact sinv_step hq (fun n => hG _ q n hq) hs

theorem reach_one {total : Nat} (ht : 0 < total) {mem : Nat → α} {s : Sys α} (h : Reach OneClaim total mem s) : ∃ q, SInv total s q :=
  reach_sinv ht (fun s q n hs hg => Or.inr (by rw [show s.claims = [] from hg, hs.total]; simpa using ht)) h

/-- What the property promises about a state: the consumer has got a prefix of what was delivered, unchanged and in order; the buffer
presents the rest; a range that is held contains the first elements of the rest. -/
structure Fifo (s : Sys α) : Prop where
  prefix_ : s.consumed = s.delivered.take s.consumed.length
  presents : Presents s.buf (s.delivered.drop s.consumed.length)
  held : ∀ r, s.acq = some r → s.buf.read r = (s.delivered.drop s.consumed.length).take r.size ∧
    r.size ≤ s.delivered.length - s.consumed.length

theorem fifo_of_sinv {total : Nat} {s : Sys α} {q : List α} (h : SInv total s q) : Fifo s := by
  have hd : s.delivered.drop s.consumed.length = q := by rw [h.log]; simp
  refine ⟨by rw [h.log]; simp, by rw [hd]; exact presents_good h.good, ?_⟩
  intro r hr
  obtain ⟨n, -, b, rfl⟩ := h.acq r hr
  rw [hd, read_good h.good b, fullRange_size n h.good.cur]
  exact ⟨rfl, by rw [h.log]; simp; omega⟩

/-- **C22.** With at most one claim outstanding the buffer is a first-in first-out queue, for every capacity, in every history. -/
theorem buffer_is_fifo {total : Nat} (ht : 0 < total) {mem : Nat → α} {s : Sys α} (h : Reach OneClaim total mem s) : Fifo s := by
  obtain ⟨q, hq⟩ := reach_one ht h
  exact fifo_of_sinv hq

/-- The same for several producers, as long as none of them asks for more while all of the buffer is claimed and nothing is unread. -/
theorem buffer_is_fifo_several {total : Nat} (ht : 0 < total) {mem : Nat → α} {s : Sys α} (h : Reach NotAllClaimed total mem s) : Fifo s := by
  obtain ⟨q, hq⟩ := reach_sinv ht (fun s q n _ hg => hg) h
  exact fifo_of_sinv hq

/-- **C23 (partial).** Claimed space and unread data fit the buffer, unless a producer asks while all of the buffer is claimed and nothing
is unread. Missing: that case, where the claim is granted in error (`overclaim`). -/
theorem never_overclaims_partial {total : Nat} (ht : 0 < total) {mem : Nat → α} {s : Sys α} (h : Reach NotAllClaimed total mem s) :
    s.claims.sum + (s.delivered.length - s.consumed.length) ≤ total ∧ s.consumed.length ≤ s.delivered.length := by
  obtain ⟨q, hq⟩ := reach_sinv ht (fun s q n _ hg => hg) h
  have h1 := hq.good.fit
  have h2 := hq.total
  rw [hq.log]; simp
  omega

/-- **C23 (partial).** In particular for `p` producers whose requests are at most `N`, if the requests of all but one of them don't fill the buffer. -/
theorem bounded_producers_never_overclaim_partial {total p N : Nat} (ht : 0 < total) (hp : (p - 1) * N < total) {mem : Nat → α} {s : Sys α}
    (h : Reach (Producers p N) total mem s) :
    s.claims.sum + (s.delivered.length - s.consumed.length) ≤ total ∧ Fifo s := by
  have sum_le : ∀ l : List Nat, (∀ c ∈ l, c ≤ N) → l.sum ≤ l.length * N := by
    intro l hl
    induction l with
    | nil => simp
    | cons a l ih =>
      have := hl a (by simp)
      have := ih (fun c hc => hl c (List.mem_cons_of_mem _ hc))
      simp only [List.sum_cons, List.length_cons, Nat.add_mul]; omega
  have key : (∃ q, SInv total s q) ∧ ∀ c ∈ s.claims, c ≤ N := by
    induction h with
    | init => exact ⟨⟨[], sinv_init ht mem⟩, by simp [Sys.init]⟩
    | @step s s' _ hs ih =>
      obtain ⟨⟨q, hq⟩, hN⟩ := ih
      have guard : ∀ n, Producers p N s n → NotAllClaimed s n := by
        intro n hg
        right
        have h1 := sum_le _ hN
        have h2 : s.claims.length * N ≤ (p - 1) * N := Nat.mul_le_mul_right _ (by have := hg.1; omega)
        rw [hq.total]; omega
      refine ⟨sinv_step hq guard hs, ?_⟩
      have hl : s.consumed.length < s.delivered.length ↔ 0 < q.length := by rw [hq.log]; simp
      cases hs with
      | refused => exact hN
      | claim n hn hg hr =>
        intro c hc
        rcases List.mem_cons.1 hc with rfl | hc
        · rw [(shouldWork_good hq.good n hn ((guard n hg).imp_left hl.1)).1]
          have := hg.2
          omega
        · exact hN c hc
      | deliver l1 l2 xs hc => intro c hcm; exact hN c (by rw [hc]; simp at hcm ⊢; tauto)
      | acquire => exact hN
      | release => exact hN
  obtain ⟨⟨q, hq⟩, -⟩ := key
  refine ⟨?_, fifo_of_sinv hq⟩
  have h1 := hq.good.fit
  have h2 := hq.total
  rw [hq.log]; simp
  omega

/-- A request is granted as far as there is room (nothing is granted if and only if there is none). -/
theorem claim_amount {total : Nat} (ht : 0 < total) {mem : Nat → α} {s : Sys α} (h : Reach NotAllClaimed total mem s) (n : Nat) (hn : 0 < n)
    (hg : NotAllClaimed s n) :
    (s.buf.shouldWork n).2 = min n (total - (s.claims.sum + (s.delivered.length - s.consumed.length))) := by
  obtain ⟨q, hq⟩ := reach_sinv ht (fun s q n _ hg => hg) h
  have hl : s.consumed.length < s.delivered.length ↔ 0 < q.length := by rw [hq.log]; simp
  rw [(shouldWork_good hq.good n hn (hg.imp_left hl.1)).1, hq.total, hq.log]
  simp
  congr 1; omega

/-- **C24 (partial).** Acquiring and releasing a positive number of elements removes exactly these elements. Missing: zero elements, where
a full buffer is emptied (`zero_release_loses_data`). -/
theorem release_removes_acquired_partial {total : Nat} (ht : 0 < total) {mem : Nat → α} {s : Sys α} (h : Reach NotAllClaimed total mem s)
    (r : Range) (ha : s.acq = some r) (k : Nat) (hk : 0 < k) (hkr : k ≤ r.size) :
    Presents s.buf (s.delivered.drop s.consumed.length) ∧
    Presents (s.buf.release (r.shrink k)) ((s.delivered.drop s.consumed.length).drop k) := by
  obtain ⟨q, hq⟩ := reach_sinv ht (fun s q n _ hg => hg) h
  have hd : s.delivered.drop s.consumed.length = q := by rw [hq.log]; simp
  obtain ⟨n, a, b, rfl⟩ := hq.acq r ha
  rw [fullRange_size n hq.good.cur] at hkr
  rw [hd]
  exact ⟨presents_good hq.good, presents_good (release_good hq.good hk hkr b).1⟩

theorem shrink_self {r : Range} : r.shrink r.size = r := by
  cases r <;> simp [Range.shrink, Range.size]

/-- **C24 (partial).** `_move_data`: the caller gets the first `n` unread elements if there are so many, and exactly these are removed. -/
theorem move_data_partial {total : Nat} (ht : 0 < total) {mem : Nat → α} {s : Sys α} (h : Reach NotAllClaimed total mem s) (n : Nat) :
    if 0 < n ∧ n ≤ s.delivered.length - s.consumed.length then
      ∃ b, s.buf.moveData n = some ((s.delivered.drop s.consumed.length).take n, b) ∧
        Presents b ((s.delivered.drop s.consumed.length).drop n)
    else s.buf.moveData n = none := by
  obtain ⟨q, hq⟩ := reach_sinv ht (fun s q n _ hg => hg) h
  have hd : s.delivered.drop s.consumed.length = q := by rw [hq.log]; simp
  have hl : s.delivered.length - s.consumed.length = q.length := by rw [hq.log]; simp
  rw [hd, hl]
  split
  · rename_i hn
    refine ⟨s.buf.release (fullRange s.buf.total s.buf.cur n), ?_, ?_⟩
    · have hr := read_good hq.good hn.2
      unfold Buf.moveData
      rw [acquire_good hq.good, if_pos hn]
      cases hf : fullRange s.buf.total s.buf.cur n with
      | one p n1 => rw [hf] at hr; rw [← hr]; rfl
      | two p n1 n2 => rw [hf] at hr; rw [← hr]; rfl
    · have := (release_good hq.good hn.1 (Nat.le_refl n) hn.2).1
      have e := shrink_self (r := fullRange s.buf.total s.buf.cur n)
      rw [fullRange_size n hq.good.cur] at e
      rw [e] at this
      exact presents_good this
  · rename_i hn
    unfold Buf.moveData
    rw [acquire_good hq.good, if_neg hn]

/-- The feeder hands out the elements of the range one by one and then refuses. -/
theorem feed_eq (b : Buf α) (r : Range) (k : Nat) : b.feed r k = (b.read r)[k]? := by
  cases r with
  | one p n =>
    simp only [Buf.feed, Buf.read]
    split
    · rw [List.getElem?_eq_none (by simp; omega)]
    · rw [List.getElem?_eq_getElem (by simp; omega)]; simp
  | two p n1 n2 =>
    simp only [Buf.feed, Buf.read]
    split
    · split
      · rw [List.getElem?_eq_none (by simp; omega)]
      · rw [List.getElem?_eq_getElem (by simp; omega), List.getElem_append_right (by simp; omega)]; simp
    · rw [List.getElem?_eq_getElem (by simp; omega), List.getElem_append_left (by simp; omega)]; simp

/-! ### The properties that do not hold -/

/-- Steps used by the witnesses. -/
theorem step_claim {G : Sys α → Nat → Prop} {total : Nat} {mem : Nat → α} {s : Sys α} (h : Reach G total mem s) (n : Nat) (hn : 0 < n)
    (hg : G s n) (hr : (s.buf.shouldWork n).2 ≠ 0) :
    Reach G total mem { s with buf := (s.buf.shouldWork n).1, claims := (s.buf.shouldWork n).2 :: s.claims } := .step h (.claim s n hn hg hr)

/-- **C23 does not hold.** Capacity 10: a producer delivers 5 elements, the consumer takes them. Then two producers ask for 10 elements
each (or any numbers that first add up to the capacity): both requests are granted, 20 elements are claimed. -/
theorem overclaim (mem : Nat → Nat) : ∃ s : Sys Nat, Reach Any 10 mem s ∧ s.claims = [10, 10] ∧ 10 < s.claims.sum := by
  have h0 : Reach Any 10 mem (Sys.init 10 mem) := .init
  have h1 := Reach.step h0 (.claim _ 5 (by decide) trivial (by simp [Sys.init, Buf.init, Buf.shouldWork]))
  have h2 := Reach.step h1 (.deliver _ [] [] [1, 2, 3, 4, 5] (by simp [Sys.init, Buf.init, Buf.shouldWork]))
  have h3 := Reach.step h2 (.acquire _ 5 (.one 0 5) rfl (by simp [Sys.init, Buf.init, Buf.shouldWork, Buf.done, Buf.acquire]))
  have h4 := Reach.step h3 (.release _ (.one 0 5) 5 rfl (by decide) (by decide))
  have h5 := Reach.step h4 (.claim _ 10 (by decide) trivial
    (by simp [Sys.init, Buf.init, Buf.shouldWork, Buf.done, Buf.acquire, Buf.release, Range.shrink]))
  have h6 := Reach.step h5 (.claim _ 10 (by decide) trivial
    (by simp [Sys.init, Buf.init, Buf.shouldWork, Buf.done, Buf.acquire, Buf.release, Range.shrink]))
  refine ⟨_, h6, ?_, ?_⟩ <;> simp [Sys.init, Buf.init, Buf.shouldWork, Buf.done, Buf.acquire, Buf.release, Range.shrink]

/-- The consequence: elements that were delivered are lost. Both producers of `overclaim` deliver, 20 elements in a buffer of 10. -/
theorem overclaim_loses_data (mem : Nat → Nat) : ∃ s : Sys Nat, Reach Any 10 mem s ∧ ¬ Fifo s ∧ s.claims = [] := by
  have h0 : Reach Any 10 mem (Sys.init 10 mem) := .init
  have h1 := Reach.step h0 (.claim _ 5 (by decide) trivial (by simp [Sys.init, Buf.init, Buf.shouldWork]))
  have h2 := Reach.step h1 (.deliver _ [] [] [1, 2, 3, 4, 5] (by simp [Sys.init, Buf.init, Buf.shouldWork]))
  have h3 := Reach.step h2 (.acquire _ 5 (.one 0 5) rfl (by simp [Sys.init, Buf.init, Buf.shouldWork, Buf.done, Buf.acquire]))
  have h4 := Reach.step h3 (.release _ (.one 0 5) 5 rfl (by decide) (by decide))
  have h5 := Reach.step h4 (.claim _ 10 (by decide) trivial
    (by simp [Sys.init, Buf.init, Buf.shouldWork, Buf.done, Buf.acquire, Buf.release, Range.shrink]))
  have h6 := Reach.step h5 (.claim _ 10 (by decide) trivial
    (by simp [Sys.init, Buf.init, Buf.shouldWork, Buf.done, Buf.acquire, Buf.release, Range.shrink]))
  have h7 := Reach.step h6 (.deliver _ [] [10] [11, 12, 13, 14, 15, 16, 17, 18, 19, 20]
    (by simp [Sys.init, Buf.init, Buf.shouldWork, Buf.done, Buf.acquire, Buf.release, Range.shrink]))
  have h8 := Reach.step h7 (.deliver _ [] [] [21, 22, 23, 24, 25, 26, 27, 28, 29, 30] (by simp))
  refine ⟨_, h8, ?_, rfl⟩
  intro hf
  have hp := hf.presents 1
  simp [Sys.init, Buf.init, Buf.shouldWork, Buf.done, Buf.acquire, Buf.release, Range.shrink, Range.size, Buf.read, copy2buf] at hp

/-- **C24 does not hold for zero elements.** Capacity 4, full, the consumer holds a range but has used none of it (`CircBufferFeeder` with no
call of `next`, then `shrink`): releasing makes all four unread elements unavailable. -/
theorem zero_release_loses_data (mem : Nat → Nat) : ∃ (s : Sys Nat) (r : Range), Reach OneClaim 4 mem s ∧ s.acq = some r ∧
    Presents s.buf [3, 4, 5, 6] ∧ Presents (s.buf.release (r.shrink 0)) [] := by
  have h0 : Reach OneClaim 4 mem (Sys.init 4 mem) := .init
  have h1 := Reach.step h0 (.claim _ 4 (by decide) rfl (by simp [Sys.init, Buf.init, Buf.shouldWork]))
  have h2 := Reach.step h1 (.deliver _ [] [] [1, 2, 3, 4] (by simp [Sys.init, Buf.init, Buf.shouldWork]))
  have h3 := Reach.step h2 (.acquire _ 2 (.one 0 2) rfl (by simp [Sys.init, Buf.init, Buf.shouldWork, Buf.done, Buf.acquire]))
  have h4 := Reach.step h3 (.release _ (.one 0 2) 2 rfl (by decide) (by decide))
  have h5 := Reach.step h4 (.claim _ 2 (by decide) rfl
    (by simp [Sys.init, Buf.init, Buf.shouldWork, Buf.done, Buf.acquire, Buf.release, Range.shrink]))
  have h6 := Reach.step h5 (.deliver _ [] [] [5, 6]
    (by simp [Sys.init, Buf.init, Buf.shouldWork, Buf.done, Buf.acquire, Buf.release, Range.shrink]))
  have h7 := Reach.step h6 (.acquire _ 1 (.one 2 1) rfl
    (by simp [Sys.init, Buf.init, Buf.shouldWork, Buf.done, Buf.acquire, Buf.release, Range.shrink]))
  refine ⟨_, .one 2 1, h7, rfl, ?_, ?_⟩
  · have := (buffer_is_fifo (by decide) h7).presents
    simpa [Sys.init, Buf.init, Buf.shouldWork, Buf.done, Buf.acquire, Buf.release, Range.shrink, Range.size, Buf.read, copy2buf] using this
  · intro n
    rw [if_neg (by simp; omega)]
    simp [Sys.init, Buf.init, Buf.shouldWork, Buf.done, Buf.acquire, Buf.release, Range.shrink]

/-! ### The hypotheses can be met -/

/-- Three producers with requests of four, capacity ten: two claims are outstanding at once. -/
example (mem : Nat → Nat) : ∃ s : Sys Nat, Reach (Producers 3 4) 10 mem s ∧ s.claims = [4, 4] ∧ (3 - 1) * 4 < 10 := by
  have h0 : Reach (Producers 3 4) 10 mem (Sys.init 10 mem) := .init
  have h1 := Reach.step h0 (.claim _ 4 (by decide) ⟨by simp [Sys.init], by decide⟩ (by simp [Sys.init, Buf.init, Buf.shouldWork]))
  have h2 := Reach.step h1 (.claim _ 4 (by decide) ⟨by simp [Sys.init], by decide⟩ (by simp [Sys.init, Buf.init, Buf.shouldWork]))
  exact ⟨_, h2, by simp [Sys.init, Buf.init, Buf.shouldWork], by decide⟩

end Nntl.DataBuf
