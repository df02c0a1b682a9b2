import Verif.DataBuf.Props
/-! What holds of the circular buffer in all histories, also when more space is claimed than there is (C133). -/
namespace Nntl.DataBuf
variable {α : Type}

/-- Cells up to the last delivered one hold delivered values; once the producers went around, all cells do. -/
structure Inv (b : Buf α) (D : List α) : Prop where
  cur : b.cur ≤ b.total
  alv : b.alv ≤ b.total
  alc : b.alc ≤ b.total
  data : (∀ k, k < b.total → b.mem k ∈ D) ∨
    (b.cur ≤ b.alv ∧ (b.empty = false → b.cur < b.alv) ∧ ∀ k, k < b.alv → b.mem k ∈ D)

/-- Cells of a range. -/
def Range.Has : Range → Nat → Prop
  | .one p n, k => p ≤ k ∧ k < p + n
  | .two p n1 n2, k => (p ≤ k ∧ k < p + n1) ∨ k < n2

/-- What is known of the range the consumer holds. -/
structure Held (b : Buf α) (D : List α) (r : Range) : Prop where
  inside : ∀ k, r.Has k → k < b.total ∧ b.mem k ∈ D
  next : match r with
    | .one p n => p = b.cur ∧ p + n ≤ b.total ∧ ((∀ k, k < b.total → b.mem k ∈ D) ∨ p + n ≤ b.alv)
    | .two p n1 n2 => p = b.cur ∧ p + n1 ≤ b.total ∧ n2 ≤ b.total ∧ ∀ k, k < b.total → b.mem k ∈ D

theorem inv_init (total : Nat) (mem : Nat → α) : Inv (Buf.init total mem) [] :=
  ⟨Nat.zero_le _, Nat.zero_le _, Nat.zero_le _, .inr ⟨Nat.le_refl _, by simp [Buf.init], by simp [Buf.init]⟩⟩

theorem shouldWork_keeps (b : Buf α) (n : Nat) : (b.shouldWork n).1.total = b.total ∧ (b.shouldWork n).1.mem = b.mem ∧
    (b.shouldWork n).1.cur = b.cur ∧ (b.shouldWork n).1.alv = b.alv ∧ (b.shouldWork n).1.empty = b.empty := by
  unfold Buf.shouldWork
  dsimp only
  repeat' split
  all_goals exact ⟨rfl, rfl, rfl, rfl, rfl⟩

theorem shouldWork_alc {b : Buf α} (hc : b.cur ≤ b.total) (ha : b.alc ≤ b.total) (n : Nat) : (b.shouldWork n).1.alc ≤ b.total := by
  unfold Buf.shouldWork
  dsimp only
  repeat' split
  all_goals (dsimp only; omega)

theorem shouldWork_le (b : Buf α) (n : Nat) : (b.shouldWork n).2 ≤ n := by
  unfold Buf.shouldWork
  dsimp only
  repeat' split
  all_goals (dsimp only; omega)

theorem inv_shouldWork {b : Buf α} {D : List α} (h : Inv b D) (n : Nat) : Inv (b.shouldWork n).1 D := by
  obtain ⟨h1, h2, h3, h4, h5⟩ := shouldWork_keeps b n
  have h6 := shouldWork_alc h.cur h.alc n
  refine ⟨by rw [h3, h1]; exact h.cur, by rw [h4, h1]; exact h.alv, by rw [h1]; exact h6, ?_⟩
  rw [h1, h2, h3, h4, h5]; exact h.data

theorem held_shouldWork {b : Buf α} {D : List α} {r : Range} (h : Held b D r) (n : Nat) : Held (b.shouldWork n).1 D r := by
  obtain ⟨h1, h2, h3, h4, h5⟩ := shouldWork_keeps b n
  refine ⟨by rw [h1, h2]; exact h.inside, ?_⟩
  have := h.next
  cases r <;> (dsimp only at this ⊢; rw [h1, h2, h3]; try rw [h4]) <;> exact this

theorem acquire_held {b : Buf α} {D : List α} (h : Inv b D) {n : Nat} {r : Range} (ha : b.acquire n = some r) : Held b D r ∧ r.size = n := by
  have hc := h.cur
  have hv := h.alv
  unfold Buf.acquire at ha
  split at ha
  case isFalse => exact absurd ha (by simp)
  rename_i hne
  have hne' : b.empty = false := by cases hb : b.empty <;> simp_all
  split at ha
  · rename_i hlt
    split at ha
    case isFalse => exact absurd ha (by simp)
    rename_i hle
    obtain rfl := Option.some.inj ha
    refine ⟨⟨fun k hk => ?_, rfl, by omega, .inr hle⟩, rfl⟩
    have hk' : k < b.alv := by have := hk.2; omega
    refine ⟨by omega, ?_⟩
    rcases h.data with hd | ⟨-, -, hd⟩
    · exact hd k (by omega)
    · exact hd k hk'
  · rename_i hge
    have hall : ∀ k, k < b.total → b.mem k ∈ D := by
      rcases h.data with hd | ⟨-, he, -⟩
      · exact hd
      · exact absurd (he hne') hge
    split at ha
    · rename_i hle
      obtain rfl := Option.some.inj ha
      exact ⟨⟨fun k hk => ⟨by have := hk.2; omega, hall k (by have := hk.2; omega)⟩, rfl, hle, .inl hall⟩, rfl⟩
    · rename_i hgt
      dsimp only at ha
      split at ha
      case isFalse => exact absurd ha (by simp)
      rename_i hle
      obtain rfl := Option.some.inj ha
      refine ⟨⟨fun k hk => ?_, rfl, by omega, by omega, hall⟩, by simp only [Range.size]; omega⟩
      have : k < b.total := by rcases hk with hk | hk <;> omega
      exact ⟨this, hall k this⟩

theorem copy_in {mem : Nat → α} {D xs ys : List α} {ofs k : Nat} (h : mem k ∈ D ∨ (ofs ≤ k ∧ k < ofs + xs.length))
    (hx : ∀ x ∈ xs, x ∈ ys) : copy2buf mem ofs xs k ∈ D ++ ys := by
  unfold copy2buf
  by_cases c : ofs ≤ k
  · rw [if_pos c]
    by_cases c2 : k - ofs < xs.length
    · rw [List.getElem?_eq_getElem c2]
      exact List.mem_append_right _ (hx _ (List.getElem_mem c2))
    · rw [List.getElem?_eq_none (by omega)]
      rcases h with h | h
      · exact List.mem_append_left _ h
      · omega
  · rw [if_neg c]
    rcases h with h | h
    · exact List.mem_append_left _ h
    · omega

/-- The outcome of a delivery: where the new values are, and nothing that was a delivered value ceases to be one. -/
theorem inv_done {b : Buf α} {D xs : List α} (h : Inv b D) (hx : xs ≠ []) :
    Inv (b.done xs) (D ++ xs) ∧ (b.done xs).total = b.total ∧ (b.done xs).cur = b.cur ∧
    (∀ k, b.mem k ∈ D → (b.done xs).mem k ∈ D ++ xs) ∧
    ((∀ k, k < b.total → (b.done xs).mem k ∈ D ++ xs) ∨ b.alv ≤ (b.done xs).alv) := by
  have hl : 0 < xs.length := List.length_pos_iff.2 hx
  have hc := h.cur
  have hv := h.alv
  have hcl := h.alc
  unfold Buf.done
  dsimp only
  by_cases c1 : b.alv < b.alc
  · simp only [c1, if_true]
    generalize hds : (if b.alc - b.alv < xs.length then b.alc - b.alv else xs.length) = ds
    have hds' : 0 < ds ∧ ds ≤ xs.length ∧ b.alv + ds ≤ b.alc := by rw [← hds]; split <;> omega
    have key : ∀ k, (b.mem k ∈ D ∨ (b.alv ≤ k ∧ k < b.alv + ds)) → copy2buf b.mem b.alv (xs.take ds) k ∈ D ++ xs := by
      intro k hk
      refine copy_in ?_ (fun x hx => List.mem_of_mem_take hx)
      rw [List.length_take, Nat.min_eq_left hds'.2.1]; exact hk
    refine ⟨⟨hc, by dsimp only; omega, hcl, ?_⟩, trivial, trivial, fun k hk => key k (.inl hk), .inr (by omega)⟩
    rcases h.data with hd | ⟨h1, -, hd⟩
    · exact .inl fun k hk => key k (.inl (hd k hk))
    · refine .inr ⟨by dsimp only; omega, fun _ => by dsimp only; omega, fun k hk => key k ?_⟩
      dsimp only at hk
      by_cases c : k < b.alv
      · exact .inl (hd k c)
      · exact .inr ⟨by omega, by omega⟩
  · simp only [c1, if_false]
    by_cases c2 : b.total - b.alv ≥ xs.length
    · simp only [c2, if_true]
      have key : ∀ k, (b.mem k ∈ D ∨ (b.alv ≤ k ∧ k < b.alv + xs.length)) → copy2buf b.mem b.alv xs k ∈ D ++ xs :=
        fun k hk => copy_in hk (fun x hx => hx)
      refine ⟨⟨hc, by dsimp only; omega, hcl, ?_⟩, trivial, trivial, fun k hk => key k (.inl hk), .inr (by omega)⟩
      rcases h.data with hd | ⟨h1, -, hd⟩
      · exact .inl fun k hk => key k (.inl (hd k hk))
      · refine .inr ⟨by dsimp only; omega, fun _ => by dsimp only; omega, fun k hk => key k ?_⟩
        dsimp only at hk
        by_cases c : k < b.alv
        · exact .inl (hd k c)
        · exact .inr ⟨by omega, by omega⟩
    · simp only [c2, if_false]
      generalize hbs : (if xs.length - (b.total - b.alv) < b.alc then xs.length - (b.total - b.alv) else b.alc) = bs2
      have hbs' : bs2 ≤ b.alc ∧ bs2 ≤ xs.length - (b.total - b.alv) := by rw [← hbs]; split <;> omega
      generalize hm : (if b.total - b.alv ≠ 0 then copy2buf b.mem b.alv (xs.take (b.total - b.alv)) else b.mem) = mem1
      have k1 : ∀ k, (b.mem k ∈ D ∨ (b.alv ≤ k ∧ k < b.total)) → mem1 k ∈ D ++ xs := by
        intro k hk
        rw [← hm]
        split
        · refine copy_in ?_ (fun x hx => List.mem_of_mem_take hx)
          rw [List.length_take, Nat.min_eq_left (by omega)]
          rcases hk with hk | hk
          · exact .inl hk
          · exact .inr ⟨hk.1, by omega⟩
        · rcases hk with hk | hk
          · exact List.mem_append_left _ hk
          · omega
      have k2 : ∀ k, mem1 k ∈ D ++ xs → copy2buf mem1 0 (List.take bs2 (List.drop (b.total - b.alv) xs)) k ∈ D ++ xs := by
        intro k hk
        unfold copy2buf
        rw [if_pos (Nat.zero_le _)]
        cases hg : (List.take bs2 (List.drop (b.total - b.alv) xs))[k - 0]? with
        | none => exact hk
        | some y =>
          exact List.mem_append_right _ (List.mem_of_mem_drop (List.mem_of_mem_take (List.mem_of_getElem? hg)))
      have all : ∀ k, k < b.total → mem1 k ∈ D ++ xs := by
        intro k hk
        apply k1
        rcases h.data with hd | ⟨-, -, hd⟩
        · exact .inl (hd k hk)
        · by_cases c : k < b.alv
          · exact .inl (hd k c)
          · exact .inr ⟨by omega, hk⟩
      exact ⟨⟨hc, by dsimp only; omega, hcl, .inl fun k hk => k2 k (all k hk)⟩, trivial, trivial, fun k hk => k2 k (k1 k (.inl hk)),
        .inl fun k hk => k2 k (all k hk)⟩

theorem held_done {b : Buf α} {D xs : List α} {r : Range} (h : Inv b D) (hr : Held b D r) (hx : xs ≠ []) : Held (b.done xs) (D ++ xs) r := by
  obtain ⟨-, h1, h2, h3, h4⟩ := inv_done h hx
  refine ⟨fun k hk => ?_, ?_⟩
  · rw [h1]; exact ⟨(hr.inside k hk).1, h3 k (hr.inside k hk).2⟩
  · have := hr.next
    cases r with
    | one p n =>
      dsimp only at this ⊢
      rw [h1, h2]
      refine ⟨this.1, this.2.1, ?_⟩
      rcases this.2.2 with hd | hd
      · exact .inl fun k hk => h3 k (hd k hk)
      · exact h4.imp_right fun h => Nat.le_trans hd h
    | two p n1 n2 =>
      dsimp only at this ⊢
      rw [h1, h2]
      exact ⟨this.1, this.2.1, this.2.2.1, fun k hk => h3 k (this.2.2.2 k hk)⟩

theorem inv_release {b : Buf α} {D : List α} {r : Range} (h : Inv b D) (hr : Held b D r) : Inv (b.release r) D := by
  have hc := h.cur
  have hv := h.alv
  have hcl := h.alc
  have hn := hr.next
  unfold Buf.release
  cases r with
  | one p n =>
    dsimp only at hn ⊢
    obtain ⟨rfl, hle, hd⟩ := hn
    by_cases c : b.cur + n ≥ b.total
    · rw [if_pos c]
      dsimp only
      have hall : ∀ k, k < b.total → b.mem k ∈ D := by
        rcases hd with hd | hd
        · exact hd
        · rcases h.data with h' | ⟨-, -, h'⟩
          · exact h'
          · exact fun k hk => h' k (by omega)
      refine ⟨Nat.zero_le _, ?_, ?_, .inl hall⟩ <;> dsimp only <;> split <;> omega
    · rw [if_neg c]
      dsimp only
      refine ⟨hle, hv, hcl, ?_⟩
      rcases hd with hd | hd
      · exact .inl hd
      · rcases h.data with h' | ⟨-, -, h'⟩
        · exact .inl h'
        · refine .inr ⟨hd, fun he => ?_, h'⟩
          have : b.cur + n ≠ b.alv := by simpa using he
          dsimp only; omega
  | two p n1 n2 =>
    dsimp only at hn ⊢
    by_cases c : n2 ≥ b.total
    · rw [if_pos c]
      dsimp only
      refine ⟨Nat.zero_le _, ?_, ?_, .inl hn.2.2.2⟩ <;> dsimp only <;> split <;> omega
    · rw [if_neg c]
      exact ⟨by dsimp only; omega, hv, hcl, .inl hn.2.2.2⟩

theorem held_shrink {b : Buf α} {D : List α} {r : Range} (hr : Held b D r) {k : Nat} (hk : k ≤ r.size) : Held b D (r.shrink k) := by
  have hn := hr.next
  cases r with
  | one p n =>
    simp only [Range.shrink]
    split
    · exact hr
    · dsimp only at hn
      refine ⟨fun j hj => hr.inside j ⟨hj.1, by have := hj.2; omega⟩, hn.1, by omega, hn.2.2.imp_right fun h => by omega⟩
  | two p n1 n2 =>
    simp only [Range.shrink, Range.size] at hk ⊢
    dsimp only at hn
    split
    · refine ⟨fun j hj => hr.inside j ?_, hn.1, hn.2.1, by omega, hn.2.2.2⟩
      rcases hj with hj | hj
      · exact .inl hj
      · exact .inr (by omega)
    · exact ⟨fun j hj => hr.inside j (.inl ⟨hj.1, by have := hj.2; omega⟩), hn.1, by omega, .inl hn.2.2.2⟩

theorem read_in {b : Buf α} {D : List α} {r : Range} (hr : Held b D r) : ∀ x ∈ b.read r, x ∈ D := by
  intro x hx
  cases r with
  | one p n =>
    simp only [Buf.read, List.mem_map, List.mem_range] at hx
    obtain ⟨i, hi, rfl⟩ := hx
    exact (hr.inside (p + i) ⟨by omega, by omega⟩).2
  | two p n1 n2 =>
    simp only [Buf.read, List.mem_append, List.mem_map, List.mem_range] at hx
    rcases hx with ⟨i, hi, rfl⟩ | ⟨i, hi, rfl⟩
    · exact (hr.inside (p + i) (.inl ⟨by omega, by omega⟩)).2
    · exact (hr.inside i (.inr hi)).2

/-- The state of the system in any history. -/
structure SysInv (s : Sys α) : Prop where
  inv : Inv s.buf s.delivered
  claims : ∀ c ∈ s.claims, c ≠ 0
  acq : ∀ r, s.acq = some r → Held s.buf s.delivered r
  consumed : ∀ x ∈ s.consumed, x ∈ s.delivered

theorem sysInv_step {G : Sys α → Nat → Prop} {s s' : Sys α} (h : SysInv s) (hs : Step G s s') : SysInv s' := by
  cases hs with
  | refused n hn hg hr => exact ⟨inv_shouldWork h.inv n, h.claims, fun r hr => held_shouldWork (h.acq r hr) n, h.consumed⟩
  | claim n hn hg hr =>
    refine ⟨inv_shouldWork h.inv n, fun c hc => ?_, fun r hr => held_shouldWork (h.acq r hr) n, h.consumed⟩
    rcases List.mem_cons.1 hc with rfl | hc
    · exact hr
    · exact h.claims c hc
  | deliver l1 l2 xs hc =>
    have hx : xs ≠ [] := by
      intro e
      exact h.claims xs.length (by rw [hc]; simp) (by simp [e])
    refine ⟨(inv_done h.inv hx).1, fun c hm => h.claims c ?_, fun r hr => held_done h.inv (h.acq r hr) hx,
      fun x hx => List.mem_append_left _ (h.consumed x hx)⟩
    rw [hc]; simp at hm ⊢; tauto
  | acquire n r ha hr =>
    refine ⟨h.inv, h.claims, fun r' hr' => ?_, h.consumed⟩
    obtain rfl := Option.some.inj hr'
    exact (acquire_held h.inv hr).1
  | release r k ha hk hkn =>
    have hh := h.acq r ha
    refine ⟨inv_release h.inv (held_shrink hh hkn), h.claims, by simp, fun x hx => ?_⟩
    rcases List.mem_append.1 hx with hx | hx
    · exact h.consumed x hx
    · exact read_in hh x (List.mem_of_mem_take hx)

theorem reach_sysInv {G : Sys α → Nat → Prop} {total : Nat} {mem : Nat → α} {s : Sys α} (h : Reach G total mem s) : SysInv s := by
  induction h with
  | init => exact ⟨inv_init total mem, by simp [Sys.init], by simp [Sys.init], by simp [Sys.init]⟩
  | step _ hs ih => exact sysInv_step ih hs

theorem total_const {G : Sys α → Nat → Prop} {total : Nat} {mem : Nat → α} {s : Sys α} (h : Reach G total mem s) : s.buf.total = total := by
  induction h with
  | init => rfl
  | @step s s' hr hs ih =>
    have hi := reach_sysInv hr
    cases hs with
    | refused n => rw [← ih]; exact (shouldWork_keeps _ _).1
    | claim n => rw [← ih]; exact (shouldWork_keeps _ _).1
    | deliver l1 l2 xs hc =>
      have hx : xs ≠ [] := by
        intro e
        exact hi.claims xs.length (by rw [hc]; simp) (by simp [e])
      rw [← ih]; exact (inv_done hi.inv hx).2.1
    | acquire => exact ih
    | release r k =>
      rw [← ih]
      simp only [Buf.release]
      repeat' split
      all_goals rfl

/-- Cells the consumer reads: those of the one or two arrays of the range. -/
def Range.cells : Range → List Nat
  | .one p n => (List.range n).map (p + ·)
  | .two p n1 n2 => (List.range n1).map (p + ·) ++ List.range n2

/-- **C133.** In every history, with any number of producers and requests of any sizes: the consumer never gets a value that no producer has
delivered (memory that was not filled yet), it reads inside of the buffer only, and that stays true while it holds the range and the
producers go on; it gets as many cells as it asked for. -/
theorem only_delivered_values {total : Nat} {mem : Nat → α} {s : Sys α} (h : Reach Any total mem s) :
    (∀ x ∈ s.consumed, x ∈ s.delivered) ∧
    (∀ r, s.acq = some r → ∀ k ∈ r.cells, k < total ∧ s.buf.mem k ∈ s.delivered) ∧
    ∀ n r, s.buf.acquire n = some r → r.cells.length = n ∧ n ≠ 0 := by
  have hi := reach_sysInv h
  refine ⟨hi.consumed, fun r hr k hk => ?_, fun n r hr => ?_⟩
  · have hh := hi.acq r hr
    rw [← total_const h]
    apply hh.inside
    cases r with
    | one p n =>
      simp only [Range.cells, List.mem_map, List.mem_range] at hk
      obtain ⟨i, hi, rfl⟩ := hk
      exact ⟨by omega, by omega⟩
    | two p n1 n2 =>
      simp only [Range.cells, List.mem_append, List.mem_map, List.mem_range] at hk
      rcases hk with ⟨i, hi, rfl⟩ | hk
      · exact .inl ⟨by omega, by omega⟩
      · exact .inr hk
  · refine ⟨?_, ?_⟩
    · have := (acquire_held hi.inv hr).2
      cases r <;> simpa [Range.cells, Range.size] using this
    · rintro rfl
      simp [Buf.acquire] at hr

/-- A range is held while producers deliver: the hypotheses are met also where more is claimed than there is room (`overclaim`). -/
example (mem : Nat → Nat) : ∃ s, Reach Any 10 mem s ∧ 10 < s.claims.sum := by
  obtain ⟨s, h, -, h2⟩ := overclaim mem
  exact ⟨s, h, h2⟩

end Nntl.DataBuf
