import Verif.KOrd.Spec
import Mathlib.Order.Basic
import Mathlib.Tactic.Order
import Mathlib.Data.List.Basic
namespace Nntl.KOrd
variable {α : Type}

theorem findHi_spec (better : α → α → Bool) (c : Cache α) (v : α) : ∀ n hi, hi ≤ findHi better c v n hi ∧ findHi better c v n hi ≤ hi + n ∧
    (∀ j, hi ≤ j → j < findHi better c v n hi → better (c j).1 v = false) ∧
    (findHi better c v n hi < hi + n → better (c (findHi better c v n hi)).1 v = true) := by
  intro n
  induction n with
  | zero => intro hi; simp only [findHi]; exact ⟨Nat.le_refl _, Nat.le_refl _, fun j h1 h2 => by omega, fun h => by omega⟩
  | succ n ih =>
    intro hi
    simp only [findHi]
    by_cases h : better (c hi).1 v = true
    · rw [if_pos h]; exact ⟨Nat.le_refl _, by omega, fun j h1 h2 => by omega, fun _ => h⟩
    · rw [if_neg h]
      obtain ⟨a1, a2, a3, a4⟩ := ih (hi + 1)
      refine ⟨by omega, by omega, fun j h1 h2 => ?_, fun hl => a4 (by omega)⟩
      by_cases hj : j = hi
      · subst hj; simpa using h
      · exact a3 j (by omega) h2

theorem shiftLoop_spec : ∀ n hj (c : Cache α) j, shiftLoop n hj c j = if hj ≤ j ∧ j < hj + n then c (j + 1) else c j := by
  intro n
  induction n with
  | zero => intro hj c j; simp only [shiftLoop]; rw [if_neg (by omega)]
  | succ n ih =>
    intro hj c j
    simp only [shiftLoop]
    rw [ih]
    by_cases h : j = hj
    · subst h
      rw [if_neg (by omega), if_pos (by omega)]
      simp [put]
    · simp only [put, if_neg h]
      by_cases h2 : hj + 1 ≤ j ∧ j < hj + 1 + n
      · rw [if_pos h2, if_neg (by omega), if_pos (by omega)]
      · rw [if_neg h2, if_neg (by omega)]

/-- The cache after an insertion at position `p`. -/
theorem ins_at (c : Cache α) (p : Nat) (e : Entry α) (j : Nat) :
    put (shiftLoop p 0 c) p e j = if j < p then c (j + 1) else if j = p then e else c j := by
  simp only [put, shiftLoop_spec]
  by_cases h : j = p
  · rw [if_pos h, if_neg (by omega), if_pos h]
  · rw [if_neg h, if_neg h]
    by_cases h2 : j < p
    · rw [if_pos (by omega), if_pos h2]
    · rw [if_neg (by omega), if_neg h2]

section strict
variable [LinearOrder α] {better : α → α → Bool} {ext : α} {k : Nat}

/-- What `feed` does. -/
theorem feed_cases (hb : ∀ a b, better a b = true ↔ b < a) (hk : 0 < k) (c : Cache α) (v : α) (i : Nat)
    (hasc : ∀ i j, i < j → j < k → (c i).1 < (c j).1 ∨ ((c i).1 = ext ∧ (c j).1 = ext)) (hext : ∀ a, ext ≤ a) :
    (feed better ext k c v i = c ∧ (v ≤ (c 0).1 ∨ ∃ j < k, (c j).1 = v)) ∨
    ∃ p < k, (∀ j, feed better ext k c v i j = if j < p then c (j + 1) else if j = p then (v, some i) else c j) ∧
      (∀ j ≤ p, (c j).1 < v) ∧ ∀ j, p < j → j < k → v < (c j).1 := by
  have hbe : better ext ext = false := by
    rw [Bool.eq_false_iff]; intro h; exact lt_irrefl _ ((hb _ _).1 h)
  unfold feed
  by_cases h0 : better v (c 0).1 = true
  · rw [if_pos h0]
    have h0' := (hb _ _).1 h0
    obtain ⟨a1, a2, a3, a4⟩ := findHi_spec better c v (k - 1) 1
    dsimp only
    generalize findHi better c v (k - 1) 1 = h at *
    rw [hbe, Bool.false_or]
    have hle : ∀ j, j < h → (c j).1 ≤ v := by
      intro j hj
      by_cases hz : j = 0
      · subst hz; exact le_of_lt h0'
      · have := a3 j (by omega) hj
        rw [Bool.eq_false_iff] at this
        exact le_of_not_gt fun hh => this ((hb _ _).2 hh)
    by_cases hp : better v (c (h - 1)).1 = true
    · right
      rw [if_pos hp]
      have hp' := (hb _ _).1 hp
      refine ⟨h - 1, by omega, fun j => ins_at c (h - 1) _ j, fun j hj => ?_, fun j hj hjk => ?_⟩
      · rcases Nat.lt_or_ge j (h - 1) with hlt | hge
        · rcases hasc j (h - 1) hlt (by omega) with hh | ⟨hh1, hh2⟩
          · exact lt_trans hh hp'
          · rw [hh1, ← hh2]; exact hp'
        · have : j = h - 1 := by omega
          subst this; exact hp'
      · have hlt : (c h).1 > v := (hb _ _).1 (a4 (by omega))
        rcases Nat.lt_or_ge h j with hh | hh
        · rcases hasc h j hh hjk with h1 | ⟨h1, h2⟩
          · exact lt_trans hlt h1
          · rw [h2, ← h1]; exact hlt
        · have : j = h := by omega
          subst this; exact hlt
    · left
      rw [if_neg hp]
      refine ⟨rfl, .inr ⟨h - 1, by omega, ?_⟩⟩
      have h1 := hle (h - 1) (by omega)
      exact le_antisymm h1 (le_of_not_gt fun hh => hp ((hb _ _).2 hh))
  · left
    rw [if_neg h0]
    exact ⟨rfl, .inl (le_of_not_gt fun hh => h0 ((hb _ _).2 hh))⟩

/-- Invariant of the loop over a batch of which `cur` was processed. -/
structure Inv (ext : α) (k : Nat) (c : Cache α) (before cur : List α) : Prop where
  best : KBest ext k c (before ++ cur)
  idx : IndexOk ext k c before cur

theorem feed_inv (hb : ∀ a b, better a b = true ↔ b < a) (hk : 0 < k) (hext : ∀ a, ext ≤ a) {c : Cache α} {before cur : List α}
    (h : Inv ext k c before cur) (v : α) : Inv ext k (feed better ext k c v cur.length) before (cur ++ [v]) := by
  have hasc := h.best.asc
  have hmono : ∀ i j, i ≤ j → j < k → (c i).1 ≤ (c j).1 := by
    intro i j hij hj
    rcases Nat.lt_or_ge i j with hlt | hge
    · rcases hasc i j hlt hj with hh | ⟨h1, h2⟩
      · exact le_of_lt hh
      · rw [h1, h2]
    · have : i = j := by omega
      rw [this]
  have hidx : ∀ e : Entry α, (e.2 = none ∧ (e.1 = ext ∨ e.1 ∈ before) ∨
      ∃ i, e.2 = some i ∧ cur[i]? = some e.1 ∧ e.1 ∉ cur.take i ∧ e.1 ∉ before) →
      (e.2 = none ∧ (e.1 = ext ∨ e.1 ∈ before) ∨
      ∃ i, e.2 = some i ∧ (cur ++ [v])[i]? = some e.1 ∧ e.1 ∉ (cur ++ [v]).take i ∧ e.1 ∉ before) := by
    rintro e (h | ⟨i, h1, h2, h3, h4⟩)
    · exact .inl h
    · have hi : i < cur.length := (List.getElem?_eq_some_iff.1 h2).1
      refine .inr ⟨i, h1, by rw [List.getElem?_append_left hi]; exact h2, ?_, h4⟩
      rwa [List.take_append_of_le_length (by omega)]
  rcases feed_cases hb hk c v cur.length hasc hext with ⟨he, hv⟩ | ⟨p, hp, hc, hlow, hhigh⟩
  · rw [he]
    refine ⟨⟨hasc, fun j hj => ?_, fun w hw => ?_⟩, fun j hj => hidx _ (h.idx j hj)⟩
    · rcases h.best.sub j hj with hh | hh
      · exact .inl hh
      · right; rw [← List.append_assoc]; exact List.mem_append_left _ hh
    · rw [← List.append_assoc] at hw
      rcases List.mem_append.1 hw with hw | hw
      · exact h.best.top w hw
      · rw [List.mem_singleton] at hw; subst hw
        rcases hv with hv | hv
        · rcases lt_or_eq_of_le hv with hh | hh
          · exact .inr (.inr hh)
          · exact .inr (.inl ⟨0, hk, hh.symm⟩)
        · exact .inr (.inl hv)
  · generalize feed better ext k c v cur.length = c' at *
    have hvext : ext < v := lt_of_le_of_lt (hext _) (hlow 0 (Nat.zero_le _))
    refine ⟨⟨fun i j hij hjk => ?_, fun j hj => ?_, fun w hw => ?_⟩, fun j hj => ?_⟩
    · rw [hc i, hc j]
      by_cases h1 : j < p
      · rw [if_pos (by omega), if_pos h1]
        exact hasc (i + 1) (j + 1) (by omega) (by omega)
      · rw [if_neg h1]
        by_cases h2 : j = p
        · rw [if_pos h2, if_pos (by omega)]
          exact .inl (hlow _ (by omega))
        · rw [if_neg h2]
          left
          have hvj := hhigh j (by omega) hjk
          by_cases h3 : i < p
          · rw [if_pos h3]; exact lt_trans (hlow _ (by omega)) hvj
          · rw [if_neg h3]
            by_cases h4 : i = p
            · rw [if_pos h4]; exact hvj
            · rw [if_neg h4]
              rcases hasc i j hij hjk with hh | ⟨hh, hh2⟩
              · exact hh
              · rw [hh2] at hvj; exact absurd hvj (not_lt_of_gt hvext)
    · rw [hc j, ← List.append_assoc]
      by_cases h1 : j < p
      · rw [if_pos h1]
        rcases h.best.sub (j + 1) (by omega) with hh | hh
        · exact .inl hh
        · exact .inr (List.mem_append_left _ hh)
      · rw [if_neg h1]
        by_cases h2 : j = p
        · rw [if_pos h2]; exact .inr (List.mem_append_right _ (List.mem_singleton.2 rfl))
        · rw [if_neg h2]
          rcases h.best.sub j hj with hh | hh
          · exact .inl hh
          · exact .inr (List.mem_append_left _ hh)
    · rw [← List.append_assoc] at hw
      have hplace : ∃ j < k, (c' j).1 = v := ⟨p, hp, by rw [hc p, if_neg (by omega), if_pos rfl]⟩
      rcases List.mem_append.1 hw with hw | hw
      · have h0le : (c 0).1 < (c' 0).1 ∨ ((c 0).1 = ext ∧ (c' 0).1 = ext) := by
          rw [hc 0]
          by_cases h1 : 0 < p
          · rw [if_pos h1]; exact hasc 0 1 (by omega) (by omega)
          · rw [if_neg h1, if_pos (by omega)]; exact .inl (hlow 0 (by omega))
        rcases h.best.top w hw with hh | ⟨j, hj, hh⟩ | hh
        · exact .inl hh
        · by_cases hj0 : j = 0
          · subst hj0
            rcases h0le with h1 | ⟨h1, _⟩
            · rw [hh] at h1; exact .inr (.inr h1)
            · rw [hh] at h1; exact .inl h1
          · right; left
            by_cases h1 : j ≤ p
            · exact ⟨j - 1, by omega, by rw [hc, if_pos (by omega), Nat.sub_add_cancel (by omega)]; exact hh⟩
            · exact ⟨j, hj, by rw [hc, if_neg (by omega), if_neg (by omega)]; exact hh⟩
        · rcases h0le with h1 | ⟨h1, _⟩
          · exact .inr (.inr (lt_trans hh h1))
          · rw [h1] at hh; exact absurd hh (not_lt_of_ge (hext _))
      · rw [List.mem_singleton] at hw; subst hw; exact .inr (.inl hplace)
    · have hv : v ∉ before ++ cur := by
        intro hw
        rcases h.best.top v hw with hh | ⟨j, hj, hh⟩ | hh
        · exact ne_of_gt hvext hh
        · rcases Nat.lt_or_ge p j with h1 | h1
          · exact ne_of_gt (hhigh j h1 hj) hh
          · exact ne_of_lt (hlow j h1) hh
        · exact absurd hh (not_lt_of_gt (hlow 0 (by omega)))
      rw [hc j]
      by_cases h1 : j < p
      · rw [if_pos h1]; exact hidx _ (h.idx (j + 1) (by omega))
      · rw [if_neg h1]
        by_cases h2 : j = p
        · rw [if_pos h2]
          refine .inr ⟨cur.length, rfl, by simp, ?_, fun hh => hv (List.mem_append_left _ hh)⟩
          rw [List.take_left']
          · exact fun hh => hv (List.mem_append_right _ hh)
          · rfl
        · rw [if_neg h2]; exact hidx _ (h.idx j hj)

theorem feedAll_inv (hb : ∀ a b, better a b = true ↔ b < a) (hk : 0 < k) (hext : ∀ a, ext ≤ a) (before : List α) :
    ∀ (vs cur : List α) (c : Cache α), Inv ext k c before cur → Inv ext k (feedAll better ext k vs cur.length c) before (cur ++ vs) := by
  intro vs
  induction vs with
  | nil => intro cur c h; simpa only [feedAll, List.append_nil] using h
  | cons v vs ih =>
    intro cur c h
    simp only [feedAll]
    have := ih (cur ++ [v]) _ (feed_inv hb hk hext h v)
    simpa using this

theorem column_first (hb : ∀ a b, better a b = true ↔ b < a) (hk : 0 < k) (hext : ∀ a, ext ≤ a) (c : Cache α) (src : List α) :
    Inv ext k (column better ext k false c src) [] src := by
  have := feedAll_inv hb hk hext [] src [] (fun j => if j < k then (ext, none) else c j) ?_
  · simpa [column] using this
  · refine ⟨⟨fun i j hij hj => ?_, fun j hj => ?_, fun v hv => ?_⟩, fun j hj => ?_⟩
    · right; rw [if_pos hj, if_pos (by omega)]; exact ⟨rfl, rfl⟩
    · left; rw [if_pos hj]
    · simp at hv
    · left; rw [if_pos hj]; exact ⟨rfl, .inl rfl⟩

theorem column_next (hb : ∀ a b, better a b = true ↔ b < a) (hk : 0 < k) (hext : ∀ a, ext ≤ a) {c : Cache α} {seen : List α}
    (h : KBest ext k c seen) (src : List α) : Inv ext k (column better ext k true c src) seen src := by
  have := feedAll_inv hb hk hext seen src [] (fun j => if j < k then ((c j).1, none) else c j) ?_
  · simpa [column] using this
  · refine ⟨⟨fun i j hij hj => ?_, fun j hj => ?_, fun v hv => ?_⟩, fun j hj => ?_⟩
    · rw [if_pos hj, if_pos (by omega)]; exact h.asc i j hij hj
    · rw [if_pos hj, List.append_nil]; exact h.sub j hj
    · rw [List.append_nil] at hv
      rcases h.top v hv with hh | ⟨j, hj, hh⟩ | hh
      · exact .inl hh
      · exact .inr (.inl ⟨j, hj, by rw [if_pos hj]; exact hh⟩)
      · exact .inr (.inr (by rw [if_pos hk]; exact hh))
    · left; rw [if_pos hj]; exact ⟨rfl, h.sub j hj⟩

end strict

end Nntl.KOrd
