import Verif.KOrd.Lemmas
import Mathlib.Data.List.Perm.Basic
import Mathlib.Data.List.Perm.Subperm
import Mathlib.Data.List.Range
namespace Nntl.KOrd
variable {α : Type}

/-! ### Orders that admit equal values -/

theorem ins_perm (f : Nat → α) (v : α) (p m : Nat) :
    ((List.range (p + 1 + m)).map (fun j => if j < p then f (j + 1) else if j = p then v else f j) ++ [f 0]).Perm
      ((List.range (p + 1 + m)).map f ++ [v]) := by
  have e1 : (List.range (p + 1 + m)).map (fun j => if j < p then f (j + 1) else if j = p then v else f j) =
      (List.range p).map (fun j => f (j + 1)) ++ v :: (List.range m).map (fun j => f (p + 1 + j)) := by
    rw [List.range_add, List.range_succ, List.map_append, List.map_append, List.append_assoc]
    congr 1
    · apply List.map_congr_left
      intro j hj
      rw [if_pos (List.mem_range.1 hj)]
    · simp only [List.map_cons, List.map_nil, List.singleton_append, List.map_map]
      rw [if_neg (by omega), if_pos trivial]
      congr 1
      apply List.map_congr_left
      intro j _
      show (if p + 1 + j < p then f (p + 1 + j + 1) else if p + 1 + j = p then v else f (p + 1 + j)) = _
      rw [if_neg (by omega), if_neg (by omega)]
  have e2 : (List.range (p + 1 + m)).map f = f 0 :: ((List.range p).map (fun j => f (j + 1)) ++ (List.range m).map fun j => f (p + 1 + j)) := by
    rw [List.range_add, List.range_succ_eq_map, List.map_append, List.map_cons, List.map_map, List.map_map]
    rfl
  rw [e1, e2]
  generalize (List.range p).map (fun j => f (j + 1)) = A
  generalize (List.range m).map (fun j => f (p + 1 + j)) = B
  rw [List.append_assoc, List.cons_append, List.cons_append, List.append_assoc]
  refine List.perm_middle.trans ?_
  rw [← List.append_assoc, ← List.append_assoc]
  refine ((List.perm_append_singleton _ _).cons v).trans ?_
  exact (List.Perm.swap _ _ _).trans ((List.perm_append_singleton _ _).symm.cons _)

section nonstrict
variable [LinearOrder α] {better : α → α → Bool} {ext : α} {k : Nat}

theorem feed_all (hb : ∀ a b, better a b = true ↔ b ≤ a) (hk : 0 < k) {c : Cache α} {seen : List α} (h : KBestAll ext k c seen) (v : α) (i : Nat) :
    KBestAll ext k (feed better ext k c v i) (seen ++ [v]) := by
  obtain ⟨hasc, rest, hperm, hrest⟩ := h
  have hbe : better ext ext = true := (hb _ _).2 (le_refl _)
  have hmono : ∀ i j, i ≤ j → j < k → (c i).1 ≤ (c j).1 := by
    intro i j hij hj
    rcases Nat.lt_or_ge i j with hlt | hge
    · exact hasc i j hlt hj
    · have : i = j := by omega
      rw [this]
  unfold feed
  by_cases h0 : better v (c 0).1 = true
  · rw [if_pos h0]
    have h0' := (hb _ _).1 h0
    obtain ⟨a1, a2, a3, a4⟩ := findHi_spec better c v (k - 1) 1
    dsimp only
    generalize findHi better c v (k - 1) 1 = h at *
    rw [hbe, Bool.true_or, if_pos rfl]
    have hlow : ∀ j, j < h → (c j).1 ≤ v := by
      intro j hj
      by_cases hz : j = 0
      · subst hz; exact h0'
      · have := a3 j (by omega) hj
        rw [Bool.eq_false_iff] at this
        exact le_of_lt (lt_of_not_ge fun hh => this ((hb _ _).2 hh))
    have hhigh : ∀ j, h ≤ j → j < k → v ≤ (c j).1 := by
      intro j hj hjk
      exact le_trans ((hb _ _).1 (a4 (by omega))) (hmono h j hj hjk)
    have hc : ∀ j, put (shiftLoop (h - 1) 0 c) (h - 1) (v, some i) j = if j < h - 1 then c (j + 1) else if j = h - 1 then (v, some i) else c j :=
      ins_at c (h - 1) _
    generalize put (shiftLoop (h - 1) 0 c) (h - 1) (v, some i) = c' at *
    have hval : ∀ j, (c' j).1 = if j < h - 1 then (c (j + 1)).1 else if j = h - 1 then v else (c j).1 := by
      intro j; rw [hc]
      by_cases h1 : j < h - 1
      · rw [if_pos h1, if_pos h1]
      · rw [if_neg h1, if_neg h1]
        by_cases h2 : j = h - 1
        · rw [if_pos h2, if_pos h2]
        · rw [if_neg h2, if_neg h2]
    have hge : ∀ j, j < k → (c 0).1 ≤ (c' j).1 := by
      intro j hj
      rw [hval]
      by_cases h1 : j < h - 1
      · rw [if_pos h1]; exact hmono _ _ (by omega) (by omega)
      · rw [if_neg h1]
        by_cases h2 : j = h - 1
        · rw [if_pos h2]; exact h0'
        · rw [if_neg h2]; exact hmono _ _ (by omega) hj
    refine ⟨fun i j hij hj => ?_, (c 0).1 :: rest, ?_, fun w hw j hj => ?_⟩
    · rw [hval i, hval j]
      by_cases h1 : j < h - 1
      · rw [if_pos (by omega), if_pos h1]
        exact hasc (i + 1) (j + 1) (by omega) (by omega)
      · rw [if_neg h1]
        by_cases h2 : j = h - 1
        · rw [if_pos h2, if_pos (by omega)]
          exact hlow _ (by omega)
        · rw [if_neg h2]
          have hvj := hhigh j (by omega) hj
          by_cases h3 : i < h - 1
          · rw [if_pos h3]; exact le_trans (hlow _ (by omega)) hvj
          · rw [if_neg h3]
            by_cases h4 : i = h - 1
            · rw [if_pos h4]; exact hvj
            · rw [if_neg h4]; exact hasc i j hij hj
    · have hp := ins_perm (fun j => (c j).1) v (h - 1) (k - h)
      have hkk : h - 1 + 1 + (k - h) = k := by omega
      rw [hkk] at hp
      have hfun : (fun j => (c' j).1) = fun j => if j < h - 1 then (c (j + 1)).1 else if j = h - 1 then v else (c j).1 := funext hval
      rw [hfun]
      generalize (List.range k).map (fun j => if j < h - 1 then (c (j + 1)).1 else if j = h - 1 then v else (c j).1) = X at *
      generalize (List.range k).map (fun j => (c j).1) = Y at *
      have : (X ++ (c 0).1 :: rest).Perm (Y ++ v :: rest) := by
        have := hp.append_right rest
        simpa only [List.append_assoc, List.singleton_append] using this
      refine this.trans ?_
      refine List.perm_middle.trans ?_
      refine List.Perm.trans (List.Perm.cons _ hperm) ?_
      rw [← List.append_assoc]
      exact (List.perm_append_singleton _ _).symm
    · rcases List.mem_cons.1 hw with rfl | hw
      · exact hge j hj
      · exact le_trans (hrest w hw 0 hk) (hge j hj)
  · rw [if_neg h0]
    have h0' : v < (c 0).1 := lt_of_not_ge fun hh => h0 ((hb _ _).2 hh)
    refine ⟨hasc, v :: rest, ?_, fun w hw j hj => ?_⟩
    · refine List.perm_middle.trans ?_
      refine List.Perm.trans (List.Perm.cons _ hperm) ?_
      rw [← List.append_assoc]
      exact (List.perm_append_singleton _ _).symm
    · rcases List.mem_cons.1 hw with rfl | hw
      · exact le_trans (le_of_lt h0') (hmono _ _ (by omega) hj)
      · exact hrest w hw j hj

theorem feedAll_all (hb : ∀ a b, better a b = true ↔ b ≤ a) (hk : 0 < k) :
    ∀ (vs seen : List α) (i : Nat) (c : Cache α), KBestAll ext k c seen → KBestAll ext k (feedAll better ext k vs i c) (seen ++ vs) := by
  intro vs
  induction vs with
  | nil => intro seen i c h; simpa only [feedAll, List.append_nil] using h
  | cons v vs ih =>
    intro seen i c h
    simp only [feedAll]
    have := ih (seen ++ [v]) (i + 1) _ (feed_all hb hk h v i)
    simpa using this

theorem KBestAll.congr {c c' : Cache α} {seen : List α} (h : KBestAll ext k c seen) (he : ∀ j < k, (c' j).1 = (c j).1) : KBestAll ext k c' seen := by
  obtain ⟨hasc, rest, hperm, hrest⟩ := h
  refine ⟨fun i j hij hj => by rw [he i (by omega), he j hj]; exact hasc i j hij hj, rest, ?_, fun v hv j hj => by rw [he j hj]; exact hrest v hv j hj⟩
  have : (List.range k).map (fun j => (c' j).1) = (List.range k).map fun j => (c j).1 :=
    List.map_congr_left fun j hj => he j (List.mem_range.1 hj)
  rw [this]; exact hperm

theorem column_first_all (hb : ∀ a b, better a b = true ↔ b ≤ a) (hk : 0 < k) (c : Cache α) (src : List α) :
    KBestAll ext k (column better ext k false c src) src := by
  have := feedAll_all hb hk src [] 0 (fun j => if j < k then (ext, none) else c j) (ext := ext) (better := better) ?_
  · simpa [column] using this
  · refine ⟨fun i j hij hj => ?_, [], ?_, fun v hv => by simp at hv⟩
    · dsimp only; rw [if_pos hj, if_pos (by omega)]
    · rw [List.append_nil, List.append_nil]
      have : (List.range k).map (fun j => (if j < k then (ext, none) else c j : Entry α).1) = List.replicate k ext := by
        rw [List.eq_replicate_iff]
        refine ⟨by simp, fun b hb => ?_⟩
        obtain ⟨j, hj, rfl⟩ := List.mem_map.1 hb
        rw [if_pos (List.mem_range.1 hj)]
      rw [this]

theorem column_next_all (hb : ∀ a b, better a b = true ↔ b ≤ a) (hk : 0 < k) {c : Cache α} {seen : List α} (h : KBestAll ext k c seen) (src : List α) :
    KBestAll ext k (column better ext k true c src) (seen ++ src) := by
  have := feedAll_all hb hk src seen 0 (fun j => if j < k then ((c j).1, none) else c j) (ext := ext) (better := better) ?_
  · simpa [column] using this
  · exact h.congr fun j hj => by rw [if_pos hj]

end nonstrict

/-! ### Which old values are left, and where -/

/-- Old values come after at least as many places as before; one that stayed in its place has all the better ones behind it in their places. -/
def Kept (k : Nat) (c0 c : Cache α) : Prop :=
  ∀ j < k, (c j).2 = none → ∃ r, j ≤ r ∧ r < k ∧ (c0 r).1 = (c j).1 ∧ (r = j → ∀ r', j ≤ r' → r' < k → c r' = c0 r')

theorem feed_shape (better : α → α → Bool) (ext : α) {k : Nat} (hk : 0 < k) (c : Cache α) (v : α) (i : Nat) :
    feed better ext k c v i = c ∨
    ∃ p < k, ∀ j, feed better ext k c v i j = if j < p then c (j + 1) else if j = p then (v, some i) else c j := by
  unfold feed
  by_cases h0 : better v (c 0).1 = true
  · rw [if_pos h0]
    obtain ⟨a1, a2, -, -⟩ := findHi_spec better c v (k - 1) 1
    dsimp only
    generalize findHi better c v (k - 1) 1 = h at *
    by_cases h1 : (better ext ext || better v (c (h - 1)).1) = true
    · rw [if_pos h1]
      exact .inr ⟨h - 1, by omega, fun j => ins_at c (h - 1) _ j⟩
    · rw [if_neg h1]; exact .inl rfl
  · rw [if_neg h0]; exact .inl rfl

theorem feed_kept (better : α → α → Bool) (ext : α) {k : Nat} (hk : 0 < k) {c0 c : Cache α} (h : Kept k c0 c) (v : α) (i : Nat) :
    Kept k c0 (feed better ext k c v i) := by
  rcases feed_shape better ext hk c v i with he | ⟨p, hp, hc⟩
  · rw [he]; exact h
  · generalize feed better ext k c v i = c' at *
    intro j hj hn
    rw [hc j] at hn ⊢
    by_cases h1 : j < p
    · rw [if_pos h1] at hn ⊢
      obtain ⟨r, hr1, hr2, hr3, _⟩ := h (j + 1) (by omega) hn
      exact ⟨r, by omega, hr2, hr3, fun he => by omega⟩
    · rw [if_neg h1] at hn ⊢
      by_cases h2 : j = p
      · rw [if_pos h2] at hn; simp at hn
      · rw [if_neg h2] at hn ⊢
        obtain ⟨r, hr1, hr2, hr3, hr4⟩ := h j hj hn
        refine ⟨r, hr1, hr2, hr3, fun he r' hr' hrk => ?_⟩
        rw [hc r', if_neg (by omega), if_neg (by omega)]
        exact hr4 he r' hr' hrk

theorem feedAll_kept (better : α → α → Bool) (ext : α) {k : Nat} (hk : 0 < k) {c0 : Cache α} :
    ∀ (vs : List α) (i : Nat) (c : Cache α), Kept k c0 c → Kept k c0 (feedAll better ext k vs i c) := by
  intro vs
  induction vs with
  | nil => intro i c h; exact h
  | cons v vs ih => intro i c h; exact ih (i + 1) _ (feed_kept better ext hk h v i)

/-- All places hold different values, in ascending order. -/
def StrictAsc [LT α] (k : Nat) (c : Cache α) : Prop := ∀ i j, i < j → j < k → (c i).1 < (c j).1

section agg
variable [LinearOrder α] {better : α → α → Bool} {ext : α} {k : Nat}

theorem feed_strictAsc (hb : ∀ a b, better a b = true ↔ b < a) (hk : 0 < k) (hext : ∀ a, ext ≤ a) {c : Cache α} (h : StrictAsc k c) (v : α) (i : Nat) :
    StrictAsc k (feed better ext k c v i) := by
  rcases feed_cases hb hk c v i (fun i j hij hj => .inl (h i j hij hj)) hext with ⟨he, _⟩ | ⟨p, hp, hc, hlow, hhigh⟩
  · rw [he]; exact h
  · generalize feed better ext k c v i = c' at *
    intro i j hij hj
    rw [hc i, hc j]
    by_cases h1 : j < p
    · rw [if_pos (by omega), if_pos h1]; exact h _ _ (by omega) (by omega)
    · rw [if_neg h1]
      by_cases h2 : j = p
      · rw [if_pos h2, if_pos (by omega)]; exact hlow _ (by omega)
      · rw [if_neg h2]
        have hvj := hhigh j (by omega) hj
        by_cases h3 : i < p
        · rw [if_pos h3]; exact lt_trans (hlow _ (by omega)) hvj
        · rw [if_neg h3]
          by_cases h4 : i = p
          · rw [if_pos h4]; exact hvj
          · rw [if_neg h4]; exact h i j hij hj

theorem feedAll_strictAsc (hb : ∀ a b, better a b = true ↔ b < a) (hk : 0 < k) (hext : ∀ a, ext ≤ a) :
    ∀ (vs : List α) (i : Nat) (c : Cache α), StrictAsc k c → StrictAsc k (feedAll better ext k vs i c) := by
  intro vs
  induction vs with
  | nil => intro i c h; exact h
  | cons v vs ih => intro i c h; exact ih (i + 1) _ (feed_strictAsc hb hk hext h v i)

theorem moveFrom_spec (d : Nat → Dse α) (hr : Nat) (v : α) : ∀ n r, (∃ q, r ≤ q ∧ q < r + n ∧ (d q).val = v) →
    ∃ q, r ≤ q ∧ q < r + n ∧ (d q).val = v ∧ moveFrom d hr v n r = put d hr (d q) := by
  intro n
  induction n with
  | zero => rintro r ⟨q, h1, h2, _⟩; omega
  | succ n ih =>
    rintro r ⟨q, h1, h2, h3⟩
    simp only [moveFrom]
    by_cases h : v = (d r).val
    · exact ⟨r, Nat.le_refl _, by omega, h.symm, by rw [if_pos h]⟩
    · rw [if_neg h]
      have hq : q ≠ r := by rintro rfl; exact h h3.symm
      obtain ⟨q', a1, a2, a3, a4⟩ := ih (r + 1) ⟨q, by omega, by omega, h3⟩
      exact ⟨q', by omega, by omega, a3, a4⟩

theorem aggLoop_spec {c0 c : Cache α} {d0 : Nat → Dse α} {b : Nat} (P : Dse α → Prop)
    (hasc : StrictAsc k c0) (hd0 : ∀ j < k, (d0 j).val = (c0 j).1 ∧ P (d0 j)) (hkept : Kept k c0 c)
    (hnew : ∀ j < k, ∀ i, (c j).2 = some i → P ⟨b, (c j).1, some i⟩) :
    ∀ n hr (d : Nat → Dse α), hr + n = k → (∀ j < hr, (d j).val = (c j).1 ∧ P (d j)) → (∀ j, hr ≤ j → d j = d0 j) →
      ∀ j < k, (aggLoop c b n hr d j).val = (c j).1 ∧ P (aggLoop c b n hr d j) := by
  intro n
  induction n with
  | zero =>
    intro hr d hk hdone _ j hj
    exact hdone j (by omega)
  | succ n ih =>
    intro hr d hk hdone htodo
    simp only [aggLoop]
    cases hi : (c hr).2 with
    | none =>
      simp only
      obtain ⟨r, hr1, hr2, hr3, hr4⟩ := hkept hr (by omega) hi
      by_cases h : (c hr).1 = (d hr).val
      · rw [if_pos h]
        rw [htodo hr (Nat.le_refl _), (hd0 hr (by omega)).1] at h
        have hre : r = hr := by
          apply Decidable.byContradiction
          intro hne
          have := hasc hr r (by omega) hr2
          rw [hr3, h] at this
          exact lt_irrefl _ this
        intro j hj
        rcases Nat.lt_or_ge j hr with hlt | hge
        · exact hdone j hlt
        · rw [htodo j hge, hr4 hre j hge hj]
          exact hd0 j hj
      · rw [if_neg h]
        have hne : r ≠ hr := by
          rintro rfl
          apply h
          rw [htodo r (Nat.le_refl _), (hd0 r (by omega)).1, hr3]
        obtain ⟨q, q1, q2, q3, q4⟩ := moveFrom_spec d hr (c hr).1 n (hr + 1)
          ⟨r, by omega, by omega, by rw [htodo r (by omega), (hd0 r hr2).1, hr3]⟩
        rw [q4]
        apply ih (hr + 1) _ (by omega)
        · intro j hj
          by_cases hjr : j = hr
          · subst hjr
            simp only [put, if_pos]
            refine ⟨q3, ?_⟩
            rw [htodo q (by omega)]
            exact (hd0 q (by omega)).2
          · simp only [put, if_neg hjr]; exact hdone j (by omega)
        · intro j hj
          simp only [put]
          rw [if_neg (by omega)]
          exact htodo j (by omega)
    | some i =>
      simp only
      apply ih (hr + 1) _ (by omega)
      · intro j hj
        by_cases hjr : j = hr
        · subst hjr
          simp only [put, if_pos]
          exact ⟨trivial, hnew j (by omega) i hi⟩
        · simp only [put, if_neg hjr]; exact hdone j (by omega)
      · intro j hj
        simp only [put]
        rw [if_neg (by omega)]
        exact htodo j (by omega)

/-- Enough distinct values in the first batch. -/
theorem strictAsc_of_distinct (hk : 0 < k) (hext : ∀ a, ext ≤ a) {c : Cache α} {seen : List α} (h : KBest ext k c seen) (l : List α) (hl : l.Nodup)
    (hlen : k - 1 ≤ l.length) (hmem : ∀ v ∈ l, v ∈ seen ∧ v ≠ ext) : StrictAsc k c := by
  intro i j hij hj
  rcases h.asc i j hij hj with hh | ⟨h1, h2⟩
  · exact hh
  · exfalso
    have hz : ∀ q, q ≤ j → (c q).1 = ext := by
      intro q hq
      rcases Nat.lt_or_ge q j with hlt | hge
      · rcases h.asc q j hlt hj with hh | ⟨hh, _⟩
        · rw [h2] at hh; exact absurd hh (not_lt_of_ge (hext _))
        · exact hh
      · have : q = j := by omega
        rw [this]; exact h2
    have hsub : l ⊆ (List.range' 2 (k - 2)).map fun q => (c q).1 := by
      intro v hv
      obtain ⟨hs, hne⟩ := hmem v hv
      rcases h.top v hs with hh | ⟨q, hq, hh⟩ | hh
      · exact absurd hh hne
      · have hqj : ¬ q ≤ j := fun hle => hne (hh ▸ hz q hle)
        exact List.mem_map.2 ⟨q, by rw [List.mem_range'_1]; omega, hh⟩
      · rw [hz 0 (by omega)] at hh; exact absurd hh (not_lt_of_ge (hext _))
    have := (List.subperm_of_subset hl hsub).length_le
    simp at this
    omega

end agg

end Nntl.KOrd
