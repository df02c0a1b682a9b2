import Verif.Kernel.MoveModel
import Mathlib.Data.List.Nodup
/-! Closed forms of the data-moving kernels. -/
namespace Nntl.Kernel
open Nntl.Matrix
variable {α : Type}

theorem mem_exRowsInner (src : Nat → α) (pSrc : Nat) (idx : Nat → Nat) (n pRI d : Nat) (p : Nat × α) :
    p ∈ exRowsInner src pSrc idx pRI d n ↔ ∃ i, i < n ∧ p = (d + i, src (pSrc + idx (pRI + i))) := by
  induction n generalizing pRI d with
  | zero => simp [exRowsInner]
  | succ n ih =>
    simp only [exRowsInner, List.mem_cons, ih]
    constructor
    · rintro (h | ⟨i, hi, h⟩)
      · exact ⟨0, by omega, by simpa using h⟩
      · refine ⟨i + 1, by omega, ?_⟩
        rw [h, Nat.add_assoc, Nat.add_comm 1 i, Nat.add_assoc pRI, Nat.add_comm 1 i]
    · rintro ⟨i, hi, h⟩
      cases i with
      | zero => left; simpa using h
      | succ i =>
        right
        refine ⟨i, by omega, ?_⟩
        rw [h, Nat.add_assoc d, Nat.add_comm 1 i, Nat.add_assoc pRI, Nat.add_comm 1 i]

theorem mem_exRowsOuter (src : Nat → α) (idx : Nat → Nat) (dR sR t rC : Nat) (hd : 0 < dR) (C : Nat) :
    ∀ (fuel pD pS pE : Nat), pE = pD + dR * C → C < fuel → ∀ p,
    (p ∈ exRowsOuter src idx dR sR t rC pE fuel pD pS ↔
      ∃ c i, c < C ∧ i < rC ∧ p = (pD + dR * c + i, src (pS + sR * c + idx (t + i)))) := by
  induction C with
  | zero =>
    intro fuel pD pS pE hE hf p
    cases fuel with
    | zero => omega
    | succ f => simp [exRowsOuter, hE]
  | succ C ih =>
    intro fuel pD pS pE hE hf p
    cases fuel with
    | zero => omega
    | succ f =>
      have hne : pD ≠ pE := by rw [hE, Nat.mul_succ]; omega
      simp only [exRowsOuter, if_neg hne, List.mem_append, mem_exRowsInner]
      rw [ih f (pD + dR) (pS + sR) pE (by rw [hE, Nat.mul_succ]; omega) (by omega)]
      constructor
      · rintro (⟨i, hi, h⟩ | ⟨c, i, hc, hi, h⟩)
        · exact ⟨0, i, by omega, hi, by simpa using h⟩
        · refine ⟨c + 1, i, by omega, hi, ?_⟩
          rw [h, Nat.mul_succ, Nat.mul_succ]
          congr 1
          · omega
          · congr 1; omega
      · rintro ⟨c, i, hc, hi, h⟩
        cases c with
        | zero => left; exact ⟨i, hi, by simpa using h⟩
        | succ c =>
          right
          refine ⟨c, i, by omega, hi, ?_⟩
          rw [h, Nat.mul_succ, Nat.mul_succ]
          congr 1
          · omega
          · congr 1; omega

theorem mem_exSeqLoop (src : Nat → α) (dR sR : Nat) (n pD pS : Nat) (p : Nat × α) :
    p ∈ exSeqLoop src dR sR n pD pS ↔ ∃ c i, c < n ∧ i < dR ∧ p = (pD + dR * c + i, src (pS + sR * c + i)) := by
  induction n generalizing pD pS with
  | zero => simp [exSeqLoop]
  | succ n ih =>
    simp only [exSeqLoop, List.mem_append, mem_memcpyW, ih]
    constructor
    · rintro (⟨i, hi, h⟩ | ⟨c, i, hc, hi, h⟩)
      · exact ⟨0, i, by omega, hi, by simpa using h⟩
      · refine ⟨c + 1, i, by omega, hi, ?_⟩
        rw [h, Nat.mul_succ, Nat.mul_succ]
        congr 1
        · omega
        · congr 1; omega
    · rintro ⟨c, i, hc, hi, h⟩
      cases c with
      | zero => left; exact ⟨i, hi, by simpa using h⟩
      | succ c =>
        right
        refine ⟨c, i, by omega, hi, ?_⟩
        rw [h, Nat.mul_succ, Nat.mul_succ]
        congr 1
        · omega
        · congr 1; omega

/-- Rows whose mask is set among the first `n`. -/
def openRows (mask : Nat → Bool) (n : Nat) : List Nat := (List.range n).filter mask

/-- Number of set mask entries before `i`. -/
def rank (mask : Nat → Bool) (i : Nat) : Nat := (openRows mask i).length

theorem openRows_succ (mask : Nat → Bool) (n : Nat) :
    openRows mask (n + 1) = openRows mask n ++ (if mask n then [n] else []) := by
  unfold openRows
  rw [List.range_succ, List.filter_append]
  congr 1
  by_cases h : mask n <;> simp [h]

theorem rank_succ (mask : Nat → Bool) (n : Nat) : rank mask (n + 1) = rank mask n + (if mask n then 1 else 0) := by
  unfold rank
  rw [openRows_succ, List.length_append]
  split <;> simp

theorem rank_mono (mask : Nat → Bool) {i j : Nat} (h : i ≤ j) : rank mask i ≤ rank mask j := by
  induction j with
  | zero => have : i = 0 := by omega
            subst this; exact Nat.le_refl _
  | succ j ih =>
    rcases Nat.lt_or_ge j i with h' | h'
    · have : i = j + 1 := by omega
      subst this; exact Nat.le_refl _
    · have := ih h'
      rw [rank_succ]; omega

theorem rank_le (mask : Nat → Bool) (n : Nat) : rank mask n ≤ n := by
  induction n with
  | zero => simp [rank, openRows]
  | succ n ih => rw [rank_succ]; split <;> omega

theorem openRows_get (mask : Nat → Bool) (n j : Nat) (hj : j < n) (hm : mask j = true) :
    (openRows mask n)[rank mask j]? = some j := by
  induction n with
  | zero => omega
  | succ n ih =>
    rw [openRows_succ]
    rcases Nat.lt_or_ge j n with h | h
    · have := ih h
      rw [List.getElem?_append_left]
      · exact this
      · exact (List.getElem?_eq_some_iff.1 this).1
    · have : j = n := by omega
      subst this
      unfold rank
      rw [List.getElem?_append_right (Nat.le_refl _)]
      simp [hm]

theorem openRows_mem {mask : Nat → Bool} {n j : Nat} (h : j ∈ openRows mask n) : j < n ∧ mask j = true := by
  simpa [openRows] using h

theorem openRows_rank (mask : Nat → Bool) (n r j : Nat) (h : (openRows mask n)[r]? = some j) :
    j < n ∧ mask j = true ∧ rank mask j = r := by
  have hm := openRows_mem (List.mem_of_getElem? h)
  refine ⟨hm.1, hm.2, ?_⟩
  have h2 := openRows_get mask n j hm.1 hm.2
  have hnd : (openRows mask n).Nodup := List.Nodup.filter _ List.nodup_range
  obtain ⟨h3, h4⟩ := List.getElem?_eq_some_iff.1 h
  obtain ⟨h5, h6⟩ := List.getElem?_eq_some_iff.1 h2
  exact (List.Nodup.getElem_inj_iff hnd).1 (h6.trans h4.symm)

theorem mem_exMaskInner (src : Nat → α) (pS : Nat) (mask : Nat → Bool) (n : Nat) : ∀ (i pD : Nat) (p : Nat × α),
    (p ∈ (exMaskInner src pS mask i n pD).1 ↔
      ∃ j, i ≤ j ∧ j < i + n ∧ mask j = true ∧ p = (pD + (rank mask j - rank mask i), src (pS + j))) ∧
    (exMaskInner src pS mask i n pD).2 = pD + (rank mask (i + n) - rank mask i) := by
  induction n with
  | zero => intro i pD p; simp [exMaskInner]; intros; omega
  | succ n ih =>
    intro i pD p
    have hr := rank_succ mask i
    by_cases hm : mask i = true
    · obtain ⟨ih1, ih2⟩ := ih (i + 1) (pD + 1) p
      rw [if_pos hm] at hr
      simp only [exMaskInner, hm, if_true, List.mem_cons, ih1, ih2]
      refine ⟨⟨?_, ?_⟩, ?_⟩
      · rintro (h | ⟨j, h1, h2, h3, h4⟩)
        · exact ⟨i, Nat.le_refl _, by omega, hm, by simpa using h⟩
        · have := rank_mono mask h1
          refine ⟨j, by omega, by omega, h3, ?_⟩
          rw [h4]; congr 1; omega
      · rintro ⟨j, h1, h2, h3, h4⟩
        rcases Nat.eq_or_lt_of_le h1 with h | h
        · subst h; left; simpa using h4
        · right
          have := rank_mono mask (show i + 1 ≤ j from h)
          refine ⟨j, h, by omega, h3, ?_⟩
          rw [h4]; congr 1; omega
      · have := rank_mono mask (show i + 1 ≤ i + 1 + n by omega)
        have he : i + (n + 1) = i + 1 + n := by omega
        rw [he]; omega
    · obtain ⟨ih1, ih2⟩ := ih (i + 1) pD p
      replace hr : rank mask (i + 1) = rank mask i := by rw [rank_succ, if_neg hm]; rfl
      simp only [exMaskInner, hm, if_false, Bool.false_eq_true, ih1, ih2]
      refine ⟨⟨?_, ?_⟩, ?_⟩
      · rintro ⟨j, h1, h2, h3, h4⟩
        exact ⟨j, by omega, by omega, h3, by rw [h4, hr]⟩
      · rintro ⟨j, h1, h2, h3, h4⟩
        have : j ≠ i := by rintro rfl; exact hm h3
        exact ⟨j, by omega, by omega, h3, by rw [h4, hr]⟩
      · have he : i + (n + 1) = i + 1 + n := by omega
        rw [he, hr]

theorem rank_zero (mask : Nat → Bool) : rank mask 0 = 0 := by simp [rank, openRows]

theorem mem_exMaskOuter (src : Nat → α) (mask : Nat → Bool) (tr : Nat) (n pS pD : Nat) (p : Nat × α) :
    p ∈ exMaskOuter src mask tr n pS pD ↔
      ∃ c j, c < n ∧ j < tr ∧ mask j = true ∧ p = (pD + rank mask tr * c + rank mask j, src (pS + tr * c + j)) := by
  induction n generalizing pS pD with
  | zero => simp [exMaskOuter]
  | succ n ih =>
    obtain ⟨h1, h2⟩ := mem_exMaskInner src pS mask tr 0 pD p
    simp only [exMaskOuter, List.mem_append, h1, h2, ih, rank_zero, Nat.sub_zero, Nat.zero_add, Nat.zero_le,
      true_and]
    constructor
    · rintro (⟨i, hi, h, h'⟩ | ⟨c, i, hc, hi, h, h'⟩)
      · exact ⟨0, i, by omega, hi, h, by simpa using h'⟩
      · refine ⟨c + 1, i, by omega, hi, h, ?_⟩
        rw [h', Nat.mul_succ, Nat.mul_succ]
        congr 1
        · omega
        · congr 1; omega
    · rintro ⟨c, i, hc, hi, h, h'⟩
      cases c with
      | zero => left; exact ⟨i, hi, h, by simpa using h'⟩
      | succ c =>
        right
        refine ⟨c, i, by omega, hi, h, ?_⟩
        rw [h', Nat.mul_succ, Nat.mul_succ]
        congr 1
        · omega
        · congr 1; omega

theorem mem_fillMaskInner (src : Nat → α) (z : α) (pD : Nat) (mask : Nat → Bool) (n : Nat) :
    ∀ (i pS : Nat) (p : Nat × α),
    (p ∈ (fillMaskInner src z pD mask i n pS).1 ↔
      ∃ j, i ≤ j ∧ j < i + n ∧ p = (pD + j, if mask j then src (pS + (rank mask j - rank mask i)) else z)) ∧
    (fillMaskInner src z pD mask i n pS).2 = pS + (rank mask (i + n) - rank mask i) := by
  induction n with
  | zero => intro i pS p; simp [fillMaskInner]; intros; omega
  | succ n ih =>
    intro i pS p
    have hr := rank_succ mask i
    have he : i + (n + 1) = i + 1 + n := by omega
    have hmono := rank_mono mask (show i + 1 ≤ i + 1 + n by omega)
    by_cases hm : mask i = true
    · obtain ⟨ih1, ih2⟩ := ih (i + 1) (pS + 1) p
      rw [if_pos hm] at hr
      simp only [fillMaskInner, hm, if_true, List.mem_cons, ih1, ih2]
      refine ⟨⟨?_, ?_⟩, ?_⟩
      · rintro (h | ⟨j, h1, h2, h4⟩)
        · exact ⟨i, Nat.le_refl _, by omega, by simpa [hm] using h⟩
        · have := rank_mono mask h1
          refine ⟨j, by omega, by omega, ?_⟩
          rw [h4, show pS + 1 + (rank mask j - rank mask (i + 1)) = pS + (rank mask j - rank mask i) by omega]
      · rintro ⟨j, h1, h2, h4⟩
        rcases Nat.eq_or_lt_of_le h1 with h | h
        · subst h; left; simpa [hm] using h4
        · right
          have := rank_mono mask (show i + 1 ≤ j from h)
          refine ⟨j, h, by omega, ?_⟩
          rw [h4, show pS + 1 + (rank mask j - rank mask (i + 1)) = pS + (rank mask j - rank mask i) by omega]
      · rw [he]; omega
    · obtain ⟨ih1, ih2⟩ := ih (i + 1) pS p
      replace hr : rank mask (i + 1) = rank mask i := by rw [rank_succ, if_neg hm]; rfl
      simp only [fillMaskInner, hm, if_false, Bool.false_eq_true, List.mem_cons, ih1, ih2]
      refine ⟨⟨?_, ?_⟩, ?_⟩
      · rintro (h | ⟨j, h1, h2, h4⟩)
        · exact ⟨i, Nat.le_refl _, by omega, by simpa [hm] using h⟩
        · exact ⟨j, by omega, by omega, by rw [h4, hr]⟩
      · rintro ⟨j, h1, h2, h4⟩
        rcases Nat.eq_or_lt_of_le h1 with h | h
        · subst h; left; simpa [hm] using h4
        · right
          exact ⟨j, by omega, by omega, by rw [h4, hr]⟩
      · rw [he, hr]

theorem mem_fillMaskOuter (src : Nat → α) (z : α) (mask : Nat → Bool) (tr : Nat) (n pS pD : Nat) (p : Nat × α) :
    p ∈ fillMaskOuter src z mask tr n pS pD ↔
      ∃ c j, c < n ∧ j < tr ∧ p = (pD + tr * c + j, if mask j then src (pS + rank mask tr * c + rank mask j) else z) := by
  induction n generalizing pS pD with
  | zero => simp [fillMaskOuter]
  | succ n ih =>
    obtain ⟨h1, h2⟩ := mem_fillMaskInner src z pD mask tr 0 pS p
    simp only [fillMaskOuter, List.mem_append, h1, h2, ih, rank_zero, Nat.sub_zero, Nat.zero_add, Nat.zero_le,
      true_and]
    constructor
    · rintro (⟨i, hi, h'⟩ | ⟨c, i, hc, hi, h'⟩)
      · exact ⟨0, i, by omega, hi, by simpa using h'⟩
      · refine ⟨c + 1, i, by omega, hi, ?_⟩
        rw [h', Nat.mul_succ, Nat.mul_succ,
          show pS + rank mask tr + rank mask tr * c = pS + (rank mask tr * c + rank mask tr) by omega,
          show pD + tr + tr * c = pD + (tr * c + tr) by omega]
    · rintro ⟨c, i, hc, hi, h'⟩
      cases c with
      | zero => left; exact ⟨i, hi, by simpa using h'⟩
      | succ c =>
        right
        refine ⟨c, i, by omega, hi, ?_⟩
        rw [h', Nat.mul_succ, Nat.mul_succ,
          show pS + rank mask tr + rank mask tr * c = pS + (rank mask tr * c + rank mask tr) by omega,
          show pD + tr + tr * c = pD + (tr * c + tr) by omega]

/-! transposition -/

theorem mem_trReadInner (src : Nat → α) (ld n pD pS : Nat) (p : Nat × α) :
    p ∈ trReadInner src ld n pD pS ↔ ∃ i, i < n ∧ p = (pD + ld * i, src (pS + i)) := by
  induction n generalizing pD pS with
  | zero => simp [trReadInner]
  | succ n ih =>
    simp only [trReadInner, List.mem_cons, ih]
    constructor
    · rintro (h | ⟨i, hi, h⟩)
      · exact ⟨0, by omega, by simpa using h⟩
      · refine ⟨i + 1, by omega, ?_⟩
        rw [h, Nat.mul_succ]
        congr 1
        · omega
        · congr 1; omega
    · rintro ⟨i, hi, h⟩
      cases i with
      | zero => left; simpa using h
      | succ i =>
        right
        refine ⟨i, by omega, ?_⟩
        rw [h, Nat.mul_succ]
        congr 1
        · omega
        · congr 1; omega

theorem mem_trReadOuter (src : Nat → α) (sR ld bR : Nat) (n : Nat) :
    ∀ (fuel pD pS pE : Nat), pE = pD + n → n < fuel → ∀ p,
    (p ∈ trReadOuter src sR ld bR pE fuel pD pS ↔
      ∃ c i, c < n ∧ i < sR ∧ p = (pD + c + ld * i, src (pS + (sR + bR) * c + i))) := by
  induction n with
  | zero =>
    intro fuel pD pS pE hE hf p
    cases fuel with
    | zero => omega
    | succ f => simp [trReadOuter, hE]
  | succ n ih =>
    intro fuel pD pS pE hE hf p
    cases fuel with
    | zero => omega
    | succ f =>
      have hne : pD ≠ pE := by omega
      simp only [trReadOuter, if_neg hne, List.mem_append, mem_trReadInner]
      rw [ih f (pD + 1) (pS + sR + bR) pE (by omega) (by omega)]
      constructor
      · rintro (⟨i, hi, h⟩ | ⟨c, i, hc, hi, h⟩)
        · exact ⟨0, i, by omega, hi, by simpa using h⟩
        · refine ⟨c + 1, i, by omega, hi, ?_⟩
          rw [h, Nat.mul_succ]
          congr 1
          · omega
          · congr 1; omega
      · rintro ⟨c, i, hc, hi, h⟩
        cases c with
        | zero => left; exact ⟨i, hi, by simpa using h⟩
        | succ c =>
          right
          refine ⟨c, i, by omega, hi, ?_⟩
          rw [h, Nat.mul_succ]
          congr 1
          · omega
          · congr 1; omega

theorem mem_trWriteInner (src : Nat → α) (ld n pD pS : Nat) (p : Nat × α) :
    p ∈ trWriteInner src ld n pD pS ↔ ∃ i, i < n ∧ p = (pD + i, src (pS + ld * i)) := by
  induction n generalizing pD pS with
  | zero => simp [trWriteInner]
  | succ n ih =>
    simp only [trWriteInner, List.mem_cons, ih]
    constructor
    · rintro (h | ⟨i, hi, h⟩)
      · exact ⟨0, by omega, by simpa using h⟩
      · refine ⟨i + 1, by omega, ?_⟩
        rw [h, Nat.mul_succ]
        congr 1
        · omega
        · congr 1; omega
    · rintro ⟨i, hi, h⟩
      cases i with
      | zero => left; simpa using h
      | succ i =>
        right
        refine ⟨i, by omega, ?_⟩
        rw [h, Nat.mul_succ]
        congr 1
        · omega
        · congr 1; omega

theorem mem_trWriteOuter (src : Nat → α) (ldS dR bR : Nat) (n : Nat) :
    ∀ (fuel pS pD pE : Nat), pE = pS + n → n < fuel → ∀ p,
    (p ∈ trWriteOuter src ldS dR bR pE fuel pS pD ↔
      ∃ c i, c < n ∧ i < dR ∧ p = (pD + (dR + bR) * c + i, src (pS + c + ldS * i))) := by
  induction n with
  | zero =>
    intro fuel pS pD pE hE hf p
    cases fuel with
    | zero => omega
    | succ f => simp [trWriteOuter, hE]
  | succ n ih =>
    intro fuel pS pD pE hE hf p
    cases fuel with
    | zero => omega
    | succ f =>
      have hne : pS ≠ pE := by omega
      simp only [trWriteOuter, if_neg hne, List.mem_append, mem_trWriteInner]
      rw [ih f (pS + 1) (pD + dR + bR) pE (by omega) (by omega)]
      constructor
      · rintro (⟨i, hi, h⟩ | ⟨c, i, hc, hi, h⟩)
        · exact ⟨0, i, by omega, hi, by simpa using h⟩
        · refine ⟨c + 1, i, by omega, hi, ?_⟩
          rw [h, Nat.mul_succ]
          congr 1
          · omega
          · congr 1; omega
      · rintro ⟨c, i, hc, hi, h⟩
        cases c with
        | zero => left; exact ⟨i, hi, by simpa using h⟩
        | succ c =>
          right
          refine ⟨c, i, by omega, hi, ?_⟩
          rw [h, Nat.mul_succ]
          congr 1
          · omega
          · congr 1; omega

/-! tiling -/

theorem tileLoopA_eq (m step P pLast F0 : Nat) (hm : 0 < m) (hP : 0 < P) (cnt : Nat) :
    ∀ (q x fuel pSeq pEnd : Nat), x < P → cnt < fuel → pEnd = pSeq + m * cnt →
    (∀ i, i < cnt → (F0 + m * ((P * q + x + i) / P) + step * ((P * q + x + i) % P) < pLast ↔
      (P * q + x + i) % P + 1 < P)) →
    tileLoopA m step pLast pEnd fuel pSeq (F0 + m * q + step * x) (F0 + m * q) =
      (List.range cnt).map fun i =>
        (F0 + m * ((P * q + x + i) / P) + step * ((P * q + x + i) % P), pSeq + m * i) := by
  induction cnt with
  | zero =>
    intro q x fuel pSeq pEnd hx hf hE hw
    cases fuel with
    | zero => omega
    | succ f => simp [tileLoopA, hE]
  | succ cnt ih =>
    intro q x fuel pSeq pEnd hx hf hE hw
    cases fuel with
    | zero => omega
    | succ f =>
      have hne : pSeq ≠ pEnd := by rw [hE, Nat.mul_succ]; omega
      have hdiv : (P * q + x) / P = q := by
        rw [Nat.mul_add_div hP, Nat.div_eq_of_lt hx, Nat.add_zero]
      have hmod : (P * q + x) % P = x := by
        rw [Nat.mul_add_mod, Nat.mod_eq_of_lt hx]
      have h0 := hw 0 (by omega)
      simp only [Nat.add_zero, hdiv, hmod] at h0
      rw [List.range_succ_eq_map, List.map_cons, List.map_map]
      simp only [tileLoopA, if_neg hne, Nat.add_zero, hdiv, hmod, Nat.mul_zero]
      congr 1
      by_cases hx1 : x + 1 < P
      · rw [if_pos (h0.2 hx1)]
        have := ih q (x + 1) f (pSeq + m) pEnd hx1 (by omega) (by rw [hE, Nat.mul_succ]; omega) ?_
        · rw [Nat.mul_succ, ← Nat.add_assoc] at this
          rw [this]
          apply List.map_congr_left
          intro i _
          simp only [Function.comp, Nat.mul_succ]
          rw [show P * q + (x + 1) + i = P * q + x + (i + 1) by omega]
          congr 1; omega
        · intro i hi
          have := hw (i + 1) (by omega)
          rw [show P * q + (x + 1) + i = P * q + x + (i + 1) by omega]
          exact this
      · rw [if_neg (fun h => hx1 (h0.1 h))]
        have hPx : P = x + 1 := by omega
        have := ih (q + 1) 0 f (pSeq + m) pEnd hP (by omega) (by rw [hE, Nat.mul_succ]; omega) ?_
        · rw [Nat.mul_zero, Nat.add_zero, Nat.mul_succ m q, ← Nat.add_assoc] at this
          rw [this]
          apply List.map_congr_left
          intro i _
          simp only [Function.comp, Nat.mul_succ]
          rw [show P * q + P + 0 + i = P * q + x + (i + 1) by omega]
          congr 1; omega
        · intro i hi
          have := hw (i + 1) (by omega)
          rw [Nat.mul_succ]
          rw [show P * q + P + 0 + i = P * q + x + (i + 1) by omega]
          exact this

/-! column cloning -/

/-- Source column of every destination column: column `j` repeated `spec[j]` times. -/
def expandFrom : Nat → List Nat → List Nat
  | _, [] => []
  | j, s :: ss => List.replicate s j ++ expandFrom (j + 1) ss

theorem expandFrom_length (j : Nat) (l : List Nat) : (expandFrom j l).length = l.sum := by
  induction l generalizing j with
  | nil => rfl
  | cons s ss ih => simp [expandFrom, ih]

theorem cloneLoop_eq (n : Nat) : ∀ (c j left : Nat) (rest : List Nat), (∀ s ∈ rest, 0 < s) → n ≤ left + rest.sum →
    cloneLoop n c j (left : Int) rest =
      some ((List.range' c n).zip (List.replicate left j ++ expandFrom (j + 1) rest)) := by
  induction n with
  | zero => intros; simp [cloneLoop]
  | succ n ih =>
    intro c j left rest hpos hn
    cases left with
    | zero =>
      cases rest with
      | nil => simp at hn
      | cons s ss =>
        have hs := hpos s (List.mem_cons_self ..)
        obtain ⟨s', rfl⟩ : ∃ s', s = s' + 1 := ⟨s - 1, by omega⟩
        have := ih (c + 1) (j + 1) s' ss (fun t ht => hpos t (List.mem_cons_of_mem _ ht))
          (by simp only [List.sum_cons] at hn; omega)
        simp only [cloneLoop]
        rw [show ((s' + 1 : Nat) : Int) - 1 = (s' : Int) by omega, this]
        simp [List.range'_succ, expandFrom, List.replicate_succ]
    | succ left =>
      have := ih (c + 1) j left rest hpos (by omega)
      simp only [cloneLoop]
      rw [if_neg (by omega), show ((left + 1 : Nat) : Int) - 1 = (left : Int) by omega, this]
      simp [List.range'_succ, List.replicate_succ]

theorem cloneFind_eq (b : Nat) (l : List Nat) : ∀ (i acc : Nat), acc ≤ b → b ≤ acc + l.sum → l ≠ [] →
    ∃ t left, cloneFind b l i acc = some (i + t, left) ∧
      (expandFrom i l).drop (b - acc) = List.replicate left (i + t) ++ expandFrom (i + t + 1) (l.drop (t + 1)) ∧
      left ≤ acc + l.sum := by
  induction l with
  | nil => intro i acc h1 h2 h3; exact absurd rfl h3
  | cons s ss ih =>
    intro i acc h1 h2 h3
    simp only [List.sum_cons] at h2
    by_cases h : acc + s ≥ b
    · refine ⟨0, acc + s - b, ?_, ?_, ?_⟩
      · simp only [cloneFind, if_pos h, Nat.add_zero]
      · simp only [expandFrom, Nat.add_zero, List.drop_succ_cons, List.drop_zero]
        rw [List.drop_append_of_le_length (by simp; omega), List.drop_replicate]
        rw [show s - (b - acc) = acc + s - b by omega]
      · simp only [List.sum_cons]; omega
    · have hss : ss ≠ [] := by
        rintro rfl
        simp only [List.sum_nil] at h2
        omega
      obtain ⟨t, left, e1, e2, e3⟩ := ih (i + 1) (acc + s) (by omega) (by omega) hss
      refine ⟨t + 1, left, ?_, ?_, ?_⟩
      · simp only [cloneFind, if_neg h]
        rw [e1, show i + 1 + t = i + (t + 1) by omega]
      · simp only [expandFrom, List.drop_succ_cons]
        rw [List.drop_append, List.length_replicate]
        rw [show b - acc - s = b - (acc + s) by omega, e2]
        rw [List.drop_eq_nil_of_le (by simp; omega), List.nil_append]
        rw [show i + 1 + t = i + (t + 1) by omega]
      · simp only [List.sum_cons]; omega

end Nntl.Kernel
