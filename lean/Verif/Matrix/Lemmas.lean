import Verif.Matrix.Model
/-! Auxiliary lemmas on the matrix model (loops in closed form, cell arithmetic). -/
namespace Nntl.Matrix
variable {α : Type}

theorem upd_apply (d : Nat → α) (k : Nat) (v : α) (j : Nat) : upd d k v j = if j = k then v else d j := rfl

theorem fillSeq_apply (d : Nat → α) (o : Nat) (v : α) (n k : Nat) :
    fillSeq d o v n k = if o ≤ k ∧ k < o + n then v else d k := by
  induction n with
  | zero => simp only [fillSeq]; rw [if_neg]; omega
  | succ n ih =>
    simp only [fillSeq, upd_apply, ih]
    by_cases h : k = o + n
    · rw [if_pos h, if_pos (by omega)]
    · rw [if_neg h]
      by_cases h2 : o ≤ k ∧ k < o + n
      · rw [if_pos h2, if_pos (by omega)]
      · rw [if_neg h2, if_neg (by omega)]

theorem fillStride_hit (d : Nat → α) (r ld : Nat) (v : α) (n j : Nat) (h : j < n) :
    fillStride d r ld v n (r + ld * j) = v := by
  induction n with
  | zero => omega
  | succ n ih =>
    simp only [fillStride, upd_apply]
    by_cases h2 : r + ld * j = r + ld * n
    · rw [if_pos h2]
    · rw [if_neg h2]; apply ih
      rcases Nat.lt_succ_iff_lt_or_eq.mp h with h | h
      · exact h
      · subst h; omega

theorem fillStride_miss (d : Nat → α) (r ld : Nat) (v : α) (n k : Nat) (h : ∀ j, j < n → k ≠ r + ld * j) :
    fillStride d r ld v n k = d k := by
  induction n with
  | zero => rfl
  | succ n ih =>
    simp only [fillStride, upd_apply]
    rw [if_neg (h n (by omega))]
    exact ih (fun j hj => h j (by omega))

theorem copyN_apply (d s : Nat → α) (n k : Nat) : copyN d s n k = if k < n then s k else d k := by
  induction n with
  | zero => simp [copyN]
  | succ n ih =>
    simp only [copyN, upd_apply, ih]
    by_cases h : k = n
    · subst h; simp
    · rw [if_neg h]
      by_cases h2 : k < n
      · rw [if_pos h2, if_pos (by omega)]
      · rw [if_neg h2, if_neg (by omega)]

theorem cell_lt {R C r c : Nat} (hr : r < R) (hc : c < C) : r + R * c < R * C := by
  have : R * c + R ≤ R * C := by
    rw [← Nat.mul_succ]; exact Nat.mul_le_mul_left _ hc
  omega

theorem cell_inj {R r r' c c' : Nat} (hr : r < R) (hr' : r' < R) (h : r + R * c = r' + R * c') : r = r' ∧ c = c' := by
  have h1 : (r + R * c) % R = r := by rw [Nat.add_mul_mod_self_left, Nat.mod_eq_of_lt hr]
  have h2 : (r' + R * c') % R = r' := by rw [Nat.add_mul_mod_self_left, Nat.mod_eq_of_lt hr']
  have hR : 0 < R := by omega
  have h3 : (r + R * c) / R = c := by rw [Nat.add_mul_div_left _ _ hR, Nat.div_eq_of_lt hr, Nat.zero_add]
  have h4 : (r' + R * c') / R = c' := by rw [Nat.add_mul_div_left _ _ hR, Nat.div_eq_of_lt hr', Nat.zero_add]
  rw [h] at h1 h3
  exact ⟨h1.symm.trans h2, h3.symm.trans h4⟩

/-- A storage cell below `R*C` is the cell of exactly one in-range coordinate pair. -/
theorem cell_surj {R C k : Nat} (h : k < R * C) : ∃ r c, r < R ∧ c < C ∧ k = r + R * c := by
  have hR : 0 < R := by
    rcases Nat.eq_zero_or_pos R with h0 | h0
    · subst h0; simp at h
    · exact h0
  refine ⟨k % R, k / R, Nat.mod_lt _ hR, Nat.div_lt_of_lt_mul h, ?_⟩
  exact (Nat.mod_add_div k R).symm

end Nntl.Matrix
