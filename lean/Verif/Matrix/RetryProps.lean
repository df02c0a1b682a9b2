import Verif.Matrix.BiasInv
/-! C124: a matrix after a failed `resize`. -/
namespace Nntl.Matrix
variable {α : Type}
set_option linter.unusedSimpArgs false

/-- **C124.** `resize` of a matrix that has memory for what it shows: if it returns `true`, there is memory for all elements of the new size; if the
allocator delivers, it returns `true`. -/
theorem resize_has_memory_partial [OfNat α 1] (m m' : Mtx α) (r c : Nat) (j : Nat → α) (ok b : Bool) (hm : InStorage m)
    (h : m.resize r c j ok = some (m', b)) :
    (b = true → InStorage m' ∧ 0 < m'.cap ∧ r * c ≤ m'.cap) ∧ (ok = true → 0 < r → 0 < c → b = true) := by
  obtain ⟨data, cap, rows, cols, emul, ext, holey, bir, ms⟩ := m
  simp only [InStorage] at hm
  simp only [Mtx.resize] at h
  by_cases h0 : r = 0 ∨ c = 0
  · rw [if_pos h0] at h
    simp only [Option.some.injEq, Prod.mk.injEq] at h
    obtain ⟨-, rfl⟩ := h
    exact ⟨by simp, by omega⟩
  · rw [if_neg h0] at h
    have hpos : 0 < (r + (emul && bir).toNat) * (c + (emul && !bir).toNat) := Nat.mul_pos (by omega) (by omega)
    have hle : r * c ≤ (r + (emul && bir).toNat) * (c + (emul && !bir).toNat) := Nat.mul_le_mul (by omega) (by omega)
    have h0' : ¬ (r + (emul && bir).toNat = 0 ∨ c + (emul && !bir).toNat = 0) := by omega
    simp only [Mtx.implResize, if_neg h0'] at h
    by_cases hs : r + (emul && bir).toNat = rows ∧ c + (emul && !bir).toNat = cols
    · simp only [hs, and_self, if_true, Bool.true_and, Option.some.injEq, Prod.mk.injEq] at h
      obtain ⟨rfl, rfl⟩ := hs
      obtain ⟨rfl, rfl⟩ := h
      refine ⟨fun _ => ⟨?_, ?_, ?_⟩, fun _ _ _ => rfl⟩
      · split <;> simpa [InStorage] using hm
      · split <;> simp <;> omega
      · split <;> simp <;> omega
    · by_cases hx : ext = true
      · simp [hs, hx] at h
      · simp only [if_neg hs, hx, Bool.false_eq_true, if_false, Option.some.injEq, Prod.mk.injEq] at h
        obtain ⟨rfl, rfl⟩ := h
        refine ⟨fun hb => ?_, fun h _ _ => h⟩
        subst hb
        simp only [Bool.true_and, if_true]
        refine ⟨?_, ?_, ?_⟩
        · split <;> simp [InStorage]
        · split <;> simp <;> omega
        · split <;> simp <;> omega

/-- **C124 is false of the code**: a `resize` that fails for lack of memory leaves the matrix with the new size and no memory. The next `resize` to the
same size returns `true`, whether there is memory by then or not, and does not allocate any. -/
theorem retry_after_failed_resize [OfNat α 1] (m : Mtx α) (r c : Nat) (j j' : Nat → α) (ok : Bool) (hr : 0 < r) (hc : 0 < c) (hx : m.ext = false)
    (hs : ¬ (r + (m.emul && m.bir).toNat = m.rows ∧ c + (m.emul && !m.bir).toNat = m.cols)) :
    ∃ m1 m2, m.resize r c j false = some (m1, false) ∧ m1.resize r c j' ok = some (m2, true) ∧ m2.empty = true ∧ ¬ InStorage m2 := by
  obtain ⟨data, cap, rows, cols, emul, ext, holey, bir, ms⟩ := m
  simp only at hx hs
  subst hx
  have h0 : ¬ (r = 0 ∨ c = 0) := by omega
  have h0' : ¬ (r + (emul && bir).toNat = 0 ∨ c + (emul && !bir).toNat = 0) := by omega
  have hpos : 0 < (r + (emul && bir).toNat) * (c + (emul && !bir).toNat) := Nat.mul_pos (by omega) (by omega)
  refine ⟨⟨j, 0, r + (emul && bir).toNat, c + (emul && !bir).toNat, emul, false, false, bir, ms⟩,
    if emul then (⟨j, 0, r + (emul && bir).toNat, c + (emul && !bir).toNat, emul, false, false, bir, ms⟩ : Mtx α).setBiases
      else ⟨j, 0, r + (emul && bir).toNat, c + (emul && !bir).toNat, emul, false, false, bir, ms⟩, ?_, ?_, ?_, ?_⟩
  · simp only [Mtx.resize, if_neg h0, Mtx.implResize, if_neg h0', if_neg hs, Bool.false_eq_true, if_false, Bool.false_and]
  · simp only [Mtx.resize, if_neg h0, Mtx.implResize, if_neg h0', and_self, if_true, Bool.true_and]
  · simp only [Mtx.empty]
    split <;> simp
  · simp only [InStorage]
    split <;> simp <;> omega

example : ∃ m1 m2, (Mtx.default (fun _ => (0 : Int))).resize 2 3 (fun _ => 0) false = some (m1, false) ∧
    m1.resize 2 3 (fun _ => 0) true = some (m2, true) ∧ m2.empty = true ∧ ¬ InStorage m2 :=
  retry_after_failed_resize _ 2 3 _ _ true (by omega) (by omega) rfl (by simp [Mtx.default])

/-- **C124.** Sizes with and without biases: exactly one of `has_bias_row` and `has_bias_column` holds of a matrix with biases, none of one without; the row
or column is what `rows_no_bias` and `cols_no_bias` leave out. -/
theorem sizes_without_biases (m : Mtx α) (hr : 0 < m.rows) (hc : 0 < m.cols) :
    (m.hasBiasRow = true ↔ m.emul = true ∧ m.bir = true) ∧ (m.hasBiasCol = true ↔ m.emul = true ∧ m.bir = false) ∧
    m.rowsNoBias = (if m.hasBiasRow then m.rows - 1 else m.rows) ∧ m.colsNoBias = (if m.hasBiasCol then m.cols - 1 else m.cols) ∧
    m.rowsNoBias ≤ m.rows ∧ m.colsNoBias ≤ m.cols := by
  obtain ⟨data, cap, rows, cols, emul, ext, holey, bir, ms⟩ := m
  cases emul <;> cases bir <;> simp [Mtx.hasBiasRow, Mtx.hasBiasCol, Mtx.rowsNoBias, Mtx.colsNoBias]

end Nntl.Matrix
