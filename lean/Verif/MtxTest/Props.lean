import Verif.MtxTest.Lemmas
/-! C160 (checks of the contents of a matrix), C161 (checks of biases). -/
namespace Nntl.MtxTest
open Nntl.Matrix
variable {t : VT}

/-! ### C160 -/

/-- `_isBinary` tells whether every element is the number zero or one. -/
theorem binary_tells (dbg quiet : Bool) (m : Mtx (Bits t)) (hs : m.rows * m.cols ≤ m.cap) :
    Tells (dbg && !quiet) (AllElements m ZeroOne) (isBinary dbg quiet m) :=
  scanNe_tells dbg quiet binC m.data m.cap 0 m.numel (by rw [Nat.zero_add]; exact hs) _ (all_iff m _ _ binC_iff)

/-- `_isBinaryStrict` tells whether every element is one or the zero without the sign. -/
theorem binary_strict_tells (dbg quiet : Bool) (m : Mtx (Bits t)) (hs : m.rows * m.cols ≤ m.cap) :
    Tells (dbg && !quiet) (AllElements m ZeroOneStrict) (isBinaryStrict dbg quiet m) :=
  scanNe_tells dbg quiet strictC m.data m.cap 0 m.numel (by rw [Nat.zero_add]; exact hs) _ (all_iff m _ _ strictC_iff)

/-- `_isBinaryStrictNoBias` does so for the elements that are not biases, if samples are in rows or there are no biases. -/
theorem binary_strict_no_bias_tells (dbg quiet : Bool) (m : Mtx (Bits t)) (hs : m.rows * m.cols ≤ m.cap) (hb : m.emul = true → m.bir = false) :
    Tells (dbg && !quiet) (AllData m ZeroOneStrict) (isBinaryStrictNoBias dbg quiet m) := by
  unfold isBinaryStrictNoBias
  rw [if_neg (by
    intro h
    simp only [Bool.and_eq_true] at h
    rw [hb h.1.2] at h; simp at h)]
  refine scanNe_tells dbg quiet strictC m.data m.cap 0 m.numelNoBias ?_ _ (data_iff m hb _ _ strictC_iff)
  rw [Nat.zero_add]
  refine Nat.le_trans (Nat.mul_le_mul ?_ ?_) hs
  · unfold Mtx.rowsNoBias; omega
  · unfold Mtx.colsNoBias; omega

/-- `test_noNaNs` tells whether no element is a NaN. -/
theorem no_nans_tells (dbg : Bool) (m : Mtx (Bits t)) (hs : m.rows * m.cols ≤ m.cap) :
    Tells dbg (AllElements m (fun b => ¬ b.nan)) (testNoNaNs dbg m) := by
  have h := scanNe_tells dbg false (fun b : Bits t => !isnan b) m.data m.cap 0 m.numel (by rw [Nat.zero_add]; exact hs) _
    (all_iff m _ _ isnan_iff)
  rw [Bool.not_false, Bool.and_true] at h
  cases t with
  | int =>
    refine .inl ⟨fun r c hr hc => ⟨m.data (m.cell r c), by unfold Mtx.get; rw [if_pos ⟨hr, hc⟩], fun h => h.1 rfl⟩, rfl⟩
  | f32 => exact h
  | f64 => exact h

/-- What is used of the rounding of a subtraction: it does not reverse the order, a half stays a half, and the difference of one and a number
between a half and two is exact (Sterbenz). -/
structure Rounding (rnd : ℚ → ℚ) : Prop where
  mono : ∀ x y, x ≤ y → rnd x ≤ rnd y
  half : rnd (1 / 2) = 1 / 2
  neg_half : rnd (-(1 / 2)) = -(1 / 2)
  exact_ : ∀ {t : VT} (b : Bits t) x, b.num = some x → 1 / 2 ≤ x → x ≤ 2 → rnd (x - 1) = x - 1

/-- The number is nearer than `eps` to zero or one. -/
def AlmostZeroOne (eps : ℚ) (b : Bits t) : Prop := ∃ x, b.num = some x ∧ (|x - 1| < eps ∨ |x| < eps)

/-- `_isAlmostBinary` tells whether every element is a number that is nearer than `eps` to zero or one, for every `eps` up to a half. -/
theorem almost_binary_tells (rnd : ℚ → ℚ) (hr : Rounding rnd) (dbg : Bool) (eps : ℚ) (he : eps ≤ 1 / 2) (m : Mtx (Bits t))
    (hs : m.rows * m.cols ≤ m.cap) : Tells dbg (AllElements m (AlmostZeroOne eps)) (isAlmostBinary rnd dbg eps m) := by
  have h := scanNe_tells dbg false (almostC (t := t) rnd eps) m.data m.cap 0 m.numel (by rw [Nat.zero_add]; exact hs) _
    (all_iff m (AlmostZeroOne eps) _ ?_)
  · rw [Bool.not_false, Bool.and_true] at h; exact h
  intro b
  unfold AlmostZeroOne almostC
  rcases hn : b.num with _ | x
  · simp
  simp only [Option.some.injEq, exists_eq_left', Bool.or_eq_true, decide_eq_true_eq]
  have key : |x - 1| < eps ↔ |rnd (x - 1)| < eps := by
    rcases lt_or_ge x (1 / 2) with h1 | h1
    · have h2 : rnd (x - 1) ≤ -(1 / 2) := by rw [← hr.neg_half]; exact hr.mono _ _ (by linarith)
      rw [abs_of_nonpos (by linarith), abs_of_nonpos (by linarith)]
      constructor <;> intro <;> linarith
    · rcases lt_or_ge 2 x with h3 | h3
      · have h2 : 1 / 2 ≤ rnd (x - 1) := by
          have := hr.mono (1 / 2) (x - 1) (by linarith)
          rw [hr.half] at this; exact this
        rw [abs_of_nonneg (by linarith), abs_of_nonneg (by linarith)]
        constructor <;> intro <;> linarith
      · rw [hr.exact_ b x hn h1 h3]
  rw [key]

/-! ### C161 -/

/-- `test_biases_strict`: are all the biases ones, in both layouts. -/
theorem biases_strict_tells (dbg : Bool) (m : Mtx (Bits t)) (hs : Solid m) (he : m.emul = true) (hh : m.holey = false) :
    Tells dbg (AllBiases m (fun b => b.num = some 1)) (testBiasesStrict dbg m) := by
  obtain ⟨h1, h2, h3⟩ := hs
  have hcap : m.cap ≠ 0 := by
    have := Nat.mul_pos h1 h2
    omega
  unfold testBiasesStrict
  rw [if_neg (by
    rw [he, hh]
    simp [hcap, Nat.pos_iff_ne_zero.1 h1, Nat.pos_iff_ne_zero.1 h2])]
  rcases hb : m.bir with _ | _
  · simp only [Bool.false_eq_true, if_false]
    have h := scanNe_tells dbg false (isOne (t := t)) m.data m.cap (m.rows * (m.cols - 1)) m.rows (by
      have : m.rows * (m.cols - 1) + m.rows = m.rows * m.cols := by
        rw [← Nat.mul_succ]; congr 1; omega
      omega) _ (biases_cols_iff m he hb h2 _ _ isOne_iff)
    rw [Bool.not_false, Bool.and_true] at h; exact h
  · simp only [if_true]
    have hle : m.cols ≤ m.rows * m.cols := Nat.le_mul_of_pos_left _ h1
    have h := scan_tells dbg false (isOne (t := t)) m.data m.cap m.rows (fun p => decide (p < m.rows - 1 + m.numel)) m.cols (m.cap + 2) (m.rows - 1)
      (by omega) (fun i hi => by
        have hx : (i + 1) * m.rows ≤ m.cols * m.rows := Nat.mul_le_mul_right _ hi
        rw [Nat.add_mul, Nat.mul_comm m.cols] at hx
        unfold Mtx.numel
        refine ⟨?_, ?_⟩
        · simp only [decide_eq_true_eq]; omega
        · omega) (by
        unfold Mtx.numel; rw [Nat.mul_comm m.cols]; simp) _ (biases_rows_iff m he hb h1 _ _ isOne_iff)
    rw [Bool.not_false, Bool.and_true] at h; exact h

/-- `test_biases_holey` with samples in rows: is every bias zero or one. -/
theorem biases_holey_tells_partial (dbg : Bool) (m : Mtx (Bits t)) (hs : Solid m) (he : m.emul = true) (hh : m.holey = true)
    (hb : m.bir = false) : Tells dbg (AllBiases m ZeroOne) (testBiasesHoley dbg m) := by
  obtain ⟨h1, h2, h3⟩ := hs
  have hcap : m.cap ≠ 0 := by
    have := Nat.mul_pos h1 h2
    omega
  unfold testBiasesHoley
  rw [if_neg (by
    rw [he, hh]
    simp [hcap, Nat.pos_iff_ne_zero.1 h1, Nat.pos_iff_ne_zero.1 h2])]
  rw [hb]
  simp only [Bool.false_eq_true, if_false]
  have h := scanNe_tells dbg false (binC (t := t)) m.data m.cap (m.rows * (m.cols - 1)) m.rows (by
    have : m.rows * (m.cols - 1) + m.rows = m.rows * m.cols := by
      rw [← Nat.mul_succ]; congr 1; omega
    omega) _ (biases_cols_iff m he hb h2 _ _ binC_iff)
  rw [Bool.not_false, Bool.and_true] at h; exact h

/-- `test_biases_ok`: does the flag tell the truth about the biases — for all matrices but those with the flag and samples in columns. -/
theorem biases_ok_tells_partial (dbg : Bool) (m : Mtx (Bits t)) (hs : Solid m) (he : m.emul = true) (hb : m.holey = true → m.bir = false) :
    Tells dbg (FlagIsTrue m) (testBiasesOk dbg m) := by
  have hcap : m.cap ≠ 0 := by
    have := Nat.mul_pos hs.1 hs.2.1
    have := hs.2.2
    omega
  unfold testBiasesOk FlagIsTrue
  rcases hh : m.holey with _ | _
  · have := biases_strict_tells dbg m hs he hh
    simpa [hcap, he] using this
  · have := biases_holey_tells_partial dbg m hs he hh (hb hh)
    simpa [hcap, he] using this

/-- `if_biases_test_strict` answers yes for a matrix without biases. -/
theorem if_biases_tells (dbg : Bool) (m : Mtx (Bits t)) (hs : Solid m) (hh : m.emul = true → m.holey = false) :
    Tells dbg (AllBiases m (fun b => b.num = some 1)) (ifBiasesTestStrict dbg m) := by
  unfold ifBiasesTestStrict
  rcases he : m.emul with _ | _
  · exact .inl ⟨fun r c _ _ h => absurd h.1 (by rw [he]; simp), by simp⟩
  · simp only [if_true]; exact biases_strict_tells dbg m hs he (hh he)

/-- Samples in columns and the flag set: the check visits elements at distances of the number of rows up to an end that is the number of columns
away. Unless the rows divide the columns it never meets that end: it leaves the storage and never answers. -/
theorem holey_columns_never_answers (dbg : Bool) (m : Mtx (Bits t)) (hs : Solid m) (he : m.emul = true) (hh : m.holey = true)
    (hb : m.bir = true) (hd : ¬ m.rows ∣ m.cols) : ∀ a, testBiasesOk dbg m ≠ .ret a := by
  obtain ⟨h1, h2, h3⟩ := hs
  have hcap : m.cap ≠ 0 := by
    have := Nat.mul_pos h1 h2
    omega
  have run : ∀ fuel pos cond, m.rows ∣ pos + 1 → ∀ a, scan dbg false (binC (t := t)) m.data m.cap m.rows
      (fun p => p != m.rows - 1 + m.cols) fuel pos cond ≠ .ret a := by
    intro fuel
    induction fuel with
    | zero => intro pos cond _ a h; unfold scan at h; cases h
    | succ f ih =>
      intro pos cond hp a h
      unfold scan at h
      have hne : pos ≠ m.rows - 1 + m.cols := by
        rintro rfl
        apply hd
        have e : m.rows - 1 + m.cols + 1 = m.rows + m.cols := by omega
        rw [e] at hp
        exact (Nat.dvd_add_right (Nat.dvd_refl _)).1 hp
      rw [if_neg (by simpa using hne)] at h
      split at h
      · cases h
      split at h
      · cases h
      · refine ih (pos + m.rows) _ ?_ a h
        have e : pos + m.rows + 1 = (pos + 1) + m.rows := by omega
        rw [e]; exact Nat.dvd_add hp (Nat.dvd_refl _)
  intro a
  unfold testBiasesOk testBiasesHoley
  rw [hh, if_pos rfl, if_neg (by
    rw [he]
    simp [hcap, Nat.pos_iff_ne_zero.1 h1, Nat.pos_iff_ne_zero.1 h2]), hb, if_pos rfl]
  refine run _ _ _ ?_ a
  have e : m.rows - 1 + 1 = m.rows := by omega
  rw [e]

/-- If they do, the check looks only at the first `cols / rows` biases. -/
theorem holey_columns_few_checked (dbg : Bool) (m : Mtx (Bits t)) (hs : Solid m) (he : m.emul = true) (hh : m.holey = true)
    (hb : m.bir = true) (hd : m.rows ∣ m.cols) :
    Tells dbg (∀ c, c < m.cols / m.rows → ∃ b, m.get (m.rows - 1) c = some b ∧ ZeroOne b) (testBiasesOk dbg m) := by
  obtain ⟨h1, h2, h3⟩ := hs
  have hcap : m.cap ≠ 0 := by
    have := Nat.mul_pos h1 h2
    omega
  have hq : m.cols / m.rows * m.rows = m.cols := Nat.div_mul_cancel hd
  have hqc : m.cols / m.rows ≤ m.cols := Nat.div_le_self _ _
  have hle : m.cols ≤ m.rows * m.cols := Nat.le_mul_of_pos_left _ h1
  unfold testBiasesOk testBiasesHoley
  rw [hh, if_pos rfl, if_neg (by
    rw [he]
    simp [hcap, Nat.pos_iff_ne_zero.1 h1, Nat.pos_iff_ne_zero.1 h2]), hb, if_pos rfl]
  have h := scan_tells dbg false (binC (t := t)) m.data m.cap m.rows (fun p => p != m.rows - 1 + m.cols) (m.cols / m.rows) (m.cap + 2) (m.rows - 1)
    (by omega) (fun i hi => by
      have hx : (i + 1) * m.rows ≤ m.cols / m.rows * m.rows := Nat.mul_le_mul_right _ hi
      rw [Nat.add_mul] at hx
      refine ⟨?_, ?_⟩
      · simp; omega
      · omega) (by rw [hq]; simp) (∀ c, c < m.cols / m.rows → ∃ b, m.get (m.rows - 1) c = some b ∧ ZeroOne b) ?_
  · rw [Bool.not_false, Bool.and_true] at h; exact h
  · refine forall_congr' fun i => forall_congr' fun hi => ?_
    rw [← binC_iff]
    have : m.get (m.rows - 1) i = some (m.data (m.rows - 1 + i * m.rows)) := by
      unfold Mtx.get Mtx.cell; rw [if_pos ⟨by omega, by omega⟩, Nat.mul_comm i]
    rw [this]; simp

end Nntl.MtxTest
