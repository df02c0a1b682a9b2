import Verif.MtxTest.Flag
import Verif.Gemm.Lemmas
/-! C163: matrices in the storage of another one. C164: the check of orthogonality. -/
namespace Nntl.MtxTest
open Nntl.Matrix

variable {α : Type}

/-- The matrix `w` shows `n` columns of `m` from column `c0` on: element `(r, c)` of the one is element `(r, c0 + c)` of the other, for every row
that carries data; and a write to an element of `w` changes that element of `m`, and no other. -/
def Shows (w : View) (m : Mtx α) (rows c0 n : Nat) : Prop :=
  w.rows = rows ∧ w.cols = n ∧
    ∀ r c, r < rows → c < n → w.get m r c = m.get r (c0 + c) ∧
      ∀ v, ∃ m', w.set m r c v = some m' ∧ m'.rows = m.rows ∧ m'.cols = m.cols ∧ m'.emul = m.emul ∧ m'.holey = m.holey ∧ m'.bir = m.bir ∧
        ∀ r' c', r' < m.rows → c' < m.cols → m'.get r' c' = if r' = r ∧ c' = c0 + c then some v else m.get r' c'

theorem shows_of (m : Mtx α) (c0 n : Nat) (bir : Bool) (h : c0 + n ≤ m.cols) : Shows ⟨m.rows * c0, m.rows, n, false, false, bir⟩ m m.rows c0 n := by
  refine ⟨rfl, rfl, fun r c hr hc => ?_⟩
  have e : m.rows * c0 + (r + m.rows * c) = r + m.rows * (c0 + c) := by rw [Nat.mul_add]; omega
  constructor
  · unfold View.get Mtx.get Mtx.cell
    simp only
    rw [if_pos ⟨hr, hc⟩, if_pos ⟨hr, by omega⟩, e]
  · intro v
    refine ⟨{ m with data := upd m.data (m.rows * c0 + (r + m.rows * c)) v }, by unfold View.set; simp only; rw [if_pos ⟨hr, hc⟩],
      rfl, rfl, rfl, rfl, rfl, fun r' c' hr' hc' => ?_⟩
    unfold Mtx.get Mtx.cell
    simp only
    rw [if_pos ⟨hr', hc'⟩, upd_apply, e]
    by_cases hx : r' = r ∧ c' = c0 + c
    · rw [if_pos hx, if_pos (by rw [hx.1, hx.2])]
    · rw [if_neg hx, if_neg fun hh => hx (cell_inj hr' hr hh), if_pos ⟨hr', hc'⟩]

theorem cols_le (m : Mtx α) : m.colsNoBias ≤ m.cols := by unfold Mtx.colsNoBias; omega

/-- `submatrix_cols_no_bias` shows the asked columns of data, with all rows, and none of them is a bias — if samples are in rows or there are no
biases. -/
theorem submatrix_shows_partial (m : Mtx α) (w : View) (c0 n : Nat) (hb : m.emul = true → m.bir = false) (h : submatrixCols m c0 n = some w) :
    Shows w m m.rows c0 n ∧ w.emul = false ∧ w.bir = m.bir ∧ ∀ r c, r < m.rows → c < n → ¬ IsBias m r (c0 + c) := by
  unfold submatrixCols at h
  split at h
  next hc =>
    simp only [Bool.and_eq_true, decide_eq_true_eq] at hc
    cases h
    refine ⟨shows_of m c0 n _ (Nat.le_trans hc.2 (cols_le m)), rfl, rfl, ?_⟩
    rintro r c hr hcn ⟨he, hi⟩
    rw [hb he] at hi
    unfold Mtx.colsNoBias at hc
    rw [he, hb he] at hc
    simp at hc hi; omega
  · cases h

/-- `submatrix_cols_no_bias` of matrices that can be deformed: the same for every call its assertions admit; samples are taken to be in rows. -/
theorem submatrix_def_shows (m : Mtx α) (w : View) (c0 n : Nat) (h : submatrixColsDef m c0 n = some w) :
    Shows w m m.rows c0 n ∧ w.emul = false ∧ w.bir = false ∧ ∀ r c, r < m.rows → c < n → ¬ IsBias m r (c0 + c) := by
  unfold submatrixColsDef at h
  split at h
  next hc =>
    simp only [Bool.and_eq_true, decide_eq_true_eq, Bool.not_eq_true', Bool.and_eq_false_iff] at hc
    cases h
    refine ⟨shows_of m c0 n _ (Nat.le_trans hc.1.2 (cols_le m)), rfl, rfl, ?_⟩
    rintro r c hr hcn ⟨he, hi⟩
    have hbir : m.bir = false := by
      rcases hc.2 with h | h
      · rw [he] at h; cases h
      · exact h
    rw [hbir] at hi
    have hh := hc.1.2
    unfold Mtx.colsNoBias at hh
    rw [he, hbir] at hh
    simp at hh hi; omega
  · cases h

/-- `useExternalStorage_no_bias(m, cBeg, totCols)`. -/
theorem use_storage_cols_shows (m : Mtx α) (w : View) (c0 n : Nat) (h : useStorageColsNoBias m c0 n = some w) :
    Shows w m m.rows c0 n ∧ w.emul = false ∧ w.bir = m.bir ∧ ∀ r c, r < m.rows → c < n → ¬ IsBias m r (c0 + c) := by
  unfold useStorageColsNoBias at h
  split at h
  next hc =>
    simp only [Bool.and_eq_true, decide_eq_true_eq, Bool.not_eq_true', Bool.and_eq_false_iff] at hc
    cases h
    refine ⟨shows_of m c0 n _ (Nat.le_trans hc.1 (cols_le m)), rfl, rfl, ?_⟩
    rintro r c hr hcn ⟨he, hi⟩
    have hbir : m.bir = false := by
      rcases hc.2 with h | h
      · rw [he] at h; cases h
      · exact h
    rw [hbir] at hi
    have hh := hc.1
    unfold Mtx.colsNoBias at hh
    rw [he, hbir] at hh
    simp at hh hi; omega
  · cases h

/-- `useExternalStorage_no_bias(m)`: shows all the data, and no bias. -/
theorem use_storage_no_bias_shows (m : Mtx α) (w : View) (hc0 : m.emul = true → 0 < m.cols) (h : useStorageNoBias m = some w) :
    Shows w m m.rows 0 (m.cols - if m.emul then 1 else 0) ∧ w.emul = false ∧ w.bir = m.bir ∧
      ∀ r c, r < m.rows → c < m.cols → (¬ IsBias m r c ↔ c < w.cols) := by
  unfold useStorageNoBias at h
  split at h
  · cases h
  next hb =>
    cases h
    have hb' : m.emul = true → m.bir = false := fun he => by rw [he] at hb; simpa using hb
    have e1 : m.rowsNoBias = m.rows := by
      unfold Mtx.rowsNoBias
      rcases he : m.emul with _ | _
      · rfl
      · rw [hb' he]; rfl
    have e2 : m.colsNoBias = m.cols - if m.emul then 1 else 0 := by
      unfold Mtx.colsNoBias
      rcases he : m.emul with _ | _
      · rfl
      · rw [hb' he]; rfl
    have := shows_of m 0 m.colsNoBias m.bir (by rw [Nat.zero_add]; exact cols_le m)
    rw [Nat.mul_zero] at this
    refine ⟨by rw [e1, ← e2]; exact this, rfl, rfl, fun r c hr hc => ?_⟩
    show _ ↔ c < m.colsNoBias
    rw [e2]
    unfold IsBias
    rcases he : m.emul with _ | _
    · simp; omega
    · have := hc0 he
      rw [hb' he]; simp; omega

/-- `useExternalStorage(m)`: the same size, elements and properties. -/
theorem use_storage_shows (m : Mtx α) :
    Shows (useStorage m) m m.rows 0 m.cols ∧ (useStorage m).emul = m.emul ∧ (useStorage m).bir = m.bir ∧ (m.emul = true → (useStorage m).holey = m.holey) := by
  have := shows_of m 0 m.cols m.bir (by omega)
  refine ⟨⟨rfl, rfl, ?_⟩, rfl, rfl, fun he => by unfold useStorage; rw [he]; rfl⟩
  have h := this.2.2
  rw [Nat.mul_zero] at h
  exact h

theorem keep_biases (m : Mtx α) (w : View) (c0 n : Nat) (hw : ∀ d : Nat → α, Shows w { m with data := d } m.rows c0 n)
    (hn : ∀ r c, r < m.rows → c < n → ¬ IsBias m r (c0 + c)) (ws : List (Nat × Nat × α)) :
    ∀ d m', ws.foldlM (fun m x => w.set m x.1 x.2.1 x.2.2) { m with data := d } = some m' →
      ∀ r c, r < m.rows → c < m.cols → IsBias m r c → m'.get r c = Mtx.get { m with data := d } r c := by
  induction ws with
  | nil => intro d m' h r c _ _ _; cases h; rfl
  | cons x ws ih =>
    intro d m' h r c hr hc hb
    rw [List.foldlM_cons] at h
    by_cases hin : x.1 < m.rows ∧ x.2.1 < n
    · obtain ⟨a, h1, h2, h3, h4, h5, h6, h7⟩ := ((hw d).2.2 x.1 x.2.1 hin.1 hin.2).2 x.2.2
      have ha : a = { m with data := a.data } := by
        unfold View.set at h1
        split at h1
        · cases h1; rfl
        · cases h1
      rw [h1, ha] at h
      rw [ih a.data m' h r c hr hc hb, ← ha, h7 r c hr hc, if_neg]
      rintro ⟨rfl, rfl⟩
      exact hn _ _ hin.1 hin.2 hb
    · have : w.set { m with data := d } x.1 x.2.1 x.2.2 = none := by
        unfold View.set
        rw [(hw d).1, (hw d).2.1, if_neg hin]
      rw [this] at h; cases h

/-- Writes to the matrix `submatrix_cols_no_bias` gives never change a bias, whatever is written and in whatever order. -/
theorem writes_keep_biases (m m' : Mtx α) (w : View) (c0 n : Nat) (h : submatrixColsDef m c0 n = some w) (ws : List (Nat × Nat × α))
    (hw : ws.foldlM (fun m x => w.set m x.1 x.2.1 x.2.2) m = some m') :
    ∀ r c, r < m.rows → c < m.cols → IsBias m r c → m'.get r c = m.get r c :=
  keep_biases m w c0 n (fun d => (submatrix_def_shows { m with data := d } w c0 n h).1) (submatrix_def_shows m w c0 n h).2.2.2 ws m.data m' hw

/-! ### C164 -/

theorem farRow_iff (far : Nat → Nat → Bool) (r n c : Nat) : farRow far r n c = true ↔ ∀ j, j < n → far r (c + j) = false := by
  induction n generalizing c with
  | zero => simp [farRow]
  | succ n ih =>
    unfold farRow
    by_cases h : far r c = true
    · rw [if_pos h]
      simp only [Bool.false_eq_true, false_iff]
      intro hh; have := hh 0 (by omega); rw [Nat.add_zero, h] at this; cases this
    · rw [if_neg h, ih]
      have h' : far r c = false := by simpa using h
      constructor
      · intro hh j hj
        rcases j with _ | j
        · exact h'
        · have := hh j (by omega)
          rwa [show c + 1 + j = c + (j + 1) by omega] at this
      · intro hh j hj
        have := hh (j + 1) (by omega)
        rwa [show c + (j + 1) = c + 1 + j by omega] at this

theorem farLoop_iff (far : Nat → Nat → Bool) (sz n r : Nat) :
    farLoop far sz n r = true ↔ ∀ i, i < n → ∀ j, j < sz → far (r + i) j = false := by
  induction n generalizing r with
  | zero => simp [farLoop]
  | succ n ih =>
    unfold farLoop
    have hrow := farRow_iff far r sz 0
    simp only [Nat.zero_add] at hrow
    by_cases h : farRow far r sz 0 = true
    · rw [if_pos h, ih]
      constructor
      · intro hh i hi
        rcases i with _ | i
        · exact hrow.1 h
        · have := hh i (by omega)
          rwa [show r + 1 + i = r + (i + 1) by omega] at this
      · intro hh i hi
        have := hh (i + 1) (by omega)
        rwa [show r + (i + 1) = r + 1 + i by omega] at this
    · rw [if_neg h]
      simp only [Bool.false_eq_true, false_iff]
      intro hh; exact h (hrow.2 (hh 0 (by omega)))

/-- `_mIsOrthogonal` answers yes exactly if the columns (or the rows) of the matrix are orthonormal within the given distance: every product of two
of them is at most `eps` away from one (of a column with itself) or from zero. It reads nothing outside the matrix, and the contents of the memory it
allocates do not matter. -/
theorem orthogonal_tells (A : Mtx ℚ) (trans : Bool) (eps : ℚ) (junk : Nat → ℚ) (h1 : 0 < A.rows) (h2 : 0 < A.cols) (h3 : A.rows * A.cols ≤ A.cap) :
    ∃ b, isOrthogonal A trans eps junk = some b ∧
      (b = true ↔ ∀ i j, i < (if trans then A.cols else A.rows) → j < (if trans then A.cols else A.rows) →
        |(if i = j then 1 else 0) - products A trans i j| ≤ eps) := by
  have hf : Gemm.fits A.rows A.cols A.rows A.cap = true := Gemm.fits_of _ _ _ _ h1 (Nat.le_refl _) h3
  obtain ⟨d, hd, hv, -⟩ := Gemm.gemm_spec (tA := trans) (tB := !trans) (M := if trans then A.cols else A.rows) (N := if trans then A.cols else A.rows)
    (K := if trans then A.rows else A.cols) (alpha := (1 : ℚ)) (A := Gemm.buf A) (lda := A.rows) (B := Gemm.buf A) (ldb := A.rows)
    (C := ⟨junk, (if trans then A.cols else A.rows) * (if trans then A.cols else A.rows)⟩) (ldc := if trans then A.cols else A.rows)
    (by cases trans <;> exact hf) (by cases trans <;> exact hf) (by cases trans <;> assumption) (Nat.le_refl _) (Nat.le_refl _)
  have hl : (if trans then (if trans then A.rows else A.cols) else (if trans then A.cols else A.rows)) = A.rows := by cases trans <;> rfl
  unfold isOrthogonal
  simp only
  rw [hl, hd]
  refine ⟨_, rfl, ?_⟩
  rw [farLoop_iff]
  have hp : ∀ i j, i < (if trans then A.cols else A.rows) → j < (if trans then A.cols else A.rows) →
      d (i + (if trans then A.cols else A.rows) * j) = products A trans i j := by
    intro i j hi hj
    rw [hv i j hi hj, one_mul]
    unfold products Gemm.op Gemm.buf Mtx.cell
    cases trans <;> rfl
  constructor
  · intro h i j hi hj
    have := h i hi j hj
    rw [Nat.zero_add] at this
    simp only [decide_eq_false_iff_not, not_lt] at this
    rw [hp i j hi hj] at this
    exact this
  · intro h i hi j hj
    rw [Nat.zero_add]
    simp only [decide_eq_false_iff_not, not_lt]
    rw [hp i j hi hj]
    exact h i j hi hj

/-- The loops compare with `>`: products that are not numbers (the comparison is then false) count as right. -/
theorem orthogonal_nans (far : Nat → Nat → Bool) (sz : Nat) (h : ∀ i j, far i j = false) : farLoop far sz sz 0 = true :=
  (farLoop_iff far sz sz 0).2 fun _ _ _ _ => h _ _

end Nntl.MtxTest
