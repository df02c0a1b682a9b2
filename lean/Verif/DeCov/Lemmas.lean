import Verif.DeCov.Model
import Verif.DeCov.Spec
import Verif.Cols.Props
import Verif.Gemm.Props
import Verif.Matrix.Lemmas
import Mathlib.Analysis.Calculus.Deriv.Basic
import Mathlib.Analysis.Calculus.Deriv.Add
import Mathlib.Analysis.Calculus.Deriv.Mul
import Mathlib.Analysis.Calculus.Deriv.Pow
import Mathlib.Algebra.Order.Ring.Star
import Mathlib.Tactic.Ring
import Mathlib.Tactic.FieldSimp
import Mathlib.Tactic.Linarith

/-! Lemmas about the DeCov regulariser: the calculus and the steps of the calculation. -/
namespace Nntl.DeCov

open Nntl.Matrix
open Nntl.Kernel
open Finset

/-! ### Calculus -/

theorem centred (N : ℕ) (X : ℕ → ℕ → ℝ) (i : ℕ) : ∑ r ∈ range N, (X r i - mu N X i) = 0 := by
  rcases Nat.eq_zero_or_pos N with rfl | h
  · simp
  · rw [sum_sub_distrib, sum_const, card_range, nsmul_eq_mul, mu, mul_div_cancel₀ _ (by positivity), sub_self]

theorem cov_comm (N : ℕ) (X : ℕ → ℕ → ℝ) (i j : ℕ) : cov N X i j = cov N X j i := by
  unfold cov; congr 1; exact sum_congr rfl fun r _ => mul_comm _ _

theorem cov_deriv (N : ℕ) (X : ℝ → ℕ → ℕ → ℝ) (X' : ℕ → ℕ → ℝ) (t : ℝ)
    (h : ∀ r i, HasDerivAt (fun s => X s r i) (X' r i) t) (i j : ℕ) :
    HasDerivAt (fun s => cov N (X s) i j)
      ((∑ r ∈ range N, (X' r i * (X t r j - mu N (X t) j) + (X t r i - mu N (X t) i) * X' r j)) / N) t := by
  have hmu : ∀ i, HasDerivAt (fun s => mu N (X s) i) (mu N X' i) t := by
    intro i
    exact (HasDerivAt.fun_sum fun r _ => h r i).div_const _
  have h1 : HasDerivAt (fun s => cov N (X s) i j)
      ((∑ r ∈ range N, ((X' r i - mu N X' i) * (X t r j - mu N (X t) j) + (X t r i - mu N (X t) i) * (X' r j - mu N X' j))) / N) t :=
    (HasDerivAt.fun_sum fun r _ => ((h r i).sub (hmu i)).mul ((h r j).sub (hmu j))).div_const _
  refine h1.congr_deriv ?_
  congr 1
  have e : ∀ r, (X' r i - mu N X' i) * (X t r j - mu N (X t) j) + (X t r i - mu N (X t) i) * (X' r j - mu N X' j) =
      (X' r i * (X t r j - mu N (X t) j) + (X t r i - mu N (X t) i) * X' r j) -
        mu N X' i * (X t r j - mu N (X t) j) - mu N X' j * (X t r i - mu N (X t) i) := fun r => by ring
  simp only [e]
  rw [sum_sub_distrib, sum_sub_distrib, ← mul_sum, ← mul_sum, centred, centred]
  ring

theorem erase_sum (k i : ℕ) (f : ℕ → ℝ) : ∑ j ∈ (range k).erase i, f j = ∑ j ∈ range k, if j ≠ i then f j else 0 := by
  rw [← sum_filter]
  refine sum_congr ?_ fun _ _ => rfl
  ext j
  simp only [mem_erase, mem_filter, ne_eq, and_comm]

/-- Off-diagonal sums may be transposed. -/
theorem off_swap (k : ℕ) (f : ℕ → ℕ → ℝ) :
    ∑ i ∈ range k, ∑ j ∈ (range k).erase i, f i j = ∑ i ∈ range k, ∑ j ∈ (range k).erase i, f j i := by
  simp only [erase_sum]
  rw [sum_comm]
  refine sum_congr rfl fun i _ => sum_congr rfl fun j _ => ?_
  by_cases h : i = j
  · simp [h]
  · rw [if_pos h, if_pos (Ne.symm h)]

theorem penalty_deriv (N k : ℕ) (X : ℝ → ℕ → ℕ → ℝ) (X' : ℕ → ℕ → ℝ) (t : ℝ)
    (h : ∀ r i, HasDerivAt (fun s => X s r i) (X' r i) t) :
    HasDerivAt (fun s => penalty N k (X s)) (∑ r ∈ range N, ∑ a ∈ range k, slope N k (X t) r a * X' r a) t := by
  have h1 : HasDerivAt (fun s => penalty N k (X s))
      ((∑ i ∈ range k, ∑ j ∈ (range k).erase i, 2 * cov N (X t) i j ^ (2 - 1) *
        ((∑ r ∈ range N, (X' r i * (X t r j - mu N (X t) j) + (X t r i - mu N (X t) i) * X' r j)) / N)) / 2 / ((k : ℝ) - 1)) t :=
    ((HasDerivAt.fun_sum fun i _ => HasDerivAt.fun_sum fun j _ => (cov_deriv N X X' t h i j).pow 2).div_const _).div_const _
  refine h1.congr_deriv ?_
  -- both halves of the derivative of a covariance give the same sum
  have e : ∀ i j, 2 * cov N (X t) i j ^ (2 - 1) *
        ((∑ r ∈ range N, (X' r i * (X t r j - mu N (X t) j) + (X t r i - mu N (X t) i) * X' r j)) / N) =
      2 / N * (∑ r ∈ range N, X' r i * (cov N (X t) i j * (X t r j - mu N (X t) j))) +
      2 / N * (∑ r ∈ range N, X' r j * (cov N (X t) j i * (X t r i - mu N (X t) i))) := by
    intro i j
    rw [cov_comm N (X t) j i]
    have : ∀ r, X' r i * (X t r j - mu N (X t) j) + (X t r i - mu N (X t) i) * X' r j =
      X' r i * (X t r j - mu N (X t) j) + X' r j * (X t r i - mu N (X t) i) := fun r => by ring
    simp only [this, sum_add_distrib]
    have l1 : ∑ r ∈ range N, X' r i * (cov N (X t) i j * (X t r j - mu N (X t) j)) =
        cov N (X t) i j * ∑ r ∈ range N, X' r i * (X t r j - mu N (X t) j) := by
      rw [mul_sum]; exact sum_congr rfl fun r _ => by ring
    have l2 : ∑ r ∈ range N, X' r j * (cov N (X t) i j * (X t r i - mu N (X t) i)) =
        cov N (X t) i j * ∑ r ∈ range N, X' r j * (X t r i - mu N (X t) i) := by
      rw [mul_sum]; exact sum_congr rfl fun r _ => by ring
    rw [l1, l2]
    ring
  simp only [e]
  simp only [sum_add_distrib]
  rw [off_swap k fun i j => 2 / (N : ℝ) * ∑ r ∈ range N, X' r j * (cov N (X t) j i * (X t r i - mu N (X t) i))]
  rw [sum_comm (s := range N)]
  have f : ∀ a, ∑ r ∈ range N, slope N k (X t) r a * X' r a =
      2 / (N * ((k : ℝ) - 1)) * ∑ j ∈ (range k).erase a, ∑ r ∈ range N, X' r a * (cov N (X t) a j * (X t r j - mu N (X t) j)) := by
    intro a
    rw [sum_comm, mul_sum]
    refine sum_congr rfl fun r _ => ?_
    rw [slope, mul_assoc, sum_mul]
    congr 1
    exact sum_congr rfl fun j _ => by ring
  simp only [f, ← mul_sum]
  generalize ∑ i ∈ range k, ∑ j ∈ (range k).erase i, ∑ r ∈ range N, X' r i * (cov N (X t) i j * (X t r j - mu N (X t) j)) = S
  rw [← two_mul, ← div_div (2 : ℝ)]
  ring

/-- The gradient is centred: going along it does not change the mean activation of a neuron. -/
theorem slope_centred (N k : ℕ) (X : ℕ → ℕ → ℝ) (a : ℕ) : ∑ r ∈ range N, slope N k X r a = 0 := by
  unfold slope
  rw [← mul_sum, sum_comm]
  simp only [← mul_sum, centred, mul_zero, sum_const_zero]

/-- One triangle holds half of the off-diagonal sum of a symmetric matrix. -/
theorem triangle_half (lower : Bool) (k : ℕ) (f : ℕ → ℕ → ℝ) (hf : ∀ i j, f i j = f j i) :
    ∑ p ∈ Cols.triangle lower k, f p.1 p.2 = (∑ i ∈ range k, ∑ j ∈ (range k).erase i, f i j) / 2 := by
  have key : ∀ b, ∑ p ∈ Cols.triangle b k, f p.1 p.2 = ∑ i ∈ range k, ∑ j ∈ range k, if (if b then j < i else i < j) then f i j else 0 := by
    intro b
    unfold Cols.triangle
    rw [sum_filter, sum_product]
  have hsw : ∑ p ∈ Cols.triangle true k, f p.1 p.2 = ∑ p ∈ Cols.triangle false k, f p.1 p.2 := by
    rw [key, key, sum_comm]
    refine sum_congr rfl fun i _ => sum_congr rfl fun j _ => ?_
    simp only [if_true, Bool.false_eq_true, if_false]
    rw [hf]
  have hadd : ∑ i ∈ range k, ∑ j ∈ (range k).erase i, f i j =
      ∑ p ∈ Cols.triangle true k, f p.1 p.2 + ∑ p ∈ Cols.triangle false k, f p.1 p.2 := by
    rw [key, key, ← sum_add_distrib]
    refine sum_congr rfl fun i _ => ?_
    rw [erase_sum, ← sum_add_distrib]
    refine sum_congr rfl fun j _ => ?_
    simp only [if_true, Bool.false_eq_true, if_false]
    rcases lt_trichotomy i j with h | h | h
    · rw [if_pos (by omega), if_neg (by omega), if_pos h, zero_add]
    · rw [if_neg (by omega), if_neg (by omega), if_neg (by omega), zero_add]
    · rw [if_pos (by omega), if_pos h, if_neg (by omega), add_zero]
  cases lower
  · rw [hadd, hsw]; ring
  · rw [hadd, hsw]; ring

/-! ### Steps of the calculation -/

/-- Copying without biases into a matrix of the right size: the header is that of the destination apart from the flags. -/
theorem clone_same (V D : Mtx ℝ) (h0 : ¬ (V.emul ∧ V.bir)) (h1 : D.rows = V.rows) (h2 : D.cols = V.colsNoBias) (h3 : ¬ D.emul)
    (hr : 0 < V.rows) (hc : 0 < V.colsNoBias) :
    V.cloneToNoBias D (fun _ => 0) true = some ({ D with emul := false, holey := false, bir := V.bir, data := copyN D.data V.data V.numelNoBias }, true) := by
  have hb : (V.emul && V.bir) = false := by simpa [Bool.and_eq_true] using h0
  have he : D.emul = false := by simpa using h3
  unfold Mtx.cloneToNoBias
  rw [hb]
  simp only [Bool.false_eq_true, if_false]
  by_cases hx : D.ext = true
  · rw [if_pos hx, if_neg (by simp [h1, h2])]
  · rw [if_neg hx]
    have : D.resize V.rows V.colsNoBias (fun _ => 0) true = some (D, true) := by
      unfold Mtx.resize Mtx.implResize
      rw [he, if_neg (by omega)]
      simp only [Bool.false_and, Bool.toNat_false, Nat.add_zero]
      rw [if_neg (by omega), if_pos ⟨h1.symm, h2.symm⟩]
      simp [he]
    rw [this]

/-- `clone_to` between matrices of one size without biases. -/
theorem cloneTo_same (V D : Mtx ℝ) (h0 : ¬ V.emul) (h1 : D.rows = V.rows) (h2 : D.cols = V.cols) (hr : 0 < V.rows) (hc : 0 < V.cols) :
    V.cloneTo D (fun _ => 0) true = some ({ D with emul := false, holey := V.holey, bir := V.bir, data := copyN D.data V.data V.numel }, true) := by
  have he : V.emul = false := by simpa using h0
  have hcp : ∀ E : Mtx ℝ, E.rows = V.rows → E.cols = V.cols → V.copyTo { E with emul := V.emul } =
      ({ E with emul := false, holey := V.holey, bir := V.bir, data := copyN E.data V.data V.numel }, true) := by
    intro E e1 e2
    unfold Mtx.copyTo
    rw [if_neg (by simp [Mtx.numel, e1, e2])]
    simp only [he, e1, e2]
  unfold Mtx.cloneTo
  by_cases hx : D.ext = true
  · rw [if_pos hx, if_neg (by simp [h1, h2]), hcp D h1 h2]
  · rw [if_neg hx]
    have : Mtx.resize { D with emul := false } V.rows V.cols (fun _ => 0) true = some ({ D with emul := false }, true) := by
      unfold Mtx.resize Mtx.implResize
      rw [if_neg (by omega)]
      simp only [Bool.false_and, Bool.toNat_false, Nat.add_zero]
      rw [if_neg (by omega), if_pos ⟨h1.symm, h2.symm⟩]
      simp
    rw [this]
    simp only
    rw [hcp _ h1 h2]

theorem cell_lt {R C r c : ℕ} (hr : r < R) (hc : c < C) : r + R * c < R * C := by
  have : R * (c + 1) ≤ R * C := Nat.mul_le_mul_left _ hc
  rw [Nat.mul_add] at this
  omega

/-- The activations of a matrix in the default layout. -/
noncomputable def acts (V : Mtx ℝ) : ℕ → ℕ → ℝ := fun r c => Cols.el V r c

theorem mu_congr {N : ℕ} {X Y : ℕ → ℕ → ℝ} {i : ℕ} (h : ∀ r, r < N → X r i = Y r i) : mu N X i = mu N Y i := by
  unfold mu; congr 1; exact sum_congr rfl fun r hr => h r (mem_range.1 hr)

theorem cov_congr {N k : ℕ} {X Y : ℕ → ℕ → ℝ} (h : ∀ r i, r < N → i < k → X r i = Y r i) {i j : ℕ} (hi : i < k) (hj : j < k) :
    cov N X i j = cov N Y i j := by
  unfold cov
  rw [mu_congr fun r hr => h r i hr hi, mu_congr fun r hr => h r j hr hj]
  congr 1
  refine sum_congr rfl fun r hr => ?_
  rw [h r i (mem_range.1 hr) hi, h r j (mem_range.1 hr) hj]

/-- What the first half delivers. -/
theorem centred_result (H : How) (hH : H.Ok) (lower ns : Bool) (jd jc : ℕ → ℝ) (V DM C : Mtx ℝ) (h : Centred H lower ns jd jc V DM C)
    (h0 : ¬ (V.emul ∧ V.bir)) (hr : 0 < V.rows) (hc : 1 < V.colsNoBias) :
    DM.rows = V.rows ∧ DM.cols = V.colsNoBias ∧ DM.emul = false ∧ DM.cap = V.rows * V.colsNoBias ∧
    (∀ r c, r < V.rows → c < V.colsNoBias → Cols.el DM r c = acts V r c - mu V.rows (acts V) c) ∧
    C.rows = V.colsNoBias ∧ C.cols = V.colsNoBias ∧ C.cap = V.colsNoBias * V.colsNoBias ∧
    ∀ i j, i < V.colsNoBias → j < V.colsNoBias → (if lower then j ≤ i else i ≤ j) → Cols.el C i j = cov V.rows (acts V) i j := by
  obtain ⟨D, h1, h2, h3⟩ := h
  rw [clone_same V (scratch jd V.rows V.colsNoBias) h0 rfl rfl (by simp [scratch]) hr (by omega)] at h1
  have h1 := (Prod.mk.inj (Option.some.inj h1)).1
  have hnb : V.rowsNoBias = V.rows := by
    unfold Mtx.rowsNoBias
    have : (V.emul && V.bir) = false := by simpa [Bool.and_eq_true] using h0
    rw [this]; rfl
  have hDr : D.rows = V.rows := by rw [← h1]; rfl
  have hDc : D.cols = V.colsNoBias := by rw [← h1]; rfl
  have hDe : ∀ r c, r < V.rows → c < V.colsNoBias → Cols.el D r c = acts V r c := by
    intro r c hr' hc'
    show D.data (r + D.rows * c) = V.data (r + V.rows * c)
    rw [hDr, ← h1]
    show copyN jd V.data V.numelNoBias (r + V.rows * c) = _
    rw [copyN_apply, if_pos]
    unfold Mtx.numelNoBias
    rw [hnb]
    exact cell_lt hr' hc'
  obtain ⟨g1, g2, g3⟩ := Cols.deMean_result H.mean hH.1 ns D DM (by omega) h2
  have hMr : DM.rows = V.rows := by rw [g1]; exact hDr
  have hMc : DM.cols = V.colsNoBias := by rw [g1]; exact hDc
  have hMe : DM.emul = false := by rw [g1]; show D.emul = false; rw [← h1]
  have hMcap : DM.cap = V.rows * V.colsNoBias := by rw [g1]; show D.cap = _; rw [← h1]; rfl
  have hM : ∀ r c, r < V.rows → c < V.colsNoBias → Cols.el DM r c = acts V r c - mu V.rows (acts V) c := by
    intro r c hr' hc'
    rw [g3 r c (by omega) (by omega)]
    show Cols.el D r c - Cols.mean D c = _
    rw [hDe r c hr' hc']
    congr 1
    unfold Cols.mean mu
    rw [hDr]
    congr 1
    exact sum_congr rfl fun q hq => hDe q c (mem_range.1 hq) hc'
  obtain ⟨C', e1, e2, e3, -, -⟩ := Gemm.covariance (fun n => 1 / (n : ℝ)) lower DM (scratch jc DM.cols DM.cols)
    ⟨by omega, by omega, by rw [hMr, hMc, hMcap]⟩ ⟨by show 0 < DM.cols; omega, by show 0 < DM.cols; omega, le_refl _⟩ (by omega) rfl rfl
  rw [e1] at h3
  obtain rfl := Option.some.inj h3
  refine ⟨hMr, hMc, hMe, hMcap, hM, by rw [e2]; exact hMc, by rw [e2]; exact hMc, by rw [e2]; show DM.cols * DM.cols = _; rw [hMc], ?_⟩
  intro i j hi hj hl
  have := e3 i j (by omega) (by omega) hl
  show Gemm.el C' i j = _
  rw [this, hMr, cov, one_div, ← div_eq_inv_mul]
  congr 1
  refine sum_congr rfl fun r hr' => ?_
  have hr'' := mem_range.1 hr'
  show Cols.el DM r i * Cols.el DM r j = _
  rw [hM r i hr'' hi, hM r j hr'' hj]

/-- The calculation can always be done: memory is there and no assertion fails. -/
theorem centred_runs (H : How) (lower ns : Bool) (jd jc : ℕ → ℝ) (V : Mtx ℝ) (h0 : ¬ (V.emul ∧ V.bir)) (hr : 0 < V.rows)
    (hc : 1 < V.colsNoBias) : ∃ DM C, Centred H lower ns jd jc V DM C := by
  have h1 := clone_same V (scratch jd V.rows V.colsNoBias) h0 rfl rfl (by simp [scratch]) hr (by omega)
  obtain ⟨DM, h2⟩ := Cols.deMean_runs H.mean ns ({ scratch jd V.rows V.colsNoBias with emul := false, holey := false, bir := V.bir, data := copyN (scratch jd V.rows V.colsNoBias).data V.data V.numelNoBias } : Mtx ℝ)
  have hd : DM.rows = V.rows ∧ DM.cols = V.colsNoBias ∧ DM.cap = V.rows * V.colsNoBias := by
    obtain ⟨cs, -, rfl⟩ := h2
    exact ⟨rfl, rfl, rfl⟩
  obtain ⟨C', e1, -⟩ := Gemm.covariance (fun n => 1 / (n : ℝ)) lower DM (scratch jc DM.cols DM.cols)
    ⟨by omega, by omega, by rw [hd.1, hd.2.1, hd.2.2]⟩ ⟨by show 0 < DM.cols; omega, by show 0 < DM.cols; omega, le_refl _⟩ (by omega) rfl rfl
  exact ⟨DM, C', _, h1, h2, e1⟩

/-- A symmetric matrix of which one triangle is known. -/
theorem symAt_eq (lower : Bool) (A : ℕ → ℝ) (n : ℕ) (f : ℕ → ℕ → ℝ) (hf : ∀ i j, f i j = f j i)
    (h : ∀ i j, i < n → j < n → (if lower then j ≤ i else i ≤ j) → A (i + n * j) = f i j) (i j : ℕ) (hi : i < n) (hj : j < n) :
    symAt lower A n i j = f i j := by
  unfold symAt
  by_cases hl : (if lower then j ≤ i else i ≤ j)
  · rw [if_pos hl]; exact h i j hi hj hl
  · rw [if_neg hl, hf]
    refine h j i hj hi ?_
    cases lower
    · simp only [Bool.false_eq_true, if_false] at hl ⊢; omega
    · simp only [if_true] at hl ⊢; omega

theorem symmRight_spec (lower : Bool) (M N : ℕ) (alpha beta : ℝ) (A B C : Gemm.Buf ℝ) (hM : 0 < M) (hN : 0 < N) (hA : N * N ≤ A.cap)
    (hB : M * N ≤ B.cap) (hC : M * N ≤ C.cap) :
    ∃ d, symmRight lower M N alpha A N B M beta C M = some d ∧
      (∀ i j, i < M → j < N → d (i + M * j) = alpha * (∑ l ∈ range N, B.at_ (i + M * l) * symAt lower A.at_ N l j) + beta * C.at_ (i + M * j)) ∧
      ∀ k, M * N ≤ k → d k = C.at_ k := by
  refine ⟨_, by unfold symmRight; rw [if_pos (by rw [Gemm.fits_of N N N A.cap hN (le_refl _) hA, Gemm.fits_of M N M B.cap hM (le_refl _) hB, Gemm.fits_of M N M C.cap hM (le_refl _) hC]; rfl)], ?_, ?_⟩
  · intro i j hi hj
    simp only [Gemm.cell_div M i j hi, Gemm.cell_mod M i j hi]
    rw [if_pos ⟨hi, hj⟩]
  · intro k hk
    refine if_neg ?_
    rintro ⟨-, h⟩
    exact absurd h (not_lt.2 ((Nat.le_div_iff_mul_le hM).2 (by rw [Nat.mul_comm]; exact hk)))

end Nntl.DeCov
