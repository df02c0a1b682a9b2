import Verif.Rng.RangeProps
import Verif.Matrix.Spec
import Verif.Matrix.Lemmas
/-! C110: random matrices. -/
namespace Nntl.Rng
open Nntl.Matrix
variable {σ δ β R : Type}

/-- The filling function writes the first `n` elements, the `k`-th as `v n s k`, and nothing else. -/
def FillsWith (f : Filler σ R) (v : Nat → σ → Nat → R) : Prop :=
  ∀ n s mem k, (f n s mem).2 k = if k < n then v n s k else mem k

/-- The loop of one thread is such a function. -/
theorem loop_fills (g : Gen σ δ R) (d0 : δ) : FillsWith (fun n s mem => loop g n 0 d0 s mem) (fun _ s k => elem g d0 s k) := by
  intro n s mem k
  obtain ⟨_, h2, h3⟩ := loop_eq g n 0 d0 s mem
  dsimp only
  split
  · rename_i h; have := h2 k h; rwa [Nat.zero_add] at this
  · rename_i h; exact h3 k (Or.inr (by omega))

theorem get_in (m : Mtx R) {r c : Nat} (hr : r < m.rows) (hc : c < m.cols) : m.get r c = some (m.data (r + m.rows * c)) :=
  if_pos ⟨hr, hc⟩

/-- Same sizes, flags and storage. -/
def SameShape (a b : Mtx R) : Prop :=
  a.rows = b.rows ∧ a.cols = b.cols ∧ a.emul = b.emul ∧ a.bir = b.bir ∧ a.cap = b.cap ∧ a.ext = b.ext ∧ a.holey = b.holey ∧ a.maxSize = b.maxSize

/-- **C110a.** `gen_matrixAny` fills a matrix of either layout: every element that is no bias gets its random number, every bias is one, the
rest of the storage is untouched. -/
theorem gen_matrix_any_fills [OfNat R 1] (f : Filler σ R) (v : Nat → σ → Nat → R) (hf : FillsWith f v) (m : Mtx R) (s : σ) (hc : m.cap ≠ 0) (hr0 : 0 < m.rows)
    (hm : BiasesAreOnes m) :
    SameShape (genMatrixAny f m s).2 m ∧ BiasesAreOnes (genMatrixAny f m s).2 ∧
    (∃ N, ∀ r c, r < m.rows → c < m.cols → ¬ IsBias m r c → (genMatrixAny f m s).2.get r c = some (v N s (m.cell r c))) ∧
    (∀ k, m.rows * m.cols ≤ k → (genMatrixAny f m s).2.data k = m.data k) := by
  unfold genMatrixAny
  by_cases hb : m.emul = true ∧ m.bir = true
  · obtain ⟨he, hb⟩ := hb
    have e1 : (m.emul && !m.bir) = false := by rw [he, hb]; rfl
    have e2 : (m.emul && m.bir) = true := by rw [he, hb]; rfl
    simp only [e1, e2, if_true, Bool.false_eq_true, if_false]
    have hd : ∀ k, ((f m.numel s m.data).2) k = if k < m.numel then v m.numel s k else m.data k := fun k => hf _ _ _ _
    generalize (f m.numel s m.data).2 = D at hd
    refine ⟨⟨rfl, rfl, rfl, rfl, rfl, rfl, rfl, rfl⟩, ?_, ⟨m.numel, ?_⟩, ?_⟩
    · intro _ r c hr hcc hi
      simp only [Mtx.fillRow] at hr hcc
      have hi2 : r + 1 = m.rows := by
        have := hi.2
        simp only [Mtx.fillRow, hb, if_true] at this
        exact this
      simp only [Mtx.get, Mtx.fillRow, Mtx.cell, hr, hcc, and_self, if_true]
      have : r = m.rows - 1 := by omega
      rw [this]
      exact congrArg some (fillStride_hit _ _ _ _ _ _ hcc)
    · intro r c hr hcc hi
      simp only [Mtx.get, Mtx.fillRow, Mtx.cell, hr, hcc, and_self, if_true]
      rw [fillStride_miss, hd, if_pos (show r + m.rows * c < m.numel from cell_lt hr hcc)]
      intro j hj e
      have := (cell_inj hr (by omega) e).1
      refine hi ⟨he, ?_⟩
      rw [hb, if_pos rfl]; omega
    · intro k hk
      simp only [Mtx.fillRow]
      rw [fillStride_miss, hd, if_neg (by unfold Mtx.numel; omega)]
      intro j hj e
      have := cell_lt (show m.rows - 1 < m.rows by omega) hj
      omega
  · have e2 : (m.emul && m.bir) = false := by
      cases he : m.emul <;> cases hbb : m.bir <;> simp_all
    simp only [e2, Bool.false_eq_true, if_false]
    generalize hN : (if (m.emul && !m.bir) = true then m.numelNoBias else m.numel) = N
    have hd : ∀ k, ((f N s m.data).2) k = if k < N then v N s k else m.data k := fun k => hf _ _ _ _
    generalize (f N s m.data).2 = D at hd
    have hNle : N ≤ m.rows * m.cols := by
      rw [← hN]
      split
      · exact Nat.mul_le_mul (Nat.sub_le _ _) (Nat.sub_le _ _)
      · exact Nat.le_refl _
    refine ⟨⟨rfl, rfl, rfl, rfl, rfl, rfl, rfl, rfl⟩, ?_, ⟨N, ?_⟩, ?_⟩
    · intro _ r c hr hcc hi
      have he : m.emul = true := hi.1
      have hb0 : m.bir = false := by
        cases h : m.bir
        · rfl
        · exact absurd ⟨he, h⟩ hb
      have hi2 : c + 1 = m.cols := by
        have := hi.2
        simp only [hb0, Bool.false_eq_true, if_false] at this
        exact this
      have old := hm hc r c hr hcc ⟨he, by rw [hb0]; exact hi2⟩
      simp only [Mtx.get] at old ⊢
      rw [if_pos ⟨hr, hcc⟩] at old ⊢
      rw [← old]
      simp only [Mtx.cell]
      have hN' : N = m.rows * (m.cols - 1) := by
        rw [← hN, he, hb0]
        simp [Mtx.numelNoBias, Mtx.rowsNoBias, Mtx.colsNoBias, he, hb0]
      rw [hd, if_neg]
      have : m.rows * (m.cols - 1) = m.rows * c := by congr 1; omega
      omega
    · intro r c hr hcc hi
      simp only [Mtx.get]
      rw [if_pos ⟨hr, hcc⟩]
      simp only [Mtx.cell]
      rw [hd, if_pos]
      rw [← hN]
      split
      · rename_i h
        have he : m.emul = true := by cases h2 : m.emul <;> simp_all
        have hb0 : m.bir = false := by cases h2 : m.bir <;> simp_all
        have hcl : c < m.cols - 1 := by
          have : ¬ c + 1 = m.cols := fun h => hi ⟨he, by rw [hb0]; exact h⟩
          omega
        have := cell_lt hr hcl
        simpa [Mtx.numelNoBias, Mtx.rowsNoBias, Mtx.colsNoBias, he, hb0] using this
      · exact cell_lt hr hcc
    · intro k hk
      show D k = m.data k
      rw [hd, if_neg (by omega)]

/-- **C110b.** The `_no_bias` functions do the same for matrices of the default layout and for matrices without biases. -/
theorem gen_matrix_no_bias_fills_partial [OfNat R 1] (f : Filler σ R) (v : Nat → σ → Nat → R) (hf : FillsWith f v) (m : Mtx R) (s : σ) (hc : m.cap ≠ 0)
    (hr0 : 0 < m.rows) (hm : BiasesAreOnes m) (hb : ¬ (m.emul = true ∧ m.bir = true)) :
    SameShape (genMatrixNoBias f m s).2 m ∧ BiasesAreOnes (genMatrixNoBias f m s).2 ∧
    (∃ N, ∀ r c, r < m.rows → c < m.cols → ¬ IsBias m r c → (genMatrixNoBias f m s).2.get r c = some (v N s (m.cell r c))) ∧
    (∀ k, m.rows * m.cols ≤ k → (genMatrixNoBias f m s).2.data k = m.data k) := by
  have e : genMatrixNoBias f m s = genMatrixAny f m s := by
    unfold genMatrixNoBias genMatrixAny
    cases he : m.emul <;> cases hbb : m.bir
    · simp [he, hbb, Mtx.numelNoBias, Mtx.rowsNoBias, Mtx.colsNoBias, Mtx.numel]
    · simp [he, hbb, Mtx.numelNoBias, Mtx.rowsNoBias, Mtx.colsNoBias, Mtx.numel]
    · simp
    · exact absurd ⟨he, hbb⟩ hb
  rw [e]
  exact gen_matrix_any_fills f v hf m s hc hr0 hm

/-- **C110c.** With a bias row (batches in rows) they do not: for every filling function that gives no ones, and every matrix of at least two
rows and columns, a bias is overwritten, and the last element above the bias row keeps its old value. -/
theorem gen_matrix_no_bias_row_wrong [OfNat R 1] (f : Filler σ R) (v : Nat → σ → Nat → R) (hf : FillsWith f v)
    (hv : ∀ n s k, v n s k ≠ 1) (m : Mtx R) (s : σ) (he : m.emul = true) (hb : m.bir = true) (hc : m.cap ≠ 0) (hr : 2 ≤ m.rows) (hcc : 2 ≤ m.cols) :
    ¬ BiasesAreOnes (genMatrixNoBias f m s).2 ∧
    (genMatrixNoBias f m s).2.get (m.rows - 2) (m.cols - 1) = m.get (m.rows - 2) (m.cols - 1) ∧ ¬ IsBias m (m.rows - 2) (m.cols - 1) := by
  have hN : m.numelNoBias = (m.rows - 1) * m.cols := by simp [Mtx.numelNoBias, Mtx.rowsNoBias, Mtx.colsNoBias, he, hb]
  have hmul : (m.rows - 1) * m.cols + m.cols = m.rows * m.cols := by
    rw [← Nat.succ_mul]; congr 1; omega
  have hmul2 : m.rows * (m.cols - 1) + m.rows = m.rows * m.cols := by
    rw [← Nat.mul_succ]; congr 1; omega
  have hbig : m.cols ≤ (m.rows - 1) * m.cols := Nat.le_mul_of_pos_left _ (by omega)
  have hbig2 : (m.rows - 1) * 2 ≤ (m.rows - 1) * m.cols := Nat.mul_le_mul_left _ (by omega)
  refine ⟨?_, ?_, ?_⟩
  · intro h
    have := h hc (m.rows - 1) 0 (by simp only [genMatrixNoBias]; omega) (by simp only [genMatrixNoBias]; omega)
      ⟨he, by simp only [genMatrixNoBias, hb, if_true]; omega⟩
    rw [get_in (genMatrixNoBias f m s).2 (show m.rows - 1 < m.rows by omega) (show 0 < m.cols by omega), Option.some.injEq] at this
    have this : (f m.numelNoBias s m.data).2 (m.rows - 1 + m.rows * 0) = 1 := this
    rw [hf, if_pos (by omega)] at this
    exact hv _ _ _ this
  · rw [get_in m (show m.rows - 2 < m.rows by omega) (show m.cols - 1 < m.cols by omega),
      get_in (genMatrixNoBias f m s).2 (show m.rows - 2 < m.rows by omega) (show m.cols - 1 < m.cols by omega)]
    show some ((f m.numelNoBias s m.data).2 (m.rows - 2 + m.rows * (m.cols - 1))) = _
    rw [hf, if_neg (by omega)]
  · intro h
    have := h.2
    rw [hb, if_pos rfl] at this
    omega

/-- **C110d.** `gen_matrix` and its relatives write every element of a matrix; biases, if there are any, get random numbers. -/
theorem gen_matrix_fills (f : Filler σ R) (v : Nat → σ → Nat → R) (hf : FillsWith f v) (m : Mtx R) (s : σ) :
    SameShape (genMatrix f m s).2 m ∧
    (∀ r c, r < m.rows → c < m.cols → (genMatrix f m s).2.get r c = some (v (m.rows * m.cols) s (m.cell r c))) ∧
    (∀ k, m.rows * m.cols ≤ k → (genMatrix f m s).2.data k = m.data k) := by
  refine ⟨⟨rfl, rfl, rfl, rfl, rfl, rfl, rfl, rfl⟩, ?_, ?_⟩
  · intro r c hr hc
    rw [get_in (genMatrix f m s).2 (show r < m.rows from hr) (show c < m.cols from hc)]
    show some ((f m.numel s m.data).2 (r + m.rows * c)) = _
    rw [hf, if_pos (show r + m.rows * c < m.numel from cell_lt hr hc)]
    rfl
  · intro k hk
    simp only [genMatrix]
    rw [hf, if_neg (show ¬ k < m.numel by unfold Mtx.numel; omega)]

/- Non-vacuity. -/
def numbersFrom (n : Nat) (s : Nat) (mem : Nat → Int) : Nat × (Nat → Int) := (s + n, fun k => if k < n then ((s + k + 2 : Nat) : Int) else mem k)
theorem numbersFrom_fills : FillsWith numbersFrom (fun _ s k => ((s + k + 2 : Nat) : Int)) := fun _ _ _ _ => rfl
theorem numbersFrom_no_ones : ∀ (n s k : Nat), ((s + k + 2 : Nat) : Int) ≠ 1 := by intro n s k; omega
example : (genMatrixAny numbersFrom (Mtx.make 2 2 true true (fun _ => (0 : Int))) 0).2.get 1 1 = some 6 ∧
    (genMatrixAny numbersFrom (Mtx.make 2 2 true true (fun _ => (0 : Int))) 0).2.get 2 1 = some 1 := by decide
example : (genMatrixNoBias numbersFrom (Mtx.make 2 3 true true (fun _ => (0 : Int))) 0).2.get 2 0 = some 4 ∧
    (genMatrixNoBias numbersFrom (Mtx.make 2 3 true true (fun _ => (0 : Int))) 0).2.get 1 2 = some 0 := by decide

end Nntl.Rng
