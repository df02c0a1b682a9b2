import Verif.Report.Spec
import Mathlib.Tactic.Ring
import Mathlib.Tactic.FieldSimp
import Mathlib.Algebra.BigOperators.Intervals
import Mathlib.Algebra.BigOperators.Fin
/-! Lemmas for C86. -/
namespace Nntl.Report
open Nntl.Matrix Nntl.Kernel Nntl.TrainData Finset
variable {W α β : Type}

theorem rowIs_row {γ : Type} {m src : Mtx γ} {r k : ℕ} (h : RowIs m src r k) : row m r = row src k := by
  obtain ⟨h1, -, -, h2⟩ := h
  unfold row
  rw [← h1]
  exact List.map_congr_left fun j hj => (h2 j (List.mem_range.1 hj)).1

theorem foldl_sum (l : List (W → Mtx α → ℝ)) (w : W) (x : Mtx α) (a : ℝ) :
    l.foldl (fun ret f => ret + f w x) a = a + (l.map fun f => f w x).sum := by
  induction l generalizing a with
  | nil => simp
  | cons f l ih => rw [List.foldl_cons, ih, List.map_cons, List.sum_cons]; ring

theorem loop_eq (nn : Nn W α β) (bs : List (Mtx α × Mtx β)) (l : ℝ) (st : St W α) :
    loop nn l st bs = (l + (bs.map fun p => nn.loss st.w p.1 p.2 / p.2.batchSize).sum, { st with x := (bs.getLast?.map (·.1)).getD st.x }) := by
  induction bs generalizing l st with
  | nil => simp [loop]
  | cons p bs ih =>
    obtain ⟨x, y⟩ := p
    simp only [loop, calcBatch, ih, List.map_cons, List.sum_cons]
    refine Prod.ext (by simp only; ring) ?_
    cases bs <;> simp [List.getLast?_cons]

/-- The value of a loss calculation when the cache is empty. -/
theorem calcLoss_eq (nn : Nn W α β) (st : St W α) (bs : List (Mtx α × Mtx β)) (hc : nn.hasA = true ∨ st.cache = 0) :
    (calcLoss nn st bs).1 = (bs.map fun p => nn.loss st.w p.1 p.2 / p.2.batchSize).sum +
      (if st.full then nn.addendum st.w ((bs.getLast?.map (·.1)).getD st.x) else 0) := by
  unfold calcLoss
  dsimp only
  rw [loop_eq]
  have h0 : (if nn.hasA = true then reset st else st) = { st with cache := 0 } := by
    split
    · rfl
    · rcases hc with h | h
      · contradiction
      · rw [← h]
  rw [h0]
  dsimp only
  split
  · simp only [calcAddendum, if_true, foldl_sum, Nn.addendum, zero_add]
  · simp only [zero_add, add_zero]

theorem calcLoss_frame (nn : Nn W α β) (st : St W α) (bs : List (Mtx α × Mtx β)) :
    (calcLoss nn st bs).2.w = st.w ∧ (calcLoss nn st bs).2.full = st.full ∧ (calcLoss nn st bs).2.x = (bs.getLast?.map (·.1)).getD st.x := by
  unfold calcLoss
  dsimp only
  rw [loop_eq]
  by_cases h : nn.hasA = true <;> by_cases hf : st.full = true <;> simp [h, hf, reset, calcAddendum] <;> split <;> simp [hf]

/-- The cache afterwards: empty, or what the layers add for the weights. -/
theorem calcLoss_cache (nn : Nn W α β) (hok : nn.FlagOk) (st : St W α) (bs : List (Mtx α × Mtx β)) (hA : nn.hasA = false)
    (hc : st.cache = 0 ∨ ∀ x, st.cache = nn.addendum st.w x) :
    (calcLoss nn st bs).2.cache = 0 ∨ ∀ x, (calcLoss nn st bs).2.cache = nn.addendum st.w x := by
  unfold calcLoss
  dsimp only
  rw [loop_eq, hA]
  simp only [Bool.false_eq_true, if_false]
  split
  · unfold calcAddendum
    dsimp only
    split
    · right
      intro x
      simp only [foldl_sum, zero_add, Nn.addendum]
      congr 1
      exact List.map_congr_left fun f hf => hok hA f hf _ _ _
    · exact hc
  · exact hc

/-- The same as `calcLoss_eq` for a cache that holds the value for the weights. -/
theorem calcLoss_eq' (nn : Nn W α β) (st : St W α) (bs : List (Mtx α × Mtx β)) (hc : nn.hasA = true ∨ st.cache = 0 ∨ ∀ x, st.cache = nn.addendum st.w x) :
    (calcLoss nn st bs).1 = (bs.map fun p => nn.loss st.w p.1 p.2 / p.2.batchSize).sum +
      (if st.full then nn.addendum st.w ((bs.getLast?.map (·.1)).getD st.x) else 0) := by
  by_cases h0 : nn.hasA = true ∨ st.cache = 0
  · exact calcLoss_eq nn st bs h0
  · have hv : ∀ x, st.cache = nn.addendum st.w x := by
      rcases hc with h | h | h
      · exact absurd (.inl h) h0
      · exact absurd (.inr h) h0
      · exact h
    have hA : ¬ nn.hasA = true := fun h => h0 (.inl h)
    have hn : st.cache ≠ 0 := fun h => h0 (.inr h)
    unfold calcLoss
    dsimp only
    rw [loop_eq, if_neg hA]
    dsimp only
    split
    · simp only [calcAddendum, hn, if_false, zero_add]
      rw [← hv]
    · simp only [zero_add, add_zero]

/-- Losses of the batches of a walk. -/
theorem walk_sum [OfNat α 1] [OfNat β 1] {d : Data α β} {s : SetId} {maxF : ℕ} {bs : List (Mtx α × Mtx β)} (hw : Walk d s maxF bs)
    {loss : Mtx α → Mtx β → ℝ} {g : List (Option α) → List (Option β) → ℝ} (hg : SampleWise loss g) :
    ∃ b, b = min maxF (d.count s) ∧ 0 < b ∧ bs.length = d.count s / b + (if d.count s % b > 1 then 1 else 0) ∧
      (bs.map fun p => loss p.1 p.2 / p.2.batchSize).sum =
        ∑ i ∈ range bs.length, (∑ k ∈ Ico (i * b) (min ((i + 1) * b) (d.count s)), sampleLoss g d s k) /
          (min ((i + 1) * b) (d.count s) - i * b : ℕ) := by
  obtain ⟨hd, vmax, cd, n, t, t1, run, hr, hm, hwo, h0, hrun, hlen, hb⟩ := hw
  obtain ⟨b0, b, p0, he, hbe, hn, hv⟩ := walk_starts hd hr hwo run h0 hrun
  have he' : b0 = maxF := by
    simp only [effBatch] at he
    rw [← hm]
    have : ((-1 : ℤ) < 0) := by omega
    rw [if_pos this] at he
    exact_mod_cast he
  have hcnt := hd.count s
  refine ⟨b, by rw [hbe, he'], by omega, by rw [hlen]; exact hn, ?_⟩
  rw [← Fin.sum_univ_fun_getElem bs (fun p => loss p.1 p.2 / p.2.batchSize), Finset.sum_range]
  refine Finset.sum_congr rfl fun i _ => ?_
  obtain ⟨i, hi⟩ := i
  obtain ⟨h1, h2, h3⟩ := hv i (by omega)
  obtain ⟨hx, hy⟩ := hb i hi
  obtain ⟨sx, rx⟩ := h2 _ hx
  obtain ⟨sy, ry⟩ := h3 _ hy
  have hmin : min (i * b) (d.count s) = i * b := by omega
  rw [hmin] at h1 sx sy rx ry
  simp only
  have hsz : bs[i].1.batchSize = bs[i].2.batchSize := by omega
  rw [hg _ _ hsz, show min ((i + 1) * b) (d.count s) - i * b = bs[i].2.batchSize by omega, Finset.sum_Ico_eq_sum_range,
    show min ((i + 1) * b) (d.count s) - i * b = bs[i].1.batchSize by omega]
  congr 1
  refine Finset.sum_congr rfl fun r hr => ?_
  have hr := Finset.mem_range.1 hr
  rw [rowIs_row (rx r hr), rowIs_row (ry r (by omega))]
  rfl

end Nntl.Report
