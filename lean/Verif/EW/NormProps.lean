import Verif.EW.RowModel
import Verif.EW.Spec
import Verif.Grad.NormProps
/-! C132: scaling of rows to a given norm. -/
namespace Nntl.EW
open Nntl.Kernel Nntl.Matrix Nntl.Threads

/-- A matrix the function accepts: it has memory and elements, and a second column if the last one is not to be counted. -/
structure CanScale (inclBias : Bool) (A : Mtx ℝ) : Prop where
  mem : A.empty = false
  rows : 0 < A.rows
  cols : (if inclBias then 1 else 2) ≤ A.cols
  room : A.rows * A.cols ≤ A.maxSize

theorem hide_restore' {A : Mtx ℝ} (h : CanScale false A) : A.hideLastCol = some { A with cols := A.cols - 1 } ∧
    ({ A with cols := A.cols - 1 } : Mtx ℝ).restoreLastCol = some A := by
  have h2 : 2 ≤ A.cols := h.cols
  have h3 := h.room
  have h4 : A.cols - 1 + 1 = A.cols := by omega
  constructor
  · unfold Mtx.hideLastCol
    rw [if_pos ⟨by simp [h.mem], h2⟩]
  · unfold Mtx.restoreLastCol
    rw [if_pos]
    · simp only [h4]
    · refine ⟨?_, by show 1 ≤ A.cols - 1; omega, ?_⟩
      · have := h.mem
        unfold Mtx.empty at *
        simpa using this
      · show A.rows * (A.cols - 1 + 1) ≤ A.maxSize
        rw [h4]; exact h3

/-- The outcome in terms of the norms of rows over the columns that count. -/
theorem setNorm_iff {E : Grad.Env} (hE : E.Ok) (norm2 : ℝ) (hn : 0 < norm2) (incl : Bool) (A : Mtx ℝ) (h : CanScale incl A) (o : Scaled) :
    let L := fun r => Grad.rowNorm2 A.data A.rows (if incl then A.cols else A.cols - 1) r
    mrwSetL2Norm E norm2 incl A o ↔
      ((∃ r, r < A.rows ∧ L r = 0) ∧ o = .notANumber) ∨
      ((∀ r, r < A.rows → L r ≠ 0) ∧ o = .numbers { A with data := Grad.scaleRows A.rows A.cols (fun r => Real.sqrt (norm2 / L r)) A.data }) := by
  intro L
  have hcols : 1 ≤ A.cols := by
    have := h.cols
    split at this <;> omega
  -- the matrix whose norms are calculated
  obtain ⟨B, hB1, hB2, hBr, hBd, hBc, hBc'⟩ : ∃ B : Mtx ℝ, (if incl then some A else A.hideLastCol) = some B ∧
      (if incl then some B else B.restoreLastCol) = some A ∧ B.rows = A.rows ∧ B.data = A.data ∧
      B.cols = (if incl then A.cols else A.cols - 1) ∧ 0 < B.cols := by
    cases incl with
    | true => exact ⟨A, rfl, rfl, rfl, rfl, rfl, hcols⟩
    | false =>
      have h2 : 2 ≤ A.cols := h.cols
      obtain ⟨e1, e2⟩ := hide_restore' h
      exact ⟨_, e1, e2, rfl, rfl, rfl, by show 0 < A.cols - 1; omega⟩
  have hL : ∀ (exs : Exec) (cws st : Bool) (v0 v : Nat → ℝ), (exs = .st ∨ exs = .mt E.rs) → Grad.l2NormSquared E exs cws st B v0 v →
      ∀ r, r < A.rows → v r = L r := by
    intro exs cws st v0 v hx hv r hr
    have hex : exs.Ok := by
      rcases hx with rfl | rfl
      · trivial
      · exact hE
    rw [Grad.l2NormSquared_result hE exs hex cws st B (by rw [hBr]; exact h.rows) hBc' hv r (by rw [hBr]; exact hr), hBr, hBd, hBc]
  have hm : ∀ (st : Bool) (v d' : Nat → ℝ), (∀ r, r < A.rows → v r = L r) →
      Grad.mulByVec E st A (fun r => if r < A.rows then Real.sqrt (norm2 / v r) else v r) A.data d' →
      d' = Grad.scaleRows A.rows A.cols (fun r => Real.sqrt (norm2 / L r)) A.data := by
    intro st v d' hv hd
    rw [Grad.mulByVec_result hE st A h.rows hcols _ _ _ hd]
    unfold Grad.scaleRows
    funext k
    have hk : k % A.rows < A.rows := Nat.mod_lt _ h.rows
    split
    · dsimp only
      rw [if_pos hk, hv _ hk]
    · rfl
  unfold mrwSetL2Norm
  simp only [hB1, hB2]
  rw [if_neg (by rw [h.mem]; simp [hn])]
  constructor
  · rintro ⟨exs, cws, v0, v, d', hx, hv, ⟨⟨r, hr, h0⟩, ho⟩ | ⟨hne, hd, ho⟩⟩
    · exact Or.inl ⟨⟨r, hr, by rw [← hL _ _ _ _ _ hx hv r hr]; exact h0⟩, ho⟩
    · refine Or.inr ⟨fun r hr => by rw [← hL _ _ _ _ _ hx hv r hr]; exact hne r hr, ?_⟩
      rw [ho, hm _ v d' (hL _ _ _ _ _ hx hv) hd]
  · obtain ⟨v, hv⟩ := Grad.l2NormSquared_exists E .st true (decide (A.numel < E.thr .normRows)) B fun _ => 0
    have hvL := hL _ _ _ _ _ (Or.inl rfl) hv
    obtain ⟨d', hd⟩ := elemRuns_exists (if (decide (A.numel < E.thr .normRows)) = true ∨ A.numel < E.thr .mulByVec then Share.byRows .st
      else if A.rows < E.thr .mulByVecMtRows then .byCols (.mt E.rs) else .byRows (.mt E.rs)) (decide (¬ A.rows < E.thr .mulByVecStRows))
      (fun r _ a => a * (if r < A.rows then Real.sqrt (norm2 / v r) else v r)) A.rows A.cols A.data
    rintro (⟨⟨r, hr, h0⟩, ho⟩ | ⟨hne, ho⟩)
    · exact ⟨.st, true, _, v, d', Or.inl rfl, hv, Or.inl ⟨⟨r, hr, by rw [hvL r hr]; exact h0⟩, ho⟩⟩
    · refine ⟨.st, true, _, v, d', Or.inl rfl, hv, Or.inr ⟨fun r hr => by rw [hvL r hr]; exact hne r hr, hd, ?_⟩⟩
      rw [ho, hm _ v d' hvL hd]

theorem rowNorm2_sum (A : Mtx ℝ) (n r : Nat) : Grad.rowNorm2 A.data A.rows n r = ∑ c ∈ Finset.range n, (elem A r c) ^ 2 := by
  rw [Grad.rowNorm2_eq]; rfl

/-- **C132.** If no row is zero in the columns that count, then every row is multiplied, the last column included, by one positive number such that the
sum of squares over the columns that count becomes the one wanted. Nothing else changes; with any threads in any order. The full claim has no
condition on rows; it is false, see `set_norm_zero_row`. -/
theorem set_norm_partial {E : Grad.Env} (hE : E.Ok) (norm2 : ℝ) (hn : 0 < norm2) (incl : Bool) (A : Mtx ℝ) (h : CanScale incl A)
    (hnz : ∀ r, r < A.rows → ∃ c, c < (if incl then A.cols else A.cols - 1) ∧ elem A r c ≠ 0) {o : Scaled} (hrun : mrwSetL2Norm E norm2 incl A o) :
    ∃ A', o = .numbers A' ∧ SameShape A A' ∧ (∀ k, A.rows * A.cols ≤ k → A'.data k = A.data k) ∧
      ∀ r, r < A.rows → (∃ f : ℝ, 0 < f ∧ ∀ c, c < A.cols → elem A' r c = elem A r c * f) ∧
        ∑ c ∈ Finset.range (if incl then A.cols else A.cols - 1), (elem A' r c) ^ 2 = norm2 := by
  have hpos : ∀ r, r < A.rows → 0 < ∑ c ∈ Finset.range (if incl then A.cols else A.cols - 1), (elem A r c) ^ 2 := by
    intro r hr
    obtain ⟨c, hc, hne⟩ := hnz r hr
    exact Finset.sum_pos' (fun _ _ => sq_nonneg _) ⟨c, Finset.mem_range.2 hc, by positivity⟩
  rcases (setNorm_iff hE norm2 hn incl A h o).1 hrun with ⟨⟨r, hr, h0⟩, _⟩ | ⟨_, ho⟩
  · dsimp only at h0
    rw [rowNorm2_sum] at h0
    exact absurd h0 (ne_of_gt (hpos r hr))
  · refine ⟨_, ho, ⟨rfl, rfl, rfl, rfl, rfl, rfl, rfl, rfl⟩, fun k hk => ?_, fun r hr => ?_⟩
    · dsimp only
      unfold Grad.scaleRows
      rw [if_neg (by omega)]
    · set S := ∑ c ∈ Finset.range (if incl then A.cols else A.cols - 1), (elem A r c) ^ 2 with hS
      have hS0 : 0 < S := hpos r hr
      have hel : ∀ c, c < A.cols → elem { A with data := Grad.scaleRows A.rows A.cols (fun r => Real.sqrt (norm2 /
          Grad.rowNorm2 A.data A.rows (if incl then A.cols else A.cols - 1) r)) A.data } r c = elem A r c * Real.sqrt (norm2 / S) := by
        intro c hc
        unfold elem
        dsimp only
        unfold Grad.scaleRows
        have h1 : r + A.rows * c < A.rows * A.cols := by
          have : A.rows * (c + 1) ≤ A.rows * A.cols := Nat.mul_le_mul_left _ hc
          rw [Nat.mul_succ] at this
          omega
        rw [if_pos h1, Nat.add_mul_mod_self_left, Nat.mod_eq_of_lt hr]
        dsimp only
        rw [rowNorm2_sum]
      refine ⟨⟨Real.sqrt (norm2 / S), Real.sqrt_pos.2 (div_pos hn hS0), hel⟩, ?_⟩
      have hle : (if incl then A.cols else A.cols - 1) ≤ A.cols := by split <;> omega
      rw [Finset.sum_congr rfl fun c hc => by rw [hel c (lt_of_lt_of_le (Finset.mem_range.1 hc) hle), mul_pow, Real.sq_sqrt (le_of_lt (div_pos hn hS0))]]
      rw [← Finset.sum_mul, ← hS, mul_div_assoc', mul_comm, mul_div_assoc, div_self (ne_of_gt hS0), mul_one]

/-- **C132, the full claim is false.** A row that is zero in the columns that count makes the matrix contain elements that are not numbers. -/
theorem set_norm_zero_row {E : Grad.Env} (hE : E.Ok) (norm2 : ℝ) (hn : 0 < norm2) (incl : Bool) (A : Mtx ℝ) (h : CanScale incl A)
    (r : Nat) (hr : r < A.rows) (hz : ∀ c, c < (if incl then A.cols else A.cols - 1) → elem A r c = 0) {o : Scaled}
    (hrun : mrwSetL2Norm E norm2 incl A o) : o = .notANumber := by
  rcases (setNorm_iff hE norm2 hn incl A h o).1 hrun with ⟨_, ho⟩ | ⟨hne, _⟩
  · exact ho
  · refine absurd ?_ (hne r hr)
    dsimp only
    rw [rowNorm2_sum]
    exact Finset.sum_eq_zero fun c hc => by rw [hz c (Finset.mem_range.1 hc)]; simp

/-- **C132.** A one-column matrix whose last column is not to be counted, and a norm that is not positive, violate assertions. -/
theorem set_norm_assertions (E : Grad.Env) (norm2 : ℝ) (A : Mtx ℝ) (o : Scaled) :
    (A.cols = 1 → mrwSetL2Norm E norm2 false A o → o = .assertion) ∧ (norm2 ≤ 0 → ∀ incl, mrwSetL2Norm E norm2 incl A o → o = .assertion) := by
  constructor
  · intro h1 h
    unfold mrwSetL2Norm at h
    dsimp only at h
    split at h
    · exact h
    · have : A.hideLastCol = none := by
        unfold Mtx.hideLastCol
        rw [if_neg (by omega)]
      simp only [Bool.false_eq_true, if_false, this] at h
      exact h
  · intro h1 incl h
    unfold mrwSetL2Norm at h
    dsimp only at h
    rw [if_pos (Or.inr (not_lt.2 h1))] at h
    exact h

/-- **C132 (matrix that cannot be deformed).** The same: an outcome exists, and the same properties hold of it. -/
theorem set_norm_matrix_partial {E : Grad.Env} (hE : E.Ok) (norm2 : ℝ) (hn : 0 < norm2) (incl : Bool) (A : Mtx ℝ) (hmem : A.empty = false)
    (hr0 : 0 < A.rows) (hcols : (if incl then 1 else 2) ≤ A.cols)
    (hnz : ∀ r, r < A.rows → ∃ c, c < (if incl then A.cols else A.cols - 1) ∧ elem A r c ≠ 0) :
    (∃ o, mrwSetL2NormMtx E norm2 incl A o) ∧ ∀ o, mrwSetL2NormMtx E norm2 incl A o →
    ∃ A', o = .numbers A' ∧ SameShape A A' ∧ (∀ k, A.rows * A.cols ≤ k → A'.data k = A.data k) ∧
      ∀ r, r < A.rows → (∃ f : ℝ, 0 < f ∧ ∀ c, c < A.cols → elem A' r c = elem A r c * f) ∧
        ∑ c ∈ Finset.range (if incl then A.cols else A.cols - 1), (elem A' r c) ^ 2 = norm2 := by
  have hc : CanScale incl { A with ext := true, maxSize := A.rows * A.cols } := ⟨hmem, hr0, hcols, le_refl _⟩
  constructor
  · have hh := (setNorm_iff hE norm2 hn incl _ hc (.numbers { ({ A with ext := true, maxSize := A.rows * A.cols } : Mtx ℝ) with
      data := Grad.scaleRows A.rows A.cols (fun r => Real.sqrt (norm2 / Grad.rowNorm2 A.data A.rows (if incl then A.cols else A.cols - 1) r)) A.data })).2
      (Or.inr ⟨fun r hr => ?_, rfl⟩)
    · refine ⟨.numbers { A with data := Grad.scaleRows A.rows A.cols (fun r => Real.sqrt (norm2 /
        Grad.rowNorm2 A.data A.rows (if incl then A.cols else A.cols - 1) r)) A.data }, ?_⟩
      unfold mrwSetL2NormMtx
      rw [if_neg (by rw [hmem]; decide)]
      exact ⟨_, hh, rfl⟩
    · obtain ⟨c, hc', hne⟩ := hnz r hr
      have : Grad.rowNorm2 A.data A.rows (if incl then A.cols else A.cols - 1) r ≠ 0 := by
        rw [rowNorm2_sum]
        exact ne_of_gt (Finset.sum_pos' (fun _ _ => sq_nonneg _) ⟨c, Finset.mem_range.2 hc', by positivity⟩)
      exact this
  · intro o h
    unfold mrwSetL2NormMtx at h
    rw [if_neg (by rw [hmem]; decide)] at h
    obtain ⟨o', h', ho⟩ := h
    obtain ⟨A', e, hs1, h2, h3⟩ := set_norm_partial hE norm2 hn incl _ hc hnz h'
    rw [e] at ho
    have hel : ∀ r c, elem { A with data := A'.data } r c = elem A' r c := by
      intro r c
      unfold elem
      rw [hs1.rows]
    refine ⟨{ A with data := A'.data }, ho, ⟨rfl, rfl, rfl, rfl, rfl, rfl, rfl, rfl⟩, h2, fun r hr => ?_⟩
    obtain ⟨⟨f, hf, h4⟩, h5⟩ := h3 r hr
    exact ⟨⟨f, hf, fun c hc => by rw [hel]; exact h4 c hc⟩, by simp only [hel]; exact h5⟩

/-! ### The hypotheses can be met -/

noncomputable def demoW : Mtx ℝ := { data := fun k => [(3 : ℝ), 1, 4, 0, 5, 7].getD k 0, cap := 6, rows := 2, cols := 3, emul := false, ext := false, holey := false, bir := false, maxSize := 6 }

theorem demoW_can (incl : Bool) : CanScale incl demoW := ⟨rfl, by show 0 < 2; decide, by show _ ≤ 3; cases incl <;> decide, by show 2 * 3 ≤ 6; decide⟩

theorem demoW_rows : ∀ r, r < demoW.rows → ∃ c, c < demoW.cols - 1 ∧ elem demoW r c ≠ 0 := by
  intro r hr
  have hr' : r < 2 := hr
  refine ⟨0, by show 0 < 2; decide, ?_⟩
  match r, hr' with
  | 0, _ => show (3 : ℝ) ≠ 0; norm_num
  | 1, _ => show (1 : ℝ) ≠ 0; norm_num

/-- There is an outcome with the norm wanted; the factor of the first row, of length 5 without the last column, is 2 when length 10 is wanted. -/
example : ∃ o, mrwSetL2Norm ⟨initRanges 2, fun _ => 1⟩ 100 false demoW o ∧ ∃ A', o = .numbers A' ∧ elem A' 0 2 = 10 := by
  have hE : Grad.Env.Ok ⟨initRanges 2, fun _ => 1⟩ := initRanges_ok 2
  have hl : Grad.rowNorm2 demoW.data demoW.rows 2 0 = 25 := by
    rw [rowNorm2_sum, Finset.sum_range_succ, Finset.sum_range_succ, Finset.sum_range_zero]
    show (0 : ℝ) + 3 ^ 2 + 4 ^ 2 = 25
    norm_num
  refine ⟨_, (setNorm_iff hE 100 (by norm_num) false demoW (demoW_can false) _).2 (Or.inr ⟨fun r hr => ?_, rfl⟩), _, rfl, ?_⟩
  · dsimp only
    rw [rowNorm2_sum]
    obtain ⟨c, hc, hne⟩ := demoW_rows r hr
    exact ne_of_gt (Finset.sum_pos' (fun _ _ => sq_nonneg _) ⟨c, Finset.mem_range.2 hc, by positivity⟩)
  · unfold elem
    dsimp only
    unfold Grad.scaleRows
    rw [if_pos (by show 0 + 2 * 2 < 2 * 3; decide)]
    show (5 : ℝ) * Real.sqrt (100 / Grad.rowNorm2 demoW.data demoW.rows 2 0) = 10
    rw [hl]
    have : Real.sqrt (100 / 25) = 2 := by
      rw [show (100 : ℝ) / 25 = 2 ^ 2 by norm_num]
      exact Real.sqrt_sq (by norm_num)
    rw [this]; norm_num

end Nntl.EW
