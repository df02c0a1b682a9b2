import Verif.WInit.Lemmas
import Mathlib.Algebra.BigOperators.Ring.Finset
import Mathlib.Algebra.Order.Ring.Rat
import Mathlib.Tactic.NormNum
/-! Initialisation schemes: every weight gets its own random number, biases, sparsity, orthogonality. -/
namespace Nntl.WInit
open Nntl.Kernel Nntl.Threads Finset
variable {K : Type} [Field K] [LinearOrder K]

/-! ### C95: dense schemes -/

/-- He (and SELU) initialisation: the weight of every connection is a random number of its own (draw `r + rows * c`), all the biases are zero and no memory
outside of the matrix is touched. -/
theorem heZhang_weights (xi : Nat → K) (rows cols : Nat) (h1 : 0 < cols) (w : Nat → K) :
    (∀ r < rows, ∀ c < cols - 1, heZhang xi rows cols w (r + rows * c) = xi (r + rows * c)) ∧
    (∀ r < rows, heZhang xi rows cols w (r + rows * (cols - 1)) = 0) ∧ (∀ k, rows * cols ≤ k → heZhang xi rows cols w k = w k) := by
  have hend : rows * (cols - 1) + rows = rows * cols := by
    rw [← Nat.mul_succ]; congr 1; omega
  have f : ∀ k, heZhang xi rows cols w k = if rows * (cols - 1) ≤ k ∧ k < rows * cols then 0 else if k < rows * (cols - 1) then xi k else w k := by
    intro k
    unfold heZhang fillColumn
    rw [fillSeq_at, hend, genVector_at]
    simp
  refine ⟨fun r hr c hc => ?_, fun r hr => ?_, fun k hk => ?_⟩
  · have := cell_lt hr hc
    rw [f, if_neg (by omega), if_pos this]
  · rw [f, if_pos (by omega)]
  · rw [f, if_neg (by omega), if_neg (by omega)]

/-- Different connections have different draws. -/
theorem draws_distinct {rows r c r' c' : Nat} (hr : r < rows) (hr' : r' < rows) (h : (r, c) ≠ (r', c')) : r + rows * c ≠ r' + rows * c' := by
  intro e
  obtain ⟨a, b⟩ := cell_inj hr hr' e
  exact h (by rw [a, b])

example : heZhang (fun i => (i : ℚ) + 5) 2 3 (fun _ => 7) 3 = 8 ∧ heZhang (fun i => (i : ℚ) + 5) 2 3 (fun _ => 7) 4 = 0 := by
  constructor <;> norm_num [heZhang, fillColumn, fillSeq, genVector, put]

/-! ### C96: orthogonal initialisation -/

/-- The rows (or, when there are more rows than columns, the columns) are orthogonal to each other and have the squared length `g`. -/
def OrthoRows (rows cols : Nat) (g : K) (w : Nat → K) : Prop :=
  if rows ≤ cols then ∀ i < rows, ∀ j < rows, ∑ c ∈ range cols, w (i + rows * c) * w (j + rows * c) = if i = j then g else 0
  else ∀ i < cols, ∀ j < cols, ∑ r ∈ range rows, w (r + rows * i) * w (r + rows * j) = if i = j then g else 0

theorem orthoLoop_true {svd : (Nat → K) → (Nat → K) → Bool → Prop} {P : (Nat → K) → Prop} (hP : ∀ w w', svd w w' true → P w') (xi : Nat → K) (numel : Nat) :
    ∀ (n i : Nat) (w : Nat → K) (r : (Nat → K) × Bool), orthoLoop svd xi numel n i w r → r.2 = true → P r.1 := by
  intro n
  induction n with
  | zero => intro i w r h hr; rw [orthoLoop] at h; subst h; cases hr
  | succ n ih =>
    intro i w r h hr
    rw [orthoLoop] at h
    obtain ⟨w1, b, h1, h2⟩ := h
    cases b
    · exact ih _ _ _ h2 hr
    · simp only [if_true] at h2; subst h2; exact hP _ _ h1

theorem orthoLoop_false {svd : (Nat → K) → (Nat → K) → Bool → Prop} (xi : Nat → K) (numel : Nat) :
    ∀ (n i : Nat) (w : Nat → K) (r : (Nat → K) × Bool), orthoLoop svd xi numel n i w r → r.2 = false →
    ∀ j < n, ∃ w1 w2, (∀ k < numel, w1 k = xi (i + j * numel + k)) ∧ svd w1 w2 false := by
  intro n
  induction n with
  | zero => intro i w r _ _ j hj; omega
  | succ n ih =>
    intro i w r h hr j hj
    rw [orthoLoop] at h
    obtain ⟨w1, b, h1, h2⟩ := h
    cases b
    · cases j with
      | zero =>
        refine ⟨_, _, fun k hk => ?_, h1⟩
        rw [genVector_at, if_pos (by omega)]
        congr 1; omega
      | succ j =>
        obtain ⟨a, b, h3, h4⟩ := ih _ _ _ h2 hr j (by omega)
        refine ⟨a, b, fun k hk => ?_, h4⟩
        rw [h3 k hk]
        congr 1
        rw [Nat.succ_mul]; omega
    · simp only [if_true] at h2; subst h2; cases hr

theorem orthoRows_scale {rows cols : Nat} {g gain : K} {w w' : Nat → K} (h : ∀ k < rows * cols, w' k = w k * gain) (ho : OrthoRows rows cols g w) :
    OrthoRows rows cols (g * gain ^ 2) w' := by
  unfold OrthoRows at ho ⊢
  split at ho
  · next hc =>
    rw [if_pos hc]
    intro i hi j hj
    have : ∀ c ∈ range cols, w' (i + rows * c) * w' (j + rows * c) = w (i + rows * c) * w (j + rows * c) * gain ^ 2 := by
      intro c hcc
      rw [h _ (cell_lt hi (mem_range.1 hcc)), h _ (cell_lt hj (mem_range.1 hcc))]; ring
    rw [sum_congr rfl this, ← sum_mul, ho i hi j hj]
    split_ifs <;> ring
  · next hc =>
    rw [if_neg hc]
    intro i hi j hj
    have : ∀ r ∈ range rows, w' (r + rows * i) * w' (r + rows * j) = w (r + rows * i) * w (r + rows * j) * gain ^ 2 := by
      intro r hr
      rw [h _ (cell_lt (mem_range.1 hr) hi), h _ (cell_lt (mem_range.1 hr) hj)]; ring
    rw [sum_congr rfl this, ← sum_mul, ho i hi j hj]
    split_ifs <;> ring

/-- When the initialisation returns true the weights (the column of the biases included) are orthogonal with squared length `gain²`, provided the orthogonalisation
of the math library does its job whenever it returns true. -/
theorem orthoInit_orthogonal {ex : Exec} (hex : ex.Ok) {rows cols : Nat} (h0 : 0 < rows) (h1 : 0 < cols) {svd : (Nat → K) → (Nat → K) → Bool → Prop}
    (hsvd : ∀ w w', svd w w' true → OrthoRows rows cols 1 w') {xi : Nat → K} {tries : Nat} {gain : K} {w : Nat → K} {r : (Nat → K) × Bool}
    (h : orthoInit ex svd xi rows cols tries gain w r) (hr : r.2 = true) : OrthoRows rows cols (gain ^ 2) r.1 := by
  obtain ⟨r1, h2, w2, h3, h4⟩ := h
  subst h4
  have ho := orthoLoop_true hsvd xi _ _ _ _ _ h2 hr
  have := orthoRows_scale (w' := w2) (gain := gain) (fun k hk => by
    by_cases hg : gain = 1
    · rw [if_neg (by simpa using hg)] at h3; rw [h3, hg, mul_one]
    · rw [if_pos hg] at h3
      rw [each_result ex hex _ (Nat.mul_pos h0 h1) _ h3 k, if_pos hk]) ho
  rwa [one_mul] at this

/-- When it returns false the orthogonalisation has failed `tries` times, each time on new random numbers. -/
theorem orthoInit_false {ex : Exec} {rows cols : Nat} {svd : (Nat → K) → (Nat → K) → Bool → Prop} {xi : Nat → K} {tries : Nat} {gain : K} {w : Nat → K}
    {r : (Nat → K) × Bool} (h : orthoInit ex svd xi rows cols tries gain w r) (hr : r.2 = false) (j : Nat) (hj : j < tries) :
    ∃ w1 w2, (∀ k < rows * cols, w1 k = xi (j * (rows * cols) + k)) ∧ svd w1 w2 false := by
  obtain ⟨r1, h2, w2, h3, h4⟩ := h
  subst h4
  simpa using orthoLoop_false xi _ _ _ _ _ h2 hr j hj

/-- A case: the first attempt on a 1×2 matrix fails, the second one gives (3/5, 4/5); the gain is 2. -/
example : ∃ r, orthoInit (K := ℚ) .st (fun w w' b => (w 0 = 0 ∧ w' = w ∧ b = false) ∨ (w 0 = 3 ∧ (w' = fun k => if k = 0 then 3/5 else 4/5) ∧ b = true))
    (fun i => if i = 2 then 3 else 0) 1 2 5 2 (fun _ => 9) r ∧ r.2 = true := by
  obtain ⟨d, hd⟩ := runs_exists Exec.st (1 * 2) (eachSteps fun _ (v : ℚ) => v * 2) (fun k => if k = 0 then 3/5 else 4/5)
  refine ⟨(d, true), ⟨(fun k => if k = 0 then 3/5 else 4/5, true), ?_, d, by rw [if_pos (by norm_num)]; exact hd, rfl⟩, rfl⟩
  rw [orthoLoop]
  refine ⟨_, false, Or.inl ⟨by norm_num [genVector, put], rfl, rfl⟩, ?_⟩
  simp only [Bool.false_eq_true, if_false]
  rw [orthoLoop]
  exact ⟨_, true, Or.inr ⟨by norm_num [genVector, put], rfl, rfl⟩, by simp⟩

/-! ### C97: sparse initialisation -/

theorem sparseRow_some (xi : Nat → K) {rows r : Nat} (hr : r < rows) {idxs : List Nat} (hn : idxs.Nodup) : ∀ (n c i : Nat) (w : Nat → K), c + n ≤ idxs.length →
    ∃ w', sparseRow xi rows r idxs n c i w = some w' ∧
      (∀ j col, c ≤ j → j < c + n → idxs[j]? = some col → w' (r + rows * col) = xi (i + (j - c))) ∧
      (∀ k, (∀ j col, c ≤ j → j < c + n → idxs[j]? = some col → k ≠ r + rows * col) → w' k = w k) := by
  intro n
  induction n with
  | zero => intro c i w _; exact ⟨w, rfl, fun j col h1 h2 => by omega, fun _ _ => rfl⟩
  | succ n ih =>
    intro c i w hl
    obtain ⟨w', e, hit, miss⟩ := ih (c + 1) (i + 1) (put w (r + rows * idxs[c]) (xi i)) (by omega)
    refine ⟨w', ?_, fun j col h1 h2 h3 => ?_, fun k hk => ?_⟩
    · rw [sparseRow, List.getElem?_eq_getElem (by omega)]
      exact e
    · by_cases hj : j = c
      · subst hj
        rw [List.getElem?_eq_getElem (by omega)] at h3
        have h3 : idxs[j] = col := by simpa using h3
        rw [miss, h3, put_same]
        · congr 1; omega
        · intro j' col' h4 h5 h6 h7
          have := (cell_inj hr hr h7).2
          subst this
          rw [List.getElem?_eq_getElem (by omega)] at h6
          have h6 : idxs[j'] = col := by simpa using h6
          have := (List.Nodup.getElem_inj_iff hn).1 (h6.trans h3.symm)
          omega
      · rw [hit j col (by omega) (by omega) h3]
        congr 1; omega
    · rw [miss k fun j col h1 h2 h3 => hk j col (by omega) (by omega) h3]
      exact put_ne _ _ (hk c idxs[c] le_rfl (by omega) (List.getElem?_eq_getElem (by omega)))

theorem sparseRow_none (xi : Nat → K) (rows r : Nat) (idxs : List Nat) : ∀ (n c i : Nat) (w : Nat → K), idxs.length < c + n → c ≤ idxs.length →
    sparseRow xi rows r idxs n c i w = none := by
  intro n
  induction n with
  | zero => intro c i w h1 h2; omega
  | succ n ih =>
    intro c i w h1 h2
    rw [sparseRow]
    by_cases h : c < idxs.length
    · rw [List.getElem?_eq_getElem h]; exact ih _ _ _ (by omega) (by omega)
    · rw [List.getElem?_eq_none (by omega)]

theorem sparseRows_some (xi : Nat → K) {rows nz : Nat} : ∀ (n r i : Nat) (idxs : List Nat) (w : Nat → K) (o : Option (Nat → K)), r + n ≤ rows → idxs.Nodup →
    nz ≤ idxs.length → sparseRows xi rows nz n r i idxs w o →
    ∃ (w' : Nat → K) (f : Nat → List Nat), o = some w' ∧ (∀ q, r ≤ q → q < r + n → (f q).Perm idxs) ∧
      (∀ q j col, r ≤ q → q < r + n → j < nz → (f q)[j]? = some col → w' (q + rows * col) = xi (i + (q - r) * nz + j)) ∧
      (∀ k, (∀ q j col, r ≤ q → q < r + n → j < nz → (f q)[j]? = some col → k ≠ q + rows * col) → w' k = w k) := by
  intro n
  induction n with
  | zero =>
    intro r i idxs w o _ _ _ h
    exact ⟨w, fun _ => idxs, h, fun _ h1 h2 => by omega, fun _ _ _ h1 h2 => by omega, fun _ _ => rfl⟩
  | succ n ih =>
    intro r i idxs w o hr hn hl h
    rw [sparseRows] at h
    obtain ⟨idxs', hp, h⟩ := h
    have hn' : idxs'.Nodup := hp.nodup_iff.2 hn
    obtain ⟨w1, e, hit, miss⟩ := sparseRow_some xi (show r < rows by omega) hn' nz 0 i w (by rw [hp.length_eq]; omega)
    rw [e] at h
    obtain ⟨w', f, e2, fp, fhit, fmiss⟩ := ih (r + 1) (i + nz) idxs' w1 o (by omega) hn' (by rw [hp.length_eq]; omega) h
    refine ⟨w', fun q => if q = r then idxs' else f q, e2, fun q h1 h2 => ?_, fun q j col h1 h2 h3 h4 => ?_, fun k hk => ?_⟩
    · by_cases hq : q = r
      · simp only [hq, if_true]; exact hp
      · simp only [hq, if_false]; exact (fp q (by omega) (by omega)).trans hp
    · by_cases hq : q = r
      · simp only [hq, if_true] at h4
        rw [hq, fmiss]
        · rw [hit j col (by omega) (by omega) h4]
          congr 1; simp
        · intro q' j' col' h5 h6 h7 h8 h9
          have := (cell_inj (show r < rows by omega) (show q' < rows by omega) h9).1
          omega
      · simp only [hq, if_false] at h4
        rw [fhit q j col (by omega) (by omega) h3 h4]
        congr 1
        have : q - r = (q - (r + 1)) + 1 := by omega
        rw [this, Nat.succ_mul]; omega
    · rw [fmiss k, miss k]
      · intro j col h1 h2 h3
        exact hk r j col le_rfl (by omega) (by omega) (by simp only [if_true]; exact h3)
      · intro q j col h1 h2 h3 h4
        exact hk q j col (by omega) (by omega) h3 (by simp only [show q ≠ r by omega, if_false]; exact h4)

/-- Sparse initialisation, when the previous layer is large enough: whatever permutations the shuffles give, every neuron gets exactly `nz` different incoming neurons with
random numbers of its own (no number is used twice), its other connections are zero, its bias is `biases`, and no memory outside of the matrix is touched. -/
theorem martens_sparse_partial (xi : Nat → K) {rows cols nz : Nat} (h1 : 0 < cols) (hz : nz ≤ cols - 1) (biases : K) (w : Nat → K) (o : Option (Nat → K))
    (h : martens xi rows cols nz biases w o) :
    ∃ w', o = some w' ∧ (∀ r < rows, ∃ sel : List Nat, sel.length = nz ∧ sel.Nodup ∧ (∀ c ∈ sel, c < cols - 1) ∧
        (∀ j (hj : j < sel.length), w' (r + rows * sel[j]) = xi (r * nz + j)) ∧ (∀ c < cols - 1, c ∉ sel → w' (r + rows * c) = 0)) ∧
      (∀ r < rows, w' (r + rows * (cols - 1)) = biases) ∧ (∀ k, rows * cols ≤ k → w' k = w k) := by
  have hend : rows * (cols - 1) + rows = rows * cols := by
    rw [← Nat.mul_succ]; congr 1; omega
  obtain ⟨o1, h2, h3⟩ := h
  obtain ⟨w1, f, e, fp, fhit, fmiss⟩ := sparseRows_some xi rows 0 0 _ _ _ (by omega) List.nodup_range (by rw [List.length_range]; exact hz) h2
  have fmem : ∀ (q j col : Nat), q < rows → (f q)[j]? = some col → col < cols - 1 := by
    intro q j col hq hc
    have := (fp q (by omega) (by omega)).mem_iff.1 (List.mem_of_getElem? hc)
    exact List.mem_range.1 this
  have key : ∀ w' : Nat → K, (∀ k, w' k = if rows * (cols - 1) ≤ k ∧ k < rows * cols then biases else w1 k) →
      (∀ r < rows, ∃ sel : List Nat, sel.length = nz ∧ sel.Nodup ∧ (∀ c ∈ sel, c < cols - 1) ∧
        (∀ j (hj : j < sel.length), w' (r + rows * sel[j]) = xi (r * nz + j)) ∧ (∀ c < cols - 1, c ∉ sel → w' (r + rows * c) = 0)) ∧
      (∀ r < rows, w' (r + rows * (cols - 1)) = biases) ∧ (∀ k, rows * cols ≤ k → w' k = w k) := by
    intro w' hw
    refine ⟨fun r hr => ?_, fun r hr => ?_, fun k hk => ?_⟩
    · have hlen : (f r).length = cols - 1 := by rw [(fp r (by omega) (by omega)).length_eq, List.length_range]
      have hnd : (f r).Nodup := (fp r (by omega) (by omega)).nodup_iff.2 List.nodup_range
      have hget : ∀ j, j < nz → ∃ col, (f r)[j]? = some col := fun j hj => ⟨_, List.getElem?_eq_getElem (by omega)⟩
      refine ⟨(f r).take nz, by rw [List.length_take]; omega, hnd.sublist (List.take_sublist _ _), fun c hc => ?_, fun j hj => ?_, fun c hc hns => ?_⟩
      · have := List.mem_of_mem_take hc
        exact List.mem_range.1 ((fp r (by omega) (by omega)).mem_iff.1 this)
      · have hj' : j < nz := by rw [List.length_take] at hj; omega
        have hjl : j < (f r).length := by omega
        have e1 : (f r)[j]? = some (f r)[j] := List.getElem?_eq_getElem hjl
        rw [List.getElem_take, hw, if_neg, fhit r j _ (by omega) (by omega) hj' e1]
        · congr 1; simp
        · have := cell_lt (cols := cols - 1) hr (fmem r j _ hr e1)
          omega
      · have hcell := cell_lt (cols := cols - 1) hr hc
        rw [hw, if_neg (by omega), fmiss]
        · unfold zeros; rw [if_pos (by omega)]
        · intro q j col _ h6 h7 h8 h9
          obtain ⟨a, b⟩ := cell_inj hr (show q < rows by omega) h9
          subst a; subst b
          apply hns
          have hjl : j < ((f r).take nz).length := by rw [List.length_take]; omega
          have : ((f r).take nz)[j] = c := by
            rw [List.getElem_take]
            rw [List.getElem?_eq_getElem (by omega)] at h8
            simpa using h8
          rw [← this]
          exact List.getElem_mem hjl
    · rw [hw, if_pos (by omega)]
    · rw [hw, if_neg (by omega), fmiss]
      · unfold zeros; rw [if_neg (by omega)]
      · intro q j col _ h6 h7 h8 h9
        have := cell_lt (cols := cols - 1) (show q < rows by omega) (fmem q j col (by omega) h8)
        omega
  subst e
  by_cases hb : biases = 0
  · rw [if_neg (by simpa using hb)] at h3
    refine ⟨w1, h3, key w1 fun k => ?_⟩
    by_cases hk : rows * (cols - 1) ≤ k ∧ k < rows * cols
    · rw [if_pos hk, fmiss]
      · unfold zeros; rw [if_pos hk.2, hb]
      · intro q j col _ h6 h7 h8 h9
        have := cell_lt (cols := cols - 1) (show q < rows by omega) (fmem q j col (by omega) h8)
        omega
    · rw [if_neg hk]
  · rw [if_pos hb] at h3
    refine ⟨_, h3, key _ fun k => ?_⟩
    unfold fillColumn
    rw [fillSeq_at, hend]

/-- Different neurons use different numbers. -/
theorem martens_draws_distinct {nz r j r' j' : Nat} (hj : j < nz) (hj' : j' < nz) (h : (r, j) ≠ (r', j')) : r * nz + j ≠ r' * nz + j' := by
  intro e
  apply h
  have e' : j + nz * r = j' + nz * r' := by rw [Nat.mul_comm nz r, Nat.mul_comm nz r']; omega
  obtain ⟨a, b⟩ := cell_inj hj hj' e'
  rw [a, b]

/-- When the previous layer has fewer neurons than connections are asked for, memory behind the array of the indices is read (in a debug build an assertion fails;
a release build goes on). -/
theorem martens_too_small (xi : Nat → K) {rows cols nz : Nat} (h0 : 0 < rows) (hz : cols - 1 < nz) (biases : K) (w : Nat → K) (o : Option (Nat → K))
    (h : martens xi rows cols nz biases w o) : o = none := by
  obtain ⟨o1, h2, h3⟩ := h
  obtain ⟨n, rfl⟩ : ∃ n, rows = n + 1 := ⟨rows - 1, by omega⟩
  rw [sparseRows] at h2
  obtain ⟨idxs, hp, h2⟩ := h2
  have hl : idxs.length = cols - 1 := by rw [hp.length_eq, List.length_range]
  rw [sparseRow_none xi _ _ _ _ _ _ _ (by omega) (by omega)] at h2
  subst h2
  rw [h3]; simp

/-- There always is a result. -/
theorem martens_total (xi : Nat → K) (rows cols nz : Nat) (biases : K) (w : Nat → K) : ∃ o, martens xi rows cols nz biases w o := by
  have : ∀ (n r i : Nat) (idxs : List Nat) (w : Nat → K), ∃ o, sparseRows xi rows nz n r i idxs w o := by
    intro n
    induction n with
    | zero => intro r i idxs w; exact ⟨_, rfl⟩
    | succ n ih =>
      intro r i idxs w
      cases h : sparseRow xi rows r idxs nz 0 i w with
      | none => exact ⟨none, idxs, List.Perm.refl _, by rw [h]⟩
      | some w1 =>
        obtain ⟨o, ho⟩ := ih (r + 1) (i + nz) idxs w1
        exact ⟨o, idxs, List.Perm.refl _, by rw [h]; exact ho⟩
  obtain ⟨o, ho⟩ := this rows 0 0 (List.range (cols - 1)) (zeros (rows * cols) w)
  exact ⟨_, o, ho, rfl⟩

/-- Two neurons, three incoming ones, two connections each, the bias 1/2; the second shuffle moves the last index to the front. -/
example : ∃ w', martens (fun i => (i : ℚ) + 1) 2 4 2 (1/2) (fun _ => 9) (some w') ∧ w' 0 = 1 ∧ w' 2 = 2 ∧ w' 4 = 0 ∧ w' 1 = 4 ∧ w' 3 = 0 ∧ w' 5 = 3 ∧ w' 6 = 1/2 := by
  refine ⟨_, ⟨some _, ⟨[0, 1, 2], by decide, ⟨[2, 0, 1], by decide, rfl⟩⟩, by rw [if_pos (by norm_num)]; rfl⟩, ?_⟩
  refine ⟨?_, ?_, ?_, ?_, ?_, ?_, ?_⟩ <;> norm_num [fillColumn, fillSeq, put, zeros]

end Nntl.WInit
