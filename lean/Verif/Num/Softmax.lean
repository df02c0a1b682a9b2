import Verif.Num.SoftmaxModel
namespace Nntl.Num
open Nntl.Kernel Nntl.Matrix Nntl.Threads

/-! ### Specification -/

/-- Softmax of the first `n` entries of a row. -/
noncomputable def softmaxOf (row : Nat → ℝ) (n c : Nat) : ℝ := Real.exp (row c) / ((List.range n).map fun j => Real.exp (row j)).sum

theorem sum_pos_of (f : Nat → ℝ) (hf : ∀ j, 0 < f j) : ∀ n, 0 < n → 0 < ((List.range n).map f).sum := by
  intro n hn
  obtain ⟨n, rfl⟩ : ∃ k, n = k + 1 := ⟨n - 1, by omega⟩
  rw [List.range_succ, List.map_append, List.sum_append]
  have h0 : ∀ l : List Nat, 0 ≤ (l.map f).sum := by
    intro l
    induction l with
    | nil => simp
    | cons a l ih => rw [List.map_cons, List.sum_cons]; exact add_nonneg (le_of_lt (hf a)) ih
  simp only [List.map_cons, List.map_nil, List.sum_cons, List.sum_nil, add_zero]
  exact add_pos_of_nonneg_of_pos (h0 _) (hf n)

theorem sum_mul_right' (f : Nat → ℝ) (a : ℝ) (l : List Nat) : (l.map fun j => f j * a).sum = (l.map f).sum * a := by
  induction l with
  | nil => simp
  | cons x l ih => rw [List.map_cons, List.sum_cons, ih, List.map_cons, List.sum_cons, add_mul]

/-- Subtracting a constant changes nothing. -/
theorem softmaxOf_shift (row : Nat → ℝ) (n c : Nat) (m : ℝ) : softmaxOf (fun j => row j - m) n c = softmaxOf row n c := by
  unfold softmaxOf
  have h : ∀ j, Real.exp (row j - m) = Real.exp (row j) * Real.exp (-m) := fun j => by rw [sub_eq_add_neg, Real.exp_add]
  simp only [h]
  rw [sum_mul_right' (fun j => Real.exp (row j))]
  rw [mul_div_mul_right _ _ (Real.exp_ne_zero _)]

theorem softmaxOf_pos (row : Nat → ℝ) (n c : Nat) (hn : 0 < n) : 0 < softmaxOf row n c :=
  div_pos (Real.exp_pos _) (sum_pos_of _ (fun _ => Real.exp_pos _) n hn)

theorem softmaxOf_sum (row : Nat → ℝ) (n : Nat) (hn : 0 < n) : ((List.range n).map (softmaxOf row n)).sum = 1 := by
  unfold softmaxOf
  simp only [div_eq_mul_inv]
  rw [sum_mul_right' (fun j => Real.exp (row j))]
  exact mul_inv_cancel₀ (ne_of_gt (sum_pos_of _ (fun _ => Real.exp_pos _) n hn))

/-! ### The parts -/

theorem softVec_steps (N : Mtx ℝ) (cb ce rb re k : Nat) : ((softVec N cb ce rb re).filter fun s => s.1 == k).map (·.2) =
    if rb ≤ k ∧ k < re then (fun _ => 0) :: (List.range' cb (ce - cb)).map (fun c => opSum c (N.data (N.cell k c))) else [] := by
  unfold softVec setRange
  rw [List.filter_append, List.map_append, filter_rows, filter_cw]
  by_cases h : rb ≤ k ∧ k < re
  · simp only [if_pos h]; rfl
  · simp only [if_neg h]; rfl

theorem softVec_fold (N : Mtx ℝ) (cs : List Nat) (k : Nat) (v : ℝ) :
    (((fun _ => 0) :: cs.map (fun c => opSum c (N.data (N.cell k c)))).foldl (fun v f => f v) v) = (cs.map (Mtx.rowOf N k)).sum := by
  rw [List.foldl_cons, foldl_apply (fun c => opSum c (N.data (N.cell k c)))]
  exact (fold_sum (Mtx.rowOf N k) _ 0).trans (zero_add _)

theorem numerOf_row (A : Mtx ℝ) (mx : Nat → ℝ) (r c : Nat) (hr : r < A.rows) :
    Mtx.rowOf (numerOf A mx) r c = Real.exp (Mtx.rowOf A r c - mx r) := by
  show Real.exp (A.data (r + A.rows * c) - mx ((r + A.rows * c) % A.rows)) = _
  rw [Nat.add_mul_mod_self_left, Nat.mod_eq_of_lt hr]; rfl

theorem softNum_mem (A : Mtx ℝ) (mx : Nat → ℝ) (cb ce rb re : Nat) (p : Nat × ℝ) : p ∈ softNum A mx cb ce rb re ↔
    ∃ c, cb ≤ c ∧ c < ce ∧ ∃ r, rb ≤ r ∧ r < re ∧ p = (r + A.rows * c, Real.exp (Mtx.rowOf A r c - mx r)) := by
  unfold softNum
  simp only [List.mem_flatMap, List.mem_map, List.mem_range'_1]
  constructor
  · rintro ⟨c, hc, r, hr, rfl⟩
    refine ⟨c, by omega, by omega, r, by omega, by omega, ?_⟩
    rw [Nat.add_comm (A.rows * c) r]; rfl
  · rintro ⟨c, h1, h2, r, h3, h4, rfl⟩
    refine ⟨c, by omega, r, by omega, ?_⟩
    rw [Nat.add_comm (A.rows * c) r]; rfl

/-- What `softmax_parts` leaves. -/
def PartsDone (A : Mtx ℝ) (mx num den' num' : Nat → ℝ) : Prop :=
  (∀ r, r < A.rows → den' r = ((List.range A.cols).map fun c => Real.exp (Mtx.rowOf A r c - mx r)).sum) ∧
  Fills A.rows A.rows A.cols num num' fun r c => Real.exp (Mtx.rowOf A r c - mx r)

theorem parts_by_rows (ex : Exec) (hex : ex.Ok) (A : Mtx ℝ) (hr : 0 < A.rows) {mx den num den' num' : Nat → ℝ}
    (h : softPartsByRows ex A mx den num den' num') : PartsDone A mx num den' num' := by
  constructor
  · intro r hr'
    have key := runs_result ex hex A.rows hr _ id _ (fun b e _ _ k => softVec_steps (numerOf A mx) 0 A.cols b e k) h.1 r
    rw [key, if_pos (show id r < A.rows from hr'), softVec_fold, List.range_eq_range', Nat.sub_zero]
    congr 1
    apply List.map_congr_left
    intro c _
    exact numerOf_row A mx r c hr'
  · refine fills_of_mem (Nat.le_refl _) _ _ (fun k v => ?_) h.2
    rw [mem_writes ex hex A.rows hr _ (fun r p => ∃ c, c < A.cols ∧ p = (r + A.rows * c, Real.exp (Mtx.rowOf A r c - mx r)))]
    · constructor
      · rintro ⟨r, hr', c, hc, he⟩
        rw [Prod.mk.injEq] at he
        exact ⟨r, c, hr', hc, he.1, he.2⟩
      · rintro ⟨r, c, hr', hc, rfl, rfl⟩
        exact ⟨r, hr', c, hc, rfl⟩
    · intro b e _ _ p
      rw [softNum_mem]
      constructor
      · rintro ⟨c, _, h1, r, h2, h3, h4⟩; exact ⟨r, h2, h3, c, h1, h4⟩
      · rintro ⟨r, h2, h3, c, h1, h4⟩; exact ⟨c, Nat.zero_le _, h1, r, h2, h3, h4⟩

theorem parts_mt_cw (rs : List ParRange) (hok : RangesOk rs) (per : Nat) (exs : Exec) (hexs : exs.Ok) (cws : Bool) (A : Mtx ℝ) (hr : 0 < A.rows)
    (hc : 0 < A.cols) {mx den num den' num' : Nat → ℝ} (h : softPartsMtCw rs per exs cws A mx den num den' num') :
    PartsDone A mx num den' num' := by
  obtain ⟨w, hw, hsum, hout⟩ := h
  have hrows : ∀ cb ce, ∀ s ∈ softVec (numerOf A mx) cb ce 0 A.rows, s.1 < A.rows := by
    intro cb ce s hs
    apply Decidable.byContradiction
    intro hn
    have h := softVec_steps (numerOf A mx) cb ce 0 A.rows s.1
    rw [if_neg (by omega)] at h
    have : s ∈ (softVec (numerOf A mx) cb ce 0 A.rows).filter fun s' => s'.1 == s.1 := List.mem_filter.2 ⟨hs, by simp⟩
    rw [List.map_eq_nil_iff.1 h] at this
    cases this
  have hres := cwThreads_result rs hok A per _ hrows hw den
  have htids := (run_tids rs A.cols (threadsForCols per A.cols (rs.length + 1)) hok).1
  have hbounds := run_ranges_nonempty_in_bounds rs A.cols (threadsForCols per A.cols (rs.length + 1)) hok hc
  have hperm := runCalls_perm rs A.cols (threadsForCols per A.cols (rs.length + 1)) hok
  generalize hN : threadsUsed rs.length A.cols (threadsForCols per A.cols (rs.length + 1)) = N at *
  generalize hcalls : runCalls rs A.cols (threadsForCols per A.cols (rs.length + 1)) = calls at *
  have hlen : calls.length = N := by
    have := congrArg List.length htids
    simpa using this
  have hN1 : 0 < N := by
    rw [← hN]; unfold threadsUsed; split <;> omega
  constructor
  · have hfin := row_sum_ip exs hexs cws (finMtx A (runSteps den w) N) hr hN1 hsum
    intro r hr'
    rw [hfin.1 r hr']
    have h1 : (List.range N).map (Mtx.rowOf (finMtx A (runSteps den w) N) r) =
        calls.map fun pr => ((items pr).map (Mtx.rowOf (numerOf A mx) r)).sum := by
      apply List.ext_getElem
      · simp [hlen]
      · intro t ht1 ht2
        have ht : t < calls.length := by simpa using ht2
        rw [List.getElem_map, List.getElem_map, List.getElem_range]
        show runSteps den w (r + A.rows * t) = _
        rw [hres r hr' t ht, softVec_steps, if_pos ⟨Nat.zero_le _, hr'⟩, softVec_fold]
        unfold items
        rw [Nat.add_sub_cancel_left]
    show ((List.range N).map _).sum = _
    rw [h1]
    have h2 : (calls.map fun pr => ((items pr).map (Mtx.rowOf (numerOf A mx) r)).sum) =
        (calls.map items).map fun x => (x.map (Mtx.rowOf (numerOf A mx) r)).sum := by
      rw [List.map_map]; rfl
    rw [h2, ← sum_flatMap]
    have h3 : (calls.map items).flatten = calls.flatMap items := rfl
    rw [h3, (hperm.map _).sum_eq]
    congr 1
    apply List.map_congr_left
    intro c _
    exact numerOf_row A mx r c hr'
  · refine fills_of_mem (Nat.le_refl _) _ _ (fun k v => ?_) hout
    rw [List.mem_flatMap]
    constructor
    · rintro ⟨pr, hpr, hm⟩
      obtain ⟨c, h1, h2, r, _, h4, he⟩ := (softNum_mem _ _ _ _ _ _ _).1 hm
      have hb := hbounds pr hpr
      rw [Prod.mk.injEq] at he
      exact ⟨r, c, h4, by omega, he.1, he.2⟩
    · rintro ⟨r, c, hr', hc', rfl, rfl⟩
      have hm : c ∈ calls.flatMap items := hperm.mem_iff.2 (List.mem_range.2 hc')
      obtain ⟨pr, hpr, hci⟩ := List.mem_flatMap.1 hm
      unfold items at hci
      rw [List.mem_range'_1] at hci
      exact ⟨pr, hpr, (softNum_mem _ _ _ _ _ _ _).2 ⟨c, hci.1, by omega, r, Nat.zero_le _, hr', rfl⟩⟩

theorem softmaxParts_done (t : Thr) (rs : List ParRange) (hok : RangesOk rs) (exs : Exec) (hexs : exs.Ok) (cws : Bool) (A : Mtx ℝ) (hr : 0 < A.rows)
    (hc : 0 < A.cols) {mx den num den' num' : Nat → ℝ} (h : softmaxParts t rs exs cws A mx den num den' num') : PartsDone A mx num den' num' := by
  unfold softmaxParts at h
  split at h
  · exact parts_by_rows .st trivial A hr h
  · split at h
    · exact parts_by_rows (.mt rs) hok A hr h
    · exact parts_mt_cw rs hok _ exs hexs cws A hr hc h

theorem copyN_eq {α : Type} (dst src : Nat → α) : ∀ n k, copyN dst src n k = if k < n then src k else dst k := by
  intro n
  induction n with
  | zero => intro k; rw [if_neg (by omega)]; rfl
  | succ n ih =>
    intro k
    rw [copyN, upd]
    by_cases h : k = n
    · rw [if_pos h, if_pos (by omega), h]
    · rw [if_neg h, ih]
      by_cases h2 : k < n
      · rw [if_pos h2, if_pos (by omega)]
      · rw [if_neg h2, if_neg (by omega)]

/-- The matrix with its bias column hidden. -/
def hid (A : Mtx ℝ) : Mtx ℝ := { A with cols := A.colsNoBias, emul := false }

theorem hideBiases_some {A B : Mtx ℝ} {b : Bool} (h : A.hideBiases = some (B, b)) :
    B = hid A ∧ b = A.emul ∧ (A.emul = true → A.bir = false) ∧ (A.emul = true → 2 ≤ A.cols) := by
  unfold Mtx.hideBiases at h
  cases he : A.emul <;> cases hb : A.bir <;> simp only [he, hb, Bool.and_self, Bool.and_false, Bool.and_true, Bool.false_eq_true, if_false, if_true] at h
  · cases h
    refine ⟨?_, rfl, by simp, by simp⟩
    unfold hid Mtx.colsNoBias; rw [he]; cases A; simp_all
  · cases h
    refine ⟨?_, rfl, by simp, by simp⟩
    unfold hid Mtx.colsNoBias; rw [he]; cases A; simp_all
  · unfold Mtx.hideLastCol at h
    split at h
    · rename_i h1
      simp only [Option.map_some, Option.some.injEq, Prod.mk.injEq] at h
      obtain ⟨rfl, rfl⟩ := h
      refine ⟨?_, rfl, fun _ => rfl, fun _ => h1.2⟩
      unfold hid Mtx.colsNoBias; rw [he, hb]; rfl
    · simp at h
  · simp at h

/-! ### The theorems -/

/-- **C47.** Whatever variant the sizes and thresholds select and however the threads interleave: the data part of every row becomes the softmax
of the row; the bias column, the rest of the storage and the shape of the matrix are as before. -/
theorem softmax_result (t : Thr) (rs : List ParRange) (hok : RangesOk rs) (exs : Exec) (hexs : exs.Ok) (cws : Bool) (A A' : Mtx ℝ) (hr : 0 < A.rows)
    (hc : 0 < A.colsNoBias) {mx den num : Nat → ℝ} (h : softmax t rs exs cws A A' mx den num) :
    A' = { A with data := A'.data } ∧
    (∀ r c, r < A.rows → c < A.colsNoBias → A'.data (A.cell r c) = softmaxOf (Mtx.rowOf A r) A.colsNoBias c) ∧
    ∀ k, A.rows * A.colsNoBias ≤ k → A'.data k = A.data k := by
  obtain ⟨B, b, hh, mx0, den0, num0, d, hmax, hparts, hdiv, hres⟩ := h
  obtain ⟨rfl, rfl, hbir, hcols⟩ := hideBiases_some hh
  have hdone : PartsDone (hid A) mx num0 den num := by
    split at hparts
    · exact parts_by_rows .st trivial (hid A) hr hparts
    · exact softmaxParts_done t rs hok exs hexs cws (hid A) hr hc hparts
  have hd := elem_result_cell _ (by split <;> [trivial; (split <;> exact hok)]) _ _ hr hc hdiv
  have hA' : A' = { A with data := d } := by
    unfold Mtx.restoreBiases hid at hres
    cases he : A.emul
    · simp only [he, Bool.false_or] at hres
      cases hb : A.bir
      · simp only [hb, Bool.false_eq_true, if_false, Option.some.injEq] at hres
        rw [← hres]
        cases A; simp_all [Mtx.colsNoBias]
      · simp [hb] at hres
    · have hb := hbir he
      have h2 := hcols he
      simp only [he, hb, Bool.or_self, Bool.false_eq_true, if_false, if_true] at hres
      unfold Mtx.restoreLastCol at hres
      split at hres
      · simp only [Option.map_some, Option.some.injEq] at hres
        rw [← hres]
        have : A.colsNoBias + 1 = A.cols := by
          unfold Mtx.colsNoBias; rw [he, hb]; simp; omega
        cases A; simp_all
      · simp at hres
  subst hA'
  refine ⟨rfl, fun r c hr' hc' => ?_, fun k hk => ?_⟩
  · show d (r + A.rows * c) = _
    have hlt : r + A.rows * c < A.rows * A.colsNoBias := by
      have : A.rows * (c + 1) ≤ A.rows * A.colsNoBias := Nat.mul_le_mul_left _ hc'
      rw [Nat.mul_add] at this; omega
    rw [hd.1 r c hr' hc', copyN_eq, if_pos (show r + A.rows * c < (hid A).numel from hlt),
      show num (r + A.rows * c) = _ from hdone.2.1 r c hr' hc', hdone.1 r hr']
    exact softmaxOf_shift (Mtx.rowOf A r) A.colsNoBias c (mx r)
  · show d k = _
    rw [hd.2 k hk, copyN_eq, if_neg (by show ¬ k < A.rows * A.colsNoBias; omega)]; rfl

/-- **C47**, a probability distribution. -/
theorem softmax_is_distribution (t : Thr) (rs : List ParRange) (hok : RangesOk rs) (exs : Exec) (hexs : exs.Ok) (cws : Bool) (A A' : Mtx ℝ)
    (hr : 0 < A.rows) (hc : 0 < A.colsNoBias) {mx den num : Nat → ℝ} (h : softmax t rs exs cws A A' mx den num) (r : Nat) (hr' : r < A.rows) :
    (∀ c, c < A.colsNoBias → 0 < A'.data (A.cell r c)) ∧ ((List.range A.colsNoBias).map fun c => A'.data (A.cell r c)).sum = 1 := by
  have hs := (softmax_result t rs hok exs hexs cws A A' hr hc h).2.1 r
  refine ⟨fun c hc' => by rw [hs c hr' hc']; exact softmaxOf_pos _ _ _ hc, ?_⟩
  rw [← softmaxOf_sum (Mtx.rowOf A r) A.colsNoBias hc]
  congr 1
  exact List.map_congr_left fun c hc' => hs c hr' (List.mem_range.1 hc')

/-- **C47**, independent of the constant and of the threads: two matrices of the same shape whose rows differ by constants give the same result, in
whatever way each of them is computed. -/
theorem softmax_shift_invariant (t t' : Thr) (rs rs' : List ParRange) (hok : RangesOk rs) (hok' : RangesOk rs') (exs exs' : Exec) (hexs : exs.Ok)
    (hexs' : exs'.Ok) (cws cws' : Bool) (A A' B B' : Mtx ℝ) (hr : 0 < A.rows) (hc : 0 < A.colsNoBias) (hrows : B.rows = A.rows)
    (hcols : B.colsNoBias = A.colsNoBias) (sh : Nat → ℝ) (hsh : ∀ r c, r < A.rows → c < A.colsNoBias → B.data (A.cell r c) = A.data (A.cell r c) + sh r)
    {mx den num mx' den' num' : Nat → ℝ} (h : softmax t rs exs cws A A' mx den num) (h' : softmax t' rs' exs' cws' B B' mx' den' num')
    (r c : Nat) (hr' : r < A.rows) (hc' : c < A.colsNoBias) : B'.data (A.cell r c) = A'.data (A.cell r c) := by
  have h1 := (softmax_result t rs hok exs hexs cws A A' hr hc h).2.1 r c hr' hc'
  have h2 := (softmax_result t' rs' hok' exs' hexs' cws' B B' (by omega) (by omega) h').2.1 r c (by omega) (by omega)
  have hcell : B.cell = A.cell := by funext r c; unfold Mtx.cell; rw [hrows]
  rw [hcell] at h2
  rw [h1, h2, hcols, ← softmaxOf_shift (Mtx.rowOf B r) _ _ (sh r)]
  unfold softmaxOf
  dsimp only
  have hrow : ∀ j, j < A.colsNoBias → Mtx.rowOf B r j - sh r = Mtx.rowOf A r j := by
    intro j hj
    unfold Mtx.rowOf
    rw [hcell, hsh r j hr' hj, add_sub_cancel_right]
  rw [hrow c hc']
  congr 2
  apply List.map_congr_left
  intro j hj
  rw [hrow j (List.mem_range.1 hj)]

/-- **C47**, why the maximum is subtracted: no intermediate value is large. Every numerator is at most 1, every denominator is between 1 and the
number of columns (so the division is by no small number either). -/
theorem softmax_no_overflow (t : Thr) (rs : List ParRange) (hok : RangesOk rs) (exs : Exec) (hexs : exs.Ok) (cws : Bool) (A A' : Mtx ℝ)
    (hr : 0 < A.rows) (hc : 0 < A.colsNoBias) {mx den num : Nat → ℝ} (h : softmax t rs exs cws A A' mx den num) (r : Nat) (hr' : r < A.rows) :
    (∀ c, c < A.colsNoBias → 0 < num (A.cell r c) ∧ num (A.cell r c) ≤ 1) ∧ 1 ≤ den r ∧ den r ≤ A.colsNoBias := by
  obtain ⟨B, b, hh, mx0, den0, num0, d, hmax, hparts, _, _⟩ := h
  obtain ⟨rfl, rfl, -, -⟩ := hideBiases_some hh
  have hdone : PartsDone (hid A) mx num0 den num := by
    split at hparts
    · exact parts_by_rows .st trivial (hid A) hr hparts
    · exact softmaxParts_done t rs hok exs hexs cws (hid A) hr hc hparts
  obtain ⟨⟨j, hj, hje⟩, hle⟩ := (row_max (if A.numel < t.softmax ∨ (hid A).numel < t.rowMax then Exec.st else Exec.mt rs)
    (by split <;> [trivial; exact hok]) (hid A) hr hc hmax).1 r hr'
  have hexp : ∀ c, c < A.colsNoBias → Real.exp (Mtx.rowOf A r c - mx r) ≤ 1 := by
    intro c hc'
    rw [Real.exp_le_one_iff]
    exact sub_nonpos.2 (hle c hc')
  refine ⟨fun c hc' => ?_, ?_, ?_⟩
  · have : num (A.cell r c) = Real.exp (Mtx.rowOf A r c - mx r) := hdone.2.1 r c hr' hc'
    rw [this]
    exact ⟨Real.exp_pos _, hexp c hc'⟩
  · have hden : den r = ((List.range A.colsNoBias).map fun c => Real.exp (Mtx.rowOf A r c - mx r)).sum := hdone.1 r hr'
    rw [hden]
    have h1 : Real.exp (Mtx.rowOf A r j - mx r) = 1 := by
      have : Mtx.rowOf A r j = mx r := hje
      rw [this, sub_self, Real.exp_zero]
    rw [← h1]
    exact List.single_le_sum (fun x hx => by
      obtain ⟨c, _, rfl⟩ := List.mem_map.1 hx
      exact le_of_lt (Real.exp_pos _)) _ (List.mem_map.2 ⟨j, List.mem_range.2 hj, rfl⟩)
  · have hden : den r = ((List.range A.colsNoBias).map fun c => Real.exp (Mtx.rowOf A r c - mx r)).sum := hdone.1 r hr'
    rw [hden]
    have := List.sum_le_card_nsmul ((List.range A.colsNoBias).map fun c => Real.exp (Mtx.rowOf A r c - mx r)) 1 (fun x hx => by
      obtain ⟨c, hc', rfl⟩ := List.mem_map.1 hx
      exact hexp c (List.mem_range.1 hc'))
    simpa using this

/-- The three parts of the temporary buffer do not overlap and fit in. -/
theorem softmax_temp_layout (rows cols workers : Nat) : tmpNum + rows * cols ≤ tmpMax rows cols ∧ tmpMax rows cols + rows ≤ tmpDen rows cols ∧
    tmpDen rows cols + rows * workers ≤ softmaxNeed rows cols workers := by
  unfold tmpDen tmpMax tmpNum softmaxNeed
  refine ⟨by omega, by omega, ?_⟩
  rw [Nat.mul_add, Nat.mul_add]; omega

/-- Softmax can always be computed: for every non-empty matrix in the default layout there is a run. -/
theorem softmax_runs (t : Thr) (rs : List ParRange) (exs : Exec) (cws : Bool) (A : Mtx ℝ) (hne : A.empty = false) (hbir : A.bir = false)
    (hcols : A.emul = true → 2 ≤ A.cols) (hsize : A.rows * A.cols ≤ A.maxSize) :
    ∃ A' mx den num, softmax t rs exs cws A A' mx den num := by
  have hhide : A.hideBiases = some ({ A with cols := A.colsNoBias, emul := false }, A.emul) := by
    unfold Mtx.hideBiases
    cases he : A.emul
    · simp only [Bool.false_and, Bool.false_eq_true, if_false]
      cases A; simp_all [Mtx.colsNoBias]
    · simp only [hbir, Bool.and_false, Bool.false_eq_true, if_false, if_true]
      unfold Mtx.hideLastCol
      rw [if_pos ⟨by simp [hne], hcols he⟩]
      unfold Mtx.colsNoBias
      rw [he, hbir]; rfl
  generalize hB : ({ A with cols := A.colsNoBias, emul := false } : Mtx ℝ) = B at hhide
  obtain ⟨mx, hmx⟩ := runs_exists (if A.numel < t.softmax ∨ B.numel < t.rowMax then .st else .mt rs) B.rows (mrwMaxCw B) (fun _ => 0)
  have hrows : ∀ ex, ∃ den num, softPartsByRows ex B mx (fun _ => 0) (fun _ => 0) den num := by
    intro ex
    obtain ⟨den, hden⟩ := runs_exists ex B.rows (softVec (numerOf B mx) 0 B.cols) (fun _ => 0)
    exact ⟨den, _, hden, outcome_program_order _ _⟩
  have hparts : ∃ den num, (if A.numel < t.softmax then softPartsByRows .st B mx (fun _ => 0) (fun _ => 0) den num
      else softmaxParts t rs exs cws B mx (fun _ => 0) (fun _ => 0) den num) := by
    split
    · exact hrows .st
    · unfold softmaxParts
      split
      · exact hrows .st
      · split
        · exact hrows (.mt rs)
        · obtain ⟨den, hden⟩ := runs_exists exs B.rows (mrwSumIpSt cws (finMtx B (runSteps (fun _ => (0 : ℝ)) ((cwThreads rs B t.partsColsPerThread
            fun cb ce => softVec (numerOf B mx) cb ce 0 B.rows)).flatten)
            (threadsUsed rs.length B.cols (threadsForCols t.partsColsPerThread B.cols (rs.length + 1)))))
            (runSteps (fun _ => (0 : ℝ)) ((cwThreads rs B t.partsColsPerThread fun cb ce => softVec (numerOf B mx) cb ce 0 B.rows)).flatten)
          exact ⟨den, _, _, interleaves_flatten _, hden, outcome_program_order _ _⟩
  obtain ⟨den, num, hp⟩ := hparts
  obtain ⟨d, hd⟩ := elemRuns_exists (if B.numel < t.divide then .byRows .st else if B.rows < t.divideMtRows then .byCols (.mt rs) else .byRows (.mt rs))
    (decide (B.numel < t.divideRw)) (fun r _ v => v / den r) B.rows B.cols (copyN B.data num B.numel)
  have hres : ∃ A', ({ B with data := d }).restoreBiases A.emul = some A' := by
    subst hB
    unfold Mtx.restoreBiases
    simp only [hbir, Bool.or_self, Bool.false_eq_true, if_false]
    cases he : A.emul
    · exact ⟨_, rfl⟩
    · simp only [if_true]
      unfold Mtx.restoreLastCol
      have h2 := hcols he
      have hcb : A.colsNoBias + 1 = A.cols := by unfold Mtx.colsNoBias; rw [he, hbir]; simp; omega
      rw [if_pos]
      · exact ⟨_, rfl⟩
      · refine ⟨by simpa [Mtx.empty] using hne, by show A.colsNoBias ≥ 1; omega, ?_⟩
        show A.maxSize ≥ A.rows * (A.colsNoBias + 1)
        rw [hcb]; exact hsize
  obtain ⟨A', hA'⟩ := hres
  exact ⟨A', mx, den, num, B, A.emul, hhide, _, _, _, d, hmx, hp, hd, hA'⟩

/-- A matrix of two rows and two columns and a bias column. -/
def demoA : Mtx ℝ := { data := fun k => k, cap := 6, rows := 2, cols := 3, emul := true, ext := false, holey := false, bir := false, maxSize := 6 }

/-- The hypotheses are met: a run by three threads that take columns. -/
example : ∃ A' mx den num, softmax ⟨0, 0, 0, 10, 0, 0, 0, 0⟩ (initRanges 2) .st true demoA A' mx den num ∧
    A'.data 0 + A'.data 2 = 1 ∧ A'.data 4 = 4 := by
  obtain ⟨A', mx, den, num, h⟩ := softmax_runs ⟨0, 0, 0, 10, 0, 0, 0, 0⟩ (initRanges 2) .st true demoA rfl rfl (by decide) (by decide)
  refine ⟨A', mx, den, num, h, ?_, ?_⟩
  · have := (softmax_is_distribution _ _ (initRanges_ok 2) .st trivial _ _ _ (by decide) (by decide) h 0 (by decide)).2
    simpa [demoA, Mtx.colsNoBias, Mtx.cell, List.range_succ] using this
  · have := (softmax_result _ _ (initRanges_ok 2) .st trivial _ _ _ (by decide) (by decide) h).2.2 4 (by decide)
    rw [this]
    simp [demoA]

end Nntl.Num
