import Verif.Kernel.RowLemmas
import Mathlib.Data.Int.Order.Basic
import Mathlib.Algebra.Group.Int.Defs
/-!
C39, C40: row-wise argmax, maximum and sum. Every theorem quantifies over the state of the thread pool and over all interleavings
of the threads' steps.
-/
namespace Nntl.Kernel
open Nntl.Matrix Nntl.Threads
variable {α : Type}

section Max
variable [LinearOrder α]

theorem maxCw_steps (A : Mtx α) (hc : 0 < A.cols) (b e k : Nat) :
    ((mrwMaxCw A b e).filter fun s => s.1 == k).map (·.2) =
      if b ≤ id k ∧ id k < e then (fun _ => A.data (A.cell k 0)) ::
        (List.range' 1 (A.cols - 1)).map (fun c => opMax c (A.data (A.cell k c))) else [] := by
  unfold mrwMaxCw copyFirst
  rw [List.filter_append, List.map_append, filter_rows]
  simp only [id_eq]
  by_cases h1 : A.cols > 1
  · rw [if_pos h1, filter_cw]
    by_cases h : b ≤ k ∧ k < e
    · simp only [if_pos h, Mtx.cell, Nat.mul_zero, Nat.zero_add, Nat.add_zero]; rfl
    · simp only [if_neg h]; rfl
  · have : A.cols - 1 = 0 := by omega
    rw [if_neg h1, this]
    by_cases h : b ≤ k ∧ k < e
    · simp only [if_pos h, Mtx.cell, Nat.mul_zero, Nat.zero_add, Nat.add_zero]; rfl
    · simp only [if_neg h]; rfl

/-- **C40 (maximum).** The vector gets the maximum of each row; nothing behind the vector is written. -/
theorem row_max (ex : Exec) (hex : ex.Ok) (A : Mtx α) (hr : 0 < A.rows) (hc : 0 < A.cols) {m m' : Nat → α}
    (h : mrwMax ex A m m') :
    (∀ r, r < A.rows → IsMaxOf (Mtx.rowOf A r) A.cols (m' r)) ∧ ∀ k, A.rows ≤ k → m' k = m k := by
  have key := runs_result ex hex A.rows hr _ id _ (fun b e _ _ k => maxCw_steps A hc b e k) h
  constructor
  · intro r hr'
    rw [key r, if_pos (show id r < A.rows from hr'), List.foldl_cons, foldl_apply (fun c => opMax c (A.data (A.cell r c)))]
    exact fold_max_val (Mtx.rowOf A r) A.cols hc
  · intro k hk
    rw [key k, if_neg (by simp only [id_eq]; omega)]

/-- The row-wise variant computes the same. -/
theorem row_max_rw (ex : Exec) (hex : ex.Ok) (A : Mtx α) (hr : 0 < A.rows) (hc : 0 < A.cols) {m m' : Nat → α}
    (h : Runs ex A.rows (mrwMaxRw A) m m') :
    (∀ r, r < A.rows → IsMaxOf (Mtx.rowOf A r) A.cols (m' r)) ∧ ∀ k, A.rows ≤ k → m' k = m k := by
  have key := runs_result ex hex A.rows hr _ id _ (fun b e _ _ k => filter_rw id opMax (fun v _ => v) A 0 A.cols b e k) h
  constructor
  · intro r hr'
    rw [key r, if_pos (show id r < A.rows from hr'), List.foldl_cons, List.foldl_nil]
    exact fold_max_val (Mtx.rowOf A r) A.cols hc
  · intro k hk
    rw [key k, if_neg (by simp only [id_eq]; omega)]

theorem maxSmallLoop_eq (d : Nat → α) (rm r : Nat) : ∀ (n c : Nat) (v : α),
    maxSmallLoop d rm n (rm * c + r) v = (List.range' c n).foldl (fun v c' => opMax c' (d (r + rm * c')) v) v := by
  intro n
  induction n with
  | zero => intro c v; rfl
  | succ n ih =>
    intro c v
    have h1 : rm * c + r + rm = rm * (c + 1) + r := by rw [Nat.mul_add]; omega
    rw [maxSmallLoop, h1, ih, List.range'_succ, List.foldl_cons, Nat.add_comm r]; rfl

/-- So does the variant for small matrices. -/
theorem row_max_rw_small (ex : Exec) (hex : ex.Ok) (A : Mtx α) (hr : 0 < A.rows) (hc : 0 < A.cols) {m m' : Nat → α}
    (h : Runs ex A.rows (mrwMaxRwSmall A) m m') :
    (∀ r, r < A.rows → IsMaxOf (Mtx.rowOf A r) A.cols (m' r)) ∧ ∀ k, A.rows ≤ k → m' k = m k := by
  have key := runs_result ex hex A.rows hr _ id _ (fun b e _ _ k => filter_rows
    (fun ri _ => maxSmallLoop A.data A.rows (A.cols - 1) (ri + A.rows) (A.data ri)) b e k) h
  constructor
  · intro r hr'
    rw [key r, if_pos (show id r < A.rows from hr'), List.foldl_cons, List.foldl_nil]
    have : r + A.rows = A.rows * 1 + r := by omega
    rw [this, maxSmallLoop_eq]
    have := fold_max_val (Mtx.rowOf A r) A.cols hc
    simpa [Mtx.rowOf, Mtx.cell] using this
  · intro k hk
    rw [key k, if_neg (by simp only [id_eq]; omega)]

/-- The index computed for one row by the row-wise kernel, over the columns `[cb,ce)`. -/
theorem idxRw_fold (A : Mtx α) (r cb ce : Nat) (h : cb < ce) : ∃ i, IsFirstMax (Mtx.rowOf A r) cb ce i ∧
    (List.range' (cb + 1) (ce - (cb + 1))).foldl (fun v c => opIdx c (A.data (A.cell r c)) v) (A.data (A.cell r cb), cb) =
      (Mtx.rowOf A r i, i) :=
  fold_max (Mtx.rowOf A r) _ cb ce h rfl

/-- **C39 (single-threaded and row-threaded variants).** For each row the smallest index of its maximum. -/
theorem argmax_by_rows_first (ex : Exec) (hex : ex.Ok) (save : Bool) (A : Mtx α) (hr : 0 < A.rows) (hc : 0 < A.cols)
    {dest : Nat → Nat} (h : idxByRows ex save A dest) (r : Nat) (hr' : r < A.rows) :
    IsFirstMax (Mtx.rowOf A r) 0 A.cols (dest r) := by
  obtain ⟨m, m', hrun, hd⟩ := h
  have key := runs_result ex hex A.rows hr _ id _ (fun b e _ _ k => filter_rw (fun e => (e, 0)) opIdx
    (fun v (old : α × Nat) => (if save then v.1 else old.1, v.2)) A 0 A.cols b e k) hrun r
  rw [hd r hr', key, if_pos (show id r < A.rows from hr'), List.foldl_cons, List.foldl_nil]
  obtain ⟨i, hi, he⟩ := idxRw_fold A r 0 A.cols hc
  rw [he]; exact hi

/-- The (unused) column-wise single-threaded variant gives the same. -/
theorem argmax_cw_first (A : Mtx α) (hc : 0 < A.cols) (m : Nat → α × Nat) (r : Nat) (hr : r < A.rows) :
    IsFirstMax (Mtx.rowOf A r) 0 A.cols (runSteps m (idxCw A) r).2 := by
  have hsteps : ((idxCw A).filter fun s => s.1 == r).map (·.2) =
      (fun (v : α × Nat) => (v.1, 0)) :: if A.cols > 1 then
        (fun (v : α × Nat) => (A.data r, v.2)) :: (List.range' 1 (A.cols - 1)).map (fun c => opIdx c (A.data (A.cell r c))) else [] := by
    unfold idxCw
    have h0 := filter_rows (fun _ (v : α × Nat) => (v.1, 0)) 0 A.rows r
    have h1 := filter_rows (fun r (v : α × Nat) => (A.data r, v.2)) 0 A.rows r
    rw [if_pos ⟨Nat.zero_le _, hr⟩] at h0 h1
    rw [Nat.sub_zero] at h0 h1
    rw [List.filter_append, List.map_append, h0]
    by_cases hc1 : A.cols > 1
    · rw [if_pos hc1, if_pos hc1, List.filter_append, List.map_append, h1, filter_cw, if_pos ⟨Nat.zero_le _, hr⟩]; rfl
    · rw [if_neg hc1, if_neg hc1]; rfl
  have : runSteps m (idxCw A) r = ((((idxCw A).filter fun s => s.1 == r).map (·.2)).foldl (fun v f => f v) (m r)) := by
    rw [runSteps_at, atCell, List.foldl_map]
  rw [this, hsteps, List.foldl_cons]
  by_cases hc1 : A.cols > 1
  · rw [if_pos hc1, List.foldl_cons, foldl_apply (fun c => opIdx c (A.data (A.cell r c)))]
    obtain ⟨i, hi, he⟩ := idxRw_fold A r 0 A.cols hc
    simp only [Nat.zero_add, Mtx.cell, Nat.mul_zero, Nat.add_zero] at he
    simp only [Mtx.cell]
    rw [he]; exact hi
  · have h1 : A.cols = 1 := by omega
    rw [if_neg hc1, h1, List.foldl_nil]
    refine ⟨Nat.le_refl _, Nat.lt_succ_self _, ?_, ?_⟩
    · intro j _ hj
      have : j = 0 := by omega
      rw [this]
    · intro j _ hj; simp only at hj; omega

theorem idxSmallLoop_eq (d : Nat → α) (rm r : Nat) : ∀ (n c : Nat) (v : α × Nat),
    idxSmallLoop d rm n (rm * c + r) c v = (List.range' c n).foldl (fun v c' => opIdx c' (d (r + rm * c')) v) v := by
  intro n
  induction n with
  | zero => intro c v; rfl
  | succ n ih =>
    intro c v
    have h1 : rm * c + r + rm = rm * (c + 1) + r := by rw [Nat.mul_add]; omega
    rw [idxSmallLoop, h1, ih, List.range'_succ, List.foldl_cons, Nat.add_comm r]; rfl

/-- And so does the variant for small matrices. -/
theorem argmax_rw_small_first (A : Mtx α) (hc : 0 < A.cols) (m : Nat → α × Nat) (r : Nat) (hr : r < A.rows) :
    IsFirstMax (Mtx.rowOf A r) 0 A.cols (runSteps m (idxRwSmall A) r).2 := by
  have h0 := filter_rows (fun ri (old : α × Nat) =>
    (old.1, (idxSmallLoop A.data A.rows (A.cols - 1) (ri + A.rows) 1 (A.data ri, 0)).2)) 0 A.rows r
  rw [if_pos ⟨Nat.zero_le _, hr⟩, Nat.sub_zero] at h0
  have : runSteps m (idxRwSmall A) r = ((((idxRwSmall A).filter fun s => s.1 == r).map (·.2)).foldl (fun v f => f v) (m r)) := by
    rw [runSteps_at, atCell, List.foldl_map]
  rw [this]
  unfold idxRwSmall
  rw [h0, List.foldl_cons, List.foldl_nil]
  have : r + A.rows = A.rows * 1 + r := by omega
  rw [this, idxSmallLoop_eq]
  obtain ⟨i, hi, he⟩ := idxRw_fold A r 0 A.cols hc
  simp only [Nat.zero_add, Mtx.cell, Nat.mul_zero, Nat.add_zero] at he
  rw [he]; exact hi

theorem idxRw_rows (A : Mtx α) (save : Bool) (cb ce : Nat) : ∀ s ∈ idxRw save A cb ce 0 A.rows, s.1 < A.rows := by
  intro s hs
  unfold idxRw mrwRw at hs
  obtain ⟨r, hr, rfl⟩ := List.mem_map.1 hs
  have := List.mem_range'_1.1 hr
  dsimp only; omega

/-- Threads are never more than asked for and never more than columns: the assertion `threadsToUse == threadsUsed` of smath.h:894,937
holds. -/
theorem cw_threads_used (workers per cols : Nat) (hp : 3 ≤ per) (hc : per < cols) :
    threadsUsed workers cols (threadsForCols per cols (workers + 1)) = threadsForCols per cols (workers + 1) := by
  have hmin : 1 < (cols + per - 1) / per := by
    rw [Nat.lt_div_iff_mul_lt (by omega)]; omega
  have hle : (cols + per - 1) / per ≤ cols := by
    have h1 : cols + per - 1 < (cols + 1) * per := by
      have : cols * 1 ≤ cols * per := Nat.mul_le_mul_left _ (by omega)
      rw [Nat.add_mul]; omega
    have := (Nat.div_lt_iff_lt_mul (k := per) (by omega)).2 h1
    omega
  unfold threadsForCols
  generalize (cols + per - 1) / per = q at *
  unfold threadsUsed workingCnt useNThreads
  rw [if_neg (by omega)]
  have hu : ∀ n : Nat, 1 < n → n ≤ workers + 1 → (if 1 < (n : Int) ∧ (n : Int) ≤ (workers : Int) + 1 then ((n : Int) - 1).toNat
      else workers) = n - 1 := by
    intro n h1 h2
    rw [if_pos (by omega)]; omega
  by_cases h : q < workers + 1
  · rw [if_pos h, hu q hmin (by omega), if_pos (by omega)]; omega
  · rw [if_neg h]
    by_cases hw : 0 < workers
    · rw [hu (workers + 1) (by omega) (by omega), if_pos (by omega)]; omega
    · have : workers = 0 := by omega
      subst this
      rw [if_neg (by omega : ¬ (1 < ((0 + 1 : Nat) : Int) ∧ _)), if_pos (by omega)]

theorem argmax_cw_core (rs : List ParRange) (hok : RangesOk rs) (per : Nat) (A : Mtx α) (hc : 0 < A.cols) {dest : Nat → Nat}
    (h : idxMtCw rs per A dest) (r : Nat) (hr : r < A.rows) : IsSomeMax (Mtx.rowOf A r) A.cols (dest r) := by
  obtain ⟨tmp0, w, hw, hd⟩ := h
  have hres := cwThreads_result rs hok A per _ (fun cb ce => idxRw_rows A true cb ce) hw tmp0 r hr
  have htids := (run_tids rs A.cols (threadsForCols per A.cols (rs.length + 1)) hok).1
  have hbounds := run_ranges_nonempty_in_bounds rs A.cols (threadsForCols per A.cols (rs.length + 1)) hok hc
  have hperm := runCalls_perm rs A.cols (threadsForCols per A.cols (rs.length + 1)) hok
  generalize hN : threadsUsed rs.length A.cols (threadsForCols per A.cols (rs.length + 1)) = N at *
  generalize hcalls : runCalls rs A.cols (threadsForCols per A.cols (rs.length + 1)) = calls at *
  have hlen : calls.length = N := by
    have := congrArg List.length htids
    simpa using this
  have hN1 : 0 < N := by
    rw [← hN]; unfold threadsUsed; split <;> omega
  -- what thread `t` found
  have hpart : ∀ (t : Nat) (ht : t < calls.length), ∃ i, IsFirstMax (Mtx.rowOf A r) (calls[t]).offset
      ((calls[t]).offset + (calls[t]).cnt) i ∧ runSteps tmp0 w (r + A.rows * t) = (Mtx.rowOf A r i, i) := by
    intro t ht
    have hb := hbounds calls[t] (List.getElem_mem ht)
    obtain ⟨i, hi, he⟩ := idxRw_fold A r (calls[t]).offset ((calls[t]).offset + (calls[t]).cnt) (by omega)
    refine ⟨i, hi, ?_⟩
    rw [hres t ht]
    unfold idxRw
    rw [filter_rw, if_pos ⟨Nat.zero_le _, hr⟩, List.foldl_cons, List.foldl_nil]
    simp only [if_true]
    rw [he]
  have hmerge := idxMerge_spec (runSteps tmp0 w) A.rows r (N - 1) 1 (runSteps tmp0 w r)
  rw [Nat.mul_one] at hmerge
  obtain ⟨h1, h2, h3⟩ := hmerge
  rw [hd r hr]
  -- the winner is the result of some thread
  have hwin : ∃ (t : Nat), t < calls.length ∧ idxMerge (runSteps tmp0 w) A.rows (N - 1) A.rows r (runSteps tmp0 w r) =
      runSteps tmp0 w (r + A.rows * t) := by
    rcases h1 with h1 | ⟨t, ht1, ht2, h1⟩
    · exact ⟨0, by omega, by rw [h1, Nat.mul_zero, Nat.add_zero]⟩
    · exact ⟨t, by omega, h1⟩
  obtain ⟨t, ht, hwt⟩ := hwin
  obtain ⟨i, hi, hpi⟩ := hpart t ht
  have hb := hbounds calls[t] (List.getElem_mem ht)
  rw [hwt] at h2 h3 ⊢
  rw [hpi] at h2 h3 ⊢
  refine ⟨by have := hi.2.1; simp only; omega, ?_⟩
  intro j hj
  -- column `j` is in the range of some thread
  have hm : j ∈ calls.flatMap items := hperm.mem_iff.2 (List.mem_range.2 hj)
  obtain ⟨pr, hpr, hjp⟩ := List.mem_flatMap.1 hm
  obtain ⟨s, hs, rfl⟩ := List.getElem_of_mem hpr
  have hjb := List.mem_range'_1.1 hjp
  obtain ⟨i', hi', hpi'⟩ := hpart s hs
  have h4 : Mtx.rowOf A r j ≤ Mtx.rowOf A r i' := hi'.2.2.1 j hjb.1 hjb.2
  refine le_trans h4 ?_
  by_cases hs0 : s = 0
  · subst hs0
    rw [Nat.mul_zero, Nat.add_zero] at hpi'
    rw [hpi'] at h2; exact h2
  · have := h3 s (by omega) (by omega)
    rw [hpi'] at this; exact this

/-- **C39 (partial).** Whatever variant the sizes select, whatever the thread pool does: the answer is always the index of a maximum of the
row, and if the maximum is attained only once it is that index (hence the first one, independent of threading). Missing for the full
property: which of several equal maxima is chosen, see `argmax_depends_on_threading`. -/
theorem argmax_is_max_partial (rs : List ParRange) (hok : RangesOk rs) (thr thrRows per : Nat) (A : Mtx α) (hr : 0 < A.rows)
    (hc : 0 < A.cols) {dest : Nat → Nat} (h : mrwIdxsOfMax rs thr thrRows per A dest) (r : Nat) (hr' : r < A.rows) :
    IsSomeMax (Mtx.rowOf A r) A.cols (dest r) ∧
    ((∀ i j, IsSomeMax (Mtx.rowOf A r) A.cols i → IsSomeMax (Mtx.rowOf A r) A.cols j → i = j) →
      IsFirstMax (Mtx.rowOf A r) 0 A.cols (dest r)) := by
  have hsome : IsSomeMax (Mtx.rowOf A r) A.cols (dest r) := by
    unfold mrwIdxsOfMax at h
    split at h
    · have := argmax_by_rows_first .st trivial false A hr hc h r hr'
      exact ⟨this.2.1, fun j hj => this.2.2.1 j (Nat.zero_le _) hj⟩
    · split at h
      · exact argmax_cw_core rs hok per A hc h r hr'
      · have := argmax_by_rows_first (.mt rs) hok true A hr hc h r hr'
        exact ⟨this.2.1, fun j hj => this.2.2.1 j (Nat.zero_le _) hj⟩
  refine ⟨hsome, fun hu => ⟨Nat.zero_le _, hsome.1, fun j _ hj => hsome.2 j hj, fun j _ hj => ?_⟩⟩
  rcases lt_or_eq_of_le (hsome.2 j (by have := hsome.1; omega)) with h1 | h1
  · exact h1
  · exfalso
    have := hu j (dest r) ⟨by have := hsome.1; omega, fun k hk => by rw [h1]; exact hsome.2 k hk⟩ hsome
    omega

/-- In particular the first maximum is returned whenever the column-threaded variant is not selected. -/
theorem argmax_first_partial (rs : List ParRange) (hok : RangesOk rs) (thr thrRows per : Nat) (A : Mtx α) (hr : 0 < A.rows)
    (hc : 0 < A.cols) (hsel : A.numel < thr ∨ thrRows ≤ A.rows ∨ A.cols ≤ per) {dest : Nat → Nat}
    (h : mrwIdxsOfMax rs thr thrRows per A dest) (r : Nat) (hr' : r < A.rows) :
    IsFirstMax (Mtx.rowOf A r) 0 A.cols (dest r) := by
  unfold mrwIdxsOfMax at h
  split at h
  · exact argmax_by_rows_first .st trivial false A hr hc h r hr'
  · rw [if_neg (by omega)] at h
    exact argmax_by_rows_first (.mt rs) hok true A hr hc h r hr'

end Max

/-- A row with two equal maxima. -/
def tieMtx : Mtx Int :=
  { data := fun k => if k = 0 ∨ k = 2 then 1 else 0, cap := 4, rows := 1, cols := 4, emul := false, ext := false, holey := false,
    bir := false, maxSize := 4 }

/-- **C39 is false.** With one worker thread, a row `1 0 1 0` and thresholds that select the column-threaded variant, index 2 is returned
instead of 0; the single-threaded variant returns 0 for the same data. (The main thread has number 0 but works on the last columns, and
the partial results are merged in the order of thread numbers.) -/
theorem argmax_depends_on_threading : ∃ (rs : List ParRange) (dest dest' : Nat → Nat), RangesOk rs ∧
    mrwIdxsOfMax rs 4 20 3 tieMtx dest ∧ dest 0 = 2 ∧ mrwIdxsOfMax rs 5 20 3 tieMtx dest' ∧ dest' 0 = 0 ∧
    IsFirstMax (Mtx.rowOf tieMtx 0) 0 tieMtx.cols 0 := by
  refine ⟨initRanges 1, fun r => (idxMerge (runSteps (fun _ => (0, 0)) (cwThreads (initRanges 1) tieMtx 3 fun cb ce =>
    idxRw true tieMtx cb ce 0 tieMtx.rows).flatten) tieMtx.rows
    (threadsUsed 1 tieMtx.cols (threadsForCols 3 tieMtx.cols 2) - 1) tieMtx.rows r
    (runSteps (fun _ => (0, 0)) (cwThreads (initRanges 1) tieMtx 3 fun cb ce =>
    idxRw true tieMtx cb ce 0 tieMtx.rows).flatten r)).2,
    fun r => (runSteps (fun _ => (0, 0)) (Exec.threads .st tieMtx.rows (idxRw false tieMtx 0 tieMtx.cols)).flatten r).2,
    initRanges_ok 1, ?_, by decide, ?_, by decide, ?_⟩
  · show idxMtCw _ _ _ _
    exact ⟨fun _ => (0, 0), _, interleaves_flatten _, fun r _ => rfl⟩
  · show idxByRows _ _ _ _
    exact ⟨fun _ => (0, 0), _, ⟨_, interleaves_flatten _, rfl⟩, fun r _ => rfl⟩
  · refine ⟨Nat.le_refl _, by decide, ?_, by intro j _ hj; omega⟩
    intro j _ hj
    show (if 0 + 1 * j = 0 ∨ 0 + 1 * j = 2 then (1 : Int) else 0) ≤ 1
    split <;> decide

/-- Non-vacuity of the positive statements: the run in the witness meets all hypotheses. -/
example : 0 < tieMtx.rows ∧ 0 < tieMtx.cols ∧ ∃ m', mrwMax (.mt (initRanges 3)) tieMtx (fun _ => 7) m' :=
  ⟨by decide, by decide, runs_exists _ _ _ _⟩

/-! ### Sum -/
section Sum
variable [AddCommMonoid α]

theorem sumSt_fold (rw' : Bool) (A : Mtx α) (cb ce rb re r : Nat) (hr : rb ≤ r ∧ r < re) (hce : cb < ce) (v : α) (hcols : ce ≤ A.cols) :
    (((mrwSumSt rw' A cb ce rb re).filter fun s => s.1 == r).map (·.2)).foldl (fun v f => f v) v =
      ((List.range' cb (ce - cb)).map (Mtx.rowOf A r)).sum := by
  unfold mrwSumSt
  have hsplit : List.range' cb (ce - cb) = cb :: List.range' (cb + 1) (ce - (cb + 1)) := by
    rw [show ce - cb = ce - (cb + 1) + 1 by omega, List.range'_succ]
  by_cases h1 : A.cols = 1 ∨ cb = ce
  · rw [if_pos h1]
    have hcb : cb = 0 ∧ ce = 1 := by omega
    obtain ⟨rfl, rfl⟩ := hcb
    unfold copyFirst
    rw [filter_rows, if_pos hr]
    simp [Mtx.rowOf, Mtx.cell]
  · rw [if_neg h1]
    cases rw' with
    | true =>
      simp only [if_true]
      rw [filter_rw, if_pos hr, List.foldl_cons, List.foldl_nil, hsplit, List.map_cons, List.sum_cons]
      exact fold_sum (Mtx.rowOf A r) _ _
    | false =>
      simp only [Bool.false_eq_true, if_false]
      unfold setRange
      rw [List.filter_append, List.map_append, filter_rows, filter_cw, if_pos hr, if_pos hr, List.foldl_append, List.foldl_cons,
        List.foldl_nil, foldl_apply (fun c => opSum c (A.data (A.cell r c)))]
      exact (fold_sum (Mtx.rowOf A r) _ 0).trans (zero_add _)

theorem sumSt_outside (rw' : Bool) (A : Mtx α) (cb ce rb re r : Nat) (hr : ¬ (rb ≤ r ∧ r < re)) :
    ((mrwSumSt rw' A cb ce rb re).filter fun s => s.1 == r).map (·.2) = [] := by
  unfold mrwSumSt
  split
  · unfold copyFirst; rw [filter_rows, if_neg hr]
  · split
    · rw [filter_rw, if_neg hr]
    · unfold setRange
      rw [List.filter_append, List.map_append, filter_rows, filter_cw, if_neg hr, if_neg hr]; rfl

/-- **C40 (sum over rows, single-threaded or split over the rows).** -/
theorem row_sum_by_rows (ex : Exec) (hex : ex.Ok) (rw' : Bool) (A : Mtx α) (hr : 0 < A.rows) (hc : 0 < A.cols) {m m' : Nat → α}
    (h : mrwSumByRows ex rw' A m m') :
    (∀ r, r < A.rows → m' r = rowSum A r) ∧ ∀ k, A.rows ≤ k → m' k = m k := by
  have key := runs_result ex hex A.rows hr _ id
    (fun k => ((mrwSumSt rw' A 0 A.cols k (k + 1)).filter fun s => s.1 == k).map (·.2)) (by
      intro b e _ _ k
      simp only [id_eq]
      by_cases hk : b ≤ k ∧ k < e
      · rw [if_pos hk]
        unfold mrwSumSt
        split
        · unfold copyFirst; rw [filter_rows, filter_rows, if_pos hk, if_pos (by omega)]
        · split
          · rw [filter_rw, filter_rw, if_pos hk, if_pos (by omega)]
          · unfold setRange
            rw [List.filter_append, List.map_append, filter_rows, filter_cw, if_pos hk, if_pos hk,
              List.filter_append, List.map_append, filter_rows, filter_cw, if_pos (by omega), if_pos (by omega)]
      · rw [if_neg hk, sumSt_outside _ _ _ _ _ _ _ hk]) h
  constructor
  · intro r hr'
    rw [key r, if_pos (show id r < A.rows from hr'), sumSt_fold rw' A 0 A.cols r (r + 1) r (by omega) hc _ (Nat.le_refl _)]
    rw [rowSum, List.range_eq_range', Nat.sub_zero]
  · intro k hk
    rw [key k, if_neg (by simp only [id_eq]; omega)]

theorem sumSt_rows (rw' : Bool) (A : Mtx α) (cb ce : Nat) : ∀ s ∈ mrwSumSt rw' A cb ce 0 A.rows, s.1 < A.rows := by
  intro s hs
  apply Decidable.byContradiction
  intro hn
  have h := sumSt_outside rw' A cb ce 0 A.rows s.1 (by omega)
  have : s ∈ (mrwSumSt rw' A cb ce 0 A.rows).filter fun s' => s'.1 == s.1 := List.mem_filter.2 ⟨hs, by simp⟩
  rw [List.map_eq_nil_iff.1 h] at this
  cases this

theorem sum_flatMap (f : Nat → α) (l : List (List Nat)) : ((l.flatten).map f).sum = (l.map fun x => (x.map f).sum).sum := by
  induction l with
  | nil => rfl
  | cons x l ih => rw [List.flatten_cons, List.map_append, List.sum_append, ih, List.map_cons, List.sum_cons]

/-- **C40 (sum, split over the columns).** -/
theorem row_sum_mt_cw (rs : List ParRange) (hok : RangesOk rs) (per : Nat) (rw1 rw2 : Bool) (A : Mtx α) (hr : 0 < A.rows)
    (hc : 0 < A.cols) {m m' : Nat → α} (h : mrwSumMtCw rs per rw1 rw2 A m m') :
    (∀ r, r < A.rows → m' r = rowSum A r) ∧ ∀ k, A.rows ≤ k → m' k = m k := by
  obtain ⟨tmp0, w, hw, hsum⟩ := h
  have hres := cwThreads_result rs hok A per _ (fun cb ce => sumSt_rows rw1 A cb ce) hw tmp0
  have htids := (run_tids rs A.cols (threadsForCols per A.cols (rs.length + 1)) hok).1
  have hbounds := run_ranges_nonempty_in_bounds rs A.cols (threadsForCols per A.cols (rs.length + 1)) hok hc
  have hperm := runCalls_perm rs A.cols (threadsForCols per A.cols (rs.length + 1)) hok
  generalize hN : threadsUsed rs.length A.cols (threadsForCols per A.cols (rs.length + 1)) = N at *
  generalize hcalls : runCalls rs A.cols (threadsForCols per A.cols (rs.length + 1)) = calls at *
  have hlen : calls.length = N := by
    have := congrArg List.length htids
    simpa using this
  have hN1 : 0 < N := by
    rw [← hN]; unfold threadsUsed; split <;> omega
  have hfin := row_sum_by_rows .st trivial rw2 (finMtx A (runSteps tmp0 w) N) hr hN1 hsum
  refine ⟨?_, hfin.2⟩
  intro r hr'
  rw [hfin.1 r hr']
  have h1 : (List.range N).map (Mtx.rowOf (finMtx A (runSteps tmp0 w) N) r) = calls.map fun pr => ((items pr).map (Mtx.rowOf A r)).sum := by
    apply List.ext_getElem
    · simp [hlen]
    · intro t ht1 ht2
      have ht : t < calls.length := by simpa using ht2
      have hb := hbounds calls[t] (List.getElem_mem ht)
      rw [List.getElem_map, List.getElem_map, List.getElem_range]
      show runSteps tmp0 w (r + A.rows * t) = _
      rw [hres r hr' t ht, sumSt_fold rw1 A _ _ 0 A.rows r ⟨Nat.zero_le _, hr'⟩ (by omega) _ hb.2]
      unfold items
      rw [Nat.add_sub_cancel_left]
  show ((List.range N).map _).sum = _
  rw [h1]
  have h2 : (calls.map fun pr => ((items pr).map (Mtx.rowOf A r)).sum) = (calls.map items).map fun x => (x.map (Mtx.rowOf A r)).sum := by
    rw [List.map_map]; rfl
  rw [h2, ← sum_flatMap, rowSum]
  have h3 : (calls.map items).flatten = calls.flatMap items := rfl
  rw [h3]
  exact (hperm.map _).sum_eq

/-- **C40 (sum).** Whatever variant the sizes select: the vector gets the sum of each row and nothing behind it is written. -/
theorem row_sum (rs : List ParRange) (hok : RangesOk rs) (thr thrSt per : Nat) (A : Mtx α) (hr : 0 < A.rows) (hc : 0 < A.cols)
    {m m' : Nat → α} (h : mrwSum rs thr thrSt per A m m') :
    (∀ r, r < A.rows → m' r = rowSum A r) ∧ ∀ k, A.rows ≤ k → m' k = m k := by
  unfold mrwSum at h
  split at h
  · exact row_sum_by_rows .st trivial _ A hr hc h
  · split at h
    · rename_i h1
      subst h
      have : ∀ k, runSteps m (copyFirst A 0 0 A.rows) k = ((((copyFirst A 0 0 A.rows).filter fun s => s.1 == k).map (·.2)).foldl (fun v f => f v) (m k)) := by
        intro k; rw [runSteps_at, atCell, List.foldl_map]
      unfold copyFirst at this
      constructor
      · intro r hr'
        unfold copyFirst
        rw [this, filter_rows, if_pos ⟨Nat.zero_le _, hr'⟩, rowSum, h1]
        simp [Mtx.rowOf, Mtx.cell]
      · intro k hk
        unfold copyFirst
        rw [this, filter_rows, if_neg (by omega)]; rfl
    · split at h
      · exact row_sum_by_rows (.mt rs) hok _ A hr hc h
      · exact row_sum_mt_cw rs hok per _ _ A hr hc h

theorem sumSmallLoop_eq (d : Nat → α) (rm r : Nat) : ∀ (n c : Nat) (v : α),
    sumSmallLoop d rm n (rm * c + r) v = (List.range' c n).foldl (fun v c' => opSum c' (d (r + rm * c')) v) v := by
  intro n
  induction n with
  | zero => intro c v; rfl
  | succ n ih =>
    intro c v
    have h1 : rm * c + r + rm = rm * (c + 1) + r := by rw [Nat.mul_add]; omega
    rw [sumSmallLoop, h1, ih, List.range'_succ, List.foldl_cons, Nat.add_comm r]; rfl

/-- **C40 (sum in place).** The first column becomes the sums of the rows, the other columns keep their values. -/
theorem row_sum_ip (ex : Exec) (hex : ex.Ok) (cw : Bool) (A : Mtx α) (hr : 0 < A.rows) (hc : 0 < A.cols) {m' : Nat → α}
    (h : mrwSumIp ex cw A m') :
    (∀ r, r < A.rows → m' r = rowSum A r) ∧ ∀ k, A.rows ≤ k → m' k = A.data k := by
  have hsteps : ∀ b e k, ((mrwSumIpSt cw A b e).filter fun s => s.1 == k).map (·.2) =
      if b ≤ id k ∧ id k < e then ((mrwSumIpSt cw A k (k + 1)).filter fun s => s.1 == k).map (·.2) else [] := by
    intro b e k
    simp only [id_eq]
    unfold mrwSumIpSt
    split
    · simp
    · split
      · rw [filter_cw, filter_cw]
        by_cases hk : b ≤ k ∧ k < e
        · simp only [if_pos hk]; rw [if_pos (by omega)]
        · simp only [if_neg hk]
      · rw [filter_rows, filter_rows]
        by_cases hk : b ≤ k ∧ k < e
        · simp only [if_pos hk]; rw [if_pos (by omega)]
        · simp only [if_neg hk]
  have key := runs_result ex hex A.rows hr _ id _ (fun b e _ _ k => hsteps b e k) h
  constructor
  · intro r hr'
    rw [key r, if_pos (show id r < A.rows from hr'), rowSum, range_split _ hc, List.map_cons, List.sum_cons]
    have h0 : A.data r = Mtx.rowOf A r 0 := by simp [Mtx.rowOf, Mtx.cell]
    unfold mrwSumIpSt
    split
    · rename_i h1
      have : A.cols = 1 := by omega
      simp [this, h0]
    · split
      · rw [filter_cw, if_pos (by omega), foldl_apply (fun c => opSum c (A.data (A.cell r c))), h0]
        exact fold_sum (Mtx.rowOf A r) _ _
      · rw [filter_rows, if_pos (by omega), List.foldl_cons, List.foldl_nil]
        have : r + A.rows = A.rows * 1 + r := by omega
        rw [this, sumSmallLoop_eq, fold_sum (fun c => A.data (r + A.rows * c)), zero_add, h0]
        rfl
  · intro k hk
    rw [key k, if_neg (by simp only [id_eq]; omega)]

end Sum

/-- Non-vacuity: a run of the column-threaded sum exists. -/
example : ∃ m', mrwSum (initRanges 1) 0 0 3 tieMtx (fun _ => 0) m' ∧ m' 0 = 2 := by
  have : ∃ m', mrwSum (initRanges 1) 0 0 3 tieMtx (fun _ => 0) m' := by
    show ∃ m', mrwSumMtCw _ _ _ _ _ _ m'
    exact ⟨_, fun _ => 0, _, interleaves_flatten _, _, interleaves_flatten _, rfl⟩
  obtain ⟨m', h⟩ := this
  refine ⟨m', h, ?_⟩
  rw [(row_sum (initRanges 1) (initRanges_ok 1) 0 0 3 tieMtx (by decide) (by decide) h).1 0 (by decide)]
  decide

end Nntl.Kernel
