import Verif.Kernel.RowModel
import Verif.Kernel.RowSpec
import Verif.Threads.PoolProps
/-! Lemmas about the row-wise reductions. -/
namespace Nntl.Kernel
open Nntl.Matrix Nntl.Threads
variable {α σ τ : Type}

theorem filter_eq_range' (k : Nat) : ∀ (n b : Nat), (List.range' b n).filter (fun r => r == k) =
    if b ≤ k ∧ k < b + n then [k] else [] := by
  intro n
  induction n with
  | zero => intro b; rw [if_neg (by omega)]; rfl
  | succ n ih =>
    intro b
    rw [List.range'_succ, List.filter_cons, ih (b + 1)]
    by_cases h : b = k
    · subst h
      rw [if_pos (by simp), if_neg (by omega), if_pos (by omega)]
    · rw [if_neg (by simp [h])]
      by_cases h2 : b + 1 ≤ k ∧ k < b + 1 + n
      · rw [if_pos h2, if_pos (by omega)]
      · rw [if_neg h2, if_neg (by omega)]

theorem filter_rows (f : Nat → σ → σ) (b e k : Nat) :
    (((List.range' b (e - b)).map fun r => (r, f r)).filter fun s : Step σ => s.1 == k).map (·.2) =
      if b ≤ k ∧ k < e then [f k] else [] := by
  rw [List.filter_map]
  have : ((fun s : Step σ => s.1 == k) ∘ fun r => (r, f r)) = fun r => r == k := rfl
  rw [this, filter_eq_range']
  by_cases h : b ≤ k ∧ k < e
  · rw [if_pos (by omega), if_pos h]; rfl
  · rw [if_neg (by omega), if_neg h]; rfl

theorem filter_cw (op : Nat → α → σ → σ) (A : Mtx α) (cb ce b e k : Nat) :
    ((mrwCw op A cb ce b e).filter fun s => s.1 == k).map (·.2) =
      if b ≤ k ∧ k < e then (List.range' cb (ce - cb)).map fun c => op c (A.data (A.cell k c)) else [] := by
  unfold mrwCw
  generalize List.range' cb (ce - cb) = cs
  induction cs with
  | nil => simp
  | cons c cs ih =>
    rw [List.flatMap_cons, List.filter_append, List.map_append, ih, filter_rows (fun r => op c (A.data (A.rows * c + r)))]
    by_cases h : b ≤ k ∧ k < e
    · simp only [if_pos h, List.map_cons]
      rw [Mtx.cell, Nat.add_comm]; rfl
    · simp only [if_neg h]; rfl

theorem rwLoop_eq (op : Nat → α → σ → σ) (d : Nat → α) (rm r : Nat) : ∀ (n c : Nat) (v : σ),
    mrwRwLoop op d rm n c (rm * c + r) v = (List.range' c n).foldl (fun v c' => op c' (d (r + rm * c')) v) v := by
  intro n
  induction n with
  | zero => intro c v; rfl
  | succ n ih =>
    intro c v
    have h1 : rm * c + r + rm = rm * (c + 1) + r := by rw [Nat.mul_add]; omega
    rw [mrwRwLoop, h1, ih, List.range'_succ, List.foldl_cons, Nat.add_comm r]

theorem filter_rw (ini : α → σ) (op : Nat → α → σ → σ) (fin : σ → σ → σ) (A : Mtx α) (cb ce b e k : Nat) :
    ((mrwRw ini op fin A cb ce b e).filter fun s => s.1 == k).map (·.2) =
      if b ≤ k ∧ k < e then [fin ((List.range' (cb + 1) (ce - (cb + 1))).foldl
        (fun v c => op c (A.data (A.cell k c)) v) (ini (A.data (A.cell k cb))))] else [] := by
  unfold mrwRw
  rw [filter_rows]
  by_cases h : b ≤ k ∧ k < e
  · rw [if_pos h, if_pos h]
    have h1 : A.rows * cb + k + A.rows = A.rows * (cb + 1) + k := by rw [Nat.mul_add]; omega
    rw [h1, rwLoop_eq, Nat.add_comm (A.rows * cb) k]
    rfl
  · rw [if_neg h, if_neg h]

theorem foldl_apply (f : Nat → σ → σ) (l : List Nat) (v : σ) :
    (l.map f).foldl (fun v g => g v) v = l.foldl (fun v c => f c v) v := by rw [List.foldl_map]

/-! Threads that own disjoint sets of cells by thread number. -/

theorem interleaves_owner {ts : List (List (Step σ))} {w : List (Step σ)} (h : Interleaves ts w) (own : Nat → Nat)
    (hown : ∀ (i : Nat) (hi : i < ts.length), ∀ s ∈ ts[i], own s.1 = i) (k : Nat) (hk : own k < ts.length) :
    (w.filter fun s => s.1 == k) = (ts[own k]).filter fun s => s.1 == k := by
  have hf := interleaves_filter (fun s : Step σ => s.1 == k) h
  have hs : ts = ts.take (own k) ++ ts[own k] :: ts.drop (own k + 1) := by
    rw [List.getElem_cons_drop, List.take_append_drop]
  refine interleaves_single hf ((ts.take (own k)).map (List.filter fun s => s.1 == k))
    ((ts.drop (own k + 1)).map (List.filter fun s => s.1 == k)) _ ?_ ?_
  · conv => lhs; rw [hs]
    rw [List.map_append, List.map_cons]
  · intro t ht
    rw [← List.map_append] at ht
    obtain ⟨t', ht', rfl⟩ := List.mem_map.1 ht
    rw [List.filter_eq_nil_iff]
    intro s hsm
    simp only [beq_iff_eq]
    intro hsk
    rcases List.mem_append.1 ht' with h1 | h1
    · obtain ⟨i, hi, rfl⟩ := List.getElem_of_mem h1
      rw [List.length_take] at hi
      rw [List.getElem_take] at hsm
      have := hown i (by omega) s hsm
      rw [hsk] at this; omega
    · obtain ⟨i, hi, rfl⟩ := List.getElem_of_mem h1
      rw [List.length_drop] at hi
      rw [List.getElem_drop] at hsm
      have := hown (own k + 1 + i) (by omega) s hsm
      rw [hsk] at this; omega

theorem runCalls_perm (rs : List ParRange) (cnt : Nat) (u : Int) (hok : RangesOk rs) :
    ((runCalls rs cnt u).flatMap items).Perm (List.range cnt) := by
  rw [List.perm_iff_count]
  intro k
  rw [count_flatMap_items, run_processes_each_item_once rs cnt u hok]
  by_cases h : k < cnt
  · rw [if_pos h]; exact (List.count_eq_one_of_mem List.nodup_range (List.mem_range.2 h)).symm
  · rw [if_neg h]; exact (List.count_eq_zero_of_not_mem (by simpa using h)).symm

/-- What the temporary storage of `_processMtx_cw` holds after all threads finished: the vector of thread `t` is what its kernel
computes for its columns, whatever the interleaving. -/
theorem cwThreads_result (rs : List ParRange) (hok : RangesOk rs) (A : Mtx α) (per : Nat)
    (kernel : Nat → Nat → List (Step σ)) (hker : ∀ cb ce, ∀ s ∈ kernel cb ce, s.1 < A.rows)
    {w : List (Step σ)} (h : Interleaves (cwThreads rs A per kernel) w) (tmp0 : Nat → σ) (r : Nat) (hr : r < A.rows) (t : Nat)
    (ht : t < (runCalls rs A.cols (threadsForCols per A.cols (rs.length + 1))).length) :
    runSteps tmp0 w (r + A.rows * t) =
      (((kernel (runCalls rs A.cols (threadsForCols per A.cols (rs.length + 1)))[t].offset
        ((runCalls rs A.cols (threadsForCols per A.cols (rs.length + 1)))[t].offset +
         (runCalls rs A.cols (threadsForCols per A.cols (rs.length + 1)))[t].cnt)).filter fun s => s.1 == r).map (·.2)).foldl
        (fun v f => f v) (tmp0 (r + A.rows * t)) := by
  have htid := (run_tids rs A.cols (threadsForCols per A.cols (rs.length + 1)) hok).1
  generalize hcalls : runCalls rs A.cols (threadsForCols per A.cols (rs.length + 1)) = calls at *
  have htid' : ∀ (i : Nat) (hi : i < calls.length), calls[i].tid = i := by
    intro i hi
    have h1 := congrArg (fun l => l[i]?) htid
    simp only [List.getElem?_map] at h1
    have hlen := congrArg List.length htid
    simp only [List.length_map, List.length_range] at hlen
    rw [List.getElem?_eq_getElem hi, List.getElem?_eq_getElem (by rw [List.length_range]; omega)] at h1
    simpa using h1
  have hlt : (cwThreads rs A per kernel).length = calls.length := by unfold cwThreads; rw [hcalls]; simp
  have hget : ∀ (i : Nat) (hi : i < (cwThreads rs A per kernel).length), (cwThreads rs A per kernel)[i] =
      (kernel (calls[i]'(hlt ▸ hi)).offset ((calls[i]'(hlt ▸ hi)).offset + (calls[i]'(hlt ▸ hi)).cnt)).map
        fun s => (A.rows * i + s.1, s.2) := by
    intro i hi
    have := htid' i (hlt ▸ hi)
    simp only [cwThreads, hcalls, List.getElem_map, this]
  have hR : 0 < A.rows := by omega
  have hown : (r + A.rows * t) / A.rows = t := by
    rw [Nat.add_mul_div_left _ _ hR, Nat.div_eq_of_lt hr, Nat.zero_add]
  have hkey := interleaves_owner h (fun k => k / A.rows) (by
    intro i hi s hs
    rw [hget i hi] at hs
    obtain ⟨s', hs', rfl⟩ := List.mem_map.1 hs
    have := hker _ _ s' hs'
    show (A.rows * i + s'.1) / A.rows = i
    rw [Nat.mul_add_div hR, Nat.div_eq_of_lt this, Nat.add_zero]) (r + A.rows * t) (by rw [hown, hlt]; exact ht)
  rw [runSteps_at, atCell, hkey]
  simp only [hown]
  rw [hget t (by omega), List.filter_map, List.foldl_map, List.foldl_map]
  have : ((fun s : Step σ => s.1 == r + A.rows * t) ∘ fun s : Step σ => (A.rows * t + s.1, s.2)) = fun s => s.1 == r := by
    funext s
    simp only [Function.comp]
    by_cases hs : s.1 = r
    · rw [hs, Nat.add_comm]; simp
    · have : ¬ (A.rows * t + s.1 = r + A.rows * t) := by omega
      simp [this, hs]
  rw [this]

/-! Folds -/

theorem fold_max [LinearOrder α] (f : Nat → α) (v : α) (lo hi : Nat) (hlo : lo < hi)
    (h0 : v = f lo) : ∃ i, IsFirstMax f lo hi i ∧
      (List.range' (lo + 1) (hi - (lo + 1))).foldl (fun v c => opIdx c (f c) v) (v, lo) = (f i, i) := by
  have key : ∀ (n m i0 : Nat), IsFirstMax f lo m i0 → ∃ i, IsFirstMax f lo (m + n) i ∧
      (List.range' m n).foldl (fun v c => opIdx c (f c) v) (f i0, i0) = (f i, i) := by
    intro n
    induction n with
    | zero => intro m i0 h; exact ⟨i0, h, rfl⟩
    | succ n ih =>
      intro m i0 h
      obtain ⟨h1, h2, h3, h4⟩ := h
      rw [List.range'_succ, List.foldl_cons]
      unfold opIdx
      by_cases hgt : f m > f i0
      · obtain ⟨i, hi, he⟩ := ih (m + 1) m ⟨by omega, by omega, by
          intro j hj1 hj2
          rcases Nat.lt_or_ge j m with h5 | h5
          · exact le_trans (h3 j hj1 h5) (le_of_lt hgt)
          · have : j = m := by omega
            rw [this], by
          intro j hj1 hj2
          exact lt_of_le_of_lt (h3 j hj1 hj2) hgt⟩
        rw [if_pos hgt]
        refine ⟨i, ?_, he⟩
        rwa [show m + (n + 1) = m + 1 + n by omega]
      · obtain ⟨i, hi, he⟩ := ih (m + 1) i0 ⟨h1, by omega, by
          intro j hj1 hj2
          rcases Nat.lt_or_ge j m with h5 | h5
          · exact h3 j hj1 h5
          · have : j = m := by omega
            rw [this]; exact le_of_not_gt hgt, h4⟩
        rw [if_neg hgt]
        refine ⟨i, ?_, he⟩
        rwa [show m + (n + 1) = m + 1 + n by omega]
  obtain ⟨i, hi', he⟩ := key (hi - (lo + 1)) (lo + 1) lo ⟨Nat.le_refl _, by omega, by
    intro j h1 h2; have : j = lo := by omega
    rw [this], by intro j h1 h2; omega⟩
  refine ⟨i, ?_, ?_⟩
  · rwa [show lo + 1 + (hi - (lo + 1)) = hi by omega] at hi'
  · rw [h0]; exact he

theorem fold_opMax [LinearOrder α] (f : Nat → α) : ∀ (l : List Nat) (v : α) (i : Nat),
    (l.foldl (fun v c => opIdx c (f c) v) (v, i)).1 = l.foldl (fun v c => opMax c (f c) v) v := by
  intro l
  induction l with
  | nil => intro v i; rfl
  | cons c l ih =>
    intro v i
    rw [List.foldl_cons, List.foldl_cons]
    unfold opIdx opMax
    by_cases h : f c > v
    · rw [if_pos h, if_pos h]; exact ih _ _
    · rw [if_neg h, if_neg h]; exact ih _ _

theorem fold_max_val [LinearOrder α] (f : Nat → α) (n : Nat) (hn : 0 < n) :
    IsMaxOf f n ((List.range' 1 (n - 1)).foldl (fun v c => opMax c (f c) v) (f 0)) := by
  obtain ⟨i, hi, he⟩ := fold_max f (f 0) 0 n hn rfl
  have := fold_opMax f (List.range' 1 (n - 1)) (f 0) 0
  rw [← this]
  simp only [Nat.zero_add] at he
  rw [he]
  exact ⟨⟨i, hi.2.1, rfl⟩, fun j hj => hi.2.2.1 j (Nat.zero_le _) hj⟩

theorem fold_sum [AddCommMonoid α] (f : Nat → α) : ∀ (l : List Nat) (v : α),
    l.foldl (fun v c => opSum c (f c) v) v = v + (l.map f).sum := by
  intro l
  induction l with
  | nil => intro v; simp
  | cons c l ih => intro v; rw [List.foldl_cons, ih, List.map_cons, List.sum_cons, opSum, add_assoc]

theorem range_split (n : Nat) (hn : 0 < n) : List.range n = 0 :: List.range' 1 (n - 1) := by
  rw [List.range_eq_range', show n = n - 1 + 1 by omega, List.range'_succ]
  simp

/-- The merge picks `best` or one of the merged elements, and the one picked is not below any of them. -/
theorem idxMerge_spec [LinearOrder α] (tmp : Nat → α × Nat) (rm r : Nat) (n : Nat) : ∀ (t0 : Nat) (best : α × Nat),
    (idxMerge tmp rm n (rm * t0) r best = best ∨
      ∃ t, t0 ≤ t ∧ t < t0 + n ∧ idxMerge tmp rm n (rm * t0) r best = tmp (r + rm * t)) ∧
      best.1 ≤ (idxMerge tmp rm n (rm * t0) r best).1 ∧
      ∀ s, t0 ≤ s → s < t0 + n → (tmp (r + rm * s)).1 ≤ (idxMerge tmp rm n (rm * t0) r best).1 := by
  induction n with
  | zero => intro t0 best; exact ⟨Or.inl rfl, le_refl _, fun s h1 h2 => by omega⟩
  | succ n ih =>
    intro t0 best
    have he : rm * t0 + rm = rm * (t0 + 1) := by rw [Nat.mul_add, Nat.mul_one]
    rw [idxMerge, he, Nat.add_comm (rm * t0) r]
    by_cases h : (tmp (r + rm * t0)).1 > best.1
    · rw [if_pos h]
      obtain ⟨h1, h2, h3⟩ := ih (t0 + 1) (tmp (r + rm * t0))
      refine ⟨Or.inr ?_, le_trans (le_of_lt h) h2, ?_⟩
      · rcases h1 with h1 | ⟨t, ht1, ht2, h1⟩
        · exact ⟨t0, Nat.le_refl _, by omega, h1⟩
        · exact ⟨t, by omega, by omega, h1⟩
      · intro s hs1 hs2
        rcases Nat.lt_or_ge s (t0 + 1) with h4 | h4
        · have : s = t0 := by omega
          rw [this]; exact h2
        · exact h3 s h4 (by omega)
    · rw [if_neg h]
      obtain ⟨h1, h2, h3⟩ := ih (t0 + 1) best
      refine ⟨?_, h2, ?_⟩
      · rcases h1 with h1 | ⟨t, ht1, ht2, h1⟩
        · exact Or.inl h1
        · exact Or.inr ⟨t, by omega, by omega, h1⟩
      · intro s hs1 hs2
        rcases Nat.lt_or_ge s (t0 + 1) with h4 | h4
        · have : s = t0 := by omega
          rw [this]; exact le_trans (le_of_not_gt h) h2
        · exact h3 s h4 (by omega)

end Nntl.Kernel
