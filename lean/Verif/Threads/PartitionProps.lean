import Verif.Threads.PartitionLemmas
/-!
C01: `threads.run(f, cnt, useNThreads)` splits `[0,cnt)` exactly.
-/
namespace Nntl.Threads

/-- Item `k` is processed by a call of the functor with range `r`. -/
def ParRange.covers (r : ParRange) (k : Nat) : Prop := r.offset ≤ k ∧ k < r.offset + r.cnt

/-- Number of times item `k` is processed by a list of functor calls. -/
def timesProcessed (calls : List ParRange) (k : Nat) : Nat :=
  calls.countP (fun r => decide (r.offset ≤ k) && decide (k < r.offset + r.cnt))

theorem initRanges_ok (n : Nat) : RangesOk (initRanges n) := by
  unfold RangesOk initRanges
  simp only [List.map_map, List.length_map, List.length_range]
  rw [List.range_eq_range', List.range'_eq_map_range, List.range_eq_range', List.map_map]
  apply List.ext_getElem <;> simp
  omega

/-- Thread ids of the ranges never change. -/
theorem partition_ok (ranges : List ParRange) (cnt : Nat) (u : Int) (h : RangesOk ranges) :
    RangesOk (partitionCountToWorkers ranges cnt u).1 := by
  have key : ∀ (rs : List ParRange) (w e s i p : Nat),
      (partLoop w e s i p rs).1.map (·.tid) = rs.map (·.tid) := by
    intro rs
    induction rs with
    | nil => intros; simp [partLoop]
    | cons r rs ih => intro w e s i p; simp only [partLoop]; split <;> simp [ih]
  unfold RangesOk partitionCountToWorkers at *
  have hl := congrArg List.length (key ranges (workingCnt ranges.length cnt u)
    (cnt / (workingCnt ranges.length cnt u + 1)) (cnt % (workingCnt ranges.length cnt u + 1)) 0 0)
  simp only [List.length_map] at hl
  simp only [key, hl, h]

/-- `pre` splits: item `k < pre (m)` lies in exactly one of the first `m` ranges. -/
private theorem count_pre (e s k : Nat) :
    ∀ m, ((List.range m).map (fun j => (⟨pre e s j, e + (if j < s then 1 else 0), j + 1⟩ : ParRange))).countP
      (fun r => decide (r.offset ≤ k) && decide (k < r.offset + r.cnt)) = if k < pre e s m then 1 else 0 := by
  intro m
  induction m with
  | zero => simp [pre]
  | succ m ih =>
    rw [List.range_succ, List.map_append, List.countP_append, ih]
    simp only [List.map_cons, List.map_nil, List.countP_cons, List.countP_nil]
    have hm := pre_succ e s m
    rw [hm]
    generalize pre e s m = a at *
    generalize (e + if m < s then 1 else 0) = b at *
    by_cases h1 : k < a <;> by_cases h2 : k < a + b <;> simp [h1, h2] <;> omega

/-- **C01a.** Every item of `[0,cnt)` is processed exactly once, items outside are never touched. -/
theorem run_processes_each_item_once (ranges : List ParRange) (cnt : Nat) (useN : Int)
    (hok : RangesOk ranges) (k : Nat) :
    timesProcessed (runCalls ranges cnt useN) k = if k < cnt then 1 else 0 := by
  by_cases hc : 1 < cnt
  · have h := runCalls_eq ranges cnt useN hok hc
    simp only at h
    rw [h]
    generalize hw : workingCnt ranges.length cnt useN = w
    have htot := pre_total cnt w
    rw [pre_succ] at htot
    unfold timesProcessed
    rw [List.countP_cons, count_pre]
    dsimp only
    generalize pre (cnt / (w + 1)) (cnt % (w + 1)) w = a at *
    generalize (cnt / (w + 1) + if w < cnt % (w + 1) then 1 else 0) = b at htot
    by_cases h1 : k < a <;> by_cases h2 : k < cnt <;> simp [h1, h2] <;> omega
  · have hc' : cnt ≤ 1 := by omega
    simp [runCalls, hc', timesProcessed, List.countP_cons]

/-- **C01b.** No call gets an empty range and none reaches past `cnt`. -/
theorem run_ranges_nonempty_in_bounds (ranges : List ParRange) (cnt : Nat) (useN : Int)
    (hok : RangesOk ranges) (hpos : 0 < cnt) :
    ∀ r ∈ runCalls ranges cnt useN, 0 < r.cnt ∧ r.offset + r.cnt ≤ cnt := by
  by_cases hc : 1 < cnt
  · have h := runCalls_eq ranges cnt useN hok hc
    simp only at h
    rw [h]
    have hw1 := workingCnt_lt ranges.length cnt useN hc
    generalize hw : workingCnt ranges.length cnt useN = w at *
    have htot := pre_total cnt w
    have epos : 0 < cnt / (w + 1) := Nat.div_pos hw1 (by omega)
    intro r hr
    simp only [List.mem_cons, List.mem_map, List.mem_range] at hr
    rcases hr with rfl | ⟨j, hj, rfl⟩
    · have := pre_succ (cnt / (w + 1)) (cnt % (w + 1)) w
      dsimp only
      omega
    · have h1 := pre_succ (cnt / (w + 1)) (cnt % (w + 1)) j
      have h2 := pre_mono (cnt / (w + 1)) (cnt % (w + 1)) (i := j + 1) (j := w + 1) (by omega)
      dsimp only
      omega
  · have : cnt = 1 := by omega
    subst this
    intro r hr
    simp [runCalls] at hr
    subst hr; simp

/-- **C01c.** Loads differ by at most one item. -/
theorem run_ranges_balanced (ranges : List ParRange) (cnt : Nat) (useN : Int) (hok : RangesOk ranges) :
    ∀ r ∈ runCalls ranges cnt useN, ∀ r' ∈ runCalls ranges cnt useN, r.cnt ≤ r'.cnt + 1 := by
  by_cases hc : 1 < cnt
  · have h := runCalls_eq ranges cnt useN hok hc
    simp only at h
    rw [h]
    generalize hw : workingCnt ranges.length cnt useN = w
    have htot := pre_total cnt w
    rw [pre_succ] at htot
    have key : ∀ r ∈ ((⟨pre (cnt / (w + 1)) (cnt % (w + 1)) w, cnt - pre (cnt / (w + 1)) (cnt % (w + 1)) w, 0⟩ : ParRange) ::
        (List.range w).map (fun j => (⟨pre (cnt / (w + 1)) (cnt % (w + 1)) j,
          cnt / (w + 1) + (if j < cnt % (w + 1) then 1 else 0), j + 1⟩ : ParRange))),
        cnt / (w + 1) ≤ r.cnt ∧ r.cnt ≤ cnt / (w + 1) + 1 := by
      intro r hr
      simp only [List.mem_cons, List.mem_map, List.mem_range] at hr
      rcases hr with rfl | ⟨j, hj, rfl⟩
      · dsimp only
        generalize pre (cnt / (w + 1)) (cnt % (w + 1)) w = a at *
        generalize cnt / (w + 1) = b at *
        generalize cnt % (w + 1) = c at *
        split at htot <;> omega
      · dsimp only
        generalize cnt / (w + 1) = b at *
        split <;> omega
    intro r hr r' hr'
    have a := key r hr
    have b := key r' hr'
    omega
  · have hc' : cnt ≤ 1 := by omega
    intro r hr r' hr'
    simp [runCalls, hc'] at hr hr'
    subst hr; subst hr'; simp

/-- **C01d.** Calls carry the thread ids `0,1,…,used-1`, where `used` is the reported number of threads, and
`used` is at most the pool size (main thread included). -/
theorem run_tids (ranges : List ParRange) (cnt : Nat) (useN : Int) (hok : RangesOk ranges) :
    (runCalls ranges cnt useN).map (·.tid) = List.range (threadsUsed ranges.length cnt useN)
    ∧ threadsUsed ranges.length cnt useN ≤ ranges.length + 1 := by
  by_cases hc : 1 < cnt
  · have h := runCalls_eq ranges cnt useN hok hc
    simp only at h
    rw [h]
    have hc' : ¬ cnt ≤ 1 := by omega
    unfold threadsUsed
    simp only [hc', if_false]
    refine ⟨?_, by have := workingCnt_le ranges.length cnt useN; omega⟩
    rw [List.map_cons, List.map_map, List.range_succ_eq_map]
    rfl
  · have hc' : cnt ≤ 1 := by omega
    simp [runCalls, hc', threadsUsed, List.range_succ]

/-- **C01e.** An in-range `useNThreads` request is an upper bound on the threads used, and it is exact when there is
enough work. -/
theorem run_respects_useN (workers cnt : Nat) (useN : Int) (h1 : 1 < useN) (h2 : useN ≤ workers + 1) (hc : 1 < cnt) :
    (threadsUsed workers cnt useN : Int) = min useN cnt := by
  unfold threadsUsed workingCnt useNThreads
  simp only [h1, h2, and_self, if_true]
  split
  · omega
  · split <;> omega

/- Non-vacuity: a pool with 3 workers, after an earlier call, asked to process 10 items. -/
example : RangesOk (partitionCountToWorkers (initRanges 3) 7 0).1 := partition_ok _ _ _ (initRanges_ok 3)
example : runCalls (initRanges 3) 10 0 = [⟨8, 2, 0⟩, ⟨0, 3, 1⟩, ⟨3, 3, 2⟩, ⟨6, 2, 3⟩] := by decide
example : runCalls (initRanges 3) 10 2 = [⟨5, 5, 0⟩, ⟨0, 5, 1⟩] := by decide
example : runCalls (partitionCountToWorkers (initRanges 3) 7 0).1 2 0 = [⟨1, 1, 0⟩, ⟨0, 1, 1⟩] := by decide

end Nntl.Threads
