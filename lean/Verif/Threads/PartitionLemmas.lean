import Verif.Threads.PartitionModel
namespace Nntl.Threads

/-- Closed form of the running offset after `i` workers. -/
def pre (each residual i : Nat) : Nat := i * each + min i residual

theorem pre_succ (e r i : Nat) : pre e r (i + 1) = pre e r i + (e + if i < r then 1 else 0) := by
  unfold pre
  have : (i + 1) * e = i * e + e := Nat.succ_mul i e
  split <;> omega

theorem pre_mono (e r : Nat) {i j : Nat} (h : i ≤ j) : pre e r i ≤ pre e r j := by
  unfold pre
  have := Nat.mul_le_mul_right e h
  omega

theorem partLoop_eq (w e res : Nat) :
    ∀ (rs : List ParRange) (i : Nat), i ≤ w → rs.map (·.tid) = (List.range' (i + 1) rs.length) →
      w ≤ i + rs.length →
      (partLoop w e res i (pre e res i) rs).1.filter (fun r => r.cnt ≠ 0)
        = ((List.range' i (w - i)).map
            (fun j => (⟨pre e res j, e + (if j < res then 1 else 0), j + 1⟩ : ParRange))).filter (fun r => r.cnt ≠ 0)
      ∧ (partLoop w e res i (pre e res i) rs).2 = pre e res w := by
  intro rs
  induction rs with
  | nil =>
    intro i hi _ hw
    have : i = w := by simp at hw; omega
    subst this
    simp [partLoop]
  | cons r rs ih =>
    intro i hi ht hw
    have htl : rs.map (·.tid) = List.range' (i + 1 + 1) rs.length := by
      simp [List.range'_succ] at ht; exact ht.2
    have hr : r.tid = i + 1 := by simp [List.range'_succ] at ht; exact ht.1
    by_cases hiw : i ≥ w
    · -- all the rest gets nothing
      have hiw' : i = w := by omega
      subst hiw'
      have key : ∀ (rs : List ParRange) (k : Nat), i ≤ k →
          (partLoop i e res k (pre e res i) rs).1.filter (fun r => r.cnt ≠ 0) = [] ∧
          (partLoop i e res k (pre e res i) rs).2 = pre e res i := by
        intro rs
        induction rs with
        | nil => intro k _; simp [partLoop]
        | cons a as ih2 =>
          intro k hk
          have := ih2 (k + 1) (by omega)
          simp only [partLoop, ge_iff_le, hk, if_true]
          simpa using this
      have := key (r :: rs) i (Nat.le_refl _)
      simpa using this
    · have hlt : i < w := by omega
      have hih := ih (i + 1) (by omega) htl (by simp at hw; omega)
      rw [pre_succ] at hih
      simp only [partLoop, ge_iff_le, hiw, if_false]
      have hsplit : w - i = (w - (i + 1)) + 1 := by omega
      rw [hsplit, List.range'_succ]
      refine ⟨?_, hih.2⟩
      have e1 : ({ offset := pre e res i, cnt := e + (if i < res then 1 else 0), tid := r.tid } : ParRange)
          = ⟨pre e res i, e + (if i < res then 1 else 0), i + 1⟩ := by rw [hr]
      rw [e1, List.map_cons, List.filter_cons, List.filter_cons, hih.1]

theorem useNThreads_le (n : Nat) (u : Int) : useNThreads n u ≤ n := by
  unfold useNThreads; split <;> omega

theorem workingCnt_le (n cnt : Nat) (u : Int) : workingCnt n cnt u ≤ n := by
  have := useNThreads_le n u
  unfold workingCnt; split <;> omega

theorem workingCnt_lt (n cnt : Nat) (u : Int) (h : 1 < cnt) : workingCnt n cnt u + 1 ≤ cnt := by
  unfold workingCnt; split <;> omega

/-- Total number of items before `w+1` ranges is the whole. -/
theorem pre_total (cnt w : Nat) : pre (cnt / (w + 1)) (cnt % (w + 1)) (w + 1) = cnt := by
  unfold pre
  have h1 : cnt % (w + 1) < w + 1 := Nat.mod_lt _ (by omega)
  have h2 := Nat.div_add_mod cnt (w + 1)
  have : min (w + 1) (cnt % (w + 1)) = cnt % (w + 1) := by omega
  rw [this]; exact h2

/-- Explicit form of the calls made by `run()`. -/
theorem runCalls_eq (ranges : List ParRange) (cnt : Nat) (u : Int) (hok : RangesOk ranges) (hc : 1 < cnt) :
    let w := workingCnt ranges.length cnt u
    let e := cnt / (w + 1)
    let s := cnt % (w + 1)
    runCalls ranges cnt u =
      ⟨pre e s w, cnt - pre e s w, 0⟩ ::
        (List.range w).map (fun j => ⟨pre e s j, e + (if j < s then 1 else 0), j + 1⟩) := by
  intro w e s
  have hw : w ≤ ranges.length := workingCnt_le _ _ _
  have hw1 : w + 1 ≤ cnt := workingCnt_lt _ _ _ hc
  have ht : ranges.map (·.tid) = List.range' (0 + 1) ranges.length := hok
  have h := partLoop_eq w e s ranges 0 (by omega) ht (by omega)
  have h0 : pre e s 0 = 0 := by simp [pre]
  rw [h0] at h
  have hcnt : ¬ cnt ≤ 1 := by omega
  have epos : 0 < e := Nat.div_pos hw1 (by omega)
  unfold runCalls partitionCountToWorkers
  simp only [hcnt, if_false]
  rw [show workingCnt ranges.length cnt u = w from rfl]
  rw [show cnt / (w + 1) = e from rfl, show cnt % (w + 1) = s from rfl]
  rw [h.2, h.1]
  congr 1
  rw [List.filter_eq_self.2]
  · simp [List.range_eq_range']
  · intro a ha
    simp only [List.mem_map] at ha
    obtain ⟨j, _, rfl⟩ := ha
    simp only [ne_eq, decide_eq_true_eq]
    omega

end Nntl.Threads
