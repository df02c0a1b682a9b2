import Verif.Threads.PoolModel
import Verif.Threads.PartitionProps
namespace Nntl.Threads

/-! ### Finite sums over worker indices -/

def sumN (n : Nat) (f : Nat → Nat) : Nat :=
  match n with
  | 0 => 0
  | n + 1 => sumN n f + f n

theorem sumN_congr {n : Nat} {f g : Nat → Nat} (h : ∀ j, j < n → f j = g j) : sumN n f = sumN n g := by
  induction n with
  | zero => rfl
  | succ n ih => simp only [sumN]; rw [ih (fun j hj => h j (by omega)), h n (by omega)]

theorem sumN_update {n i : Nat} {f g : Nat → Nat} (hi : i < n) (h : ∀ j, j < n → j ≠ i → f j = g j) :
    sumN n f + g i = sumN n g + f i := by
  induction n with
  | zero => omega
  | succ n ih =>
    simp only [sumN]
    by_cases hin : i = n
    · subst hin
      rw [sumN_congr (f := f) (g := g) (fun j hj => h j (by omega) (by omega))]; omega
    · have := ih (by omega) (fun j hj => h j (by omega))
      rw [h n (by omega) (fun e => hin e.symm)]; omega

theorem sumN_le {n : Nat} {f g : Nat → Nat} (h : ∀ j, j < n → f j ≤ g j) : sumN n f ≤ sumN n g := by
  induction n with
  | zero => simp [sumN]
  | succ n ih => simp only [sumN]; have := ih (fun j hj => h j (by omega)); have := h n (by omega); omega

theorem sumN_le_mul {n k : Nat} {f g : Nat → Nat} (h : ∀ j, j < n → f j ≤ g j + k) :
    sumN n f ≤ sumN n g + n * k := by
  induction n with
  | zero => simp [sumN]
  | succ n ih =>
    simp only [sumN]; have := ih (fun j hj => h j (by omega)); have := h n (by omega)
    rw [Nat.succ_mul]; omega

theorem sumN_zero {n : Nat} {f : Nat → Nat} : sumN n f = 0 ↔ ∀ j, j < n → f j = 0 := by
  induction n with
  | zero => simp [sumN]
  | succ n ih =>
    simp only [sumN, Nat.add_eq_zero_iff, ih]
    constructor
    · rintro ⟨h1, h2⟩ j hj
      by_cases e : j = n
      · exact e ▸ h2
      · exact h1 j (by omega)
    · intro h; exact ⟨fun j hj => h j (by omega), h n (by omega)⟩

theorem sumN_pos {n : Nat} {f : Nat → Nat} (h : 0 < sumN n f) : ∃ j, j < n ∧ f j ≠ 0 := by
  apply Classical.byContradiction
  intro hc
  have : sumN n f = 0 := sumN_zero.2 (fun j hj => Classical.byContradiction (fun h' => hc ⟨j, hj, h'⟩))
  omega

/-- `sumN` counts a list built over `range`. -/
theorem sumN_eq_count [DecidableEq α] (n : Nat) (f : Nat → α) (a : α) :
    ((List.range n).map f).count a = sumN n (fun i => if f i = a then 1 else 0) := by
  induction n with
  | zero => rfl
  | succ n ih =>
    rw [List.range_succ, List.map_append, List.count_append, ih]
    simp only [sumN, List.map_cons, List.map_nil, List.count_cons, List.count_nil, beq_iff_eq]
    omega

theorem sumN_split {w n : Nat} {f : Nat → Nat} (hw : w ≤ n) (h : ∀ j, w ≤ j → j < n → f j = 0) :
    sumN n f = sumN w f := by
  induction n with
  | zero => have : w = 0 := by omega
            subst this; rfl
  | succ n ih =>
    by_cases e : w = n + 1
    · subst e; rfl
    · simp only [sumN]; rw [ih (by omega) (fun j h1 h2 => h j h1 (by omega)), h n (by omega) (by omega)]; rfl

/-! ### What the partitioning stores into the range of worker `i` -/

/-- Range planned for worker `i` (thread id `i+1`). -/
def plan (n cnt : Nat) (u : Int) (i : Nat) : ParRange :=
  let w := workingCnt n cnt u
  ⟨pre (cnt / (w + 1)) (cnt % (w + 1)) i, cnt / (w + 1) + (if i < cnt % (w + 1) then 1 else 0), i + 1⟩

/-- Range the main thread keeps. -/
def planMain (n cnt : Nat) (u : Int) : ParRange :=
  let w := workingCnt n cnt u
  ⟨pre (cnt / (w + 1)) (cnt % (w + 1)) w, cnt - pre (cnt / (w + 1)) (cnt % (w + 1)) w, 0⟩

theorem partLoop_get (w e s : Nat) : ∀ (rs : List ParRange) (k p i : Nat), k ≤ w → p = pre e s k → 
    (h : i < rs.length) →
    (partLoop w e s k p rs).1[i]? =
      some (if k + i < w then { rs[i] with offset := pre e s (k + i), cnt := e + (if k + i < s then 1 else 0) }
        else { rs[i] with cnt := 0 }) := by
  have key : ∀ (rs : List ParRange) (k p i : Nat), w ≤ k → (h : i < rs.length) →
      (partLoop w e s k p rs).1[i]? = some { rs[i] with cnt := 0 } := by
    intro rs
    induction rs with
    | nil => intro k p i _ h; simp at h
    | cons r rs ih =>
      intro k p i hk h
      simp only [partLoop, ge_iff_le, hk, if_true]
      cases i with
      | zero => simp
      | succ i => simpa using ih (k + 1) p i (by omega) (by simpa using h)
  intro rs
  induction rs with
  | nil => intro k p i _ _ h; simp at h
  | cons r rs ih =>
    intro k p i hk hp h
    by_cases hkw : k < w
    · have h1 : ¬ w ≤ k := by omega
      simp only [partLoop, ge_iff_le, h1, if_false]
      cases i with
      | zero => simp [hkw, hp]
      | succ i =>
        have := ih (k + 1) (p + (e + if k < s then 1 else 0)) i hkw (by rw [hp, pre_succ]) (by simpa using h)
        simp only [List.getElem?_cons_succ, List.getElem_cons_succ]
        rw [this]
        have e1 : k + 1 + i = k + (i + 1) := by omega
        rw [e1]
    · rw [key (r :: rs) k p i (by omega) h]
      have : ¬ k + i < w := by omega
      simp [this]

theorem partition_get (ranges : Nat → ParRange) (n cnt : Nat) (u : Int) (ht : ∀ i, i < n → (ranges i).tid = i + 1)
    (i : Nat) (hi : i < n) :
    ((partitionCountToWorkers ((List.range n).map ranges) cnt u).1[i]?).getD (ranges i) =
      if i < workingCnt n cnt u then plan n cnt u i else { ranges i with cnt := 0 } := by
  unfold partitionCountToWorkers
  simp only [List.length_map, List.length_range]
  rw [partLoop_get _ _ _ _ 0 0 i (by omega) (by simp [pre]) (by simpa using hi)]
  simp only [List.getElem_map, List.getElem_range, Option.getD_some, Nat.zero_add]
  split
  · simp [plan, ht i hi]
  · rfl

theorem rangesOk_of_tid (ranges : Nat → ParRange) (n : Nat) (ht : ∀ i, i < n → (ranges i).tid = i + 1) :
    RangesOk ((List.range n).map ranges) := by
  unfold RangesOk
  simp only [List.map_map, List.length_map, List.length_range]
  apply List.ext_getElem
  · simp
  · intro i h1 h2
    simp at h1
    simp [ht i h1]
    omega

theorem partition_main (ranges : Nat → ParRange) (n cnt : Nat) (u : Int)
    (ht : ∀ i, i < n → (ranges i).tid = i + 1) :
    (partitionCountToWorkers ((List.range n).map ranges) cnt u).2 = (planMain n cnt u).offset := by
  have hok := rangesOk_of_tid ranges n ht
  have hw : workingCnt n cnt u ≤ n := workingCnt_le _ _ _
  have := (partLoop_eq (workingCnt n cnt u) (cnt / (workingCnt n cnt u + 1)) (cnt % (workingCnt n cnt u + 1))
    ((List.range n).map ranges) 0 (by omega) hok (by simpa using hw)).2
  have h0 : ∀ e s, pre e s 0 = 0 := by intro e s; simp [pre]
  rw [h0] at this
  simpa [partitionCountToWorkers, planMain] using this

theorem plan_cnt_pos (n cnt : Nat) (u : Int) (i : Nat) (hc : 1 < cnt) : (plan n cnt u i).cnt ≠ 0 := by
  have hw1 := workingCnt_lt n cnt u hc
  have : 0 < cnt / (workingCnt n cnt u + 1) := Nat.div_pos hw1 (by omega)
  simp only [plan]; omega

/-- The functor calls of one user call, as specified by C01's `runCalls`; `reduce` additionally runs inline when
asked for one thread. -/
def callsOf (n : Nat) (c : Call) : List ParRange :=
  if c.inlined then [{ offset := 0, cnt := c.cnt, tid := 0 }] else runCalls (initRanges n) c.cnt c.useN

theorem inlined_false {c : Call} (h : c.inlined = false) : 1 < c.cnt := by
  unfold Call.inlined at h
  split at h <;> simp at h <;> omega

theorem callsOf_eq (n : Nat) (c : Call) (h : c.inlined = false) :
    callsOf n c = planMain n c.cnt c.useN :: (List.range (workingCnt n c.cnt c.useN)).map (plan n c.cnt c.useN) := by
  have h1 := runCalls_eq (initRanges n) c.cnt c.useN (initRanges_ok n) (inlined_false h)
  have hl : (initRanges n).length = n := by simp [initRanges]
  simp only [hl] at h1
  simp only [callsOf, h, Bool.false_eq_true, if_false, h1]
  rfl

end Nntl.Threads
