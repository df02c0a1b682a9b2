import Verif.Norm.Spec
import Mathlib.Tactic.Ring
/-! The kernels change every number once; accumulated statistics are the composition of the steps. -/
namespace Nntl.Norm
open Nntl.Kernel Nntl.Matrix Nntl.Threads
variable {K : Type} [Field K] [LinearOrder K]

theorem cell_div {rows r : Nat} (c : Nat) (h : r < rows) : (r + rows * c) / rows = c ∧ (r + rows * c) % rows = r := by
  constructor
  · rw [Nat.add_mul_div_left _ _ (by omega), Nat.div_eq_of_lt h, Nat.zero_add]
  · rw [Nat.add_mul_mod_self_left, Nat.mod_eq_of_lt h]

theorem Changed.of_cells {f : Nat → K → K} {m : Mtx K} (hp : Proper m) (d : Nat → K)
    (h : ∀ k, d k = if k / m.rows < m.colsNoBias ∧ k % m.rows < m.rowsNoBias then f (k / m.rows) (m.data k) else m.data k) :
    Changed f m { m with data := d } where
  shape := rfl
  elems := by
    intro r c hr hc
    have hle : m.rowsNoBias ≤ m.rows := Nat.sub_le _ _
    obtain ⟨h1, h2⟩ := cell_div c (show r < m.rows by omega)
    show d (r + m.rows * c) = _
    rw [h, h1, h2, if_pos ⟨hc, hr⟩]; rfl
  rest := by
    intro k hk
    show d k = _
    rw [h, if_neg]
    rintro ⟨h1, h2⟩
    refine hk _ _ h2 h1 ?_
    have := Nat.mod_add_div k m.rows
    exact this.symm

theorem Changed.refl (m : Mtx K) : Changed (fun _ v => v) m m := ⟨rfl, fun _ _ _ _ => rfl, fun _ _ => rfl⟩

theorem Changed.congr {f g : Nat → K → K} {m m' : Mtx K} (h : Changed f m m') (hfg : ∀ c v, f c v = g c v) : Changed g m m' :=
  ⟨h.shape, fun r c hr hc => by rw [h.elems r c hr hc, hfg], h.rest⟩

theorem Changed.dims {f : Nat → K → K} {m m' : Mtx K} (h : Changed f m m') :
    m'.rows = m.rows ∧ m'.rowsNoBias = m.rowsNoBias ∧ m'.colsNoBias = m.colsNoBias ∧ m'.bir = m.bir := by
  rw [h.shape]; exact ⟨rfl, rfl, rfl, rfl⟩

theorem Changed.proper {f : Nat → K → K} {m m' : Mtx K} (h : Changed f m m') (hp : Proper m) : Proper m' := by
  obtain ⟨_, h2, h3, _⟩ := h.dims
  exact ⟨h2 ▸ hp.1, h3 ▸ hp.2⟩

theorem Changed.trans {f g : Nat → K → K} {m m1 m2 : Mtx K} (h : Changed f m m1) (h' : Changed g m1 m2) :
    Changed (fun c v => g c (f c v)) m m2 := by
  obtain ⟨e1, e2, e3, _⟩ := h.dims
  have hcell : ∀ r c, m1.cell r c = m.cell r c := fun r c => by unfold Mtx.cell; rw [e1]
  refine ⟨?_, ?_, ?_⟩
  · rw [h'.shape, h.shape]
  · intro r c hr hc
    have := h'.elems r c (e2 ▸ hr) (e3 ▸ hc)
    rw [hcell, h.elems r c hr hc] at this
    exact this
  · intro k hk
    rw [h'.rest k (fun r c hr hc => by rw [hcell]; exact hk r c (e2 ▸ hr) (e3 ▸ hc)), h.rest k hk]

/-- The kernels change every number exactly once, whatever the layout and the threads. -/
theorem nbElems_changed {ex : Exec} (hex : ex.Ok) (f : K → K) {m m' : Mtx K} (hp : Proper m) (h : nbElems ex f m m') :
    Changed (fun _ => f) m m' := by
  obtain ⟨d, hr, rfl⟩ := h
  obtain ⟨hp1, hp2⟩ := hp
  refine Changed.of_cells ⟨hp1, hp2⟩ d ?_
  have hrows : 0 < m.rows := lt_of_lt_of_le hp1 (Nat.sub_le _ _)
  intro k
  unfold nbKernel nbRange at hr
  by_cases hb : (m.bir && m.emul) = true
  · simp only [hb, if_true] at hr
    have hb' := hb
    simp only [Bool.and_eq_true] at hb'
    have h1 : m.rowsNoBias = m.rows - 1 := by unfold Mtx.rowsNoBias; simp [hb'.1, hb'.2]
    have h2 : m.colsNoBias = m.cols := by unfold Mtx.colsNoBias; simp [hb'.1, hb'.2]
    rw [h2] at hp2
    have := runs_result ex hex m.cols hp2 _ (fun k => k / m.rows) (fun k => if k % m.rows < m.rows - 1 then [f] else []) (fun b e _ _ k => by
      rw [filter_elemCw _ _ _ _ _ _ _ (by omega) (by omega)]
      by_cases ha : b ≤ k / m.rows ∧ k / m.rows < e
      · rw [if_pos ha]
        by_cases hc : k % m.rows < m.rows - 1
        · rw [if_pos ⟨ha, Nat.zero_le _, hc⟩, if_pos hc]
        · rw [if_neg (fun hh => hc hh.2.2), if_neg hc]
      · rw [if_neg ha, if_neg (fun hh => ha hh.1)]) hr k
    rw [this, h1, h2]
    by_cases ha : k / m.rows < m.cols
    · by_cases hc : k % m.rows < m.rows - 1
      · rw [if_pos ha, if_pos hc, if_pos ⟨ha, hc⟩]; rfl
      · rw [if_pos ha, if_neg hc, if_neg (fun hh => hc hh.2)]; rfl
    · rw [if_neg ha, if_neg (fun hh => ha hh.1)]
  · have hb' : (m.bir && m.emul) = false := by simpa using hb
    have h1 : m.rowsNoBias = m.rows := by
      unfold Mtx.rowsNoBias; rw [Bool.and_comm, hb']; rfl
    have hn : (if m.bir then m.numel else m.numelNoBias) = m.rows * m.colsNoBias := by
      by_cases hbir : m.bir = true
      · rw [if_pos hbir]
        have : m.colsNoBias = m.cols := by unfold Mtx.colsNoBias; simp [hbir]
        rw [this]; rfl
      · rw [if_neg hbir]; unfold Mtx.numelNoBias; rw [h1]
    simp only [hb', Bool.false_eq_true, if_false, hn] at hr
    have := each_result ex hex _ (Nat.mul_pos hrows hp2) (fun _ => f) hr k
    rw [this, h1]
    by_cases ha : k < m.rows * m.colsNoBias
    · rw [if_pos ha, if_pos ⟨(Nat.div_lt_iff_lt_mul hrows).2 (by rwa [Nat.mul_comm]), Nat.mod_lt _ hrows⟩]
    · rw [if_neg ha, if_neg]
      rintro ⟨hh, _⟩
      have := (Nat.div_lt_iff_lt_mul hrows).1 hh
      rw [Nat.mul_comm] at this
      exact ha this

/-- `whole` does the step to every number. -/
theorem whole_changed {ex : Exec} (hex : ex.Ok) {st : Stat K} {m m' : Mtx K} (hp : Proper m) (h : whole ex st m m') :
    Changed (fun _ => stepFn st) m m' := by
  unfold whole at h
  by_cases h1 : st.bScale = true
  · by_cases h2 : st.bOffset = true
    · rw [if_pos h1, if_pos h2] at h
      exact (nbElems_changed hex _ hp h).congr (fun c v => by unfold stepFn; simp [h1, h2])
    · rw [if_pos h1, if_neg h2] at h
      exact (nbElems_changed hex _ hp h).congr (fun c v => by unfold stepFn; simp [h1, h2, mul_comm])
  · by_cases h2 : st.bOffset = true
    · rw [if_neg h1, if_pos h2] at h
      exact (nbElems_changed hex _ hp h).congr (fun c v => by unfold stepFn; simp [h1, h2])
    · rw [if_neg h1, if_neg h2] at h
      rw [h]
      exact (Changed.refl m).congr (fun c v => by unfold stepFn; simp [h1, h2])

theorem whole_exists (ex : Exec) (st : Stat K) (m : Mtx K) : ∃ m', whole ex st m m' := by
  have key : ∀ f : K → K, ∃ m', nbElems ex f m m' := fun f => by
    obtain ⟨d, hd⟩ := runs_exists ex (nbRange m) (nbKernel m f) m.data
    exact ⟨_, d, hd, rfl⟩
  unfold whole
  split
  · split
    · exact key _
    · exact key _
  · split
    · exact key _
    · exact ⟨m, rfl⟩

theorem colSteps_at (st : Stat K) (rows c k : Nat) (hr : 0 < rows) :
    ((colSteps st rows c).filter fun s => s.1 == k).map (fun s v => s.2 v) = if c = k / rows then (if st.bScale || st.bOffset then [stepFn st] else []) else [] := by
  have key : ∀ f : K → K, (((List.range' 0 rows).map fun r => ((rows * c + r, f) : Step K)).filter fun s => s.1 == k).map (fun s v => s.2 v) =
      if c = k / rows then [f] else [] := by
    intro f
    have := filter_cells_rows (fun _ _ => f) rows c k rows 0 (by omega)
    rw [show (fun (s : Step K) v => s.2 v) = (fun s => s.2) from rfl, this]
    have hm := Nat.mod_lt k hr
    by_cases h : c = k / rows
    · rw [if_pos h, if_pos ⟨h, Nat.zero_le _, by omega⟩]
    · rw [if_neg h, if_neg (fun hh => h hh.1)]
  have hs : ∀ f : K → K, (∀ v, f v = stepFn st v) → f = stepFn st := fun f hf => funext hf
  unfold colSteps
  by_cases h1 : st.bScale = true
  · by_cases h2 : st.bOffset = true
    · simp only [h1, h2, Bool.or_self, if_true, key]
      rw [hs (fun v => st.sc * v + st.ofs) (fun v => by unfold stepFn; simp [h1, h2])]
    · simp only [h1, h2, Bool.true_or, if_true, key, Bool.false_eq_true, if_false]
      rw [hs (fun v => v * st.sc) (fun v => by unfold stepFn; simp [h1, h2, mul_comm])]
  · by_cases h2 : st.bOffset = true
    · simp only [h1, h2, Bool.or_true, if_true, key, Bool.false_eq_true, if_false]
      rw [hs (fun v => v + st.ofs) (fun v => by unfold stepFn; simp [h1, h2])]
    · simp [h1, h2]

theorem stepFn_none {st : Stat K} (h : ¬ (st.bScale || st.bOffset) = true) (v : K) : stepFn st v = v := by
  simp only [Bool.or_eq_true, not_or, Bool.not_eq_true] at h
  unfold stepFn; simp [h.1, h.2]

/-- `batchwise` does the step of the column to every number. -/
theorem batchwise_changed {ex : Exec} (hex : ex.Ok) {st : Nat → Stat K} {m m' : Mtx K} (hp : Proper m) (hbic : m.bir = false) (h : batchwise ex st m m') :
    Changed (fun c => stepFn (st c)) m m' := by
  obtain ⟨d, hr, rfl⟩ := h
  refine Changed.of_cells hp d ?_
  intro k
  have h1 : m.rowsNoBias = m.rows := by unfold Mtx.rowsNoBias; simp [hbic]
  have hrows : 0 < m.rows := h1 ▸ hp.1
  have := runs_result ex hex m.colsNoBias hp.2 _ (fun k => k / m.rows)
    (fun k => if (st (k / m.rows)).bScale || (st (k / m.rows)).bOffset then [stepFn (st (k / m.rows))] else [])
    (fun b e hbe hle k => by
      rw [filter_flatMap_one (τ := Unit) _ k (k / m.rows)
        (if (st (k / m.rows)).bScale || (st (k / m.rows)).bOffset then [stepFn (st (k / m.rows))] else [])]
      · rw [show b + (e - b) = e by omega]
      · intro i _ _
        have := colSteps_at (st i) m.rows i k hrows
        rw [show (fun (s : Step K) v => s.2 v) = (fun s => s.2) from rfl] at this
        rw [this]
        by_cases hi : i = k / m.rows
        · rw [if_pos hi, if_pos hi, hi]
        · rw [if_neg hi, if_neg hi]) hr k
  rw [this, h1]
  by_cases ha : k / m.rows < m.colsNoBias
  · rw [if_pos ha, if_pos (show k / m.rows < m.colsNoBias ∧ k % m.rows < m.rows from ⟨ha, Nat.mod_lt _ hrows⟩)]
    by_cases hb : ((st (k / m.rows)).bScale || (st (k / m.rows)).bOffset) = true
    · rw [if_pos hb]; rfl
    · rw [if_neg hb, stepFn_none hb]; rfl
  · rw [if_neg ha, if_neg (fun hh => ha hh.1)]

theorem batchwise_exists (ex : Exec) (st : Nat → Stat K) (m : Mtx K) : ∃ m', batchwise ex st m m' := by
  obtain ⟨d, hd⟩ := runs_exists ex m.colsNoBias (fun b e => (List.range' b (e - b)).flatMap fun c => colSteps (st c) m.rows c) m.data
  exact ⟨_, d, hd, rfl⟩

/-! ### Accumulated statistics -/

/-- A flag that is down comes with a neutral value. -/
def Stat.Clean (s : Stat K) : Prop := (s.bScale = false → s.sc = 1) ∧ (s.bOffset = false → s.ofs = 0)

theorem Stat.init_clean : (Stat.init : Stat K).Clean := ⟨fun _ => rfl, fun _ => rfl⟩

theorem Stat.clean_fn {s : Stat K} (h : s.Clean) (v : K) : stepFn s v = s.sc * v + s.ofs := by
  unfold stepFn
  by_cases h1 : s.bScale = true
  · by_cases h2 : s.bOffset = true
    · simp [h1, h2]
    · simp [h1, h2, h.2 (by simpa using h2)]
  · by_cases h2 : s.bOffset = true
    · simp [h1, h2, h.1 (by simpa using h1)]
    · simp [h1, h2, h.1 (by simpa using h1), h.2 (by simpa using h2)]

theorem Stat.updScale_spec {s : Stat K} (h : s.Clean) (v : K) : (s.updScale v).Clean ∧ ∀ x, stepFn (s.updScale v) x = v * stepFn s x := by
  have hc : (s.updScale v).Clean := ⟨fun hh => by simp [Stat.updScale] at hh, fun hh => by simp only [Stat.updScale] at hh ⊢; rw [h.2 hh, zero_mul]⟩
  refine ⟨hc, fun x => ?_⟩
  rw [Stat.clean_fn hc, Stat.clean_fn h]; simp only [Stat.updScale]; ring

theorem Stat.updOfs_spec {s : Stat K} (h : s.Clean) (v : K) : (s.updOfs v).Clean ∧ ∀ x, stepFn (s.updOfs v) x = stepFn s x + v := by
  have hc : (s.updOfs v).Clean := ⟨fun hh => by simp only [Stat.updOfs] at hh ⊢; exact h.1 hh, fun hh => by simp [Stat.updOfs] at hh⟩
  refine ⟨hc, fun x => ?_⟩
  rw [Stat.clean_fn hc, Stat.clean_fn h]; simp only [Stat.updOfs]; ring

theorem Stat.updBoth_spec {s : Stat K} (h : s.Clean) (a b : K) : (s.updBoth a b).Clean ∧ ∀ x, stepFn (s.updBoth a b) x = a * stepFn s x + b := by
  have hc : (s.updBoth a b).Clean := ⟨fun hh => by simp [Stat.updBoth] at hh, fun hh => by simp [Stat.updBoth] at hh⟩
  refine ⟨hc, fun x => ?_⟩
  rw [Stat.clean_fn hc, Stat.clean_fn h]; simp only [Stat.updBoth]; ring

theorem stepFn_eq (o : Stat K) (y : K) : stepFn o y = if o.bOffset then (if o.bScale then o.sc * y else y) + o.ofs else (if o.bScale then o.sc * y else y) := rfl

theorem Stat.updAll_spec {s : Stat K} (h : s.Clean) (o : Stat K) : (s.updAll o).Clean ∧ ∀ x, stepFn (s.updAll o) x = stepFn o (stepFn s x) := by
  by_cases h1 : o.bScale = true
  · obtain ⟨c1, e1⟩ := Stat.updScale_spec h o.sc
    by_cases h2 : o.bOffset = true
    · obtain ⟨c2, e2⟩ := Stat.updOfs_spec c1 o.ofs
      have he : s.updAll o = (s.updScale o.sc).updOfs o.ofs := by unfold Stat.updAll; simp only [h1, h2, if_true]
      rw [he]
      exact ⟨c2, fun x => by rw [e2, e1, stepFn_eq o]; simp [h1, h2]⟩
    · have he : s.updAll o = s.updScale o.sc := by unfold Stat.updAll; simp [h1, h2]
      rw [he]
      exact ⟨c1, fun x => by rw [e1, stepFn_eq o]; simp [h1, h2]⟩
  · by_cases h2 : o.bOffset = true
    · obtain ⟨c2, e2⟩ := Stat.updOfs_spec h o.ofs
      have he : s.updAll o = s.updOfs o.ofs := by unfold Stat.updAll; simp [h1, h2]
      rw [he]
      exact ⟨c2, fun x => by rw [e2, stepFn_eq o]; simp [h1, h2]⟩
    · have he : s.updAll o = s := by unfold Stat.updAll; simp [h1, h2]
      rw [he]
      exact ⟨h, fun x => by rw [stepFn_eq o]; simp [h1, h2]⟩

theorem replay_append (a b : List (Stat K)) (v : K) : replay (a ++ b) v = replay b (replay a v) := by
  unfold replay; rw [List.foldl_append]

end Nntl.Norm
