import Verif.Norm.LoopLemmas
import Mathlib.Tactic.NormNum
import Mathlib.Algebra.Order.Ring.Rat
/-! Properties C54, C74 and C75: accumulated statistics of a normalisation, tolerance after a successful normalisation, already normalised data. -/
namespace Nntl.Norm
open Nntl.Kernel Nntl.Matrix Nntl.Threads
variable {K : Type} [Field K] [LinearOrder K]

/-! ### C54: the accumulated scale and offset are the composition of the steps -/

/-- Updates of accumulated statistics through the interface of `ScaleCentralData`. -/
inductive Upd (K : Type) where
  | scale (v : K)
  | offset (v : K)
  | both (vSc vOfs : K)
  | step (other : Stat K)
  | reset

/-- What the code does to the statistics. -/
def Upd.run (s : Stat K) : Upd K → Stat K
  | .scale v => s.updScale v
  | .offset v => s.updOfs v
  | .both a b => s.updBoth a b
  | .step o => s.updAll o
  | .reset => .init

/-- What is to be done to a number that went through everything before (`orig` is the number as it was). -/
def Upd.means (orig cur : K) : Upd K → K
  | .scale v => v * cur
  | .offset v => cur + v
  | .both a b => a * cur + b
  | .step o => stepFn o cur
  | .reset => orig

/-- **C54** (statistics). After any sequence of updates, applying the accumulated scale and offset once gives what doing all the updates one by one
gives: `whole` applied with the final statistics multiplies and adds exactly that. -/
theorem statistics_compose (us : List (Upd K)) (x : K) :
    (us.foldl Upd.run .init).sc * x + (us.foldl Upd.run .init).ofs = us.foldl (Upd.means x) x ∧
    stepFn (us.foldl Upd.run .init) x = us.foldl (Upd.means x) x := by
  have key : ∀ (us : List (Upd K)) (s : Stat K) (cur : K), s.Clean → stepFn s x = cur →
      (us.foldl Upd.run s).Clean ∧ stepFn (us.foldl Upd.run s) x = us.foldl (Upd.means x) cur := by
    intro us
    induction us with
    | nil => intro s cur h1 h2; exact ⟨h1, h2⟩
    | cons u us ih =>
      intro s cur h1 h2
      rw [List.foldl_cons, List.foldl_cons]
      cases u with
      | scale v =>
        obtain ⟨c, e⟩ := Stat.updScale_spec h1 v
        exact ih _ _ c (by rw [show (Upd.run s (.scale v)) = s.updScale v from rfl, e, h2]; rfl)
      | offset v =>
        obtain ⟨c, e⟩ := Stat.updOfs_spec h1 v
        exact ih _ _ c (by rw [show (Upd.run s (.offset v)) = s.updOfs v from rfl, e, h2]; rfl)
      | both a b =>
        obtain ⟨c, e⟩ := Stat.updBoth_spec h1 a b
        exact ih _ _ c (by rw [show (Upd.run s (.both a b)) = s.updBoth a b from rfl, e, h2]; rfl)
      | step o =>
        obtain ⟨c, e⟩ := Stat.updAll_spec h1 o
        exact ih _ _ c (by rw [show (Upd.run s (.step o)) = s.updAll o from rfl, e, h2]; rfl)
      | reset => exact ih _ _ Stat.init_clean (stepFn_init x)
  obtain ⟨h1, h2⟩ := key us .init x Stat.init_clean (stepFn_init x)
  exact ⟨by rw [← Stat.clean_fn h1]; exact h2, h2⟩

example : ([Upd.scale 2, .offset 3, .both 5 1, .step ⟨2, 7, true, false⟩].foldl Upd.run (Stat.init : Stat ℚ)).ofs = 32 := by
  norm_num [Upd.run, Stat.updScale, Stat.updOfs, Stat.updBoth, Stat.updAll, Stat.init]

theorem inmem_chain {ex : Nat → Exec} (hex : ∀ i, (ex i).Ok) (meas : Mtx K → Meas K) : ∀ (l : List (Stat K)) (ds ds' : Nat → Mtx K), Proper (ds 0) →
    Chain (inmem ex meas).fixTrain l ds ds' → Changed (fun _ => replay l) (ds 0) (ds' 0) ∧ ∀ i, i ≠ 0 → ds' i = ds i := by
  intro l
  induction l with
  | nil => intro ds ds' _ h; have h : ds' = ds := h; subst h; exact ⟨Changed.refl _, fun _ _ => rfl⟩
  | cons a l ih =>
    rintro ds ds' hp ⟨d1, ⟨m', hm, rfl⟩, h2⟩
    have hc := whole_changed (hex 0) hp hm
    have := ih _ _ (by show Proper m'; exact hc.proper hp) h2
    refine ⟨?_, fun i hi => ?_⟩
    · have hh : Changed (fun _ => replay l) m' (ds' 0) := this.1
      exact hc.trans hh
    · rw [this.2 i hi]; simp only [setAt, if_neg hi]

theorem inmemOthers_result {ex : Nat → Exec} (hex : ∀ i, (ex i).Ok) (st : Stat K) : ∀ (n i : Nat) (ds ds' : Nat → Mtx K),
    (∀ j, i ≤ j → j < i + n → Proper (ds j)) → inmemOthers ex st i n ds ds' →
    (∀ j, i ≤ j → j < i + n → Changed (fun _ => stepFn st) (ds j) (ds' j)) ∧ ∀ j, ¬ (i ≤ j ∧ j < i + n) → ds' j = ds j := by
  intro n
  induction n with
  | zero =>
    intro i ds ds' _ h
    have h : ds' = ds := h
    subst h
    exact ⟨fun j h1 h2 => by omega, fun _ _ => rfl⟩
  | succ n ih =>
    rintro i ds ds' hp ⟨d1, ⟨m', hm, rfl⟩, h2⟩
    have hc := whole_changed (hex i) (hp i (Nat.le_refl _) (by omega)) hm
    have := ih (i + 1) _ _ (fun j h1 h2 => by
      have : j ≠ i := by omega
      simp only [setAt, if_neg this]
      exact hp j (by omega) (by omega)) h2
    refine ⟨fun j h1 h2 => ?_, fun j hj => ?_⟩
    · by_cases hj : j = i
      · subst hj
        rw [this.2 j (by omega)]
        simpa [setAt] using hc
      · have := this.1 j (by omega) (by omega)
        simpa only [setAt, if_neg hj] using this
    · rw [this.2 j (by omega)]
      have : j ≠ i := by omega
      simp only [setAt, if_neg this]

/-- **C54** (whole matrices). Normalisation of in-memory data, whatever statistic is measured: the training set ends up with every number taken through all
the individual steps; the statistics accumulated are the composition of the steps; when the normalisation succeeds every other data set
went through the same steps (though it was changed only once), and otherwise it is untouched. Biases and shapes are kept. -/
theorem whole_replay {ex : Nat → Exec} (hex : ∀ i, (ex i).Ok) (meas : Mtx K → Meas K) (dc : Nat) (s : Setts K) (ds : Nat → Mtx K)
    (hp : ∀ i, i < dc → Proper (ds i)) (hdc : 0 < dc) (r : Res (Nat → Mtx K) (Stat K)) (h : inmemWhole ex meas dc s ds r) :
    Changed (fun _ => replay r.sent) (ds 0) (r.state 0) ∧
    (∀ v, r.stat.sc * v + r.stat.ofs = replay r.sent v) ∧
    (r.ok = true → ∀ i, 0 < i → i < dc → Changed (fun _ => replay r.sent) (ds i) (r.state i)) ∧
    (r.ok = false → ∀ i, 0 < i → r.state i = ds i) := by
  unfold inmemWhole normalizeDataWhole at h
  by_cases hs : s.should = true
  · rw [if_neg (by simp [hs])] at h
    obtain ⟨l, hl, h⟩ := h
    have hr := normalizeWhole_right hs hl
    obtain ⟨hch, hoth⟩ := inmem_chain hex meas l.sent ds l.state (hp 0 hdc) hr.chain
    have hacc : ∀ v, stepFn l.stat v = replay l.sent v := fun v => by rw [hr.accum v, stepFn_init]
    have hsc : ∀ v, l.stat.sc * v + l.stat.ofs = replay l.sent v := fun v => by rw [← Stat.clean_fn hr.clean, hacc]
    by_cases hok : l.ok = true
    · rw [if_pos hok] at h
      by_cases hf : (!l.stat.bScale && !l.stat.bOffset) = true
      · rw [if_pos hf] at h
        subst h
        exact ⟨hch, hsc, fun h => (by cases h), fun _ i hi => hoth i (by omega)⟩
      · rw [if_neg hf] at h
        obtain ⟨x', hx, rfl⟩ := h
        have ho := inmemOthers_result hex l.stat (dc - 1) 1 l.state x' (fun j h1 h2 => by
          rw [hoth j (by omega)]; exact hp j (by omega)) hx
        refine ⟨?_, hsc, fun _ i h1 h2 => ?_, fun h => (by cases h)⟩
        · show Changed _ (ds 0) (x' 0)
          rw [ho.2 0 (by omega)]; exact hch
        · have := ho.1 i (by omega) (by omega)
          rw [hoth i (by omega)] at this
          exact this.congr (fun _ v => hacc v)
    · rw [if_neg hok] at h
      subst h
      exact ⟨hch, hsc, fun h => absurd h hok, fun _ i hi => hoth i (by omega)⟩
  · rw [if_pos (by simp [hs])] at h
    subst h
    exact ⟨Changed.refl _, fun v => by simp [Stat.init, replay], fun _ i _ _ => Changed.refl _, fun h => (by cases h)⟩

theorem inmemCw_chain {ex : Nat → Exec} (hex : ∀ i, (ex i).Ok) (meas : Nat → List K → Meas K) : ∀ (l : List (Nat → Stat K)) (ds ds' : Nat → Mtx K),
    Proper (ds 0) → (ds 0).bir = false → Chain (inmemCw ex meas).fixTrain l ds ds' →
    Changed (fun c => replay (l.map fun a => a c)) (ds 0) (ds' 0) ∧ ∀ i, i ≠ 0 → ds' i = ds i := by
  intro l
  induction l with
  | nil => intro ds ds' _ _ h; have h : ds' = ds := h; subst h; exact ⟨Changed.refl _, fun _ _ => rfl⟩
  | cons a l ih =>
    rintro ds ds' hp hb ⟨d1, ⟨m', hm, rfl⟩, h2⟩
    have hc := batchwise_changed (hex 0) hp hb hm
    have := ih _ _ (by show Proper m'; exact hc.proper hp) (by show m'.bir = false; rw [hc.dims.2.2.2, hb]) h2
    refine ⟨?_, fun i hi => ?_⟩
    · have hh : Changed (fun c => replay (l.map fun a => a c)) m' (ds' 0) := this.1
      exact hc.trans hh
    · rw [this.2 i hi]; simp only [setAt, if_neg hi]

theorem inmemOthersCw_result {ex : Nat → Exec} (hex : ∀ i, (ex i).Ok) (st : Nat → Stat K) : ∀ (n i : Nat) (ds ds' : Nat → Mtx K),
    (∀ j, i ≤ j → j < i + n → Proper (ds j) ∧ (ds j).bir = false) → inmemOthersCw ex st i n ds ds' →
    (∀ j, i ≤ j → j < i + n → Changed (fun c => stepFn (st c)) (ds j) (ds' j)) ∧ ∀ j, ¬ (i ≤ j ∧ j < i + n) → ds' j = ds j := by
  intro n
  induction n with
  | zero =>
    intro i ds ds' _ h
    have h : ds' = ds := h
    subst h
    exact ⟨fun j h1 h2 => by omega, fun _ _ => rfl⟩
  | succ n ih =>
    rintro i ds ds' hp ⟨d1, ⟨m', hm, rfl⟩, h2⟩
    have hpi := hp i (Nat.le_refl _) (by omega)
    have hc := batchwise_changed (hex i) hpi.1 hpi.2 hm
    have := ih (i + 1) _ _ (fun j h1 h2 => by
      have : j ≠ i := by omega
      simp only [setAt, if_neg this]
      exact hp j (by omega) (by omega)) h2
    refine ⟨fun j h1 h2 => ?_, fun j hj => ?_⟩
    · by_cases hj : j = i
      · subst hj
        rw [this.2 j (by omega)]
        simpa [setAt] using hc
      · have := this.1 j (by omega) (by omega)
        simpa only [setAt, if_neg hj] using this
    · rw [this.2 j (by omega)]
      have : j ≠ i := by omega
      simp only [setAt, if_neg this]

theorem should_pos {s : Setts K} (hs : s.should = true) : ¬ (!(s.normScale || s.normCentral) || decide (s.maxTries = 0)) = true := by
  unfold Setts.should at hs
  simp only [Bool.and_eq_true, Bool.or_eq_true, decide_eq_true_eq] at hs
  simp only [Bool.or_eq_true, Bool.not_eq_true', decide_eq_true_eq, Bool.or_eq_false_iff]
  rintro (⟨h1, h2⟩ | h1)
  · rcases hs.1 with h3 | h3
    · rw [h2] at h3; cases h3
    · rw [h1] at h3; cases h3
  · omega

theorem inmemCw_fix {ex : Nat → Exec} (hex : ∀ i, (ex i).Ok) (meas : Nat → List K → Meas K) (cols : Nat) (st : Nat → Stat K) (x x1 : Nat → Mtx K)
    (hg : Proper (x 0) ∧ (x 0).bir = false ∧ (x 0).colsNoBias = cols) (h : (inmemCw ex meas).fixTrain st x x1) :
    (Proper (x1 0) ∧ (x1 0).bir = false ∧ (x1 0).colsNoBias = cols) ∧
    ∀ c < cols, st c = .init → (inmemCw ex meas).meas x1 c = (inmemCw ex meas).meas x c := by
  obtain ⟨m', hm, rfl⟩ := h
  have hc := batchwise_changed (hex 0) hg.1 hg.2.1 hm
  obtain ⟨e1, e2, e3, e4⟩ := hc.dims
  refine ⟨⟨by show Proper m'; exact hc.proper hg.1, by show m'.bir = false; rw [e4]; exact hg.2.1, by show m'.colsNoBias = _; rw [e3]; exact hg.2.2⟩, ?_⟩
  intro c hcc hst
  show meas c (colOf m' c) = meas c (colOf (x 0) c)
  congr 1
  unfold colOf
  rw [e1]
  apply List.map_congr_left
  intro r hr
  have hr' : r < (x 0).rowsNoBias := by
    have : (x 0).rowsNoBias = (x 0).rows := by unfold Mtx.rowsNoBias; simp [hg.2.1]
    rw [this]; exact List.mem_range.1 hr
  have := hc.elems r c hr' (by rw [hg.2.2]; exact hcc)
  rw [hst, stepFn_init] at this
  exact this

/-- **C54** (columns). The same when every column is normalised on its own: column `c` goes through the steps made for column `c`. -/
theorem columns_replay {ex : Nat → Exec} (hex : ∀ i, (ex i).Ok) (meas : Nat → List K → Meas K) (dc : Nat) (s : Setts K) (ds : Nat → Mtx K)
    (hp : ∀ i, i < dc → Proper (ds i) ∧ (ds i).bir = false) (hdc : 0 < dc) (r : Res (Nat → Mtx K) (Nat → Stat K))
    (h : inmemColumns ex meas dc s ds r) :
    Changed (fun c => replay (r.sent.map fun a => a c)) (ds 0) (r.state 0) ∧
    (∀ c v, (r.stat c).sc * v + (r.stat c).ofs = replay (r.sent.map fun a => a c) v) ∧
    (r.ok = true → ∀ i, 0 < i → i < dc → Changed (fun c => replay (r.sent.map fun a => a c)) (ds i) (r.state i)) ∧
    (r.ok = false → ∀ i, 0 < i → r.state i = ds i) := by
  unfold inmemColumns normalizeDataCw at h
  by_cases hs : s.should = true
  · rw [if_neg (by simp [hs])] at h
    obtain ⟨l, hl, h⟩ := h
    unfold normalizeCw at hl
    rw [if_neg (should_pos hs)] at hl
    have hr := cwLoop_right s (inmemCw ex meas) (ds 0).colsNoBias (fun x => Proper (x 0) ∧ (x 0).bir = false ∧ (x 0).colsNoBias = (ds 0).colsNoBias)
      (fun st x x1 hg hx => inmemCw_fix hex meas _ st x x1 hg hx) _ _ _ _ _ (fun _ => Stat.init_clean)
      ⟨(hp 0 hdc).1, (hp 0 hdc).2, rfl⟩ (fun _ _ h => by cases h) hl
    obtain ⟨hch, hoth⟩ := inmemCw_chain hex meas l.sent ds l.state (hp 0 hdc).1 (hp 0 hdc).2 hr.chain
    have hacc : ∀ c v, stepFn (l.stat c) v = replay (l.sent.map fun a => a c) v := fun c v => by rw [hr.accum c v, stepFn_init]
    have hsc : ∀ c v, (l.stat c).sc * v + (l.stat c).ofs = replay (l.sent.map fun a => a c) v := fun c v => by rw [← Stat.clean_fn (hr.clean c), hacc]
    by_cases hok : l.ok = true
    · rw [if_pos hok] at h
      split at h
      · subst h
        exact ⟨hch, hsc, fun h => (by cases h), fun _ i hi => hoth i (by omega)⟩
      · obtain ⟨x', hx, rfl⟩ := h
        have ho := inmemOthersCw_result hex l.stat (dc - 1) 1 l.state x' (fun j h1 h2 => by
          rw [hoth j (by omega)]; exact hp j (by omega)) hx
        refine ⟨?_, hsc, fun _ i h1 h2 => ?_, fun h => (by cases h)⟩
        · show Changed _ (ds 0) (x' 0)
          rw [ho.2 0 (by omega)]; exact hch
        · have := ho.1 i (by omega) (by omega)
          rw [hoth i (by omega)] at this
          exact this.congr (fun c v => hacc c v)
    · rw [if_neg hok] at h
      subst h
      exact ⟨hch, hsc, fun h => absurd h hok, fun _ i hi => hoth i (by omega)⟩
  · rw [if_pos (by simp [hs])] at h
    subst h
    exact ⟨Changed.refl _, fun c v => by simp [Stat.init, replay], fun _ i _ _ => Changed.refl _, fun h => (by cases h)⟩

/-- **C54** (columns). Success is reported exactly if the tries succeeded and at least one column was changed; the statistics are those of the tries. -/
theorem columns_reported (ex : Nat → Exec) (meas : Nat → List K → Meas K) (dc : Nat) (s : Setts K) (hs : s.should = true) (ds : Nat → Mtx K)
    (r : Res (Nat → Mtx K) (Nat → Stat K)) (h : inmemColumns ex meas dc s ds r) :
    ∃ l, normalizeCw s (inmemCw ex meas) (ds 0).colsNoBias ds l ∧ r.stat = l.stat ∧ r.sent = l.sent ∧
      (r.ok = true ↔ l.ok = true ∧ ∃ c < (ds 0).colsNoBias, (l.stat c).bScale = true ∨ (l.stat c).bOffset = true) := by
  unfold inmemColumns normalizeDataCw at h
  rw [if_neg (by simp [hs])] at h
  obtain ⟨l, hl, h⟩ := h
  refine ⟨l, hl, ?_⟩
  by_cases hlo : l.ok = true
  · rw [if_pos hlo] at h
    by_cases hf : ((List.range (ds 0).colsNoBias).all fun c => !(l.stat c).bScale && !(l.stat c).bOffset) = true
    · rw [if_pos hf] at h
      subst h
      refine ⟨rfl, rfl, ⟨fun h => by simp at h, fun ⟨_, c, hc, h⟩ => ?_⟩⟩
      have := List.all_eq_true.1 hf c (List.mem_range.2 hc)
      rcases h with h | h <;> simp [h] at this
    · rw [if_neg hf] at h
      obtain ⟨x', _, rfl⟩ := h
      refine ⟨rfl, rfl, fun _ => ⟨hlo, Classical.byContradiction fun hn => hf (List.all_eq_true.2 fun c hc => ?_)⟩, fun _ => rfl⟩
      have hn' : ¬ ((l.stat c).bScale = true ∨ (l.stat c).bOffset = true) := fun h => hn ⟨c, List.mem_range.1 hc, h⟩
      cases h1 : (l.stat c).bScale <;> cases h2 : (l.stat c).bOffset <;> simp [h1, h2] at hn' ⊢
  · rw [if_neg hlo] at h
    subst h
    exact ⟨rfl, rfl, fun h => absurd h hlo, fun h => h.1⟩

/-- **C54** (whole). The same for a whole normalisation. -/
theorem whole_reported (ex : Nat → Exec) (meas : Mtx K → Meas K) (dc : Nat) (s : Setts K) (hs : s.should = true) (ds : Nat → Mtx K)
    (r : Res (Nat → Mtx K) (Stat K)) (h : inmemWhole ex meas dc s ds r) :
    ∃ l, normalizeWhole s (inmem ex meas) ds l ∧ r.stat = l.stat ∧ r.sent = l.sent ∧
      (r.ok = true ↔ l.ok = true ∧ (l.stat.bScale = true ∨ l.stat.bOffset = true)) := by
  unfold inmemWhole normalizeDataWhole at h
  rw [if_neg (by simp [hs])] at h
  obtain ⟨l, hl, h⟩ := h
  refine ⟨l, hl, ?_⟩
  by_cases hlo : l.ok = true
  · rw [if_pos hlo] at h
    by_cases hf : (!l.stat.bScale && !l.stat.bOffset) = true
    · rw [if_pos hf] at h
      subst h
      refine ⟨rfl, rfl, ⟨fun h => by simp at h, fun ⟨_, h⟩ => ?_⟩⟩
      rcases h with h | h <;> simp [h] at hf
    · rw [if_neg hf] at h
      obtain ⟨x', _, rfl⟩ := h
      refine ⟨rfl, rfl, fun _ => ⟨hlo, ?_⟩, fun _ => rfl⟩
      cases h1 : l.stat.bScale <;> cases h2 : l.stat.bOffset <;> simp [h1, h2] at hf ⊢
  · rw [if_neg hlo] at h
    subst h
    exact ⟨rfl, rfl, fun h => absurd h hlo, fun h => h.1⟩

/-! ### C74: success means within tolerance -/

/-- **C74** (whole, in-memory data). When a normalisation that had something to do reports success, the statistics of the training set as it is now
are within the tolerances. -/
theorem whole_within_tolerance {ex : Nat → Exec} (hex : ∀ i, (ex i).Ok) (meas : Mtx K → Meas K) (dc : Nat) (s : Setts K) (hs : s.should = true)
    (ds : Nat → Mtx K) (hp : ∀ i, i < dc → Proper (ds i)) (r : Res (Nat → Mtx K) (Stat K)) (h : inmemWhole ex meas dc s ds r) (hok : r.ok = true) :
    Acceptable s (meas (r.state 0)) := by
  unfold inmemWhole normalizeDataWhole at h
  rw [if_neg (by simp [hs])] at h
  obtain ⟨l, hl, h⟩ := h
  have hr := normalizeWhole_right hs hl
  by_cases hlo : l.ok = true
  · rw [if_pos hlo] at h
    have ha := hr.accept hlo
    by_cases hf : (!l.stat.bScale && !l.stat.bOffset) = true
    · rw [if_pos hf] at h
      subst h
      cases hok
    · rw [if_neg hf] at h
      obtain ⟨x', hx, rfl⟩ := h
      show Acceptable s (meas (x' 0))
      have key : ∀ (n i : Nat) (a b : Nat → Mtx K), 0 < i → inmemOthers ex l.stat i n a b → b 0 = a 0 := by
        intro n
        induction n with
        | zero => intro i a b _ h; have h : b = a := h; rw [h]
        | succ n ih =>
          rintro i a b hi ⟨d1, ⟨m', _, rfl⟩, h2⟩
          rw [ih (i + 1) _ _ (by omega) h2]
          simp only [setAt, if_neg (show ¬ 0 = i by omega)]
      rw [key _ _ _ _ (by omega) hx]
      exact ha
  · rw [if_neg hlo] at h
    subst h
    exact absurd hok hlo

/-- **C74** (columns, in-memory data). The same for every column. A column that was found good earlier in the run stays good. -/
theorem columns_within_tolerance {ex : Nat → Exec} (hex : ∀ i, (ex i).Ok) (meas : Nat → List K → Meas K) (dc : Nat) (s : Setts K) (hs : s.should = true)
    (ds : Nat → Mtx K) (hp : ∀ i, i < dc → Proper (ds i) ∧ (ds i).bir = false) (hdc : 0 < dc) (r : Res (Nat → Mtx K) (Nat → Stat K))
    (h : inmemColumns ex meas dc s ds r) (hok : r.ok = true) (c : Nat) (hc : c < (ds 0).colsNoBias) :
    Acceptable s (meas c (colOf (r.state 0) c)) := by
  unfold inmemColumns normalizeDataCw at h
  rw [if_neg (by simp [hs])] at h
  obtain ⟨l, hl, h⟩ := h
  unfold normalizeCw at hl
  rw [if_neg (should_pos hs)] at hl
  have hr := cwLoop_right s (inmemCw ex meas) (ds 0).colsNoBias (fun x => Proper (x 0) ∧ (x 0).bir = false ∧ (x 0).colsNoBias = (ds 0).colsNoBias)
    (fun st x x1 hg hx => inmemCw_fix hex meas _ st x x1 hg hx) _ _ _ _ _ (fun _ => Stat.init_clean)
    ⟨(hp 0 hdc).1, (hp 0 hdc).2, rfl⟩ (fun _ _ h => by cases h) hl
  by_cases hlo : l.ok = true
  · rw [if_pos hlo] at h
    have ha := hr.accept hlo c hc
    split at h
    · subst h
      cases hok
    · obtain ⟨x', hx, rfl⟩ := h
      show Acceptable s (meas c (colOf (x' 0) c))
      have key : ∀ (n i : Nat) (a b : Nat → Mtx K), 0 < i → inmemOthersCw ex l.stat i n a b → b 0 = a 0 := by
        intro n
        induction n with
        | zero => intro i a b _ h; have h : b = a := h; rw [h]
        | succ n ih =>
          rintro i a b hi ⟨d1, ⟨m', _, rfl⟩, h2⟩
          rw [ih (i + 1) _ _ (by omega) h2]
          simp only [setAt, if_neg (show ¬ 0 = i by omega)]
      rw [key _ _ _ _ (by omega) hx]
      exact ha
  · rw [if_neg hlo] at h
    subst h
    exact absurd hok hlo

/-- The transforming data source. What it applies to batches is the accumulated statistic as long as the first step of the run shifted the data, or the
mean is not normalised at all. -/
theorem transf_chain (meas : (K → K) → Meas K) (l : List (Stat K)) (p' : Option (Stat K))
    (hsc : ∀ a ∈ l, a.bScale = false → a.sc = 1)
    (hc : (∀ a ∈ l, a.bOffset = false) ∨ ∀ a ∈ l.head?, a.bOffset = true) (h : Chain (transf meas).fixTrain l none p') :
    ∀ v, prmsApply p' v = replay l v := by
  have pa : ∀ (st : Stat K) v, prmsApply (some st) v = stepFn st v := by
    intro st v
    show (if st.bScale then (if st.bOffset then st.sc * v + st.ofs else v * st.sc) else if st.bOffset then v + st.ofs else v) = _
    rw [stepFn_eq, mul_comm v]
    cases st.bScale <;> cases st.bOffset <;> rfl
  have clean : ∀ (l : List (Stat K)) (st : Stat K) (p' : Option (Stat K)), st.Clean → Chain (transf meas).fixTrain l (some st) p' →
      ∀ v, prmsApply p' v = replay l (stepFn st v) := by
    intro l
    induction l with
    | nil => intro st p' _ h v; have h : p' = some st := h; rw [h, pa]; rfl
    | cons a l ih =>
      rintro st p' hcl ⟨x1, hx, h2⟩ v
      have hx : x1 = some (st.updAll a) := hx
      subst hx
      obtain ⟨c, e⟩ := Stat.updAll_spec hcl a
      rw [ih _ _ c h2 v, e]; rfl
  have noofs : ∀ (l : List (Stat K)) (st : Stat K) (p' : Option (Stat K)), (∀ a ∈ l, a.bOffset = false) → st.bOffset = false → (st.bScale = false → st.sc = 1) →
      Chain (transf meas).fixTrain l (some st) p' → ∀ v, prmsApply p' v = replay l (stepFn st v) := by
    intro l
    induction l with
    | nil => intro st p' _ _ _ h v; have h : p' = some st := h; rw [h, pa]; rfl
    | cons a l ih =>
      rintro st p' hl h0 h1 ⟨x1, hx, h2⟩ v
      have hx : x1 = some (st.updAll a) := hx
      subst hx
      have ha := hl a (List.mem_cons_self ..)
      have hb : (st.updAll a).bOffset = false := by unfold Stat.updAll; simp only [ha, Bool.false_eq_true, if_false]; split <;> simpa [Stat.updScale] using h0
      have hsc : (st.updAll a).bScale = false → (st.updAll a).sc = 1 := by
        unfold Stat.updAll; simp only [ha, Bool.false_eq_true, if_false]
        split
        · intro hh; simp [Stat.updScale] at hh
        · exact h1
      rw [ih _ _ (fun b hb => hl b (List.mem_cons_of_mem _ hb)) hb hsc h2 v]
      show replay l _ = replay l (stepFn a (stepFn st v))
      congr 1
      rw [stepFn_eq, stepFn_eq a, stepFn_eq st, hb, ha, h0]
      unfold Stat.updAll
      simp only [ha, Bool.false_eq_true, if_false]
      by_cases hs : a.bScale = true
      · simp only [hs, if_true, Stat.updScale]
        by_cases hs2 : st.bScale = true
        · rw [if_pos hs2]; ring
        · rw [if_neg hs2, h1 (by simpa using hs2)]; ring
      · simp only [hs, Bool.false_eq_true, if_false]
  cases l with
  | nil => intro v; have h : p' = none := h; rw [h]; rfl
  | cons a l =>
    obtain ⟨x1, hx, h2⟩ := h
    have hx : x1 = some a := hx
    subst hx
    intro v
    rcases hc with hc | hc
    · exact noofs l a p' (fun b hb => hc b (List.mem_cons_of_mem _ hb)) (hc a (List.mem_cons_self ..)) (hsc a (List.mem_cons_self ..)) h2 v
    · have h1 := hc a (by simp)
      exact clean l a p' ⟨hsc a (List.mem_cons_self ..), fun hh => by rw [h1] at hh; cases hh⟩ h2 v

/-- **C74** (whole, transforming data source; partial). Success means within tolerance, provided that the first step of the run shifted the data or the mean is
not to be normalised. Without this the claim is false: `transf_misses_target`. -/
theorem transf_within_tolerance_partial (meas : (K → K) → Meas K) (s : Setts K) (hs : s.should = true) (r : Res (Option (Stat K)) (Stat K))
    (h : transfWhole meas s r) (hok : r.ok = true) (hc : s.normCentral = false ∨ ∀ a ∈ r.sent.head?, a.bOffset = true) :
    Acceptable s (meas (prmsApply r.state)) ∧ ∀ v, prmsApply r.state v = replay r.sent v := by
  unfold transfWhole normalizeDataWhole at h
  rw [if_neg (by simp [hs])] at h
  obtain ⟨l, hl, h⟩ := h
  have hr := normalizeWhole_right hs hl
  by_cases hlo : l.ok = true
  · rw [if_pos hlo] at h
    have ha := hr.accept hlo
    by_cases hf : (!l.stat.bScale && !l.stat.bOffset) = true
    · rw [if_pos hf] at h
      subst h
      cases hok
    · rw [if_neg hf] at h
      obtain ⟨x', rfl, rfl⟩ := h
      have hch := transf_chain meas l.sent l.state (fun a ha => (hr.sound a ha).1)
        (hc.imp (fun h a ha => (hr.sound a ha).2 h) (fun h => h)) hr.chain
      have hfin : ∀ v, prmsApply (some l.stat) v = replay l.sent v := by
        intro v
        have : prmsApply (some l.stat) v = stepFn l.stat v := by
          show (if l.stat.bScale then (if l.stat.bOffset then l.stat.sc * v + l.stat.ofs else v * l.stat.sc) else if l.stat.bOffset then v + l.stat.ofs else v) = _
          rw [stepFn_eq, mul_comm v]
          cases l.stat.bScale <;> cases l.stat.bOffset <;> rfl
        rw [this, hr.accum v, stepFn_init]
      have he : prmsApply (some l.stat) = prmsApply l.state := funext fun v => by rw [hfin, hch]
      refine ⟨?_, hfin⟩
      show Acceptable s (meas (prmsApply (some l.stat)))
      rw [he]; exact ha
  · rw [if_neg hlo] at h
    subst h
    exact absurd hok hlo

/-- Two numbers, 3 and 7; their mean and their standard deviation (half of their distance). -/
def demoMeas (f : ℚ → ℚ) : Meas ℚ :=
  { scale := (f 7 - f 3) / 2, central := (f 7 + f 3) / 2, special := decide (f 7 = f 3), scaleGood := true, centralGood := true }

/-- Deviation 4 and mean 5 are wanted. -/
def demoSetts : Setts ℚ :=
  { targetScale := 4, targetCentral := 5, scaleTol := 1 / 100, centralTol := 1 / 100, maxTries := 20, normScale := true, normCentral := true, badBreak := true }

/-- **C74 is false of the transforming data source.** The mean is good at first and only the scale is changed; the data source then takes the measured mean
for an offset it is applying. The run ends with a report of success, and with the mean 0 instead of 5. -/
theorem transf_misses_target : ∃ r, transfWhole demoMeas demoSetts r ∧ r.ok = true ∧ ¬ Acceptable demoSetts (demoMeas (prmsApply r.state)) ∧
    (demoMeas (prmsApply r.state)).central = 0 := by
  have a1 : demoMeas (prmsApply none) = ⟨2, 5, false, true, true⟩ := by norm_num [demoMeas, prmsApply]
  have a2 : demoMeas (prmsApply (some ⟨2, 5, true, false⟩)) = ⟨4, 10, false, true, true⟩ := by norm_num [demoMeas, prmsApply]
  have a3 : demoMeas (prmsApply (some ⟨2, 0, true, true⟩)) = ⟨4, 10, false, true, true⟩ := by norm_num [demoMeas, prmsApply]
  have a4 : demoMeas (prmsApply (some ⟨2, -5, true, true⟩)) = ⟨4, 5, false, true, true⟩ := by norm_num [demoMeas, prmsApply]
  have a5 : demoMeas (prmsApply (some ⟨2, -10, true, true⟩)) = ⟨4, 0, false, true, true⟩ := by norm_num [demoMeas, prmsApply]
  have d1 : doScale demoSetts ⟨2, 5, false, true, true⟩ = true ∧ doCentral demoSetts ⟨2, 5, false, true, true⟩ = false := by
    constructor <;> simp only [doScale, doCentral, scaleOk, centralOk, demoSetts] <;> norm_num [abs_of_neg, abs_of_pos]
  have d2 : doScale demoSetts ⟨4, 10, false, true, true⟩ = false ∧ doCentral demoSetts ⟨4, 10, false, true, true⟩ = true := by
    constructor <;> simp only [doScale, doCentral, scaleOk, centralOk, demoSetts] <;> norm_num [abs_of_neg, abs_of_pos]
  have d3 : doScale demoSetts ⟨4, 5, false, true, true⟩ = false ∧ doCentral demoSetts ⟨4, 5, false, true, true⟩ = false := by
    constructor <;> simp only [doScale, doCentral, scaleOk, centralOk, demoSetts] <;> norm_num [abs_of_neg, abs_of_pos]
  have s1 : scaleOk demoSetts ⟨2, 5, false, true, true⟩ = false := by simp only [scaleOk, demoSetts]; norm_num [abs_of_neg, abs_of_pos]
  have s2 : centralOk demoSetts ⟨4, 10, false, true, true⟩ = false := by simp only [centralOk, demoSetts]; norm_num [abs_of_neg, abs_of_pos]
  refine ⟨⟨true, ⟨2, -10, true, true⟩, some ⟨2, -10, true, true⟩,
    [⟨2, 5, true, false⟩, ⟨1, -5, false, true⟩, ⟨1, -5, false, true⟩]⟩, ?_, rfl, ?_, ?_⟩
  · unfold transfWhole normalizeDataWhole
    rw [if_neg (by decide)]
    refine ⟨⟨true, ⟨2, -10, true, true⟩, some ⟨2, -5, true, true⟩,
      [⟨2, 5, true, false⟩, ⟨1, -5, false, true⟩, ⟨1, -5, false, true⟩]⟩, ?_, ?_⟩
    · unfold normalizeWhole
      rw [if_neg (by decide)]
      show wholeLoop demoSetts (transf demoMeas) 20 .init none _
      unfold wholeLoop
      simp only [transf, a1, d1, s1]
      refine ⟨some ⟨2, 5, true, false⟩, by norm_num [transfFix, normStep, demoSetts], ⟨true, ⟨2, -10, true, true⟩, some ⟨2, -5, true, true⟩,
        [⟨1, -5, false, true⟩, ⟨1, -5, false, true⟩]⟩, ?_, by norm_num [normStep, demoSetts]⟩
      unfold wholeLoop
      simp only [a2, d2, s2]
      refine ⟨some ⟨2, 0, true, true⟩, by norm_num [transfFix, normStep, demoSetts, Stat.updAll, Stat.updOfs], ⟨true, ⟨2, -10, true, true⟩,
        some ⟨2, -5, true, true⟩, [⟨1, -5, false, true⟩]⟩, ?_, by norm_num [normStep, demoSetts]⟩
      unfold wholeLoop
      simp only [a3, d2, s2]
      refine ⟨some ⟨2, -5, true, true⟩, by norm_num [transfFix, normStep, demoSetts, Stat.updAll, Stat.updOfs], ⟨true, ⟨2, -10, true, true⟩,
        some ⟨2, -5, true, true⟩, []⟩, ?_, by norm_num [normStep, demoSetts]⟩
      unfold wholeLoop
      simp only [a4, d3]
      refine ⟨_, rfl, ?_⟩
      norm_num [normStep, demoSetts, Stat.updScale, Stat.updOfs, Stat.init]
    · exact ⟨_, rfl, rfl⟩
  · show ¬ Acceptable demoSetts (demoMeas (prmsApply (some ⟨2, -10, true, true⟩)))
    rw [a5]
    intro h
    have := h.2 rfl rfl
    norm_num [demoSetts, abs_of_neg] at this
  · show (demoMeas (prmsApply (some ⟨2, -10, true, true⟩))).central = 0
    rw [a5]

/-! ### C75: data that need no normalisation -/

/-- **C75** (partial): data that are within tolerance already are left alone, ... -/
theorem already_normalised_untouched_partial {ex : Nat → Exec} (meas : Mtx K → Meas K) (dc : Nat) (s : Setts K) (hs : s.should = true)
    (ds : Nat → Mtx K) (ha : Acceptable s (meas (ds 0))) (r : Res (Nat → Mtx K) (Stat K)) (h : inmemWhole ex meas dc s ds r) :
    r.state = ds ∧ r.sent = [] := by
  unfold inmemWhole normalizeDataWhole at h
  rw [if_neg (by simp [hs])] at h
  obtain ⟨l, hl, h⟩ := h
  have hr := normalizeWhole_right hs hl
  have hse := hr.first ha
  have hch := hr.chain
  rw [hse] at hch
  have hst : l.state = ds := hch
  have hfl := hr.flags
  rw [hse] at hfl
  have hfl' : l.stat.bScale = false ∧ l.stat.bOffset = false := by
    simpa [Stat.init] using hfl
  by_cases hlo : l.ok = true
  · rw [if_pos hlo, if_pos (by simp [hfl'])] at h
    subst h
    exact ⟨hst, hse⟩
  · rw [if_neg hlo] at h
    subst h
    exact ⟨hst, hse⟩

/-- ... **but C75 is false**: the normalisation of such data never reports success. -/
theorem already_normalised_fails {ex : Nat → Exec} (meas : Mtx K → Meas K) (dc : Nat) (s : Setts K) (hs : s.should = true)
    (ds : Nat → Mtx K) (ha : Acceptable s (meas (ds 0))) (r : Res (Nat → Mtx K) (Stat K)) (h : inmemWhole ex meas dc s ds r) : r.ok = false := by
  unfold inmemWhole normalizeDataWhole at h
  rw [if_neg (by simp [hs])] at h
  obtain ⟨l, hl, h⟩ := h
  have hr := normalizeWhole_right hs hl
  have hfl := hr.flags
  rw [hr.first ha] at hfl
  have hfl' : l.stat.bScale = false ∧ l.stat.bOffset = false := by
    simpa [Stat.init] using hfl
  by_cases hlo : l.ok = true
  · rw [if_pos hlo, if_pos (by simp [hfl'])] at h
    rw [h]
  · rw [if_neg hlo] at h
    subst h
    simpa using hlo

/-! ### The hypotheses can be met -/

/-- Every normalisation has an outcome. -/
theorem whole_run_exists (ex : Nat → Exec) (meas : Mtx K → Meas K) (dc : Nat) (s : Setts K) (ds : Nat → Mtx K) : ∃ r, inmemWhole ex meas dc s ds r := by
  have fixE : ∀ (st : Stat K) (i : Nat) (ds : Nat → Mtx K), ∃ ds', inmemFix ex st i ds ds' := fun st i ds => by
    obtain ⟨m', hm⟩ := whole_exists (ex i) st (ds i)
    exact ⟨_, m', hm, rfl⟩
  have othE : ∀ (st : Stat K) (n i : Nat) (ds : Nat → Mtx K), ∃ ds', inmemOthers ex st i n ds ds' := by
    intro st n
    induction n with
    | zero => intro i ds; exact ⟨ds, rfl⟩
    | succ n ih =>
      intro i ds
      obtain ⟨d1, h1⟩ := fixE st i ds
      obtain ⟨d2, h2⟩ := ih (i + 1) d1
      exact ⟨d2, d1, h1, h2⟩
  have loopE : ∀ (n : Nat) (st : Stat K) (x : Nat → Mtx K), ∃ r, wholeLoop s (inmem ex meas) n st x r := by
    intro n
    induction n with
    | zero => intro st x; exact ⟨_, rfl⟩
    | succ n ih =>
      intro st x
      unfold wholeLoop
      dsimp only
      split
      · exact ⟨_, rfl⟩
      · by_cases hd : (doScale s ((inmem ex meas).meas x) || doCentral s ((inmem ex meas).meas x)) = true
        · simp only [hd, if_true]
          obtain ⟨x1, hx⟩ := fixE (normStep s st ((inmem ex meas).meas x).scale ((inmem ex meas).meas x).central (doScale s ((inmem ex meas).meas x))
            (doCentral s ((inmem ex meas).meas x))).2 0 x
          by_cases hstop : ((!doScale s ((inmem ex meas).meas x) || scaleOk s ((inmem ex meas).meas x)) &&
              (!doCentral s ((inmem ex meas).meas x) || centralOk s ((inmem ex meas).meas x))) = true
          · simp only [hstop, if_true]
            exact ⟨_, x1, hx, rfl⟩
          · simp only [hstop]
            obtain ⟨r', hr'⟩ := ih _ x1
            exact ⟨_, x1, hx, r', hr', rfl⟩
        · simp only [hd]
          by_cases hstop : ((!doScale s ((inmem ex meas).meas x) || scaleOk s ((inmem ex meas).meas x)) &&
              (!doCentral s ((inmem ex meas).meas x) || centralOk s ((inmem ex meas).meas x))) = true
          · simp only [hstop, if_true]
            exact ⟨_, x, rfl, rfl⟩
          · simp only [hstop]
            obtain ⟨r', hr'⟩ := ih _ x
            exact ⟨_, x, rfl, r', hr', rfl⟩
  unfold inmemWhole normalizeDataWhole normalizeWhole
  split
  · exact ⟨_, rfl⟩
  · have key : ∀ l, (∃ r, if Res.ok l = true then if (!l.stat.bScale && !l.stat.bOffset) = true then r = ⟨false, l.stat, l.state, l.sent⟩
        else ∃ x', inmemOthers ex l.stat 1 (dc - 1) l.state x' ∧ r = (⟨true, l.stat, x', l.sent⟩ : Res (Nat → Mtx K) (Stat K)) else r = l) := by
      intro l
      split
      · split
        · exact ⟨_, rfl⟩
        · obtain ⟨x', hx⟩ := othE l.stat (dc - 1) 1 l.state
          exact ⟨_, x', hx, rfl⟩
      · exact ⟨_, rfl⟩
    split
    · obtain ⟨r, hr⟩ := key ⟨true, .init, ds, []⟩
      exact ⟨r, _, rfl, hr⟩
    · obtain ⟨l, hl⟩ := loopE s.maxTries .init ds
      obtain ⟨r, hr⟩ := key l
      exact ⟨r, l, hl, hr⟩

/-- A training matrix with the numbers 3 and 7 in one column. -/
def demoMtx : Mtx ℚ :=
  { data := fun k => if k = 0 then 3 else 7, cap := 2, rows := 2, cols := 1, emul := false, ext := false, holey := false, bir := false, maxSize := 2 }

/-- The mean and the deviation of the two numbers. -/
def demoStat (m : Mtx ℚ) : Meas ℚ :=
  { scale := (m.data 1 - m.data 0) / 2, central := (m.data 1 + m.data 0) / 2, special := decide (m.data 1 = m.data 0), scaleGood := true, centralGood := true }

/-- A successful normalisation in two steps (the same numbers and settings as in `transf_misses_target`). -/
theorem demo_success (ex : Nat → Exec) (hex : ∀ i, (ex i).Ok) : ∃ r, inmemWhole ex demoStat 2 demoSetts (fun _ => demoMtx) r ∧ r.ok = true ∧
    r.sent.length = 2 ∧ (demoStat (r.state 0)).central = 5 := by
  have hp : Proper demoMtx := ⟨by decide, by decide⟩
  obtain ⟨m1, hm1⟩ := whole_exists (ex 0) (⟨2, 5, true, false⟩ : Stat ℚ) demoMtx
  have c1 := whole_changed (hex 0) hp hm1
  have hp1 := c1.proper hp
  obtain ⟨m2, hm2⟩ := whole_exists (ex 0) (⟨1, -5, false, true⟩ : Stat ℚ) m1
  have c2 := whole_changed (hex 0) hp1 hm2
  obtain ⟨e1, e2, e3, -⟩ := c1.dims
  have v10 : m1.data 0 = 6 := by
    have := c1.elems 0 0 (by decide) (by decide)
    rw [show demoMtx.cell 0 0 = 0 from rfl] at this
    rw [this]; norm_num [stepFn, demoMtx]
  have v11 : m1.data 1 = 14 := by
    have := c1.elems 1 0 (by decide) (by decide)
    rw [show demoMtx.cell 1 0 = 1 from rfl] at this
    rw [this]; norm_num [stepFn, demoMtx]
  have v20 : m2.data 0 = 1 := by
    have := c2.elems 0 0 (by rw [e2]; decide) (by rw [e3]; decide)
    rw [show m1.cell 0 0 = 0 by unfold Mtx.cell; simp] at this
    rw [this, v10]; norm_num [stepFn]
  have v21 : m2.data 1 = 9 := by
    have := c2.elems 1 0 (by rw [e2]; decide) (by rw [e3]; decide)
    rw [show m1.cell 1 0 = 1 by unfold Mtx.cell; simp] at this
    rw [this, v11]; norm_num [stepFn]
  have a1 : demoStat demoMtx = ⟨2, 5, false, true, true⟩ := by norm_num [demoStat, demoMtx]
  have a2 : demoStat m1 = ⟨4, 10, false, true, true⟩ := by norm_num [demoStat, v10, v11]
  have a3 : demoStat m2 = ⟨4, 5, false, true, true⟩ := by norm_num [demoStat, v20, v21]
  have d1 : doScale demoSetts ⟨2, 5, false, true, true⟩ = true ∧ doCentral demoSetts ⟨2, 5, false, true, true⟩ = false := by
    constructor <;> simp only [doScale, doCentral, scaleOk, centralOk, demoSetts] <;> norm_num [abs_of_neg, abs_of_pos]
  have d2 : doScale demoSetts ⟨4, 10, false, true, true⟩ = false ∧ doCentral demoSetts ⟨4, 10, false, true, true⟩ = true := by
    constructor <;> simp only [doScale, doCentral, scaleOk, centralOk, demoSetts] <;> norm_num [abs_of_neg, abs_of_pos]
  have d3 : doScale demoSetts ⟨4, 5, false, true, true⟩ = false ∧ doCentral demoSetts ⟨4, 5, false, true, true⟩ = false := by
    constructor <;> simp only [doScale, doCentral, scaleOk, centralOk, demoSetts] <;> norm_num [abs_of_neg, abs_of_pos]
  have s1 : scaleOk demoSetts ⟨2, 5, false, true, true⟩ = false := by simp only [scaleOk, demoSetts]; norm_num [abs_of_neg, abs_of_pos]
  have s2 : centralOk demoSetts ⟨4, 10, false, true, true⟩ = false := by simp only [centralOk, demoSetts]; norm_num [abs_of_neg, abs_of_pos]
  let x0 : Nat → Mtx ℚ := fun _ => demoMtx
  let x1 := setAt x0 0 m1
  let x2 := setAt x1 0 m2
  have hloop : normalizeWhole demoSetts (inmem ex demoStat) x0 ⟨true, ⟨2, -5, true, true⟩, x2, [⟨2, 5, true, false⟩, ⟨1, -5, false, true⟩]⟩ := by
    unfold normalizeWhole
    rw [if_neg (by decide)]
    show wholeLoop demoSetts (inmem ex demoStat) 20 .init x0 _
    have b1 : (inmem ex demoStat).meas x0 = ⟨2, 5, false, true, true⟩ := a1
    have b2 : (inmem ex demoStat).meas x1 = ⟨4, 10, false, true, true⟩ := a2
    have b3 : (inmem ex demoStat).meas x2 = ⟨4, 5, false, true, true⟩ := a3
    unfold wholeLoop
    simp only [b1, d1, s1]
    refine ⟨x1, ?_, ⟨true, ⟨2, -5, true, true⟩, x2, [⟨1, -5, false, true⟩]⟩, ?_, by norm_num [normStep, demoSetts]⟩
    · have hz : (normStep demoSetts .init 2 5 true false).2 = ⟨2, 5, true, false⟩ := by norm_num [normStep, demoSetts]
      simp only [Bool.or_false, if_true, hz]
      exact ⟨m1, hm1, rfl⟩
    unfold wholeLoop
    simp only [b2, d2, s2]
    refine ⟨x2, ?_, ⟨true, ⟨2, -5, true, true⟩, x2, []⟩, ?_, by norm_num [normStep, demoSetts]⟩
    · have hz : ∀ st : Stat ℚ, (normStep demoSetts st 4 10 false true).2 = ⟨1, -5, false, true⟩ := fun st => by norm_num [normStep, demoSetts]
      simp only [Bool.false_or, if_true, hz]
      exact ⟨m2, hm2, rfl⟩
    unfold wholeLoop
    simp only [b3, d3]
    refine ⟨_, rfl, ?_⟩
    norm_num [normStep, demoSetts, Stat.updScale, Stat.updOfs, Stat.init]
  obtain ⟨m3, hm3⟩ := whole_exists (ex 1) (⟨2, -5, true, true⟩ : Stat ℚ) (x2 1)
  refine ⟨⟨true, ⟨2, -5, true, true⟩, setAt x2 1 m3, [⟨2, 5, true, false⟩, ⟨1, -5, false, true⟩]⟩, ?_, rfl, rfl, ?_⟩
  · unfold inmemWhole normalizeDataWhole
    rw [if_neg (by decide)]
    refine ⟨_, hloop, ?_⟩
    show ∃ x', inmemOthers ex ⟨2, -5, true, true⟩ 1 1 x2 x' ∧ _
    exact ⟨_, ⟨_, ⟨m3, hm3, rfl⟩, rfl⟩, rfl⟩
  · show (demoStat m2).central = 5
    rw [a3]

end Nntl.Norm
