import Verif.Report.Lemmas
import Verif.TrainData.InitProps
import Verif.Train.Model
import Mathlib.Tactic.Linarith
import Mathlib.Tactic.NormNum
import Mathlib.Algebra.BigOperators.Field
/-! Property theorems C86 about the loss that is reported. -/
namespace Nntl.Report
open Nntl.Matrix Nntl.Kernel Nntl.TrainData Finset
variable {W α β : Type} [OfNat α 1] [OfNat β 1]

/-- What is added to the losses of the batches: the addenda of the layers for the current weights and the activations of the last batch. -/
noncomputable def added (nn : Nn W α β) (st : St W α) (bs : List (Mtx α × Mtx β)) : ℝ :=
  if st.full then nn.addendum st.w ((bs.getLast?.map (·.1)).getD st.x) else 0

/-- The addenda of `added` are those of any batch, if there are no penalties on activations. -/
theorem added_eq {nn : Nn W α β} (hok : nn.FlagOk) (hA : nn.hasA = false) (st : St W α) (bs : List (Mtx α × Mtx β)) (x : Mtx α) :
    added nn st bs = if st.full then nn.addendum st.w x else 0 := by
  unfold added Nn.addendum
  split
  · congr 1
    exact List.map_congr_left fun f hf => hok hA f hf _ _ _
  · rfl

/-- C86. What is reported for a data set: the *sum* over the batches of their mean losses, plus the addenda once. The batches hold `b` samples
each, the last one possibly less. -/
theorem reported_value {nn : Nn W α β} {st : St W α} (hc : nn.hasA = true ∨ st.cache = 0 ∨ ∀ x, st.cache = nn.addendum st.w x) {d : Data α β} {s : SetId}
    {maxF : ℕ} {bs : List (Mtx α × Mtx β)} (hw : Walk d s maxF bs) {g : List (Option α) → List (Option β) → ℝ} (hg : SampleWise (nn.loss st.w) g) :
    ∃ b n, b = min maxF (d.count s) ∧ 0 < b ∧ n = d.count s / b + (if d.count s % b > 1 then 1 else 0) ∧
      (calcLoss nn st bs).1 = ∑ i ∈ range n, (∑ k ∈ Ico (i * b) (min ((i + 1) * b) (d.count s)), sampleLoss g d s k) /
          (min ((i + 1) * b) (d.count s) - i * b : ℕ) + added nn st bs := by
  obtain ⟨b, h1, h2, h3, h4⟩ := walk_sum hw hg
  refine ⟨b, bs.length, h1, h2, h3, ?_⟩
  rw [calcLoss_eq' nn st bs hc, h4]
  rfl

/-- C86, partial. If the whole set fits into one forward pass, the mean loss of the set is reported, plus the addenda. -/
theorem reported_mean_partial {nn : Nn W α β} {st : St W α} (hc : nn.hasA = true ∨ st.cache = 0 ∨ ∀ x, st.cache = nn.addendum st.w x) {d : Data α β}
    {s : SetId} {maxF : ℕ} {bs : List (Mtx α × Mtx β)} (hw : Walk d s maxF bs) {g : List (Option α) → List (Option β) → ℝ}
    (hg : SampleWise (nn.loss st.w) g) (hfit : d.count s ≤ maxF) : (calcLoss nn st bs).1 = meanLoss g d s + added nn st bs := by
  obtain ⟨b, n, h1, h2, h3, h4⟩ := reported_value hc hw hg
  have hb : b = d.count s := by omega
  subst hb
  have : n = 1 := by rw [h3, Nat.div_self h2, Nat.mod_self]; simp
  subst this
  rw [h4]
  simp [meanLoss]

/-- C86. If the set is cut into batches of equal sizes, the mean loss is reported times the number of batches. -/
theorem reported_times_batches {nn : Nn W α β} {st : St W α} (hc : nn.hasA = true ∨ st.cache = 0 ∨ ∀ x, st.cache = nn.addendum st.w x) {d : Data α β}
    {s : SetId} {maxF : ℕ} {bs : List (Mtx α × Mtx β)} (hw : Walk d s maxF bs) {g : List (Option α) → List (Option β) → ℝ}
    (hg : SampleWise (nn.loss st.w) g) (k : ℕ) (hk : d.count s = k * maxF) :
    (calcLoss nn st bs).1 = k * meanLoss g d s + added nn st bs := by
  have hcnt := hw.ok.count s
  obtain ⟨b, n, h1, h2, h3, h4⟩ := reported_value hc hw hg
  have hk0 : 0 < k := Nat.pos_of_ne_zero fun h => by simp [h] at hk; omega
  have hb : b = maxF := by
    have : 1 * maxF ≤ k * maxF := Nat.mul_le_mul_right _ hk0
    omega
  subst hb
  have hn : n = k := by rw [h3, hk, Nat.mul_div_cancel _ h2, Nat.mul_mod_left]; simp
  subst hn
  rw [h4]
  congr 1
  have hsum : ∀ i ∈ range n, (∑ j ∈ Ico (i * b) (min ((i + 1) * b) (d.count s)), sampleLoss g d s j) / ((min ((i + 1) * b) (d.count s) - i * b : ℕ) : ℝ) =
      (∑ j ∈ Ico (i * b) ((i + 1) * b), sampleLoss g d s j) / b := by
    intro i hi
    have hi := mem_range.1 hi
    have h5 : (i + 1) * b ≤ n * b := Nat.mul_le_mul_right _ hi
    rw [show min ((i + 1) * b) (d.count s) = (i + 1) * b by omega, show (i + 1) * b - i * b = b by rw [Nat.add_mul]; omega]
  rw [sum_congr rfl hsum, ← sum_div]
  have htel : ∀ m, ∑ i ∈ range m, ∑ j ∈ Ico (i * b) ((i + 1) * b), sampleLoss g d s j = ∑ j ∈ range (m * b), sampleLoss g d s j := by
    intro m
    induction m with
    | zero => simp
    | succ m ih =>
      rw [sum_range_succ, ih, ← sum_range_add_sum_Ico _ (Nat.mul_le_mul_right b (Nat.le_succ m))]
  rw [htel, meanLoss, hk]
  have hb0 : (b : ℝ) ≠ 0 := by exact_mod_cast h2.ne'
  have hn0 : (n : ℝ) ≠ 0 := by exact_mod_cast hk0.ne'
  push_cast
  field_simp

/-- C86 fails: as soon as the set takes several batches of equal sizes, what is reported is not the mean loss, whatever the network, unless the mean
loss is zero. -/
theorem reported_not_mean {nn : Nn W α β} {st : St W α} (hc : nn.hasA = true ∨ st.cache = 0 ∨ ∀ x, st.cache = nn.addendum st.w x) {d : Data α β}
    {s : SetId} {maxF : ℕ} {bs : List (Mtx α × Mtx β)} (hw : Walk d s maxF bs) {g : List (Option α) → List (Option β) → ℝ}
    (hg : SampleWise (nn.loss st.w) g) (k : ℕ) (hk : d.count s = k * maxF) (h2 : 2 ≤ k) (hm : meanLoss g d s ≠ 0) :
    (calcLoss nn st bs).1 ≠ meanLoss g d s + added nn st bs := by
  rw [reported_times_batches hc hw hg k hk]
  intro h
  have h : (k : ℝ) * meanLoss g d s = 1 * meanLoss g d s := by linarith
  have := mul_right_cancel₀ hm h
  have : k = 1 := by exact_mod_cast this
  omega

/-- C86 fails in another way: with a remainder of one, the last sample of the set does not enter the reported value. -/
theorem last_sample_not_counted {nn : Nn W α β} {st : St W α} (hc : nn.hasA = true ∨ st.cache = 0 ∨ ∀ x, st.cache = nn.addendum st.w x) {d : Data α β}
    {s : SetId} {maxF : ℕ} {bs : List (Mtx α × Mtx β)} (hw : Walk d s maxF bs) {g g' : List (Option α) → List (Option β) → ℝ}
    (hg : SampleWise (nn.loss st.w) g) (k : ℕ) (hk0 : 0 < k) (hF : 2 ≤ maxF) (hk : d.count s = k * maxF + 1)
    (hsame : ∀ j, j + 1 < d.count s → sampleLoss g' d s j = sampleLoss g d s j) :
    (calcLoss nn st bs).1 = ∑ i ∈ range k, (∑ j ∈ Ico (i * maxF) ((i + 1) * maxF), sampleLoss g' d s j) / maxF + added nn st bs := by
  obtain ⟨b, n, h1, h2, h3, h4⟩ := reported_value hc hw hg
  have h5 : 1 * maxF ≤ k * maxF := Nat.mul_le_mul_right _ hk0
  have hb : b = maxF := by omega
  subst hb
  have hn : n = k := by
    rw [h3, hk, Nat.mul_comm k b, Nat.mul_add_mod, Nat.mod_eq_of_lt (by omega), Nat.mul_add_div h2, Nat.div_eq_of_lt (by omega)]
    simp
  subst hn
  rw [h4]
  congr 1
  refine sum_congr rfl fun i hi => ?_
  have hi := mem_range.1 hi
  have h5 : (i + 1) * b ≤ n * b := Nat.mul_le_mul_right _ hi
  rw [show min ((i + 1) * b) (d.count s) = (i + 1) * b by omega, show (i + 1) * b - i * b = b by rw [Nat.add_mul]; omega]
  congr 1
  refine sum_congr rfl fun j hj => ?_
  have hj := mem_Ico.1 hj
  exact (hsame j (by omega)).symm

/-- C86. Whatever happened before, the reports made by `train()` use the current weights: nothing depends on the cached addendum. -/
theorem report_fresh (nn : Nn W α β) (hok : nn.FlagOk) (st : St W α) (tr te : List (Mtx α × Mtx β)) :
    (report nn st tr te).1 =
      ((tr.map fun p => nn.loss st.w p.1 p.2 / p.2.batchSize).sum + added nn st tr,
       (te.map fun p => nn.loss st.w p.1 p.2 / p.2.batchSize).sum + added nn { st with x := (tr.getLast?.map (·.1)).getD st.x } te) := by
  have h1 := calcLoss_eq nn (reset st) tr (.inr rfl)
  obtain ⟨f1, f2, f3⟩ := calcLoss_frame nn (reset st) tr
  have h2 : nn.hasA = true ∨ (calcLoss nn (reset st) tr).2.cache = 0 ∨
      ∀ x, (calcLoss nn (reset st) tr).2.cache = nn.addendum (calcLoss nn (reset st) tr).2.w x := by
    rw [f1]
    cases hA : nn.hasA with
    | true => exact .inl rfl
    | false => exact .inr (calcLoss_cache nn hok (reset st) tr hA (.inl rfl))
  have h3 := calcLoss_eq' nn (calcLoss nn (reset st) tr).2 te h2
  unfold report
  dsimp only
  rw [h1, h3, f1, f2, f3]
  rfl

/-- C86. In particular after any history of training steps, callbacks, reports and calculations started by callbacks. -/
theorem report_after_any_history (nn : Nn W α β) (hok : nn.FlagOk) (hA : nn.hasA = false) (st : St W α) (os : List (Op W α β))
    (tr te : List (Mtx α × Mtx β)) (x : Mtx α) :
    let st' := runOps nn st os
    (report nn st' tr te).1 =
      ((tr.map fun p => nn.loss st'.w p.1 p.2 / p.2.batchSize).sum + (if st.full then nn.addendum st'.w x else 0),
       (te.map fun p => nn.loss st'.w p.1 p.2 / p.2.batchSize).sum + (if st.full then nn.addendum st'.w x else 0)) := by
  intro st'
  have hf : ∀ (os : List (Op W α β)) (st : St W α), (runOps nn st os).full = st.full := by
    intro os
    induction os with
    | nil => intro _; rfl
    | cons o os ih =>
      intro st
      rw [runOps, ih]
      cases o with
      | change => rfl
      | report tr te =>
        show (calcLoss nn (calcLoss nn (reset st) tr).2 te).2.full = _
        rw [(calcLoss_frame _ _ _).2.1, (calcLoss_frame _ _ _).2.1]
        rfl
      | «calc» bs => exact (calcLoss_frame _ _ _).2.1
  rw [report_fresh nn hok, added_eq hok hA _ _ x, added_eq hok hA _ _ x]
  simp only [st', hf]

/-- C86 fails for `calcLossAndReport` called by a user after a report and a change of the weights: the addendum of the old weights is used. One
weight 3 that becomes 5, an L2-like addendum, losses all zero. -/
theorem direct_call_stale : ∃ (nn : Nn ℝ ℕ ℕ) (st : St ℝ ℕ) (os : List (Op ℝ ℕ ℕ)) (bs : List (Mtx ℕ × Mtx ℕ)),
    nn.FlagOk ∧ nn.hasA = false ∧ (∀ w x y, nn.loss w x y = 0) ∧ (∀ w x, nn.addendum w x = w ^ 2) ∧
    (runOps nn (init nn true st) os).w = 5 ∧ (calcLoss nn (runOps nn (init nn true st) os) bs).1 = 3 ^ 2 := by
  let m : Mtx ℕ := Mtx.default fun _ => 0
  refine ⟨⟨fun _ _ _ => 0, [fun w _ => w ^ 2], fun _ => true, false⟩, ⟨3, m, 0, false⟩, [.report [(m, m)] [(m, m)], .change 5 m], [(m, m)],
    fun _ f hf w x x' => by simp only [List.mem_singleton] at hf; subst hf; rfl, rfl, fun _ _ _ => rfl, fun w x => by simp [Nn.addendum], ?_, ?_⟩
  · simp [runOps, step]
  · norm_num [runOps, step, report, calcLoss, loop, calcBatch, calcAddendum, reset, init]

/-- C86 fails if an addendum is switched on after the initialisation (the source has a remark about this): it is not part of what is reported. -/
theorem late_addendum_ignored : ∃ (nn : Nn ℝ ℕ ℕ) (st : St ℝ ℕ) (bs : List (Mtx ℕ × Mtx ℕ)),
    nn.FlagOk ∧ (∀ w x y, nn.loss w x y = 0) ∧ (∀ w, nn.hasW w = true ↔ ∃ x, nn.addendum w x ≠ 0) ∧
    let st' := runOps nn (init nn true st) [.change 5 st.x]
    nn.addendum st'.w st'.x ≠ 0 ∧ (report nn st' bs bs).1 = (0, 0) := by
  classical
  let m : Mtx ℕ := Mtx.default fun _ => 0
  refine ⟨⟨fun _ _ _ => 0, [fun w _ => w ^ 2], fun w => decide (w ≠ 0), false⟩, ⟨0, m, 0, false⟩, [(m, m)],
    fun _ f hf w x x' => by simp only [List.mem_singleton] at hf; subst hf; rfl, fun _ _ _ => rfl,
    fun w => by simp only [Nn.addendum]; simp [show Nonempty (Mtx ℕ) from ⟨m⟩], ?_⟩
  simp [runOps, step, report, calcLoss, loop, calcBatch, reset, init, Nn.addendum]

/-- C86. What follows for the check of divergence of `train()`: a training set cut into `k` equal batches counts as diverged if its mean loss is
above a `k`-th of the threshold the user has set. -/
theorem diverged_iff {nn : Nn W α β} (hok : nn.FlagOk) {st : St W α} (hf : st.full = false) {d : Data α β} {maxF : ℕ} {tr te : List (Mtx α × Mtx β)}
    (hw : Walk d .train maxF tr) {g : List (Option α) → List (Option β) → ℝ} (hg : SampleWise (nn.loss st.w) g) (k : ℕ)
    (hk : d.count .train = k * maxF) (o : Train.Opts ℝ) (v : Train.Env ℝ) (hge : ∀ a b, v.ge a b = true ↔ a ≥ b) (cd : Train.CD) (e : ℕ)
    (he : (e : ℤ) < o.divLast) (flag : Bool) (hl : v.loss e = (report nn st tr te).1.1) :
    (Train.afterBatches o v cd e flag).2.2 = true ↔ o.thr ≤ k * meanLoss g d .train := by
  have h1 : (report nn st tr te).1.1 = k * meanLoss g d .train := by
    rw [report_fresh nn hok]
    have h2 := reported_times_batches (nn := nn) (st := reset st) (.inr (.inl rfl)) hw hg k hk
    rw [calcLoss_eq nn (reset st) tr (.inr rfl)] at h2
    have ha : added nn (reset st) tr = 0 := by simp [added, reset, hf]
    have hb : added nn st tr = 0 := by simp [added, hf]
    rw [ha] at h2
    simp only [reset, hf, Bool.false_eq_true, if_false, add_zero] at h2
    simp only [hb, add_zero]
    exact h2
  rw [← h1, ← hl]
  unfold Train.afterBatches
  simp [he, hge]

/-! ### Cases that meet the hypotheses -/

/-- Every successful `walk_over_set` on reachable training data gives batches as assumed by the theorems above. -/
theorem walk_exists {vmax : ℕ} {d : Data α β} (hd : d.Ok) {t t1 : TD α β} (hr : Reach vmax d t) {s : SetId} {cd n : ℕ}
    (hw : walkOverSet t s cd (-1) false false = some (t1, n)) : ∃ bs, bs.length = n ∧ Walk d s t.maxFProp bs := by
  obtain ⟨run, h0, hrun⟩ := walk_run_exists hd hr hw
  obtain ⟨hI, hdd⟩ := reach_inv hd hr
  obtain ⟨hI1, -⟩ := inv_walk hI hw
  rw [← h0] at hI1
  have hp : t1.px ≠ .null ∧ t1.py ≠ .null := by
    obtain ⟨b0, -, -, -, -, b, -, -, hcase⟩ := walkOverSet_cases hw
    rcases hcase with ⟨-, bx, bY, px, py, hX, hY, rfl⟩ | ⟨-, rfl⟩
    · simp only [Bool.false_eq_true, false_and, false_or, true_and] at hX hY
      exact ⟨by rcases hX with h | h <;> simp [h], by rcases hY with h | h <;> simp [h]⟩
    · simp
  have hsome : ∀ i, i < n → (∃ x, batchX (run (i + 1)) = some x) ∧ ∃ y, batchY (run (i + 1)) = some y := by
    intro i hi
    obtain ⟨-, -, -, -, h5, h6⟩ := subsetRun_frame hI1 hrun (i + 1) (by omega)
    rw [h0] at h5 h6
    unfold batchX batchY
    rw [h5, h6]
    refine ⟨?_, ?_⟩
    · split
      · exact absurd (by assumption) hp.1
      · exact ⟨_, rfl⟩
      · exact ⟨_, rfl⟩
      · exact ⟨_, rfl⟩
    · split
      · exact absurd (by assumption) hp.2
      · exact ⟨_, rfl⟩
      · exact ⟨_, rfl⟩
      · exact ⟨_, rfl⟩
  refine ⟨List.ofFn fun i : Fin n => ((hsome i i.2).1.choose, (hsome i i.2).2.choose), by simp, hd, vmax, cd, n, t, t1, run, hr, rfl, hw, h0, hrun,
    by simp, fun i hi => ?_⟩
  simp only [List.getElem_ofFn]
  have hi' : i < n := by simpa using hi
  exact ⟨(hsome i hi').1.choose_spec, (hsome i hi').2.choose_spec⟩

/-- A network without layers whose loss is 1 for each sample. -/
def demoNn : Nn Unit ℕ ℕ := ⟨fun _ x _ => x.batchSize, [], fun _ => false, false⟩

/-- Four training samples, forward passes of at most two: 2 is reported, although the loss of each sample is 1. -/
theorem demo_report : ∃ bs, Walk (demoData 4 2) .train 2 bs ∧ SampleWise (demoNn.loss ()) (fun _ _ => 1) ∧ meanLoss (fun _ _ => 1) (demoData 4 2) .train = 1 ∧
    ∀ st, st.full = false → (report demoNn st bs []).1.1 = 2 := by
  have hok := demoData_ok 4 2 (by omega) (by omega)
  have hr := demoTrain_reach 4 2 2 2
  have hm : (demoTrain 4 2 2 2).maxFProp = 2 := by decide
  have hs : SampleWise (demoNn.loss ()) (fun _ _ => 1) := fun x y _ => by simp [demoNn]
  have hmean : meanLoss (fun _ _ => 1) (demoData 4 2) .train = 1 := by
    have : (demoData 4 2).count .train = 4 := by decide
    simp [meanLoss, sampleLoss, this]
  cases hw : walkOverSet (demoTrain 4 2 2 2) .train 0 (-1) false false with
  | none => exact absurd hw (by decide)
  | some q =>
    obtain ⟨t1, n⟩ := q
    obtain ⟨bs, -, hbs⟩ := walk_exists hok hr hw
    rw [hm] at hbs
    refine ⟨bs, hbs, hs, hmean, fun st hf => ?_⟩
    have h := reported_times_batches (nn := demoNn) (st := reset st) (.inr (.inl rfl)) hbs hs 2 (by decide)
    rw [hmean] at h
    show (calcLoss demoNn (reset st) bs).1 = 2
    rw [h]
    simp [added, reset, hf]

/-- Five samples, forward passes of at most two: the hypotheses of `last_sample_not_counted` are met. -/
example : ∃ bs, Walk (demoData 5 2) .train 2 bs ∧ (demoData 5 2).count .train = 2 * 2 + 1 := by
  have hok := demoData_ok 5 2 (by omega) (by omega)
  have hr := demoTrain_reach 5 2 2 2
  have hm : (demoTrain 5 2 2 2).maxFProp = 2 := by decide
  cases hw : walkOverSet (demoTrain 5 2 2 2) .train 0 (-1) false false with
  | none => exact absurd hw (by decide)
  | some q =>
    obtain ⟨t1, n⟩ := q
    obtain ⟨bs, -, hbs⟩ := walk_exists hok hr hw
    exact ⟨bs, hm ▸ hbs, by decide⟩

end Nntl.Report
