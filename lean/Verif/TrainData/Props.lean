import Verif.TrainData.Subset
import Mathlib.Data.List.Nodup
/-! Property theorems C13-C17 about the training data object. -/
namespace Nntl.TrainData
open Nntl.Matrix Nntl.Kernel
set_option linter.unusedSimpArgs false
variable {α β : Type} [OfNat α 1] [OfNat β 1]

/-- The calls `on_next_batch(0..n-1)` after `run 0`, with arbitrary thread executions. -/
def BatchRun (run : Nat → TD α β) (n : Nat) : Prop :=
  ∀ i, i < n → ∃ exX exY : Exec, exX.Ok ∧ exY.Ok ∧ OnNextBatch exX exY (run i) i (run (i + 1))

theorem batchRun_frame {run : Nat → TD α β} {n : Nat} (hI : Inv (run 0)) (hrun : BatchRun run n) (i : Nat) (hi : i ≤ n) :
    Inv (run i) ∧ (run i).d = (run 0).d ∧ (run i).idxs = (run 0).idxs ∧ (run i).mini = (run 0).mini ∧ (run i).cur = (run 0).cur := by
  induction i with
  | zero => exact ⟨hI, rfl, rfl, rfl, rfl⟩
  | succ i ih =>
    obtain ⟨h1, h2, h3, h4, h5⟩ := ih (by omega)
    obtain ⟨exX, exY, hX, hY, hb⟩ := hrun i (by omega)
    obtain ⟨g1, g2⟩ := inv_batch hX hY h1 hb
    refine ⟨g1, g2.trans h2, ?_⟩
    by_cases hm : (run i).mini = true
    · obtain ⟨b, -, -, -, -, -, -, -, dx, dy, he, -⟩ := onNextBatch_mini hX hY h1 hm hb
      rw [he]; exact ⟨h3, h4, h5⟩
    · obtain ⟨-, -, hb⟩ := hb
      rw [if_neg hm] at hb
      rw [hb.2]; exact ⟨h3, h4, h5⟩

/-- **C13.** After `on_next_epoch` in any reachable state, the `n` batches delivered by `on_next_batch(0..n-1)` have exactly `b`
samples each, `n = N / b`, and there is an injective numbering `ord` of `n*b` training samples such that row `r` of batch `i` is
the training sample `ord (i*b + r)` (features and labels). If `b` divides the number of samples, every sample is used. -/
theorem epoch_batches_are_distinct_samples {vmax : Nat} {d : Data α β} (hd : d.Ok) {t t1 : TD α β} (hr : Reach vmax d t)
    {cd n : Nat} {arg : Int} {shuffle : List Nat → List Nat} (hsh : ∀ l : List Nat, (shuffle l).Perm l)
    (he : onNextEpoch t cd arg shuffle = some (t1, n)) (run : Nat → TD α β) (h0 : run 0 = t1) (hrun : BatchRun run n) :
    ∃ b : Nat, 0 < b ∧ (b : Int) = effBatch t.maxTrain cd arg ∧ n = d.count .train / b ∧ ∃ ord : Nat → Nat,
      (∀ k, k < n * b → ord k < d.count .train) ∧
      (∀ k k', k < n * b → k' < n * b → ord k = ord k' → k = k') ∧
      (b ∣ d.count .train → ∀ s, s < d.count .train → ∃ k, k < n * b ∧ ord k = s) ∧
      ∀ i, i < n → ∃ x y, batchX (run (i + 1)) = some x ∧ batchY (run (i + 1)) = some y ∧ x.batchSize = b ∧ y.batchSize = b ∧
        ∀ r, r < b → RowIs x (d.X .train) r (ord (i * b + r)) ∧ RowIs y (d.Y .train) r (ord (i * b + r)) := by
  obtain ⟨hI, hdd⟩ := reach_inv hd hr
  obtain ⟨hI1, hd1⟩ := inv_epoch hsh hI he
  rw [← h0] at hI1
  have hframe := batchRun_frame hI1 hrun
  obtain ⟨b, hb, heff, hle, hlc, hn, hcase⟩ := onNextEpoch_cases he
  rw [hdd] at hlc hn hcase
  have hnb : n * b ≤ d.count .train := by rw [hn]; exact Nat.div_mul_le_self _ _
  refine ⟨b, hb, heff.symm, hn, ?_⟩
  rcases hcase with ⟨hm, bx, bY, hx, hy, rfl⟩ | ⟨hm, e1, e2, rfl⟩
  · obtain ⟨m1, m2, m3, m4, m5⟩ := hI.mini hm
    rw [hdd] at m3
    have hp : (shuffle t.idxs).Perm (List.range (d.count .train)) := (hsh _).trans m3
    have hlen : (shuffle t.idxs).length = d.count .train := by rw [hp.length_eq, List.length_range]
    have hnd : (shuffle t.idxs).Nodup := hp.nodup_iff.2 List.nodup_range
    have hget : ∀ k, k < n * b → ∃ h : k < (shuffle t.idxs).length, (shuffle t.idxs).getD k 0 = (shuffle t.idxs)[k] := by
      intro k hk
      have h : k < (shuffle t.idxs).length := by omega
      exact ⟨h, by rw [List.getD_eq_getElem?_getD, List.getElem?_eq_getElem h]; rfl⟩
    refine ⟨fun k => (shuffle t.idxs).getD k 0, ?_, ?_, ?_, ?_⟩
    · intro k hk
      exact perm_range_getD hp (by omega)
    · intro k k' hk hk' hkk
      obtain ⟨h1, g1⟩ := hget k hk
      obtain ⟨h2, g2⟩ := hget k' hk'
      simp only [g1, g2] at hkk
      exact (List.Nodup.getElem_inj_iff hnd).1 hkk
    · intro hdiv s hs
      have hmem : s ∈ shuffle t.idxs := hp.mem_iff.2 (List.mem_range.2 hs)
      obtain ⟨k, hk, hks⟩ := List.getElem_of_mem hmem
      have hkn : k < n * b := by rw [hn, Nat.div_mul_cancel hdiv]; omega
      obtain ⟨h1, g1⟩ := hget k hkn
      exact ⟨k, hkn, by simp only [g1, hks]⟩
    · intro i hi
      obtain ⟨f1, f2, f3, f4, f5⟩ := hframe i (by omega)
      obtain ⟨exX, exY, hX, hY, hbat⟩ := hrun i hi
      rw [h0] at f2 f3 f4 f5
      obtain ⟨b', -, hc', -, hpx, hpy, hsx, hsy, dx, dy, het, -, hrows⟩ := onNextBatch_mini hX hY f1 (by rw [f4]; exact hm) hbat
      have : b' = b := by rw [f5] at hc'; exact Int.ofNat.inj hc'.symm
      subst this
      refine ⟨(run (i + 1)).bx, (run (i + 1)).bY, ?_, ?_, ?_, ?_, ?_⟩
      · rw [het]; simp [batchX, hpx]
      · rw [het]; simp [batchY, hpy]
      · rw [het]; exact hsx
      · rw [het]; exact hsy
      · intro r hr
        have := hrows r hr
        rw [f2, f3] at this
        simp only [hdd] at this
        rw [Nat.mul_comm i b']
        exact this
  · refine ⟨id, fun k hk => by simp only [id]; omega, fun _ _ _ _ h => h, ?_, ?_⟩
    · intro hdiv s hs
      refine ⟨s, ?_, rfl⟩
      rw [hn, Nat.div_mul_cancel hdiv]; exact hs
    · intro i hi
      obtain ⟨f1, f2, f3, f4, f5⟩ := hframe i (by omega)
      obtain ⟨exX, exY, hX, hY, hbat⟩ := hrun i hi
      obtain ⟨g1, g2, g3, g4, g5⟩ := hframe (i + 1) (by omega)
      have hrm : (run i).mini = false := by rw [f4, h0]; exact hm
      obtain ⟨hw, hc, hbat⟩ := hbat
      rw [if_neg (by rw [hrm]; simp)] at hbat
      obtain ⟨hi0, hrun1⟩ := hbat
      subst hi0
      rw [hrun1, h0]
      have hcount : d.count .train = b := by rw [e1]; rfl
      refine ⟨d.X .train, d.Y .train, ?_, ?_, e1.symm, e2.symm, ?_⟩
      · simp [batchX, hdd]
      · simp [batchY, hdd]
      · intro r hr
        simp only [Nat.zero_mul, Nat.zero_add, id]
        exact ⟨rowIs_self (by omega), rowIs_self (by omega)⟩

/-- `on_next_batch` is possible for every batch number of the epoch (no assertion is violated). -/
theorem epoch_batch_possible {vmax : Nat} {d : Data α β} (hd : d.Ok) {t t1 : TD α β} (hr : Reach vmax d t)
    {cd n : Nat} {arg : Int} {shuffle : List Nat → List Nat} (hsh : ∀ l : List Nat, (shuffle l).Perm l)
    (he : onNextEpoch t cd arg shuffle = some (t1, n)) (run : Nat → TD α β) (h0 : run 0 = t1) (i : Nat) (hi : i < n)
    (hrun : BatchRun run i) (exX exY : Exec) : ∃ t', OnNextBatch exX exY (run i) i t' := by
  obtain ⟨hI, hdd⟩ := reach_inv hd hr
  obtain ⟨hI1, hd1⟩ := inv_epoch hsh hI he
  obtain ⟨b, hb, heff, hle, hlc, hn, hcase⟩ := onNextEpoch_cases he
  rcases hcase with ⟨hm, bx, bY, hx, hy, rfl⟩ | ⟨hm, e1, e2, rfl⟩
  · obtain ⟨m1, m2, m3, m4, m5⟩ := hI.mini hm
    obtain ⟨s1, s2, s3, s4, s5⟩ := (hI.bxOk m1).deformWB hI.bxOnes hb hx
    obtain ⟨u1, u2, u3, -⟩ := (hI.byOk m2).deform hb hy
    have hsz : ∀ j, j ≤ i → Inv (run j) ∧ (run j).bx.batchSize = b ∧ (run j).bY.batchSize = b ∧ (run j).px = .batch ∧ (run j).py = .batch ∧
        (run j).mini = true ∧ (run j).cur = b ∧ (run j).walk = none ∧ (run j).d = t.d ∧ (run j).idxs = shuffle t.idxs := by
      intro j hj
      induction j with
      | zero => rw [h0]; exact ⟨hI1, s2, u2, rfl, rfl, hm, rfl, rfl, rfl, rfl⟩
      | succ j ih =>
        obtain ⟨k1, k2, k3, k4, k5, k6, k7, k8, k9, k10⟩ := ih (by omega)
        obtain ⟨eX, eY, hX, hY, hbb⟩ := hrun j (by omega)
        obtain ⟨g1, g2⟩ := inv_batch hX hY k1 hbb
        obtain ⟨b', -, -, -, -, -, -, -, dx, dy, het, -⟩ := onNextBatch_mini hX hY k1 k6 hbb
        rw [het] at g1 ⊢
        exact ⟨g1, k2, k3, k4, k5, k6, k7, k8, k9, k10⟩
    obtain ⟨k1, k2, k3, k4, k5, k6, k7, k8, k9, k10⟩ := hsz i (Nat.le_refl _)
    have hl : (shuffle t.idxs).length = t.d.count .train := by
      rw [(hsh _).length_eq, m3.length_eq, List.length_range]
    apply Exists.intro
    refine ⟨k8, by rw [k7]; omega, ?_⟩
    rw [if_pos k6]
    refine ⟨by rw [k2, k7], by rw [k3, k7], k4, k5, ?_, _, _, outcome_program_order _ _, outcome_program_order _ _, rfl⟩
    rw [k7, k10, hl]
    simp only [Int.toNat_natCast]
    have : (i + 1) * b ≤ n * b := Nat.mul_le_mul_right _ hi
    have h2 : n * b ≤ t.d.count .train := by rw [hn]; exact Nat.div_mul_le_self _ _
    rw [Nat.mul_comm b i]
    rw [Nat.add_mul] at this
    omega
  · have hone : n = 1 := by
      rw [hn, show t.d.count .train = b from e1.symm]
      exact Nat.div_self hb
    have : i = 0 := by omega
    subst this
    rw [h0]
    apply Exists.intro
    refine ⟨rfl, by simp only; omega, ?_⟩
    rw [if_neg (by simp [hm])]
    exact ⟨rfl, rfl⟩

/-- After a successful `init4train` every batch size up to the reported one can be used for an epoch in mini-batch mode, and
the full size in full-batch mode. -/
theorem epoch_available {vmax : Nat} {d : Data α β} (hd : d.Ok) {t : TD α β} (hr : Reach vmax d t) {cd : Nat} {arg : Int}
    {shuffle : List Nat → List Nat} (b : Nat) (hb : 0 < b) (hle : b ≤ t.maxTrain) (harg : effBatch t.maxTrain cd arg = b)
    (hfull : t.mini = false → b = d.count .train) : ∃ t1 n, onNextEpoch t cd arg shuffle = some (t1, n) := by
  obtain ⟨hI, hdd⟩ := reach_inv hd hr
  have := hI.trainLe
  unfold onNextEpoch
  dsimp only
  rw [harg, if_pos ⟨by omega, by omega, by omega⟩]
  simp only [Int.toNat_natCast]
  cases hm : t.mini with
  | true =>
    obtain ⟨m1, m2, m3, m4, m5⟩ := hI.mini hm
    obtain ⟨bx, hbx⟩ := (hI.bxOk m1).deform_some (b := b) m1 (Nat.le_trans (Nat.mul_le_mul_right _ hle) m4)
    obtain ⟨bY, hbY⟩ := (hI.byOk m2).deform_some (b := b) m2
      (Nat.le_trans (Nat.mul_le_mul_right _ hle) (by simpa using m5))
    simp only [if_true, Mtx.deformBatchSizeWithBiases, hbx, hbY, Option.map_some]
    exact ⟨_, _, rfl⟩
  | false =>
    have hbe : b = t.d.count .train := by rw [hdd]; exact hfull hm
    rw [if_neg (by simp), if_pos ⟨hbe, by rw [hI.dOk.same]; exact hbe⟩]
    exact ⟨_, _, rfl⟩

/-- **C14 (training).** In every reachable state, after `on_next_batch` row `r` of the X batch and row `r` of the Y batch are copies of
the same training sample, and the two batches have equally many rows. -/
theorem batch_rows_aligned {vmax : Nat} {d : Data α β} (hd : d.Ok) {t t' : TD α β} (hr : Reach vmax d t) {exX exY : Exec}
    (hX : exX.Ok) (hY : exY.Ok) {i : Nat} (h : OnNextBatch exX exY t i t') :
    ∃ x y, batchX t' = some x ∧ batchY t' = some y ∧ x.batchSize = y.batchSize ∧
      ∀ r, r < x.batchSize → ∃ k, RowIs x (d.X .train) r k ∧ RowIs y (d.Y .train) r k := by
  obtain ⟨hI, hdd⟩ := reach_inv hd hr
  by_cases hm : t.mini = true
  · obtain ⟨b, -, -, -, hpx, hpy, hsx, hsy, dx, dy, het, -, hrows⟩ := onNextBatch_mini hX hY hI hm h
    refine ⟨t'.bx, t'.bY, by rw [het]; simp [batchX, hpx], by rw [het]; simp [batchY, hpy], ?_, ?_⟩
    · rw [het]; exact hsx.trans hsy.symm
    · intro r hr'
      rw [hdd] at hrows
      exact ⟨_, hrows r (by rw [het] at hr'; exact hsx ▸ hr')⟩
  · obtain ⟨hw, hc, h⟩ := h
    rw [if_neg hm] at h
    rw [h.2]
    obtain ⟨p1, p2, -⟩ := hI.ptrE hw hc (by simpa using hm)
    have hs := hI.dOk.same .train
    refine ⟨t.d.X .train, t.d.Y .train, by simp [batchX, p1], by simp [batchY, p2], hs.symm, ?_⟩
    intro r hr'
    rw [← hdd]
    exact ⟨r, rowIs_self hr', rowIs_self (by rw [hs]; exact hr')⟩

/-- **C14 (sequential walk).** The same after `next_subset`, for the set `s` that is being walked. -/
theorem subset_rows_aligned {vmax : Nat} {d : Data α β} (hd : d.Ok) {t t' : TD α β} (hr : Reach vmax d t) {exX exY : Exec}
    (hX : exX.Ok) (hY : exY.Ok) {i : Nat} {s : SetId} (hs : t.walk = some s) (h : NextSubset exX exY t i t')
    {x : Mtx α} {y : Mtx β} (hx : batchX t' = some x) (hy : batchY t' = some y) :
    x.batchSize = y.batchSize ∧ ∀ r, r < x.batchSize → ∃ k, RowIs x (d.X s) r k ∧ RowIs y (d.Y s) r k := by
  obtain ⟨hI, hdd⟩ := reach_inv hd hr
  by_cases hc : t.cur > 0
  · obtain ⟨b, bs, -, -, -, -, -, -, h1, h2, -⟩ := nextSubset_mini hX hY hI hs hc h
    obtain ⟨g1, g2⟩ := h1 x hx
    obtain ⟨g3, g4⟩ := h2 y hy
    rw [hdd] at g2 g4
    exact ⟨g1.trans g3.symm, fun r hr' => ⟨_, g2 r (by omega), g4 r (by omega)⟩⟩
  · obtain ⟨s', hs', h⟩ := h
    rw [if_neg hc] at h
    obtain ⟨hc', rfl⟩ := h
    have e1 : x = t'.d.X s := by
      rcases (hI.ptrX s hs).1 hc' with hp | hp
      · simp [batchX, hp] at hx
      · simpa [batchX, hp] using hx.symm
    have e2 : y = t'.d.Y s := by
      rcases (hI.ptrY s hs).1 hc' with hp | hp
      · simp [batchY, hp] at hy
      · simpa [batchY, hp] using hy.symm
    have hsame := hI.dOk.same s
    subst e1 e2
    rw [← hdd]
    exact ⟨hsame.symm, fun r hr' => ⟨r, rowIs_self hr', rowIs_self (by rw [hsame]; exact hr')⟩⟩

/-- The bias column of the feature batch stays all ones in every reachable state. -/
theorem batch_biases_ones {vmax : Nat} {d : Data α β} (hd : d.Ok) {t : TD α β} (hr : Reach vmax d t) : BiasesAreOnes t.bx :=
  (reach_inv hd hr).1.bxOnes

/-! ### C15 -/

/-- The calls `next_subset(0..n-1)` after `run 0`. -/
def SubsetRun (run : Nat → TD α β) (n : Nat) : Prop :=
  ∀ i, i < n → ∃ exX exY : Exec, exX.Ok ∧ exY.Ok ∧ NextSubset exX exY (run i) i (run (i + 1))

/-- The walk delivers the samples `[0, total)` of set `s` in order and without repetition: batch `i` holds the samples
`[start i, start (i+1))`. -/
def VisitsPrefix (d : Data α β) (s : SetId) (run : Nat → TD α β) (n total : Nat) : Prop :=
  ∃ start : Nat → Nat, start 0 = 0 ∧ start n = total ∧ ∀ i, i < n → start i < start (i + 1) ∧
    (∀ x, batchX (run (i + 1)) = some x → start i + x.batchSize = start (i + 1) ∧
      ∀ r, r < x.batchSize → RowIs x (d.X s) r (start i + r)) ∧
    (∀ y, batchY (run (i + 1)) = some y → start i + y.batchSize = start (i + 1) ∧
      ∀ r, r < y.batchSize → RowIs y (d.Y s) r (start i + r))

theorem subsetRun_frame {run : Nat → TD α β} {n : Nat} (hI : Inv (run 0)) (hrun : SubsetRun run n) (i : Nat) (hi : i ≤ n) :
    Inv (run i) ∧ (run i).d = (run 0).d ∧ (run i).walk = (run 0).walk ∧ (run i).cur = (run 0).cur ∧
    (run i).px = (run 0).px ∧ (run i).py = (run 0).py := by
  induction i with
  | zero => exact ⟨hI, rfl, rfl, rfl, rfl, rfl⟩
  | succ i ih =>
    obtain ⟨h1, h2, h3, h4, h5, h6⟩ := ih (by omega)
    obtain ⟨exX, exY, hX, hY, hb⟩ := hrun i (by omega)
    obtain ⟨g1, g2⟩ := inv_subset hX hY h1 hb
    refine ⟨g1, g2.trans h2, ?_⟩
    obtain ⟨s, hs, hbb⟩ := id hb
    by_cases hc : (run i).cur > 0
    · obtain ⟨b, bs, -, -, -, -, ⟨bx, wx, bY, wY, he⟩, -⟩ := nextSubset_mini hX hY h1 hs hc hb
      rw [he]; exact ⟨h3, h4, h5, h6⟩
    · rw [if_neg hc] at hbb
      rw [hbb.2]; exact ⟨h3, h4, h5, h6⟩

/-- What a walk delivers, batch by batch: with batch size `b` (clamped to the set size) and `n` batches as returned by
`walk_over_set`, batch `i` holds the samples `[min (i*b) count, min ((i+1)*b) count)`. -/
theorem walk_starts {vmax : Nat} {d : Data α β} (hd : d.Ok) {t t1 : TD α β} (hr : Reach vmax d t) {s : SetId} {cd n : Nat}
    {arg : Int} {exclX exclY : Bool} (hw : walkOverSet t s cd arg exclX exclY = some (t1, n))
    (run : Nat → TD α β) (h0 : run 0 = t1) (hrun : SubsetRun run n) :
    ∃ b0 b : Nat, 0 < b0 ∧ (b0 : Int) = effBatch t.maxFProp cd arg ∧ b = min b0 (d.count s) ∧
      n = d.count s / b + (if d.count s % b > 1 then 1 else 0) ∧ ∀ i, i < n →
        min (i * b) (d.count s) < min ((i + 1) * b) (d.count s) ∧
        (∀ x, batchX (run (i + 1)) = some x → min (i * b) (d.count s) + x.batchSize = min ((i + 1) * b) (d.count s) ∧
          ∀ r, r < x.batchSize → RowIs x (d.X s) r (min (i * b) (d.count s) + r)) ∧
        (∀ y, batchY (run (i + 1)) = some y → min (i * b) (d.count s) + y.batchSize = min ((i + 1) * b) (d.count s) ∧
          ∀ r, r < y.batchSize → RowIs y (d.Y s) r (min (i * b) (d.count s) + r)) := by
  obtain ⟨hI, hdd⟩ := reach_inv hd hr
  obtain ⟨hI1, hd1⟩ := inv_walk hI hw
  rw [← h0] at hI1
  have hframe := subsetRun_frame hI1 hrun
  obtain ⟨b0, hb0, heff, -, hds, b, hb, hn, hcase⟩ := walkOverSet_cases hw
  rw [hdd] at hb hn hds hcase
  refine ⟨b0, b, hb0, heff.symm, hb, hn, ?_⟩
  have hbp : 0 < b := by omega
  rcases hcase with ⟨hlt, bx, bY, px, py, hX, hY, rfl⟩ | ⟨hbe, rfl⟩
  · have hstart : ∀ i, i < n → i * b < d.count s := by
      intro i hi
      obtain ⟨f1, f2, f3, f4, -⟩ := hframe i (by omega)
      rw [h0] at f2 f3 f4
      obtain ⟨exX, exY, hX, hY, hb'⟩ := hrun i hi
      obtain ⟨b', bs, -, hb2, hlt', -⟩ := nextSubset_mini hX hY f1 f3 (by rw [f4]; simp only; omega) hb'
      rw [f4] at hb2
      have : b' = b := Int.ofNat.inj hb2.symm
      subst this
      rw [f2] at hlt'
      simpa [hdd] using hlt'
    intro i hi
    obtain ⟨f1, f2, f3, f4, -⟩ := hframe i (by omega)
    rw [h0] at f2 f3 f4
    obtain ⟨exX, exY, hX, hY, hb'⟩ := hrun i hi
    obtain ⟨b', bs, -, hb2, hlt', hbs, -, -, hx, hy, -⟩ := nextSubset_mini hX hY f1 f3 (by rw [f4]; simp only; omega) hb'
    rw [f4] at hb2
    have : b' = b := Int.ofNat.inj hb2.symm
    subst this
    have hdi : (run i).d = d := by rw [f2, ← hdd]
    rw [hdi] at hlt' hbs hx hy
    have hmin : min (i * b') (d.count s) = i * b' := by omega
    have hsucc : min ((i + 1) * b') (d.count s) = i * b' + bs := by
      rw [Nat.add_mul, Nat.one_mul]; omega
    simp only [hmin, hsucc]
    refine ⟨by omega, ?_, ?_⟩
    · intro x hxx
      obtain ⟨g1, g2⟩ := hx x hxx
      rw [g1]
      exact ⟨rfl, g2⟩
    · intro y hyy
      obtain ⟨g1, g2⟩ := hy y hyy
      rw [g1]
      exact ⟨rfl, g2⟩
  · have hn1 : n = 1 := by
      rw [hn, ← hbe, Nat.div_self hbp, Nat.mod_self]; simp
    subst hn1
    intro i hi
    have : i = 0 := by omega
    subst this
    obtain ⟨exX, exY, hX, hY, hb'⟩ := hrun 0 (by omega)
    obtain ⟨s', hs', hb'⟩ := hb'
    rw [h0, if_neg (by simp)] at hb'
    rw [hb'.2]
    simp only [Nat.zero_mul, Nat.zero_add, Nat.one_mul, hbe, Nat.min_self, Nat.zero_min]
    refine ⟨hds, ?_, ?_⟩
    · intro x hx
      cases exclX
      · simp [batchX, hdd] at hx
        subst hx
        exact ⟨rfl, fun r hr' => rowIs_self hr'⟩
      · simp [batchX] at hx
    · intro y hy
      have hsame := hd.same s
      cases exclY
      · simp [batchY, hdd] at hy
        subst hy
        exact ⟨hsame, fun r hr' => rowIs_self hr'⟩
      · simp [batchY] at hy

/-- What a walk delivers, in general: the samples `[0, min (n*b) count)`. -/
theorem walk_visits {vmax : Nat} {d : Data α β} (hd : d.Ok) {t t1 : TD α β} (hr : Reach vmax d t) {s : SetId} {cd n : Nat}
    {arg : Int} {exclX exclY : Bool} (hw : walkOverSet t s cd arg exclX exclY = some (t1, n))
    (run : Nat → TD α β) (h0 : run 0 = t1) (hrun : SubsetRun run n) :
    ∃ b0 b : Nat, 0 < b0 ∧ (b0 : Int) = effBatch t.maxFProp cd arg ∧ b = min b0 (d.count s) ∧
      n = d.count s / b + (if d.count s % b > 1 then 1 else 0) ∧ VisitsPrefix d s run n (min (n * b) (d.count s)) := by
  obtain ⟨b0, b, h1, h2, h3, h4, h5⟩ := walk_starts hd hr hw run h0 hrun
  exact ⟨b0, b, h1, h2, h3, h4, fun i => min (i * b) (d.count s), by simp, rfl, h5⟩

/-- **C15, partial.** If the number of samples modulo the batch size is not one, the walk visits all samples exactly once and
in order. Missing: the residue one, see `walk_misses_last_sample`. -/
theorem walk_visits_all_partial {vmax : Nat} {d : Data α β} (hd : d.Ok) {t t1 : TD α β} (hr : Reach vmax d t) {s : SetId}
    {cd n : Nat} {arg : Int} {exclX exclY : Bool} (hw : walkOverSet t s cd arg exclX exclY = some (t1, n))
    (hrem : ∀ b : Nat, (b : Int) = min (effBatch t.maxFProp cd arg) (d.count s) → d.count s % b ≠ 1)
    (run : Nat → TD α β) (h0 : run 0 = t1) (hrun : SubsetRun run n) : VisitsPrefix d s run n (d.count s) := by
  obtain ⟨b0, b, hb0, he, hb, hn, hv⟩ := walk_visits hd hr hw run h0 hrun
  have hrem' := hrem b (by rw [← he, hb]; omega)
  have hds := hd.count s
  have hbp : 0 < b := by omega
  have : min (n * b) (d.count s) = d.count s := by
    have hdm := Nat.div_add_mod (d.count s) b
    have hmod := Nat.mod_lt (d.count s) hbp
    rw [hn, Nat.add_mul, Nat.mul_comm (d.count s / b) b]
    split
    · omega
    · have : d.count s % b = 0 := by omega
      omega
  rw [this] at hv
  exact hv

/-- **C15 fails** for every set size with residue one: the walk delivers only the first `count - 1` samples, the last sample is never
visited. -/
theorem walk_misses_last_sample {vmax : Nat} {d : Data α β} (hd : d.Ok) {t t1 : TD α β} (hr : Reach vmax d t) {s : SetId}
    {cd n : Nat} {arg : Int} {exclX exclY : Bool} (hw : walkOverSet t s cd arg exclX exclY = some (t1, n))
    (hrem : ∃ b : Nat, (b : Int) = min (effBatch t.maxFProp cd arg) (d.count s) ∧ d.count s % b = 1)
    (run : Nat → TD α β) (h0 : run 0 = t1) (hrun : SubsetRun run n) : VisitsPrefix d s run n (d.count s - 1) := by
  obtain ⟨b0, b, hb0, he, hb, hn, hv⟩ := walk_visits hd hr hw run h0 hrun
  obtain ⟨b', hb', hrem'⟩ := hrem
  have : b' = b := by rw [← he] at hb'; omega
  subst this
  have hds := hd.count s
  have : min (n * b') (d.count s) = d.count s - 1 := by
    have hdm := Nat.div_add_mod (d.count s) b'
    rw [hn, hrem', if_neg (by omega), Nat.add_zero, Nat.mul_comm]
    omega
  rw [this] at hv
  exact hv

end Nntl.TrainData
