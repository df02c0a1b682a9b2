import Verif.TrainData.Props
/-! Property theorems C16, C17 (initialisation of the training data object) and reachable examples for C13-C17. -/
namespace Nntl.TrainData
open Nntl.Matrix Nntl.Kernel
set_option linter.unusedSimpArgs false
variable {α β : Type} [OfNat α 1] [OfNat β 1]

/-! ### C16, C17 -/

theorem data_not_empty {d : Data α β} (hd : d.Ok) : d.empty = false := by
  have hX : ∀ s, (d.X s).empty = false := by
    intro s
    have h1 : 0 < (d.X s).batchSize := hd.count s
    have h2 : 0 < (d.X s).sampleSize := by rw [hd.widthX]; exact hd.posX
    have h3 := hd.storX s
    have h4 := rowsNoBias_le (d.X s)
    have h5 := colsNoBias_le (d.X s)
    have : 0 < (d.X s).rows * (d.X s).cols := by
      unfold Mtx.batchSize at h1
      unfold Mtx.sampleSize at h2
      cases hb : (d.X s).bir <;> simp only [hb, Bool.false_eq_true, if_true, if_false] at h1 h2 <;>
        exact Nat.mul_pos (by omega) (by omega)
    simp [Mtx.empty]; omega
  have hY : ∀ s, (d.Y s).empty = false := by
    intro s
    have h1 : 0 < (d.Y s).batchSize := by rw [hd.same]; exact hd.count s
    have h2 : 0 < (d.Y s).sampleSize := by rw [hd.widthY]; exact hd.posY
    have h3 := hd.storY s
    have h4 := rowsNoBias_le (d.Y s)
    have h5 := colsNoBias_le (d.Y s)
    have : 0 < (d.Y s).rows * (d.Y s).cols := by
      unfold Mtx.batchSize at h1
      unfold Mtx.sampleSize at h2
      cases hb : (d.Y s).bir <;> simp only [hb, Bool.false_eq_true, if_true, if_false] at h1 h2 <;>
        exact Nat.mul_pos (by omega) (by omega)
    simp [Mtx.empty]; omega
  simp [Data.empty, hX, hY]

theorem biggest_eq (d : Data α β) : d.biggest = max (d.count .train) (d.count .test) := by unfold Data.biggest; omega

/-- **C16 (success).** After a successful `init4train` the reported sizes obey the documented bounds; zero means the whole set; requests
inside of the bounds are kept; the object's own limits are the reported ones. -/
theorem init4train_success {vmax : Nat} {d : Data α β} (hd : d.Ok) {t : TD α β} (ht : t.d = d) {maxF maxB : Nat}
    {e : AllocEnv α β} {res : InitRes α β} (h : init4train vmax t maxF maxB e = some res) (hs : res.err = .success) :
    1 ≤ res.maxBatch ∧ res.maxBatch ≤ d.count .train ∧ res.maxBatch ≤ res.maxFProp ∧
    res.maxFProp ≤ max (d.count .train) (d.count .test) ∧
    (maxB = 0 → res.maxBatch = d.count .train) ∧ (maxF = 0 → res.maxFProp = max (d.count .train) (d.count .test)) ∧
    (1 ≤ maxB → res.maxBatch = min maxB (d.count .train)) ∧
    (1 ≤ maxF → res.maxFProp = min maxF (max (d.count .train) (d.count .test))) ∧
    res.t.maxTrain = res.maxBatch ∧ res.t.maxFProp = res.maxFProp ∧ res.t.mini = decide (res.maxBatch < d.count .train) := by
  obtain ⟨mF, mB, hF, hB, hle, e1, e2, hi⟩ := (init4train_cases h).2 hs
  obtain ⟨bx, bY, het, -⟩ := initBatches_spec rfl rfl hi
  rw [ht, biggest_eq] at hF
  rw [ht] at hB
  have hc := hd.count .train
  rw [e1, e2]
  have g1 : res.t.maxTrain = mB := by rw [het]; rfl
  have g2 : res.t.maxFProp = mF := by rw [het]; rfl
  have g3 : res.t.mini = decide (mB < d.count .train) := by rw [het, ← ht]; rfl
  refine ⟨?_, ?_, hle, ?_, ?_, ?_, ?_, ?_, g1, g2, g3⟩
  · rw [hB]; split <;> omega
  · rw [hB]; split <;> omega
  · rw [hF]; split <;> omega
  · intro h0; rw [hB, if_pos (Or.inl h0)]
  · intro h0; rw [hF, if_pos (Or.inl h0)]
  · intro h0; rw [hB]; split <;> omega
  · intro h0; rw [hF]; split <;> omega

/-- **C16 (failure).** A failed `init4train` leaves the object deinitialised: nothing is reported as initialised, no batch is
available, no sizes are left. -/
theorem init4train_failure {vmax : Nat} {t : TD α β} {maxF maxB : Nat} {e : AllocEnv α β} {res : InitRes α β}
    (h : init4train vmax t maxF maxB e = some res) (hs : res.err ≠ .success) :
    (∀ bs, isInit4inference res.t bs = none) ∧ (∀ fb tb, isInit4train res.t fb tb = none) ∧ batchX res.t = none ∧
    batchY res.t = none ∧ res.t.bx.cap = 0 ∧ res.t.bY.cap = 0 ∧ res.t.idxs = [] := by
  obtain ⟨t1, ht, -⟩ := (init4train_cases h).1 hs
  rw [ht]
  have hinf : ∀ bs, isInit4inference (deinit t1) bs = none := by
    intro bs
    simp [isInit4inference, deinit]
  refine ⟨hinf, ?_, rfl, rfl, rfl, rfl, rfl⟩
  intro fb tb
  simp [isInit4train, hinf]

theorem resizeAsDataset_total {γ : Type} [OfNat γ 1] (m : Mtx γ) (bs w : Nat) (j : Nat → γ) (ok : Bool) (hm : m.ext = false) (hb : 0 < bs)
    (hw : 0 < w) : ∃ m', resizeAsDataset m bs w j ok = some (m', ok) := by
  have hdr : ∀ r c, 0 < r → 0 < c → ∃ m', m.dResize r c j ok = some (m', ok) := by
    intro r c hr hcc
    unfold Mtx.dResize Mtx.resize Mtx.implResize
    simp only [hm]
    rw [if_neg (by omega), if_neg (by omega), if_neg (by omega)]
    simp
  unfold resizeAsDataset
  split
  · exact hdr _ _ hw hb
  · exact hdr _ _ hb hw

theorem initBatches_total (t : TD α β) (miniInf : Bool) (e : AllocEnv α β) (hx : t.bx.ext = false) (hy : t.bY.ext = false)
    (h1 : 0 < t.maxTrain) (h2 : 0 < t.d.xW) (h3 : 0 < t.d.yW) :
    ∃ t' b, initBatches t miniInf e = some (t', b) ∧ (e.okX = true → e.okY = true → b = true) := by
  have hX := fun bs (hb : 0 < bs) => resizeAsDataset_total ({ t.bx with emul := true, bir := (t.d.X .train).bir } : Mtx α) bs t.d.xW e.jx e.okX hx hb h2
  have hY := fun bs (hb : 0 < bs) => resizeAsDataset_total ({ t.bY with emul := false, bir := (t.d.Y .train).bir } : Mtx β) bs t.d.yW e.jy e.okY hy hb h3
  unfold initBatches
  split
  · dsimp only
    generalize hbx : (if ((t.d.X .train).bir && miniInf) = true then t.maxTrain else max t.maxTrain t.maxFProp) = bsx
    generalize hby : (if ((t.d.Y .train).bir && miniInf) = true then t.maxTrain else max t.maxTrain t.maxFProp) = bsy
    have p1 : 0 < bsx := by rw [← hbx]; split <;> omega
    have p2 : 0 < bsy := by rw [← hby]; split <;> omega
    obtain ⟨mx, hmx⟩ := hX bsx p1
    obtain ⟨my, hmy⟩ := hY bsy p2
    rw [hmx, hmy]
    generalize (t.mini || !((t.d.X .train).bir && miniInf)) = c1
    generalize (t.mini || !((t.d.Y .train).bir && miniInf)) = c2
    cases c1 <;> cases c2 <;> cases e.okX <;> cases e.okY <;> simp
  · exact ⟨_, _, rfl, fun _ _ => rfl⟩

/-- **C16 (error code).** With data sets addressable by `vec_len_t`, the error about the size relation is returned exactly when the effective
training batch exceeds the effective inference batch, and if it does not and memory can be allocated, the call
succeeds. The call never terminates the program. -/
theorem init4train_error_code {vmax : Nat} {d : Data α β} (hd : d.Ok) {t : TD α β} (ht : t.d = d)
    (hv : max (d.count .train) (d.count .test) ≤ vmax) (maxF maxB : Nat) (e : AllocEnv α β) :
    ∃ res, init4train vmax t maxF maxB e = some res ∧
    (res.err = .invalidBatchSize2MaxFPropSizeRelation ↔
      (if maxF = 0 then max (d.count .train) (d.count .test) else min maxF (max (d.count .train) (d.count .test))) <
      (if maxB = 0 then d.count .train else min maxB (d.count .train))) ∧
    res.err ≠ .tooBigTrainSet ∧ res.err ≠ .tooBigTrainTestSet ∧
    (e.okIdx = true → e.okX = true → e.okY = true → res.err = .success ∨ res.err = .invalidBatchSize2MaxFPropSizeRelation) := by
  have hdd : (deinit t).d = d := ht
  have hc := hd.count .train
  unfold init4train
  dsimp only
  rw [hdd, biggest_eq]
  rw [if_neg (by omega), if_neg (by omega), if_neg (by omega)]
  simp only [Nat.le_zero]
  have hF : (if maxF = 0 ∨ maxF > max (d.count .train) (d.count .test) then max (d.count .train) (d.count .test) else maxF) =
      (if maxF = 0 then max (d.count .train) (d.count .test) else min maxF (max (d.count .train) (d.count .test))) := by
    split <;> split <;> omega
  have hB : (if maxB = 0 ∨ maxB > d.count .train then d.count .train else maxB) =
      (if maxB = 0 then d.count .train else min maxB (d.count .train)) := by
    split <;> split <;> omega
  rw [hF, hB]
  have hFp : 0 < (if maxF = 0 then max (d.count .train) (d.count .test) else min maxF (max (d.count .train) (d.count .test))) := by
    split <;> omega
  generalize (if maxF = 0 then max (d.count .train) (d.count .test) else min maxF (max (d.count .train) (d.count .test))) = mF at hFp
  have hBp : 0 < (if maxB = 0 then d.count .train else min maxB (d.count .train)) := by split <;> omega
  generalize (if maxB = 0 then d.count .train else min maxB (d.count .train)) = mB at hBp
  by_cases hle : mF < mB
  · rw [if_pos hle]
    exact ⟨_, rfl, by simp [hle], by simp, by simp, fun _ _ _ => Or.inr rfl⟩
  · rw [if_neg hle]
    split
    · rename_i hm
      refine ⟨_, rfl, by simp [hle], by simp, by simp, fun h1 _ _ => ?_⟩
      simp [h1] at hm
    · generalize ht2 : (if decide (mB < d.count .train) = true then _ else _ : TD α β) = t2
      have hx2 : t2.bx.ext = false := by rw [← ht2]; split <;> rfl
      have hy2 : t2.bY.ext = false := by rw [← ht2]; split <;> rfl
      have hd2 : t2.d = d := by rw [← ht2]; split <;> rfl
      have hb2 : t2.maxTrain = mB := by rw [← ht2]; split <;> rfl
      obtain ⟨t3, b, hi, hok⟩ := initBatches_total t2 (decide (mF < max (d.count .train) (d.count .test))) e hx2 hy2
        (by omega) (by rw [hd2]; exact hd.posX) (by rw [hd2]; exact hd.posY)
      rw [hi]
      cases b with
      | true => exact ⟨_, rfl, by simp; omega, by simp, by simp, fun _ _ _ => Or.inl rfl⟩
      | false =>
        refine ⟨_, rfl, by simp; omega, by simp, by simp, fun _ g2 g3 => ?_⟩
        exact absurd (hok g2 g3) (by simp)

/-- **C17, partial.** After a successful `init4train`, `is_initialized4train` asked with the same sizes (as reported, or zero for "as
initialised") answers yes with exactly these sizes, iff a batch buffer exists or the training batch equals the inference
batch. The property itself demands an unconditional yes; see `is_initialized4train_wrong_answer`. -/
theorem is_initialized4train_iff_partial {vmax : Nat} {d : Data α β} (hd : d.Ok) {t : TD α β} (ht : t.d = d) {maxF maxB : Nat}
    {e : AllocEnv α β} {res : InitRes α β} (h : init4train vmax t maxF maxB e = some res) (hs : res.err = .success)
    (fb tb : Nat) (hfb : fb = 0 ∨ fb = res.maxFProp) (htb : tb = 0 ∨ tb = res.maxBatch) :
    ((∃ m, isInit4train res.t fb tb = some (res.maxFProp, res.maxBatch, m)) ↔
      res.maxBatch = res.maxFProp ∨ res.maxBatch < d.count .train ∨
      (res.maxFProp < max (d.count .train) (d.count .test) ∧ (d.X .train).bir = false)) ∧
    (∀ q, isInit4train res.t fb tb = some q → q.1 = res.maxFProp ∧ q.2.1 = res.maxBatch) := by
  obtain ⟨g1, g2, g3, g4, -, -, -, -, g5, g6, g7⟩ := init4train_success hd ht h hs
  obtain ⟨mF, mB, hF, hB, hle, e1, e2, hi⟩ := (init4train_cases h).2 hs
  obtain ⟨bx, bY, het, -, -, -, i1, i2, -, i3, i4⟩ := initBatches_spec rfl rfl hi
  have hd' : res.t.d = d := by rw [het]; exact ht
  have hbx : res.t.bx = bx := by rw [het]
  have q1 : (if fb ≠ 0 then fb else res.t.maxFProp) = res.maxFProp := by rw [g6]; split <;> omega
  have q2 : (if tb ≠ 0 then tb else res.t.maxTrain) = res.maxBatch := by rw [g5]; split <;> omega
  have hinf : isInit4inference res.t fb = some res.maxFProp := by
    unfold isInit4inference
    dsimp only
    rw [q1, hd', data_not_empty hd, g6]
    simp; omega
  have hval : isInit4train res.t fb tb = if decide (res.maxBatch < res.maxFProp) && res.t.bx.empty then none else
      some (res.maxFProp, res.maxBatch, !res.t.bx.empty) := by
    unfold isInit4train
    rw [hinf]
    dsimp only
    rw [q2, g5, g6]
    have : res.maxBatch ≠ 0 := by omega
    have h2 : ¬ res.maxFProp < res.maxBatch := by omega
    simp [this, h2]
  have hmini : (sized t mF mB).mini = decide (res.maxBatch < d.count .train) := by
    have : res.t.mini = (sized t mF mB).mini := by rw [het]
    rw [← this, g7]
  have hdX : (sized t mF mB).d = d := ht
  have hbig : (deinit t).d.biggest = max (d.count .train) (d.count .test) := by
    show t.d.biggest = _
    rw [ht, biggest_eq]
  have hcap : bx.cap ≠ 0 ↔ (res.maxBatch < d.count .train ∨
      (res.maxFProp < max (d.count .train) (d.count .test) ∧ (d.X .train).bir = false)) := by
    rw [hdX] at i2 i4
    rw [hmini] at i1 i3 i4
    constructor
    · intro hc
      by_cases k1 : res.maxBatch < d.count .train
      · exact Or.inl k1
      · right
        constructor
        · by_cases k2 : res.maxFProp < max (d.count .train) (d.count .test)
          · exact k2
          · exact absurd (i3 rfl (by simp [← e1, ht, biggest_eq]; omega) (by simpa using k1)) hc
        · cases k3 : (d.X .train).bir with
          | false => rfl
          | true => exact absurd (i4 rfl (by simpa using k1) k3) hc
    · rintro (k | ⟨k1, k2⟩)
      · exact (i1 rfl (by simpa using k)).1
      · exact (i2 rfl (by simp [← e1, ht, biggest_eq]; omega) k2).1
  have hemp : res.t.bx.empty = true ↔ bx.cap = 0 := by rw [hbx]; simp [Mtx.empty]
  constructor
  · rw [← hcap, hval]
    constructor
    · rintro ⟨m, hm⟩
      by_cases hc : bx.cap = 0
      · left
        by_cases hl : res.maxBatch < res.maxFProp
        · rw [if_pos (by simp [hl, hemp, hc])] at hm; contradiction
        · omega
      · exact Or.inr hc
    · rintro (k | k)
      · rw [if_neg (by simp [k])]; exact ⟨_, rfl⟩
      · rw [if_neg (by simp [hemp, k])]; exact ⟨_, rfl⟩
  · intro q hq
    rw [hval] at hq
    split at hq
    · contradiction
    · cases hq; exact ⟨rfl, rfl⟩

/-! ### Progress of the walk -/

theorem Shape.shrink {γ : Type} {m : Mtx γ} {em bi : Bool} {w b : Nat} (h : Shape m em bi w) (hc : m.cap ≠ 0) (hb : b ≤ m.batchSize) :
    ∃ m', m.deformBatchSize b = some m' := by
  refine h.deform_some hc ?_
  have hf := h.fit
  have hd := h.dim
  have hbi := h.bir
  refine Nat.le_trans (Nat.mul_le_mul_right _ hb) ?_
  unfold Mtx.batchSize
  rw [hbi]
  cases bi <;> simp only [Bool.false_eq_true, if_false, if_true] at hd ⊢
  · rw [← hd]; exact hf
  · rw [← hd, Nat.mul_comm]; exact hf

theorem subset_step_possible {t : TD α β} (hI : Inv t) {s : SetId} (hs : t.walk = some s) {b i : Nat} (hb : 0 < b) (hc : t.cur = b)
    (hi : i * b < t.d.count s) (hx : t.px = .batch → t.bx.batchSize = b) (hy : t.py = .batch → t.bY.batchSize = b) (exX exY : Exec) :
    ∃ t', NextSubset exX exY t i t' := by
  have pX := (hI.ptrX s hs).2 (by omega)
  have pY := (hI.ptrY s hs).2 (by omega)
  have hcnt : (t.d.X s).batchSize = t.d.count s := rfl
  obtain ⟨bx1, hsx⟩ : ∃ bx1, shrinkX t (t.d.count s - i * b) = some bx1 := by
    unfold shrinkX
    rw [hc]
    split
    · split
      · rename_i hlt hp
        have hcap : t.bx.cap ≠ 0 := by
          rcases pX with h1 | h1 | h1
          · rw [h1] at hp; cases hp
          · exact h1.2.2
          · rw [h1.1] at hp; cases hp
        obtain ⟨m', hm'⟩ := (hI.bxOk hcap).shrink (b := t.d.count s - i * b) hcap (by rw [hx hp]; omega)
        simp only [Mtx.deformBatchSizeWithBiases, hm', Option.map_some]
        exact ⟨_, rfl⟩
      · exact ⟨_, rfl⟩
    · rw [if_neg (by rintro ⟨h1, h2⟩; exact h2 (by rw [hx h1]))]
      exact ⟨_, rfl⟩
  obtain ⟨bY1, hsy⟩ : ∃ bY1, shrinkY t (t.d.count s - i * b) = some bY1 := by
    unfold shrinkY
    rw [hc]
    split
    · split
      · rename_i hlt hp
        have hcap : t.bY.cap ≠ 0 := by
          rcases pY with h1 | h1 | h1
          · rw [h1] at hp; cases hp
          · exact h1.2.2
          · rw [h1.1] at hp; cases hp
        exact (hI.byOk hcap).shrink (b := t.d.count s - i * b) hcap (by rw [hy hp]; omega)
      · exact ⟨_, rfl⟩
    · rw [if_neg (by rintro ⟨h1, h2⟩; exact h2 (by rw [hy h1]))]
      exact ⟨_, rfl⟩
  have hview : ∀ {γ : Type} (w src : Mtx γ) (r bs : Nat) (em : Bool), src.bir = true → src.emul = em → src.rows * src.cols ≤ src.cap →
      r = src.sampleSize + em.toNat → 0 < src.sampleSize → 0 < bs → i * b + bs ≤ src.batchSize → ∃ w', colView w src (i * b) r bs em = some w' := by
    intro γ w src r bs em h1 h2 h3 h4 h5 h6 h7
    have hrows : r = src.rows := by
      have : src.sampleSize = src.rowsNoBias := by simp [Mtx.sampleSize, h1]
      unfold Mtx.rowsNoBias at this
      rw [h1, h2] at this
      cases em <;> simp at this h4 <;> omega
    have hcols : src.batchSize = src.cols := by simp [Mtx.batchSize, h1]
    unfold colView Mtx.dUseExternal
    rw [if_pos]
    · exact ⟨_, rfl⟩
    · refine ⟨by omega, h6, ?_⟩
      rw [hrows]
      have : src.rows * (i * b + bs) ≤ src.rows * src.cols := Nat.mul_le_mul_left _ (by omega)
      rw [Nat.mul_add] at this
      omega
  have hbs : (if ((t.d.count s - i * b : Nat) : Int) < t.cur then t.d.count s - i * b else t.cur.toNat) = min b (t.d.count s - i * b) := by
    rw [hc]; split <;> omega
  obtain ⟨bx2, wx2, hfx⟩ : ∃ bx2 wx2, FetchX exX t.d s t.px bx1 t.wx (i * b) (min b (t.d.count s - i * b)) bx2 wx2 := by
    rcases pX with h1 | ⟨h1, h2, h3⟩ | ⟨h1, h2⟩
    · rw [h1]; exact ⟨_, _, rfl, rfl⟩
    · rw [h1]; exact ⟨_, _, rfl, _, outcome_program_order _ _, rfl⟩
    · rw [h1]
      obtain ⟨w', hw'⟩ := hview t.wx (t.d.X s) ((t.d.X s).sampleSize + 1) (min b (t.d.count s - i * b)) true (by rw [hI.dOk.birX, h2])
        (hI.dOk.emulX s) (hI.dOk.storX s) rfl (by rw [hI.dOk.widthX]; exact hI.dOk.posX) (by omega) (by omega)
      exact ⟨_, w', rfl, hw'⟩
  obtain ⟨bY2, wY2, hfy⟩ : ∃ bY2 wY2, FetchY exY t.d s t.py bY1 t.wY (i * b) (min b (t.d.count s - i * b)) bY2 wY2 := by
    rcases pY with h1 | ⟨h1, h2, h3⟩ | ⟨h1, h2⟩
    · rw [h1]; exact ⟨_, _, rfl, rfl⟩
    · rw [h1]; exact ⟨_, _, rfl, _, outcome_program_order _ _, rfl⟩
    · rw [h1]
      have hsame : (t.d.Y s).batchSize = t.d.count s := hI.dOk.same s
      obtain ⟨w', hw'⟩ := hview t.wY (t.d.Y s) (t.d.Y s).sampleSize (min b (t.d.count s - i * b)) false (by rw [hI.dOk.birY, h2])
        (hI.dOk.emulY s) (hI.dOk.storY s) rfl (by rw [hI.dOk.widthY]; exact hI.dOk.posY) (by omega) (by rw [hsame]; omega)
      exact ⟨_, w', rfl, hw'⟩
  apply Exists.intro
  refine ⟨s, hs, ?_⟩
  rw [if_pos (by omega)]
  dsimp only
  rw [hcnt]
  have htn : t.cur.toNat = b := by rw [hc]; rfl
  rw [htn] at hbs ⊢
  rw [hbs]
  exact ⟨hi, bx1, bY1, hsx, hsy, bx2, wx2, bY2, wY2, hfx, hfy, rfl⟩

/-- Every `next_subset(i)` with `i` below the number returned by `walk_over_set` is possible: the walk never aborts. -/
theorem walk_subset_possible {vmax : Nat} {d : Data α β} (hd : d.Ok) {t t1 : TD α β} (hr : Reach vmax d t) {s : SetId} {cd n : Nat}
    {arg : Int} {exclX exclY : Bool} (hw : walkOverSet t s cd arg exclX exclY = some (t1, n))
    (run : Nat → TD α β) (h0 : run 0 = t1) (i : Nat) (hi : i < n) (hrun : SubsetRun run i) (exX exY : Exec) :
    ∃ t', NextSubset exX exY (run i) i t' := by
  obtain ⟨hI, hdd⟩ := reach_inv hd hr
  obtain ⟨hI1, hd1⟩ := inv_walk hI hw
  obtain ⟨b0, hb0, heff, -, hds, b, hb, hn, hcase⟩ := walkOverSet_cases hw
  have hbp : 0 < b := by omega
  have hnb : ∀ j, j < n → j * b ≤ t.d.count s ∧ (j + 1 < n → (j + 1) * b ≤ t.d.count s) ∧ j * b < t.d.count s := by
    intro j hj
    have hdm := Nat.div_add_mod (t.d.count s) b
    have hm := Nat.mod_lt (t.d.count s) hbp
    generalize t.d.count s / b = q at *
    generalize t.d.count s % b = m at *
    rw [Nat.mul_comm] at hdm
    split at hn
    · have h1 : j * b ≤ q * b := Nat.mul_le_mul_right _ (by omega)
      refine ⟨by omega, fun h => ?_, by omega⟩
      have h2 : (j + 1) * b ≤ q * b := Nat.mul_le_mul_right _ (by omega)
      omega
    · have h2 : (j + 1) * b ≤ q * b := Nat.mul_le_mul_right _ (by omega)
      rw [Nat.add_mul] at h2 ⊢
      exact ⟨by omega, fun h => by omega, by omega⟩
  rcases hcase with ⟨hlt, bx, bY, px, py, hX, hY, rfl⟩ | ⟨hbe, rfl⟩
  · have hstate : ∀ j, j ≤ i → Inv (run j) ∧ (run j).d = t.d ∧ (run j).walk = some s ∧ (run j).cur = b ∧
        ((run j).px = .batch → (run j).bx.batchSize = b) ∧ ((run j).py = .batch → (run j).bY.batchSize = b) := by
      intro j hj
      induction j with
      | zero =>
        rw [h0]
        refine ⟨hI1, rfl, rfl, rfl, ?_, ?_⟩
        · intro hp
          have hp : px = .batch := hp
          rcases hX with ⟨-, h1, -⟩ | ⟨-, -, h1, -⟩ | ⟨-, -, -, h1⟩
          · rw [h1] at hp; cases hp
          · rw [h1] at hp; cases hp
          · exact ((hI.bxOk (deformWB_nonempty h1)).deformWB hI.bxOnes hbp h1).2.1
        · intro hp
          have hp : py = .batch := hp
          rcases hY with ⟨-, h1, -⟩ | ⟨-, -, h1, -⟩ | ⟨-, -, -, h1⟩
          · rw [h1] at hp; cases hp
          · rw [h1] at hp; cases hp
          · exact ((hI.byOk (deform_nonempty h1)).deform hbp h1).2.1
      | succ j ih =>
        obtain ⟨k1, k2, k3, k4, k5, k6⟩ := ih (by omega)
        obtain ⟨eX, eY, hX', hY', hst⟩ := hrun j (by omega)
        obtain ⟨b', bs, -, hb2, hlt', hbs, ⟨bx', wx', bY', wY', he⟩, hinv, -, -, hbx, hby, -⟩ := nextSubset_mini hX' hY' k1 k3 (by omega) hst
        have : b' = b := by rw [k4] at hb2; exact Int.ofNat.inj hb2.symm
        subst this
        have hbsb : bs = b' := by
          rw [k2] at hbs hlt'
          have := (hnb j (by omega)).2.1 (by omega)
          rw [Nat.add_mul] at this
          omega
        rw [hbsb] at hbx hby
        refine ⟨hinv, ?_, ?_, ?_, ?_, ?_⟩
        · rw [he]; exact k2
        · rw [he]; exact k3
        · rw [he]; exact k4
        · intro hp; exact hbx (by rw [he] at hp; exact hp)
        · intro hp; exact hby (by rw [he] at hp; exact hp)
    obtain ⟨k1, k2, k3, k4, k5, k6⟩ := hstate i (Nat.le_refl _)
    exact subset_step_possible k1 k3 hbp k4 (by rw [k2]; exact (hnb i hi).2.2) k5 k6 exX exY
  · have hn1 : n = 1 := by rw [hn, ← hbe, Nat.div_self hbp, Nat.mod_self]; simp
    have : i = 0 := by omega
    subst this
    rw [h0]
    apply Exists.intro
    refine ⟨s, rfl, ?_⟩
    rw [if_neg (by simp)]
    exact ⟨rfl, rfl⟩

/-- Whole walks exist. -/
theorem walk_run_exists {vmax : Nat} {d : Data α β} (hd : d.Ok) {t t1 : TD α β} (hr : Reach vmax d t) {s : SetId} {cd n : Nat}
    {arg : Int} {exclX exclY : Bool} (hw : walkOverSet t s cd arg exclX exclY = some (t1, n)) :
    ∃ run : Nat → TD α β, run 0 = t1 ∧ SubsetRun run n := by
  have : ∀ k, k ≤ n → ∃ run : Nat → TD α β, run 0 = t1 ∧ SubsetRun run k := by
    intro k hk
    induction k with
    | zero => exact ⟨fun _ => t1, rfl, fun i hi => absurd hi (by omega)⟩
    | succ k ih =>
      obtain ⟨run, h0, hrun⟩ := ih (by omega)
      obtain ⟨t', ht'⟩ := walk_subset_possible hd hr hw run h0 k (by omega) hrun (.st) (.st)
      refine ⟨fun j => if j = k + 1 then t' else run j, by simp [h0], ?_⟩
      intro i hi
      by_cases hik : i = k
      · subst hik
        exact ⟨.st, .st, trivial, trivial, by simpa using ht'⟩
      · have := hrun i (by omega)
        have e1 : i ≠ k + 1 := by omega
        simpa [hik, e1] using this
  exact this n (Nat.le_refl _)

/-- Whole epochs exist. -/
theorem epoch_run_exists {vmax : Nat} {d : Data α β} (hd : d.Ok) {t t1 : TD α β} (hr : Reach vmax d t)
    {cd n : Nat} {arg : Int} {shuffle : List Nat → List Nat} (hsh : ∀ l : List Nat, (shuffle l).Perm l)
    (he : onNextEpoch t cd arg shuffle = some (t1, n)) : ∃ run : Nat → TD α β, run 0 = t1 ∧ BatchRun run n := by
  have : ∀ k, k ≤ n → ∃ run : Nat → TD α β, run 0 = t1 ∧ BatchRun run k := by
    intro k hk
    induction k with
    | zero => exact ⟨fun _ => t1, rfl, fun i hi => absurd hi (by omega)⟩
    | succ k ih =>
      obtain ⟨run, h0, hrun⟩ := ih (by omega)
      obtain ⟨t', ht'⟩ := epoch_batch_possible hd hr hsh he run h0 k (by omega) hrun (.st) (.st)
      refine ⟨fun j => if j = k + 1 then t' else run j, by simp [h0], ?_⟩
      intro i hi
      by_cases hik : i = k
      · subst hik
        exact ⟨.st, .st, trivial, trivial, by simpa using ht'⟩
      · have := hrun i (by omega)
        have e1 : i ≠ k + 1 := by omega
        simpa [hik, e1] using this
  exact this n (Nat.le_refl _)

/-! ### Concrete cases -/

/-- `ntr` training and `nte` test samples with two features and one label each. -/
def demoData (ntr nte : Nat) : Data Nat Nat where
  X := fun s => match s with | .train => demoMtxB ntr 2 | .test => demoMtxB nte 2
  Y := fun s => match s with | .train => demoMtx ntr 1 | .test => demoMtx nte 1

theorem demoData_ok (ntr nte : Nat) (h1 : 0 < ntr) (h2 : 0 < nte) : (demoData ntr nte).Ok where
  birX := by intro s; cases s <;> rfl
  birY := by intro s; cases s <;> rfl
  widthX := by intro s; cases s <;> rfl
  widthY := by intro s; cases s <;> rfl
  posX := Nat.succ_pos 1
  posY := Nat.succ_pos 0
  count := by intro s; cases s <;> assumption
  same := by intro s; cases s <;> rfl
  emulX := by intro s; cases s <;> rfl
  emulY := by intro s; cases s <;> rfl
  storX := by intro s; cases s <;> exact Nat.le_refl _
  storY := by intro s; cases s <;> exact Nat.le_refl _

def demoEnv : AllocEnv Nat Nat := ⟨fun _ => 0, fun _ => 0, true, true, true⟩
def demoFresh (ntr nte : Nat) : TD Nat Nat := fresh (demoData ntr nte) (fun _ => 0) (fun _ => 0)

/-- The object after `init4train(maxF, maxB)`. -/
def demoTrain (ntr nte maxF maxB : Nat) : TD Nat Nat :=
  match init4train 1000 (demoFresh ntr nte) maxF maxB demoEnv with
  | some r => r.t
  | none => demoFresh ntr nte

theorem demoTrain_reach (ntr nte maxF maxB : Nat) : Reach 1000 (demoData ntr nte) (demoTrain ntr nte maxF maxB) := by
  unfold demoTrain
  split
  · rename_i r h; exact (Reach.fresh _ _).step (.train _ _ _ _ _ h)
  · exact Reach.fresh _ _

-- an epoch over 7 samples with batches of 3: two batches, shuffled by reversal
example : (onNextEpoch (demoTrain 7 4 0 3) 0 (-1) List.reverse).map (·.2) = some 2 := by decide
example : (init4train 1000 (demoFresh 7 4) 0 3 demoEnv).map (fun r => (r.err, r.maxFProp, r.maxBatch)) = some (.success, 7, 3) := by decide
example : (init4train 1000 (demoFresh 7 4) 2 3 demoEnv).map (fun r => (r.err, r.maxFProp, r.maxBatch)) =
    some (.invalidBatchSize2MaxFPropSizeRelation, 2, 3) := by decide

/-- **C15 is false of the code**: a concrete reachable object with five training samples and batches of two. The walk exists, and delivers
four samples. -/
theorem walk_loses_a_sample : ∃ (d : Data Nat Nat) (t t1 : TD Nat Nat) (n : Nat) (run : Nat → TD Nat Nat), d.Ok ∧ Reach 1000 d t ∧
    walkOverSet t .train 0 2 false false = some (t1, n) ∧ run 0 = t1 ∧ SubsetRun run n ∧ d.count .train = 5 ∧
    VisitsPrefix d .train run n 4 := by
  have hok := demoData_ok 5 2 (by omega) (by omega)
  have hr := demoTrain_reach 5 2 0 2
  cases hw : walkOverSet (demoTrain 5 2 0 2) .train 0 2 false false with
  | none => exact absurd hw (by decide)
  | some q =>
    obtain ⟨t1, n⟩ := q
    obtain ⟨run, h0, hrun⟩ := walk_run_exists hok hr hw
    exact ⟨_, _, t1, n, run, hok, hr, hw, h0, hrun, rfl, walk_misses_last_sample hok hr hw ⟨2, by decide, by decide⟩ run h0 hrun⟩

/-- **C17 is false of the code**: two training and five test samples, `init4train(0, 0)` succeeds with a full batch, yet
`is_initialized4train` answers no to the same sizes. -/
theorem is_initialized4train_wrong_answer : ∃ (d : Data Nat Nat) (t : TD Nat Nat) (res : InitRes Nat Nat), d.Ok ∧ Reach 1000 d t ∧
    init4train 1000 t 0 0 demoEnv = some res ∧ res.err = .success ∧ isInit4train res.t 0 0 = none ∧
    isInit4train res.t res.maxFProp res.maxBatch = none := by
  refine ⟨demoData 2 5, demoFresh 2 5, _, demoData_ok 2 5 (by omega) (by omega), .fresh _ _, rfl, ?_, ?_, ?_⟩ <;> decide

/-- **C61 is false of the code**: `init4inference` reports that memory could not be allocated, and afterwards
`is_initialized4inference` answers yes. -/
theorem init4inference_failure_reports_initialised : ∃ (d : Data Nat Nat) (t : TD Nat Nat) (res : InitRes Nat Nat), d.Ok ∧ Reach 1000 d t ∧
    init4inference 1000 t 2 { demoEnv with okX := false } = some res ∧ res.err = .tdInitNoMemory ∧
    isInit4inference res.t 0 = some 2 := by
  refine ⟨demoData 2 5, demoFresh 2 5, _, demoData_ok 2 5 (by omega) (by omega), .fresh _ _, rfl, ?_, ?_⟩ <;> decide

/-- **C61, partial.** After a failed `init4inference` the object does not claim to be initialised for any batch smaller than the
one that was requested. Missing: the requested size itself. -/
theorem init4inference_failure_partial {vmax : Nat} {t : TD α β} {maxF : Nat} {e : AllocEnv α β} {res : InitRes α β}
    (h : init4inference vmax t maxF e = some res) (hs : res.err = .tdInitNoMemory) (bs : Nat) (hb : 0 < bs) (hlt : bs < res.maxFProp) :
    isInit4inference res.t bs = none := by
  have key : ∀ (t1 t2 : TD α β) mi, initBatches t1 mi e = some (t2, false) → t2.bx.cap = 0 := by
    intro t1 t2 mi hi
    unfold initBatches at hi
    split at hi
    · dsimp only at hi
      generalize hrx : (if (t1.mini || !((t1.d.X .train).bir && mi)) = true then _ else _ : Option (Mtx α × Bool)) = rx at hi
      match rx, hrx, hi with
      | none, _, hi => contradiction
      | some (bx, false), hrx, hi =>
        cases hi
        split at hrx
        · exact (resizeAsDataset_spec hrx).2.2 rfl
        · cases hrx
      | some (bx, true), hrx, hi =>
        dsimp only at hi
        split at hi
        · contradiction
        · cases hi; rfl
        · cases hi
    · cases hi
  unfold init4inference at h
  dsimp only at h
  split at h
  · contradiction
  · split at h
    · cases h; cases hs
    · split at h
      · contradiction
      · rename_i t2 hi
        cases h
        have hcap := key _ _ _ hi
        obtain ⟨bx, bY, he, -⟩ := initBatches_spec rfl rfl hi
        have hm : t2.maxFProp = (if maxF ≤ 0 ∨ maxF > (deinit t).d.biggest then (deinit t).d.biggest else maxF) := by rw [he]
        dsimp only at hlt
        rw [← hm] at hlt
        have he : t2.bx.empty = true := by simp [Mtx.empty, hcap]
        have hbs : bs ≠ 0 := by omega
        simp [isInit4inference, he, hbs, hlt]
      · cases h; cases hs

/-- The assertions about the layouts of the stored sets (_train_data_simple.h 72, 240, 314) hold for every data set of the user that fits together, and
exactly for those with the same layout of features and of labels in both sets. -/
theorem coherence_asserted (d : Data α β) : (d.Ok → d.coherent = true) ∧
    (d.coherent = true ↔ (d.X .train).bir = (d.X .test).bir ∧ (d.Y .train).bir = (d.Y .test).bir) := by
  have h : d.coherent = true ↔ (d.X .train).bir = (d.X .test).bir ∧ (d.Y .train).bir = (d.Y .test).bir := by
    simp [Data.coherent]
  exact ⟨fun ok => h.2 ⟨(ok.birX .test).symm, (ok.birY .test).symm⟩, h⟩

end Nntl.TrainData
