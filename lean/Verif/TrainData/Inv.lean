import Verif.TrainData.Lemmas
/-! Preservation of the invariant. -/
namespace Nntl.TrainData
open Nntl.Matrix Nntl.Kernel
set_option linter.unusedSimpArgs false
set_option linter.unusedSectionVars false
variable {α β γ : Type} [OfNat α 1] [OfNat β 1]

theorem inv_deinit {t : TD α β} (h : t.d.Ok) : Inv (deinit t) where
  dOk := h
  bxOk := fun hc => absurd rfl hc
  bxOnes := cap0_ok _ rfl
  byOk := fun hc => absurd rfl hc
  mini := fun hc => by simp [deinit] at hc
  trainLe := Nat.zero_le _
  full := fun _ => Or.inl rfl
  ptrX := fun s hs => by simp [deinit] at hs
  ptrY := fun s hs => by simp [deinit] at hs
  ptrE := fun _ hc => by simp [deinit] at hc

theorem inv_fresh {d : Data α β} (h : d.Ok) (ja : Nat → α) (jb : Nat → β) : Inv (fresh d ja jb) where
  dOk := h
  bxOk := fun hc => absurd rfl hc
  bxOnes := cap0_ok _ rfl
  byOk := fun hc => absurd rfl hc
  mini := fun hc => by simp [fresh] at hc
  trainLe := Nat.zero_le _
  full := fun _ => Or.inl rfl
  ptrX := fun s hs => by simp [fresh] at hs
  ptrY := fun s hs => by simp [fresh] at hs
  ptrE := fun _ hc => by simp [fresh] at hc

/-- What `_initBatches` does to a deinitialised object with new sizes. -/
theorem initBatches_spec {t t' : TD α β} {miniInf b : Bool} {e : AllocEnv α β} (hbx : t.bx.cap = 0) (hby : t.bY.cap = 0)
    (h : initBatches t miniInf e = some (t', b)) :
    ∃ bx bY, t' = { t with bx := bx, bY := bY } ∧ BiasesAreOnes bx ∧
      (bx.cap ≠ 0 → Shape bx true (t.d.X .train).bir t.d.xW) ∧
      (bY.cap ≠ 0 → Shape bY false (t.d.Y .train).bir t.d.yW) ∧
      (b = true → t.mini = true → bx.cap ≠ 0 ∧ bY.cap ≠ 0 ∧
        t.maxTrain * (t.d.xW + 1) ≤ bx.maxSize ∧ t.maxTrain * t.d.yW ≤ bY.maxSize) ∧
      (b = true → miniInf = true → (t.d.X .train).bir = false → bx.cap ≠ 0 ∧ t.maxFProp * (t.d.xW + 1) ≤ bx.maxSize) ∧
      (b = true → miniInf = true → (t.d.Y .train).bir = false → bY.cap ≠ 0 ∧ t.maxFProp * t.d.yW ≤ bY.maxSize) ∧
      (b = true → miniInf = false → t.mini = false → bx.cap = 0) ∧
      (b = true → t.mini = false → (t.d.X .train).bir = true → bx.cap = 0) := by
  unfold initBatches at h
  split at h
  · rename_i hmi
    dsimp only at h
    generalize hrx : (if (t.mini || !((t.d.X .train).bir && miniInf)) = true then _ else _ : Option (Mtx α × Bool)) = rx at h
    have hX : ∀ bx bb, rx = some (bx, bb) → BiasesAreOnes bx ∧
        (bx.cap ≠ 0 → Shape bx true (t.d.X .train).bir t.d.xW) ∧
        (bb = true → t.mini = true → bx.cap ≠ 0 ∧ t.maxTrain * (t.d.xW + 1) ≤ bx.maxSize) ∧
        (bb = true → miniInf = true → (t.d.X .train).bir = false → bx.cap ≠ 0 ∧ t.maxFProp * (t.d.xW + 1) ≤ bx.maxSize) ∧
        (bb = true → t.mini = false → (t.d.X .train).bir = true → bx.cap = 0) := by
      intro bx bb hr
      rw [hr] at hrx
      split at hrx
      · rename_i hc
        obtain ⟨h1, h2, h3⟩ := resizeAsDataset_spec hrx
        refine ⟨h1, ?_, ?_, ?_, ?_⟩
        · intro hne
          cases hbb : bb with
          | true => exact (h2 hbb).1
          | false => exact absurd (h3 hbb) hne
        · intro hb' _
          obtain ⟨-, h4, h5, -⟩ := h2 hb'
          refine ⟨h4, ?_⟩
          rw [h5]
          refine Nat.mul_le_mul_right _ ?_
          split <;> omega
        · intro hb' hmi hbi
          obtain ⟨-, h4, h5, -⟩ := h2 hb'
          refine ⟨h4, ?_⟩
          rw [h5]
          refine Nat.mul_le_mul_right _ ?_
          rw [if_neg (by simp [hbi])]
          omega
        · intro hb' hm hbi
          simp [hm, hbi] at hc hmi
          rw [hmi] at hc; simp at hc
      · rename_i hc
        cases hrx
        refine ⟨cap0_ok _ hbx, fun hne => absurd hbx hne, ?_, ?_, fun _ _ _ => hbx⟩
        · intro _ hm; simp [hm] at hc
        · intro _ hm hbi; simp [hbi] at hc
    clear hrx
    split at h
    · contradiction
    · rename_i bx
      cases h
      obtain ⟨h1, h2, -⟩ := hX bx false rfl
      exact ⟨bx, t.bY, rfl, h1, h2, fun hne => absurd hby hne, by simp, by simp, by simp, by simp, by simp⟩
    · rename_i bx
      obtain ⟨h1, h2, h3, h4, h5⟩ := hX bx true rfl
      generalize hry : (if (t.mini || !((t.d.Y .train).bir && miniInf)) = true then _ else _ : Option (Mtx β × Bool)) = ry at h
      have hY : ∀ bY bb, ry = some (bY, bb) →
          (bY.cap ≠ 0 → Shape bY false (t.d.Y .train).bir t.d.yW) ∧
          (bb = true → t.mini = true → bY.cap ≠ 0 ∧ t.maxTrain * t.d.yW ≤ bY.maxSize) ∧
          (bb = true → miniInf = true → (t.d.Y .train).bir = false → bY.cap ≠ 0 ∧ t.maxFProp * t.d.yW ≤ bY.maxSize) := by
        intro bY bb hr
        rw [hr] at hry
        split at hry
        · rename_i hc
          obtain ⟨g1, g2, g3⟩ := resizeAsDataset_spec hry
          refine ⟨?_, ?_, ?_⟩
          · intro hne
            cases hbb : bb with
            | true => exact (g2 hbb).1
            | false => exact absurd (g3 hbb) hne
          · intro hb' _
            obtain ⟨-, g4, g5, -⟩ := g2 hb'
            refine ⟨g4, ?_⟩
            rw [g5]
            refine Nat.mul_le_mul ?_ (by simp)
            split <;> omega
          · intro hb' hmi hbi
            obtain ⟨-, g4, g5, -⟩ := g2 hb'
            refine ⟨g4, ?_⟩
            rw [g5]
            refine Nat.mul_le_mul ?_ (by simp)
            rw [if_neg (by simp [hbi])]
            omega
        · rename_i hc
          cases hry
          refine ⟨fun hne => absurd hby hne, ?_, ?_⟩
          · intro _ hm; simp [hm] at hc
          · intro _ hm hbi; simp [hbi] at hc
      clear hry
      split at h
      · contradiction
      · rename_i bY
        cases h
        obtain ⟨g1, -⟩ := hY bY false rfl
        exact ⟨clear bx, bY, rfl, cap0_ok _ rfl, fun hne => absurd rfl hne, g1, by simp, by simp, by simp, by simp, by simp⟩
      · rename_i bY
        cases h
        obtain ⟨g1, g2, g3⟩ := hY bY true rfl
        refine ⟨bx, bY, rfl, h1, h2, g1, ?_, h4, g3, ?_, h5⟩
        · intro _ hm
          exact ⟨(h3 rfl hm).1, (g2 rfl hm).1, (h3 rfl hm).2, (g2 rfl hm).2⟩
        · intro _ hi hm; simp [hi, hm] at hmi
  · rename_i hmi
    cases h
    simp at hmi
    exact ⟨t.bx, t.bY, rfl, cap0_ok _ hbx, fun hne => absurd hbx hne, fun hne => absurd hby hne,
      by simp [hmi.1], by simp [hmi.2], by simp [hmi.2], fun _ _ _ => hbx, fun _ _ _ => hbx⟩

/-- The object `init4train` hands to `_initBatches`. -/
def sized (t0 : TD α β) (mF mB : Nat) : TD α β :=
  let n := t0.d.count .train
  { deinit t0 with maxFProp := mF, maxTrain := mB, mini := decide (mB < n), idxs := if mB < n then List.range n else [] }

/-- Result of a successful or failed `init4train`. -/
theorem init4train_cases {vmax : Nat} {t0 : TD α β} {maxF maxB : Nat} {e : AllocEnv α β} {res : InitRes α β}
    (h : init4train vmax t0 maxF maxB e = some res) :
    (res.err ≠ .success → ∃ t1 : TD α β, res.t = deinit t1 ∧ t1.d = t0.d) ∧
    (res.err = .success → ∃ mF mB : Nat, mF = (if maxF = 0 ∨ maxF > t0.d.biggest then t0.d.biggest else maxF) ∧
      mB = (if maxB = 0 ∨ maxB > t0.d.count .train then t0.d.count .train else maxB) ∧ mB ≤ mF ∧
      res.maxFProp = mF ∧ res.maxBatch = mB ∧
      initBatches (sized t0 mF mB) (decide (mF < t0.d.biggest)) e = some (res.t, true)) := by
  unfold init4train at h
  dsimp only at h
  split at h
  · contradiction
  · split at h
    · cases h; exact ⟨fun _ => ⟨deinit t0, rfl, rfl⟩, by simp⟩
    · split at h
      · cases h; exact ⟨fun _ => ⟨deinit t0, rfl, rfl⟩, by simp⟩
      · have hd : (deinit t0).d = t0.d := rfl
        simp only [hd, Nat.le_zero] at h
        generalize hmF : (if maxF = 0 ∨ maxF > t0.d.biggest then t0.d.biggest else maxF) = mF at h
        generalize hmB : (if maxB = 0 ∨ maxB > t0.d.count .train then t0.d.count .train else maxB) = mB at h
        split at h
        · cases h; exact ⟨fun _ => ⟨deinit t0, rfl, rfl⟩, by simp⟩
        · split at h
          · cases h; exact ⟨fun _ => ⟨_, rfl, rfl⟩, by simp⟩
          · have key : (if decide (mB < t0.d.count .train) = true then
                { ({ deinit t0 with maxFProp := mF, maxTrain := mB, mini := decide (mB < t0.d.count .train) } : TD α β) with
                  idxs := List.range (t0.d.count .train) }
              else { deinit t0 with maxFProp := mF, maxTrain := mB, mini := decide (mB < t0.d.count .train) }) =
              sized t0 mF mB := by
              by_cases hlt : mB < t0.d.count .train
              · simp [hlt, sized]
              · simp [hlt, sized]; rfl
            split at h
            · contradiction
            · rename_i t1 h1
              cases h
              refine ⟨fun _ => ⟨t1, rfl, ?_⟩, by simp⟩
              erw [key] at h1
              obtain ⟨bx, bY, rfl, -⟩ := initBatches_spec (t := _) rfl rfl h1
              rfl
            · rename_i t1 h1
              cases h
              refine ⟨by simp, fun _ => ⟨mF, mB, hmF.symm ▸ rfl, hmB.symm ▸ rfl, by omega, rfl, rfl, ?_⟩⟩
              erw [key] at h1
              exact h1

theorem inv_train {vmax : Nat} {t0 : TD α β} {maxF maxB : Nat} {e : AllocEnv α β} {res : InitRes α β} (hI : Inv t0)
    (h : init4train vmax t0 maxF maxB e = some res) : Inv res.t ∧ res.t.d = t0.d := by
  obtain ⟨h1, h2⟩ := init4train_cases h
  by_cases hs : res.err = .success
  · obtain ⟨mF, mB, hF, hB, hle, -, -, hi⟩ := h2 hs
    obtain ⟨bx, bY, ht, g1, g2, g3, g4, -⟩ := initBatches_spec rfl rfl hi
    rw [ht]
    have hcnt := hI.dOk.count .train
    have hBle : mB ≤ t0.d.count .train := by rw [hB]; split <;> omega
    refine ⟨?_, rfl⟩
    exact {
      dOk := hI.dOk
      bxOk := g2
      bxOnes := g1
      byOk := g3
      mini := fun hm => by
        have hm' : mB < t0.d.count .train := by simpa [sized] using hm
        obtain ⟨a, b, c, d⟩ := g4 rfl hm
        refine ⟨a, b, ?_, c, d⟩
        show (if mB < t0.d.count .train then List.range (t0.d.count .train) else []).Perm _
        rw [if_pos hm']
        exact List.Perm.refl _
      trainLe := hBle
      full := fun hm => by
        right
        have : ¬ mB < t0.d.count .train := by simpa [sized] using hm
        show mB = t0.d.count .train
        omega
      ptrX := fun s hs => by simp [sized, deinit] at hs
      ptrY := fun s hs => by simp [sized, deinit] at hs
      ptrE := fun _ hc => by simp [sized, deinit] at hc }
  · obtain ⟨t1, ht, hd⟩ := h1 hs
    rw [ht]
    exact ⟨inv_deinit (by rw [hd]; exact hI.dOk), hd⟩

theorem init4inference_cases {vmax : Nat} {t0 : TD α β} {maxF : Nat} {e : AllocEnv α β} {res : InitRes α β}
    (h : init4inference vmax t0 maxF e = some res) :
    res.t = deinit t0 ∧ res.err = .tooBigTrainTestSet ∨
    ∃ (mF : Nat) (b : Bool), mF = (if maxF = 0 ∨ maxF > t0.d.biggest then t0.d.biggest else maxF) ∧ res.maxFProp = mF ∧
      res.err = (if b then .success else .tdInitNoMemory) ∧
      initBatches { deinit t0 with maxFProp := mF } (decide (mF < t0.d.biggest)) e = some (res.t, b) := by
  unfold init4inference at h
  dsimp only at h
  split at h
  · contradiction
  · split at h
    · cases h; exact Or.inl ⟨rfl, rfl⟩
    · right
      have hd : (deinit t0).d = t0.d := rfl
      simp only [hd, Nat.le_zero] at h
      generalize hmF : (if maxF = 0 ∨ maxF > t0.d.biggest then t0.d.biggest else maxF) = mF at h
      split at h
      · contradiction
      · rename_i t1 h1; cases h; exact ⟨mF, false, hmF.symm ▸ rfl, rfl, rfl, h1⟩
      · rename_i t1 h1; cases h; exact ⟨mF, true, hmF.symm ▸ rfl, rfl, rfl, h1⟩

theorem inv_inference {vmax : Nat} {t0 : TD α β} {maxF : Nat} {e : AllocEnv α β} {res : InitRes α β} (hI : Inv t0)
    (h : init4inference vmax t0 maxF e = some res) : Inv res.t ∧ res.t.d = t0.d := by
  rcases init4inference_cases h with ⟨ht, -⟩ | ⟨mF, b, hF, -, -, hi⟩
  · rw [ht]; exact ⟨inv_deinit hI.dOk, rfl⟩
  · obtain ⟨bx, bY, ht, g1, g2, g3, g4, -⟩ := initBatches_spec rfl rfl hi
    rw [ht]
    refine ⟨?_, rfl⟩
    exact {
      dOk := hI.dOk
      bxOk := g2
      bxOnes := g1
      byOk := g3
      mini := fun hm => by simp [deinit] at hm
      trainLe := Nat.zero_le _
      full := fun _ => Or.inl rfl
      ptrX := fun s hs => by simp [deinit] at hs
      ptrY := fun s hs => by simp [deinit] at hs
      ptrE := fun _ hc => by simp [deinit] at hc }

theorem deformY_maxSize {m m' : Mtx γ} {b : Nat} (h : m.deformBatchSize b = some m') : m'.maxSize = m.maxSize := by
  simp only [Mtx.deformBatchSize, Mtx.deformCols, Mtx.deformRows] at h
  split at h <;> split at h <;> first | contradiction | (cases h; rfl)

theorem deform_nonempty {m m' : Mtx γ} {b : Nat} (h : m.deformBatchSize b = some m') : m.cap ≠ 0 := by
  simp only [Mtx.deformBatchSize, Mtx.deformCols, Mtx.deformRows] at h
  split at h <;> split at h <;> first | contradiction | (rename_i hc; simpa [Mtx.empty] using hc.1)

theorem deformWB_nonempty {m m' : Mtx α} {b : Nat} (h : m.deformBatchSizeWithBiases b = some m') : m.cap ≠ 0 := by
  unfold Mtx.deformBatchSizeWithBiases at h
  cases h1 : m.deformBatchSize b with
  | none => rw [h1] at h; contradiction
  | some m1 => exact deform_nonempty h1

theorem effBatch_nat {dflt cd : Nat} {arg : Int} (h : 0 < effBatch dflt cd arg) :
    ∃ b : Nat, 0 < b ∧ effBatch dflt cd arg = b := ⟨(effBatch dflt cd arg).toNat, by omega, by omega⟩

/-- Everything `on_next_epoch` does. -/
theorem onNextEpoch_cases {t t' : TD α β} {cd n : Nat} {arg : Int} {shuffle : List Nat → List Nat}
    (h : onNextEpoch t cd arg shuffle = some (t', n)) :
    ∃ b : Nat, 0 < b ∧ effBatch t.maxTrain cd arg = b ∧ b ≤ t.maxTrain ∧ b ≤ t.d.count .train ∧ n = t.d.count .train / b ∧
      ((t.mini = true ∧ ∃ bx bY, t.bx.deformBatchSizeWithBiases b = some bx ∧ t.bY.deformBatchSize b = some bY ∧
          t' = { t with walk := none, cur := (b : Int), bx := bx, px := .batch, bY := bY, py := .batch, idxs := shuffle t.idxs }) ∨
       (t.mini = false ∧ b = (t.d.X .train).batchSize ∧ b = (t.d.Y .train).batchSize ∧
          t' = { t with walk := none, cur := (b : Int), px := .whole .train, py := .whole .train })) := by
  unfold onNextEpoch at h
  dsimp only at h
  split at h
  · rename_i hc
    obtain ⟨b, hb, he⟩ := effBatch_nat hc.1
    rw [he] at h hc
    simp only [Int.toNat_natCast] at h
    refine ⟨b, hb, he, by omega, by omega, ?_⟩
    split at h
    · rename_i hm
      split at h
      · rename_i bx bY h1 h2
        cases h
        exact ⟨rfl, Or.inl ⟨hm, bx, bY, h1, h2, rfl⟩⟩
      · contradiction
    · rename_i hm
      split at h
      · rename_i hh
        cases h
        exact ⟨rfl, Or.inr ⟨by simpa using hm, hh.1, hh.2, rfl⟩⟩
      · contradiction
  · contradiction

theorem inv_epoch {t t' : TD α β} {cd n : Nat} {arg : Int} {shuffle : List Nat → List Nat}
    (hsh : ∀ l : List Nat, (shuffle l).Perm l) (hI : Inv t) (h : onNextEpoch t cd arg shuffle = some (t', n)) :
    Inv t' ∧ t'.d = t.d := by
  obtain ⟨b, hb, he, hle, hlc, hn, ⟨hm, bx, bY, hx, hy, rfl⟩ | ⟨hm, e1, e2, rfl⟩⟩ := onNextEpoch_cases h
  · obtain ⟨m1, m2, m3, m4, m5⟩ := hI.mini hm
    obtain ⟨s1, s2, s3, s4, s5⟩ := (hI.bxOk m1).deformWB hI.bxOnes hb hx
    obtain ⟨u1, u2, u3, -⟩ := (hI.byOk m2).deform hb hy
    refine ⟨?_, rfl⟩
    exact {
      dOk := hI.dOk
      bxOk := fun _ => s1
      bxOnes := s4
      byOk := fun _ => u1
      mini := fun _ => ⟨s3, u3, (hsh _).trans m3, by rw [s5]; exact m4, by rw [deformY_maxSize hy]; exact m5⟩
      trainLe := hI.trainLe
      full := hI.full
      ptrX := fun s hs => by simp at hs
      ptrY := fun s hs => by simp at hs
      ptrE := fun _ _ hmm => by simp [hm] at hmm }
  · refine ⟨?_, rfl⟩
    exact {
      dOk := hI.dOk
      bxOk := hI.bxOk
      bxOnes := hI.bxOnes
      byOk := hI.byOk
      mini := hI.mini
      trainLe := hI.trainLe
      full := hI.full
      ptrX := fun s hs => by simp at hs
      ptrY := fun s hs => by simp at hs
      ptrE := fun _ _ _ => ⟨rfl, rfl, by rw [e1]; rfl⟩ }

/-- Extraction into a batch matrix keeps its biases. -/
theorem ones_of_untouched {m : Mtx α} {d' : Nat → α} (ho : BiasesAreOnes m)
    (h : ∀ r c, r < m.rows → c < m.cols → ¬ (r < m.rowsNoBias ∧ c < m.colsNoBias) →
      Mtx.get { m with data := d' } r c = m.get r c) : BiasesAreOnes { m with data := d' } := by
  intro hc r c hr hcc hb
  rw [h r c hr hcc]
  · exact ho hc r c hr hcc hb
  · obtain ⟨hb1, hb2⟩ := hb
    simp only at hb1 hb2 hr hcc
    unfold Mtx.rowsNoBias Mtx.colsNoBias
    rw [hb1]
    cases hbb : m.bir <;> rw [hbb] at hb2 <;> simp at hb2 ⊢ <;> omega

theorem shape_pos {m : Mtx γ} {em bi w} (h : Shape m em bi w) (hw : 0 < w) : 0 < m.rows ∧ 0 < m.colsNoBias := by
  have h1 := h.dim
  have h2 := h.pos
  unfold Mtx.batchSize at h2
  unfold Mtx.colsNoBias
  rw [h.bir] at h2 ⊢
  rw [h.emul]
  cases bi <;> cases em <;> simp at h1 h2 ⊢ <;> omega

/-- What `on_next_batch` leaves in the batch matrices in mini-batch mode. -/
theorem extract_to {src dest : Mtx γ} {ex : Exec} (hex : ex.Ok) {em bi w} (hs : Shape dest em bi w) (hw : 0 < w)
    (hbir : src.bir = bi) (hss : src.sampleSize = w) {idx : Nat → Nat}
    (hidx : ∀ i, i < dest.batchSize → idx i < src.batchSize) {d' : Nat → γ}
    (h : Outcome (mExtractBatches ex src dest idx) dest.data d') :
    (∀ r, r < dest.batchSize → RowIs { dest with data := d' } src r (idx r)) ∧
    (∀ r c, r < dest.rows → c < dest.cols → ¬ (r < dest.rowsNoBias ∧ c < dest.colsNoBias) →
      Mtx.get { dest with data := d' } r c = dest.get r c) := by
  have hp := shape_pos hs hw
  have he := extract_batches ex hex src dest idx (by rw [hbir, hs.bir]) (by rw [hss, hs.sampleSize]) hp.1 hp.2 hidx d' h
  refine ⟨?_, he.2.1⟩
  intro r hr
  exact ⟨by rw [hss]; exact (hs.data d').sampleSize, hr, hidx r hr, fun j hj => he.1 r j hr hj⟩

theorem perm_range_getD {l : List Nat} {n : Nat} (h : l.Perm (List.range n)) {k : Nat} (hk : k < l.length) :
    l.getD k 0 < n := by
  have hm : l.getD k 0 ∈ l := by
    rw [List.getD_eq_getElem?_getD, List.getElem?_eq_getElem hk]; exact List.getElem_mem hk
  have := h.mem_iff.1 hm
  simpa using this

/-- `on_next_batch`, mini-batch mode. -/
theorem onNextBatch_mini {exX exY : Exec} (hX : exX.Ok) (hY : exY.Ok) {t t' : TD α β} {i : Nat} (hI : Inv t) (hm : t.mini = true)
    (h : OnNextBatch exX exY t i t') :
    ∃ b : Nat, 0 < b ∧ t.cur = b ∧ b * i + b ≤ t.d.count .train ∧ t.px = .batch ∧ t.py = .batch ∧ t.bx.batchSize = b ∧ t.bY.batchSize = b ∧
    ∃ dx dy, t' = { t with bY := { t.bY with data := dy }, bx := { t.bx with data := dx } } ∧
      BiasesAreOnes t'.bx ∧
      ∀ r, r < b → RowIs t'.bx (t.d.X .train) r (t.idxs.getD (b * i + r) 0) ∧
        RowIs t'.bY (t.d.Y .train) r (t.idxs.getD (b * i + r) 0) := by
  obtain ⟨hw, hc, h⟩ := h
  rw [if_pos hm] at h
  obtain ⟨hbx, hby, hpx, hpy, hlen, dy, dx, hoy, hox, rfl⟩ := h
  obtain ⟨b, hb⟩ : ∃ b : Nat, t.cur = b := ⟨t.cur.toNat, by omega⟩
  rw [hb] at hc hbx hby hlen hoy hox
  simp only [Int.toNat_natCast] at hlen hoy hox
  have hbx' : t.bx.batchSize = b := by omega
  have hby' : t.bY.batchSize = b := by omega
  obtain ⟨m1, m2, m3, m4, m5⟩ := hI.mini hm
  have hl : t.idxs.length = t.d.count .train := by rw [m3.length_eq, List.length_range]
  have hex := extract_to hX (hI.bxOk m1) hI.dOk.posX rfl rfl
    (fun j hj => perm_range_getD m3 (by rw [hbx'] at hj; omega)) hox
  have hey := extract_to hY (hI.byOk m2) hI.dOk.posY rfl rfl
    (fun j hj => by
      rw [hI.dOk.same]
      exact perm_range_getD m3 (by rw [hby'] at hj; omega)) hoy
  refine ⟨b, by omega, hb, by omega, hpx, hpy, hbx', hby', dx, dy, rfl, ones_of_untouched hI.bxOnes hex.2, ?_⟩
  intro r hr
  exact ⟨hex.1 r (by omega), hey.1 r (by omega)⟩

theorem inv_batch {exX exY : Exec} (hX : exX.Ok) (hY : exY.Ok) {t t' : TD α β} {i : Nat} (hI : Inv t)
    (h : OnNextBatch exX exY t i t') : Inv t' ∧ t'.d = t.d := by
  by_cases hm : t.mini = true
  · obtain ⟨b, hb, hc, -, hpx, hpy, -, -, dx, dy, rfl, ho, -⟩ := onNextBatch_mini hX hY hI hm h
    refine ⟨?_, rfl⟩
    exact {
      dOk := hI.dOk
      bxOk := fun hc => (hI.bxOk hc).data dx
      bxOnes := ho
      byOk := fun hc => (hI.byOk hc).data dy
      mini := hI.mini
      trainLe := hI.trainLe
      full := hI.full
      ptrX := hI.ptrX
      ptrY := hI.ptrY
      ptrE := hI.ptrE }
  · obtain ⟨-, -, h⟩ := h
    rw [if_neg hm] at h
    rw [h.2]
    exact ⟨hI, rfl⟩

/-- Everything `walk_over_set` does. -/
theorem walkOverSet_cases {t t' : TD α β} {s : SetId} {cd n : Nat} {arg : Int} {exclX exclY : Bool}
    (h : walkOverSet t s cd arg exclX exclY = some (t', n)) :
    ∃ b0 : Nat, 0 < b0 ∧ effBatch t.maxFProp cd arg = b0 ∧ b0 ≤ t.maxFProp ∧ 0 < t.d.count s ∧
      ∃ b, b = min b0 (t.d.count s) ∧ n = t.d.count s / b + (if t.d.count s % b > 1 then 1 else 0) ∧
      ((b < t.d.count s ∧ ∃ bx bY px py,
          (exclX = true ∧ px = .null ∧ bx = t.bx ∨
           exclX = false ∧ (t.d.X .train).bir = true ∧ px = .walk ∧ bx = t.bx ∨
           exclX = false ∧ (t.d.X .train).bir = false ∧ px = .batch ∧ t.bx.deformBatchSizeWithBiases b = some bx) ∧
          (exclY = true ∧ py = .null ∧ bY = t.bY ∨
           exclY = false ∧ (t.d.Y .train).bir = true ∧ py = .walk ∧ bY = t.bY ∨
           exclY = false ∧ (t.d.Y .train).bir = false ∧ py = .batch ∧ t.bY.deformBatchSize b = some bY) ∧
          t' = { t with walk := some s, cur := (b : Int), bx := bx, px := px, bY := bY, py := py }) ∨
       (b = t.d.count s ∧ t' = { t with walk := some s, cur := -1, px := if exclX then .null else .whole s, py := if exclY then .null else .whole s })) := by
  unfold walkOverSet at h
  dsimp only at h
  split at h
  · rename_i hc
    obtain ⟨b0, hb0, he⟩ := effBatch_nat hc.1
    rw [he] at h hc
    simp only [Int.toNat_natCast] at h
    have hmin : (if b0 > t.d.count s then t.d.count s else b0) = min b0 (t.d.count s) := by split <;> omega
    rw [hmin] at h
    refine ⟨b0, hb0, he, by omega, hc.2.2, _, rfl, ?_⟩
    generalize hb : min b0 (t.d.count s) = b at h
    have hn : t.d.count s / b + (decide (t.d.count s % b > 1)).toNat = t.d.count s / b + (if t.d.count s % b > 1 then 1 else 0) := by
      split <;> simp_all
    rw [hn] at h
    split at h
    · rename_i hlt
      split at h
      · contradiction
      · rename_i t1 h1
        simp only [Option.map_eq_some_iff, Prod.mk.injEq] at h
        obtain ⟨t2, h2, rfl, rfl⟩ := h
        refine ⟨rfl, Or.inl ⟨hlt, ?_⟩⟩
        have hx : ∃ bx px, (exclX = true ∧ px = .null ∧ bx = t.bx ∨
           exclX = false ∧ (t.d.X .train).bir = true ∧ px = .walk ∧ bx = t.bx ∨
           exclX = false ∧ (t.d.X .train).bir = false ∧ px = .batch ∧ t.bx.deformBatchSizeWithBiases b = some bx) ∧
           t1 = { t with walk := some s, cur := (b : Int), bx := bx, px := px } := by
          split at h1
          · rename_i hh; cases h1; exact ⟨_, _, Or.inl ⟨hh, rfl, rfl⟩, rfl⟩
          · rename_i hh
            split at h1
            · rename_i hb'; cases h1; exact ⟨_, _, Or.inr (Or.inl ⟨by simpa using hh, hb', rfl, rfl⟩), rfl⟩
            · rename_i hb'
              simp only [Option.map_eq_some_iff] at h1
              obtain ⟨bx, hbx, rfl⟩ := h1
              exact ⟨_, _, Or.inr (Or.inr ⟨by simpa using hh, by simpa using hb', rfl, hbx⟩), rfl⟩
        obtain ⟨bx, px, hX, rfl⟩ := hx
        split at h2
        · rename_i hh; cases h2; exact ⟨bx, _, px, _, hX, Or.inl ⟨hh, rfl, rfl⟩, rfl⟩
        · rename_i hh
          split at h2
          · rename_i hb'; cases h2; exact ⟨bx, _, px, _, hX, Or.inr (Or.inl ⟨by simpa using hh, hb', rfl, rfl⟩), rfl⟩
          · rename_i hb'
            simp only [Option.map_eq_some_iff] at h2
            obtain ⟨bY, hbY, rfl⟩ := h2
            exact ⟨bx, bY, px, _, hX, Or.inr (Or.inr ⟨by simpa using hh, by simpa using hb', rfl, hbY⟩), rfl⟩
    · rename_i hlt
      split at h
      · cases h
        exact ⟨rfl, Or.inr ⟨by omega, rfl⟩⟩
      · contradiction
  · contradiction

theorem inv_walk {t t' : TD α β} {s : SetId} {cd n : Nat} {arg : Int} {exclX exclY : Bool} (hI : Inv t)
    (h : walkOverSet t s cd arg exclX exclY = some (t', n)) : Inv t' ∧ t'.d = t.d := by
  obtain ⟨b0, hb0, -, -, hds, b, hb, -, ⟨hlt, bx, bY, px, py, hX, hY, rfl⟩ | ⟨-, rfl⟩⟩ := walkOverSet_cases h
  · have hbp : 0 < b := by omega
    have hX' : (bx.cap ≠ 0 → Shape bx true (t.d.X .train).bir t.d.xW) ∧ BiasesAreOnes bx ∧ bx.maxSize = t.bx.maxSize ∧
        (t.bx.cap ≠ 0 → bx.cap ≠ 0) ∧
        (px = .null ∨ (px = .batch ∧ (t.d.X .train).bir = false ∧ bx.cap ≠ 0) ∨ (px = .walk ∧ (t.d.X .train).bir = true)) := by
      rcases hX with ⟨-, rfl, rfl⟩ | ⟨-, hbi, rfl, rfl⟩ | ⟨-, hbi, rfl, hd⟩
      · exact ⟨hI.bxOk, hI.bxOnes, rfl, id, Or.inl rfl⟩
      · exact ⟨hI.bxOk, hI.bxOnes, rfl, id, Or.inr (Or.inr ⟨rfl, hbi⟩)⟩
      · obtain ⟨s1, s2, s3, s4, s5⟩ := (hI.bxOk (deformWB_nonempty hd)).deformWB hI.bxOnes hbp hd
        exact ⟨fun _ => s1, s4, s5, fun _ => s3, Or.inr (Or.inl ⟨rfl, hbi, s3⟩)⟩
    have hY' : (bY.cap ≠ 0 → Shape bY false (t.d.Y .train).bir t.d.yW) ∧ bY.maxSize = t.bY.maxSize ∧
        (t.bY.cap ≠ 0 → bY.cap ≠ 0) ∧
        (py = .null ∨ (py = .batch ∧ (t.d.Y .train).bir = false ∧ bY.cap ≠ 0) ∨ (py = .walk ∧ (t.d.Y .train).bir = true)) := by
      rcases hY with ⟨-, rfl, rfl⟩ | ⟨-, hbi, rfl, rfl⟩ | ⟨-, hbi, rfl, hd⟩
      · exact ⟨hI.byOk, rfl, id, Or.inl rfl⟩
      · exact ⟨hI.byOk, rfl, id, Or.inr (Or.inr ⟨rfl, hbi⟩)⟩
      · obtain ⟨s1, s2, s3, -⟩ := (hI.byOk (deform_nonempty hd)).deform hbp hd
        exact ⟨fun _ => s1, deformY_maxSize hd, fun _ => s3, Or.inr (Or.inl ⟨rfl, hbi, s3⟩)⟩
    obtain ⟨x1, x2, x3, x4, x5⟩ := hX'
    obtain ⟨y1, y3, y4, y5⟩ := hY'
    refine ⟨?_, rfl⟩
    exact {
      dOk := hI.dOk
      bxOk := x1
      bxOnes := x2
      byOk := y1
      mini := fun hm => by
        obtain ⟨m1, m2, m3, m4, m5⟩ := hI.mini hm
        exact ⟨x4 m1, y4 m2, m3, by rw [x3]; exact m4, by rw [y3]; exact m5⟩
      trainLe := hI.trainLe
      full := hI.full
      ptrX := fun s' hs => by
        refine ⟨fun hc => ?_, fun _ => x5⟩
        simp only at hc; omega
      ptrY := fun s' hs => by
        refine ⟨fun hc => ?_, fun _ => y5⟩
        simp only at hc; omega
      ptrE := fun hw => by simp at hw }
  · refine ⟨?_, rfl⟩
    exact {
      dOk := hI.dOk
      bxOk := hI.bxOk
      bxOnes := hI.bxOnes
      byOk := hI.byOk
      mini := hI.mini
      trainLe := hI.trainLe
      full := hI.full
      ptrX := fun s' hs => by
        have hs : s = s' := by simpa using hs
        subst hs
        refine ⟨fun _ => ?_, fun hc => by simp only at hc; omega⟩
        cases exclX <;> simp
      ptrY := fun s' hs => by
        have hs : s = s' := by simpa using hs
        subst hs
        refine ⟨fun _ => ?_, fun hc => by simp only at hc; omega⟩
        cases exclY <;> simp
      ptrE := fun hw => by simp at hw }

end Nntl.TrainData
