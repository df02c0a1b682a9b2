import Verif.TrainData.Spec
/-! Invariant of the training data object. -/
namespace Nntl.TrainData
open Nntl.Matrix Nntl.Kernel
set_option linter.unusedSimpArgs false
set_option linter.unusedSectionVars false
variable {α β γ : Type}

/-- Shape of an allocated batch matrix. -/
structure Shape (m : Mtx γ) (em bi : Bool) (w : Nat) : Prop where
  emul : m.emul = em
  bir : m.bir = bi
  dim : (if bi = true then m.rows else m.cols) = w + em.toNat
  pos : 0 < m.batchSize
  fit : m.rows * m.cols ≤ m.maxSize
  cap : m.maxSize ≤ m.cap

theorem Shape.data {m : Mtx γ} {emul bir w} (h : Shape m emul bir w) (d : Nat → γ) : Shape { m with data := d } emul bir w :=
  ⟨h.emul, h.bir, h.dim, h.pos, h.fit, h.cap⟩

theorem Shape.sampleSize {m : Mtx γ} {emul bir w} (h : Shape m emul bir w) : m.sampleSize = w := by
  have hd := h.dim
  unfold Mtx.sampleSize Mtx.rowsNoBias Mtx.colsNoBias
  rw [h.emul, h.bir]
  cases bir <;> cases emul <;> simp at hd ⊢ <;> omega

theorem Shape.deform {m m' : Mtx γ} {emul bir w b} (h : Shape m emul bir w) (hb : 0 < b) (hd : m.deformBatchSize b = some m') :
    Shape m' emul bir w ∧ m'.batchSize = b ∧ m'.cap ≠ 0 ∧ m.cap = m'.cap ∧ (m.batchSize = b → m' = m) := by
  have hdim := h.dim
  have hbir := h.bir
  unfold Mtx.deformBatchSize at hd
  cases hbb : bir with
  | true =>
    rw [hbb] at hbir hdim
    simp only [hbir, if_true, Mtx.deformCols] at hd hdim
    split at hd
    · rename_i hc
      cases hd
      refine ⟨⟨h.emul, rfl, hdim, by simpa [Mtx.batchSize, hbir] using hb, hc.2, h.cap⟩, by simp [Mtx.batchSize, hbir], ?_, rfl, ?_⟩
      · have := hc.1; simpa [Mtx.empty] using this
      · intro he; simp only [Mtx.batchSize, hbir, if_true] at he; subst he; cases m; cases hbir; rfl
    · contradiction
  | false =>
    rw [hbb] at hbir hdim
    simp only [hbir, Bool.false_eq_true, if_false, Mtx.deformRows] at hd hdim
    split at hd
    · rename_i hc
      cases hd
      refine ⟨⟨h.emul, rfl, hdim, by simpa [Mtx.batchSize, hbir] using hb, hc.2, h.cap⟩, by simp [Mtx.batchSize, hbir], ?_, rfl, ?_⟩
      · have := hc.1; simpa [Mtx.empty] using this
      · intro he; simp only [Mtx.batchSize, hbir, Bool.false_eq_true, if_false] at he; subst he; cases m; cases hbir; rfl
    · contradiction

/-- A deform to `b` samples succeeds if the storage is big enough. -/
theorem Shape.deform_some {m : Mtx γ} {emul bir w b} (h : Shape m emul bir w) (hc : m.cap ≠ 0)
    (hs : b * (w + emul.toNat) ≤ m.maxSize) : ∃ m', m.deformBatchSize b = some m' := by
  have hdim := h.dim
  have hbir := h.bir
  have he : m.empty = false := by simpa [Mtx.empty] using hc
  unfold Mtx.deformBatchSize
  cases hbb : bir with
  | true =>
    rw [hbb] at hbir hdim
    simp only [hbir, if_true, Mtx.deformCols, he] at hdim ⊢
    rw [if_pos (by rw [hdim, Nat.mul_comm]; exact ⟨by simp, hs⟩)]
    exact ⟨_, rfl⟩
  | false =>
    rw [hbb] at hbir hdim
    simp only [hbir, Bool.false_eq_true, if_false, Mtx.deformRows, he] at hdim ⊢
    rw [if_pos (by rw [hdim]; exact ⟨by simp, hs⟩)]
    exact ⟨_, rfl⟩

theorem Shape.deformWB [OfNat γ 1] {m m' : Mtx γ} {emul bir w b} (h : Shape m emul bir w) (ho : BiasesAreOnes m) (hb : 0 < b)
    (hd : m.deformBatchSizeWithBiases b = some m') :
    Shape m' emul bir w ∧ m'.batchSize = b ∧ m'.cap ≠ 0 ∧ BiasesAreOnes m' ∧ m'.maxSize = m.maxSize := by
  unfold Mtx.deformBatchSizeWithBiases at hd
  cases h1 : m.deformBatchSize b with
  | none => rw [h1] at hd; contradiction
  | some m1 =>
    rw [h1] at hd
    simp only [Option.map_some, Option.some.injEq] at hd
    obtain ⟨s1, b1, c1, -, e1⟩ := h.deform hb h1
    have hms : m1.maxSize = m.maxSize := by
      simp only [Mtx.deformBatchSize, Mtx.deformCols, Mtx.deformRows] at h1
      split at h1 <;> split at h1 <;> first | contradiction | (cases h1; rfl)
    subst hd
    split
    · rename_i he; rw [e1 he] at c1 ⊢; exact ⟨h, he, c1, ho, rfl⟩
    · split
      · refine ⟨⟨?_, ?_, ?_, ?_, ?_, ?_⟩, ?_, ?_, setBiases_ok _, ?_⟩
        · rw [setBiases_emul]; exact s1.emul
        · rw [setBiases_bir]; exact s1.bir
        · rw [setBiases_rows, setBiases_cols]; exact s1.dim
        · have := s1.pos; unfold Mtx.batchSize at *; simpa using this
        · rw [setBiases_rows, setBiases_cols, setBiases_maxSize]; exact s1.fit
        · rw [setBiases_maxSize, setBiases_cap]; exact s1.cap
        · unfold Mtx.batchSize at *; simpa using b1
        · rw [setBiases_cap]; exact c1
        · rw [setBiases_maxSize]; exact hms
      · rename_i hne
        exact ⟨s1, b1, c1, noEmul_ok _ (by simpa using hne), hms⟩

theorem resizeAsDataset_spec [OfNat γ 1] {m m' : Mtx γ} {bs w : Nat} {j : Nat → γ} {ok b : Bool}
    (h : resizeAsDataset m bs w j ok = some (m', b)) :
    BiasesAreOnes m' ∧
    (b = true → Shape m' m.emul m.bir w ∧ m'.cap ≠ 0 ∧ m'.maxSize = bs * (w + m.emul.toNat) ∧ m'.batchSize = bs) ∧
    (b = false → m'.cap = 0) := by
  have hres : ∀ r c, m.dResize r c j ok = some (m', b) → BiasesAreOnes m' ∧
      (b = true → m'.emul = m.emul ∧ m'.bir = m.bir ∧ m'.rows = r + (m.emul && m.bir).toNat ∧
        m'.cols = c + (m.emul && !m.bir).toNat ∧ 0 < r ∧ 0 < c ∧ m'.maxSize = m'.rows * m'.cols ∧ m'.cap = m'.rows * m'.cols) ∧
      (b = false → m'.cap = 0) := by
    intro r c hd
    refine ⟨dResize_ok _ _ _ _ _ _ _ hd, ?_, ?_⟩
    · rintro rfl
      unfold Mtx.dResize at hd
      split at hd
      · contradiction
      · rename_i m1 b1 h1
        simp only [Option.some.injEq, Prod.mk.injEq] at hd
        obtain ⟨rfl, rfl⟩ := hd
        have hs := resize_true_size _ _ _ _ _ _ h1
        simp only [if_true]
        refine ⟨hs.2.2.2.2.1, hs.2.2.2.2.2.1, hs.1, hs.2.1, hs.2.2.1, hs.2.2.2.1, rfl, ?_⟩
        have hpos := hs.2.2
        unfold Mtx.resize at h1
        split at h1
        · cases h1
        · split at h1
          · contradiction
          · rename_i m2 b2 h2
            simp only [Option.some.injEq, Prod.mk.injEq] at h1
            obtain ⟨rfl, rfl⟩ := h1
            unfold Mtx.implResize at h2
            rw [if_neg (by omega), if_neg (by simp only; omega)] at h2
            split at h2
            · contradiction
            · cases h2
              simp only
              split <;> simp
    · rintro rfl
      unfold Mtx.dResize at hd
      split at hd
      · contradiction
      · rename_i m1 b1 h1
        simp only [Option.some.injEq, Prod.mk.injEq] at hd
        obtain ⟨rfl, rfl⟩ := hd
        simp only [Bool.false_eq_true, if_false]
        unfold Mtx.resize at h1
        split at h1
        · cases h1; rfl
        · split at h1
          · contradiction
          · rename_i m2 b2 h2
            simp only [Option.some.injEq, Prod.mk.injEq] at h1
            obtain ⟨rfl, rfl⟩ := h1
            simp only [Bool.false_and, Bool.false_eq_true, if_false]
            unfold Mtx.implResize at h2
            split at h2
            · cases h2; rfl
            · split at h2
              · cases h2
              · split at h2
                · contradiction
                · cases h2; rfl
  unfold resizeAsDataset at h
  split at h
  · rename_i hb
    obtain ⟨h1, h2, h3⟩ := hres _ _ h
    refine ⟨h1, fun hb' => ?_, h3⟩
    obtain ⟨e1, e2, e3, e4, e5, e6, e7, e8⟩ := h2 hb'
    simp only [hb, Bool.and_true, Bool.not_true, Bool.and_false, Bool.toNat_false, Nat.add_zero] at e3 e4
    refine ⟨⟨e1, e2, ?_, ?_, by omega, by omega⟩, ?_, ?_, ?_⟩
    · simp [hb, e3]
    · unfold Mtx.batchSize; rw [e2, hb]; simp; omega
    · rw [e8, e3, e4]
      exact Nat.ne_of_gt (Nat.mul_pos (by omega) e6)
    · rw [e7, e3, e4, Nat.mul_comm]
    · unfold Mtx.batchSize; rw [e2, hb]; simpa using e4
  · rename_i hb
    have hb : m.bir = false := by simpa using hb
    obtain ⟨h1, h2, h3⟩ := hres _ _ h
    refine ⟨h1, fun hb' => ?_, h3⟩
    obtain ⟨e1, e2, e3, e4, e5, e6, e7, e8⟩ := h2 hb'
    simp only [hb, Bool.and_true, Bool.not_false, Bool.and_false, Bool.toNat_false, Nat.add_zero] at e3 e4
    refine ⟨⟨e1, e2, ?_, ?_, by omega, by omega⟩, ?_, ?_, ?_⟩
    · simp [hb, e4]
    · unfold Mtx.batchSize; rw [e2, hb]; simp; omega
    · rw [e8, e3, e4]
      exact Nat.ne_of_gt (Nat.mul_pos e5 (by omega))
    · rw [e7, e3, e4]
    · unfold Mtx.batchSize; rw [e2, hb]; simpa using e3

/-- The invariant. -/
structure Inv [OfNat α 1] [OfNat β 1] (t : TD α β) : Prop where
  dOk : t.d.Ok
  bxOk : t.bx.cap ≠ 0 → Shape t.bx true (t.d.X .train).bir t.d.xW
  bxOnes : BiasesAreOnes t.bx
  byOk : t.bY.cap ≠ 0 → Shape t.bY false (t.d.Y .train).bir t.d.yW
  mini : t.mini = true → t.bx.cap ≠ 0 ∧ t.bY.cap ≠ 0 ∧ t.idxs.Perm (List.range (t.d.count .train)) ∧
    t.maxTrain * (t.d.xW + 1) ≤ t.bx.maxSize ∧ t.maxTrain * t.d.yW ≤ t.bY.maxSize
  trainLe : t.maxTrain ≤ t.d.count .train
  full : t.mini = false → t.maxTrain = 0 ∨ t.maxTrain = t.d.count .train
  ptrX : ∀ s, t.walk = some s → (t.cur = -1 → t.px = .null ∨ t.px = .whole s) ∧
    (0 < t.cur → t.px = .null ∨ (t.px = .batch ∧ (t.d.X .train).bir = false ∧ t.bx.cap ≠ 0) ∨
      (t.px = .walk ∧ (t.d.X .train).bir = true))
  ptrY : ∀ s, t.walk = some s → (t.cur = -1 → t.py = .null ∨ t.py = .whole s) ∧
    (0 < t.cur → t.py = .null ∨ (t.py = .batch ∧ (t.d.Y .train).bir = false ∧ t.bY.cap ≠ 0) ∨
      (t.py = .walk ∧ (t.d.Y .train).bir = true))
  ptrE : t.walk = none → 0 < t.cur → t.mini = false → t.px = .whole .train ∧ t.py = .whole .train ∧
    t.cur = t.d.count .train
end Nntl.TrainData
