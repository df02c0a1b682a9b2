import Mathlib.Tactic.ByContra
import Verif.Matrix.Lemmas
import Verif.Matrix.Spec
/-! Invariant behind C07: the matrix with everything un-hidden has ones in its bias vector. -/
namespace Nntl.Matrix
set_option linter.unusedSectionVars false
set_option linter.unusedSimpArgs false
variable {α : Type} [OfNat α 1]

/-- Data-level form of `BiasesAreOnes`. -/
theorem biasesAreOnes_iff (m : Mtx α) : BiasesAreOnes m ↔
    (m.cap ≠ 0 → ∀ r c, r < m.rows → c < m.cols → IsBias m r c → m.data (r + m.rows * c) = 1) := by
  unfold BiasesAreOnes Mtx.get Mtx.cell
  constructor
  · intro h hc r c hr hcc hb
    have := h hc r c hr hcc hb
    rw [if_pos ⟨hr, hcc⟩] at this
    exact Option.some.inj this
  · intro h hc r c hr hcc hb
    rw [if_pos ⟨hr, hcc⟩, h hc r c hr hcc hb]

theorem setBiases_data (m : Mtx α) (r c : Nat) (hr : r < m.rows) (hc : c < m.cols)
    (hb : if m.bir then r + 1 = m.rows else c + 1 = m.cols) : m.setBiases.data (r + m.rows * c) = 1 := by
  unfold Mtx.setBiases
  by_cases h : m.bir = true
  · simp only [h, if_true] at hb ⊢
    have : m.rows - 1 = r := by omega
    simp only [Mtx.fillRow, this]
    exact fillStride_hit _ _ _ _ _ _ hc
  · simp only [h] at hb ⊢
    have hc' : m.cols - 1 = c := by simp at hb; omega
    simp only [Mtx.fillCol, hc', Bool.false_eq_true, if_false]
    rw [fillSeq_apply, if_pos]; omega

@[simp] theorem setBiases_rows (m : Mtx α) : m.setBiases.rows = m.rows := by
  unfold Mtx.setBiases; split <;> rfl
@[simp] theorem setBiases_cols (m : Mtx α) : m.setBiases.cols = m.cols := by
  unfold Mtx.setBiases; split <;> rfl
@[simp] theorem setBiases_emul (m : Mtx α) : m.setBiases.emul = m.emul := by
  unfold Mtx.setBiases; split <;> rfl
@[simp] theorem setBiases_bir (m : Mtx α) : m.setBiases.bir = m.bir := by
  unfold Mtx.setBiases; split <;> rfl
@[simp] theorem setBiases_cap (m : Mtx α) : m.setBiases.cap = m.cap := by
  unfold Mtx.setBiases; split <;> rfl
@[simp] theorem setBiases_ext (m : Mtx α) : m.setBiases.ext = m.ext := by
  unfold Mtx.setBiases; split <;> rfl
@[simp] theorem setBiases_maxSize (m : Mtx α) : m.setBiases.maxSize = m.maxSize := by
  unfold Mtx.setBiases; split <;> rfl

theorem setBiases_ok (m : Mtx α) : BiasesAreOnes m.setBiases := by
  rw [biasesAreOnes_iff]
  intro _ r c hr hc hb
  simp only [IsBias, setBiases_rows, setBiases_cols, setBiases_bir] at *
  exact setBiases_data m r c hr hc hb.2

theorem noEmul_ok (m : Mtx α) (h : m.emul = false) : BiasesAreOnes m := by
  intro _ r c _ _ hb; simp [IsBias, h] at hb

theorem cap0_ok (m : Mtx α) (h : m.cap = 0) : BiasesAreOnes m := by
  intro hc; exact absurd h hc

/-- `setBiases` writes nothing but bias coordinates. -/
theorem setBiases_data_other (m : Mtx α) (r c : Nat) (hr : r < m.rows)
    (hb : ¬ (if m.bir then r + 1 = m.rows else c + 1 = m.cols)) (hc : c < m.cols) :
    m.setBiases.data (r + m.rows * c) = m.data (r + m.rows * c) := by
  unfold Mtx.setBiases
  by_cases h : m.bir = true
  · simp only [h, if_true] at hb ⊢
    simp only [Mtx.fillRow]
    apply fillStride_miss
    intro j _ he
    have := cell_inj hr (by omega) he
    omega
  · simp only [h] at hb ⊢
    simp only [Mtx.fillCol, Bool.false_eq_true, if_false] at hb ⊢
    rw [fillSeq_apply, if_neg]
    intro ⟨h1, h2⟩
    have h3 : c < m.cols - 1 := by omega
    have h4 := cell_lt hr h3
    omega

/-- The matrix with the pending hide undone. -/
def full (m : Mtx α) : Option (Nat × Bool) → Mtx α
  | none => m
  | some (n, b) => { m with cols := m.cols + (n + b.toNat), emul := if b then true else m.emul }

/-- Invariant of C07 histories. -/
def BInv (s : Mtx α × Option (Nat × Bool)) : Prop :=
  BiasesAreOnes (full s.1 s.2) ∧ (∀ n, s.2 = some (n, true) → s.1.emul = false ∧ s.1.bir = false) ∧
    (∀ n, s.2 = some (n, false) → s.1.emul = true → s.1.bir = true)

theorem full_data (m : Mtx α) (h) : (full m h).data = m.data := by rcases h with _ | ⟨n, b⟩ <;> rfl
theorem full_rows (m : Mtx α) (h) : (full m h).rows = m.rows := by rcases h with _ | ⟨n, b⟩ <;> rfl
theorem full_bir (m : Mtx α) (h) : (full m h).bir = m.bir := by rcases h with _ | ⟨n, b⟩ <;> rfl
theorem full_cap (m : Mtx α) (h) : (full m h).cap = m.cap := by rcases h with _ | ⟨n, b⟩ <;> rfl

/-- A bias coordinate of the full matrix is never a data coordinate of the visible one. -/
theorem full_bias_not_data (m : Mtx α) (h : Option (Nat × Bool)) (hI : ∀ n, h = some (n, true) → m.emul = false ∧ m.bir = false)
    (hcols : ∀ n, h = some (n, false) → m.emul = true → m.bir = true) (r c : Nat)
    (hb : IsBias (full m h) r c) : ¬ (r < m.rowsNoBias ∧ c < m.colsNoBias) := by
  rcases h with _ | ⟨n, _ | _⟩
  · rcases hb with ⟨h1, h2⟩
    simp only [full] at h1 h2
    cases hbir : m.bir <;> simp [hbir, h1, Mtx.rowsNoBias, Mtx.colsNoBias] at h2 ⊢ <;> omega
  · rcases hb with ⟨h1, h2⟩
    simp only [full] at h1 h2
    simp at h1
    have := hcols n rfl h1
    cases hbir : m.bir <;> simp [hbir, h1, Mtx.rowsNoBias, Mtx.colsNoBias] at this h2 ⊢ <;> omega
  · rcases hb with ⟨_, h2⟩
    have := hI n rfl
    simp only [full] at h2
    simp [this.1, this.2, Mtx.rowsNoBias, Mtx.colsNoBias] at h2 ⊢
    omega

/-- A change of data that keeps or sets to one every bias cell preserves the invariant. -/
theorem binv_data (m : Mtx α) (h) (hI : BInv (m, h)) (d : Nat → α) (hol : Bool)
    (hd : ∀ r c, r < m.rows → c < (full m h).cols → IsBias (full m h) r c →
      d (r + m.rows * c) = m.data (r + m.rows * c) ∨ d (r + m.rows * c) = 1) :
    BInv ({ m with data := d, holey := hol }, h) := by
  obtain ⟨h1, h2, h3⟩ := hI
  refine ⟨?_, h2, h3⟩
  rw [biasesAreOnes_iff] at h1 ⊢
  simp only [full_cap, full_rows, full_data] at h1 ⊢
  intro hc r c hr hcc hb
  have hb' : IsBias (full m h) r c := by
    rcases h with _ | ⟨n, b⟩ <;> exact hb
  have hcc' : c < (full m h).cols := by
    rcases h with _ | ⟨n, b⟩ <;> exact hcc
  rcases hd r c hr hcc' hb' with h4 | h4
  · rw [h4]; exact h1 hc r c hr hcc' hb'
  · exact h4

theorem noBias_le (m : Mtx α) : m.rowsNoBias ≤ m.rows ∧ m.colsNoBias ≤ m.cols := by
  unfold Mtx.rowsNoBias Mtx.colsNoBias; omega

/-- In the default layout (or without biases) the first `numelNoBias` cells contain no bias of the full matrix. -/
theorem bias_ge_numelNoBias (m : Mtx α) (h : Option (Nat × Bool))
    (h2 : ∀ n, h = some (n, true) → m.emul = false ∧ m.bir = false)
    (h3 : ∀ n, h = some (n, false) → m.emul = true → m.bir = true)
    (hd : ¬ (m.emul = true ∧ m.bir = true)) (r c : Nat) (hr : r < m.rows)
    (hb : IsBias (full m h) r c) : m.numelNoBias ≤ r + m.rows * c := by
  have hr' : m.rowsNoBias = m.rows := by
    unfold Mtx.rowsNoBias
    cases he : m.emul <;> cases hb : m.bir <;> simp_all
  have hn := full_bias_not_data m h h2 h3 r c hb
  rw [hr'] at hn
  have hc : m.colsNoBias ≤ c := by
    by_contra hc; exact hn ⟨hr, by omega⟩
  unfold Mtx.numelNoBias
  rw [hr']
  have := Nat.mul_le_mul_left m.rows hc
  omega

theorem fullbir_cases (m : Mtx α) (h : Option (Nat × Bool))
    (h2 : ∀ n, h = some (n, true) → m.emul = false ∧ m.bir = false) (hb : m.bir = true) (r c : Nat)
    (hB : IsBias (full m h) r c) : m.emul = true ∧ r + 1 = m.rows := by
  rcases h with _ | ⟨n, _ | _⟩
  · simpa [IsBias, full, hb] using hB
  · simpa [IsBias, full, hb] using hB
  · have := (h2 n rfl).2; simp [hb] at this

theorem binv_zeros [OfNat α 0] (m : Mtx α) (h) (hI : BInv (m, h)) : BInv (m.zeros, h) := by
  have hI' := hI
  obtain ⟨h1, h2, h3⟩ := hI
  simp only at h2 h3
  unfold Mtx.zeros
  cases hb : m.bir with
  | true =>
    have key : ∀ d, (∀ r c, r < m.rows → c < (full m h).cols → r + 1 = m.rows → m.emul = true →
        d (r + m.rows * c) = m.data (r + m.rows * c) ∨ d (r + m.rows * c) = 1) →
        BInv ({ m with data := d, holey := m.holey }, h) := by
      intro d hd
      apply binv_data m h hI'
      intro r c hr hc hB
      have := fullbir_cases m h h2 hb r c hB
      exact hd r c hr hc this.2 this.1
    cases he : m.emul with
    | false =>
      simp only [if_true, Bool.false_eq_true, if_false, he]
      have := key (fillSeq m.data 0 0 m.numel) (by intro r c _ _ _ h; simp [he] at h)
      simpa [hb, he] using this
    | true =>
      simp only [if_true, Mtx.fillRow, he]
      have := key (fillStride (fillSeq m.data 0 0 m.numel) (m.rows - 1) m.rows 1 m.cols) (by
        intro r c hr hc hr1 _
        by_cases hcc : c < m.cols
        · right
          have : r = m.rows - 1 := by omega
          subst this
          exact fillStride_hit _ _ _ _ _ _ hcc
        · left
          rw [fillStride_miss, fillSeq_apply, if_neg]
          · unfold Mtx.numel
            have := Nat.mul_le_mul_left m.rows (Nat.le_of_not_lt hcc)
            omega
          · intro j hj hje
            have := cell_inj hr (by omega : m.rows - 1 < m.rows) hje
            omega)
      simpa [hb, he] using this
  | false =>
    simp only [Bool.false_eq_true, if_false]
    have := binv_data m h hI' (fillSeq m.data 0 0 m.numelNoBias) m.holey (by
      intro r c hr hc hB
      left
      rw [fillSeq_apply, if_neg]
      have := bias_ge_numelNoBias m h h2 h3 (by simp [hb]) r c hr hB
      omega)
    simpa [hb] using this

theorem implResize_spec (m : Mtx α) (r c : Nat) (j : Nat → α) (ok : Bool) (m' : Mtx α) (b : Bool)
    (h : m.implResize r c j ok = some (m', b)) :
    m' = m ∨ (m'.cap = 0 ∧ b = false ∨ m'.cap = r * c ∧ b = true) ∧ m'.emul = m.emul ∧ m'.bir = m.bir := by
  unfold Mtx.implResize at h
  split at h
  · left; simpa using (congrArg Prod.fst (Option.some.inj h)).symm
  · split at h
    · left; simpa using (congrArg Prod.fst (Option.some.inj h)).symm
    · split at h
      · contradiction
      · right
        cases h
        cases ok <;> simp

theorem resize_ok (m : Mtx α) (r c : Nat) (j : Nat → α) (ok : Bool) (m' : Mtx α) (b : Bool)
    (hm : BiasesAreOnes m) (h : m.resize r c j ok = some (m', b)) : BiasesAreOnes m' := by
  unfold Mtx.resize at h
  split at h
  · cases h; exact hm
  · split at h
    · contradiction
    · rename_i m1 b1 h1
      cases h
      split
      · exact setBiases_ok _
      · rename_i hn
        rcases implResize_spec _ _ _ _ _ _ _ h1 with rfl | ⟨⟨h2, _⟩ | ⟨_, h2⟩, _⟩
        · exact hm
        · exact cap0_ok _ h2
        · apply noEmul_ok
          subst h2
          simpa using hn

theorem copyTo_ok (s d : Mtx α) (hs : BiasesAreOnes s) (hs0 : s.cap ≠ 0) (hd : BiasesAreOnes d ∨ d.emul = s.emul ∧ d.numel = s.numel) :
    BiasesAreOnes (s.copyTo d).1 := by
  unfold Mtx.copyTo
  split
  · rename_i hne
    rcases hd with hd | hd
    · exact hd
    · exfalso; rcases hne with h | h
      · exact h hd.2
      · exact h hd.1
  · rename_i hne
    have he : d.emul = s.emul := by
      by_contra h; exact hne (Or.inr h)
    rw [biasesAreOnes_iff] at hs ⊢
    intro _ r c hr hc hb
    simp only at hr hc ⊢
    rw [copyN_apply, if_pos (by unfold Mtx.numel; exact cell_lt hr hc)]
    apply hs hs0 r c hr hc
    simpa [IsBias, he] using hb

theorem resize_true_size (m : Mtx α) (r c : Nat) (j : Nat → α) (ok : Bool) (m' : Mtx α)
    (h : m.resize r c j ok = some (m', true)) :
    m'.rows = r + (m.emul && m.bir).toNat ∧ m'.cols = c + (m.emul && !m.bir).toNat ∧ 0 < r ∧ 0 < c ∧
      m'.emul = m.emul ∧ m'.bir = m.bir ∧ m'.ext = m.ext := by
  unfold Mtx.resize at h
  split at h
  · cases h
  · split at h
    · contradiction
    · rename_i h0 m1 b1 h1
      simp only [Option.some.injEq, Prod.mk.injEq] at h
      obtain ⟨rfl, rfl⟩ := h
      unfold Mtx.implResize at h1
      split at h1
      · cases h1
      · split at h1
        · rename_i h2
          cases h1
          split <;> simp [← h2.1, ← h2.2] <;> omega
        · split at h1
          · contradiction
          · cases h1
            by_cases he : m.emul = true
            · simp [he]; omega
            · simp [he]; omega

theorem cloneTo_ok (s d : Mtx α) (j : Nat → α) (ok : Bool) (d' : Mtx α) (b : Bool) (hd : BiasesAreOnes d)
    (hs : BiasesAreOnes s) (hs0 : s.cap ≠ 0) (h : s.cloneTo d j ok = some (d', b)) : BiasesAreOnes d' := by
  unfold Mtx.cloneTo at h
  split at h
  · split at h
    · cases h; exact hd
    · rename_i hne
      have hd' : _ = d' := congrArg Prod.fst (Option.some.inj h)
      rw [← hd']
      apply copyTo_ok s _ hs hs0
      right
      refine ⟨rfl, ?_⟩
      unfold Mtx.numel
      simp only
      have h1 : d.rows = s.rows := by by_contra hh; exact hne (Or.inl hh)
      have h2 : d.cols = s.cols := by by_contra hh; exact hne (Or.inr hh)
      rw [h1, h2]
  · split at h
    · contradiction
    · rename_i d1 hr
      cases h
      exact resize_ok _ _ _ _ _ _ _ (noEmul_ok _ rfl) hr
    · rename_i d1 hr
      have hd' : _ = d' := congrArg Prod.fst (Option.some.inj h)
      rw [← hd']
      apply copyTo_ok s _ hs hs0
      right
      have := resize_true_size _ _ _ _ _ _ hr
      simp at this
      refine ⟨rfl, ?_⟩
      unfold Mtx.numel
      simp only
      rw [this.1, this.2.1]

theorem dResize_ok (m : Mtx α) (r c : Nat) (j : Nat → α) (ok : Bool) (m' : Mtx α) (b : Bool)
    (h : m.dResize r c j ok = some (m', b)) : BiasesAreOnes m' := by
  unfold Mtx.dResize at h
  split at h
  · contradiction
  · rename_i m1 b1 h1
    cases h
    have := resize_ok _ _ _ _ _ _ _ (cap0_ok _ rfl) h1
    split <;> exact this

theorem binv_step [OfNat α 0] (o : BOp α) (ho : o.srcOk) (s s' : Mtx α × Option (Nat × Bool)) (hI : BInv s)
    (h : o.step s = some s') : BInv s' := by
  obtain ⟨m, hid⟩ := s
  have hI' := hI
  obtain ⟨h1, h2, h3⟩ := hI
  simp only at h1 h2 h3
  have hnone : ∀ m1 : Mtx α, BiasesAreOnes m1 → BInv (m1, none) := by
    intro m1 hm1; exact ⟨hm1, by simp, by simp⟩
  cases o with
  | write r c v =>
    simp only [BOp.step] at h
    split at h
    · rename_i hrc
      unfold Mtx.set at h
      split at h
      · rename_i hin
        cases h
        have := binv_data m hid hI' (upd m.data (m.cell r c) v) m.holey (by
          intro r' c' hr' _ hB
          left
          rw [upd_apply, if_neg]
          intro he
          have he' := cell_inj hr' hin.1 he
          have := full_bias_not_data m hid h2 h3 r' c' hB
          rw [he'.1, he'.2] at this
          exact this hrc)
        exact this
      · contradiction
    · contradiction
  | zeros =>
    simp only [BOp.step] at h
    split at h
    · contradiction
    · cases h; exact binv_zeros m hid hI'
  | ones =>
    simp only [BOp.step] at h
    split at h
    · contradiction
    · cases h
      have := binv_data m hid hI' (fillSeq m.data 0 1 m.numel) false (by
        intro r c _ _ _
        rw [fillSeq_apply]
        by_cases hh : 0 ≤ r + m.rows * c ∧ r + m.rows * c < 0 + m.numel
        · rw [if_pos hh]; right; rfl
        · rw [if_neg hh]; left; rfl)
      exact this
  | fillArray src =>
    simp only [BOp.step, Mtx.fillFromArrayNoBias] at h
    split at h
    · contradiction
    · rename_i hnb
      cases h
      have := binv_data m hid hI' (copyN m.data src m.numelNoBias) m.holey (by
        intro r c hr _ hB
        left
        rw [copyN_apply, if_neg]
        have := bias_ge_numelNoBias m hid h2 h3 (by simpa using hnb) r c hr hB
        omega)
      exact this
  | setBiases =>
    rcases hid with _ | hid
    · simp only [BOp.step] at h
      split at h
      · cases h; exact hnone _ (setBiases_ok m)
      · contradiction
    · simp [BOp.step] at h
  | resize r c j ok =>
    rcases hid with _ | hid
    · simp only [BOp.step] at h
      cases hr : m.resize r c j ok with
      | none => rw [hr] at h; contradiction
      | some p => rw [hr] at h; cases h; exact hnone _ (resize_ok _ _ _ _ _ _ p.2 h1 hr)
    · simp [BOp.step] at h
  | dResize r c j ok =>
    rcases hid with _ | hid
    · simp only [BOp.step] at h
      cases hr : m.dResize r c j ok with
      | none => rw [hr] at h; contradiction
      | some p => rw [hr] at h; cases h; exact hnone _ (dResize_ok _ _ _ _ _ _ p.2 hr)
    · simp [BOp.step] at h
  | copyFrom src =>
    rcases hid with _ | hid
    · simp only [BOp.step] at h
      cases h; exact hnone _ (copyTo_ok src m ho.1 ho.2 (Or.inl h1))
    · simp [BOp.step] at h
  | cloneFrom src j ok =>
    rcases hid with _ | hid
    · simp only [BOp.step] at h
      cases hr : src.cloneTo m j ok with
      | none => rw [hr] at h; contradiction
      | some p => rw [hr] at h; cases h; exact hnone _ (cloneTo_ok _ _ _ _ _ p.2 h1 ho.1 ho.2 hr)
    · simp [BOp.step] at h
  | deformBatch bs =>
    rcases hid with _ | hid
    · simp only [BOp.step, Mtx.deformBatchSizeWithBiases, Option.map_map] at h
      cases hr : m.deformBatchSize bs with
      | none => rw [hr] at h; contradiction
      | some p =>
        rw [hr] at h; cases h
        apply hnone
        simp only [Function.comp]
        split
        · rename_i hbs
          have : p = m := by
            unfold Mtx.deformBatchSize Mtx.deformCols Mtx.deformRows at hr
            unfold Mtx.batchSize at hbs
            cases hb : m.bir <;> simp only [hb, Bool.false_eq_true, if_false, if_true] at hr hbs
            · split at hr
              · rw [← hbs] at hr; rw [← Option.some.inj hr, ← hb]
              · contradiction
            · split at hr
              · rw [← hbs] at hr; rw [← Option.some.inj hr, ← hb]
              · contradiction
          rw [this]; exact h1
        · split
          · exact setBiases_ok _
          · rename_i he; exact noEmul_ok _ (by simpa using he)
    · simp [BOp.step] at h
  | deformDataset bs ss =>
    rcases hid with _ | hid
    · simp only [BOp.step, Mtx.deformDataset] at h
      split at h
      · cases h
        apply hnone
        generalize (if m.bir = true then ss else bs) = R
        generalize (if m.bir = true then bs else ss) = C
        split
        · rename_i hsz
          rw [← hsz.1, ← hsz.2]; exact h1
        · split
          · exact setBiases_ok _
          · rename_i he; exact noEmul_ok _ (by simpa using he)
      · contradiction
    · simp [BOp.step] at h
  | hideCols n =>
    rcases hid with _ | hid
    · simp only [BOp.step, Mtx.hideLastNCols] at h
      split at h
      · rename_i hc
        cases h
        refine ⟨?_, ?_, ?_⟩
        · simp only [full]
          have hcols : m.cols - (n + (m.emul && !m.bir).toNat) + (n + (m.emul && !m.bir).toNat) = m.cols := by
            have : (m.emul && !m.bir).toNat ≤ m.emul.toNat := by cases m.emul <;> cases m.bir <;> simp
            omega
          simp only [hcols]
          have hem : (if (m.emul && !m.bir) = true then true else if (m.emul && !m.bir) = true then false else m.emul) = m.emul := by
            cases m.emul <;> cases m.bir <;> rfl
          simp only [hem]
          exact h1
        · intro n' hn'
          cases he : m.emul <;> cases hb : m.bir <;> simp_all
        · intro n' hn'
          cases he : m.emul <;> cases hb : m.bir <;> simp_all
      · contradiction
    · simp [BOp.step] at h
  | restoreCols =>
    rcases hid with _ | ⟨n, b⟩
    · simp [BOp.step] at h
    · simp only [BOp.step, Mtx.restoreLastNCols] at h
      split at h
      · cases h; exact hnone _ h1
      · contradiction
  | hideBiases =>
    rcases hid with _ | hid
    · simp only [BOp.step, Mtx.hideBiases, Mtx.hideLastCol] at h
      split at h
      · contradiction
      · rename_i hnb
        split at h
        · rename_i he
          split at h
          · rename_i hc
            cases h
            have hbir : m.bir = false := by simpa [he] using hnb
            refine ⟨?_, ?_, ?_⟩
            · simp only [full]
              have : m.cols - 1 + (0 + true.toNat) = m.cols := by simp; omega
              simp only [this, if_true]
              rw [← he]; exact h1
            · intro _ _; exact ⟨rfl, hbir⟩
            · intro _ _ hh; simp at hh
          · contradiction
        · rename_i he
          cases h
          refine ⟨?_, ?_, ?_⟩
          · simpa [full] using h1
          · intro n' hn'; simp at hn'
          · intro _ _ hh; exact absurd hh he
    · simp [BOp.step] at h
  | restoreBiases =>
    rcases hid with _ | ⟨n, b⟩
    · simp [BOp.step] at h
    · simp only [BOp.step, Mtx.restoreBiases, Mtx.restoreLastCol] at h
      split at h
      · rename_i hn
        subst hn
        split at h
        · contradiction
        · split at h
          · rename_i hb
            split at h
            · cases h; subst hb
              apply hnone
              simpa [full] using h1
            · contradiction
          · rename_i hb
            cases h
            apply hnone
            have : b = false := by simpa using hb
            subst this
            simpa [full] using h1
      · contradiction

theorem binv_run [OfNat α 0] (ops : List (BOp α)) (ho : ∀ o ∈ ops, o.srcOk) (s s' : Mtx α × Option (Nat × Bool)) (hI : BInv s)
    (h : BOp.run ops s = some s') : BInv s' := by
  induction ops generalizing s with
  | nil =>
    simp only [BOp.run, List.foldlM_nil] at h
    cases h; exact hI
  | cons o os ih =>
    simp only [BOp.run, List.foldlM_cons] at h
    cases hs : o.step s with
    | none => rw [hs] at h; contradiction
    | some s1 =>
      rw [hs] at h
      exact ih (fun o' h' => ho o' (List.mem_cons_of_mem _ h')) s1 (binv_step o (ho o List.mem_cons_self) s s1 hI hs) h

end Nntl.Matrix
