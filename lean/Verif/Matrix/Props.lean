import Verif.Matrix.BiasInv
import Verif.Matrix.TriangLemmas
/-! Property theorems C06, C07, C08 (values), C09, C10, C12 about the matrix model. -/
namespace Nntl.Matrix
variable {α : Type}

/-! ## C06 addressing -/

/-- The cell of an in-range element lies inside the visible storage. -/
theorem element_in_storage (m : Mtx α) (hs : InStorage m) (r c : Nat) (hr : r < m.rows) (hc : c < m.cols) :
    m.cell r c < m.cap := Nat.lt_of_lt_of_le (cell_lt hr hc) hs

/-- Distinct in-range coordinates have distinct cells. -/
theorem distinct_elements_distinct_cells (m : Mtx α) (r r' c c' : Nat) (hr : r < m.rows) (hr' : r' < m.rows)
    (hne : (r, c) ≠ (r', c')) : m.cell r c ≠ m.cell r' c' := by
  intro h
  have := cell_inj hr hr' h
  exact hne (by rw [this.1, this.2])

/-- Every cell of the visible storage belongs to some element. -/
theorem every_cell_is_an_element (m : Mtx α) (k : Nat) (hk : k < m.numel) :
    ∃ r c, r < m.rows ∧ c < m.cols ∧ m.cell r c = k := by
  obtain ⟨r, c, h1, h2, h3⟩ := cell_surj hk
  exact ⟨r, c, h1, h2, h3.symm⟩

/-- `set` then `get`: the stored value is read back and every other element is unchanged. -/
theorem set_get (m : Mtx α) (r c : Nat) (v : α) (hr : r < m.rows) (hc : c < m.cols) :
    ∃ m', m.set r c v = some m' ∧ m'.get r c = some v ∧ m'.rows = m.rows ∧ m'.cols = m.cols ∧
      ∀ r' c', (r', c') ≠ (r, c) → m'.get r' c' = m.get r' c' := by
  refine ⟨_, if_pos ⟨hr, hc⟩, ?_, rfl, rfl, ?_⟩
  · unfold Mtx.get
    rw [if_pos ⟨hr, hc⟩]
    simp [Mtx.cell, upd_apply]
  · intro r' c' hne
    unfold Mtx.get
    simp only
    split
    · rename_i h
      rw [upd_apply, if_neg]
      · rfl
      · exact distinct_elements_distinct_cells m r' r c' c h.1 hr hne
    · rfl

/-- non-vacuity: a 2x3 matrix -/
example : ∃ m : Mtx Nat, InStorage m ∧ 1 < m.rows ∧ 2 < m.cols ∧ m.cell 1 2 = 5 :=
  ⟨{ data := id, cap := 6, rows := 2, cols := 3, emul := false, ext := false, holey := false, bir := false, maxSize := 6 },
   Nat.le_refl _, by decide, by decide, by decide⟩

/-! ## C07 biases -/
section
variable [OfNat α 1]

/-- A matrix constructed with bias emulation has exactly one extra column (row), and it holds ones; the data part has
the requested size. -/
theorem constructed_biases (r c : Nat) (bir : Bool) (junk : Nat → α) :
    let m := Mtx.make r c true bir junk
    (if bir then m.rows = r + 1 ∧ m.cols = c else m.rows = r ∧ m.cols = c + 1) ∧
      m.rowsNoBias = r ∧ m.colsNoBias = c ∧ m.emul = true ∧ BiasesAreOnes m ∧ InStorage m := by
  intro m
  have hm : BiasesAreOnes m := setBiases_ok _
  have hr : m.rows = r + (true && bir).toNat := setBiases_rows _
  have hc : m.cols = c + (true && !bir).toNat := setBiases_cols _
  have he : m.emul = true := setBiases_emul _
  have hb : m.bir = bir := setBiases_bir _
  have hcap : m.cap = (r + (true && bir).toNat) * (c + (true && !bir).toNat) := setBiases_cap _
  refine ⟨?_, ?_, ?_, he, hm, ?_⟩
  · cases bir <;> simp at hr hc <;> simp [hr, hc]
  · unfold Mtx.rowsNoBias; rw [he, hb, hr]; cases bir <;> rfl
  · unfold Mtx.colsNoBias; rw [he, hb, hc]; cases bir <;> rfl
  · unfold InStorage; rw [hr, hc, hcap]

/-- A successful resize of a bias-emulating matrix: exactly one extra column (row), holding ones. -/
theorem resized_biases (m m' : Mtx α) (r c : Nat) (junk : Nat → α) (ok : Bool) (he : m.emul = true)
    (h : m.resize r c junk ok = some (m', true)) :
    m'.rows = r + m.bir.toNat ∧ m'.cols = c + (!m.bir).toNat ∧ m'.rowsNoBias = r ∧ m'.colsNoBias = c ∧
      ∀ i j, i < m'.rows → j < m'.cols → IsBias m' i j → m'.get i j = some 1 := by
  have hs := resize_true_size m r c junk ok m' h
  have h1 : m'.rows = r + m.bir.toNat := by rw [hs.1, he]; simp
  have h2 : m'.cols = c + (!m.bir).toNat := by rw [hs.2.1, he]; simp
  refine ⟨h1, h2, ?_, ?_, ?_⟩
  · unfold Mtx.rowsNoBias; rw [hs.2.2.2.2.1, hs.2.2.2.2.2.1, he, h1]; simp
  · unfold Mtx.colsNoBias; rw [hs.2.2.2.2.1, hs.2.2.2.2.2.1, he, h2]; simp
  · intro i j hi hj hb
    unfold Mtx.resize at h
    split at h
    · cases h
    · split at h
      · contradiction
      · rename_i m1 b1 hx
        simp only [Option.some.injEq, Prod.mk.injEq] at h
        obtain ⟨rfl, rfl⟩ := h
        by_cases hm1 : m1.emul = true
        · simp only [hm1, Bool.and_self, if_true] at hi hj hb ⊢
          unfold Mtx.get
          rw [if_pos ⟨hi, hj⟩]
          simp only [setBiases_rows, setBiases_cols, IsBias, setBiases_bir, Mtx.cell] at hi hj hb ⊢
          rw [setBiases_data m1 i j hi hj hb.2]
        · simp [hm1, IsBias] at hb

/-- Under every legal history of the listed operations the bias vector stays all ones (checked whenever no hide is
pending). -/
theorem biases_stay_ones [OfNat α 0] (ops : List (BOp α)) (hsrc : ∀ o ∈ ops, o.srcOk) (m m' : Mtx α)
    (hm : BiasesAreOnes m) (h : BOp.run ops (m, none) = some (m', none)) : BiasesAreOnes m' :=
  (binv_run ops hsrc (m, none) (m', none) ⟨hm, by simp, by simp⟩ h).1

/-- Also while data columns are hidden in batch-in-row layout the visible part of the bias row is all ones. -/
theorem biases_ones_while_hidden [OfNat α 0] (ops : List (BOp α)) (hsrc : ∀ o ∈ ops, o.srcOk) (m m' : Mtx α)
    (hid : Option (Nat × Bool)) (hm : BiasesAreOnes m) (h : BOp.run ops (m, none) = some (m', hid)) :
    BiasesAreOnes m' := by
  have hI := binv_run ops hsrc (m, none) (m', hid) ⟨hm, by simp, by simp⟩ h
  obtain ⟨h1, h2, h3⟩ := hI
  simp only at h1 h2 h3
  rcases hid with _ | ⟨n, _ | _⟩
  · exact h1
  · intro hc r c hr hcc hb
    have hbir := h3 n rfl hb.1
    have := h1 hc r c hr (by simp only [full]; omega) (by simpa [IsBias, full, hbir] using hb)
    unfold Mtx.get at this ⊢
    rw [if_pos ⟨hr, hcc⟩]
    rw [if_pos ⟨hr, by simp only [full]; omega⟩] at this
    exact this
  · exact noEmul_ok _ (h2 n rfl).1

/-- non-vacuity: construct, write, hide two columns and the biases, write, restore, shrink the batch. -/
example : ∃ m', BOp.run [BOp.write 0 0 (7:Int), .hideCols 1, .write 1 0 5, .zeros, .restoreCols, .deformBatch 1]
    ({ (Mtx.make 2 2 true false (fun _ => (9:Int))) with maxSize := 6 }, none) = some (m', none) ∧
    m'.rows = 1 ∧ m'.cols = 3 ∧ m'.get 0 2 = some 1 := ⟨_, rfl, rfl, rfl, rfl⟩

/-- Disagreement: a resize that reports success does not guarantee storage. After an allocation failure the requested
size stays recorded, so repeating the same request returns `true` although the matrix has no storage. -/
theorem resize_true_without_storage : ∃ (m m1 m2 : Mtx Nat),
    m.resize 2 3 (fun _ => 0) false = some (m1, false) ∧ m1.resize 2 3 (fun _ => 0) true = some (m2, true) ∧
      m2.cap = 0 :=
  ⟨Mtx.default (fun _ => 0), _, _, rfl, rfl, rfl⟩

/-- What does hold: if the recorded size was backed by storage before, a successful resize has the storage it needs. -/
theorem resize_true_has_storage_partial (m m' : Mtx α) (r c : Nat) (junk : Nat → α) (ok : Bool) (hs : InStorage m)
    (h : m.resize r c junk ok = some (m', true)) : InStorage m' := by
  unfold Mtx.resize at h
  split at h
  · cases h
  · split at h
    · contradiction
    · rename_i m1 b1 hx
      simp only [Option.some.injEq, Prod.mk.injEq] at h
      obtain ⟨h, rfl⟩ := h
      have hm1 : InStorage m1 := by
        unfold Mtx.implResize at hx
        split at hx
        · cases hx
        · split at hx
          · cases hx; exact hs
          · split at hx
            · contradiction
            · simp only [Option.some.injEq, Prod.mk.injEq] at hx
              obtain ⟨rfl, rfl⟩ := hx
              simp [InStorage]
      subst h
      unfold InStorage at hm1 ⊢
      split <;> simpa using hm1

/-! ## C08 clone_to (values; independence is in `Ownership`) -/

/-- A successful `clone_to` leaves a destination that compares equal to the source: same flags, same size, same
elements. -/
theorem clone_to_equal (m dest d : Mtx α) (junk : Nat → α) (ok : Bool) (h : m.cloneTo dest junk ok = some (d, true)) :
    d.eqv m ∧ (∀ r c, d.get r c = m.get r c) ∧ d.emul = m.emul ∧ d.bir = m.bir ∧ d.holey = m.holey := by
  have key : ∀ d0 : Mtx α, d0.emul = m.emul → m.copyTo d0 = (d, true) →
      d.eqv m ∧ (∀ r c, d.get r c = m.get r c) ∧ d.emul = m.emul ∧ d.bir = m.bir ∧ d.holey = m.holey := by
    intro d0 he hcp
    unfold Mtx.copyTo at hcp
    split at hcp
    · cases hcp
    · cases hcp
      refine ⟨⟨he, rfl, rfl, rfl, rfl, ?_⟩, ?_, he, rfl, rfl⟩
      · intro k hk
        simp only
        rw [copyN_apply, if_pos (by exact hk)]
      · intro r c
        unfold Mtx.get Mtx.cell
        simp only
        split
        · rename_i hrc
          rw [copyN_apply, if_pos (by unfold Mtx.numel; exact cell_lt hrc.1 hrc.2)]
        · rfl
  unfold Mtx.cloneTo at h
  split at h
  · split at h
    · cases h
    · have h' := Option.some.inj h
      refine key _ ?_ h'
      rfl
  · split at h
    · contradiction
    · cases h
    · have h' := Option.some.inj h
      refine key _ ?_ h'
      rfl

/-- `clone_to` into a matrix that manages its own storage succeeds whenever the allocation does, whatever the
destination held before. -/
theorem clone_to_succeeds (m dest : Mtx α) (junk : Nat → α) (hr : 0 < m.rows) (hc : 0 < m.cols)
    (hext : dest.ext = false) : ∃ d, m.cloneTo dest junk true = some (d, true) := by
  unfold Mtx.cloneTo
  rw [if_neg (by simp [hext])]
  have h1 : ∃ d, Mtx.resize { dest with emul := false } m.rows m.cols junk true = some (d, true) := by
    unfold Mtx.resize
    rw [if_neg (by omega)]
    simp only [Bool.false_and, Bool.toNat_false, Nat.add_zero]
    unfold Mtx.implResize
    rw [if_neg (by omega)]
    simp only [hext]
    split
    · rename_i hx; split at hx <;> simp at hx
    · rename_i hx
      split at hx <;> (cases hx; exact ⟨_, rfl⟩)
  obtain ⟨d, hd⟩ := h1
  rw [hd]
  have hsz := resize_true_size _ _ _ _ _ _ hd
  simp at hsz
  simp only [Mtx.copyTo]
  rw [if_neg]
  · exact ⟨_, rfl⟩
  · unfold Mtx.numel
    simp [hsz.1, hsz.2.1]

/-- non-vacuity: cloning a bias-emulating 2x2 matrix into a 1x1 matrix -/
example : ∃ d, (Mtx.make 2 2 true false (fun k => (k:Int))).cloneTo (Mtx.make 1 1 true true (fun _ => 0)) (fun _ => 42) true
    = some (d, true) ∧ d.rows = 2 ∧ d.cols = 3 ∧ d.get 1 1 = some 3 ∧ d.get 1 2 = some 1 := ⟨_, rfl, rfl, rfl, rfl, rfl⟩

/-! ## C09 clone_to_no_bias -/

/-- The English property: a successful `clone_to_no_bias` gives exactly the data part. -/
def ExactlyDataPart (m d : Mtx α) : Prop :=
  d.emul = false ∧ d.bir = m.bir ∧ d.rows = m.rowsNoBias ∧ d.cols = m.colsNoBias ∧
    ∀ r c, r < m.rowsNoBias → c < m.colsNoBias → d.get r c = m.get r c

/-- Disagreement: if the destination emulated biases before the call it ends up with an extra column of ones that is
not part of the source data. -/
theorem clone_to_no_bias_extra_column : ∃ (m dest d : Mtx Int) (junk : Nat → Int),
    m.emul = false ∧ m.cloneToNoBias dest junk true = some (d, true) ∧ m.colsNoBias = 2 ∧ d.cols = 3 ∧
      ¬ ExactlyDataPart m d :=
  ⟨Mtx.make 2 2 false false (fun k => k), { Mtx.default (fun _ => 0) with emul := true }, _, fun _ => 0,
   rfl, rfl, rfl, rfl, fun h => by
     have := h.2.2.2.1
     exact absurd this (by decide)⟩

/-- It holds whenever the destination does not emulate biases (or does not manage its storage). Missing for the full
claim: destinations that emulated biases before. -/
theorem clone_to_no_bias_exact_partial (m dest d : Mtx α) (junk : Nat → α) (ok : Bool)
    (hd : dest.ext = true ∨ dest.emul = false)
    (h : m.cloneToNoBias dest junk ok = some (d, true)) : ExactlyDataPart m d := by
  unfold Mtx.cloneToNoBias at h
  split at h
  · contradiction
  · rename_i hnb
    have hrn : m.rowsNoBias = m.rows := by
      unfold Mtx.rowsNoBias
      cases he : m.emul <;> cases hb : m.bir <;> simp_all
    have key : ∀ d0 : Mtx α, d0.rows = m.rows → d0.cols = m.colsNoBias →
        ExactlyDataPart m { d0 with emul := false, holey := false, bir := m.bir, data := copyN d0.data m.data m.numelNoBias } := by
      intro d0 h1 h2
      refine ⟨rfl, rfl, by rw [hrn]; exact h1, h2, ?_⟩
      intro r c hr hc
      have hcc : c < m.cols := Nat.lt_of_lt_of_le hc (by unfold Mtx.colsNoBias; omega)
      unfold Mtx.get Mtx.cell
      simp only [h1, h2]
      rw [hrn] at hr
      rw [if_pos ⟨hr, hc⟩, if_pos ⟨hr, hcc⟩, copyN_apply, if_pos]
      unfold Mtx.numelNoBias
      rw [hrn]
      exact cell_lt hr hc
    simp only at h
    split at h
    · split at h
      · cases h
      · rename_i hsz
        cases h
        apply key
        · by_contra hh; exact hsz (Or.inl hh)
        · by_contra hh; exact hsz (Or.inr hh)
    · rename_i hext
      have hemul : dest.emul = false := by
        rcases hd with hd | hd
        · exact absurd hd hext
        · exact hd
      split at h
      · contradiction
      · cases h
      · rename_i hx
        cases h
        have := resize_true_size _ _ _ _ _ _ hx
        simp [hemul] at this
        exact key _ this.1 this.2.1

/-- non-vacuity -/
example : ∃ d, (Mtx.make 2 2 true false (fun k => (k:Int))).cloneToNoBias (Mtx.make 1 5 false true (fun _ => 0)) (fun _ => 42) true
    = some (d, true) ∧ d.rows = 2 ∧ d.cols = 2 ∧ d.get 1 1 = some 3 := ⟨_, rfl, rfl, rfl, rfl⟩

/-! ## C10 deforming -/

/-- Storage invariant of `smatrix_deform`. -/
def DeformOk (m : Mtx α) : Prop := m.rows * m.cols ≤ m.maxSize ∧ m.maxSize ≤ m.cap

theorem deform_step_ok (o : DOp α) (m m' : Mtx α) (hm : DeformOk m) (h : o.step m = some m') : 
    DeformOk m' ∨ (∃ r c j, o = .resize r c j false) := by
  have hset : ∀ x : Mtx α, DeformOk x → DeformOk x.setBiases := by
    intro x hx; unfold DeformOk at *; simpa using hx
  obtain ⟨h1, h2⟩ := hm
  cases o with
  | resize r c j ok =>
    cases ok with
    | false => right; exact ⟨r, c, j, rfl⟩
    | true =>
      left
      simp only [DOp.step, Mtx.dResize] at h
      split at h
      · contradiction
      · rename_i m1 b hr
        cases h
        unfold Mtx.resize at hr
        split at hr
        · cases hr; simp [DeformOk]
        · split at hr
          · contradiction
          · rename_i hpos m2 b2 h2
            simp only [Option.some.injEq, Prod.mk.injEq] at hr
            obtain ⟨hr, rfl⟩ := hr
            unfold Mtx.implResize at h2
            rw [if_neg (by omega), if_neg (by simp; omega)] at h2
            split at h2
            · contradiction
            · cases h2
              simp only [if_true]
              subst hr
              by_cases he : m.emul = true
              · simp [he, DeformOk, Mtx.numel]
              · simp [he, DeformOk, Mtx.numel]
  | resizeNe n e hh b j => left; cases h; simp [DeformOk, Mtx.dResizeNe]
  | useExternal d a r c e hh b =>
    left
    simp only [DOp.step, Mtx.dUseExternal] at h
    split at h
    · rename_i hc; cases h; exact ⟨Nat.le_refl _, hc.2.2⟩
    · contradiction
  | cols c =>
    left
    simp only [DOp.step, Mtx.deformCols] at h
    split at h
    · rename_i hc; cases h; exact ⟨hc.2, h2⟩
    · contradiction
  | rows c =>
    left
    simp only [DOp.step, Mtx.deformRows] at h
    split at h
    · rename_i hc; cases h; exact ⟨hc.2, h2⟩
    · contradiction
  | deform r c =>
    left
    simp only [DOp.step, Mtx.deform] at h
    split at h
    · rename_i hc; cases h; exact ⟨hc.2, h2⟩
    · contradiction
  | batch c =>
    left
    simp only [DOp.step, Mtx.deformBatchSize, Mtx.deformCols, Mtx.deformRows] at h
    split at h <;> split at h
    · rename_i hc; cases h; exact ⟨hc.2, h2⟩
    · contradiction
    · rename_i hc; cases h; exact ⟨hc.2, h2⟩
    · contradiction
  | sample c =>
    left
    simp only [DOp.step, Mtx.deformSampleSize, Mtx.deformCols, Mtx.deformRows] at h
    split at h <;> split at h
    · rename_i hc; cases h; exact ⟨hc.2, h2⟩
    · contradiction
    · rename_i hc; cases h; exact ⟨hc.2, h2⟩
    · contradiction
  | batchBias c =>
    left
    simp only [DOp.step, Mtx.deformBatchSizeWithBiases] at h
    cases hb : m.deformBatchSize c with
    | none => rw [hb] at h; contradiction
    | some m1 =>
      rw [hb] at h; cases h
      have hm1 : DeformOk m1 := by
        simp only [Mtx.deformBatchSize, Mtx.deformCols, Mtx.deformRows] at hb
        split at hb <;> split at hb
        · rename_i hc; cases hb; exact ⟨hc.2, h2⟩
        · contradiction
        · rename_i hc; cases hb; exact ⟨hc.2, h2⟩
        · contradiction
      split
      · exact hm1
      · simp only
        split
        · exact hset _ hm1
        · exact hm1
  | dataset b s =>
    left
    simp only [DOp.step, Mtx.deformDataset] at h
    split at h
    · rename_i hc
      cases h
      have hm1 : DeformOk { m with rows := if m.bir = true then s else b, cols := if m.bir = true then b else s } := by
        refine ⟨?_, h2⟩
        cases m.bir
        · simpa using hc.2
        · simp only [if_true]; rw [Nat.mul_comm]; exact hc.2
      generalize (if m.bir = true then s else b) = R at hm1 ⊢
      generalize (if m.bir = true then b else s) = C at hm1 ⊢
      split
      · exact hm1
      · split
        · exact hset _ hm1
        · exact hm1
    · contradiction
  | hideCol =>
    left
    simp only [DOp.step, Mtx.hideLastCol] at h
    split at h
    · cases h
      refine ⟨?_, h2⟩
      exact Nat.le_trans (Nat.mul_le_mul_left _ (Nat.sub_le _ _)) h1
    · contradiction
  | restoreCol =>
    left
    simp only [DOp.step, Mtx.restoreLastCol] at h
    split at h
    · rename_i hc; cases h; exact ⟨hc.2.2, h2⟩
    · contradiction
  | hideCols n =>
    left
    simp only [DOp.step, Mtx.hideLastNCols] at h
    split at h
    · cases h
      refine ⟨?_, h2⟩
      exact Nat.le_trans (Nat.mul_le_mul_left _ (Nat.sub_le _ _)) h1
    · contradiction
  | restoreCols b n =>
    left
    simp only [DOp.step, Mtx.restoreLastNCols] at h
    split at h
    · rename_i hc; cases h
      refine ⟨?_, h2⟩
      simp only [← Nat.add_assoc]
      exact hc.2.2
    · contradiction
  | hideBiases =>
    left
    simp only [DOp.step, Mtx.hideBiases, Mtx.hideLastCol] at h
    split at h
    · contradiction
    · split at h
      · split at h
        · cases h
          refine ⟨?_, h2⟩
          exact Nat.le_trans (Nat.mul_le_mul_left _ (Nat.sub_le _ _)) h1
        · contradiction
      · cases h; exact ⟨h1, h2⟩
  | restoreBiases b =>
    left
    simp only [DOp.step, Mtx.restoreBiases, Mtx.restoreLastCol] at h
    split at h
    · contradiction
    · split at h
      · split at h
        · rename_i hc; cases h; exact ⟨hc.2.2, h2⟩
        · contradiction
      · cases h; exact ⟨h1, h2⟩
  | transposed =>
    left
    simp only [DOp.step, Mtx.onTransposition] at h
    split at h
    · cases h; refine ⟨?_, h2⟩; simp only; rw [Nat.mul_comm]; exact h1
    · contradiction

/-- Under every history of deform/hide/restore/resize calls permitted by the asserted preconditions (with successful
allocations) the visible area stays inside the storage. -/
theorem deform_stays_in_storage (ops : List (DOp α)) (halloc : ∀ o ∈ ops, ∀ r c j, o ≠ .resize r c j false)
    (m m' : Mtx α) (hm : DeformOk m) (h : DOp.run ops m = some m') : InStorage m' := by
  have : DeformOk m' := by
    induction ops generalizing m with
    | nil => simp only [DOp.run, List.foldlM_nil] at h; cases h; exact hm
    | cons o os ih =>
      simp only [DOp.run, List.foldlM_cons] at h
      cases hs : o.step m with
      | none => rw [hs] at h; contradiction
      | some m1 =>
        rw [hs] at h
        refine ih (fun o' h' => halloc o' (List.mem_cons_of_mem _ h')) m1 ?_ h
        rcases deform_step_ok o m m1 hm hs with h1 | ⟨r, c, j, h1⟩
        · exact h1
        · exact absurd h1 (halloc o List.mem_cons_self r c j)
  exact Nat.le_trans this.1 this.2

/-- The pure deform/hide/restore calls change neither the stored data nor the storage. -/
theorem deform_keeps_data (ops : List (DOp α)) (hp : ∀ o ∈ ops, o.pure = true) (m m' : Mtx α)
    (h : DOp.run ops m = some m') : m'.data = m.data ∧ m'.cap = m.cap ∧ m'.ext = m.ext := by
  induction ops generalizing m with
  | nil => simp only [DOp.run, List.foldlM_nil] at h; cases h; exact ⟨rfl, rfl, rfl⟩
  | cons o os ih =>
    simp only [DOp.run, List.foldlM_cons] at h
    cases hs : o.step m with
    | none => rw [hs] at h; contradiction
    | some m1 =>
      rw [hs] at h
      have h1 := ih (fun o' h' => hp o' (List.mem_cons_of_mem _ h')) m1 h
      have h2 : m1.data = m.data ∧ m1.cap = m.cap ∧ m1.ext = m.ext := by
        have hpo := hp o List.mem_cons_self
        cases o <;> simp [DOp.pure] at hpo <;>
          simp only [DOp.step, Mtx.deformCols, Mtx.deformRows, Mtx.deform, Mtx.deformBatchSize, Mtx.deformSampleSize,
            Mtx.hideLastCol, Mtx.restoreLastCol, Mtx.hideLastNCols, Mtx.restoreLastNCols, Mtx.hideBiases,
            Mtx.restoreBiases, Mtx.onTransposition] at hs <;>
          (repeat' (split at hs)) <;> first | contradiction | (cases hs; exact ⟨rfl, rfl, rfl⟩)
      exact ⟨h1.1.trans h2.1, h1.2.1.trans h2.2.1, h1.2.2.trans h2.2.2⟩

/-- The bias-setting deforms change no data coordinate of the new shape. -/
theorem deform_batch_with_biases_keeps_data (m m' : Mtx α) (bs : Nat) (h : m.deformBatchSizeWithBiases bs = some m')
    (r c : Nat) (hr : r < m'.rows) (hc : c < m'.cols) (hb : ¬ IsBias m' r c) :
    m'.data (m'.cell r c) = m.data (m'.cell r c) := by
  simp only [Mtx.deformBatchSizeWithBiases] at h
  cases hd : m.deformBatchSize bs with
  | none => rw [hd] at h; contradiction
  | some m1 =>
    rw [hd] at h
    have hm1 : m1.data = m.data := by
      simp only [Mtx.deformBatchSize, Mtx.deformCols, Mtx.deformRows] at hd
      split at hd <;> split at hd <;> first | contradiction | (cases hd; rfl)
    simp only [Option.map_some, Option.some.injEq] at h
    subst h
    split at hr
    · rename_i hs; simp only [hs, if_true]; rw [hm1]
    · rename_i hs
      simp only [hs, if_false] at hc hb ⊢
      split at hr
      · rename_i he
        simp only [he, if_true] at hc hb ⊢
        simp only [setBiases_rows, setBiases_cols, IsBias, setBiases_emul, setBiases_bir, he, true_and, Mtx.cell] at *
        rw [setBiases_data_other m1 r c hr hb hc, hm1]
      · rename_i he; simp only [he]; simp [hm1]

/-- `hide_last_n_cols` then `restore_last_n_cols` is the identity. -/
theorem hide_restore_cols (m m1 : Mtx α) (n : Nat) (b : Bool) (hm : DeformOk m) (h : m.hideLastNCols n = some (m1, b)) :
    m1.restoreLastNCols b n = some m := by
  unfold Mtx.hideLastNCols at h
  split at h
  · rename_i hc
    cases h
    have hle : (m.emul && !m.bir).toNat ≤ m.emul.toNat := by cases m.emul <;> cases m.bir <;> simp
    have hcols : m.cols - (n + (m.emul && !m.bir).toNat) + n + (m.emul && !m.bir).toNat = m.cols := by omega
    unfold Mtx.restoreLastNCols
    rw [if_pos]
    · simp only [← Nat.add_assoc, ← Nat.sub_sub] at hcols ⊢
      rw [hcols]
      cases m with
      | mk a b c d e f g i j => cases e <;> cases i <;> rfl
    · refine ⟨hc.1, by simp only; omega, ?_⟩
      simp only
      rw [hcols]; exact hm.1
  · contradiction

/-- `hide_biases` then `restore_biases` is the identity (default layout, which `restore_biases` asserts). -/
theorem hide_restore_biases (m m1 : Mtx α) (b : Bool) (hm : DeformOk m) (hbir : m.bir = false)
    (h : m.hideBiases = some (m1, b)) : m1.restoreBiases b = some m := by
  unfold Mtx.hideBiases Mtx.hideLastCol at h
  split at h
  · contradiction
  · split at h
    · rename_i he
      split at h
      · rename_i hc
        cases h
        have hcols : m.cols - 1 + 1 = m.cols := by omega
        unfold Mtx.restoreBiases Mtx.restoreLastCol
        simp only [hbir, Bool.or_self, Bool.false_eq_true, if_false, if_true]
        rw [if_pos]
        · simp only [Option.map_some, hcols]
          rw [← he, ← hbir]
        · refine ⟨hc.1, by omega, ?_⟩
          rw [hcols]; exact hm.1
      · contradiction
    · rename_i he
      cases h
      unfold Mtx.restoreBiases
      simp at he
      simp [he, hbir]

/-- `hide_last_col` then `restore_last_col` is the identity. -/
theorem hide_restore_col (m m1 : Mtx α) (hm : DeformOk m) (h : m.hideLastCol = some m1) :
    m1.restoreLastCol = some m := by
  unfold Mtx.hideLastCol at h
  split at h
  · rename_i hc
    cases h
    have hcols : m.cols - 1 + 1 = m.cols := by omega
    unfold Mtx.restoreLastCol
    rw [if_pos]
    · simp only [hcols]
    · refine ⟨hc.1, by simp only; omega, ?_⟩
      simp only [hcols]; exact hm.1
  · contradiction

/-- `on_transposition` twice is the identity. -/
theorem transposition_twice (m m1 : Mtx α) (h : m.onTransposition = some m1) : m1.onTransposition = some m := by
  unfold Mtx.onTransposition at h ⊢
  split at h
  · rename_i hc
    cases h
    rw [if_pos ⟨hc.1, hc.2.2, hc.2.1⟩]
    simp
  · contradiction

/-- non-vacuity: allocate 12 elements, shape 3x4 with biases, hide two columns and the biases, restore, transpose. -/
example : ∃ m', DOp.run [DOp.resizeNe 12 true false false (fun k => (k:Int)), .deform 3 4, .hideCols 1, .cols 1, .cols 2,
    .restoreCols true 1, .transposed] (Mtx.default (fun _ => 0)) = some m' ∧ m'.rows = 4 ∧ m'.cols = 3 ∧ m'.emul = true :=
  ⟨_, rfl, rfl, rfl, rfl⟩

/-- Disagreement: resizing the matrix through its base class (as `clone_to` does) leaves the recorded capacity stale, and
then an assertion-respecting deform reaches outside the storage. -/
theorem hidden_resize_breaks_deform : ∃ (m m1 m2 : Mtx Int) (b : Bool), DeformOk m ∧
    m.resize 1 1 (fun _ => 0) true = some (m1, b) ∧ m1.deform 2 2 = some m2 ∧ ¬ InStorage m2 :=
  ⟨Mtx.make 2 2 false false (fun _ => 0), _, _, true, ⟨by decide, by decide⟩, rfl, rfl, by unfold InStorage; decide⟩

/-- Calling `update_on_hidden_resize` restores the invariant. -/
theorem update_on_hidden_resize_ok (m : Mtx α) (h : InStorage m) : DeformOk m.updateOnHiddenResize :=
  ⟨Nat.le_refl _, h⟩

end

/-! ## C12 triangular enumeration -/

/-- As `k` runs over `[0, n(n-1)/2)` the upper enumeration hits exactly the cells with row < column < n. -/
theorem upper_triangle_in_range (n k : Nat) (hk : k < n * (n - 1) / 2) :
    (upperCoords k).1 < (upperCoords k).2 ∧ (upperCoords k).2 < n :=
  ⟨(upper_spec k).1, upper_bound n k hk⟩

theorem upper_triangle_exactly_once (n r c : Nat) (hrc : r < c) (hc : c < n) :
    ∃ k, (k < n * (n - 1) / 2 ∧ upperCoords k = (r, c)) ∧
      ∀ k', upperCoords k' = (r, c) → k' = k := by
  refine ⟨T c + r, ⟨?_, upper_of r c hrc⟩, ?_⟩
  · rw [tri_eq]
    have := T_mono (show c + 1 ≤ n by omega)
    simp only [T] at this; omega
  · intro k' h'
    have := (upper_spec k').2
    rw [h'] at this; exact this

/-- The lower enumeration hits exactly the cells with column < row < n. -/
theorem lower_triangle_in_range (n k : Nat) (hk : k < n * (n - 1) / 2) :
    (lowerCoords n k).2 < (lowerCoords n k).1 ∧ (lowerCoords n k).1 < n := by
  have hk' : k < numelTriangl n := hk
  rw [lower_eq n k hk']
  have h1 := (upper_spec (numelTriangl n - 1 - k)).1
  have h2 := upper_bound n (numelTriangl n - 1 - k) (by omega)
  simp only; omega

theorem lower_triangle_exactly_once (n r c : Nat) (hrc : c < r) (hr : r < n) :
    ∃ k, (k < n * (n - 1) / 2 ∧ lowerCoords n k = (r, c)) ∧
      ∀ k', k' < n * (n - 1) / 2 → lowerCoords n k' = (r, c) → k' = k := by
  obtain ⟨k, ⟨h1, h2⟩, h3⟩ := upper_triangle_exactly_once n (n - 1 - r) (n - 1 - c) (by omega) (by omega)
  have hN : numelTriangl n = n * (n - 1) / 2 := rfl
  refine ⟨n * (n - 1) / 2 - 1 - k, ⟨by omega, ?_⟩, ?_⟩
  · rw [lower_eq n _ (by omega)]
    have : numelTriangl n - 1 - (n * (n - 1) / 2 - 1 - k) = k := by omega
    rw [this, h2]
    simp only [Prod.mk.injEq]; omega
  · intro k' hk' h'
    rw [lower_eq n _ (by omega)] at h'
    have h4 := (upper_spec (numelTriangl n - 1 - k')).1
    have h5 := upper_bound n (numelTriangl n - 1 - k') (by omega)
    simp only [Prod.mk.injEq] at h'
    have := h3 (numelTriangl n - 1 - k') (by
      apply Prod.ext <;> simp only <;> omega)
    omega

/-- non-vacuity -/
example : upperCoords 4 = (1, 3) ∧ lowerCoords 4 0 = (1, 0) ∧ lowerCoords 4 5 = (3, 2) := by decide

end Nntl.Matrix
