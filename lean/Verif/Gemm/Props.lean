import Verif.Gemm.Lemmas
import Verif.Matrix.Spec

/-!
**C82**: the products of matrices in the forward and the backward pass of a fully connected layer, for every combination of layouts.
-/
namespace Nntl.Gemm

open Nntl.Matrix
open Finset

variable {α : Type} [CommRing α]

/-- **C82**, forward: the pre-activation of neuron `j` for sample `b` is the sum over the features of the previous layer plus the bias
times the last weight; for the four combinations of layouts of the two activation matrices; the biases of the destination and
everything else in its storage are left alone. -/
theorem preactivation (prev w act : Mtx α) (hp : Solid prev) (hw : Solid w) (ha : Solid act)
    (h1 : prev.emul = true) (h2 : w.emul = false) (h3 : w.bir = false) (h4 : prev.sampleSize + 1 = w.cols)
    (h5 : act.sampleSize = w.rows) (h6 : prev.batchSize = act.batchSize) :
    ∃ act', mMulPrevActWeights prev w act = some act' ∧ OnlySamples act act' act.sampleSize ∧
      ∀ b j, b < act.batchSize → j < act.sampleSize →
        val act' b j = (∑ i ∈ range prev.sampleSize, val prev b i * el w j i) + val prev b prev.sampleSize * el w j prev.sampleSize := by
  obtain ⟨hp1, hp2, hp3⟩ := hp
  obtain ⟨hw1, hw2, hw3⟩ := hw
  obtain ⟨ha1, ha2, ha3⟩ := ha
  unfold mMulPrevActWeights
  rw [if_pos ⟨h1, by simp [h2], by simp [h3], h4, h5, h6⟩]
  simp only [← h4, h5]
  have hsp : prev.sampleSize + 1 = features prev := by
    unfold Mtx.sampleSize features Mtx.rowsNoBias Mtx.colsNoBias
    rw [h1]; cases prev.bir <;> simp <;> omega
  cases hab : act.bir with
  | true =>
    have hM : rowsB act true = w.rows := by
      rw [← h5]; simp [rowsB, Mtx.sampleSize, Mtx.rowsNoBias, hab]
    have hN : colsB act (!true) = act.batchSize := by simp [colsB, Mtx.batchSize, hab]
    have hNc : act.batchSize = act.cols := by simp [Mtx.batchSize, hab]
    have hle : w.rows ≤ act.rows := by rw [← hM]; unfold rowsB; omega
    simp only [if_true, hM, hN]
    obtain ⟨d, e, g1, g2⟩ := gemm_spec (tA := false) (tB := !prev.bir) (M := w.rows) (N := act.batchSize) (K := prev.sampleSize + 1)
      (alpha := (1 : α)) (A := buf w) (lda := w.rows) (B := buf prev) (ldb := prev.rows) (C := buf act) (ldc := act.rows)
      (by simp only [Bool.false_eq_true, if_false]; rw [h4]; exact fits_of _ _ _ _ hw1 (Nat.le_refl _) hw3)
      (by
        cases hpb : prev.bir with
        | true =>
          simp only [Bool.not_true, Bool.false_eq_true, if_false]
          refine fits_of _ _ _ _ hp1 (by rw [hsp]; simp [features, hpb]) ?_
          rw [← h6]; simpa [Mtx.batchSize, hpb, buf] using hp3
        | false =>
          simp only [Bool.not_false, if_true]
          refine fits_of _ _ _ _ hp1 (by rw [← h6]; simp [Mtx.batchSize, hpb]) ?_
          rw [hsp]; simpa [features, hpb, buf] using hp3)
      ha1 hle (by rw [hNc]; exact ha3)
    refine ⟨_, by rw [e]; rfl, ⟨by simp only [hab], ?_⟩, ?_⟩
    · intro k hk
      refine g2 k fun i j hi hj hkk => hk j i hj hi ?_
      rw [hab]; simpa [Mtx.cell] using hkk
    · intro b j hb hj
      have := g1 j b hj hb
      unfold val
      simp only [hab, if_true]
      show d (j + act.rows * b) = _
      rw [this, one_mul, Finset.sum_range_succ]
      have hop : ∀ i, op false (buf w).at_ w.rows j i * op (!prev.bir) (buf prev).at_ prev.rows i b = (if prev.bir = true then prev.data (prev.cell i b)
          else prev.data (prev.cell b i)) * el w j i := by
        intro i
        rw [mul_comm]
        cases prev.bir <;> rfl
      simp only [hop]
  | false =>
    have hM : rowsB act false = act.batchSize := by simp [rowsB, Mtx.batchSize, hab]
    have hN : colsB act (!false) = w.rows := by
      rw [← h5]; simp [colsB, Mtx.sampleSize, Mtx.colsNoBias, hab]
    have hMr : act.batchSize = act.rows := by simp [Mtx.batchSize, hab]
    have hle : w.rows ≤ act.cols := by rw [← hN]; unfold colsB; omega
    simp only [Bool.false_eq_true, if_false, hM, hN]
    obtain ⟨d, e, g1, g2⟩ := gemm_spec (tA := prev.bir) (tB := true) (M := act.batchSize) (N := w.rows) (K := prev.sampleSize + 1)
      (alpha := (1 : α)) (A := buf prev) (lda := prev.rows) (B := buf w) (ldb := w.rows) (C := buf act) (ldc := act.rows)
      (by
        cases hpb : prev.bir with
        | true =>
          simp only [if_true]
          refine fits_of _ _ _ _ hp1 (by rw [hsp]; simp [features, hpb]) ?_
          rw [← h6]; simpa [Mtx.batchSize, hpb, buf] using hp3
        | false =>
          simp only [Bool.false_eq_true, if_false]
          refine fits_of _ _ _ _ hp1 (by rw [← h6]; simp [Mtx.batchSize, hpb]) ?_
          rw [hsp]; simpa [features, hpb, buf] using hp3)
      (by simp only [if_true]; rw [h4]; exact fits_of _ _ _ _ hw1 (Nat.le_refl _) hw3)
      ha1 (by rw [hMr]) (Nat.le_trans (Nat.mul_le_mul_left _ hle) ha3)
    refine ⟨_, by rw [e]; rfl, ⟨by simp only [hab], ?_⟩, ?_⟩
    · intro k hk
      refine g2 k fun i j hi hj hkk => hk i j hi hj ?_
      rw [hab]; simpa [Mtx.cell] using hkk
    · intro b j hb hj
      have := g1 b j hb hj
      unfold val
      simp only [hab, Bool.false_eq_true, if_false]
      show d (b + act.rows * j) = _
      rw [this, one_mul, Finset.sum_range_succ]
      have hop : ∀ i, op prev.bir (buf prev).at_ prev.rows b i * op true (buf w).at_ w.rows i j = (if prev.bir = true then prev.data (prev.cell i b)
          else prev.data (prev.cell b i)) * el w j i := by
        intro i
        cases prev.bir <;> rfl
      simp only [hop]

/-- **C82**, forward, with intact biases (`BiasesAreOnes`): the last weight of a neuron is added as it is. -/
theorem preactivation_bias (prev w act : Mtx α) (hp : Solid prev) (hw : Solid w) (ha : Solid act)
    (h1 : prev.emul = true) (h2 : w.emul = false) (h3 : w.bir = false) (h4 : prev.sampleSize + 1 = w.cols)
    (h5 : act.sampleSize = w.rows) (h6 : prev.batchSize = act.batchSize) (hb : BiasesAreOnes prev) :
    ∃ act', mMulPrevActWeights prev w act = some act' ∧ OnlySamples act act' act.sampleSize ∧
      ∀ b j, b < act.batchSize → j < act.sampleSize →
        val act' b j = (∑ i ∈ range prev.sampleSize, val prev b i * el w j i) + el w j prev.sampleSize := by
  obtain ⟨act', e, o, v⟩ := preactivation prev w act hp hw ha h1 h2 h3 h4 h5 h6
  refine ⟨act', e, o, fun b j hbb hj => ?_⟩
  rw [v b j hbb hj]
  have hone : val prev b prev.sampleSize = 1 := by
    rw [← h6] at hbb
    obtain ⟨q1, q2, q3⟩ := hp
    have hc : prev.cap ≠ 0 := fun h => by
      rw [h] at q3
      have := Nat.mul_pos q1 q2
      omega
    unfold val Mtx.sampleSize
    cases hpb : prev.bir with
    | true =>
      simp only [if_true]
      have hr : prev.rowsNoBias + 1 = prev.rows := by simp [Mtx.rowsNoBias, h1, hpb]; omega
      have hbc : b < prev.cols := by simpa [Mtx.batchSize, hpb] using hbb
      have := hb hc prev.rowsNoBias b (by omega) hbc ⟨h1, by rw [hpb]; exact hr⟩
      unfold Mtx.get at this
      rw [if_pos ⟨by omega, hbc⟩] at this
      exact Option.some.inj this
    | false =>
      simp only [Bool.false_eq_true, if_false]
      have hr : prev.colsNoBias + 1 = prev.cols := by simp [Mtx.colsNoBias, h1, hpb]; omega
      have hbc : b < prev.rows := by simpa [Mtx.batchSize, hpb] using hbb
      have := hb hc b prev.colsNoBias hbc (by omega) ⟨h1, by rw [hpb]; exact hr⟩
      unfold Mtx.get at this
      rw [if_pos ⟨hbc, by omega⟩] at this
      exact Option.some.inj this
  rw [hone, one_mul]

/-- **C82**, backward: what a layer hands down is `dL/dZ` times the weights without the column of bias weights, for both layouts of
the destination; the weights object comes back as it was. -/
theorem handed_down (dz w da : Mtx α) (hz : Solid dz) (hw : Solid w) (ha : Solid da)
    (h1 : w.bir = false) (h2 : dz.bir = false) (h3 : da.sampleSize + 1 = w.cols) (h4 : dz.sampleSize = w.rows)
    (h5 : da.batchSize = dz.batchSize) (h6 : dz.emul = false) (h7 : w.emul = false) (h8 : da.emul = false)
    (hmax : w.rows * w.cols ≤ w.maxSize) :
    ∃ da', mMulDLdZWeights dz w da = some (w, da') ∧ OnlySamples da da' da.sampleSize ∧
      ∀ b i, b < da.batchSize → i < da.sampleSize → val da' b i = ∑ j ∈ range dz.sampleSize, val dz b j * el w j i := by
  obtain ⟨hz1, hz2, hz3⟩ := hz
  obtain ⟨hw1, hw2, hw3⟩ := hw
  obtain ⟨ha1, ha2, ha3⟩ := ha
  have hcap : w.cap ≠ 0 := fun h => by
    rw [h] at hw3
    have := Nat.mul_pos hw1 hw2
    omega
  have hem : w.empty = false := by simp [Mtx.empty, hcap]
  have hss : da.sampleSize = features da := by
    unfold Mtx.sampleSize features Mtx.rowsNoBias Mtx.colsNoBias
    rw [h8]; cases da.bir <;> simp
  have hfpos : 0 < features da := by unfold features; cases da.bir <;> simp <;> assumption
  have hzs : dz.sampleSize = dz.cols := by simp [Mtx.sampleSize, Mtx.colsNoBias, h2, h6]
  have hzb : dz.batchSize = dz.rows := by simp [Mtx.batchSize, h2]
  have hwc : w.cols - 1 = da.sampleSize := by omega
  unfold mMulDLdZWeights
  rw [if_pos ⟨by simp [h1], by simp [h2], h3, h4, h5, by simp [h6], by simp [h7], by simp [h8]⟩]
  have hhide : w.hideLastCol = some { w with cols := w.cols - 1 } := by
    unfold Mtx.hideLastCol; rw [if_pos ⟨by simp [hem], by omega⟩]
  have hrest : ({ w with cols := w.cols - 1 } : Mtx α).restoreLastCol = some w := by
    unfold Mtx.restoreLastCol
    have hc : w.cols - 1 + 1 = w.cols := by omega
    rw [if_pos ⟨by simpa [Mtx.empty] using hcap, by show w.cols - 1 ≥ 1; omega, by show w.maxSize ≥ w.rows * (w.cols - 1 + 1); rw [hc]; exact hmax⟩]
    simp only [hc]
  rw [hhide, Option.bind_some]
  have hwle : w.rows * (w.cols - 1) ≤ w.cap := Nat.le_trans (Nat.mul_le_mul_left _ (Nat.sub_le _ _)) hw3
  cases hab : da.bir with
  | true =>
    have hr : da.rows = da.sampleSize := by rw [hss]; simp [features, hab]
    have hc : da.cols = dz.rows := by rw [← hzb, ← h5]; simp [Mtx.batchSize, hab]
    simp only [if_true]
    obtain ⟨d, e, g1, g2⟩ := gemm_spec (tA := true) (tB := true) (M := da.rows) (N := da.cols) (K := dz.sampleSize)
      (alpha := (1 : α)) (A := buf { w with cols := w.cols - 1 }) (lda := w.rows) (B := buf dz) (ldb := dz.rows) (C := buf da) (ldc := da.rows)
      (by simp only [if_true]; rw [h4, hr, ← hwc]; exact fits_of _ _ _ _ hw1 (Nat.le_refl _) hwle)
      (by simp only [if_true]; rw [hzs, hc]; exact fits_of _ _ _ _ hz1 (Nat.le_refl _) hz3)
      ha1 (Nat.le_refl _) ha3
    refine ⟨_, by rw [e, Option.bind_some, hrest, Option.map_some], ⟨by simp only [hab], ?_⟩, ?_⟩
    · intro k hk
      refine g2 k fun i j hi hj hkk => hk j i ?_ ?_ ?_
      · rw [h5, hzb, ← hc]; exact hj
      · rw [← hr]; exact hi
      · rw [hab]; simpa [Mtx.cell] using hkk
    · intro b i hb hi
      have := g1 i b (by rw [hr]; exact hi) (by rw [hc, ← hzb, ← h5]; exact hb)
      unfold val
      simp only [hab, h2, if_true, Bool.false_eq_true, if_false]
      show d (i + da.rows * b) = _
      rw [this, one_mul]
      refine Finset.sum_congr rfl fun j _ => ?_
      rw [mul_comm]; rfl
  | false =>
    have hr : da.cols = da.sampleSize := by rw [hss]; simp [features, hab]
    have hc : da.rows = dz.rows := by rw [← hzb, ← h5]; simp [Mtx.batchSize, hab]
    simp only [Bool.false_eq_true, if_false]
    obtain ⟨d, e, g1, g2⟩ := gemm_spec (tA := false) (tB := false) (M := da.rows) (N := da.cols) (K := dz.sampleSize)
      (alpha := (1 : α)) (B := buf { w with cols := w.cols - 1 }) (ldb := w.rows) (A := buf dz) (lda := dz.rows) (C := buf da) (ldc := da.rows)
      (by simp only [Bool.false_eq_true, if_false]; rw [hzs, hc]; exact fits_of _ _ _ _ hz1 (Nat.le_refl _) hz3)
      (by simp only [Bool.false_eq_true, if_false]; rw [h4, hr, ← hwc]; exact fits_of _ _ _ _ hw1 (Nat.le_refl _) hwle)
      ha1 (Nat.le_refl _) ha3
    refine ⟨_, by rw [e, Option.bind_some, hrest, Option.map_some], ⟨by simp only [hab], ?_⟩, ?_⟩
    · intro k hk
      refine g2 k fun i j hi hj hkk => hk i j ?_ ?_ ?_
      · rw [h5, hzb, ← hc]; exact hi
      · rw [← hr]; exact hj
      · rw [hab]; simpa [Mtx.cell] using hkk
    · intro b i hb hi
      have := g1 b i (by rw [hc, ← hzb, ← h5]; exact hb) (by rw [hr]; exact hi)
      unfold val
      simp only [hab, h2, Bool.false_eq_true, if_false]
      show d (b + da.rows * i) = _
      rw [this, one_mul]
      rfl

/-- **C82**, gradient: the matrix handed to the optimiser is the scaled sum over the samples of `dL/dZ` times the activation, and its
last column the same with the biases, for both layouts of the activations; every element of it is written. -/
theorem weight_gradient (sc : α) (dz prev dw : Mtx α) (hz : Solid dz) (hp : Solid prev) (hw : Solid dw)
    (h1 : dw.bir = false) (h2 : dz.bir = false) (h3 : prev.sampleSize + 1 = dw.cols) (h4 : dz.sampleSize = dw.rows)
    (h5 : prev.batchSize = dz.batchSize) (h6 : prev.emul = true) (h7 : dz.emul = false) :
    ∃ dw', mMulScaledDLdZPrevAct sc dz prev dw = some dw' ∧ dw' = { dw with data := dw'.data } ∧
      (∀ k, dw.rows * dw.cols ≤ k → dw'.data k = dw.data k) ∧
      ∀ j i, j < dw.rows → i < dw.cols → el dw' j i = sc * ∑ b ∈ range dz.batchSize, val dz b j * val prev b i := by
  obtain ⟨hz1, hz2, hz3⟩ := hz
  obtain ⟨hp1, hp2, hp3⟩ := hp
  obtain ⟨hw1, hw2, hw3⟩ := hw
  have hsp : prev.sampleSize + 1 = features prev := by
    unfold Mtx.sampleSize features Mtx.rowsNoBias Mtx.colsNoBias
    rw [h6]; cases prev.bir <;> simp <;> omega
  have hzs : dz.sampleSize = dz.cols := by simp [Mtx.sampleSize, Mtx.colsNoBias, h2, h7]
  have hzb : dz.batchSize = dz.rows := by simp [Mtx.batchSize, h2]
  unfold mMulScaledDLdZPrevAct
  rw [if_pos ⟨by simp [h1], by simp [h2], h3, h4, h5⟩]
  obtain ⟨d, e, g1, g2⟩ := gemm_spec (tA := true) (tB := prev.bir) (M := dw.rows) (N := dw.cols) (K := dz.batchSize)
    (alpha := sc) (A := buf dz) (lda := dz.rows) (B := buf prev) (ldb := prev.rows) (C := buf dw) (ldc := dw.rows)
    (by simp only [if_true]; rw [hzb, ← h4, hzs]; exact fits_of _ _ _ _ hz1 (Nat.le_refl _) hz3)
    (by
      cases hpb : prev.bir with
      | true =>
        simp only [if_true]
        refine fits_of _ _ _ _ hp1 (by rw [← h3, hsp]; simp [features, hpb]) ?_
        rw [← h5]; simpa [Mtx.batchSize, hpb, buf] using hp3
      | false =>
        simp only [Bool.false_eq_true, if_false]
        refine fits_of _ _ _ _ hp1 (by rw [← h5]; simp [Mtx.batchSize, hpb]) ?_
        rw [← h3, hsp]; simpa [features, hpb, buf] using hp3)
    hw1 (Nat.le_refl _) hw3
  refine ⟨_, by rw [e]; rfl, rfl, ?_, ?_⟩
  · intro k hk
    refine g2 k fun i j hi hj hkk => ?_
    have : dw.rows * (j + 1) ≤ dw.rows * dw.cols := Nat.mul_le_mul_left _ hj
    rw [Nat.mul_add] at this
    omega
  · intro j i hj hi
    have := g1 j i hj hi
    show d (j + dw.rows * i) = _
    rw [this]
    congr 1
    refine Finset.sum_congr rfl fun b _ => ?_
    unfold val
    rw [h2]
    cases prev.bir <;> rfl

/-- **C82**: without biases in `prev` the same call reads past the end of its storage (for a storage that is exactly as large as the
matrix): nothing checks it. -/
theorem weight_gradient_needs_bias (sc : α) (dz prev dw : Mtx α) (hp : 0 < prev.rows ∧ prev.rows * prev.cols = prev.cap)
    (hb : prev.bir = false) (h3 : prev.sampleSize + 1 = dw.cols) (h5 : prev.batchSize = dz.batchSize) (h6 : prev.emul = false) :
    mMulScaledDLdZPrevAct sc dz prev dw = none := by
  unfold mMulScaledDLdZPrevAct
  split
  · rename_i h
    have hps : prev.sampleSize = prev.cols := by simp [Mtx.sampleSize, Mtx.colsNoBias, hb, h6]
    have hpb : prev.batchSize = prev.rows := by simp [Mtx.batchSize, hb]
    have hf : fits (if prev.bir then dw.cols else dz.batchSize) (if prev.bir then dz.batchSize else dw.cols) prev.rows (buf prev).cap = false := by
      rw [hb]
      simp only [Bool.false_eq_true, if_false]
      rw [← h5, hpb, ← h3, hps]
      unfold fits
      have : ¬ (prev.rows - 1 + prev.rows * (prev.cols + 1 - 1) < prev.cap) := by
        rw [Nat.add_sub_cancel, ← hp.2]; omega
      have h0 : ¬ prev.rows = 0 := by omega
      simp only [buf, this, h0, decide_false, Nat.succ_ne_zero, Bool.or_false, Bool.and_false]
    unfold gemm
    rw [hf, Bool.and_false, Bool.false_and]
    rfl
  · rfl

/-- **C82**: the plain product. -/
theorem product (A B C : Mtx α) (ha : Solid A) (hb : Solid B) (hc : Solid C) (h1 : A.cols = B.rows) (h2 : A.rows = C.rows)
    (h3 : B.cols = C.cols) :
    ∃ C', mMulABC A B C = some C' ∧ C' = { C with data := C'.data } ∧ (∀ k, C.rows * C.cols ≤ k → C'.data k = C.data k) ∧
      ∀ r c, r < C.rows → c < C.cols → el C' r c = ∑ l ∈ range A.cols, el A r l * el B l c := by
  obtain ⟨ha1, ha2, ha3⟩ := ha
  obtain ⟨hb1, hb2, hb3⟩ := hb
  obtain ⟨hc1, hc2, hc3⟩ := hc
  unfold mMulABC
  rw [if_pos ⟨h1, h2, h3⟩]
  obtain ⟨d, e, g1, g2⟩ := gemm_spec (tA := false) (tB := false) (M := A.rows) (N := C.cols) (K := A.cols) (alpha := (1 : α)) (A := buf A)
    (lda := A.rows) (B := buf B) (ldb := B.rows) (C := buf C) (ldc := C.rows)
    (by simp only [Bool.false_eq_true, if_false]; exact fits_of _ _ _ _ ha1 (Nat.le_refl _) ha3)
    (by simp only [Bool.false_eq_true, if_false]; rw [← h3, h1]; exact fits_of _ _ _ _ hb1 (Nat.le_refl _) hb3)
    hc1 (Nat.le_of_eq h2) hc3
  refine ⟨_, by rw [e]; rfl, rfl, ?_, ?_⟩
  · intro k hk
    refine g2 k fun i j hi hj hkk => ?_
    have : C.rows * (j + 1) ≤ C.rows * C.cols := Nat.mul_le_mul_left _ hj
    rw [Nat.mul_add] at this
    omega
  · intro r c hr hcc
    have := g1 r c (by omega) hcc
    show d (r + C.rows * c) = _
    rw [this, one_mul]
    rfl

/-- **C82**: the product with the transposed second matrix; the column of biases of the destination is left alone. -/
theorem product_transposed (A B C : Mtx α) (ha : Solid A) (hb : Solid B) (hc : Solid C) (h1 : A.cols = B.cols) (h2 : A.rows = C.rows)
    (h3 : B.rows = C.colsNoBias) :
    ∃ C', mMulABtCnb A B C = some C' ∧ C' = { C with data := C'.data } ∧
      (∀ k, C.rows * C.colsNoBias ≤ k → C'.data k = C.data k) ∧
      ∀ r c, r < C.rows → c < C.colsNoBias → el C' r c = ∑ l ∈ range A.cols, el A r l * el B c l := by
  obtain ⟨ha1, ha2, ha3⟩ := ha
  obtain ⟨hb1, hb2, hb3⟩ := hb
  obtain ⟨hc1, hc2, hc3⟩ := hc
  have hle : C.colsNoBias ≤ C.cols := by unfold Mtx.colsNoBias; omega
  unfold mMulABtCnb
  rw [if_pos ⟨h1, h2, h3⟩]
  obtain ⟨d, e, g1, g2⟩ := gemm_spec (tA := false) (tB := true) (M := A.rows) (N := C.colsNoBias) (K := A.cols) (alpha := (1 : α)) (A := buf A)
    (lda := A.rows) (B := buf B) (ldb := C.colsNoBias) (C := buf C) (ldc := C.rows)
    (by simp only [Bool.false_eq_true, if_false]; exact fits_of _ _ _ _ ha1 (Nat.le_refl _) ha3)
    (by simp only [if_true]; rw [← h3, h1]; exact fits_of _ _ _ _ hb1 (Nat.le_refl _) hb3)
    hc1 (Nat.le_of_eq h2) (Nat.le_trans (Nat.mul_le_mul_left _ hle) hc3)
  refine ⟨_, by rw [e]; rfl, rfl, ?_, ?_⟩
  · intro k hk
    refine g2 k fun i j hi hj hkk => ?_
    have : C.rows * (j + 1) ≤ C.rows * C.colsNoBias := Nat.mul_le_mul_left _ hj
    rw [Nat.mul_add] at this
    omega
  · intro r c hr hcc
    have := g1 r c (by omega) hcc
    show d (r + C.rows * c) = _
    rw [this, one_mul]
    refine Finset.sum_congr rfl fun l _ => ?_
    simp only [op, Bool.false_eq_true, if_false, if_true, buf, el, Mtx.cell, ← h3]

/-- **C82**: the scaled product with the transposed first matrix. -/
theorem product_scaled (alpha : α) (A B C : Mtx α) (ha : Solid A) (hb : Solid B) (hc : Solid C) (h1 : A.rows = B.rows)
    (h2 : A.cols = C.rows) (h3 : B.cols = C.cols) :
    ∃ C', mScaledMulAtBC alpha A B C = some C' ∧ C' = { C with data := C'.data } ∧
      (∀ k, C.rows * C.cols ≤ k → C'.data k = C.data k) ∧
      ∀ r c, r < C.rows → c < C.cols → el C' r c = alpha * ∑ l ∈ range A.rows, el A l r * el B l c := by
  obtain ⟨ha1, ha2, ha3⟩ := ha
  obtain ⟨hb1, hb2, hb3⟩ := hb
  obtain ⟨hc1, hc2, hc3⟩ := hc
  unfold mScaledMulAtBC
  rw [if_pos ⟨h1, h2, h3⟩]
  obtain ⟨d, e, g1, g2⟩ := gemm_spec (tA := true) (tB := false) (M := A.cols) (N := B.cols) (K := A.rows) (alpha := alpha) (A := buf A)
    (lda := A.rows) (B := buf B) (ldb := A.rows) (C := buf C) (ldc := A.cols)
    (by simp only [if_true]; exact fits_of _ _ _ _ ha1 (Nat.le_refl _) ha3)
    (by simp only [Bool.false_eq_true, if_false]; refine fits_of _ _ _ _ ha1 (Nat.le_refl _) ?_; rw [h1]; exact hb3)
    ha2 (Nat.le_refl _) (by rw [h2, h3]; exact hc3)
  refine ⟨_, by rw [e]; rfl, rfl, ?_, ?_⟩
  · intro k hk
    refine g2 k fun i j hi hj hkk => ?_
    have : C.rows * (j + 1) ≤ C.rows * C.cols := Nat.mul_le_mul_left _ (by omega)
    rw [Nat.mul_add] at this
    rw [h2] at hkk
    omega
  · intro r c hr hcc
    have := g1 r c (by omega) (by omega)
    show d (r + C.rows * c) = _
    rw [← h2, this]
    congr 1
    refine Finset.sum_congr rfl fun l _ => ?_
    simp only [op, Bool.false_eq_true, if_false, if_true, buf, el, Mtx.cell, ← h1]

/-- **C82**: the covariance of columns: the chosen triangle with the diagonal holds the mean product of two columns, the rest of the
destination is left alone. -/
theorem covariance (inv : Nat → α) (lower : Bool) (A C : Mtx α) (ha : Solid A) (hc : Solid C) (h1 : 1 < A.cols) (h2 : C.rows = A.cols)
    (h3 : C.cols = A.cols) :
    ∃ C', mColumnsCov inv lower A C = some C' ∧ C' = { C with data := C'.data } ∧
      (∀ r c, r < A.cols → c < A.cols → (if lower then c ≤ r else r ≤ c) →
        el C' r c = inv A.rows * ∑ l ∈ range A.rows, el A l r * el A l c) ∧
      (∀ r c, r < A.cols → c < A.cols → ¬ (if lower then c ≤ r else r ≤ c) → el C' r c = el C r c) ∧
      ∀ k, C.rows * C.cols ≤ k → C'.data k = C.data k := by
  obtain ⟨ha1, ha2, ha3⟩ := ha
  obtain ⟨hc1, hc2, hc3⟩ := hc
  unfold mColumnsCov
  rw [if_pos ⟨h1, h2, h3⟩]
  obtain ⟨d, e, g1, g2⟩ := syrk_spec (lower := lower) (tA := true) (N := A.cols) (K := A.rows) (alpha := inv A.rows) (A := buf A)
    (lda := A.rows) (C := buf C) (ldc := A.cols)
    (by simp only [if_true]; exact fits_of _ _ _ _ ha1 (Nat.le_refl _) ha3)
    ha2 (Nat.le_refl _) (by rw [h2, h3] at hc3; exact hc3)
  refine ⟨_, by rw [e]; rfl, rfl, ?_, ?_, ?_⟩
  · intro r c hr hcc hl
    have := g1 r c hr hcc hl
    show d (r + C.rows * c) = _
    rw [h2, this]
    rfl
  · intro r c hr hcc hl
    show d (r + C.rows * c) = C.data (r + C.rows * c)
    refine g2 _ fun i j hi hj hij hkk => hl ?_
    rw [h2] at hkk
    have e1 := congrArg (· % A.cols) hkk
    have e2 := congrArg (· / A.cols) hkk
    simp only [cell_div _ _ _ hr, cell_mod _ _ _ hr, cell_div _ _ _ hi, cell_mod _ _ _ hi] at e1 e2
    rw [e1, e2]; exact hij
  · intro k hk
    refine g2 k fun i j hi hj hij hkk => ?_
    have : A.cols * (j + 1) ≤ A.cols * A.cols := Nat.mul_le_mul_left _ hj
    rw [h2, h3] at hk
    rw [Nat.mul_add] at this
    omega

/-! ### Cases that meet the hypotheses -/

/-- Two samples, one feature and biases, samples in columns. -/
def exPrev : Mtx ℤ := { data := fun k => [3, 1, 5, 1].getD k 0, cap := 4, rows := 2, cols := 2, emul := true, ext := false, holey := false, bir := true, maxSize := 4 }
/-- Two neurons: weights `2, -1` and biases `7, 10`. -/
def exW : Mtx ℤ := { data := fun k => [2, -1, 7, 10].getD k 0, cap := 4, rows := 2, cols := 2, emul := false, ext := false, holey := false, bir := false, maxSize := 4 }
/-- Destination in the default layout with a column of biases. -/
def exAct : Mtx ℤ := { data := fun k => if k < 4 then 0 else 1, cap := 6, rows := 2, cols := 3, emul := true, ext := false, holey := false, bir := false, maxSize := 6 }
/-- `dL/dZ` of the two samples. -/
def exDz : Mtx ℤ := { data := fun k => [1, 2, 3, 4].getD k 0, cap := 4, rows := 2, cols := 2, emul := false, ext := false, holey := false, bir := false, maxSize := 4 }
/-- Destination of the backward pass. -/
def exDa : Mtx ℤ := { data := fun _ => 0, cap := 2, rows := 1, cols := 2, emul := false, ext := false, holey := false, bir := true, maxSize := 2 }

example : ∃ act', mMulPrevActWeights exPrev exW exAct = some act' ∧ val act' 1 1 = 5 * (-1) + 1 * 10 ∧ val act' 1 2 = 1 := by
  obtain ⟨a, e, ⟨o1, o2⟩, v⟩ := preactivation exPrev exW exAct (by unfold Solid; decide) (by unfold Solid; decide) (by unfold Solid; decide) rfl rfl rfl rfl rfl rfl
  refine ⟨a, e, ?_, ?_⟩
  · rw [v 1 1 (by decide) (by decide)]; decide
  · have hb : a.bir = false := by rw [o1]; rfl
    have hr : a.rows = 2 := by rw [o1]; rfl
    unfold val Mtx.cell
    rw [hb, hr]
    show a.data 5 = 1
    rw [o2 5]
    · rfl
    · intro b i hb hi
      have h1 : b < 2 := hb
      have h2 : i < 2 := hi
      show 5 ≠ b + 2 * i
      omega

example : ∃ da', mMulDLdZWeights exDz exW exDa = some (exW, da') ∧ val da' 1 0 = 2 * 2 + 4 * (-1) := by
  obtain ⟨a, e, -, v⟩ := handed_down exDz exW exDa (by unfold Solid; decide) (by unfold Solid; decide) (by unfold Solid; decide) rfl rfl rfl rfl rfl rfl rfl rfl (by decide)
  exact ⟨a, e, by rw [v 1 0 (by decide) (by decide)]; decide⟩

example : ∃ dw', mMulScaledDLdZPrevAct (10 : ℤ) exDz exPrev exW = some dw' ∧ el dw' 1 0 = 10 * (3 * 3 + 4 * 5) ∧ el dw' 1 1 = 10 * (3 + 4) := by
  obtain ⟨a, e, -, -, v⟩ := weight_gradient 10 exDz exPrev exW (by unfold Solid; decide) (by unfold Solid; decide) (by unfold Solid; decide) rfl rfl rfl rfl rfl rfl rfl
  exact ⟨a, e, by rw [v 1 0 (by decide) (by decide)]; decide, by rw [v 1 1 (by decide) (by decide)]; decide⟩

end Nntl.Gemm
