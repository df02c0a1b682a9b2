import Verif.Gemm.Spec
import Mathlib.Algebra.BigOperators.Ring.Finset
import Mathlib.Tactic.Ring
import Mathlib.Tactic.ByContra

namespace Nntl.Gemm

open Nntl.Matrix
open Finset

variable {α : Type}

theorem cell_div (ld i j : Nat) (h : i < ld) : (i + ld * j) / ld = j := by
  rw [Nat.add_mul_div_left _ _ (by omega), Nat.div_eq_of_lt h, Nat.zero_add]

theorem cell_mod (ld i j : Nat) (h : i < ld) : (i + ld * j) % ld = i := by
  rw [Nat.add_mul_mod_self_left, Nat.mod_eq_of_lt h]

theorem fits_of (rows cols ld cap : Nat) (h0 : 0 < ld) (h1 : rows ≤ ld) (h2 : ld * cols ≤ cap) : fits rows cols ld cap = true := by
  unfold fits
  rcases Nat.eq_zero_or_pos rows with hr | hr
  · simp [hr]; omega
  rcases Nat.eq_zero_or_pos cols with hc | hc
  · simp [hc]; omega
  obtain ⟨c, rfl⟩ : ∃ c, cols = c + 1 := ⟨cols - 1, by omega⟩
  have : rows - 1 + ld * (c + 1 - 1) < cap := by
    rw [Nat.add_sub_cancel]; rw [Nat.mul_add] at h2; omega
  simp only [Bool.and_eq_true, Bool.or_eq_true, decide_eq_true_eq]
  exact ⟨⟨h0, h1⟩, Or.inr this⟩

variable [CommRing α]

/-- The contract of `gemm`, addressed by row and column. -/
theorem gemm_spec {tA tB : Bool} {M N K : Nat} {alpha : α} {A : Buf α} {lda : Nat} {B : Buf α} {ldb : Nat} {C : Buf α} {ldc : Nat}
    (hA : fits (if tA then K else M) (if tA then M else K) lda A.cap = true)
    (hB : fits (if tB then N else K) (if tB then K else N) ldb B.cap = true)
    (h0 : 0 < ldc) (h1 : M ≤ ldc) (h2 : ldc * N ≤ C.cap) :
    ∃ d, gemm tA tB M N K alpha A lda B ldb 0 C ldc = some d ∧
      (∀ i j, i < M → j < N → d (i + ldc * j) = alpha * ∑ l ∈ range K, op tA A.at_ lda i l * op tB B.at_ ldb l j) ∧
      ∀ k, (∀ i j, i < M → j < N → k ≠ i + ldc * j) → d k = C.at_ k := by
  refine ⟨_, by unfold gemm; rw [if_pos (by rw [hA, hB, fits_of M N ldc C.cap h0 h1 h2]; rfl)], ?_, ?_⟩
  · intro i j hi hj
    have hi' : i < ldc := by omega
    simp only [cell_div ldc i j hi', cell_mod ldc i j hi']
    rw [if_pos ⟨hi, hj⟩, zero_mul, add_zero]
  · intro k hk
    refine if_neg ?_
    rintro ⟨ha, hb⟩
    exact hk _ _ ha hb (Nat.mod_add_div k ldc).symm

theorem syrk_spec {lower tA : Bool} {N K : Nat} {alpha : α} {A : Buf α} {lda : Nat} {C : Buf α} {ldc : Nat}
    (hA : fits (if tA then K else N) (if tA then N else K) lda A.cap = true)
    (h0 : 0 < ldc) (h1 : N ≤ ldc) (h2 : ldc * N ≤ C.cap) :
    ∃ d, syrk lower tA N K alpha A lda 0 C ldc = some d ∧
      (∀ i j, i < N → j < N → (if lower then j ≤ i else i ≤ j) →
        d (i + ldc * j) = alpha * ∑ l ∈ range K, op tA A.at_ lda i l * op tA A.at_ lda j l) ∧
      ∀ k, (∀ i j, i < N → j < N → (if lower then j ≤ i else i ≤ j) → k ≠ i + ldc * j) → d k = C.at_ k := by
  refine ⟨_, by unfold syrk; rw [if_pos (by rw [hA, fits_of N N ldc C.cap h0 h1 h2]; rfl)], ?_, ?_⟩
  · intro i j hi hj hij
    have hi' : i < ldc := by omega
    simp only [cell_div ldc i j hi', cell_mod ldc i j hi']
    rw [if_pos ⟨hi, hj, hij⟩, zero_mul, add_zero]
  · intro k hk
    refine if_neg ?_
    rintro ⟨ha, hb, hc⟩
    exact hk _ _ ha hb hc (Nat.mod_add_div k ldc).symm

end Nntl.Gemm
