import Mathlib.Tactic.Ring
import Mathlib.Tactic.ByContra
import Verif.Matrix.Model
/-! Lemmas for C12. -/
namespace Nntl.Matrix

/-- Number of cells in the first `c` columns of the strict upper triangle. -/
def T : Nat → Nat
  | 0 => 0
  | c + 1 => T c + c

theorem two_T (c : Nat) : 2 * T c = c * (c - 1) := by
  induction c with
  | zero => rfl
  | succ c ih =>
    cases c with
    | zero => rfl
    | succ d =>
      simp only [T] at ih ⊢
      simp only [Nat.add_sub_cancel] at ih ⊢
      have : 2 * (T d + d + (d + 1)) = 2 * (T d + d) + 2 * (d + 1) := by ring
      rw [this, ih]; ring

theorem tri_eq (c : Nat) : c * (c - 1) / 2 = T c := by
  have := two_T c; omega

theorem T_mono {a b : Nat} (h : a ≤ b) : T a ≤ T b := by
  induction b with
  | zero => simp at h; subst h; exact Nat.le_refl _
  | succ b ih =>
    rcases Nat.lt_or_ge a (b+1) with h1 | h1
    · have := ih (by omega); simp only [T]; omega
    · have : a = b + 1 := by omega
      subst this; exact Nat.le_refl _

theorem le_T (c : Nat) : c ≤ T (c + 1) := by simp only [T]; omega

/-- The test of `ceilRoot` says `k < T (c+1)`. -/
theorem root_iff (k c : Nat) : 8 * k + 9 ≤ (2 * c + 1) * (2 * c + 1) ↔ k < T (c + 1) := by
  have h := two_T (c + 1)
  simp only [Nat.add_sub_cancel] at h
  have e : (2 * c + 1) * (2 * c + 1) = 4 * ((c + 1) * c) + 1 := by ring
  rw [e, ← h]; omega

theorem ceilRoot_spec (k fuel c : Nat) (hlow : T c ≤ k) (hf : k + 2 ≤ c + fuel) :
    T (ceilRoot k fuel c) ≤ k ∧ k < T (ceilRoot k fuel c + 1) := by
  induction fuel generalizing c with
  | zero =>
    exfalso
    cases c with
    | zero => omega
    | succ c => have := le_T c; omega
  | succ f ih =>
    simp only [ceilRoot]
    split
    · rename_i h; exact ⟨hlow, (root_iff k c).mp h⟩
    · rename_i h
      rw [root_iff] at h
      exact ih (c + 1) (by omega) (by omega)

theorem ceilRoot_T (k : Nat) : T (ceilRoot k (k + 2) 0) ≤ k ∧ k < T (ceilRoot k (k + 2) 0 + 1) :=
  ceilRoot_spec k (k + 2) 0 (Nat.zero_le _) (by omega)

theorem T_unique {k a b : Nat} (ha : T a ≤ k) (ha' : k < T (a + 1)) (hb : T b ≤ k) (hb' : k < T (b + 1)) : a = b := by
  rcases Nat.lt_trichotomy a b with h | h | h
  · have := T_mono (show a + 1 ≤ b by omega); omega
  · exact h
  · have := T_mono (show b + 1 ≤ a by omega); omega

theorem upper_spec (k : Nat) : (upperCoords k).1 < (upperCoords k).2 ∧
    k = T (upperCoords k).2 + (upperCoords k).1 := by
  have h := ceilRoot_T k
  simp only [upperCoords, tri_eq]
  generalize ceilRoot k (k + 2) 0 = c at h
  simp only [T] at h
  omega

theorem upper_of (r c : Nat) (h : r < c) : upperCoords (T c + r) = (r, c) := by
  have h1 := ceilRoot_T (T c + r)
  simp only [upperCoords, tri_eq]
  have hc : ceilRoot (T c + r) (T c + r + 2) 0 = c := by
    refine T_unique h1.1 h1.2 (by omega) ?_
    simp only [T]; omega
  rw [hc]; simp

theorem upper_bound (n k : Nat) (h : k < numelTriangl n) : (upperCoords k).2 < n := by
  have hs := upper_spec k
  unfold numelTriangl at h
  rw [tri_eq] at h
  by_contra hc
  have := T_mono (Nat.le_of_not_lt hc)
  omega

theorem lower_eq (n k : Nat) (h : k < numelTriangl n) :
    lowerCoords n k = (n - 1 - (upperCoords (numelTriangl n - 1 - k)).1, n - 1 - (upperCoords (numelTriangl n - 1 - k)).2) := by
  unfold lowerCoords
  rw [if_neg (by omega)]
  have : numelTriangl n - k - 1 = numelTriangl n - 1 - k := by omega
  simp only [this, upperCoords]

end Nntl.Matrix
