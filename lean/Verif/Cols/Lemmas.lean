import Verif.Cols.Spec
import Verif.Matrix.TriangLemmas
import Verif.Act.LossProps
import Mathlib.Tactic.Ring
import Mathlib.Tactic.Linarith

namespace Nntl.Cols

open Nntl.Matrix
open Nntl.Kernel
open Nntl.Act (kahanStep sum_list kahan_fold)
open Finset

theorem applySum_eq (ns : Bool) (vs : List ℝ) : applySum ns vs = vs.sum := by
  unfold applySum
  cases ns with
  | true =>
    have := kahan_fold (id : ℝ → ℝ) vs 0
    simp only [id_eq, List.map_id_fun] at this
    rw [if_pos rfl, this, zero_add]
  | false =>
    have := foldl_add vs (id : ℝ → ℝ) 0
    simp only [id_eq, List.map_id_fun, zero_add] at this
    rw [if_neg (by decide), this]

theorem colSum (ns : Bool) (n : ℕ) (col : ℕ → ℝ) : applySum ns (colList n col) = ∑ r ∈ range n, col r := by
  rw [applySum_eq, colList, sum_list]

theorem cell_eq (A : Mtx ℝ) (r c : ℕ) : column A c r = el A r c := by
  unfold column el Mtx.cell; rw [Nat.add_comm]

theorem withColumns_becomes (A : Mtx ℝ) (cs : ℕ → ℕ → ℝ) (f : ℕ → ℕ → ℝ)
    (h : ∀ r c, r < A.rows → c < A.cols → cs c r = f r c) : Becomes A (withColumns A cs) f := by
  refine ⟨rfl, fun k hk => if_neg (by omega), fun r c hr hc => ?_⟩
  have h1 : A.rows * (c + 1) ≤ A.rows * A.cols := Nat.mul_le_mul_left _ hc
  rw [Nat.mul_add] at h1
  show (if r + A.rows * c < A.rows * A.cols then cs ((r + A.rows * c) / A.rows) ((r + A.rows * c) % A.rows) else _) = _
  rw [if_pos (by omega), Nat.add_mul_div_left _ _ (by omega), Nat.div_eq_of_lt hr, Nat.zero_add, Nat.add_mul_mod_self_left,
    Nat.mod_eq_of_lt hr]
  exact h r c hr hc

/-- Steps written with an offset from the beginning of the range are the steps of `eachSteps`. -/
theorem offsets {σ : Type} (f : ℕ → σ → σ) (b e : ℕ) : ((List.range (e - b)).map fun j => ((b + j, f (b + j)) : Step σ)) = eachSteps f b e := by
  unfold eachSteps
  rw [List.range'_eq_map_range, List.map_map]
  rfl

/-! ### The triangle -/

/-- The first row of the triangle in column `c`. -/
def lo (lower : Bool) (c : ℕ) : ℕ := if lower then c + 1 else 0
/-- The row behind the last one in column `c`. -/
def hi (lower : Bool) (n c : ℕ) : ℕ := if lower then n else c
/-- Number of cells in the columns before `c`. -/
def before (lower : Bool) (n c : ℕ) : ℕ := if lower then T n - T (n - c) else T c

theorem T_succ_pred {m : ℕ} (h : 0 < m) : T m = T (m - 1) + (m - 1) := by
  obtain ⟨d, rfl⟩ : ∃ d, m = d + 1 := ⟨m - 1, by omega⟩
  rfl

theorem before_succ (lower : Bool) (n c : ℕ) (hc : c < n) : before lower n (c + 1) = before lower n c + (hi lower n c - lo lower c) := by
  unfold before hi lo
  cases lower with
  | true =>
    simp only [if_true]
    have h1 := T_succ_pred (show 0 < n - c by omega)
    have h2 := T_mono (show n - c ≤ n by omega)
    have h3 : n - c - 1 = n - (c + 1) := by omega
    rw [h3] at h1
    omega
  | false => simp [T]

theorem before_mono (lower : Bool) (n : ℕ) {a b : ℕ} (h : a ≤ b) : before lower n a ≤ before lower n b := by
  unfold before
  cases lower with
  | true =>
    simp only [if_true]
    have := T_mono (show n - b ≤ n - a by omega)
    omega
  | false => simpa using T_mono h

theorem before_n (lower : Bool) (n : ℕ) : before lower n n = numelTriangl n := by
  unfold before numelTriangl
  rw [tri_eq]
  cases lower <;> simp [T]

theorem coords_of (lower : Bool) (n r c : ℕ) (hc : c < n) (h1 : lo lower c ≤ r) (h2 : r < hi lower n c) :
    coords lower n (before lower n c + (r - lo lower c)) = (r, c) := by
  cases lower with
  | false =>
    simp only [lo, hi, before, coords, Bool.false_eq_true, if_false] at *
    exact upper_of r c h2
  | true =>
    simp only [lo, hi, before, coords, if_true] at *
    have e1 := T_succ_pred (show 0 < n - c by omega)
    have e2 := T_mono (show n - c ≤ n by omega)
    have hN : numelTriangl n = T n := tri_eq n
    rw [lower_eq n _ (by rw [hN]; omega), hN]
    have : T n - 1 - (T n - T (n - c) + (r - (c + 1))) = T (n - 1 - c) + (n - 1 - r) := by
      have h3 : n - c - 1 = n - 1 - c := by omega
      rw [h3] at e1
      omega
    rw [this, upper_of _ _ (by omega)]
    simp only [Prod.mk.injEq]
    omega

theorem coords_spec (lower : Bool) (n k : ℕ) (hk : k < numelTriangl n) :
    (coords lower n k).2 < n ∧ lo lower (coords lower n k).2 ≤ (coords lower n k).1 ∧ (coords lower n k).1 < hi lower n (coords lower n k).2 ∧
      k = before lower n (coords lower n k).2 + ((coords lower n k).1 - lo lower (coords lower n k).2) := by
  cases lower with
  | false =>
    simp only [lo, hi, before, coords, Bool.false_eq_true, if_false]
    have := upper_spec k
    exact ⟨upper_bound n k hk, Nat.zero_le _, this.1, by omega⟩
  | true =>
    simp only [lo, hi, before, coords, if_true]
    have hN : numelTriangl n = T n := tri_eq n
    rw [lower_eq n k hk]
    have h1 := upper_spec (numelTriangl n - 1 - k)
    have h2 := upper_bound n (numelTriangl n - 1 - k) (by omega)
    generalize upperCoords (numelTriangl n - 1 - k) = p at h1 h2 ⊢
    rw [hN] at hk h1
    simp only
    have e1 := T_succ_pred (show 0 < n - (n - 1 - p.2) by omega)
    have e2 := T_mono (show n - (n - 1 - p.2) ≤ n by omega)
    have h3 : n - (n - 1 - p.2) = p.2 + 1 := by omega
    rw [h3] at e1 e2 ⊢
    rw [Nat.add_sub_cancel] at e1
    omega

/-- The end of a range: also one behind the last cell. -/
theorem coords_end (lower : Bool) (n k : ℕ) (hn : 1 < n) (hk : k ≤ numelTriangl n) :
    (coords lower n k).2 ≤ n ∧ k = before lower n (coords lower n k).2 + ((coords lower n k).1 - lo lower (coords lower n k).2) ∧
    ((coords lower n k).1 - lo lower (coords lower n k).2 = 0 ∨
      ((coords lower n k).2 < n ∧ lo lower (coords lower n k).2 < (coords lower n k).1 ∧ (coords lower n k).1 < hi lower n (coords lower n k).2)) := by
  rcases Nat.lt_or_ge k (numelTriangl n) with h | h
  · obtain ⟨h1, h2, h3, h4⟩ := coords_spec lower n k h
    refine ⟨by omega, h4, ?_⟩
    rcases Nat.eq_or_lt_of_le h2 with h5 | h5
    · left; omega
    · right; exact ⟨h1, h5, h3⟩
  · have hk' : k = numelTriangl n := by omega
    cases lower with
    | true =>
      have : coords true n k = (0, n - 1) := by simp [coords, lowerCoords, hk']
      rw [this]
      simp only [lo, before, if_true]
      refine ⟨by omega, ?_, Or.inl (by omega)⟩
      have h1 : n - (n - 1) = 1 := by omega
      rw [hk', h1]
      have : numelTriangl n = T n := tri_eq n
      simp only [T]
      omega
    | false =>
      have hT : numelTriangl n = T n := tri_eq n
      have h1 : coords false n k = (0, n) := by
        have := upper_of 0 n (by omega)
        simp only [coords, Bool.false_eq_true, if_false, hk', hT]
        simpa using this
      rw [h1]
      simp only [lo, before, Bool.false_eq_true, if_false]
      exact ⟨Nat.le_refl _, by simp [hk', hT], Or.inl trivial⟩

/-- The address of the cell with index `k` of the triangle. -/
def addr (lower : Bool) (n k : ℕ) : ℕ := n * (coords lower n k).2 + (coords lower n k).1

/-- A part of one column. -/
theorem segment (lower : Bool) (n c r m : ℕ) (hc : c < n) (h1 : lo lower c ≤ r) (h2 : r + m ≤ hi lower n c) :
    (List.range' (before lower n c + (r - lo lower c)) m).map (addr lower n) = List.range' (n * c + r) m := by
  rw [List.range'_eq_map_range, List.range'_eq_map_range, List.map_map]
  refine List.map_congr_left fun j hj => ?_
  rw [List.mem_range] at hj
  have := coords_of lower n (r + j) c hc (by omega) (by omega)
  have e : before lower n c + (r - lo lower c) + j = before lower n c + (r + j - lo lower c) := by omega
  simp only [Function.comp_apply, addr, e, this]
  omega

theorem visit_pos {p m : ℕ} (h : 0 < m) : visit p m = some (List.range' p m) := if_pos h

/-- The intermediate columns. -/
theorem midLoop_eq (lower : Bool) (n : ℕ) : ∀ (cnt ri ci : ℕ), 0 < ci → ci + cnt < n + (if lower then 0 else 1) → (lower = true → ri = ci + 1) →
    ∃ r', midLoop lower n cnt ri ci =
      some ((List.range' (before lower n ci) (before lower n (ci + cnt) - before lower n ci)).map (addr lower n), r') ∧
      (lower = true → r' = ci + cnt + 1) := by
  intro cnt
  induction cnt with
  | zero =>
    intro ri ci _ _ hri
    exact ⟨ri, by simp [midLoop], fun h => by have := hri h; omega⟩
  | succ cnt ih =>
    intro ri ci h0 hlt hri
    obtain ⟨r', e, hr'⟩ := ih (if lower then ri + 1 else ri) (ci + 1) (by omega) (by omega) (fun h => by rw [if_pos h, hri h])
    have hcn : ci < n := by
      cases lower <;> simp at hlt <;> omega
    have hseg := segment lower n ci (lo lower ci) (hi lower n ci - lo lower ci) hcn (Nat.le_refl _) (by
      unfold lo hi; cases lower <;> simp <;> omega)
    have hs := before_succ lower n ci hcn
    have hm : before lower n (ci + 1) ≤ before lower n (ci + 1 + cnt) := before_mono lower n (by omega)
    rw [Nat.sub_self, Nat.add_zero] at hseg
    refine ⟨r', ?_, fun h => by rw [hr' h]; omega⟩
    unfold midLoop
    have hv : visit (if lower then n * ci + ri else n * ci) (if lower then n - ri else ci) =
        some (List.range' (n * ci + lo lower ci) (hi lower n ci - lo lower ci)) := by
      cases lower with
      | true =>
        simp only [lo, hi, if_true]
        rw [hri rfl]
        refine visit_pos ?_
        simp at hlt; omega
      | false =>
        simp only [lo, hi, Bool.false_eq_true, if_false]
        exact visit_pos (by omega)
    rw [hv, Option.bind_some, e, Option.map_some]
    simp only
    rw [← hseg, ← List.map_append]
    have : before lower n (ci + (cnt + 1)) - before lower n ci = (hi lower n ci - lo lower ci) + (before lower n (ci + 1 + cnt) - before lower n (ci + 1)) := by
      rw [show ci + (cnt + 1) = ci + 1 + cnt by omega]; omega
    rw [this, ← List.range'_append_1, ← hs]

/-- All the addresses of a call. -/
theorem triangVisit_eq (lower : Bool) (n b e : ℕ) (hn : 1 < n) (hbe : b < e) (he : e ≤ numelTriangl n) :
    triangVisit lower n b e = some ((List.range' b (e - b)).map (addr lower n)) := by
  obtain ⟨s1, s2, s3, s4⟩ := coords_spec lower n b (by omega)
  obtain ⟨t1, t2, t3⟩ := coords_end lower n e hn he
  unfold triangVisit
  generalize hS : coords lower n b = S at s1 s2 s3 s4 ⊢
  generalize hE : coords lower n e = E at t1 t2 t3 ⊢
  obtain ⟨ri, ci⟩ := S
  obtain ⟨er, ec⟩ := E
  simp only at *
  have hss := before_succ lower n ci s1
  have hord : ci ≤ ec := by
    by_contra hlt
    have h1 := before_mono lower n (show ec + 1 ≤ ci by omega)
    have h2 := before_succ lower n ec (by omega)
    rcases t3 with t3 | ⟨-, t3, t4⟩ <;> omega
  by_cases hl : ci = ec
  · subst hl
    simp only [if_true]
    have hlt : ri < er ∧ er < hi lower n ci := by
      rcases t3 with t3 | ⟨-, t3, t4⟩
      · omega
      · exact ⟨by omega, t4⟩
    have hv : visit (n * ci + ri) (if lower then n - ri - 1 * (n - er) else ci - ri - 1 * (ci - er)) = some (List.range' (n * ci + ri) (er - ri)) := by
      have : (if lower then n - ri - 1 * (n - er) else ci - ri - 1 * (ci - er)) = er - ri := by
        unfold hi at hlt
        cases lower <;> simp at hlt ⊢ <;> omega
      rw [this]; exact visit_pos (by omega)
    have hseg := segment lower n ci ri (er - ri) s1 s2 (by omega)
    rw [hv, Option.bind_some, show ci - (ci + 1) = 0 by omega]
    simp only [midLoop, Option.bind_some, Option.map_some, List.append_nil]
    rw [← hseg, ← s4]
    congr 3
    omega
  · have hlt : ci < ec := by omega
    simp only [hl, if_false, Nat.zero_mul, Nat.sub_zero]
    have hv : visit (n * ci + ri) (if lower then n - ri else ci - ri) = some (List.range' (n * ci + ri) (hi lower n ci - ri)) := by
      have : (if lower then n - ri else ci - ri) = hi lower n ci - ri := by unfold hi; cases lower <;> rfl
      rw [this]; exact visit_pos (by omega)
    have hseg := segment lower n ci ri (hi lower n ci - ri) s1 s2 (by omega)
    have hecn : ec < n + (if lower then 0 else 1) := by
      cases lower with
      | false => simp; omega
      | true =>
        simp only [if_true, Nat.add_zero]
        rcases Nat.lt_or_ge e (numelTriangl n) with h | h
        · have := (coords_spec true n e h).1; rw [hE] at this; exact this
        · have : coords true n e = (0, n - 1) := by simp [coords, lowerCoords, show e = numelTriangl n by omega]
          rw [hE] at this
          simp only [Prod.mk.injEq] at this
          omega
    obtain ⟨r', em, hr'⟩ := midLoop_eq lower n (ec - (ci + 1)) (if lower then ci + 2 else ri) (ci + 1) (by omega) (by omega)
      (fun h => by rw [if_pos h])
    rw [show ci + 1 + (ec - (ci + 1)) = ec by omega] at em hr'
    rw [hv, Option.bind_some, em, Option.bind_some]
    simp only [Nat.zero_ne_one, if_false]
    have hlast : (if lower = true then (if er > ec + 1 then visit (n * ec + r') (er - r') else some []) else if er > 0 then visit (n * ec) er else some []) =
        some ((List.range' (before lower n ec) (er - lo lower ec)).map (addr lower n)) := by
      rcases t3 with t3 | ⟨t4, t5, t6⟩
      · rw [t3]
        cases lower with
        | true =>
          simp only [lo, if_true] at t3
          rw [if_pos rfl, if_neg (by omega)]; rfl
        | false =>
          simp only [lo, Bool.false_eq_true, if_false] at t3
          rw [if_neg (by decide), if_neg (by omega)]; rfl
      · have hsg := segment lower n ec (lo lower ec) (er - lo lower ec) t4 (Nat.le_refl _) (by omega)
        rw [Nat.sub_self, Nat.add_zero] at hsg
        rw [hsg]
        cases lower with
        | true =>
          simp only [lo, if_true] at t5 ⊢
          rw [if_pos t5, hr' rfl]
          exact visit_pos (by omega)
        | false =>
          simp only [lo, Bool.false_eq_true, if_false] at t5 ⊢
          rw [if_pos t5]
          exact visit_pos (by omega)
    rw [hlast, Option.map_some]
    congr 1
    rw [← hseg, ← s4, ← List.map_append, ← List.map_append]
    congr 1
    have hb1 : before lower n (ci + 1) = b + (hi lower n ci - ri) := by
      rw [hss]
      have : lo lower ci ≤ ri := s2
      omega
    have hb2 : before lower n (ci + 1) ≤ before lower n ec := before_mono lower n hlt
    rw [hb1, List.range'_append_1]
    have hb3 : before lower n ec = b + (hi lower n ci - ri + (before lower n ec - (b + (hi lower n ci - ri)))) := by omega
    rw [show List.range' (before lower n ec) (er - lo lower ec) = List.range' (b + (hi lower n ci - ri + (before lower n ec - (b + (hi lower n ci - ri))))) (er - lo lower ec) by rw [← hb3],
      List.range'_append_1]
    congr 1
    omega

end Nntl.Cols
