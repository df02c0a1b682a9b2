import Verif.MtxTest.View
/-! Where C160–C163 fail, and cases that meet the hypotheses of the theorems. -/
namespace Nntl.MtxTest.Wit
open Nntl.Matrix Nntl.MtxTest

/-- Elements of `float`, given by their bits. -/
def f (v : Nat) : Bits .f32 := if h : v < 2 ^ 32 then ⟨v, h⟩ else ⟨0, by decide⟩

def two : Bits .f32 := f 0x40000000
def qnan : Bits .f32 := f 0x7fc00000
def half : Bits .f32 := f 0x3f000000
def one : Bits .f32 := 1

/-- The matrix with these columns, one after the other. -/
def mtx (rows cols : Nat) (emul holey bir : Bool) (l : List (Bits .f32)) : Mtx (Bits .f32) :=
  { data := fun k => l.getD k 0, cap := rows * cols, rows := rows, cols := cols, emul := emul, ext := true, holey := holey, bir := bir, maxSize := 0 }

theorem two_num : two.num ≠ some 0 ∧ two.num ≠ some 1 := by
  constructor
  · intro h; have := (num_zero_iff two).1 h; revert this; decide
  · intro h; have := (num_one_iff two).1 h; revert this; decide

/-! ### Failures -/

/-- Compiled without assertions, `_isBinaryStrictNoBias` of a matrix with samples in columns and biases looks at a bias and skips an element: here the
data is binary and the answer is no, there it is the other way round. -/
def colsA : Mtx (Bits .f32) := mtx 2 2 true true true [0, two, one, one]
def colsB : Mtx (Bits .f32) := mtx 2 2 true true true [0, one, two, one]

theorem strict_no_bias_wrong :
    isBinaryStrictNoBias false true colsA = .ret false ∧ AllData colsA ZeroOneStrict ∧
    isBinaryStrictNoBias false true colsB = .ret true ∧ ¬ AllData colsB ZeroOneStrict := by
  refine ⟨by decide +kernel, ?_, by decide +kernel, ?_⟩
  · intro r c hr hc hb
    have hr' : r < 2 := hr
    have hc' : c < 2 := hc
    have hr0 : r = 0 := by
      apply Classical.byContradiction
      intro h
      exact hb ⟨rfl, show r + 1 = 2 by omega⟩
    subst hr0
    obtain rfl | rfl : c = 0 ∨ c = 1 := by omega
    · exact ⟨0, rfl, Or.inl ⟨(num_zero_iff _).2 (by decide), by decide⟩⟩
    · exact ⟨1, rfl, Or.inr ((num_one_iff _).2 (by decide))⟩
  · intro h
    have hx : (0 : Nat) < 2 := by decide
    have hy : (1 : Nat) < 2 := by decide
    obtain ⟨b, h1, h2⟩ := h 0 1 hx hy (by rintro ⟨-, hh⟩; exact absurd (show (0 : Nat) + 1 = 2 from hh) (by decide))
    have : b = two := (Option.some.inj h1).symm
    subst this
    rcases h2 with h2 | h2
    · exact two_num.1 h2.1
    · exact two_num.2 h2

/-- The check of biases, the flag set and samples in columns: of two columns and two rows only the first bias is looked at; of two rows and three
columns the loop never meets its end. -/
theorem holey_columns_wrong :
    testBiasesOk true (mtx 2 2 true true true [0, one, 0, two]) = .ret true ∧
    testBiasesOk false (mtx 2 3 true true true [0, one, 0, one, 0, one]) = .ub := by
  constructor <;> decide +kernel

/-- `nans_no_bias` of a matrix with the flag leaves the zeros among the biases and clears the flag: the check of biases then ends the program. -/
theorem nans_no_bias_loses_flag :
    testBiasesOk true (mtx 2 2 true true false [0, 0, one, 0]) = .ret true ∧
    (nansNoBias qnan (mtx 2 2 true true false [0, 0, one, 0])).map (testBiasesOk true) = some .abort := by
  constructor <;> decide +kernel

/-- `nans` overwrites the biases. -/
theorem nans_overwrites_biases :
    testBiasesOk true (mtx 2 2 true false false [0, 0, one, one]) = .ret true ∧
    testBiasesOk true (nans qnan (mtx 2 2 true false false [0, 0, one, one])) = .abort := by
  constructor <;> decide +kernel

/-- `nans` of any matrix: every element, also of the biases, is the quiet NaN, the flag is cleared, the sizes stay. -/
theorem nans_fills {t : VT} (q : Bits t) (m : Mtx (Bits t)) : (∀ k < m.numel, (nans q m).data k = q) ∧ (nans q m).holey = false ∧ (nans q m).rows = m.rows ∧
    (nans q m).cols = m.cols ∧ (nans q m).emul = m.emul ∧ (nans q m).bir = m.bir :=
  ⟨fun k hk => by
    show fillSeq m.data 0 q m.numel k = q
    rw [fillSeq_apply]
    simp [hk], rfl, rfl, rfl, rfl, rfl⟩

/-- `copy_biases_from(ptr, n)` does not count: told that all of the biases are ones it clears the flag, whatever they are; and called without the
count (its default is zero) it sets the flag though all of them are ones. -/
theorem count_is_believed :
    (copyBiasesPtr (mtx 2 2 true false false [0, 0, one, one]) (fun _ => 0) 2).map (testBiasesOk true) = some .abort ∧
    (copyBiasesPtr (mtx 2 2 true false false [0, 0, one, one]) (fun _ => 1) 0).map Mtx.holey = some true := by
  constructor <;> decide +kernel

/-- `submatrix_cols_no_bias` of a matrix with samples in columns hands out the biases too: a write to the new matrix changes one. -/
theorem submatrix_shows_biases :
    ∃ w m', submatrixCols (mtx 2 2 true false true [0, one, 0, one]) 0 2 = some w ∧ w.emul = false ∧ w.rows = 2 ∧
      w.set (mtx 2 2 true false true [0, one, 0, one]) 1 0 two = some m' ∧ testBiasesOk true m' = .abort := by
  refine ⟨⟨0, 2, 2, false, false, true⟩, { mtx 2 2 true false true [0, one, 0, one] with data := upd (mtx 2 2 true false true [0, one, 0, one]).data 1 two },
    by decide +kernel, rfl, rfl, rfl, by decide +kernel⟩

/-- The variant of matrices that can be deformed forgets that samples are in columns. -/
theorem submatrix_forgets_layout :
    (submatrixColsDef (mtx 2 2 false false true [0, one, 0, one]) 0 1).map View.bir = some false ∧
    (submatrixCols (mtx 2 2 false false true [0, one, 0, one]) 0 1).map View.bir = some true := by
  constructor <;> decide +kernel

/-- `_isAlmostBinary` for a larger `eps` depends on rounding; its own constants (`1e-8`, `1e-16`) are below the distance of one to its neighbours, so
that with them only one itself is near one: the next smaller `float` is refused. -/
theorem almost_refuses_neighbour (rnd : ℚ → ℚ) (hr : Rounding rnd) :
    isAlmostBinary rnd false (1 / 100000000) (mtx 1 1 false false false [f 0x3f7fffff]) = .ret false := by
  have hn : (f 0x3f7fffff).num = some (16777215 / 16777216) := by
    unfold Bits.num
    simp only
    rw [show (f 0x3f7fffff).e = 126 by decide +kernel, show (f 0x3f7fffff).neg = false by decide +kernel]
    unfold Bits.mag
    rw [show (f 0x3f7fffff).e = 126 by decide +kernel, show (f 0x3f7fffff).m = 8388607 by decide +kernel]
    rw [if_neg (by decide), if_neg (by decide), if_neg (by decide)]
    simp only [VT.exp, VT.man]
    norm_num
  have hc : ¬ AllElements (mtx 1 1 false false false [f 0x3f7fffff]) (AlmostZeroOne (1 / 100000000)) := by
    intro h
    obtain ⟨b, h1, x, h2, h3⟩ := h 0 0 (show (0 : Nat) < 1 by decide) (show (0 : Nat) < 1 by decide)
    have : b = f 0x3f7fffff := (Option.some.inj h1).symm
    subst this
    rw [hn] at h2
    cases h2
    norm_num [abs_of_neg, abs_of_pos] at h3
  rcases almost_binary_tells rnd hr false (1 / 100000000) (by norm_num) (mtx 1 1 false false false [f 0x3f7fffff]) (Nat.le_refl _) with h | h
  · exact absurd h.1 hc
  · exact h.2

/-! ### Cases -/

def ok22 : Mtx (Bits .f32) := mtx 2 2 true false false [0, f 0x80000000, one, one]
def holey22 : Mtx (Bits .f32) := mtx 2 2 true true false [half, 0, one, 0]

example : isBinary true false ok22 = .ret true := by decide +kernel
example : isBinary false true holey22 = .ret false := by decide +kernel
example : isBinary true false holey22 = .abort := by decide +kernel
example : isBinaryStrict false true ok22 = .ret false := by decide +kernel
example : testNoNaNs false ok22 = .ret true := by decide +kernel
example : testNoNaNs false (mtx 1 2 false false false [f 0x7f800000, f 0xff800001]) = .ret false := by decide +kernel
example : testBiasesOk true holey22 = .ret true := by decide +kernel
example : testBiasesOk true (mtx 2 3 true false true [0, one, 0, one, 0, one]) = .ret true := by decide +kernel
example : Solid ok22 ∧ Solid holey22 := ⟨⟨by decide, by decide, Nat.le_refl _⟩, ⟨by decide, by decide, Nat.le_refl _⟩⟩

/-- Without rounding `Rounding` holds. -/
example : Rounding id := ⟨fun _ _ h => h, rfl, rfl, fun _ _ _ _ _ => rfl⟩

theorem ok22_flag : FlagIsTrue ok22 := by
  have h : Tells true (FlagIsTrue ok22) (testBiasesOk true ok22) :=
    biases_ok_tells_partial true ok22 ⟨by decide, by decide, Nat.le_refl _⟩ rfl fun h => by cases h
  rcases h with h | h
  · exact h.1
  · exact absurd h.2 (by decide +kernel)

/-- A run: NaNs into the data, a vector of biases with a zero, an element, biases of another matrix. -/
def run : List (HOp .f32) := [.nansNoBias qnan, .copyBiases (fun k => if k = 0 then 0 else 1) 1, .write 0 0 half, .biasesOf ok22]

def state (m : Mtx (Bits .f32)) : Option (Mtx (Bits .f32)) := run.foldlM (fun m o => o.step m) m

theorem run_fair : ∃ m', Fair run ok22 m' :=
  ⟨_, .cons rfl rfl (.cons (fun h => absurd (show (1 : Nat) = 2 from h) (by decide)) rfl
    (.cons trivial rfl (.cons ⟨⟨by decide, by decide, Nat.le_refl _⟩, ok22_flag⟩ rfl (.nil _))))⟩

example : (state ok22).map (fun m => (m.data 0, m.data 1, m.data 2, m.data 3, m.holey)) = some (half, qnan, 1, 1, false) := by decide +kernel

example : ∃ w, submatrixColsDef ok22 0 1 = some w := ⟨_, rfl⟩
example : ([(0, 0, two), (1, 0, half)].foldlM (fun m x => (⟨0, 2, 1, false, false, false⟩ : View).set m x.1 x.2.1 x.2.2) ok22).map
    (fun m => (m.data 0, m.data 1, m.data 2, m.data 3)) = some (two, half, one, one) := by decide +kernel

/-- A matrix of two orthonormal columns of length two, and one with a column of length two. -/
def rot : Mtx ℚ :=
  { data := fun k => ([3 / 5, 4 / 5, -4 / 5, 3 / 5] : List ℚ).getD k 0, cap := 4, rows := 2, cols := 2, emul := false, ext := false, holey := false, bir := false, maxSize := 0 }

example : isOrthogonal rot true (1 / 10000) (fun _ => 7) = some true := by
  obtain ⟨b, h1, h2⟩ := orthogonal_tells rot true (1 / 10000) (fun _ => 7) (by decide) (by decide) (Nat.le_refl _)
  rw [h1, h2.2]
  intro i j hi hj
  have hi' : i < 2 := hi
  have hj' : j < 2 := hj
  obtain rfl | rfl : i = 0 ∨ i = 1 := by omega
  · obtain rfl | rfl : j = 0 ∨ j = 1 := by omega
    · norm_num [products, rot, Mtx.cell, Finset.sum_range_succ]
    · norm_num [products, rot, Mtx.cell, Finset.sum_range_succ]
  · obtain rfl | rfl : j = 0 ∨ j = 1 := by omega
    · norm_num [products, rot, Mtx.cell, Finset.sum_range_succ]
    · norm_num [products, rot, Mtx.cell, Finset.sum_range_succ]

example : isOrthogonal { rot with rows := 1 } true (1 / 10000) (fun _ => 7) = some false := by
  obtain ⟨b, h1, h2⟩ := orthogonal_tells { rot with rows := 1 } true (1 / 10000) (fun _ => 7) (by decide) (by decide) (by decide)
  rw [h1]
  cases b
  · rfl
  · have := h2.1 rfl 0 0 (by decide) (by decide)
    norm_num [products, rot, Mtx.cell, Finset.sum_range_succ] at this

end Nntl.MtxTest.Wit
