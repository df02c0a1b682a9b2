import Verif.Cols.Lemmas
import Mathlib.Algebra.BigOperators.Field

/-!
**C83**: operations on columns and sums over a triangle give the same result however the work is shared out.
-/
namespace Nntl.Cols

open Nntl.Matrix
open Nntl.Kernel
open Nntl.Act (sum_list)
open Finset

/-- **C83**: the mean of every column. -/
theorem mean_result (ex : Exec) (hex : ex.Ok) (ns : Bool) (A : Mtx ℝ) (hc : 0 < A.cols) (m m' : ℕ → ℝ) (h : mcwMean ex ns A m m') (c : ℕ) :
    m' c = if c < A.cols then mean A c else m c := by
  rw [each_result ex hex A.cols hc _ h c]
  simp only [colSum, cell_eq, mean]

/-- **C83**: subtracting the means. -/
theorem deMean_result (ex : Exec) (hex : ex.Ok) (ns : Bool) (A A' : Mtx ℝ) (hc : 0 < A.cols) (h : mcwDeMean ex ns A A') :
    Becomes A A' (fun r c => el A r c - mean A c) := by
  obtain ⟨cs, h1, rfl⟩ := h
  refine withColumns_becomes A cs _ fun r c hr hcc => ?_
  rw [each_result ex hex A.cols hc _ h1 c, if_pos hcc]
  show (if r < A.rows then _ else _) = _
  rw [if_pos hr, colSum]
  simp only [cell_eq, mean]

/-- **C83**: afterwards every column adds up to zero. -/
theorem deMean_centred (ex : Exec) (hex : ex.Ok) (ns : Bool) (A A' : Mtx ℝ) (hr : 0 < A.rows) (hc : 0 < A.cols) (h : mcwDeMean ex ns A A')
    (c : ℕ) (hcc : c < A.cols) : ∑ r ∈ range A.rows, el A' r c = 0 := by
  rw [sum_congr rfl fun r hr => (deMean_result ex hex ns A A' hc h).2.2 r c (mem_range.1 hr) hcc, sum_sub_distrib, sum_const, card_range,
    nsmul_eq_mul, mean, mul_div_cancel₀ _ (by positivity), sub_self]

/-- The functor that leaves out the central value counts and adds the others. -/
theorem sumNz_fold (ns : Bool) (cp : ℝ) (col : ℕ → ℝ) (n : ℕ) : (colList n col).foldl (SumNz.op ns cp) ⟨0, 0, 0⟩ =
    ⟨∑ r ∈ (range n).filter (fun r => col r ≠ cp), col r, 0, ((range n).filter (fun r => col r ≠ cp)).card⟩ := by
  classical
  induction n with
  | zero => simp [colList]
  | succ n ih =>
    have hl : colList (n + 1) col = colList n col ++ [col n] := by simp [colList, List.range_succ]
    rw [hl, List.foldl_append, ih, range_add_one, filter_insert]
    simp only [List.foldl_cons, List.foldl_nil]
    by_cases hv : col n = cp
    · rw [if_neg (by simpa using hv)]
      cases ns <;> simp [SumNz.op, hv]
    · have hn : n ∉ (range n).filter (fun r => col r ≠ cp) := by simp
      rw [if_pos hv, sum_insert hn, card_insert_of_notMem hn]
      cases ns <;> simp [SumNz.op, hv, add_comm]

/-- **C83**: centring only the elements that differ from a central value: these are left alone, the others are shifted so that their mean
becomes the central value. -/
theorem deMeanNZ_result (ex : Exec) (hex : ex.Ok) (ns : Bool) (cp : ℝ) (A A' : Mtx ℝ) (hc : 0 < A.cols) (h : mcwDeMeanNZ ex ns cp A A') :
    Becomes A A' (fun r c => if el A r c = cp then cp else el A r c - (∑ q ∈ others A cp c, el A q c) / (others A cp c).card + cp) := by
  classical
  obtain ⟨cs, h1, rfl⟩ := h
  refine withColumns_becomes A cs _ fun r c hr hcc => ?_
  rw [each_result ex hex A.cols hc _ h1 c, if_pos hcc]
  unfold deMeanNzCol
  simp only [sumNz_fold, if_pos hr, cell_eq]
  split
  · rfl
  · unfold others
    ring_nf

/-- **C83**: the mean of the shifted elements is the central value. -/
theorem deMeanNZ_centred (ex : Exec) (hex : ex.Ok) (ns : Bool) (cp : ℝ) (A A' : Mtx ℝ) (hc : 0 < A.cols) (h : mcwDeMeanNZ ex ns cp A A')
    (c : ℕ) (hcc : c < A.cols) (hne : (others A cp c).Nonempty) :
    (∑ r ∈ others A cp c, el A' r c) / (others A cp c).card = cp := by
  have hcard : ((others A cp c).card : ℝ) ≠ 0 := by exact_mod_cast hne.card_pos.ne'
  have : ∀ r ∈ others A cp c, el A' r c = el A r c - (∑ q ∈ others A cp c, el A q c) / (others A cp c).card + cp := by
    intro r hr
    unfold others at hr
    rw [mem_filter, mem_range] at hr
    rw [(deMeanNZ_result ex hex ns cp A A' hc h).2.2 r c hr.1 hcc]
    exact if_neg hr.2
  rw [sum_congr rfl this, sum_add_distrib, sum_sub_distrib, sum_const, sum_const, nsmul_eq_mul, nsmul_eq_mul, mul_div_cancel₀ _ hcard,
    sub_self, zero_add, mul_div_cancel_left₀ _ hcard]

/-- **C83**: subtracting element `c` of a vector from column `c`. -/
theorem sub_result (ex : Exec) (hex : ex.Ok) (A A' : Mtx ℝ) (v : ℕ → ℝ) (hc : 0 < A.cols) (h : mcwSubIp ex A v A') :
    Becomes A A' (fun r c => el A r c - v c) := by
  obtain ⟨cs, h1, rfl⟩ := h
  have hs : subSteps A.rows v = eachSteps fun c col i => if i < A.rows then col i - v c else col i := by
    funext b e; exact offsets (fun c (col : ℕ → ℝ) i => if i < A.rows then col i - v c else col i) b e
  rw [hs] at h1
  refine withColumns_becomes A cs _ fun r c hr hcc => ?_
  rw [each_result ex hex A.cols hc _ h1 c, if_pos hcc]
  show (if r < A.rows then _ else _) = _
  rw [if_pos hr, cell_eq]

/-- **C83**: multiplying column `c` by the diagonal element `c` of another matrix. -/
theorem mulDiag_result (ex : Exec) (hex : ex.Ok) (A B A' : Mtx ℝ) (hc : 0 < A.cols) (h : mcwMulDiagIp ex A B A') :
    Becomes A A' (fun r c => el A r c * el B c c) := by
  obtain ⟨-, -, cs, h1, rfl⟩ := h
  have hs : mulDiagSteps A.rows B = eachSteps fun c col i => if i < A.rows then col i * el B c c else col i := by
    funext b e
    rw [← offsets (fun c (col : ℕ → ℝ) i => if i < A.rows then col i * el B c c else col i) b e]
    unfold mulDiagSteps
    refine List.map_congr_left fun j _ => ?_
    have : B.rows * b + b + j * (B.rows + 1) = b + j + B.rows * (b + j) := by ring
    rw [this]
    rfl
  rw [hs] at h1
  refine withColumns_becomes A cs _ fun r c hr hcc => ?_
  rw [each_result ex hex A.cols hc _ h1 c, if_pos hcc]
  show (if r < A.rows then _ else _) = _
  rw [if_pos hr, cell_eq]

/-- These operations can be carried out. -/
theorem deMean_runs (ex : Exec) (ns : Bool) (A : Mtx ℝ) : ∃ A', mcwDeMean ex ns A A' := by
  obtain ⟨cs, h⟩ := runs_exists ex A.cols (eachSteps (deMeanCol ns A.rows)) (column A)
  exact ⟨_, cs, h, rfl⟩

theorem deMeanNZ_runs (ex : Exec) (ns : Bool) (cp : ℝ) (A : Mtx ℝ) : ∃ A', mcwDeMeanNZ ex ns cp A A' := by
  obtain ⟨cs, h⟩ := runs_exists ex A.cols (eachSteps (deMeanNzCol ns cp A.rows)) (column A)
  exact ⟨_, cs, h, rfl⟩

theorem mulDiag_runs (ex : Exec) (A B : Mtx ℝ) (h1 : B.rows = B.cols) (h2 : A.cols = B.cols) : ∃ A', mcwMulDiagIp ex A B A' := by
  obtain ⟨cs, h⟩ := runs_exists ex A.cols (mulDiagSteps A.rows B) (column A)
  exact ⟨_, h1, h2, cs, h, rfl⟩

/-! ### The triangle -/

/-- **C83**: a call for a range of the triangle looks at exactly the cells with these indices, in this order, and no assertion fails. -/
theorem triangle_call (lower : Bool) (n b e : ℕ) (hn : 1 < n) (hbe : b < e) (he : e ≤ n * (n - 1) / 2) :
    triangVisit lower n b e =
      some ((List.range' b (e - b)).map fun k => n * (coords lower n k).2 + (coords lower n k).1) :=
  triangVisit_eq lower n b e hn hbe he

/-- Sum over the columns that come before `c`. -/
theorem sum_before (lower : Bool) (n : ℕ) (f : ℕ → ℝ) (c : ℕ) (hc : c ≤ n) :
    ∑ k ∈ range (before lower n c), f (addr lower n k) = ∑ j ∈ range c, ∑ r ∈ Ico (lo lower j) (hi lower n j), f (n * j + r) := by
  induction c with
  | zero =>
    have : before lower n 0 = 0 := by unfold before; cases lower <;> simp [T]
    rw [this]; simp
  | succ c ih =>
    rw [before_succ lower n c (by omega), sum_range_add, ih (by omega), sum_range_succ]
    congr 1
    rw [sum_Ico_eq_sum_range]
    refine sum_congr rfl fun j hj => ?_
    rw [mem_range] at hj
    have := coords_of lower n (lo lower c + j) c (by omega) (by omega) (by omega)
    rw [Nat.add_sub_cancel_left] at this
    rw [addr, this]

theorem sum_triangle (lower : Bool) (n : ℕ) (f : ℕ → ℝ) :
    ∑ k ∈ range (numelTriangl n), f (addr lower n k) = ∑ p ∈ triangle lower n, f (p.1 + n * p.2) := by
  rw [← before_n lower n, sum_before lower n f n (Nat.le_refl _), triangle, sum_filter, sum_product_right]
  refine sum_congr rfl fun j hj => ?_
  rw [mem_range] at hj
  rw [← sum_filter]
  refine sum_congr ?_ fun r _ => by rw [Nat.add_comm]
  ext r
  simp only [mem_Ico, mem_filter, mem_range, lo, hi]
  cases lower <;> simp <;> omega

theorem mapM_some {β γ : Type} (l : List β) (f : β → Option γ) (g : β → γ) (h : ∀ x ∈ l, f x = some (g x)) : l.mapM f = some (l.map g) := by
  induction l with
  | nil => rfl
  | cons x l ih =>
    rw [List.mapM_cons, h x (by simp), ih fun y hy => h y (by simp [hy])]
    rfl

/-- **C83**: the sum of the squares over one triangle. -/
theorem triangle_sum (ex : Exec) (hex : ex.Ok) (lower ns : Bool) (A : Mtx ℝ) (h1 : A.rows = A.cols) (h2 : 1 < A.rows) :
    sumSquaresTriang ex lower ns A = some (∑ p ∈ triangle lower A.rows, el A p.1 p.2 ^ 2) := by
  have hpos : 0 < numelTriangl A.rows := by
    unfold numelTriangl
    rw [tri_eq, T_succ_pred (by omega)]
    omega
  have hp : ∀ r ∈ ex.calls (numelTriangl A.rows), triangPart lower ns A r.1 r.2 =
      some (sumLoop (fun k => A.data (addr lower A.rows k) ^ 2) r.1 r.2) := by
    intro r hr
    obtain ⟨q1, q2⟩ := calls_bounds ex hex _ hpos r hr
    unfold triangPart
    rw [triangVisit_eq lower A.rows r.1 r.2 h2 q1 q2, Option.map_some, applySum_eq, sumLoop_eq, List.map_map]
    simp only [Function.comp_def, sq]
  have hsum : reduceSum ex (numelTriangl A.rows) (sumLoop fun k => A.data (addr lower A.rows k) ^ 2) =
      ∑ p ∈ triangle lower A.rows, el A p.1 p.2 ^ 2 := by
    rw [reduceSum_eq ex hex, sum_list, sum_triangle lower A.rows fun k => A.data k ^ 2]
    rfl
  unfold sumSquaresTriang
  rw [if_pos ⟨h1, h2⟩, mapM_some _ _ _ hp, Option.map_some, ← hsum]
  congr 1
  cases ex with
  | st => rfl
  | mt rs =>
    show applySum ns _ = ((Exec.mt rs).calls _).foldl _ 0
    rw [applySum_eq, foldl_add, zero_add]

/-! ### Cases that meet the hypotheses -/

/-- `3 × 3`. -/
def exA : Mtx ℝ := { data := fun k => (k : ℝ), cap := 9, rows := 3, cols := 3, emul := false, ext := false, holey := false, bir := false, maxSize := 9 }

/-- The squares of the elements `(0,1)`, `(0,2)`, `(1,2)`, computed by two threads. -/
example : sumSquaresTriang (.mt (Threads.initRanges 1)) false true exA = some (3 ^ 2 + (6 ^ 2 + 7 ^ 2)) := by
  rw [triangle_sum (.mt _) (Threads.initRanges_ok 1) _ _ _ rfl (by decide)]
  have : triangle false exA.rows = {(0, 1), (0, 2), (1, 2)} := by decide
  rw [this]
  rw [sum_insert (by decide), sum_insert (by decide), sum_singleton]
  simp [el, Mtx.cell, exA]

example : triangVisit true 4 1 6 = some [2, 3, 6, 7, 11] := by decide

example : ∃ A', mcwDeMean (.mt (Threads.initRanges 2)) false exA A' ∧ el A' 2 1 = 1 := by
  obtain ⟨A', h⟩ := deMean_runs (.mt (Threads.initRanges 2)) false exA
  refine ⟨A', h, ?_⟩
  rw [(deMean_result (.mt _) (Threads.initRanges_ok 2) _ _ _ (by decide) h).2.2 2 1 (by decide) (by decide)]
  simp [el, mean, Mtx.cell, exA, sum_range_succ]
  norm_num

end Nntl.Cols
