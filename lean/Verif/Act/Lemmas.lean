import Verif.Act.Spec
import Mathlib.Analysis.SpecialFunctions.Log.Deriv
import Mathlib.Analysis.SpecialFunctions.ExpDeriv
import Mathlib.Analysis.Calculus.Deriv.Inv
import Mathlib.Analysis.Calculus.Deriv.Abs
import Mathlib.Tactic.FieldSimp
import Mathlib.Tactic.Linarith
import Mathlib.Tactic.Positivity
set_option linter.dupNamespace false
namespace Nntl.Act
open Filter Topology

/-- Values calculated by the kernels. -/
theorem base_pos {b : ℕ} (h : 1000 < b) : 1 < base b := by
  unfold base; split
  · exact Real.one_lt_exp_iff.mpr one_pos
  · have : (1000 : ℝ) < b := by exact_mod_cast h
    linarith

theorem milli_base {b : ℕ} (h : b ≠ 2718) : milli b = base b := by unfold milli base; rw [if_neg h]

theorem log_base_e : Real.log (base 2718) = 1 := by unfold base; rw [if_pos rfl, Real.log_exp]

theorem milli_unit : milli 1000 = 1 := by unfold milli; norm_num

theorem kElu_ua : kEluUa = kElu 1 := by funext v; simp [kEluUa, kElu]
theorem kDElu_ua : kDEluUa = kDElu 1 := rfl

theorem elogu_cases (a b : ℕ) : (Act.elogu a b).f = kElogu (milli a) (base b) := by
  simp only [Act.f]
  by_cases ha : a = 1000
  · subst ha; rw [if_pos rfl, milli_unit]
    by_cases hb : b = 2718
    · subst hb; rw [if_pos rfl]; funext v; simp [kEloguUaNb, kElogu, log_base_e]
    · rw [if_neg hb, milli_base hb]; funext v; simp [kEloguUa, kElogu]
  · rw [if_neg ha]
    by_cases hb : b = 2718
    · subst hb; rw [if_pos rfl]; funext v; simp [kEloguNb, kElogu, log_base_e]
    · rw [if_neg hb, milli_base hb]

theorem delogu_cases (a b : ℕ) : (Act.elogu a b).df = kDElogu (milli a) (base b) := by
  simp only [Act.df]
  by_cases ha : a = 1000
  · subst ha; rw [if_pos rfl, milli_unit]
    by_cases hb : b = 2718
    · subst hb; rw [if_pos rfl]; funext v; simp [kDEloguUaNb, kDElogu, log_base_e]
    · rw [if_neg hb, milli_base hb]; rfl
  · rw [if_neg ha]
    by_cases hb : b = 2718
    · subst hb; rw [if_pos rfl]; funext v; simp [kDEloguNb, kDElogu, log_base_e]
    · rw [if_neg hb, milli_base hb]

theorem kLoglogu_eq (n p v : ℝ) : kLoglogu n p v = if v < 0 then -1 / Real.log n * log1p (-v) else 1 / Real.log p * log1p v := by
  unfold kLoglogu
  by_cases h : v < 0
  · rw [if_pos h, if_pos h, abs_of_neg h]
  · rw [if_neg h, if_neg h, abs_of_nonneg (not_lt.mp h)]

theorem loglogu_cases (n p : ℕ) : (Act.loglogu n p).f = kLoglogu (base n) (base p) := by
  simp only [Act.f]
  funext v
  rw [kLoglogu_eq]
  by_cases hn : n = 2718
  · subst hn; rw [if_pos rfl, log_base_e]
    by_cases hp : p = 2718
    · subst hp; rw [if_pos rfl, log_base_e]; simp [kLogloguNbnNbp]
    · rw [if_neg hp, milli_base hp]; simp [kLogloguNbn]
  · rw [if_neg hn]
    by_cases hp : p = 2718
    · subst hp; rw [if_pos rfl, log_base_e, milli_base hn]; simp [kLogloguNbp]
    · rw [if_neg hp, milli_base hp, milli_base hn, kLoglogu_eq]

theorem dloglogu_cases (n p : ℕ) : (Act.loglogu n p).df = kDLoglogu (base n) (base p) := by
  simp only [Act.df]
  funext v
  by_cases hn : n = 2718
  · subst hn; rw [if_pos rfl]
    by_cases hp : p = 2718
    · subst hp; rw [if_pos rfl]; simp [kDLogloguNbnNbp, kDLoglogu, log_base_e]
    · rw [if_neg hp, milli_base hp]; simp [kDLogloguNbn, kDLoglogu, log_base_e]
  · rw [if_neg hn]
    by_cases hp : p = 2718
    · subst hp; rw [if_pos rfl, milli_base hn]; simp [kDLogloguNbp, kDLoglogu, log_base_e]
    · rw [if_neg hp, milli_base hp, milli_base hn]

theorem logu_cases (b : ℕ) : (Act.logu b).f = kLogu (base b) := by
  simp only [Act.f]
  by_cases hb : b = 2718
  · subst hb; rw [if_pos rfl]; funext v; simp [kLoguNb, kLogu, log_base_e]
  · rw [if_neg hb, milli_base hb]

theorem dlogu_cases (b : ℕ) : (Act.logu b).df = kDLogu (base b) := by
  simp only [Act.df]
  by_cases hb : b = 2718
  · subst hb; rw [if_pos rfl]; funext v; simp [kDLoguNb, kDLogu, log_base_e]
  · rw [if_neg hb, milli_base hb]

theorem scaleOfSoftsign_eq (c : ℕ) : scaleOfSoftsign c = softsignC c := rfl
theorem alphaOfSelu_eq (a : ℤ) : alphaOfSelu a = seluAlpha a := rfl
theorem lambdaOfSelu_eq (l : ℤ) : lambdaOfSelu l = seluLambda l := rfl

theorem softsignC_pos (c : ℕ) : 0 < softsignC c := by
  unfold softsignC; split
  · norm_num
  · have : (0 : ℝ) < c := by exact_mod_cast Nat.pos_of_ne_zero (by assumption)
    positivity

theorem softsign_cases (a c : ℕ) : (Act.softsign a c).f = kSoftsign (a / 10 ^ 6) (softsignC c) := by
  simp only [Act.f]
  by_cases hc : c = 1000000
  · subst hc; rw [if_pos rfl]; funext v
    have : softsignC 1000000 = 1 := by unfold softsignC; norm_num
    rw [this]; simp [kSoftsignUc, kSoftsign]
  · rw [if_neg hc]

theorem dsoftsign_cases (a c : ℕ) : (Act.softsign a c).df = kDSoftsign (a / 10 ^ 6) (softsignC c) := by
  simp only [Act.df]
  by_cases hc : a = 1000000 ∧ c = 1000000
  · obtain ⟨rfl, rfl⟩ := hc
    rw [if_pos ⟨rfl, rfl⟩]; funext v
    have : softsignC 1000000 = 1 := by unfold softsignC; norm_num
    rw [this]; unfold kDSoftsignUaUc kDSoftsign; norm_num
  · rw [if_neg hc]

theorem seluAlpha_pos {a : ℤ} (h : 0 ≤ a) : 0 < seluAlpha a := by
  unfold seluAlpha; split
  · have : (0 : ℝ) < a := by exact_mod_cast lt_of_le_of_ne h (Ne.symm (by assumption))
    positivity
  · norm_num

theorem seluLambda_pos {a : ℤ} (h : 0 ≤ a) : 0 < seluLambda a := by
  unfold seluLambda; split
  · have : (0 : ℝ) < a := by exact_mod_cast lt_of_le_of_ne h (Ne.symm (by assumption))
    positivity
  · norm_num

theorem elu_cases (a : ℕ) : (Act.elu a).f = kElu (milli a) := by
  simp only [Act.f]; by_cases h : a = 1000
  · subst h; rw [if_pos rfl, milli_unit, kElu_ua]
  · rw [if_neg h]

theorem delu_cases (a : ℕ) : (Act.elu a).df = kDElu (milli a) := by
  simp only [Act.df]; by_cases h : a = 1000
  · subst h; rw [if_pos rfl, milli_unit, kDElu_ua]
  · rw [if_neg h]

/-- The kernels calculate the functions that are meant. -/
theorem f_eq (act : Act) (z : ℝ) : act.f z = act.fn z := by
  cases act with
  | sigm => rfl
  | relu =>
    simp only [Act.f, Act.fn, kRelu]
    by_cases h : z ≤ 0
    · rw [if_pos h, max_eq_left h]
    · rw [if_neg h, max_eq_right (by linarith)]
  | leakyRelu k =>
    simp only [Act.f, Act.fn, kLeaky]
    split
    · rw [div_div_eq_mul_div, mul_div_assoc]
    · rfl
  | elu a =>
    rw [elu_cases]; simp only [Act.fn, kElu, milli, expm1]
    split
    · ring
    · rfl
  | elogu a b =>
    rw [elogu_cases]; simp only [Act.fn, kElogu, milli, expm1, log1p, Real.logb]
    split <;> ring
  | loglogu n p =>
    rw [loglogu_cases, kLoglogu_eq]; simp only [Act.fn, log1p, Real.logb]
    split
    · rw [← sub_eq_add_neg]; ring
    · ring
  | logu b =>
    rw [logu_cases]; simp only [Act.fn, kLogu, log1p, Real.logb]
    rcases lt_trichotomy z 0 with h | h | h
    · rw [if_pos h.le, if_pos h]
    · subst h; simp
    · rw [if_neg (by linarith), if_neg (by linarith)]; ring
  | softsign a c => rw [softsign_cases]; rfl
  | softsigm a =>
    simp only [Act.f, Act.fn, kSoftsigm, milli]; ring
  | selu a l =>
    simp only [Act.f, Act.fn, alphaOfSelu_eq, lambdaOfSelu_eq, kSelu, expm1]
    split <;> ring
  | step => rfl
  | identity => rfl

/-! ### Derivatives -/

/-- Two pieces; if there is a derivative at all, it is that of the right piece, the border belonging to it. -/
theorem pw_deriv {g h : ℝ → ℝ} {g' h' z : ℝ} (hg : z < 0 → HasDerivAt g g' z) (hh : 0 ≤ z → HasDerivAt h h' z)
    (hd : z = 0 → DifferentiableAt ℝ (fun x => if x < 0 then g x else h x) z) :
    HasDerivAt (fun x => if x < 0 then g x else h x) (if z < 0 then g' else h') z := by
  rcases lt_trichotomy z 0 with hz | hz | hz
  · rw [if_pos hz]
    refine (hg hz).congr_of_eventuallyEq ?_
    filter_upwards [gt_mem_nhds hz] with x hx
    rw [if_pos hx]
  · rw [if_neg (by linarith)]
    have h1 := (hd hz).hasDerivAt
    have h2 : HasDerivWithinAt (fun x => if x < 0 then g x else h x) h' (Set.Ici z) z := by
      refine (hh hz.ge).hasDerivWithinAt.congr (fun x hx => ?_) ?_
      · rw [if_neg]; simp only [Set.mem_Ici] at hx; linarith
      · rw [if_neg (by linarith)]
    have := (uniqueDiffOn_Ici z z Set.self_mem_Ici).eq_deriv _ h1.hasDerivWithinAt h2
    rw [← this]; exact h1
  · rw [if_neg (by linarith)]
    refine (hh hz.le).congr_of_eventuallyEq ?_
    filter_upwards [lt_mem_nhds hz] with x hx
    rw [if_neg (by linarith)]

/-- The same with the border in the left piece. -/
theorem pw_deriv_le {g h : ℝ → ℝ} {g' h' z : ℝ} (hg : z ≤ 0 → HasDerivAt g g' z) (hh : 0 < z → HasDerivAt h h' z)
    (hd : z = 0 → DifferentiableAt ℝ (fun x => if x ≤ 0 then g x else h x) z) :
    HasDerivAt (fun x => if x ≤ 0 then g x else h x) (if z ≤ 0 then g' else h') z := by
  rcases lt_trichotomy z 0 with hz | hz | hz
  · rw [if_pos hz.le]
    refine (hg hz.le).congr_of_eventuallyEq ?_
    filter_upwards [gt_mem_nhds hz] with x hx
    rw [if_pos hx.le]
  · rw [if_pos (by linarith)]
    have h1 := (hd hz).hasDerivAt
    have h2 : HasDerivWithinAt (fun x => if x ≤ 0 then g x else h x) g' (Set.Iic z) z := by
      refine (hg hz.le).hasDerivWithinAt.congr (fun x hx => ?_) ?_
      · rw [if_pos]; simp only [Set.mem_Iic] at hx; linarith
      · rw [if_pos (by linarith)]
    have := (uniqueDiffOn_Iic z z Set.self_mem_Iic).eq_deriv _ h1.hasDerivWithinAt h2
    rw [← this]; exact h1
  · rw [if_neg (by linarith)]
    refine (hh hz).congr_of_eventuallyEq ?_
    filter_upwards [lt_mem_nhds hz] with x hx
    rw [if_neg (by linarith)]

theorem deriv_log1p {b z : ℝ} (hz : 0 ≤ z) : HasDerivAt (fun x => Real.logb b (1 + x)) (1 / (1 + z) / Real.log b) z := by
  have := ((hasDerivAt_id z).const_add 1).log (by simp only [id]; linarith)
  simpa [Real.logb] using this.div_const (Real.log b)

theorem exp_logb {b z : ℝ} (hb : 1 < b) (hz : 0 ≤ z) :
    Real.exp (Real.logb b (1 + z) * (-Real.log b) + (-Real.log (Real.log b))) = 1 / (1 + z) / Real.log b := by
  have hl := Real.log_pos hb
  rw [Real.exp_add, Real.exp_neg, Real.exp_log hl, Real.logb, mul_neg, div_mul_cancel₀ _ hl.ne', Real.exp_neg, Real.exp_log (by linarith)]
  field_simp

end Nntl.Act
