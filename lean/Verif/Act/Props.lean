import Verif.Act.DerivLemmas
set_option linter.dupNamespace false
/-! Properties of activation functions: C78 (derivative from the value), C79 (values). -/
namespace Nntl.Act
open Nntl.Kernel Nntl.Threads

/-! ### C78 -/

/-- C78. A forward pass `f` over a matrix (`n` elements before the biases) followed by `df` over the activations: whatever the number of
threads, the thresholds and the interleaving, every element has become the value of the function, and then its derivative at the original
preactivation — wherever the function has a derivative at all; the biases are never touched. -/
theorem activation_derivative (act : Act) (ha : act.Args) (thrF thrD : Nat) (rs : List ParRange) (hrs : RangesOk rs) (n : Nat) (hn : 0 < n)
    (m m1 m2 : Nat → ℝ) (hf : fRun thrF rs act n m m1) (hd : dfRun thrD rs act n m1 m2) :
    (∀ i < n, m1 i = act.fn (m i) ∧ (DifferentiableAt ℝ act.fn (m i) → HasDerivAt act.fn (m2 i) (m i))) ∧
    (∀ i, n ≤ i → m1 i = m i ∧ m2 i = m i) := by
  have ok : ∀ t : Nat, (if n < t then Exec.st else Exec.mt rs).Ok := by intro t; split; exacts [trivial, hrs]
  have h1 := each_result _ (ok thrF) n hn _ hf
  have h2 := each_result _ (ok thrD) n hn _ hd
  refine ⟨fun i hi => ?_, fun i hi => ?_⟩
  · have e1 := h1 i; have e2 := h2 i
    rw [if_pos hi] at e1 e2
    rw [f_eq] at e1
    refine ⟨e1, fun hd => ?_⟩
    rw [e2, e1]; exact df_correct act ha _ fun _ => hd
  · have e1 := h1 i; have e2 := h2 i
    rw [if_neg (by omega)] at e1 e2
    exact ⟨e1, e2.trans e1⟩

/-- C78. There is a derivative everywhere except perhaps at zero. -/
theorem activation_smooth (act : Act) (ha : act.Args) (z : ℝ) (hz : z ≠ 0) : DifferentiableAt ℝ act.fn z :=
  (df_correct act ha z fun h => absurd h hz).differentiableAt

/-- C78. The sigmoid functions, softsign and the identity have one at zero too. -/
theorem activation_smooth_zero (act : Act) (ha : act.Args)
    (h : act = .sigm ∨ act = .identity ∨ (∃ a c, act = .softsign a c) ∨ ∃ a, act = .softsigm a) (z : ℝ) : DifferentiableAt ℝ act.fn z := by
  rcases h with rfl | rfl | ⟨a, c, rfl⟩ | ⟨a, rfl⟩
  · exact (deriv_sigm z).differentiableAt
  · exact (hasDerivAt_id' z).differentiableAt
  · exact (deriv_softsign ha z).differentiableAt
  · exact (deriv_softsigm ha z).differentiableAt

/-- C78. At the kink of `relu` the kernels take the left derivative (zero). -/
theorem relu_kink : ¬ DifferentiableAt ℝ Act.relu.fn 0 ∧ Act.relu.df (Act.relu.f 0) = 0 := by
  constructor
  · intro h
    have h0 : HasDerivAt Act.relu.fn (Act.relu.df (Act.relu.fn 0)) 0 := deriv_relu fun _ => h
    have e : Act.relu.df (Act.relu.fn 0) = 0 := by
      rw [show Act.relu.fn 0 = 0 from max_self 0]; exact if_pos le_rfl
    rw [e] at h0
    have h1 : HasDerivWithinAt Act.relu.fn 1 (Set.Ici 0) 0 :=
      (hasDerivAt_id (0 : ℝ)).hasDerivWithinAt.congr (fun x hx => max_eq_right hx) (max_self 0)
    exact zero_ne_one ((uniqueDiffOn_Ici (0 : ℝ) 0 Set.self_mem_Ici).eq_deriv _ h0.hasDerivWithinAt h1)
  · rw [show Act.relu.f 0 = 0 from if_pos le_rfl]; exact if_pos le_rfl

/-- The passes exist for every pool and matrix (the hypotheses of `activation_derivative` can be met). -/
theorem activation_runs (act : Act) (thrF thrD : Nat) (rs : List ParRange) (n : Nat) (m : Nat → ℝ) :
    ∃ m1 m2, fRun thrF rs act n m m1 ∧ dfRun thrD rs act n m1 m2 := by
  obtain ⟨m1, h1⟩ := runs_exists (if n < thrF then .st else .mt rs) n (eachSteps fun _ v => act.f v) m
  obtain ⟨m2, h2⟩ := runs_exists (if n < thrD then .st else .mt rs) n (eachSteps fun _ v => act.df v) m1
  exact ⟨m1, m2, h1, h2⟩

example : (Act.elogu 1000 2718).Args ∧ (Act.leakyRelu 550).Args ∧ (Act.selu 0 0).Args := by
  simp [Act.Args]

/-! ### C79 -/

/-- C79. The flag that tells whether `f(0) = 0` is right for every class. -/
theorem zero_stable (act : Act) : act.zeroStable = true ↔ act.f 0 = 0 := by
  rw [f_eq]
  cases act <;> simp [Act.zeroStable, Act.fn]

theorem pw_strict {g h : ℝ → ℝ} (hg : ∀ x y, x < y → y < 0 → g x < g y) (hh : ∀ x y, 0 ≤ x → x < y → h x < h y)
    (hgh : ∀ x, x < 0 → g x < h 0) : StrictMono fun x : ℝ => if x < 0 then g x else h x := by
  intro x y hxy
  show (if x < 0 then g x else h x) < (if y < 0 then g y else h y)
  by_cases hy : y < 0
  · rw [if_pos hy, if_pos (hxy.trans hy)]; exact hg x y hxy hy
  · rw [if_neg hy]
    by_cases hx : x < 0
    · rw [if_pos hx]
      rcases (not_lt.mp hy).eq_or_lt with h0 | h0
      · rw [← h0]; exact hgh x hx
      · exact (hgh x hx).trans (hh 0 y le_rfl h0)
    · rw [if_neg hx]; exact hh x y (not_lt.mp hx) hxy

theorem expm1_mono {c : ℝ} (hc : 0 < c) (x y : ℝ) (h : x < y) : c * (Real.exp x - 1) < c * (Real.exp y - 1) :=
  mul_lt_mul_of_pos_left (by have := Real.exp_lt_exp.mpr h; linarith) hc

theorem logb_mono {b : ℝ} (hb : 1 < b) {x y : ℝ} (hx : 0 < x) (h : x < y) : Real.logb b x < Real.logb b y := Real.logb_lt_logb hb hx h

theorem ratio_mono {a : ℝ} (ha : 0 < a) : StrictMono fun x : ℝ => x / (a + |x|) := by
  intro x y h
  have hx : 0 < a + |x| := by have := abs_nonneg x; linarith
  have hy : 0 < a + |y| := by have := abs_nonneg y; linarith
  show x / (a + |x|) < y / (a + |y|)
  rw [div_lt_div_iff₀ hx hy]
  have key : x * |y| ≤ y * |x| := by
    rcases le_total 0 x with h0 | h0
    · rw [abs_of_nonneg h0, abs_of_nonneg (by linarith)]; exact le_of_eq (mul_comm _ _)
    · rw [abs_of_nonpos h0]
      rcases le_total 0 y with h1 | h1
      · rw [abs_of_nonneg h1]; nlinarith
      · rw [abs_of_nonpos h1]; exact le_of_eq (by ring)
  nlinarith

/-- C79. Every activation but `relu`, `logu` and `step` is strictly increasing. -/
theorem activation_strictMono (act : Act) (ha : act.Args) (h : act ≠ .relu ∧ act ≠ .step ∧ ∀ b, act ≠ .logu b) : StrictMono act.f := by
  have e : act.f = act.fn := funext (f_eq act)
  rw [e]
  cases act with
  | sigm =>
    intro x y hxy
    show 1 / (1 + Real.exp (-x)) < 1 / (1 + Real.exp (-y))
    have := Real.exp_lt_exp.mpr (neg_lt_neg hxy)
    have := Real.exp_pos (-y)
    exact one_div_lt_one_div_of_lt (by linarith) (by linarith)
  | relu => exact absurd rfl h.1
  | step => exact absurd rfl h.2.1
  | logu b => exact absurd rfl (h.2.2 b)
  | leakyRelu k =>
    have hk : (0 : ℝ) < k := by exact_mod_cast ha
    exact pw_strict (fun x y hxy _ => div_lt_div_of_pos_right hxy (by positivity)) (fun x y _ hxy => hxy)
      fun x hx => div_neg_of_neg_of_pos hx (by positivity)
  | elu a =>
    have hp := milli_pos ha
    exact pw_strict (fun x y hxy _ => expm1_mono hp x y hxy) (fun x y _ hxy => hxy)
      fun x hx => mul_neg_of_pos_of_neg hp (expm1_neg hx)
  | elogu a b =>
    have hp := milli_pos ha.1
    have hb := base_pos ha.2
    exact pw_strict (fun x y hxy _ => expm1_mono hp x y hxy) (fun x y h0 hxy => logb_mono hb (by linarith) (by linarith))
      fun x hx => (mul_neg_of_pos_of_neg hp (expm1_neg hx)).trans_le (logb_nonneg' hb le_rfl)
  | loglogu n p =>
    have hn := base_pos ha.1
    have hp := base_pos ha.2
    exact pw_strict (fun x y hxy h0 => neg_lt_neg (logb_mono hn (by linarith) (by linarith)))
      (fun x y h0 hxy => logb_mono hp (by linarith) (by linarith))
      fun x hx => (neg_neg_of_pos (Real.logb_pos hn (by linarith))).trans_le (logb_nonneg' hp le_rfl)
  | softsign a c =>
    have ha' : (0 : ℝ) < a / 10 ^ 6 := by
      have : (0 : ℝ) < a := by exact_mod_cast ha
      positivity
    intro x y hxy
    show softsignC c * x / ((a : ℝ) / 10 ^ 6 + |x|) < softsignC c * y / ((a : ℝ) / 10 ^ 6 + |y|)
    rw [mul_div_assoc, mul_div_assoc]
    exact mul_lt_mul_of_pos_left (ratio_mono ha' hxy) (softsignC_pos c)
  | softsigm a =>
    intro x y hxy
    have := ratio_mono (milli_pos ha) hxy
    show (1 + x / ((a : ℝ) / 1000 + |x|)) / 2 < (1 + y / ((a : ℝ) / 1000 + |y|)) / 2
    have : x / ((a : ℝ) / 1000 + |x|) < y / ((a : ℝ) / 1000 + |y|) := this
    linarith
  | selu a l =>
    have hA := seluAlpha_pos ha.1
    have hL := seluLambda_pos ha.2
    intro x y hxy
    have := (pw_strict (g := fun x => seluAlpha a * (Real.exp x - 1)) (h := fun x => x) (fun x y hxy _ => expm1_mono hA x y hxy) (fun x y _ hxy => hxy)
      fun x hx => mul_neg_of_pos_of_neg hA (expm1_neg hx)) hxy
    exact mul_lt_mul_of_pos_left this hL
  | identity => exact strictMono_id

/-- C79. The remaining ones never decrease. -/
theorem activation_mono (act : Act) (ha : act.Args) : Monotone act.f := by
  by_cases h : act ≠ .relu ∧ act ≠ .step ∧ ∀ b, act ≠ .logu b
  · exact (activation_strictMono act ha h).monotone
  · have e : act.f = act.fn := funext (f_eq act)
    rw [e]
    cases act with
    | relu => intro x y hxy; exact max_le_max le_rfl hxy
    | step =>
      intro x y hxy
      show (if x < 0 then (0 : ℝ) else 1) ≤ if y < 0 then 0 else 1
      by_cases hy : y < 0
      · rw [if_pos hy, if_pos (hxy.trans_lt hy)]
      · rw [if_neg hy]; split <;> norm_num
    | logu b =>
      have hb := base_pos ha
      intro x y hxy
      show (if x < 0 then (0 : ℝ) else Real.logb (base b) (1 + x)) ≤ if y < 0 then 0 else Real.logb (base b) (1 + y)
      by_cases hy : y < 0
      · rw [if_pos hy, if_pos (hxy.trans_lt hy)]
      · rw [if_neg hy]
        by_cases hx : x < 0
        · rw [if_pos hx]; exact logb_nonneg' hb (not_lt.mp hy)
        · rw [if_neg hx]; exact Real.logb_le_logb_of_le hb (by have := not_lt.mp hx; linarith) (by linarith)
    | _ => exact absurd ⟨by simp, by simp, by simp⟩ h

theorem ratio_lt {a : ℝ} (ha : 0 < a) (z : ℝ) : |z / (a + |z|)| < 1 := by
  rw [abs_ratio ha, div_lt_one (by have := abs_nonneg z; linarith)]; linarith

/-- C79. Where the values lie. -/
theorem activation_range (z : ℝ) :
    (0 < Act.sigm.f z ∧ Act.sigm.f z < 1) ∧
    (0 ≤ Act.relu.f z) ∧
    (∀ a : ℕ, 0 < a → -(a / 1000 : ℝ) < (Act.elu a).f z) ∧
    (∀ a b : ℕ, 0 < a → 1000 < b → -(a / 1000 : ℝ) < (Act.elogu a b).f z) ∧
    (∀ b, 1000 < b → 0 ≤ (Act.logu b).f z) ∧
    (∀ a c, 0 < a → |(Act.softsign a c).f z| < scaleOfSoftsign c) ∧
    (∀ a, 0 < a → 0 < (Act.softsigm a).f z ∧ (Act.softsigm a).f z < 1) ∧
    (∀ a l, 0 ≤ a → 0 ≤ l → -(alphaOfSelu a * lambdaOfSelu l) < (Act.selu a l).f z) ∧
    (Act.step.f z = 0 ∨ Act.step.f z = 1) := by
  simp only [f_eq]
  have hexp : ∀ c : ℝ, 0 < c → -c < c * (Real.exp z - 1) := fun c hc => by
    have := mul_pos hc (Real.exp_pos z); linarith
  refine ⟨?_, le_max_left _ _, ?_, ?_, ?_, ?_, ?_, ?_, ?_⟩
  · have := Real.exp_pos (-z)
    show 0 < 1 / (1 + Real.exp (-z)) ∧ 1 / (1 + Real.exp (-z)) < 1
    exact ⟨by positivity, by rw [div_lt_one (by linarith)]; linarith⟩
  · intro a ha
    have hp := milli_pos ha
    show -(a / 1000 : ℝ) < if z < 0 then a / 1000 * (Real.exp z - 1) else z
    split
    · exact hexp _ hp
    · linarith
  · intro a b ha hb
    have hp := milli_pos ha
    show -(a / 1000 : ℝ) < if z < 0 then a / 1000 * (Real.exp z - 1) else Real.logb (base b) (1 + z)
    split
    · exact hexp _ hp
    · have := logb_nonneg' (base_pos hb) (show 0 ≤ z by linarith); linarith
  · intro b hb
    show 0 ≤ if z < 0 then 0 else Real.logb (base b) (1 + z)
    split
    · exact le_rfl
    · exact logb_nonneg' (base_pos hb) (by linarith)
  · intro a c ha
    have ha' : (0 : ℝ) < a / 10 ^ 6 := by
      have : (0 : ℝ) < a := by exact_mod_cast ha
      positivity
    show |softsignC c * z / ((a : ℝ) / 10 ^ 6 + |z|)| < softsignC c
    rw [mul_div_assoc, abs_mul, abs_of_pos (softsignC_pos c)]
    exact mul_lt_of_lt_one_right (softsignC_pos c) (ratio_lt ha' z)
  · intro a ha
    have := abs_lt.mp (ratio_lt (milli_pos ha) z)
    show 0 < (1 + z / ((a : ℝ) / 1000 + |z|)) / 2 ∧ (1 + z / ((a : ℝ) / 1000 + |z|)) / 2 < 1
    constructor <;> linarith [this.1, this.2]
  · intro a l ha hl
    have hA := seluAlpha_pos ha
    have hL := seluLambda_pos hl
    show -(seluAlpha a * seluLambda l) < seluLambda l * if z < 0 then seluAlpha a * (Real.exp z - 1) else z
    split
    · have := hexp _ (mul_pos hA hL); linarith
    · have := mul_pos hA hL
      have := mul_nonneg hL.le (show 0 ≤ z by linarith)
      linarith
  · show (if z < 0 then (0:ℝ) else 1) = 0 ∨ (if z < 0 then (0:ℝ) else 1) = 1
    split <;> simp

/-- C79. What `df` asserts about its argument (`-c ≤ v ≤ c`, `0 ≤ v ≤ 1`) holds for every activation that `f` has calculated. -/
theorem df_assertions (z : ℝ) (a c : ℕ) (ha : 0 < a) :
    (-scaleOfSoftsign c ≤ (Act.softsign a c).f z ∧ (Act.softsign a c).f z ≤ scaleOfSoftsign c) ∧
    (0 ≤ (Act.softsigm a).f z ∧ (Act.softsigm a).f z ≤ 1) := by
  obtain ⟨-, -, -, -, -, h1, h2, -⟩ := activation_range z
  have h1 := abs_lt.mp (h1 a c ha)
  have h2 := h2 a ha
  exact ⟨⟨h1.1.le, h1.2.le⟩, ⟨h2.1.le, h2.2.le⟩⟩

end Nntl.Act
