import Verif.Act.LossSpec
import Verif.Act.Props
/-! Losses and gradients of the output layer: C80 (values), C81 (gradients). -/
set_option linter.dupNamespace false
namespace Nntl.Act
open Nntl.Kernel Nntl.Threads Finset

/-! ### Sums -/

theorem sum_list (n : ℕ) (f : ℕ → ℝ) : ((List.range n).map f).sum = ∑ i ∈ range n, f i := by
  induction n with
  | zero => rfl
  | succ n ih => rw [List.range_succ, List.map_append, List.sum_append, ih, sum_range_succ]; simp

theorem kahan_fold {α : Type} (f : α → ℝ) (l : List α) (s : ℝ) :
    l.foldl (fun s i => kahanStep s (f i)) (s, 0) = (s + (l.map f).sum, 0) := by
  induction l generalizing s with
  | nil => simp
  | cons x l ih =>
    rw [List.foldl_cons, show kahanStep (s, 0) (f x) = (s + f x, 0) by simp [kahanStep], ih, List.map_cons, List.sum_cons, add_assoc]

theorem kahanLoop_eq (f : ℕ → ℝ) : kahanLoop f = sumLoop f := by
  funext b e; rw [kahanLoop, kahan_fold, sumLoop_eq, zero_add]

theorem reduceKahan_eq (ex : Exec) (n : ℕ) (part : ℕ → ℕ → ℝ) : reduceKahan ex n part = reduceSum ex n part := by
  cases ex with
  | st => rfl
  | mt rs =>
    show (((Exec.mt rs).calls n).foldl _ (0, 0)).1 = ((Exec.mt rs).calls n).foldl _ 0
    rw [kahan_fold fun r : ℕ × ℕ => part r.1 r.2, foldl_add]

theorem reduce_range (ex : Exec) (hex : ex.Ok) (n : ℕ) (f : ℕ → ℝ) : reduceSum ex n (sumLoop f) = ∑ i ∈ range n, f i := by
  rw [reduceSum_eq ex hex, sum_list]

/-! ### C80 -/

/-- C80. Quadratic and custom losses: however the elements are divided among threads, with or without compensated summation, the result is the sum of
the losses of all elements. -/
theorem loss_value (cfg : Cfg) (ns : Bool) (ex : Exec) (hex : ex.Ok) (n : ℕ) (o : Out) (ho : o ≠ .sigmXent ∧ ∀ A, o ≠ .softsigmXent A) (a y : ℕ → ℝ) :
    o.lossRun cfg ns ex n a y = ∑ i ∈ range n, o.ideal (y i) (a i) := by
  have quad : ∀ (P : ℝ), P = (∑ i ∈ range n, (a i - y i) ^ 2 / 2) →
      (if ns then lossQuadraticNs ex n a y else lossQuadratic ex n a y) = P := by
    rintro P rfl
    rw [lossQuadraticNs, reduceKahan_eq, kahanLoop_eq, lossQuadratic, ite_self, reduce_range ex hex, sum_div]
    exact sum_congr rfl fun i _ => by rw [quadTerm, sq]
  cases o with
  | sigmQuad => exact quad _ rfl
  | softsigmQuad A => exact quad _ rfl
  | identQuad => exact quad _ rfl
  | sigmXent => exact absurd rfl ho.1
  | softsigmXent A => exact absurd rfl (ho.2 A)
  | custom L =>
    show computeLoss L ex n a y = _
    rw [computeLoss, reduce_range ex hex, sum_div]
    refine sum_congr rfl fun i _ => ?_
    cases L with
    | wFp w b => simp only [Custom.loss, Out.ideal]; split <;> ring
    | wFp2 w o b => simp only [Custom.loss, Out.ideal]; split <;> ring
    | wRes w b => simp only [Custom.loss, Out.ideal]; split <;> ring

theorem xent_run (cfg : Cfg) (ns : Bool) (ex : Exec) (hex : ex.Ok) (n : ℕ) (o : Out) (ho : o = .sigmXent ∨ ∃ A, o = .softsigmXent A) (a y : ℕ → ℝ) :
    o.lossRun cfg ns ex n a y = ∑ i ∈ range n, -xentTerm cfg a y i := by
  have key : (if ns then lossXentropyNs cfg ex n a y else lossXentropy cfg ex n a y) = ∑ i ∈ range n, -xentTerm cfg a y i := by
    rw [lossXentropyNs, reduceKahan_eq, kahanLoop_eq, lossXentropy, ite_self, reduce_range ex hex, sum_neg_distrib]
  rcases ho with rfl | ⟨A, rfl⟩ <;> exact key

theorem log_shift {a e : ℝ} (ha : 0 < a) (he : 0 ≤ e) : Real.log a ≤ Real.log (a + e) ∧ Real.log (a + e) - Real.log a ≤ e / a := by
  refine ⟨Real.log_le_log ha (by linarith), ?_⟩
  rw [← Real.log_div (by positivity) ha.ne']
  have := Real.log_le_sub_one_of_pos (show 0 < (a + e) / a by positivity)
  calc Real.log ((a + e) / a) ≤ (a + e) / a - 1 := this
    _ = e / a := by field_simp; ring

/-- C80. Cross entropy with answers 0 and 1: below the ideal loss by at most `eps` times the sum of the inverse probabilities of the answers. -/
theorem loss_xentropy_value (cfg : Cfg) (he : 0 ≤ cfg.eps) (ns : Bool) (ex : Exec) (hex : ex.Ok) (n : ℕ) (o : Out)
    (ho : o = .sigmXent ∨ ∃ A, o = .softsigmXent A) (a y : ℕ → ℝ) (hy : ∀ i < n, y i = 0 ∨ y i = 1) (ha : ∀ i < n, 0 < a i ∧ a i < 1) :
    o.lossRun cfg ns ex n a y ≤ ∑ i ∈ range n, o.ideal (y i) (a i) ∧
    ∑ i ∈ range n, o.ideal (y i) (a i) ≤ o.lossRun cfg ns ex n a y + ∑ i ∈ range n, cfg.eps / (if y i = 1 then a i else 1 - a i) := by
  rw [xent_run cfg ns ex hex n o ho, ← sum_add_distrib]
  have id : ∀ i, o.ideal (y i) (a i) = -(y i * Real.log (a i)) - (1 - y i) * Real.log (1 - a i) := by
    rcases ho with rfl | ⟨A, rfl⟩ <;> intro i <;> rfl
  have key : ∀ i < n, -xentTerm cfg a y i ≤ o.ideal (y i) (a i) ∧
      o.ideal (y i) (a i) ≤ -xentTerm cfg a y i + cfg.eps / (if y i = 1 then a i else 1 - a i) := by
    intro i hi
    obtain ⟨a0, a1⟩ := ha i hi
    rw [id i, xentTerm]
    rcases hy i hi with h | h <;> rw [h]
    · have := log_shift (show 0 < 1 - a i by linarith) he
      have e0 : 0 ≤ cfg.eps / (1 - a i) := div_nonneg he (by linarith)
      rw [if_neg (lt_irrefl 0), if_neg (show ¬ (0 : ℝ) = 1 by norm_num)]
      by_cases hc : cfg.careful
      · rw [if_pos hc, if_neg a1.ne, log1p, ← sub_eq_add_neg]
        constructor <;> linarith
      · rw [if_neg hc, ← sub_eq_add_neg]
        constructor <;> linarith [this.1, this.2]
    · have := log_shift a0 he
      rw [if_pos one_pos, if_pos rfl]
      constructor <;> linarith [this.1, this.2]
  exact ⟨sum_le_sum fun i hi => (key i (mem_range.mp hi)).1, sum_le_sum fun i hi => (key i (mem_range.mp hi)).2⟩

/-- C80. At the ends of the range the loss stays finite: no element contributes more than the larger of `-log eps` and `-logZero`. -/
theorem loss_xentropy_bounded (cfg : Cfg) (he : 0 < cfg.eps) (ns : Bool) (ex : Exec) (hex : ex.Ok) (n : ℕ) (o : Out)
    (ho : o = .sigmXent ∨ ∃ A, o = .softsigmXent A) (a y : ℕ → ℝ) (ha : ∀ i < n, 0 ≤ a i ∧ a i ≤ 1)
    (hc : cfg.careful = true → ∀ i < n, a i < 1 → Real.log cfg.eps ≤ Real.log (1 - a i)) :
    o.lossRun cfg ns ex n a y ≤ n * max (-Real.log cfg.eps) (-cfg.logZero) := by
  rw [xent_run cfg ns ex hex n o ho]
  calc _ ≤ ∑ i ∈ range n, max (-Real.log cfg.eps) (-cfg.logZero) := by
        refine sum_le_sum fun i hi => ?_
        have hi := mem_range.mp hi
        obtain ⟨a0, a1⟩ := ha i hi
        have m1 := le_max_left (-Real.log cfg.eps) (-cfg.logZero)
        have m2 := le_max_right (-Real.log cfg.eps) (-cfg.logZero)
        unfold xentTerm
        split
        · have := Real.log_le_log he (show cfg.eps ≤ a i + cfg.eps by linarith); linarith
        · split
          · next h =>
            split
            · exact m2
            · next h1 =>
              have := hc h i hi (lt_of_le_of_ne a1 h1)
              rw [log1p, ← sub_eq_add_neg]; linarith
          · have := Real.log_le_log he (show cfg.eps ≤ 1 + -a i + cfg.eps by linarith); linarith
    _ = _ := by simp

/-- C80 does not extend to answers between 0 and 1 (label smoothing), which the gradient supports: any positive answer counts as 1. -/
theorem loss_xentropy_soft_answers (cfg : Cfg) (ns : Bool) (ex : Exec) (hex : ex.Ok) (n : ℕ) (a y : ℕ → ℝ) (hy : ∀ i < n, 0 < y i) :
    Out.sigmXent.lossRun cfg ns ex n a y = Out.sigmXent.lossRun cfg ns ex n a fun _ => 1 := by
  rw [xent_run cfg ns ex hex n _ (.inl rfl), xent_run cfg ns ex hex n _ (.inl rfl)]
  refine sum_congr rfl fun i hi => ?_
  rw [xentTerm, xentTerm, if_pos (hy i (mem_range.mp hi)), if_pos one_pos]

/-- C80. Softmax: `-∑ y log a`. -/
theorem loss_softmax_value (cfg : Cfg) (ex : Exec) (hex : ex.Ok) (n : ℕ) (a y : ℕ → ℝ) (ha : ∀ i < n, 0 < a i) :
    lossSoftmax cfg ex n a y = -∑ i ∈ range n, y i * Real.log (a i) := by
  rw [lossSoftmax, reduce_range ex hex, ← sum_neg_distrib]
  refine sum_congr rfl fun i hi => ?_
  rw [smTerm, if_pos (ha i (mem_range.mp hi))]; ring

/-- C80. No quadratic or custom loss is negative, and it is zero only where every weighted error is. -/
theorem loss_nonneg (cfg : Cfg) (ns : Bool) (ex : Exec) (hex : ex.Ok) (n : ℕ) (o : Out) (ho : o ≠ .sigmXent ∧ ∀ A, o ≠ .softsigmXent A)
    (a y : ℕ → ℝ) : 0 ≤ o.lossRun cfg ns ex n a y ∧ ((∀ i < n, a i = y i) → o.lossRun cfg ns ex n a y = 0) := by
  rw [loss_value cfg ns ex hex n o ho]
  have h0 : ∀ p : ℝ, 0 ≤ p ^ 2 / 2 := fun p => by positivity
  constructor
  · refine sum_nonneg fun i _ => ?_
    cases o with
    | sigmQuad => exact h0 _
    | softsigmQuad A => exact h0 _
    | identQuad => exact h0 _
    | sigmXent => exact absurd rfl ho.1
    | softsigmXent A => exact absurd rfl (ho.2 A)
    | custom L =>
      cases L with
      | wFp w b => simp only [Out.ideal]; split <;> positivity
      | wFp2 w o b => simp only [Out.ideal]; split <;> positivity
      | wRes w b => exact h0 _
  · intro h
    refine sum_eq_zero fun i hi => ?_
    rw [h i (mem_range.mp hi)]
    cases o with
    | sigmQuad => simp [Out.ideal]
    | softsigmQuad A => simp [Out.ideal]
    | identQuad => simp [Out.ideal]
    | sigmXent => exact absurd rfl ho.1
    | softsigmXent A => exact absurd rfl (ho.2 A)
    | custom L => cases L <;> simp [Out.ideal]

/-- The losses with weights are not those that are described: with the default parameters an error from -1 up to -1/2 is punished as a false positive,
though the activation is below the boundary 0. -/
theorem custom_not_as_described : (Out.custom (.wFp 1414214 0)).ideal (-1) (-1 / 2) ≠ (Custom.wFp 1414214 0).described (-1) (-1 / 2) := by
  simp only [Out.ideal, Custom.described, micro]; norm_num

/-! ### C81 -/

theorem deriv_sq_half (y a : ℝ) : HasDerivAt (fun t => (t - y) ^ 2 / 2) (a - y) a := by
  have := (((hasDerivAt_id a).sub_const y).pow 2).div_const 2
  refine this.congr_deriv ?_
  simp

theorem deriv_xent (y : ℝ) {a : ℝ} (a0 : 0 < a) (a1 : a < 1) :
    HasDerivAt (fun t => -(y * Real.log t) - (1 - y) * Real.log (1 - t)) ((a - y) / (a * (1 - a))) a := by
  have h1 := ((Real.hasDerivAt_log a0.ne').const_mul y).neg
  have h2 := (((hasDerivAt_id a).const_sub 1).log (by simp only [id]; linarith)).const_mul (1 - y)
  refine (h1.sub h2).congr_deriv ?_
  have : 1 - a ≠ 0 := by linarith
  have := a0.ne'
  simp only [id]
  field_simp
  ring

/-- Two quadratic pieces that meet with the same slope. -/
theorem deriv_pieces (y p q : ℝ) (a : ℝ) : HasDerivAt (fun t => (if y < t then p else q) * (t - y) ^ 2 / 2) (if y < a then p * (a - y) else q * (a - y)) a := by
  have d : ∀ c a : ℝ, HasDerivAt (fun t => c * (t - y) ^ 2 / 2) (c * (a - y)) a := fun c a => by
    have := ((deriv_sq_half y a).const_mul c)
    refine this.congr_of_eventuallyEq (Filter.Eventually.of_forall fun t => ?_)
    ring
  rcases lt_trichotomy y a with h | h | h
  · rw [if_pos h]
    refine (d p a).congr_of_eventuallyEq ?_
    filter_upwards [lt_mem_nhds h] with t ht
    rw [if_pos ht]
  · subst h
    rw [if_neg (lt_irrefl y), sub_self, mul_zero]
    have hl : HasDerivWithinAt (fun t => (if y < t then p else q) * (t - y) ^ 2 / 2) 0 (Set.Iic y) y := by
      have := (d q y).hasDerivWithinAt (s := Set.Iic y)
      rw [sub_self, mul_zero] at this
      refine this.congr (fun t ht => ?_) ?_
      · rw [if_neg (not_lt.mpr ht)]
      · rw [if_neg (lt_irrefl y)]
    have hr : HasDerivWithinAt (fun t => (if y < t then p else q) * (t - y) ^ 2 / 2) 0 (Set.Ici y) y := by
      have := (d p y).hasDerivWithinAt (s := Set.Ici y)
      rw [sub_self, mul_zero] at this
      refine this.congr (fun t ht => ?_) ?_
      · rcases eq_or_lt_of_le (show y ≤ t from ht) with h | h
        · subst h; simp
        · rw [if_pos h]
      · simp
    have := hl.union hr
    rwa [Set.Iic_union_Ici, hasDerivWithinAt_univ] at this
  · rw [if_neg (not_lt.mpr h.le)]
    refine (d q a).congr_of_eventuallyEq ?_
    filter_upwards [gt_mem_nhds h] with t ht
    rw [if_neg (not_lt.mpr ht.le)]

/-- Where the loss of one element has a derivative: everywhere, except where `Linear_Loss_quadWeighted_res_FP` jumps. -/
def Out.Regular : Out → ℝ → ℝ → Prop
  | .sigmXent, _, a | .softsigmXent _, _, a => 0 < a ∧ a < 1
  | .custom (.wRes w b), y, a => y < micro b → micro w ≠ 1 → a ≠ y
  | _, _, _ => True

theorem custom_deriv (L : Custom) (y a : ℝ) (h : (Out.custom L).Regular y a) : HasDerivAt ((Out.custom L).ideal y) (L.dLdZ y a) a := by
  cases L with
  | wFp w b =>
    show HasDerivAt (fun t => (if y < micro b ∧ y < t then micro w ^ 2 else 1) * (t - y) ^ 2 / 2)
      (if y < micro b ∧ y < a then micro w * micro w * (a - y) else a - y) a
    by_cases hb : y < micro b
    · simp only [hb, true_and]
      refine (deriv_pieces y (micro w ^ 2) 1 a).congr_deriv ?_
      split <;> ring
    · simp only [hb, false_and, if_false, one_mul]
      exact deriv_sq_half y a
  | wFp2 w o b =>
    show HasDerivAt (fun t => (if y < micro b ∧ y < t then micro w ^ 2 else micro o ^ 2) * (t - y) ^ 2 / 2)
      (if y < micro b ∧ y < a then micro w * micro w * (a - y) else micro o * micro o * (a - y)) a
    by_cases hb : y < micro b
    · simp only [hb, true_and]
      refine (deriv_pieces y (micro w ^ 2) (micro o ^ 2) a).congr_deriv ?_
      split <;> ring
    · simp only [hb, false_and, if_false]
      refine ((deriv_sq_half y a).const_mul (micro o ^ 2)).congr_of_eventuallyEq (Filter.Eventually.of_forall fun t => ?_) |>.congr_deriv ?_
      · ring
      · ring
  | wRes w b =>
    show HasDerivAt (fun t => (if y < micro b ∧ y < t then micro w * (t - micro b) + micro b - y else t - y) ^ 2 / 2)
      (if y < micro b ∧ y < a then micro w * micro w * a + micro w * (micro b * (1 - micro w)) - micro w * y else a - y) a
    have d : HasDerivAt (fun t => (micro w * (t - micro b) + micro b - y) ^ 2 / 2)
        (micro w * micro w * a + micro w * (micro b * (1 - micro w)) - micro w * y) a := by
      have := ((((((hasDerivAt_id a).sub_const (micro b)).const_mul (micro w)).add_const (micro b)).sub_const y).pow 2).div_const 2
      refine this.congr_deriv ?_
      simp only [id]; push_cast; ring
    by_cases hb : y < micro b
    · simp only [hb, true_and]
      by_cases hw : micro w = 1
      · rw [hw] at d ⊢
        have e : (fun t : ℝ => (if y < t then 1 * (t - micro b) + micro b - y else t - y) ^ 2 / 2) = fun t => (t - y) ^ 2 / 2 := by
          funext t; split <;> ring
        rw [e]
        refine (deriv_sq_half y a).congr_deriv ?_
        split <;> ring
      · rcases lt_or_gt_of_ne (h hb hw) with h1 | h1
        · rw [if_neg (by linarith)]
          refine (deriv_sq_half y a).congr_of_eventuallyEq ?_
          filter_upwards [gt_mem_nhds h1] with t ht
          rw [if_neg (by linarith)]
        · rw [if_pos h1]
          refine d.congr_of_eventuallyEq ?_
          filter_upwards [lt_mem_nhds h1] with t ht
          rw [if_pos ht]
    · simp only [hb, false_and, if_false]
      exact deriv_sq_half y a

/-- The gradient without the activation function. -/
theorem dLdZIdentity_correct (o : Out) (y a : ℝ) (h : o.Regular y a) : HasDerivAt (o.ideal y) (o.dLdZIdentity y a) a := by
  cases o with
  | sigmQuad => exact deriv_sq_half y a
  | softsigmQuad A => exact deriv_sq_half y a
  | identQuad => exact deriv_sq_half y a
  | sigmXent => exact deriv_xent y h.1 h.2
  | softsigmXent A => exact deriv_xent y h.1 h.2
  | custom L => exact custom_deriv L y a h

/-- Arguments of the activation function. -/
def Out.Args (o : Out) : Prop := o.act.Args

theorem act_smooth (o : Out) (ha : o.Args) (z : ℝ) : DifferentiableAt ℝ o.act.fn z := by
  apply activation_smooth_zero _ ha
  cases o <;> simp [Out.act]

theorem act_regular (o : Out) (ha : o.Args) (z : ℝ) (h : o = .sigmXent ∨ ∃ A, o = .softsigmXent A) (y : ℝ) : o.Regular y (o.act.fn z) := by
  have := activation_range z
  simp only [f_eq] at this
  rcases h with rfl | ⟨A, rfl⟩
  · exact this.1
  · exact this.2.2.2.2.2.2.1 A ha

/-- The gradient through the activation function is the product of the derivatives. -/
theorem dLdZ_chain (o : Out) (ha : o.Args) (y z : ℝ) (h : o.Regular y (o.act.fn z)) :
    o.dLdZ y (o.act.fn z) = o.dLdZIdentity y (o.act.fn z) * o.act.df (o.act.fn z) := by
  generalize o.act.fn z = a at h
  cases o with
  | sigmQuad => simp only [Out.dLdZ, Out.dLdZIdentity, Out.act, Act.df, kDSigm]; ring
  | sigmXent =>
    simp only [Out.dLdZ, Out.dLdZIdentity, Out.act, Act.df, kDSigm]
    have h1 : a ≠ 0 := h.1.ne'
    have h2 : 1 - a ≠ 0 := by linarith [h.2]
    field_simp
  | softsigmQuad A => simp only [Out.dLdZ, Out.dLdZIdentity, Out.act, Act.df, kDSoftsigm]; ring
  | softsigmXent A =>
    simp only [Out.dLdZ, Out.dLdZIdentity, Out.act, Act.df, kDSoftsigm]
    have h1 : a ≠ 0 := h.1.ne'
    have h2 : 1 - a ≠ 0 := by linarith [h.2]
    field_simp
  | identQuad => simp [Out.dLdZ, Out.dLdZIdentity, Out.act, Act.df]
  | custom L => simp [Out.dLdZ, Out.dLdZIdentity, Out.act, Act.df]

theorem dLdZ_correct (o : Out) (ha : o.Args) (y z : ℝ) (h : o.Regular y (o.act.fn z)) :
    HasDerivAt (fun t => o.ideal y (o.act.fn t)) (o.dLdZ y (o.act.fn z)) z := by
  rw [dLdZ_chain o ha y z h]
  exact (dLdZIdentity_correct o y _ h).comp z (df_correct o.act ha z fun _ => act_smooth o ha z)

/-- C81. The output layer replaces its activations by the derivatives of the loss of each element with respect to the preactivation of that element,
cut to the bounds if there are any, whatever the thresholds, the number of threads and the interleaving; nothing behind the elements is touched. -/
theorem output_gradient (o : Out) (ha : o.Args) (lin : Bool) (thr thrC : ℕ) (rs : List ParRange) (hrs : RangesOk rs) (bnd : Option (ℝ × ℝ))
    (hb : ∀ b ∈ bnd, b.1 < b.2) (n : ℕ) (hn : 0 < n) (y z m m' : ℕ → ℝ) (hm : ∀ i < n, m i = o.value lin (z i)) (h : outGrad thr thrC rs o lin bnd n y m m') :
    (∀ i < n, o.Regular (y i) (o.value lin (z i)) → ∃ d, HasDerivAt (fun t => o.ideal (y i) (o.value lin t)) d (z i) ∧
      m' i = cut bnd d) ∧
    (∀ i, n ≤ i → m' i = m i) := by
  have ok : ∀ t : Nat, (if n < t then Exec.st else Exec.mt rs).Ok := by intro t; split; exacts [trivial, hrs]
  obtain ⟨m1, h1, h2⟩ := h
  have h1 := each_result _ (ok thr) n hn _ h1
  have fin : ∀ i, m' i = if i < n then cut bnd (m1 i) else m1 i := by
    intro i
    cases bnd with
    | none => rw [show m' = m1 from h2]; simp [cut]
    | some b =>
      obtain ⟨lo, hi⟩ := b
      have hlt : lo < hi := hb (lo, hi) rfl
      have := each_result _ (ok thrC) n hn _ h2 i
      rw [this]
      congr 1
      show clamp lo hi _ = max lo (min hi _)
      unfold clamp
      split
      · next h => rw [min_eq_right (by linarith), max_eq_left h.le]
      · split
        · next h => rw [min_eq_left h.le, max_eq_right hlt.le]
        · next h1 h2 => rw [min_eq_right (by linarith), max_eq_right (by linarith)]
  refine ⟨fun i hi hr => ⟨m1 i, ?_, ?_⟩, fun i hi => ?_⟩
  · have e := h1 i
    rw [if_pos hi, hm i hi] at e
    rw [e]
    cases lin with
    | true => exact dLdZIdentity_correct o (y i) _ hr
    | false => exact dLdZ_correct o ha (y i) (z i) hr
  · rw [fin i, if_pos hi]
  · rw [fin i, if_neg (by omega), h1 i, if_neg (by omega)]

/-- C81. With an activation function every element has a derivative, except where `Linear_Loss_quadWeighted_res_FP` jumps. -/
theorem output_regular (o : Out) (ha : o.Args) (y z : ℝ) (h : ∀ w b, o = .custom (.wRes w b) → z ≠ y) : o.Regular y (o.value false z) := by
  cases o with
  | sigmXent => exact act_regular _ ha z (.inl rfl) y
  | softsigmXent A => exact act_regular _ ha z (.inr ⟨A, rfl⟩) y
  | custom L =>
    cases L with
    | wRes w b => exact fun _ _ => h w b rfl
    | _ => trivial
  | _ => trivial

/-- C81. For the quadratic and custom losses the matrix of gradients holds the partial derivatives of the loss that the layer reports. -/
theorem output_gradient_of_loss (cfg : Cfg) (ns : Bool) (ex : Exec) (hex : ex.Ok) (o : Out) (ho : o ≠ .sigmXent ∧ ∀ A, o ≠ .softsigmXent A)
    (ha : o.Args) (lin : Bool) (thr thrC : ℕ) (rs : List ParRange) (hrs : RangesOk rs) (n : ℕ) (hn : 0 < n) (y z m m' : ℕ → ℝ)
    (hm : ∀ i < n, m i = o.value lin (z i)) (h : outGrad thr thrC rs o lin none n y m m') (i : ℕ) (hi : i < n)
    (hr : o.Regular (y i) (o.value lin (z i))) :
    HasDerivAt (fun t => o.lossRun cfg ns ex n (fun j => o.value lin (Function.update z i t j)) y) (m' i) (z i) := by
  obtain ⟨d, hd, e⟩ := (output_gradient o ha lin thr thrC rs hrs none (by simp) n hn y z m m' hm h).1 i hi hr
  rw [show m' i = d from e]
  simp only [loss_value cfg ns ex hex n o ho]
  have key : ∀ t, ∑ j ∈ range n, o.ideal (y j) (o.value lin (Function.update z i t j)) =
      o.ideal (y i) (o.value lin t) + ∑ j ∈ (range n).erase i, o.ideal (y j) (o.value lin (z j)) := by
    intro t
    rw [← add_sum_erase _ _ (mem_range.mpr hi), Function.update_self]
    congr 1
    refine sum_congr rfl fun j hj => ?_
    rw [Function.update_of_ne (ne_of_mem_erase hj)]
  simp only [key]
  exact hd.add_const _

/-- C81. The cross entropy that is reported has `eps` added inside the logarithm, which the gradient ignores: for an answer 1 the derivative of the
reported loss is the gradient times `a / (a + eps)`. -/
theorem xentropy_gradient_eps (cfg : Cfg) (he : 0 ≤ cfg.eps) (z : ℝ) :
    HasDerivAt (fun t => -xentTerm cfg (fun _ => Act.sigm.fn t) (fun _ => 1) 0)
      (Out.sigmXent.dLdZ 1 (Act.sigm.fn z) * (Act.sigm.fn z / (Act.sigm.fn z + cfg.eps))) z := by
  have hr := (activation_range z).1
  rw [f_eq] at hr
  simp only [xentTerm, if_pos one_pos]
  have h1 := ((deriv_sigm z).add_const cfg.eps).log (by linarith [hr.1])
  refine h1.neg.congr_deriv ?_
  simp only [Out.dLdZ, Act.df, kDSigm]
  have : Act.sigm.fn z + cfg.eps ≠ 0 := by linarith [hr.1]
  field_simp
  ring

/-- C81. Cutting to bounds on both sides of zero never turns a gradient round and never makes it longer. -/
theorem clamp_harmless {lo hi d : ℝ} (h0 : lo < 0) (h1 : 0 < hi) :
    (0 < max lo (min hi d) ↔ 0 < d) ∧ (max lo (min hi d) < 0 ↔ d < 0) ∧ |max lo (min hi d)| ≤ |d| := by
  refine ⟨?_, ?_, ?_⟩
  · rw [lt_max_iff, lt_min_iff]; constructor
    · rintro (h | h)
      · linarith
      · exact h.2
    · exact fun h => .inr ⟨h1, h⟩
  · rw [max_lt_iff, min_lt_iff]; constructor
    · rintro ⟨-, h | h⟩
      · linarith
      · exact h
    · exact fun h => ⟨h0, .inr h⟩
  · rcases le_total 0 d with h | h
    · have : 0 ≤ min hi d := le_min h1.le h
      rw [max_eq_right (by linarith), abs_of_nonneg this, abs_of_nonneg h]; exact min_le_right _ _
    · rw [min_eq_right (by linarith), abs_of_nonpos (max_le h0.le h), abs_of_nonpos h]
      exact neg_le_neg (le_max_right _ _)

/-- C81. `restrict_dL_dZ` with bounds on both sides of zero puts them in effect (and they satisfy what `output_gradient` asks for); with two zeros it
switches the restriction off. -/
theorem restrict_bounds (lo hi : ℝ) (h : (lo = 0 ∧ hi = 0) ∨ (lo < 0 ∧ 0 < hi)) (d : ℝ) :
    (∀ b ∈ restrict lo hi, b.1 < b.2) ∧ cut (restrict lo hi) d = if lo = 0 then d else max lo (min hi d) := by
  rcases h with ⟨rfl, rfl⟩ | ⟨h0, h1⟩
  · simp [restrict, cut]
  · have : ¬ (hi = 0 ∨ lo = 0) := by rintro (h | h) <;> linarith
    rw [restrict, if_neg this, if_neg h0.ne]
    refine ⟨fun b hb => ?_, rfl⟩
    cases hb
    exact h0.trans h1

/-- Without assertions a single zero bound drops the other one too. -/
theorem restrict_one_sided (lo d : ℝ) : cut (restrict lo 0) d = d := by simp [restrict, cut]

/-- Where the weighted loss with the offset jumps: there is no derivative. -/
theorem wRes_jump : ¬ DifferentiableAt ℝ ((Out.custom (.wRes 2000000 1000000)).ideal 0) 0 := by
  intro h
  have m1 : micro 1000000 = 1 := by unfold micro; norm_num
  have m2 : micro 2000000 = 2 := by unfold micro; norm_num
  have h := h.continuousAt.tendsto
  have h1 : Filter.Tendsto ((Out.custom (.wRes 2000000 1000000)).ideal 0) (nhdsWithin 0 (Set.Ioi 0)) (nhds (1 / 2)) := by
    have : Filter.Tendsto (fun t : ℝ => (2 * (t - 1) + 1 - 0) ^ 2 / 2) (nhdsWithin 0 (Set.Ioi 0)) (nhds ((2 * (0 - 1) + 1 - 0) ^ 2 / 2)) :=
      (Continuous.tendsto (by fun_prop) 0).mono_left nhdsWithin_le_nhds
    rw [show ((2 : ℝ) * (0 - 1) + 1 - 0) ^ 2 / 2 = 1 / 2 by norm_num] at this
    refine this.congr' ?_
    filter_upwards [self_mem_nhdsWithin] with t ht
    have ht : (0 : ℝ) < t := ht
    simp only [Out.ideal, m1, m2]
    rw [if_pos ⟨one_pos, ht⟩]
  have h2 := tendsto_nhds_unique h1 (h.mono_left nhdsWithin_le_nhds)
  simp [Out.ideal, micro] at h2

/-! ### Softmax -/

open Nntl.Num in
/-- C81. Softmax with cross entropy: for answers that add up to 1 the gradient is the derivative of the loss of the row. -/
theorem softmax_gradient_row (C : ℕ) (y z : ℕ → ℝ) (k : ℕ) (hk : k < C) :
    HasDerivAt (fun t => -∑ c ∈ range C, y c * Real.log (softmaxOf (Function.update z k t) C c)) ((∑ c ∈ range C, y c) * softmaxOf z C k - y k) (z k) := by
  have hC : 0 < C := by omega
  set E : ℝ := ∑ c ∈ (range C).erase k, Real.exp (z c) with hE
  have hE0 : 0 ≤ E := sum_nonneg fun _ _ => (Real.exp_pos _).le
  have den : ∀ t, ((List.range C).map fun j => Real.exp (Function.update z k t j)).sum = Real.exp t + E := by
    intro t
    rw [sum_list, ← add_sum_erase _ _ (mem_range.mpr hk), Function.update_self]
    congr 1
    refine sum_congr rfl fun j hj => ?_
    rw [Function.update_of_ne (ne_of_mem_erase hj)]
  have pos : ∀ t, 0 < Real.exp t + E := fun t => by have := Real.exp_pos t; linarith
  have lg : ∀ t c, Real.log (softmaxOf (Function.update z k t) C c) = Function.update z k t c - Real.log (Real.exp t + E) := by
    intro t c
    unfold softmaxOf
    rw [den, Real.log_div (Real.exp_pos _).ne' (pos t).ne', Real.log_exp]
  have e : ∀ t, -∑ c ∈ range C, y c * Real.log (softmaxOf (Function.update z k t) C c) =
      (∑ c ∈ range C, y c) * Real.log (Real.exp t + E) - y k * t - ∑ c ∈ (range C).erase k, y c * z c := by
    intro t
    simp only [lg, mul_sub, sum_sub_distrib, ← sum_mul]
    rw [← add_sum_erase (range C) (fun c => y c * Function.update z k t c) (mem_range.mpr hk), Function.update_self]
    have : ∑ c ∈ (range C).erase k, y c * Function.update z k t c = ∑ c ∈ (range C).erase k, y c * z c :=
      sum_congr rfl fun j hj => by rw [Function.update_of_ne (ne_of_mem_erase hj)]
    rw [this]; ring
  simp only [e]
  have h1 := ((Real.hasDerivAt_exp (z k)).add_const E).log (pos _).ne'
  refine (((h1.const_mul (∑ c ∈ range C, y c)).sub ((hasDerivAt_id (z k)).const_mul (y k))).sub_const _).congr_deriv ?_
  have : softmaxOf z C k = Real.exp (z k) / (Real.exp (z k) + E) := by
    have := den (z k)
    rw [Function.update_eq_self] at this
    rw [softmaxOf, this]
  rw [this]; ring

theorem sum_grid (R C : ℕ) (f : ℕ → ℝ) : ∑ i ∈ range (R * C), f i = ∑ r ∈ range R, ∑ c ∈ range C, f (r + R * c) := by
  rw [sum_comm]
  induction C with
  | zero => simp
  | succ C ih =>
    rw [Nat.mul_succ, sum_range_add, ih, sum_range_succ]
    congr 1
    exact sum_congr rfl fun r _ => by rw [Nat.add_comm]

/-- The matrix of activations of a softmax layer for the matrix of preactivations `Z` with `R` rows and `C` columns. -/
noncomputable def softmaxMtx (R C : ℕ) (Z : ℕ → ℕ → ℝ) (i : ℕ) : ℝ := Num.softmaxOf (Z (i % R)) C (i / R)

theorem softmaxMtx_at {R C : ℕ} (Z : ℕ → ℕ → ℝ) {r : ℕ} (hr : r < R) (c : ℕ) : softmaxMtx R C Z (r + R * c) = Num.softmaxOf (Z r) C c := by
  unfold softmaxMtx
  rw [Nat.add_mul_mod_self_left, Nat.mod_eq_of_lt hr, Nat.add_mul_div_left _ _ (by omega), Nat.div_eq_of_lt hr, Nat.zero_add]

/-- C81. A softmax output layer replaces its activations by the partial derivatives of the loss that it reports, if the answers of every row add up to
1, whatever the thresholds, the number of threads and the interleaving. -/
theorem softmax_gradient (cfg : Cfg) (ex : Exec) (hex : ex.Ok) (thr : ℕ) (rs : List ParRange) (hrs : RangesOk rs) (R C : ℕ) (y : ℕ → ℝ)
    (Z : ℕ → ℕ → ℝ) (m m' : ℕ → ℝ) (hm : ∀ i < R * C, m i = softmaxMtx R C Z i) (h : softmaxGrad thr rs (R * C) y m m')
    (r k : ℕ) (hr : r < R) (hk : k < C) (hy : ∑ c ∈ range C, y (r + R * c) = 1) :
    HasDerivAt (fun t => lossSoftmax cfg ex (R * C) (softmaxMtx R C (Function.update Z r (Function.update (Z r) k t))) y) (m' (r + R * k)) (Z r k) := by
  have hi : r + R * k < R * C := by
    calc r + R * k < R + R * k := by omega
      _ = R * (k + 1) := by ring
      _ ≤ R * C := Nat.mul_le_mul_left _ hk
  have ok : (if R * C < thr then Exec.st else Exec.mt rs).Ok := by split; exacts [trivial, hrs]
  have e := each_result _ ok (R * C) (by omega) _ h (r + R * k)
  rw [if_pos hi, hm _ hi, softmaxMtx_at Z hr] at e
  have hpos : ∀ (Z : ℕ → ℕ → ℝ) i, i < R * C → 0 < softmaxMtx R C Z i := fun Z i _ => Num.softmaxOf_pos _ _ _ (by omega)
  have e2 : ∀ t, lossSoftmax cfg ex (R * C) (softmaxMtx R C (Function.update Z r (Function.update (Z r) k t))) y =
      -∑ c ∈ range C, y (r + R * c) * Real.log (Num.softmaxOf (Function.update (Z r) k t) C c) +
      -∑ q ∈ (range R).erase r, ∑ c ∈ range C, y (q + R * c) * Real.log (Num.softmaxOf (Z q) C c) := by
    intro t
    rw [loss_softmax_value cfg ex hex _ _ _ (hpos _), sum_grid, ← add_sum_erase _ _ (mem_range.mpr hr), neg_add]
    congr 2
    · exact sum_congr rfl fun c _ => by rw [softmaxMtx_at _ hr, Function.update_self]
    · refine sum_congr rfl fun q hq => sum_congr rfl fun c _ => ?_
      rw [softmaxMtx_at _ (mem_range.mp (mem_of_mem_erase hq)), Function.update_of_ne (ne_of_mem_erase hq)]
  simp only [e2]
  have h1 := softmax_gradient_row C (fun c => y (r + R * c)) (Z r) k hk
  simp only [hy, one_mul] at h1
  rw [e]
  exact h1.add_const _

/-- Without that condition the gradient is wrong: two classes with equal preactivations, both answers 1. The loss is at its minimum there, so that its
derivative is zero; the gradient is -1/2. -/
theorem softmax_gradient_needs_distribution :
    HasDerivAt (fun t => -∑ c ∈ range 2, (1 : ℝ) * Real.log (Num.softmaxOf (Function.update (fun _ => 0) 0 t) 2 c)) 0 (0 : ℝ) ∧
    ∀ thr rs m', RangesOk rs → softmaxGrad thr rs 2 (fun _ => 1) (softmaxMtx 1 2 fun _ _ => 0) m' → m' 0 = -1 / 2 := by
  have e : Num.softmaxOf (fun _ => (0 : ℝ)) 2 0 = 1 / 2 := by
    rw [Num.softmaxOf, sum_list]; norm_num
  constructor
  · have := softmax_gradient_row 2 (fun _ => 1) (fun _ => 0) 0 (by norm_num)
    rw [e] at this
    refine this.congr_deriv ?_
    norm_num
  · intro thr rs m' hrs h
    have ok : (if 2 < thr then Exec.st else Exec.mt rs).Ok := by split; exacts [trivial, hrs]
    have := each_result _ ok 2 (by norm_num) _ h 0
    rw [if_pos (by norm_num), show softmaxMtx 1 2 (fun _ _ => (0:ℝ)) 0 = 1 / 2 from e] at this
    rw [this]; norm_num

/-- The kernels can run for every pool and matrix. -/
theorem outGrad_runs (thr thrC : ℕ) (rs : List ParRange) (o : Out) (lin : Bool) (bnd : Option (ℝ × ℝ)) (n : ℕ) (y m : ℕ → ℝ) :
    ∃ m', outGrad thr thrC rs o lin bnd n y m m' := by
  obtain ⟨m1, h1⟩ := runs_exists (if n < thr then .st else .mt rs) n
    (eachSteps fun i a => if lin then o.dLdZIdentity (y i) a else o.dLdZ (y i) a) m
  cases bnd with
  | none => exact ⟨m1, m1, h1, rfl⟩
  | some b =>
    obtain ⟨m2, h2⟩ := runs_exists (if n < thrC then .st else .mt rs) n (eachSteps fun _ v => clamp b.1 b.2 v) m1
    exact ⟨m2, m1, h1, h2⟩

/-- A case of C81 with numbers: sigmoid of 0 with the answer 1, cross entropy, bounds of a quarter. -/
example : Out.sigmXent.value false 0 = 1 / 2 ∧ Out.sigmXent.dLdZ 1 (1 / 2) = -1 / 2 ∧ cut (some (-1 / 4, 1 / 4)) (-1 / 2) = -1 / 4 := by
  refine ⟨?_, ?_, ?_⟩
  · simp [Out.value, Out.act, Act.fn]; norm_num
  · simp [Out.dLdZ]; norm_num
  · simp only [cut]; norm_num

end Nntl.Act
