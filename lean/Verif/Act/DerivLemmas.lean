import Verif.Act.Lemmas
import Mathlib.Analysis.Calculus.Deriv.Pow
set_option linter.dupNamespace false
/-! The value calculated by `df` is the derivative, wherever there is one. -/
namespace Nntl.Act
open Filter Topology

theorem deriv_sigm (z : ℝ) : HasDerivAt Act.sigm.fn (Act.sigm.df (Act.sigm.fn z)) z := by
  have h1 : HasDerivAt (fun x : ℝ => Real.exp (-x)) (Real.exp (-z) * -1) z := (hasDerivAt_neg z).exp
  have hp := Real.exp_pos (-z)
  have h2 := ((h1.const_add 1).inv (by positivity))
  have e : Act.sigm.fn = (fun x : ℝ => 1 + Real.exp (-x))⁻¹ := by
    funext x; simp [Act.fn]
  rw [e]
  refine HasDerivAt.congr_deriv (f := (fun x : ℝ => 1 + Real.exp (-x))⁻¹) h2 ?_
  show _ = kDSigm ((1 + Real.exp (-z))⁻¹)
  unfold kDSigm
  field_simp
  ring

theorem deriv_relu {z : ℝ} (hd : z = 0 → DifferentiableAt ℝ Act.relu.fn z) : HasDerivAt Act.relu.fn (Act.relu.df (Act.relu.fn z)) z := by
  have e : Act.relu.fn = fun x : ℝ => if x ≤ 0 then (fun _ => 0) x else id x := by
    funext x; rw [← f_eq]; rfl
  have key := pw_deriv_le (g := fun _ => (0 : ℝ)) (h := id) (g' := 0) (h' := 1) (z := z) (fun _ => hasDerivAt_const _ _)
    (fun _ => hasDerivAt_id _) (e ▸ hd)
  rw [← e] at key
  have : Act.relu.df (Act.relu.fn z) = if z ≤ 0 then 0 else 1 := by
    by_cases h : z ≤ 0
    · rw [if_pos h, show Act.relu.fn z = 0 from max_eq_left h]; exact if_pos le_rfl
    · rw [if_neg h, show Act.relu.fn z = z from max_eq_right (by linarith)]; exact if_neg h
  rw [this]; exact key

theorem deriv_leaky {k : ℕ} (hk : 0 < k) {z : ℝ} (hd : z = 0 → DifferentiableAt ℝ (Act.leakyRelu k).fn z) :
    HasDerivAt (Act.leakyRelu k).fn ((Act.leakyRelu k).df ((Act.leakyRelu k).fn z)) z := by
  have hk' : (0 : ℝ) < k := by exact_mod_cast hk
  have e : (Act.leakyRelu k).fn = fun x : ℝ => if x ≤ 0 then x * (100 / k) else id x := by
    funext x; rw [← f_eq]; simp only [Act.f, kLeaky]
    rcases lt_trichotomy x 0 with h | h | h
    · rw [if_pos h, if_pos h.le]
    · subst h; simp
    · rw [if_neg (by linarith), if_neg (by linarith)]; rfl
  have key := pw_deriv_le (g := fun x => x * (100 / k)) (h := id) (g' := 100 / k) (h' := 1) (z := z)
    (fun _ => by simpa using (hasDerivAt_id z).mul_const (100 / (k : ℝ))) (fun _ => hasDerivAt_id _) (e ▸ hd)
  rw [← e] at key
  have : (Act.leakyRelu k).df ((Act.leakyRelu k).fn z) = if z ≤ 0 then 100 / (k : ℝ) else 1 := by
    by_cases h : z ≤ 0
    · rw [if_pos h, show (Act.leakyRelu k).fn z = z * (100 / k) by rw [e]; exact if_pos h]
      exact if_pos (mul_nonpos_of_nonpos_of_nonneg h (by positivity))
    · rw [if_neg h, show (Act.leakyRelu k).fn z = z by rw [e]; exact if_neg h]; exact if_neg h
  rw [this]; exact key

theorem expm1_neg {z : ℝ} (h : z < 0) : Real.exp z - 1 < 0 := by
  have := Real.exp_lt_exp.mpr h; rw [Real.exp_zero] at this; linarith

theorem deriv_expm1 (c z : ℝ) : HasDerivAt (fun x => c * (Real.exp x - 1)) (c * Real.exp z) z :=
  ((Real.hasDerivAt_exp z).sub_const 1).const_mul c

theorem milli_pos {a : ℕ} (h : 0 < a) : (0 : ℝ) < a / 1000 := by
  have : (0 : ℝ) < a := by exact_mod_cast h
  positivity

theorem deriv_elu {a : ℕ} (ha : 0 < a) {z : ℝ} (hd : z = 0 → DifferentiableAt ℝ (Act.elu a).fn z) :
    HasDerivAt (Act.elu a).fn ((Act.elu a).df ((Act.elu a).fn z)) z := by
  have hp := milli_pos ha
  have key := pw_deriv (g := fun x => a / 1000 * (Real.exp x - 1)) (h := fun x => x) (z := z) (fun _ => deriv_expm1 _ _) (fun _ => hasDerivAt_id' _) hd
  have : (Act.elu a).df ((Act.elu a).fn z) = if z < 0 then a / 1000 * Real.exp z else 1 := by
    rw [delu_cases]
    by_cases h : z < 0
    · rw [if_pos h, show (Act.elu a).fn z = a / 1000 * (Real.exp z - 1) from if_pos h]
      unfold kDElu milli
      rw [if_pos (mul_neg_of_pos_of_neg hp (expm1_neg h))]; ring
    · rw [if_neg h, show (Act.elu a).fn z = z from if_neg h]; exact if_neg h
  rw [this]; exact key

theorem logb_nonneg' {b z : ℝ} (hb : 1 < b) (hz : 0 ≤ z) : 0 ≤ Real.logb b (1 + z) := Real.logb_nonneg hb (by linarith)

theorem deriv_elogu {a b : ℕ} (ha : 0 < a) (hb : 1000 < b) {z : ℝ} (hd : z = 0 → DifferentiableAt ℝ (Act.elogu a b).fn z) :
    HasDerivAt (Act.elogu a b).fn ((Act.elogu a b).df ((Act.elogu a b).fn z)) z := by
  have hp := milli_pos ha
  have hb' := base_pos hb
  have key := pw_deriv (g := fun x => a / 1000 * (Real.exp x - 1)) (h := fun x => Real.logb (base b) (1 + x)) (z := z)
    (fun _ => deriv_expm1 _ _) (fun h => deriv_log1p h) hd
  have : (Act.elogu a b).df ((Act.elogu a b).fn z) = if z < 0 then a / 1000 * Real.exp z else 1 / (1 + z) / Real.log (base b) := by
    rw [delogu_cases]
    by_cases h : z < 0
    · rw [if_pos h, show (Act.elogu a b).fn z = a / 1000 * (Real.exp z - 1) from if_pos h]
      unfold kDElogu milli
      rw [if_pos (mul_neg_of_pos_of_neg hp (expm1_neg h))]; ring
    · rw [if_neg h, show (Act.elogu a b).fn z = Real.logb (base b) (1 + z) from if_neg h]
      unfold kDElogu
      rw [if_neg (not_lt.mpr (logb_nonneg' hb' (not_lt.mp h))), exp_logb hb' (not_lt.mp h)]
  rw [this]; exact key

theorem deriv_log1m {b z : ℝ} (hz : z < 0) : HasDerivAt (fun x => -Real.logb b (1 - x)) (1 / (1 - z) / Real.log b) z := by
  have := (((hasDerivAt_id z).const_sub 1).log (by simp only [id]; linarith)).div_const (Real.log b)
  refine this.neg.congr_deriv ?_
  simp only [id]; ring

theorem exp_logb_neg {b z : ℝ} (hb : 1 < b) (hz : z < 0) :
    Real.exp (-Real.logb b (1 - z) * Real.log b + (-Real.log (Real.log b))) = 1 / (1 - z) / Real.log b := by
  have hl := Real.log_pos hb
  rw [Real.exp_add, Real.exp_neg, Real.exp_log hl, Real.logb, neg_mul, div_mul_cancel₀ _ hl.ne', Real.exp_neg, Real.exp_log (by linarith)]
  field_simp

theorem deriv_loglogu {n p : ℕ} (hn : 1000 < n) (hp : 1000 < p) {z : ℝ} (hd : z = 0 → DifferentiableAt ℝ (Act.loglogu n p).fn z) :
    HasDerivAt (Act.loglogu n p).fn ((Act.loglogu n p).df ((Act.loglogu n p).fn z)) z := by
  have hn' := base_pos hn
  have hp' := base_pos hp
  have key := pw_deriv (g := fun x => -Real.logb (base n) (1 - x)) (h := fun x => Real.logb (base p) (1 + x)) (z := z)
    (fun h => deriv_log1m h) (fun h => deriv_log1p h) hd
  have : (Act.loglogu n p).df ((Act.loglogu n p).fn z) =
      if z < 0 then 1 / (1 - z) / Real.log (base n) else 1 / (1 + z) / Real.log (base p) := by
    rw [dloglogu_cases]
    by_cases h : z < 0
    · rw [if_pos h, show (Act.loglogu n p).fn z = -Real.logb (base n) (1 - z) from if_pos h]
      unfold kDLoglogu
      rw [if_pos (neg_neg_of_pos (Real.logb_pos hn' (by linarith))), exp_logb_neg hn' h]
    · rw [if_neg h, show (Act.loglogu n p).fn z = Real.logb (base p) (1 + z) from if_neg h]
      unfold kDLoglogu
      rw [if_neg (not_lt.mpr (logb_nonneg' hp' (not_lt.mp h))), exp_logb hp' (not_lt.mp h)]
  rw [this]; exact key

theorem deriv_logu {b : ℕ} (hb : 1000 < b) {z : ℝ} (hd : z = 0 → DifferentiableAt ℝ (Act.logu b).fn z) :
    HasDerivAt (Act.logu b).fn ((Act.logu b).df ((Act.logu b).fn z)) z := by
  have hb' := base_pos hb
  have e : (Act.logu b).fn = fun x : ℝ => if x ≤ 0 then (fun _ => 0) x else Real.logb (base b) (1 + x) := by
    funext x
    simp only [Act.fn]
    rcases lt_trichotomy x 0 with h | h | h
    · rw [if_pos h, if_pos h.le]
    · subst h; simp
    · rw [if_neg (by linarith), if_neg (by linarith)]
  have key := pw_deriv_le (g := fun _ => (0 : ℝ)) (h := fun x => Real.logb (base b) (1 + x)) (g' := 0) (z := z) (fun _ => hasDerivAt_const _ _)
    (fun h => deriv_log1p h.le) (e ▸ hd)
  rw [← e] at key
  have : (Act.logu b).df ((Act.logu b).fn z) = if z ≤ 0 then 0 else 1 / (1 + z) / Real.log (base b) := by
    rw [dlogu_cases]
    by_cases h : z ≤ 0
    · rw [if_pos h, show (Act.logu b).fn z = 0 by rw [e]; exact if_pos h]; exact if_pos le_rfl
    · have := Real.logb_pos hb' (show 1 < 1 + z by linarith)
      rw [if_neg h, show (Act.logu b).fn z = Real.logb (base b) (1 + z) by rw [e]; exact if_neg h]
      unfold kDLogu
      rw [if_neg (not_le.mpr this), exp_logb hb' (by linarith)]
  rw [this]; exact key

/-- `z / (a + |z|)` is smooth at zero as well. -/
theorem deriv_ratio {a : ℝ} (ha : 0 < a) (z : ℝ) : HasDerivAt (fun x => x / (a + |x|)) (a / (a + |z|) ^ 2) z := by
  rcases lt_trichotomy z 0 with h | h | h
  · have := (hasDerivAt_id z).div ((hasDerivAt_id z).const_sub a) (by simp only [id]; linarith)
    have h2 : HasDerivAt (fun x => x / (a + |x|)) _ z := this.congr_of_eventuallyEq (by
      filter_upwards [gt_mem_nhds h] with x hx
      simp only [Pi.div_apply, id, abs_of_neg hx, sub_eq_add_neg])
    refine h2.congr_deriv ?_
    rw [abs_of_neg h]; simp only [id]; rw [← sub_eq_add_neg]; ring
  · subst h
    rw [hasDerivAt_iff_tendsto_slope]
    have : ∀ x : ℝ, x ≠ 0 → slope (fun x => x / (a + |x|)) 0 x = 1 / (a + |x|) := by
      intro x hx
      have : a + |x| ≠ 0 := by have := abs_nonneg x; linarith
      simp only [slope_def_field, abs_zero, zero_div, sub_zero]
      field_simp
    have hc : Tendsto (fun x : ℝ => 1 / (a + |x|)) (𝓝[≠] 0) (𝓝 (a / (a + |(0:ℝ)|) ^ 2)) := by
      have hcont : ContinuousAt (fun x : ℝ => 1 / (a + |x|)) 0 :=
        continuousAt_const.div (continuousAt_const.add continuous_abs.continuousAt) (by simp; linarith)
      have := hcont.tendsto.mono_left (nhdsWithin_le_nhds (s := {0}ᶜ))
      convert this using 2
      simp; field_simp
    refine hc.congr' ?_
    filter_upwards [self_mem_nhdsWithin] with x hx
    exact (this x hx).symm
  · have := (hasDerivAt_id z).div ((hasDerivAt_id z).const_add a) (by simp only [id]; linarith)
    have h2 : HasDerivAt (fun x => x / (a + |x|)) _ z := this.congr_of_eventuallyEq (by
      filter_upwards [lt_mem_nhds h] with x hx
      simp only [Pi.div_apply, id, abs_of_pos hx])
    refine h2.congr_deriv ?_
    rw [abs_of_pos h]; simp only [id]; ring

theorem abs_ratio {a : ℝ} (ha : 0 < a) (z : ℝ) : |z / (a + |z|)| = |z| / (a + |z|) := by
  rw [abs_div, abs_of_pos (by have := abs_nonneg z; linarith : 0 < a + |z|)]

theorem deriv_softsign {a c : ℕ} (ha : 0 < a) (z : ℝ) :
    HasDerivAt (Act.softsign a c).fn ((Act.softsign a c).df ((Act.softsign a c).fn z)) z := by
  have ha' : (0 : ℝ) < a / 10 ^ 6 := by have : (0 : ℝ) < a := by exact_mod_cast ha
                                        positivity
  have hc := softsignC_pos c
  have key := (deriv_ratio ha' z).const_mul (softsignC c)
  have e : (fun y => softsignC c * (y / ((a : ℝ) / 10 ^ 6 + |y|))) = (Act.softsign a c).fn := by
    funext y; simp only [Act.fn, scaleOfSoftsign_eq]; ring
  rw [e] at key
  refine HasDerivAt.congr_deriv key (Eq.symm ?_)
  rw [dsoftsign_cases, ← e]
  simp only [kDSoftsign]
  rw [abs_mul, abs_ratio ha', abs_of_pos hc]
  have hn := abs_nonneg z
  generalize |z| = w at hn ⊢
  generalize (a : ℝ) / 10 ^ 6 = A at ha' ⊢
  have : A + w ≠ 0 := by linarith
  field_simp
  ring

theorem deriv_softsigm {a : ℕ} (ha : 0 < a) (z : ℝ) :
    HasDerivAt (Act.softsigm a).fn ((Act.softsigm a).df ((Act.softsigm a).fn z)) z := by
  have ha' : (0 : ℝ) < a / 1000 := milli_pos ha
  have key := ((deriv_ratio ha' z).const_add 1).div_const 2
  have e : (fun y => (1 + y / ((a : ℝ) / 1000 + |y|)) / 2) = (Act.softsigm a).fn := by funext y; simp only [Act.fn]
  have key : HasDerivAt (Act.softsigm a).fn ((a : ℝ) / 1000 / ((a : ℝ) / 1000 + |z|) ^ 2 / 2) z := by rw [← e]; exact key
  refine HasDerivAt.congr_deriv key (Eq.symm ?_)
  rw [← e]
  show kDSoftsigm (milli a) _ = _
  simp only [kDSoftsigm, milli]
  have : (1 + z / ((a : ℝ) / 1000 + |z|)) / 2 - 1 / 2 = z / ((a : ℝ) / 1000 + |z|) / 2 := by ring
  rw [this, abs_div, abs_ratio ha', abs_of_pos (by norm_num : (0:ℝ) < 2)]
  have hn := abs_nonneg z
  generalize |z| = w at hn ⊢
  generalize (a : ℝ) / 1000 = A at ha' ⊢
  have : A + w ≠ 0 := by linarith
  field_simp
  ring

theorem deriv_selu {a l : ℤ} (ha : 0 ≤ a) (hl : 0 ≤ l) {z : ℝ} (hd : z = 0 → DifferentiableAt ℝ (Act.selu a l).fn z) :
    HasDerivAt (Act.selu a l).fn ((Act.selu a l).df ((Act.selu a l).fn z)) z := by
  have hA := seluAlpha_pos ha
  have hL := seluLambda_pos hl
  have e : (Act.selu a l).fn = fun x : ℝ => if x < 0 then (seluAlpha a * seluLambda l) * (Real.exp x - 1) else x * seluLambda l := by
    funext x; rw [← f_eq]; simp only [Act.f, kSelu, expm1]; split <;> ring
  have key := pw_deriv (g := fun x => (seluAlpha a * seluLambda l) * (Real.exp x - 1)) (h := fun x => x * seluLambda l) (h' := seluLambda l)
    (z := z) (fun _ => deriv_expm1 _ _) (fun _ => by simpa using (hasDerivAt_id z).mul_const (seluLambda l)) (e ▸ hd)
  rw [← e] at key
  have : (Act.selu a l).df ((Act.selu a l).fn z) = if z < 0 then (seluAlpha a * seluLambda l) * Real.exp z else seluLambda l := by
    show kDSelu _ _ _ = _
    by_cases h : z < 0
    · rw [if_pos h, show (Act.selu a l).fn z = (seluAlpha a * seluLambda l) * (Real.exp z - 1) by rw [e]; exact if_pos h]
      unfold kDSelu
      rw [if_pos (mul_neg_of_pos_of_neg (mul_pos hA hL) (expm1_neg h))]; ring
    · rw [if_neg h, show (Act.selu a l).fn z = z * seluLambda l by rw [e]; exact if_neg h]
      exact if_neg (not_lt.mpr (mul_nonneg (not_lt.mp h) hL.le))
  rw [this]; exact key

theorem deriv_step {z : ℝ} (hd : z = 0 → DifferentiableAt ℝ Act.step.fn z) : HasDerivAt Act.step.fn 0 z := by
  have key := pw_deriv (g := fun _ => (0 : ℝ)) (h := fun _ => 1) (g' := 0) (h' := 0) (z := z)
    (fun _ => hasDerivAt_const _ _) (fun _ => hasDerivAt_const _ _) hd
  rw [ite_self] at key; exact key

/-- All activations. -/
theorem df_correct (act : Act) (ha : act.Args) (z : ℝ) (hd : z = 0 → DifferentiableAt ℝ act.fn z) :
    HasDerivAt act.fn (act.df (act.fn z)) z := by
  cases act with
  | sigm => exact deriv_sigm z
  | relu => exact deriv_relu hd
  | leakyRelu k => exact deriv_leaky ha hd
  | elu a => exact deriv_elu ha hd
  | elogu a b => exact deriv_elogu ha.1 ha.2 hd
  | loglogu n p => exact deriv_loglogu ha.1 ha.2 hd
  | logu b => exact deriv_logu ha hd
  | softsign a c => exact deriv_softsign ha z
  | softsigm a => exact deriv_softsigm ha z
  | selu a l => exact deriv_selu ha.1 ha.2 hd
  | step => exact deriv_step hd
  | identity => exact hasDerivAt_id' z

end Nntl.Act
