import Verif.Utils.ConfusionProps
/-!
Model of the scores of `nntl/utils/confusion_mtx.h` 93–129 and C76: their ranges and relations. The integer part of every score is computed in
`vec_len_t` arithmetic (overflow is undefined behaviour), the final division in exact reals here (`real_t` in the code). Division by zero (NaN in the
code) is kept apart as `none`.
-/
namespace Nntl.Utils.Cm

/-- `static_cast<real_t>(a) / b`; `none` if `b` is zero. -/
noncomputable def ratio (a b : Int) : Option ℝ := if b = 0 then none else some ((a : ℝ) / (b : ℝ))

/-- `Sensitivity` = `Recall` = `TPR`, confusion_mtx.h 93–95. -/
noncomputable def recall (tp _fp _tn fn : Int) : Out (Option ℝ) := (add32 tp fn).bind fun d => .ok (ratio tp d)

/-- `Specificity` = `TNR`, confusion_mtx.h 97–98. -/
noncomputable def specificity (_tp fp tn _fn : Int) : Out (Option ℝ) := (add32 tn fp).bind fun d => .ok (ratio tn d)

/-- `Precision` = `PPV`, confusion_mtx.h 100–101. -/
noncomputable def precision (tp fp _tn _fn : Int) : Out (Option ℝ) := (add32 tp fp).bind fun d => .ok (ratio tp d)

/-- `NPV`, confusion_mtx.h 103. -/
noncomputable def npv (_tp _fp tn fn : Int) : Out (Option ℝ) := (add32 tn fn).bind fun d => .ok (ratio tn d)

/-- `Accuracy`, confusion_mtx.h 105, with `AllCnt`, 90 (`accumulate` from 0 in the order of the array). -/
noncomputable def accuracy (tp fp tn fn : Int) : Out (Option ℝ) :=
  (add32 tp tn).bind fun a => (add32 0 tn).bind fun s => (add32 s fn).bind fun s => (add32 s fp).bind fun s => (add32 s tp).bind fun s => .ok (ratio a s)

/-- `Jaccard`, confusion_mtx.h 115–117. -/
noncomputable def jaccard (tp fp _tn fn : Int) : Out (Option ℝ) := (add32 tp fp).bind fun d => (add32 d fn).bind fun d => .ok (ratio tp d)

/-- `F1Score`, confusion_mtx.h 119–122. -/
noncomputable def f1 (tp fp _tn fn : Int) : Out (Option ℝ) :=
  (mul32 2 tp).bind fun t => (add32 t fp).bind fun d => (add32 d fn).bind fun d => .ok (ratio t d)

/-- `FBetaScore`, confusion_mtx.h 125–129: everything in `real_t`. -/
noncomputable def fBeta (beta : ℝ) (tp fp _tn fn : Int) : Option ℝ :=
  let b2 := beta * beta
  let t := (1 + b2) * (tp : ℝ)
  let d := t + (fp : ℝ) + b2 * (fn : ℝ)
  if d = 0 then none else some (t / d)

/-- `MCC`, confusion_mtx.h 110–113. -/
noncomputable def mcc (tp fp tn fn : Int) : Out ℝ :=
  (mccInts tp fp tn fn).bind fun nd => .ok (if nd.2 = 0 then 0 else (nd.1 : ℝ) / Real.sqrt (nd.2 : ℝ))

theorem add32_ok {a b c : Int} (h : add32 a b = .ok c) : c = a + b := by
  unfold add32 at h; split at h
  · cases h; rfl
  · cases h
theorem mul32_ok {a b c : Int} (h : mul32 a b = .ok c) : c = a * b := by
  unfold mul32 at h; split at h
  · cases h; rfl
  · cases h
theorem sub32_ok {a b c : Int} (h : sub32 a b = .ok c) : c = a - b := by
  unfold sub32 at h; split at h
  · cases h; rfl
  · cases h

theorem bind_ok {α β : Type} {x : Out α} {f : α → Out β} {b : β} (h : x.bind f = .ok b) : ∃ a, x = .ok a ∧ f a = .ok b := by
  cases x with
  | ok a => exact ⟨a, rfl, h⟩
  | ub => cases h

/-- A score that is a share: undefined or between 0 and 1. -/
def Share (x : Option ℝ) : Prop := ∀ v, x = some v → 0 ≤ v ∧ v ≤ 1

theorem ratio_share {a b : Int} (h0 : 0 ≤ a) (h : a ≤ b) : Share (ratio a b) := by
  intro v hv
  unfold ratio at hv
  split at hv
  · cases hv
  · next hb =>
    cases hv
    have hb' : 0 < b := lt_of_le_of_ne (le_trans h0 h) (Ne.symm hb)
    have h0' : (0 : ℝ) ≤ a := by exact_mod_cast h0
    have hbr : (0 : ℝ) < b := by exact_mod_cast hb'
    have hab : (a : ℝ) ≤ b := by exact_mod_cast h
    exact ⟨div_nonneg h0' hbr.le, (div_le_one hbr).2 hab⟩

/-- **C76, shares.** Recall, specificity, precision, negative predictive value, accuracy, Jaccard index and F1 are between 0 and 1 wherever they are
defined, for all counts. -/
theorem shares_in_range {tp fp tn fn : Int} (h1 : 0 ≤ tp) (h2 : 0 ≤ fp) (h3 : 0 ≤ tn) (h4 : 0 ≤ fn)
    {f : Int → Int → Int → Int → Out (Option ℝ)} (hf : f ∈ [recall, specificity, precision, npv, accuracy, jaccard, f1]) {x : Option ℝ}
    (hx : f tp fp tn fn = .ok x) : Share x := by
  simp only [List.mem_cons, List.not_mem_nil, or_false] at hf
  rcases hf with rfl | rfl | rfl | rfl | rfl | rfl | rfl
  · obtain ⟨d, e, h⟩ := bind_ok hx; cases h; cases add32_ok e; exact ratio_share h1 (by omega)
  · obtain ⟨d, e, h⟩ := bind_ok hx; cases h; cases add32_ok e; exact ratio_share h3 (by omega)
  · obtain ⟨d, e, h⟩ := bind_ok hx; cases h; cases add32_ok e; exact ratio_share h1 (by omega)
  · obtain ⟨d, e, h⟩ := bind_ok hx; cases h; cases add32_ok e; exact ratio_share h3 (by omega)
  · obtain ⟨d, e, h⟩ := bind_ok hx
    obtain ⟨d1, e1, h⟩ := bind_ok h
    obtain ⟨d2, e2, h⟩ := bind_ok h
    obtain ⟨d3, e3, h⟩ := bind_ok h
    obtain ⟨d4, e4, h⟩ := bind_ok h
    cases h; cases add32_ok e; cases add32_ok e1; cases add32_ok e2; cases add32_ok e3; cases add32_ok e4
    exact ratio_share (by omega) (by omega)
  · obtain ⟨d, e, h⟩ := bind_ok hx
    obtain ⟨d1, e1, h⟩ := bind_ok h
    cases h; cases add32_ok e; cases add32_ok e1
    exact ratio_share h1 (by omega)
  · obtain ⟨d, e, h⟩ := bind_ok hx
    obtain ⟨d1, e1, h⟩ := bind_ok h
    obtain ⟨d2, e2, h⟩ := bind_ok h
    cases h; cases mul32_ok e; cases add32_ok e1; cases add32_ok e2
    exact ratio_share (by omega) (by omega)

/-- The number of samples `(answer, prediction)` that satisfy a condition. -/
def among (l : List (Bool × Bool)) (p : Bool → Bool → Bool) : Int := (l.countP fun s => p s.1 s.2 : Nat)

/-- The share of the samples satisfying `p` among those satisfying `q`; undefined if there are none of the latter. -/
noncomputable def shareOf (l : List (Bool × Bool)) (p q : Bool → Bool → Bool) : Option ℝ :=
  if among l q = 0 then none else some ((among l p : ℝ) / among l q)

theorem among_add (l : List (Bool × Bool)) (p q r : Bool → Bool → Bool) (h : ∀ a b, (if r a b then 1 else 0) = (if p a b then 1 else 0) + (if q a b then 1 else 0)) :
    among l r = among l p + among l q := by
  unfold among
  induction l with
  | nil => rfl
  | cons s l ih =>
    have := h s.1 s.2
    simp only [List.countP_cons]
    generalize r s.1 s.2 = x at *
    generalize p s.1 s.2 = y at *
    generalize q s.1 s.2 = z at *
    cases x <;> cases y <;> cases z <;> simp only [if_true, Bool.false_eq_true, if_false] at this ⊢ <;> omega

/-- **C76, meaning.** Over any list of samples, with the counters of its four kinds of samples (`Cm.counters_exact`): accuracy is the share of right
predictions among all samples, recall the share of the positives that were found, specificity the share of the negatives that were found, precision
and negative predictive value the shares of right predictions among those of their kind, the Jaccard index the share of the samples that are positive
and found among those that are one or the other. -/
theorem scores_of_samples (l : List (Bool × Bool)) (tp fp tn fn : Int) (h1 : tp = among l fun a p => a && p) (h2 : fp = among l fun a p => !a && p)
    (h3 : tn = among l fun a p => !a && !p) (h4 : fn = among l fun a p => a && !p) :
    (∀ x, accuracy tp fp tn fn = .ok x → x = shareOf l (fun a p => a == p) fun _ _ => true) ∧
    (∀ x, recall tp fp tn fn = .ok x → x = shareOf l (fun a p => a && p) fun a _ => a) ∧
    (∀ x, specificity tp fp tn fn = .ok x → x = shareOf l (fun a p => !a && !p) fun a _ => !a) ∧
    (∀ x, precision tp fp tn fn = .ok x → x = shareOf l (fun a p => a && p) fun _ p => p) ∧
    (∀ x, npv tp fp tn fn = .ok x → x = shareOf l (fun a p => !a && !p) fun _ p => !p) ∧
    (∀ x, jaccard tp fp tn fn = .ok x → x = shareOf l (fun a p => a && p) fun a p => a || p) := by
  have a1 := among_add l (fun a p => a && p) (fun a p => !a && p) (fun _ p => p) (by decide)
  have a2 := among_add l (fun a p => a && p) (fun a p => a && !p) (fun a _ => a) (by decide)
  have a3 := among_add l (fun a p => !a && !p) (fun a p => !a && p) (fun a _ => !a) (by decide)
  have a4 := among_add l (fun a p => !a && !p) (fun a p => a && !p) (fun _ p => !p) (by decide)
  have a5 := among_add l (fun a p => a && p) (fun a p => !a && !p) (fun a p => a == p) (by decide)
  have a6 := among_add l (fun a _ => a) (fun a _ => !a) (fun _ _ => true) (by decide)
  have a7 := among_add l (fun _ p => p) (fun a p => a && !p) (fun a p => a || p) (by decide)
  have key : ∀ {p q : Bool → Bool → Bool} {m n : Int}, m = among l p → n = among l q → ratio m n = shareOf l p q := by
    intro p q m n hm hn; rw [hm, hn]; rfl
  refine ⟨fun x hx => ?_, fun x hx => ?_, fun x hx => ?_, fun x hx => ?_, fun x hx => ?_, fun x hx => ?_⟩
  · obtain ⟨d, e, h⟩ := bind_ok hx
    obtain ⟨d1, e1, h⟩ := bind_ok h
    obtain ⟨d2, e2, h⟩ := bind_ok h
    obtain ⟨d3, e3, h⟩ := bind_ok h
    obtain ⟨d4, e4, h⟩ := bind_ok h
    cases h; cases add32_ok e; cases add32_ok e1; cases add32_ok e2; cases add32_ok e3; cases add32_ok e4
    exact key (by omega) (by omega)
  · obtain ⟨d, e, h⟩ := bind_ok hx; cases h; cases add32_ok e; exact key (by omega) (by omega)
  · obtain ⟨d, e, h⟩ := bind_ok hx; cases h; cases add32_ok e; exact key (by omega) (by omega)
  · obtain ⟨d, e, h⟩ := bind_ok hx; cases h; cases add32_ok e; exact key (by omega) (by omega)
  · obtain ⟨d, e, h⟩ := bind_ok hx; cases h; cases add32_ok e; exact key (by omega) (by omega)
  · obtain ⟨d, e, h⟩ := bind_ok hx
    obtain ⟨d1, e1, h⟩ := bind_ok h
    cases h; cases add32_ok e; cases add32_ok e1
    exact key (by omega) (by omega)

/-- Six samples: one of each kind and two more right ones. -/
example : shareOf [(true, true), (true, false), (false, true), (false, false), (true, true), (false, false)] (fun a p => a == p) (fun _ _ => true) =
    some ((4 : ℝ) / 6) := by
  simp [shareOf, among]

/-- F1 is the harmonic mean of precision and recall wherever these are defined and not both zero; it is `FBetaScore(1)`. -/
theorem f1_harmonic {tp fp tn fn : Int} (h1 : 0 < tp) (h2 : 0 ≤ fp) (h4 : 0 ≤ fn) {p r f : Option ℝ}
    (hp : precision tp fp tn fn = .ok p) (hr : recall tp fp tn fn = .ok r) (hf : f1 tp fp tn fn = .ok f) :
    ∃ p' r', p = some p' ∧ r = some r' ∧ f = some (2 * p' * r' / (p' + r')) ∧ f = fBeta 1 tp fp tn fn := by
  obtain ⟨d, e, h⟩ := bind_ok hp; cases h; cases add32_ok e
  obtain ⟨d, e, h⟩ := bind_ok hr; cases h; cases add32_ok e
  obtain ⟨d, e, h⟩ := bind_ok hf
  obtain ⟨d1, e1, h⟩ := bind_ok h
  obtain ⟨d2, e2, h⟩ := bind_ok h
  cases h; cases mul32_ok e; cases add32_ok e1; cases add32_ok e2
  have t0 : (0 : ℝ) < tp := by exact_mod_cast h1
  have f0 : (0 : ℝ) ≤ fp := by exact_mod_cast h2
  have n0 : (0 : ℝ) ≤ fn := by exact_mod_cast h4
  have a1 : (tp : ℝ) + fp ≠ 0 := by positivity
  have a2 : (tp : ℝ) + fn ≠ 0 := by positivity
  have a3 : 2 * (tp : ℝ) + fp + fn ≠ 0 := by positivity
  refine ⟨(tp : ℝ) / (tp + fp), (tp : ℝ) / (tp + fn), ?_, ?_, ?_, ?_⟩
  · unfold ratio; rw [if_neg (by omega)]; push_cast; rfl
  · unfold ratio; rw [if_neg (by omega)]; push_cast; rfl
  · unfold ratio; rw [if_neg (by omega)]; push_cast
    have a4 : (tp : ℝ) / (tp + fp) + tp / (tp + fn) ≠ 0 := by positivity
    congr 1
    rw [div_eq_div_iff a3 a4]
    field_simp
    ring
  · unfold ratio fBeta; rw [if_neg (by omega)]; push_cast
    have a5 : (1 + 1 * 1) * (tp : ℝ) + fp + 1 * 1 * fn ≠ 0 := by
      rw [show (1 + 1 * 1) * (tp : ℝ) + fp + 1 * 1 * fn = 2 * tp + fp + fn by ring]; exact a3
    simp only [a5, if_false]
    congr 1
    rw [show (1 + 1 * 1) * (tp : ℝ) + fp + 1 * 1 * fn = 2 * tp + fp + fn by ring, show (1 + 1 * 1) * (tp : ℝ) = 2 * tp by ring]

theorem mccInts_ok {tp fp tn fn num den : Int} (h : mccInts tp fp tn fn = .ok (num, den)) :
    den = (tp + fp) * (tp + fn) * (tn + fp) * (tn + fn) ∧ (den ≠ 0 → num = tp * tn - fp * fn) := by
  unfold mccInts at h
  obtain ⟨a, ea, h⟩ := bind_ok h
  obtain ⟨b, eb, h⟩ := bind_ok h
  obtain ⟨c, ec, h⟩ := bind_ok h
  obtain ⟨d, ed, h⟩ := bind_ok h
  obtain ⟨ab, eab, h⟩ := bind_ok h
  obtain ⟨abc, eabc, h⟩ := bind_ok h
  obtain ⟨dd, edd, h⟩ := bind_ok h
  have : dd = (tp + fp) * (tp + fn) * (tn + fp) * (tn + fn) := by
    rw [mul32_ok edd, mul32_ok eabc, mul32_ok eab, add32_ok ea, add32_ok eb, add32_ok ec, add32_ok ed]
  split at h
  · next hz =>
    cases h
    exact ⟨by rw [← this, hz], fun h => absurd rfl h⟩
  · obtain ⟨x, ex, h⟩ := bind_ok h
    obtain ⟨y, ey, h⟩ := bind_ok h
    obtain ⟨z, ez, h⟩ := bind_ok h
    cases h
    exact ⟨this, fun _ => by rw [sub32_ok ez, mul32_ok ex, mul32_ok ey]⟩

/-- **C76, correlation.** Whenever the integer arithmetic of the correlation coefficient does not overflow, the result is the Matthews formula and lies
between -1 and 1. -/
theorem mcc_in_range_partial {tp fp tn fn : Int} (h1 : 0 ≤ tp) (h2 : 0 ≤ fp) (h3 : 0 ≤ tn) (h4 : 0 ≤ fn) {v : ℝ} (h : mcc tp fp tn fn = .ok v) :
    -1 ≤ v ∧ v ≤ 1 ∧ v = ((tp : ℝ) * tn - fp * fn) / Real.sqrt ((tp + fp) * (tp + fn) * (tn + fp) * (tn + fn)) := by
  obtain ⟨⟨num, den⟩, e, h⟩ := bind_ok h
  obtain ⟨hd, hn⟩ := mccInts_ok e
  have t0 : (0 : ℝ) ≤ tp := by exact_mod_cast h1
  have f0 : (0 : ℝ) ≤ fp := by exact_mod_cast h2
  have s0 : (0 : ℝ) ≤ tn := by exact_mod_cast h3
  have n0 : (0 : ℝ) ≤ fn := by exact_mod_cast h4
  have hdr : (den : ℝ) = (tp + fp) * (tp + fn) * (tn + fp) * (tn + fn) := by rw [hd]; push_cast; ring
  cases h
  dsimp only
  split
  · next hz =>
    rw [← hdr, hz]
    simp
  · next hz =>
    have hnr : (num : ℝ) = (tp : ℝ) * tn - fp * fn := by rw [hn hz]; push_cast; ring
    have hsq : ((num : ℝ)) ^ 2 ≤ den := by
      rw [hdr, hnr]
      have p1 : (tp : ℝ) * tn + fp * fn ≤ (tp + fp) * (tn + fn) := by nlinarith [mul_nonneg t0 n0, mul_nonneg f0 s0]
      have p2 : (tp : ℝ) * tn + fp * fn ≤ (tp + fn) * (tn + fp) := by nlinarith [mul_nonneg t0 f0, mul_nonneg n0 s0]
      have q : 0 ≤ (tp : ℝ) * tn + fp * fn := by positivity
      have p3 := mul_le_mul p1 p2 q (by positivity)
      have p4 : ((tp : ℝ) * tn - fp * fn) ^ 2 ≤ (tp * tn + fp * fn) * (tp * tn + fp * fn) := by
        nlinarith [mul_nonneg (mul_nonneg t0 s0) (mul_nonneg f0 n0)]
      calc ((tp : ℝ) * tn - fp * fn) ^ 2 ≤ (tp * tn + fp * fn) * (tp * tn + fp * fn) := p4
        _ ≤ (tp + fp) * (tn + fn) * ((tp + fn) * (tn + fp)) := p3
        _ = _ := by ring
    have hden : 0 < (den : ℝ) := by
      have : 0 ≤ (den : ℝ) := le_trans (sq_nonneg _) hsq
      exact lt_of_le_of_ne this (Ne.symm (by exact_mod_cast hz))
    have hs : 0 < Real.sqrt (den : ℝ) := Real.sqrt_pos.2 hden
    have habs := Real.abs_le_sqrt hsq
    rw [abs_le] at habs
    refine ⟨?_, ?_, ?_⟩
    · rw [le_div_iff₀ hs]; linarith [habs.1]
    · rw [div_le_one hs]; exact habs.2
    · rw [hnr, hdr]

/-- With 200 samples in each cell (800 samples altogether) the correlation coefficient overflows: the denominator needs 400⁴. -/
theorem mcc_overflows : mcc 200 200 200 200 = .ub := by
  have : mccInts 200 200 200 200 = .ub := by
    simp [mccInts, add32, mul32, Out.bind]
  unfold mcc
  rw [this]
  rfl

theorem add32_eq {a b : Int} (h0 : -2147483648 ≤ a + b) (h1 : a + b ≤ 2147483647) : add32 a b = .ok (a + b) := if_pos ⟨h0, h1⟩

theorem mul32_cases (a b : Int) : mul32 a b = .ok (a * b) ∨ mul32 a b = .ub := by
  unfold mul32
  split
  · exact Or.inl rfl
  · exact Or.inr rfl

/-- **C76, false of the code: the coefficient of any counts.** With at least 128 samples of each kind the product of the margins needs more than 32 bits. -/
theorem mcc_overflows_many {tp fp tn fn : Int} (h1 : 128 ≤ tp) (h2 : 128 ≤ fp) (h3 : 128 ≤ tn) (h4 : 128 ≤ fn) (hl : tp + fp + tn + fn ≤ 2147483647) :
    mcc tp fp tn fn = .ub := by
  have key : mccInts tp fp tn fn = .ub := by
    unfold mccInts
    rw [add32_eq (by omega) (by omega), add32_eq (by omega) (by omega), add32_eq (by omega) (by omega), add32_eq (by omega) (by omega)]
    dsimp only [Out.bind]
    have b1 : (256 : Int) * 256 ≤ (tp + fp) * (tp + fn) := mul_le_mul (by omega) (by omega) (by omega) (by omega)
    rcases mul32_cases (tp + fp) (tp + fn) with e | e <;> rw [e]
    dsimp only
    have b2 : (256 : Int) * 256 * 256 ≤ (tp + fp) * (tp + fn) * (tn + fp) := mul_le_mul b1 (by omega) (by omega) (by omega)
    rcases mul32_cases ((tp + fp) * (tp + fn)) (tn + fp) with e | e <;> rw [e]
    dsimp only
    have b3 : (256 : Int) * 256 * 256 * 256 ≤ (tp + fp) * (tp + fn) * (tn + fp) * (tn + fn) := mul_le_mul b2 (by omega) (by omega) (by omega)
    have e : mul32 ((tp + fp) * (tp + fn) * (tn + fp)) (tn + fn) = .ub := by
      unfold mul32
      rw [if_neg (by omega)]
    rw [e]
  unfold mcc
  rw [key]
  rfl

/-- **C76, weighted F scores.** `FBetaScore(beta)` is the harmonic mean of precision and recall in which recall has the weight `beta²`. -/
theorem fBeta_weighted_mean {tp fp tn fn : Int} (beta : ℝ) (h1 : 0 < tp) (h2 : 0 ≤ fp) (h4 : 0 ≤ fn) {p r : Option ℝ}
    (hp : precision tp fp tn fn = .ok p) (hr : recall tp fp tn fn = .ok r) :
    ∃ p' r', p = some p' ∧ r = some r' ∧ fBeta beta tp fp tn fn = some ((1 + beta ^ 2) / (1 / p' + beta ^ 2 * (1 / r'))) := by
  obtain ⟨d, e, h⟩ := bind_ok hp; cases h; cases add32_ok e
  obtain ⟨d, e, h⟩ := bind_ok hr; cases h; cases add32_ok e
  have t0 : (0 : ℝ) < tp := by exact_mod_cast h1
  have f0 : (0 : ℝ) ≤ fp := by exact_mod_cast h2
  have n0 : (0 : ℝ) ≤ fn := by exact_mod_cast h4
  have a1 : (tp : ℝ) + fp ≠ 0 := by positivity
  have a2 : (tp : ℝ) + fn ≠ 0 := by positivity
  refine ⟨(tp : ℝ) / (tp + fp), (tp : ℝ) / (tp + fn), ?_, ?_, ?_⟩
  · unfold ratio; rw [if_neg (by omega)]; push_cast; rfl
  · unfold ratio; rw [if_neg (by omega)]; push_cast; rfl
  · have a5 : (1 + beta * beta) * (tp : ℝ) + fp + beta * beta * fn ≠ 0 := by
      have : 0 ≤ beta * beta := mul_self_nonneg beta
      positivity
    have a6 : 1 / ((tp : ℝ) / (tp + fp)) + beta ^ 2 * (1 / ((tp : ℝ) / (tp + fn))) ≠ 0 := by positivity
    unfold fBeta
    simp only [a5, if_false]
    congr 1
    rw [div_eq_div_iff a5 a6]
    field_simp
    ring

/-- `Informedness`, confusion_mtx.h 107; no number if one of the shares is none. -/
noncomputable def informedness (tp fp tn fn : Int) : Out (Option ℝ) :=
  (recall tp fp tn fn).bind fun a => (specificity tp fp tn fn).bind fun b => .ok (do let x ← a; let y ← b; pure (x + y - 1))

/-- `Markedness`, confusion_mtx.h 108. -/
noncomputable def markedness (tp fp tn fn : Int) : Out (Option ℝ) :=
  (precision tp fp tn fn).bind fun a => (npv tp fp tn fn).bind fun b => .ok (do let x ← a; let y ← b; pure (x + y - 1))

/-- **C76.** Informedness and markedness are between -1 and 1 wherever they are defined; 1 means that there were no errors. -/
theorem differences_in_range {tp fp tn fn : Int} (h1 : 0 ≤ tp) (h2 : 0 ≤ fp) (h3 : 0 ≤ tn) (h4 : 0 ≤ fn) {v : ℝ}
    (h : informedness tp fp tn fn = .ok (some v) ∨ markedness tp fp tn fn = .ok (some v)) : -1 ≤ v ∧ v ≤ 1 ∧ (v = 1 ↔ fp = 0 ∧ fn = 0) := by
  have one : ∀ {a b : Int} {x : ℝ}, 0 ≤ a → 0 ≤ b → ratio a (a + b) = some x → x ≤ 1 ∧ 0 ≤ x ∧ (x = 1 ↔ b = 0) := by
    intro a b x ha hb hx
    obtain ⟨s1, s2⟩ := ratio_share (a := a) (b := a + b) ha (by omega) x hx
    refine ⟨s2, s1, ?_⟩
    unfold ratio at hx
    split at hx
    · cases hx
    next hne =>
      cases hx
      have : ((a + b : Int) : ℝ) ≠ 0 := by exact_mod_cast hne
      rw [div_eq_one_iff_eq this]
      constructor
      · intro h
        have : a = a + b := by exact_mod_cast h
        omega
      · rintro rfl; simp
  have two : ∀ {a b c d : Int}, 0 ≤ a → 0 ≤ b → 0 ≤ c → 0 ≤ d →
      (do let x ← ratio a (a + b); let y ← ratio c (c + d); pure (x + y - 1)) = some v → -1 ≤ v ∧ v ≤ 1 ∧ (v = 1 ↔ b = 0 ∧ d = 0) := by
    intro a b c d ha hb hc hd hh
    cases hx : ratio a (a + b) with
    | none => rw [hx] at hh; cases hh
    | some x =>
      cases hy : ratio c (c + d) with
      | none => rw [hx, hy] at hh; cases hh
      | some y =>
        rw [hx, hy] at hh
        have hh : x + y - 1 = v := by simpa using hh
        obtain ⟨p1, p2, p3⟩ := one ha hb hx
        obtain ⟨q1, q2, q3⟩ := one hc hd hy
        refine ⟨by linarith, by linarith, ?_⟩
        rw [← p3, ← q3]
        constructor
        · intro hv; constructor <;> linarith
        · rintro ⟨rfl, rfl⟩; linarith
  rcases h with h | h
  · obtain ⟨x, e, h⟩ := bind_ok h
    obtain ⟨y, e', h⟩ := bind_ok h
    obtain ⟨d, e1, hh⟩ := bind_ok e; cases hh; cases add32_ok e1
    obtain ⟨d, e2, hh⟩ := bind_ok e'; cases hh; cases add32_ok e2
    have := two h1 h4 h3 h2 (by simpa using h)
    exact ⟨this.1, this.2.1, by rw [this.2.2]; exact And.comm⟩
  · obtain ⟨x, e, h⟩ := bind_ok h
    obtain ⟨y, e', h⟩ := bind_ok h
    obtain ⟨d, e1, hh⟩ := bind_ok e; cases hh; cases add32_ok e1
    obtain ⟨d, e2, hh⟩ := bind_ok e'; cases hh; cases add32_ok e2
    exact two h1 h2 h3 h4 (by simpa using h)

/-- The square of the numerator reaches the denominator exactly if there are only right or only wrong predictions. -/
theorem prod_eq (a b c d : Int) (ha : 0 ≤ a) (hb : 0 ≤ b) (hc : 0 ≤ c) (hd : 0 ≤ d) (hne : (a + b) * (a + c) * (d + b) * (d + c) ≠ 0) :
    (a * d - b * c) * (a * d - b * c) = (a + b) * (a + c) * (d + b) * (d + c) ↔ (b = 0 ∧ c = 0) ∨ (a = 0 ∧ d = 0) := by
  constructor
  · intro h
    have e : (a + b) * (a + c) * (d + b) * (d + c) - (a * d - b * c) * (a * d - b * c)
        = 4 * (a * b * c * d) + a * a * (b * c) + a * a * (b * d) + a * a * (c * d) + b * b * (a * c) + b * b * (a * d) + b * b * (c * d) + c * c * (a * b)
          + c * c * (a * d) + c * c * (b * d) + d * d * (a * b) + d * d * (a * c) + d * d * (b * c) := by ring
    have p0 : 0 ≤ 4 * (a * b * c * d) := by positivity
    have p1 : 0 ≤ a * a * (b * c) := by positivity
    have p2 : 0 ≤ a * a * (b * d) := by positivity
    have p3 : 0 ≤ a * a * (c * d) := by positivity
    have p4 : 0 ≤ b * b * (a * c) := by positivity
    have p5 : 0 ≤ b * b * (a * d) := by positivity
    have p6 : 0 ≤ b * b * (c * d) := by positivity
    have p7 : 0 ≤ c * c * (a * b) := by positivity
    have p8 : 0 ≤ c * c * (a * d) := by positivity
    have p9 : 0 ≤ c * c * (b * d) := by positivity
    have pa : 0 ≤ d * d * (a * b) := by positivity
    have pb : 0 ≤ d * d * (a * c) := by positivity
    have pc : 0 ≤ d * d * (b * c) := by positivity
    have z1 : a * a * (b * c) = 0 := by linarith
    have z2 : a * a * (b * d) = 0 := by linarith
    have z3 : a * a * (c * d) = 0 := by linarith
    have za : d * d * (a * b) = 0 := by linarith
    have zb : d * d * (a * c) = 0 := by linarith
    have zc : d * d * (b * c) = 0 := by linarith
    simp only [mul_eq_zero, or_self] at z1 z2 z3 za zb zc
    simp only [ne_eq, mul_eq_zero, not_or] at hne
    omega
  · rintro (⟨rfl, rfl⟩ | ⟨rfl, rfl⟩) <;> ring

/-- **C76.** The computed coefficient is 1 or -1 exactly if the margins are not empty and there were only right or only wrong predictions. -/
theorem mcc_extreme {tp fp tn fn : Int} (h1 : 0 ≤ tp) (h2 : 0 ≤ fp) (h3 : 0 ≤ tn) (h4 : 0 ≤ fn) {v : ℝ} (h : mcc tp fp tn fn = .ok v) :
    (v = 1 ↔ 0 < tp ∧ 0 < tn ∧ fp = 0 ∧ fn = 0) ∧ (v = -1 ↔ tp = 0 ∧ tn = 0 ∧ 0 < fp ∧ 0 < fn) := by
  obtain ⟨⟨num, den⟩, e, h⟩ := bind_ok h
  obtain ⟨hd, hn⟩ := mccInts_ok e
  cases h
  dsimp only
  by_cases hz : den = 0
  · rw [if_pos hz]
    rw [hz] at hd
    have hd := hd.symm
    simp only [mul_eq_zero] at hd
    refine ⟨⟨fun h => absurd h (by norm_num), fun h => by omega⟩, ⟨fun h => absurd h (by norm_num), fun h => by omega⟩⟩
  · rw [if_neg hz]
    have hn := hn hz
    have hne : (tp + fp) * (tp + fn) * (tn + fp) * (tn + fn) ≠ 0 := by rw [← hd]; exact hz
    have hpe := prod_eq tp fp fn tn h1 h2 h4 h3 hne
    rw [← hn, ← hd] at hpe
    have hpos : 0 < den := by
      have : 0 ≤ den := by rw [hd]; positivity
      omega
    have hpr : (0 : ℝ) < den := by exact_mod_cast hpos
    have hs : 0 < Real.sqrt (den : ℝ) := Real.sqrt_pos.2 hpr
    have sq : Real.sqrt (den : ℝ) * Real.sqrt (den : ℝ) = den := Real.mul_self_sqrt hpr.le
    simp only [ne_eq, mul_eq_zero, not_or] at hne
    have back : ((num : ℝ) = Real.sqrt den ∨ (num : ℝ) = - Real.sqrt den) → num * num = den := by
      intro hh
      have : ((num * num : Int) : ℝ) = ((den : Int) : ℝ) := by
        push_cast
        rcases hh with hh | hh <;> rw [hh] <;> linarith [sq]
      exact_mod_cast this
    have forth : num * num = den → 0 ≤ num → (num : ℝ) = Real.sqrt den := by
      intro hh hp
      rw [← hh]
      push_cast
      rw [Real.sqrt_mul_self (by exact_mod_cast hp)]
    have forth' : num * num = den → num ≤ 0 → (num : ℝ) = - Real.sqrt den := by
      intro hh hp
      rw [← hh]
      push_cast
      have hp' : (num : ℝ) ≤ 0 := by exact_mod_cast hp
      rw [← neg_mul_neg, Real.sqrt_mul_self (by linarith)]
      ring
    rw [div_eq_one_iff_eq hs.ne', div_eq_iff hs.ne', neg_one_mul]
    constructor
    · constructor
      · intro hh
        rcases hpe.1 (back (Or.inl hh)) with ⟨rfl, rfl⟩ | ⟨rfl, rfl⟩
        · omega
        · have hp : (0 : ℝ) < num := by rw [hh]; exact hs
          have : 0 < num := by exact_mod_cast hp
          have : 0 ≤ fp * fn := by positivity
          omega
      · rintro ⟨p1, p2, rfl, rfl⟩
        refine forth (hpe.2 (Or.inl ⟨rfl, rfl⟩)) ?_
        rw [hn]
        have : 0 ≤ tp * tn := by positivity
        omega
    · constructor
      · intro hh
        rcases hpe.1 (back (Or.inr hh)) with ⟨rfl, rfl⟩ | ⟨rfl, rfl⟩
        · have hp : (num : ℝ) < 0 := by rw [hh]; linarith
          have : num < 0 := by exact_mod_cast hp
          have : 0 ≤ tp * tn := by positivity
          omega
        · omega
      · rintro ⟨rfl, rfl, p3, p4⟩
        refine forth' (hpe.2 (Or.inr ⟨rfl, rfl⟩)) ?_
        rw [hn]
        have : 0 ≤ fp * fn := by positivity
        omega

/-- **C76, meaning.** Over any list of samples informedness is the share of the positives that were found plus that of the negatives, less one; markedness
is the share of right predictions among the positive ones plus that among the negative ones, less one; no number if a share is none. -/
theorem differences_of_samples (l : List (Bool × Bool)) (tp fp tn fn : Int) (h1 : tp = among l fun a p => a && p) (h2 : fp = among l fun a p => !a && p)
    (h3 : tn = among l fun a p => !a && !p) (h4 : fn = among l fun a p => a && !p) :
    (∀ x, informedness tp fp tn fn = .ok x → x = match shareOf l (fun a p => a && p) fun a _ => a, shareOf l (fun a p => !a && !p) fun a _ => !a with
      | some u, some v => some (u + v - 1)
      | _, _ => none) ∧
    (∀ x, markedness tp fp tn fn = .ok x → x = match shareOf l (fun a p => a && p) fun _ p => p, shareOf l (fun a p => !a && !p) fun _ p => !p with
      | some u, some v => some (u + v - 1)
      | _, _ => none) := by
  obtain ⟨-, s2, s3, s4, s5, -⟩ := scores_of_samples l tp fp tn fn h1 h2 h3 h4
  constructor
  · intro x hx
    obtain ⟨a, e1, hx⟩ := bind_ok hx
    obtain ⟨b, e2, hx⟩ := bind_ok hx
    cases hx
    rw [← s2 a e1, ← s3 b e2]
    cases a <;> cases b <;> rfl
  · intro x hx
    obtain ⟨a, e1, hx⟩ := bind_ok hx
    obtain ⟨b, e2, hx⟩ := bind_ok hx
    cases hx
    rw [← s4 a e1, ← s5 b e2]
    cases a <;> cases b <;> rfl

/-- **C76.** With fewer than 2^31 samples all the shares and both differences are computed without overflow; F1 is if twice the number of found positives
and the errors are less than 2^31 together, and is not from 2^30 found positives on. -/
theorem scores_computed {tp fp tn fn : Int} (h1 : 0 ≤ tp) (h2 : 0 ≤ fp) (h3 : 0 ≤ tn) (h4 : 0 ≤ fn) (hs : tp + fp + tn + fn ≤ 2147483647) :
    (∀ f ∈ [recall, specificity, precision, npv, accuracy, jaccard, informedness, markedness], f tp fp tn fn ≠ .ub) ∧
    (2 * tp + fp + fn ≤ 2147483647 → f1 tp fp tn fn ≠ .ub) ∧ (1073741824 ≤ tp → f1 tp fp tn fn = .ub) := by
  have r : recall tp fp tn fn = .ok (ratio tp (tp + fn)) := by unfold recall; rw [add32_eq (by omega) (by omega)]; rfl
  have s : specificity tp fp tn fn = .ok (ratio tn (tn + fp)) := by unfold specificity; rw [add32_eq (by omega) (by omega)]; rfl
  have p : precision tp fp tn fn = .ok (ratio tp (tp + fp)) := by unfold precision; rw [add32_eq (by omega) (by omega)]; rfl
  have n : npv tp fp tn fn = .ok (ratio tn (tn + fn)) := by unfold npv; rw [add32_eq (by omega) (by omega)]; rfl
  refine ⟨?_, ?_, ?_⟩
  · intro f hf
    simp only [List.mem_cons, List.not_mem_nil, or_false] at hf
    rcases hf with rfl | rfl | rfl | rfl | rfl | rfl | rfl | rfl
    · rw [r]; nofun
    · rw [s]; nofun
    · rw [p]; nofun
    · rw [n]; nofun
    · unfold accuracy
      rw [add32_eq (by omega) (by omega)]
      simp only [Out.bind]
      rw [add32_eq (by omega) (by omega)]
      simp only [Out.bind]
      rw [add32_eq (by omega) (by omega)]
      simp only [Out.bind]
      rw [add32_eq (by omega) (by omega)]
      simp only [Out.bind]
      rw [add32_eq (by omega) (by omega)]
      nofun
    · unfold jaccard
      rw [add32_eq (by omega) (by omega)]
      simp only [Out.bind]
      rw [add32_eq (by omega) (by omega)]
      nofun
    · unfold informedness; rw [r, s]; nofun
    · unfold markedness; rw [p, n]; nofun
  · intro hf
    unfold f1
    rw [show mul32 2 tp = .ok (2 * tp) from if_pos (by omega)]
    simp only [Out.bind]
    rw [add32_eq (by omega) (by omega)]
    simp only [Out.bind]
    rw [add32_eq (by omega) (by omega)]
    nofun
  · intro hf
    unfold f1
    rw [show mul32 2 tp = .ub from if_neg (by omega)]
    rfl

/-- A case that does not overflow. -/
example : mccInts 10 2 15 3 = .ok (144, 12 * 13 * 17 * 18) := by
  simp [mccInts, add32, mul32, sub32, Out.bind]

end Nntl.Utils.Cm
