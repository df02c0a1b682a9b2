import Verif.GradCheck.Props
import Mathlib.Analysis.Calculus.Deriv.Basic
import Mathlib.Analysis.Calculus.Deriv.Slope
import Mathlib.Analysis.Calculus.Deriv.Add
import Mathlib.Analysis.Calculus.Deriv.Comp
import Mathlib.Analysis.Calculus.Deriv.Mul
import Mathlib.Analysis.Calculus.Deriv.Pow
import Mathlib.Topology.Order.OrderClosed

/-!
What a trial of the gradient check says about the derivative of the loss (C104), in real arithmetic; what it does not see; and what becomes of NaN.
-/
namespace Nntl.GradCheck

open Filter Topology

variable {R S G : Type}

/-- Real numbers. -/
noncomputable def realArith : Arith ℝ where
  zero := 0
  add := (· + ·)
  sub := (· - ·)
  mul := (· * ·)
  div := (· / ·)
  neg := fun a => -a
  abs := fun a => |a|
  nat := fun n => n
  lt := fun a b => @decide (a < b) (Classical.propDecidable _)
  isZero := fun a => @decide (a = 0) (Classical.propDecidable _)
  nan := 0
  isNaN := fun _ => false

theorem real_max (a b : ℝ) : realArith.max a b = max a b := by
  unfold Arith.max realArith
  simp only [decide_eq_true_eq]
  split
  · rw [max_eq_right (le_of_lt ‹_›)]
  · rw [max_eq_left (not_lt.1 ‹_›)]

/-- The relative difference of two numbers. -/
noncomputable def relErr (a b : ℝ) : ℝ := |a - b| / max |a| |b|

/-- C104. What a comparison finds: zero if both numbers are zero; otherwise acceptance if the relative difference is at most the limit for warnings, a warning if it is above it but below the limit for failures, a failure if it is
above the former and not below the latter. -/
theorem compare_real (lim : Limits ℝ) (an num : ℝ) : (compare realArith lim an num = .zero ↔ an = 0 ∧ num = 0) ∧ (compare realArith lim an num = .ok ↔ ¬ (an = 0 ∧ num = 0) ∧ relErr an num ≤ lim.warn) ∧
    (compare realArith lim an num = .warn ↔ ¬ (an = 0 ∧ num = 0) ∧ lim.warn < relErr an num ∧ relErr an num < lim.fail) ∧
    (compare realArith lim an num = .fail ↔ ¬ (an = 0 ∧ num = 0) ∧ lim.warn < relErr an num ∧ lim.fail ≤ relErr an num) := by
  have he : realArith.div (realArith.abs (realArith.sub an num)) (realArith.max (realArith.abs an) (realArith.abs num)) = relErr an num := by
    rw [real_max]
    rfl
  have hz : (realArith.isZero an && realArith.isZero num) = true ↔ an = 0 ∧ num = 0 := by simp [realArith]
  have hl : ∀ a b : ℝ, realArith.lt a b = true ↔ a < b := by intro a b; simp [realArith]
  unfold compare
  simp only [he]
  by_cases h : an = 0 ∧ num = 0
  · rw [if_pos (hz.2 h)]
    simp [h]
  · rw [if_neg (fun hh => h (hz.1 hh))]
    by_cases h1 : lim.warn < relErr an num
    · rw [if_pos ((hl _ _).2 h1)]
      by_cases h2 : relErr an num < lim.fail
      · rw [if_pos ((hl _ _).2 h2)]
        simp [h, h1, h2, not_le.2 h2, not_le.2 h1]
      · rw [if_neg (fun hh => h2 ((hl _ _).1 hh))]
        simp [h, h1, h2, not_lt.1 h2, not_le.2 h1]
    · rw [if_neg (fun hh => h1 ((hl _ _).1 hh))]
      simp [h, h1, not_lt.1 h1]

/-- The symmetric difference quotient tends to the derivative. -/
theorem quotient_tendsto {f : ℝ → ℝ} {D : ℝ} (h : HasDerivAt f D 0) : Tendsto (fun s => (f s - f (-s)) / (s * 2)) (𝓝[>] 0) (𝓝 D) := by
  have h2 : HasDerivAt (fun s => f (-s)) (-D) 0 := by
    have h' : HasDerivAt f D (-(0 : ℝ)) := by rw [neg_zero]; exact h
    have := h'.comp (0 : ℝ) (hasDerivAt_neg (0 : ℝ))
    rw [mul_neg_one] at this
    exact this
  have h3 : HasDerivAt (fun s => f s - f (-s)) (D - -D) 0 := h.sub h2
  have h4 := (hasDerivAt_iff_tendsto_slope_zero.1 h3).mono_left (nhdsWithin_mono 0 (fun x (hx : 0 < x) => ne_of_gt hx))
  have h5 := h4.const_mul (1 / 2 : ℝ)
  rw [show (1 / 2 : ℝ) * (D - -D) = D by ring] at h5
  refine h5.congr' ?_
  filter_upwards [self_mem_nhdsWithin] with s hs
  simp only [zero_add, neg_zero, sub_self, sub_zero, smul_eq_mul]
  have : s ≠ 0 := ne_of_gt hs
  field_simp

/-- The settings with another step. -/
def Setts.withStep (c : Setts R) (h : R) : Setts R := { c with step := h }

/-- What a trial of weights divides the derivative of the loss by: the number of rows of the batch that reach the layer; 1 for trials of activations. -/
def Trial.scale (t : Trial R) (b : Nat) : Nat := match t.g with | .dLdA => 1 | .dLdW => b

/-- C104. The numeric derivative of a trial tends to the derivative of the loss by the weight or activation (divided by the number of rows, for weights) as the step tends to 0: for any network, provided that the random masks of the passes are the same. -/
theorem num_tendsto (N : Net ℝ S G) (hA : N.A = realArith) (c : Setts ℝ) (w : Nat → Mat ℝ) (t : Trial ℝ) (om : Nat → Mat ℝ) (hp : t.omPlus = om) (hm : t.omMinus = om) {D : ℝ} (hD : HasDerivAt (fun d => t.loss N w om d) D 0) (b : Nat)
    (hb : ∀ h, t.batch N (c.withStep h) w = b) : Tendsto (fun h => t.num N (c.withStep h) w) (𝓝[>] 0) (𝓝 (D / t.scale b)) := by
  have hq := quotient_tendsto hD
  have e : ∀ h, t.num N (c.withStep h) w = (t.loss N w om h - t.loss N w om (-h)) / (h * 2) / t.scale b := by
    intro h
    unfold Trial.num Trial.scale
    rw [hp, hm, hb h, hA]
    cases t.g with
    | dLdA =>
      show (1 : ℕ) / (h * (2 : ℕ)) * (t.loss N w om h - t.loss N w om (-h)) = _
      push_cast
      ring
    | dLdW =>
      show (t.loss N w om h - t.loss N w om (-h)) / (h * (2 : ℕ) * (b : ℝ)) = _
      push_cast
      rw [div_div]
  simp only [e]
  exact hq.div_const _

theorem relErr_continuous {a D : ℝ} (hD : D ≠ 0) {f : ℝ → ℝ} {l : Filter ℝ} (h : Tendsto f l (𝓝 D)) : Tendsto (fun s => relErr a (f s)) l (𝓝 (relErr a D)) := by
  unfold relErr
  have h1 : Tendsto (fun s => |a - f s|) l (𝓝 |a - D|) := (tendsto_const_nhds.sub h).abs
  have h2 : Tendsto (fun s => max |a| |f s|) l (𝓝 (max |a| |D|)) := tendsto_const_nhds.max h.abs
  exact h1.div h2 (ne_of_gt (lt_max_of_lt_right (abs_pos.2 hD)))

/-- C104. If the derivative that the layers calculate is the derivative of the loss, and not zero, then the trial is accepted without a warning for all sufficiently small steps. -/
theorem correct_derivative_accepted_partial (N : Net ℝ S G) (hA : N.A = realArith) (c : Setts ℝ) (w : Nat → Mat ℝ) (t : Trial ℝ) (om : Nat → Mat ℝ) (hp : t.omPlus = om) (hm : t.omMinus = om) {D : ℝ}
    (hD : HasDerivAt (fun d => t.loss N w om d) D 0) (b : Nat) (hb : ∀ h, t.batch N (c.withStep h) w = b) (han : t.an N c w = D / t.scale b) (h0 : D / t.scale b ≠ 0) (hw : 0 < (c.limits t.g).warn) :
    ∀ᶠ h in 𝓝[>] 0, t.verdict N (c.withStep h) w = .ok := by
  have ht := relErr_continuous (a := D / t.scale b) h0 (num_tendsto N hA c w t om hp hm hD b hb)
  have hz : relErr (D / t.scale b) (D / t.scale b) = 0 := by simp [relErr]
  rw [hz] at ht
  filter_upwards [ht.eventually (gt_mem_nhds hw)] with h hh
  unfold Trial.verdict
  have hlim : (c.withStep h).limits t.g = c.limits t.g := by cases t.g <;> rfl
  have ha : t.an N (c.withStep h) w = D / t.scale b := by rw [← han]; rfl
  rw [hlim, ha, hA, (compare_real _ _ _).2.1]
  exact ⟨fun hh => h0 hh.1, le_of_lt hh⟩

/-- C104. If the derivative that the layers calculate differs from the derivative of the loss by more than the limits, relatively, then the trial fails for all sufficiently small steps. -/
theorem wrong_derivative_rejected (N : Net ℝ S G) (hA : N.A = realArith) (c : Setts ℝ) (w : Nat → Mat ℝ) (t : Trial ℝ) (om : Nat → Mat ℝ) (hp : t.omPlus = om) (hm : t.omMinus = om) {D : ℝ}
    (hD : HasDerivAt (fun d => t.loss N w om d) D 0) (b : Nat) (hb : ∀ h, t.batch N (c.withStep h) w = b) (h0 : D / t.scale b ≠ 0) (hw : (c.limits t.g).warn < relErr (t.an N c w) (D / t.scale b))
    (hf : (c.limits t.g).fail < relErr (t.an N c w) (D / t.scale b)) : ∀ᶠ h in 𝓝[>] 0, t.verdict N (c.withStep h) w = .fail := by
  have hn := num_tendsto N hA c w t om hp hm hD b hb
  have ht := relErr_continuous (a := t.an N c w) h0 hn
  filter_upwards [ht.eventually (lt_mem_nhds hw), ht.eventually (lt_mem_nhds hf), hn.eventually_ne h0] with h h1 h2 h3
  unfold Trial.verdict
  have hlim : (c.withStep h).limits t.g = c.limits t.g := by cases t.g <;> rfl
  have ha : t.an N (c.withStep h) w = t.an N c w := rfl
  rw [hlim, ha, hA, (compare_real _ _ _).2.2.2]
  exact ⟨fun hh => h3 hh.2, h1, le_of_lt h2⟩

/-- C104. A derivative of zero is another matter: if the layers calculate zero and the difference of the losses is not exactly zero, the trial fails, however small the difference is (limits up to 1). -/
theorem zero_derivative_rejected (lim : Limits ℝ) (num : ℝ) (hn : num ≠ 0) (hw : lim.warn < 1) (hf : lim.fail ≤ 1) : compare realArith lim 0 num = .fail := by
  have : relErr 0 num = 1 := by
    unfold relErr
    rw [zero_sub, abs_neg, abs_zero, max_eq_right (abs_nonneg _)]
    exact div_self (abs_ne_zero.2 hn)
  rw [(compare_real _ _ _).2.2.2, this]
  exact ⟨fun hh => hn hh.2, hw, hf⟩

/-! ### What is not checked -/

/-- C104. Penalties on weights (L1, L2 and others that depend on the weights only) play no part: the trials are the same with any of them, so neither their values nor their derivatives are checked. -/
theorem weight_penalties_not_checked (N : Net ℝ S G) (hA : N.A = realArith) (p : (Nat → Mat ℝ) → ℝ) (c : Setts ℝ) (w : Nat → Mat ℝ) (t : Trial ℝ) :
    t.verdict { N with addend := fun w ps => N.addend w ps + p w } c w = t.verdict N c w := by
  have hl : ∀ om d, t.loss { N with addend := fun w ps => N.addend w ps + p w } w om d = t.loss N w om d + p w := by
    intro om d
    unfold Trial.loss
    simp only [hA]
    cases t.g with
    | dLdA =>
      simp only
      show _ + (_ + p w) = _ + _ + p w
      ring
    | dLdW =>
      simp only
      show _ + (_ + p w) = _ + _ + p w
      ring
  have hs : ∀ a b q : ℝ, realArith.sub (a + q) (b + q) = realArith.sub a b := by
    intro a b q
    show (a + q) - (b + q) = a - b
    ring
  have hb : t.batch { N with addend := fun w ps => N.addend w ps + p w } c w = t.batch N c w := rfl
  have hn : t.num { N with addend := fun w ps => N.addend w ps + p w } c w = t.num N c w := by
    unfold Trial.num numeric
    simp only [hl, hb]
    cases hg : t.g with
    | dLdA => simp only [hA, hs]
    | dLdW => simp only [hA, hs]
  unfold Trial.verdict
  rw [hn]
  rfl

/-- NaN as the arithmetic of floating point numbers treats it. -/
structure Arith.NaNLaws (A : Arith R) : Prop where
  zero : A.isZero A.nan = false
  sub : ∀ x, A.sub A.nan x = A.nan
  abs : A.abs A.nan = A.nan
  div : ∀ x, A.div A.nan x = A.nan
  lt : ∀ x, A.lt x A.nan = false

/-- C104. A NaN instead of a derivative is accepted, without a warning (in builds without assertions). -/
theorem nan_accepted (A : Arith R) (hA : A.NaNLaws) (lim : Limits R) (num : R) : compare A lim A.nan num = .ok := by
  unfold compare
  simp only [hA.zero, hA.sub, hA.abs, hA.div, hA.lt]
  rfl

/-- The weights of layer `l` are not updated (`bUpdateWeights()` is false: the learning rate is zero, for instance). -/
def Node.Idle (l : Nat) : Node R → Prop
  | .fc idx _ _ _ upd .. => idx = l → upd = false
  | .plain .. => True
  | .ext _ _ _ _ a => a.Idle l
  | .seq lo u => lo.Idle l ∧ u.Idle l
  | .par _ _ _ _ _ _ a b => a.Idle l ∧ b.Idle l
  | .map _ _ _ _ a => a.Idle l
  | .gate _ _ _ a => a.Idle l
  | .pack _ _ a => a.Idle l

theorem idle_gradW (om : Nat → Mat R) (w : Nat → Mat R) (l : Nat) : ∀ (n : Node R) (x d : Acts R), n.Idle l → n.gradW om w l x d = []
  | .fc idx _ _ _ upd pre act dz _ dw, x, d, h => by
    unfold Node.gradW
    rw [if_neg]
    rintro ⟨h1, h2⟩
    have := h h1
    rw [this] at h2
    exact absurd h2 (by simp)
  | .plain .., _, _, _ => rfl
  | .ext _ _ _ _ a, x, d, h => idle_gradW om w l a x _ h
  | .seq lo u, x, d, h => by
    unfold Node.gradW
    rw [idle_gradW om w l u _ _ h.2, idle_gradW om w l lo _ _ h.1]
    rfl
  | .par f g _ fb gb _ a b, x, d, h => by
    unfold Node.gradW
    rw [idle_gradW om w l a _ _ h.1, idle_gradW om w l b _ _ h.2]
    rfl
  | .map f _ gb _ a, x, d, h => idle_gradW om w l a _ _ h
  | .gate run _ _ a, x, d, h => by
    unfold Node.gradW
    split
    · exact idle_gradW om w l a x d h
    · rfl
  | .pack _ _ a, x, d, h => idle_gradW om w l a x d h

/-- C104. All trials of the weights of a layer that does not update its weights are accepted, although no derivative has been calculated. -/
theorem idle_layer_accepted (N : Net R S G) (hA : N.A.NaNLaws) (c : Setts R) (w : Nat → Mat R) (t : Trial R) (hg : t.g = .dLdW) (hi : N.root.Idle t.l) (hs : t.l ∉ c.canSkip) : t.verdict N c w = .ok := by
  have han : t.an N c w = N.A.nan := by
    unfold Trial.an Trial.found
    rw [hg]
    simp only
    rw [idle_gradW _ _ _ _ _ _ hi]
    have : c.canSkip.contains t.l = false := by simpa using hs
    rw [this]
    rfl
  unfold Trial.verdict
  rw [han]
  exact nan_accepted N.A hA _ _

/-- Real numbers with a NaN. -/
noncomputable def nanArith : Arith (Option ℝ) where
  zero := some 0
  add := fun a b => a.bind fun a => b.map (a + ·)
  sub := fun a b => a.bind fun a => b.map (a - ·)
  mul := fun a b => a.bind fun a => b.map (a * ·)
  div := fun a b => a.bind fun a => b.map (a / ·)
  neg := fun a => a.map fun a => -a
  abs := fun a => a.map fun a => |a|
  nat := fun n => some n
  lt := fun a b => match a, b with | some a, some b => @decide (a < b) (Classical.propDecidable _) | _, _ => false
  isZero := fun a => match a with | some a => @decide (a = 0) (Classical.propDecidable _) | none => false
  nan := none
  isNaN := fun a => a.isNone

theorem nanArith_laws : nanArith.NaNLaws where
  zero := rfl
  sub := fun _ => rfl
  abs := rfl
  div := fun _ => rfl
  lt := fun x => by cases x <;> rfl

/-! ### Examples -/

/-- One output neuron with one incoming weight and a bias: `a = w x + b`. The loss of a row is `p a`, the layer takes `q a` for its derivative. -/
noncomputable def lineNet (p q : ℝ → ℝ) : Net ℝ Unit Unit where
  A := realArith
  pre := fun _ w s => (w, s)
  app := fun _ w s _ => (w, s)
  root := .fc 1 1 1 true true (fun w x => ⟨x.rows, fun r _ => w 0 0 * x.v r 0 + w 0 1⟩) (fun a => a) (fun a _ => ⟨a.rows, fun r k => q (a.v r k)⟩) (fun _ d => d) (fun d x _ j => d.v 0 0 * if j = 0 then x.v 0 0 else 1)
  outIdx := 1
  loss := fun a _ => p (a.v 0 0)
  addend := fun _ _ => 0
  x := fun _ => ⟨1, fun _ _ => 3⟩
  y := fun _ => ⟨1, fun _ _ => 0⟩
  masks := fun g => (fun _ _ _ => 1, g)
  rngB := id
  seed := fun _ => ()
  shuffle := fun g l => (l, g)
  time := id

/-- Weight 2, bias `b`. -/
def lineW (b : ℝ) : Nat → Mat ℝ := fun _ _ j => if j = 0 then 2 else b

noncomputable def lineSetts : Setts ℝ := ⟨.ofTotal 1, .ofTotal 1, ⟨1 / 100, 1 / 10, 0⟩, ⟨1 / 100, 1 / 10, 0⟩, false, [], [], 1, true, 1⟩

/-- A trial of the weight. -/
def lineTrial : Trial ℝ := ⟨.dLdW, 1, (0, 0), [0], fun _ _ _ => 1, fun _ _ _ => 1, fun _ _ _ => 1⟩

theorem line_loss (p q : ℝ → ℝ) (b d : ℝ) (om : Nat → Mat ℝ) : lineTrial.loss (lineNet p q) (lineW b) om d = p ((2 + d) * 3 + b) := by
  unfold Trial.loss
  simp [lineTrial, lineNet, Node.eval, changeA, changeW, put, Mat.set, lineW, realArith]

theorem line_an (p q : ℝ → ℝ) (b : ℝ) (c : Setts ℝ) (hc : c.canSkip = []) : lineTrial.an (lineNet p q) c (lineW b) = q (2 * 3 + b) * 3 := by
  unfold Trial.an Trial.found
  simp [lineTrial, lineNet, Node.gradW, lineW, realArith, hc]

theorem line_batch (p q : ℝ → ℝ) (b : ℝ) (c : Setts ℝ) : lineTrial.batch (lineNet p q) c (lineW b) = 1 := by
  unfold Trial.batch
  simp [lineTrial, lineNet, Node.uses]

theorem line_deriv (q : ℝ → ℝ) (om : Nat → Mat ℝ) : HasDerivAt (fun d => lineTrial.loss (lineNet (fun a => a ^ 2) q) (lineW 1) om d) 42 0 := by
  simp only [line_loss]
  have h1 : HasDerivAt (fun d : ℝ => (2 + d) * 3 + 1) 3 0 := by
    have := (((hasDerivAt_id (0 : ℝ)).const_add 2).mul_const 3).add_const 1
    simpa using this
  have h2 := h1.pow 2
  norm_num at h2
  exact h2

/-- The square of the activation as loss: with the derivative `2 a` the trial is accepted for small steps, with `a` it fails. -/
theorem line_example : (∀ᶠ h in 𝓝[>] 0, lineTrial.verdict (lineNet (fun a => a ^ 2) (fun a => 2 * a)) (lineSetts.withStep h) (lineW 1) = .ok) ∧
    (∀ᶠ h in 𝓝[>] 0, lineTrial.verdict (lineNet (fun a => a ^ 2) (fun a => a)) (lineSetts.withStep h) (lineW 1) = .fail) := by
  refine ⟨correct_derivative_accepted_partial _ rfl lineSetts _ _ (fun _ _ _ => 1) rfl rfl (line_deriv _ _) 1 (fun h => line_batch _ _ _ _) ?_ ?_ ?_,
    wrong_derivative_rejected _ rfl lineSetts _ _ (fun _ _ _ => 1) rfl rfl (line_deriv _ _) 1 (fun h => line_batch _ _ _ _) ?_ ?_ ?_⟩
  · rw [line_an _ _ _ _ rfl]
    simp [Trial.scale, lineTrial]
    norm_num
  · simp [Trial.scale, lineTrial]
  · show (0 : ℝ) < 1 / 100
    norm_num
  · simp [Trial.scale, lineTrial]
  · rw [line_an _ _ _ _ rfl]
    show (1 / 100 : ℝ) < relErr _ (42 / ((1 : ℕ) : ℝ))
    unfold relErr
    norm_num [abs_of_pos, max_def]
  · rw [line_an _ _ _ _ rfl]
    show (1 / 10 : ℝ) < relErr _ (42 / ((1 : ℕ) : ℝ))
    unfold relErr
    norm_num [abs_of_pos, max_def]

/-- C104. A correct derivative that is rejected for every step: the third power of the activation as loss, at a point where the activation is zero. -/
theorem correct_zero_derivative_rejected (h : ℝ) (hh : 0 < h) :
    HasDerivAt (fun d => lineTrial.loss (lineNet (fun a => a ^ 3) (fun a => 3 * a ^ 2)) (lineW (-6)) lineTrial.omAn d) (lineTrial.an (lineNet (fun a => a ^ 3) (fun a => 3 * a ^ 2)) (lineSetts.withStep h) (lineW (-6))) 0 ∧
      lineTrial.verdict (lineNet (fun a => a ^ 3) (fun a => 3 * a ^ 2)) (lineSetts.withStep h) (lineW (-6)) = .fail := by
  have han : lineTrial.an (lineNet (fun a => a ^ 3) (fun a => 3 * a ^ 2)) (lineSetts.withStep h) (lineW (-6)) = 0 := by
    rw [line_an _ _ _ _ rfl]
    norm_num
  refine ⟨?_, ?_⟩
  · rw [han]
    simp only [line_loss]
    have h1 : HasDerivAt (fun d : ℝ => (2 + d) * 3 + -6) 3 0 := by
      have := (((hasDerivAt_id (0 : ℝ)).const_add 2).mul_const 3).add_const (-6)
      simpa using this
    have h2 := h1.pow 3
    norm_num at h2
    exact h2
  · unfold Trial.verdict
    rw [han]
    have hnum : lineTrial.num (lineNet (fun a => a ^ 3) (fun a => 3 * a ^ 2)) (lineSetts.withStep h) (lineW (-6)) = 27 * h ^ 2 := by
      unfold Trial.num
      rw [line_batch]
      simp only [line_loss]
      show (((2 + h) * 3 + -6) ^ 3 - ((2 + -h) * 3 + -6) ^ 3) / (h * (2 : ℕ) * (1 : ℕ)) = _
      field_simp
      push_cast
      ring
    rw [hnum]
    exact zero_derivative_rejected _ _ (by positivity) (by show (1 / 100 : ℝ) < 1; norm_num) (by show (1 / 10 : ℝ) ≤ 1; norm_num)

/-- The hypotheses of `idle_layer_accepted` are met: the network with a layer that is not updated. -/
example : (Node.fc 1 1 1 true false (fun _ x => x) (fun a => a) (fun a _ => a) (fun _ d => d) (fun d _ => d.v) : Node (Option ℝ)).Idle 1 := fun _ => rfl

end Nntl.GradCheck
