import Verif.Grad.Exists
import Mathlib.Analysis.Calculus.Deriv.Abs
import Mathlib.Analysis.Calculus.Deriv.Pow
import Mathlib.Analysis.Calculus.Deriv.Add
import Mathlib.Analysis.Calculus.Deriv.Mul
/-! C60: L1 and L2 addendums. -/
namespace Nntl.Grad
open Nntl.Kernel Nntl.Matrix Nntl.Threads
open scoped BigOperators

theorem listSum_range (n : Nat) (f : Nat → ℝ) : ((List.range n).map f).sum = ∑ i ∈ Finset.range n, f i := by
  rw [← List.sum_toFinset _ List.nodup_range]
  have : (List.range n).toFinset = Finset.range n := by ext x; simp
  rw [this]

theorem vSumAbs_eq {E : Env} (hE : E.Ok) (A : Mtx ℝ) : vSumAbs E A = ∑ i ∈ Finset.range A.numel, |A.data i| := by
  unfold vSumAbs; rw [reduceSum_eq _ (exec_ok hE _ _), listSum_range]

theorem ewSumSquares_eq {E : Env} (hE : E.Ok) (A : Mtx ℝ) : ewSumSquares E A = ∑ i ∈ Finset.range A.numel, A.data i ^ 2 := by
  unfold ewSumSquares; rw [reduceSum_eq _ (exec_ok hE _ _), listSum_range]
  exact Finset.sum_congr rfl fun i _ => (sq _).symm

theorem addendumValue_eq (value : Mtx ℝ → ℝ) (scale : ℝ) (ign : Bool) (ret : ℝ) (W : Mtx ℝ) (h : WeightsOk W) : addendumValue value scale ign ret W =
    some (if scale = 0 then ret else ret + value (if ign then { W with cols := W.cols - 1 } else W), W) := by
  unfold addendumValue
  by_cases h0 : scale = 0
  · rw [if_pos h0, if_pos h0]
  · rw [if_neg h0, if_neg h0]
    obtain ⟨hh, hr⟩ := hide_restore h
    have hr' : ({ W with cols := W.cols - 1 } : Mtx ℝ).restoreLastCol = some W := hr W.data
    cases ign with
    | true => simp only [if_true, hh, hr']
    | false => simp

/-- C60. The value of the addendums is `l1·Σ|w| + l2/2·Σw²`, over the weights that are not biases if biases are to be ignored, in one thread or many; and
the matrix of weights is the same afterwards, its shape included. -/
theorem addendum_value {E : Env} (hE : E.Ok) (c : Cfg) (W : Mtx ℝ) (h : WeightsOk W) : lossAddendum E c W = some (penalty c W, W) := by
  unfold lossAddendum
  rw [addendumValue_eq _ _ _ _ _ h]
  show addendumValue _ _ _ _ W = _
  rw [addendumValue_eq _ _ _ _ _ h]
  have e1 : (if c.l1 = 0 then (0 : ℝ) else 0 + c.l1 * vSumAbs E (if c.l1IgnBias then { W with cols := W.cols - 1 } else W)) =
      c.l1 * ∑ i ∈ Finset.range (penaltyCount c.l1IgnBias W), |W.data i| := by
    by_cases h0 : c.l1 = 0
    · rw [if_pos h0, h0, zero_mul]
    · rw [if_neg h0, zero_add, vSumAbs_eq hE]
      unfold penaltyCount
      cases c.l1IgnBias <;> rfl
  have e2 : ∀ r : ℝ, (if c.l2 = 0 then r else r + c.l2 * (1 / 2) * ewSumSquares E (if c.l2IgnBias then { W with cols := W.cols - 1 } else W)) =
      r + c.l2 / 2 * ∑ i ∈ Finset.range (penaltyCount c.l2IgnBias W), W.data i ^ 2 := by
    intro r
    by_cases h0 : c.l2 = 0
    · rw [if_pos h0, h0]; simp
    · rw [if_neg h0, ewSumSquares_eq hE]
      unfold penaltyCount
      rw [show c.l2 * (1 / 2) = c.l2 / 2 by ring]
      cases c.l2IgnBias <;> rfl
  dsimp only
  rw [e1, e2]
  rfl

/-- C60. What `apply_grad` adds to the gradient: `l1·sign(w)` and `l2·w`, not for biases if they are to be ignored; the weights and the shapes of both
matrices are as before. -/
theorem addendum_gradient {E : Env} (hE : E.Ok) (c : Cfg) (s : St) (hs : WeightsOk s.W) (hg : WeightsOk s.G) (h1 : s.G.rows = s.W.rows)
    (h2 : s.G.cols = s.W.cols) (o : Option St) (h : lossAddendums E c s o) :
    ∃ t, o = some t ∧ t.W = s.W ∧ t.G = { s.G with data := t.G.data } ∧
      (∀ r k, r < s.W.rows → k < s.W.cols → t.G.data (r + s.W.rows * k) = s.G.data (r + s.W.rows * k)
        + (if k + 1 = s.W.cols ∧ c.l1IgnBias = true then 0 else c.l1 * sgn (s.W.data (r + s.W.rows * k)))
        + (if k + 1 = s.W.cols ∧ c.l2IgnBias = true then 0 else c.l2 * s.W.data (r + s.W.rows * k))) := by
  have e := (lossAddendums_iff hE c ⟨hs, hg, h1, h2⟩ o).1 h
  refine ⟨_, e, by rw [lossF_eq]; rfl, by rw [lossF_eq]; rfl, fun r k hr hk => ?_⟩
  have hlt : r + s.W.rows * k < s.W.rows * s.W.cols := by
    calc r + s.W.rows * k < s.W.rows + s.W.rows * k := by omega
      _ = s.W.rows * (k + 1) := by ring
      _ ≤ s.W.rows * s.W.cols := Nat.mul_le_mul_left _ hk
  rw [lossF_at c s _ hlt]
  unfold penalised
  have hb : s.W.rows * (s.W.cols - 1) ≤ r + s.W.rows * k ↔ k + 1 = s.W.cols := by
    constructor
    · intro hle
      by_contra hne
      have : s.W.rows * (k + 1) ≤ s.W.rows * (s.W.cols - 1) := Nat.mul_le_mul_left _ (by omega)
      have e3 : s.W.rows * (k + 1) = s.W.rows * k + s.W.rows := by ring
      omega
    · intro he
      have : s.W.cols - 1 = k := by omega
      rw [this]; omega
  simp only [hb, and_comm]

/-- `sign` is the derivative of the absolute value. -/
theorem hasDerivAt_abs_sgn (x : ℝ) (hx : x ≠ 0) : HasDerivAt (fun y : ℝ => |y|) (sgn x) x := by
  rcases lt_or_gt_of_ne hx with h | h
  · have := hasDerivAt_abs_neg h
    unfold sgn
    rw [if_neg (not_lt.2 h.le), if_pos h]
    simpa using this
  · have := hasDerivAt_abs_pos h
    unfold sgn
    rw [if_pos h, if_neg (not_lt.2 h.le)]
    simpa using this

theorem hasDerivAt_sum_elem (n i : Nat) (d : Nat → ℝ) (f : ℝ → ℝ) (f' : ℝ) (hf : HasDerivAt f f' (d i)) :
    HasDerivAt (fun x => ∑ k ∈ Finset.range n, f (if k = i then x else d k)) (if i < n then f' else 0) (d i) := by
  have : HasDerivAt (fun x => ∑ k ∈ Finset.range n, f (if k = i then x else d k)) (∑ k ∈ Finset.range n, if k = i then f' else 0) (d i) := by
    apply HasDerivAt.fun_sum
    intro k _
    by_cases hk : k = i
    · simp only [if_pos hk]; exact hf
    · simp only [if_neg hk]; exact hasDerivAt_const _ _
  rw [Finset.sum_ite_eq'] at this
  simpa [Finset.mem_range] using this

/-- C60. Value and gradient belong together: what is added to the gradient of weight `i` is the derivative of the value of the addendums with respect to that weight
(for L1 at weights that are not zero). -/
theorem addendum_gradient_is_derivative {E : Env} (hE : E.Ok) (c : Cfg) (s t : St) (hs : WeightsOk s.W) (hg : WeightsOk s.G) (h1 : s.G.rows = s.W.rows)
    (h2 : s.G.cols = s.W.cols) (h : lossAddendums E c s (some t)) (i : Nat) (hi : i < s.W.rows * s.W.cols) (hnz : c.l1 = 0 ∨ s.W.data i ≠ 0) :
    (∀ x, lossAddendum E c (setElem s.W i x) = some (penalty c (setElem s.W i x), setElem s.W i x)) ∧
    HasDerivAt (fun x => penalty c (setElem s.W i x)) (t.G.data i - s.G.data i) (s.W.data i) := by
  refine ⟨fun x => addendum_value hE c _ ⟨hs.1, hs.2, hs.3, hs.4, hs.5⟩, ?_⟩
  have e := Option.some.inj ((lossAddendums_iff hE c ⟨hs, hg, h1, h2⟩ _).1 h)
  rw [e, lossF_at c s i hi]
  unfold penalised
  have hcnt : ∀ (b : Bool) (v : ℝ), (if b = true ∧ s.W.rows * (s.W.cols - 1) ≤ i then 0 else v) = if i < penaltyCount b s.W then v else 0 := by
    intro b v
    unfold penaltyCount
    cases b with
    | true =>
      simp only [if_true, true_and]
      by_cases hh : i < s.W.rows * (s.W.cols - 1)
      · rw [if_neg (by omega), if_pos hh]
      · rw [if_pos (by omega), if_neg hh]
    | false => simp [hi]
  rw [hcnt, hcnt]
  have d2 := hasDerivAt_sum_elem (penaltyCount c.l2IgnBias s.W) i s.W.data (fun y => y ^ 2) (2 * s.W.data i)
    (by simpa using hasDerivAt_pow 2 (s.W.data i))
  have e2 : HasDerivAt (fun x => c.l2 / 2 * ∑ k ∈ Finset.range (penaltyCount c.l2IgnBias s.W), (if k = i then x else s.W.data k) ^ 2)
      (if i < penaltyCount c.l2IgnBias s.W then c.l2 * s.W.data i else 0) (s.W.data i) := by
    have := d2.const_mul (c.l2 / 2)
    exact this.congr_deriv (by split <;> ring)
  have e1 : HasDerivAt (fun x => c.l1 * ∑ k ∈ Finset.range (penaltyCount c.l1IgnBias s.W), |if k = i then x else s.W.data k|)
      (if i < penaltyCount c.l1IgnBias s.W then c.l1 * sgn (s.W.data i) else 0) (s.W.data i) := by
    by_cases h0 : c.l1 = 0
    · simp only [h0, zero_mul, ite_self]; exact hasDerivAt_const _ _
    · have d1 := hasDerivAt_sum_elem (penaltyCount c.l1IgnBias s.W) i s.W.data (fun y => |y|) _ (hasDerivAt_abs_sgn _ (hnz.resolve_left h0))
      have := d1.const_mul c.l1
      exact this.congr_deriv (by split <;> ring)
  have := e1.add e2
  exact this.congr_deriv (by ring)

/-- The hypotheses can be met, and the amounts are not trivial: weights 0…5, the last two are biases. -/
example : lossAddendum demoEnv { demoCfg .adam false false with l1 := 1, l2 := 1 } demoW = some (6 + 7, demoW) ∧
    ∃ o, lossAddendums demoEnv { demoCfg .adam false false with l1 := 1, l2 := 1 } (initState (demoCfg .adam false false) demoW 0) o := by
  constructor
  · rw [addendum_value demoEnv_ok _ _ demoW_ok]
    congr 2
    simp only [penalty, penaltyCount, demoCfg, demoW]
    norm_num [Finset.sum_range_succ]
  · exact ⟨_, (lossAddendums_iff demoEnv_ok _ (s := initState (demoCfg .adam false false) demoW 0) ⟨demoW_ok, demoW_ok, rfl, rfl⟩ _).2 rfl⟩

end Nntl.Grad
