import Verif.Backprop.Tree
import Verif.Act.LossProps

/-! Derivatives of the loss of a network. -/
namespace Nntl.Backprop

open Nntl.Pass Nntl.Layers
open Finset

theorem realArith_ok : realArith.Ok := by
  intro n x y x' y' h h'
  simp only [realArith]
  exact sum_congr rfl fun i hi => by rw [h i (mem_range.1 hi), h' i (mem_range.1 hi)]

/-- Along any path through the weights of the body and of the output layer: the derivative of the mean loss with the penalties, which are divided by
the size of the batch too. -/
theorem meanLoss_deriv {o : Obj ℝ} {L : Law o} {D : Diff L} (hD : IsDiff0 D) {gw : GradWorks ℝ} {act : (ℕ → ℝ) → ℕ → ℝ} {dz : ℝ → ℝ → ℝ}
    {loss : (ℕ → ℝ) → (ℕ → ℝ) → ℝ} {upd : Bool} {n m : ℕ} (hn : n = o.neurons) {R : ℕ} (h0 : 0 < R) (s : o.S) (so : FcS gw) (X Y : Mat ℝ)
    (hs : D.Smooth R s X) (hl : ∀ r < R, LossGrad m act loss dz (preAct realArith n so.w (L.fwd R s X) r) (Y r)) (V : ℕ → Mat ℝ) (W : Mat ℝ) :
    HasDerivAt (fun t => meanLoss R loss ((outLaw realArith gw act dz upd n m).fwd R (outLine so W t) (L.fwd R (D.line s V t) X)) Y + D.pen R (D.line s V t) X / R)
      (pairing D.ws (D.grad R s X ((outLaw realArith gw act dz upd n m).grad R so (L.fwd R s X) Y)) V +
        inner m (n + 1) (gradW realArith R n (L.fwd R s X) fun r c => dz (act (preAct realArith n so.w (L.fwd R s X) r) c) (Y r c)) W) 0 := by
  subst hn
  have hR : (R : ℝ) ≠ 0 := Nat.cast_ne_zero.2 (Nat.pos_iff_ne_zero.1 h0)
  have hY := hD.comp V h0 hs
  have e0 : L.fwd R (D.line s V 0) X = L.fwd R s X := by rw [hD.line_zero]
  set B := (outLaw realArith gw act dz upd o.neurons m).grad R so (L.fwd R s X) Y with hB
  have h1 := (hD.deriv R s V X B h0 hs).sub (hasDerivAt_inner B hY)
  simp only [Pi.sub_def, add_sub_cancel_left] at h1
  have rows : ∀ r ∈ range R, HasDerivAt (fun t => loss ((outLaw realArith gw act dz upd o.neurons m).fwd R (outLine so W t) (L.fwd R (D.line s V t) X) r) (Y r))
      (∑ c ∈ range m, dz (act (preAct realArith o.neurons so.w (L.fwd R s X) r) c) (Y r c) *
        (∑ j ∈ range o.neurons, so.w c j * deriv (fun t => L.fwd R (D.line s V t) X r j) 0 +
          ∑ j ∈ range (o.neurons + 1), withOnes o.neurons (L.fwd R s X) r j * W c j)) 0 := by
    intro r hr
    refine hl r (mem_range.1 hr) (fun t => preAct realArith o.neurons (fun c j => so.w c j + t * W c j) (L.fwd R (D.line s V t) X) r) _ (fun c => ?_)
      fun c _ => ?_
    · simp only [zero_mul, add_zero, e0]
    · have := preAct_deriv (X' := fun r j => deriv (fun t => L.fwd R (D.line s V t) X r j) 0) so.w W hY (c := c) (mem_range.1 hr)
      rw [e0] at this
      exact this
  have h2 := ((HasDerivAt.fun_sum rows).div_const (R : ℝ)).add (h1.div_const (R : ℝ))
  refine h2.congr_deriv ?_
  rw [preAct_grad h0]
  have e1 : inner R o.neurons (fun r j => ∑ c ∈ range m, dz (act (preAct realArith o.neurons so.w (L.fwd R s X) r) c) (Y r c) * so.w c j)
      (fun r j => deriv (fun t => L.fwd R (D.line s V t) X r j) 0) = inner R o.neurons B fun r j => deriv (fun t => L.fwd R (D.line s V t) X r j) 0 := rfl
  rw [e1]
  field_simp
  ring

/-! ### Losses of the output layers -/

/-- Output layers that work element by element: `act` and `dLdZ` as in C80, C81. -/
theorem elementwise_lossGrad (o : Act.Out) (ha : o.Args) (m : ℕ) (p y : ℕ → ℝ) (hr : ∀ c < m, o.Regular (y c) (o.act.fn (p c))) :
    LossGrad m (fun z c => o.act.f (z c)) (fun a y => ∑ c ∈ range m, o.ideal (y c) (a c)) (fun a y => o.dLdZ y a) p y := by
  intro z z' hz hd
  refine HasDerivAt.fun_sum fun c hc => ?_
  have hc := mem_range.1 hc
  have h1 := Act.dLdZ_correct o ha (y c) (p c) (hr c hc)
  simp only [Act.f_eq]
  simp only [← hz c] at h1 ⊢
  exact HasDerivAt.comp (0 : ℝ) (h₂ := fun t => o.ideal (y c) (o.act.fn t)) (h := fun t => z t c) h1 (hd c hc)

theorem sum_softmax (C : ℕ) (z : ℕ → ℝ) : ((List.range C).map fun c => Real.exp (z c)).sum = ∑ c ∈ range C, Real.exp (z c) := Act.sum_list _ _

/-- The softmax output layer, for answers that add up to 1. -/
theorem softmax_lossGrad (m : ℕ) (p y : ℕ → ℝ) (hy : ∑ c ∈ range m, y c = 1) :
    LossGrad m (fun z c => Num.softmaxOf z m c) (fun a y => -∑ c ∈ range m, y c * Real.log (a c)) (fun a y => a - y) p y := by
  intro z z' hz hd
  have hm : 0 < m := by
    rcases Nat.eq_zero_or_pos m with h | h
    · subst h; simp at hy
    · exact h
  have pos : ∀ z : ℕ → ℝ, 0 < ∑ c ∈ range m, Real.exp (z c) := fun z =>
    sum_pos (fun c _ => Real.exp_pos _) ⟨0, mem_range.2 hm⟩
  have lg : ∀ t c, Real.log (Num.softmaxOf (z t) m c) = z t c - Real.log (∑ c ∈ range m, Real.exp (z t c)) := by
    intro t c
    unfold Num.softmaxOf
    rw [sum_softmax, Real.log_div (Real.exp_pos _).ne' (pos _).ne', Real.log_exp]
  have e : ∀ t, -∑ c ∈ range m, y c * Real.log (Num.softmaxOf (z t) m c) = Real.log (∑ c ∈ range m, Real.exp (z t c)) - ∑ c ∈ range m, y c * z t c := by
    intro t
    simp only [lg, mul_sub]
    rw [sum_sub_distrib, ← sum_mul, hy]
    ring
  simp only [e]
  have h1 : HasDerivAt (fun t => ∑ c ∈ range m, Real.exp (z t c)) (∑ c ∈ range m, Real.exp (z 0 c) * z' c) 0 :=
    HasDerivAt.fun_sum fun c hc => (hd c (mem_range.1 hc)).exp
  have h2 : HasDerivAt (fun t => ∑ c ∈ range m, y c * z t c) (∑ c ∈ range m, y c * z' c) 0 :=
    HasDerivAt.fun_sum fun c hc => (hd c (mem_range.1 hc)).const_mul _
  refine ((h1.log (pos _).ne').sub h2).congr_deriv ?_
  rw [sum_div, ← sum_sub_distrib]
  refine sum_congr rfl fun c _ => ?_
  have : Num.softmaxOf p m c = Real.exp (p c) / ∑ c ∈ range m, Real.exp (p c) := by
    unfold Num.softmaxOf; rw [sum_softmax]
  rw [this]
  simp only [hz]
  ring

end Nntl.Backprop
