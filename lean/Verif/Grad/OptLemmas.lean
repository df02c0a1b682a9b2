import Verif.Grad.Exists
/-! The optimiser's state in a session, element by element. -/
namespace Nntl.Grad
open Nntl.Kernel Nntl.Matrix Nntl.Threads
open scoped BigOperators

theorem optF_at (c : Cfg) (f : Bool) (u : St) (i : Nat) (hi : i < u.n) :
    ((optF c f u).G.data i, (optF c f u).A i, (optF c f u).B i) = optCell c f (powF c (firstF c f u)) (firstF c f u).gamma ((firstF c f u).cell i) := by
  have hn : (firstF c f u).n = u.n := (firstF_same c f u).n
  unfold optF
  simp only [St.setG, each, hn, if_pos hi]

/-- The optimisers that clear their matrices at the first run. -/
def GradType.cleared : GradType → Bool
  | .adam | .adamax | .nadam | .radam => true
  | _ => false

theorem firstF_cell (c : Cfg) (f : Bool) (u : St) (hz : c.type.cleared = true) (i : Nat) (hi : i < u.n) :
    (firstF c f u).cell i = (u.G.data i, if f then 0 else u.A i, if f then 0 else u.B i) ∧ (firstF c f u).b1t = (if f then 1 else u.b1t) ∧
    (c.type ≠ .adamax → (firstF c f u).b2t = if f then 1 else u.b2t) := by
  unfold firstF
  cases ht : c.type <;> rw [ht] at hz <;> first | cases hz | skip
  all_goals
    cases f <;> simp [St.cell, fillWith, hi]

theorem firstF_gamma (c : Cfg) (f : Bool) (u : St) : (firstF c f u).gamma = if f = true ∧ c.type = .nadam then 0 else u.gamma := by
  unfold firstF
  cases ht : c.type <;> cases f <;> simp

section
variable {T : Nat} {E E' : Nat → Env} {c : Nat → Cfg} {g : Nat → Mtx ℝ} {draw draw' : Nat → Nat → ℝ} {s p : Nat → St}

/-- The gradient the optimiser gets at step `t`. -/
noncomputable def gradAt (c : Nat → Cfg) (g : Nat → Mtx ℝ) (p : Nat → St) (t i : Nat) : ℝ := penalised (c t) (p t).W (g t) i

/-- Step `t` of the optimiser. -/
theorem Session.opt_at (h : Session T E E' c g draw draw' s p) (t : Nat) (ht : t < T) : ∃ u : St,
    u.A = (s t).A ∧ u.B = (s t).B ∧ u.b1t = (s t).b1t ∧ u.b2t = (s t).b2t ∧ u.gamma = (s t).gamma ∧ u.n = (s 0).n ∧
    (∀ i, i < (s 0).n → u.G.data i = gradAt c g p t i) ∧
    (s (t + 1)).A = (optF (c t) (decide (t = 0)) u).A ∧ (s (t + 1)).B = (optF (c t) (decide (t = 0)) u).B ∧
    (s (t + 1)).b1t = (optF (c t) (decide (t = 0)) u).b1t ∧ (s (t + 1)).b2t = (optF (c t) (decide (t = 0)) u).b2t ∧
    (s (t + 1)).gamma = (optF (c t) (decide (t = 0)) u).gamma ∧
    dirAt c g p t = (ilrF (c t) (decide (t = 0)) (optF (c t) (decide (t = 0)) u)).G.data ∧
    (s (t + 1)).gain = (ilrF (c t) (decide (t = 0)) (optF (c t) (decide (t = 0)) u)).gain ∧
    (s (t + 1)).prev = (ilrF (c t) (decide (t = 0)) (optF (c t) (decide (t = 0)) u)).prev ∧
    u.gain = (s t).gain ∧ u.prev = (s t).prev ∧ u.V = (p t).V := by
  obtain ⟨e1, e2⟩ := h.step_eq t ht
  obtain ⟨n1, n2, n3, _⟩ := h.pre_n t ht
  obtain ⟨_, hf⟩ := h.firstRun t ht
  obtain ⟨k1, k2, k3, k4, k5, k6, k7, k8⟩ := preF_keeps (c t) (draw t) (s t)
  rw [← e1] at k1 k2 k3 k4 k5 k6 k7 k8
  have hl := lossF_eq (c t) ((p t).withG (g t))
  obtain ⟨o1, o2, o3, o4, o5, o6, o7, o8⟩ := apply_opt (c t) (draw' t) ((p t).withG (g t))
  rw [← e2, hf] at o1 o2 o3 o4 o5
  rw [← e2] at o7 o8
  refine ⟨(lossF (c t) ((p t).withG (g t))).ran, ?_, ?_, ?_, ?_, ?_, ?_, ?_, o1, o2, o3, o4, o5, ?_, ?_, ?_, ?_, ?_, ?_⟩
  · rw [hl]; exact k1
  · rw [hl]; exact k2
  · rw [hl]; exact k5
  · rw [hl]; exact k6
  · rw [hl]; exact k7
  · exact ((lossF_same (c t) ((p t).withG (g t))).n).trans n3
  · intro i hi; exact lossF_at (c t) ((p t).withG (g t)) i (by rw [n3]; exact hi)
  · unfold dirAt dirF; rw [hf]
  · rw [o7]; unfold midF; rw [hf]
  · rw [o8]; unfold midF; rw [hf]
  · rw [hl]; exact k3
  · rw [hl]; exact k4
  · rw [hl]; rfl

/-- The weights after a step without momentum, norm constraint and learning rate dropout. -/
theorem Session.plain_step (h : Session T E E' c g draw draw' s p) (t : Nat) (ht : t < T) (hm : (c t).useMom = false) (hx : (c t).useMaxNorm = false)
    (hd : 1 ≤ (c t).lrDrop) (i : Nat) (hi : i < (s 0).n) : (p t).W = (s t).W ∧ (s (t + 1)).W.data i = (s t).W.data i - dirAt c g p t i := by
  obtain ⟨e1, e2⟩ := h.step_eq t ht
  obtain ⟨n1, n2, n3, _⟩ := h.pre_n t ht
  have hp : p t = s t := by rw [e1]; unfold preF; rw [if_neg (by simp [hm])]
  refine ⟨by rw [hp], ?_⟩
  rw [e2, apply_W_off _ _ _ hx i (by rw [n3]; exact hi), if_neg (by simp [hm])]
  unfold lrMask
  rw [if_neg (not_lt.2 hd), one_mul]
  show (p t).W.data i - dirAt c g p t i = _
  rw [hp]

end
end Nntl.Grad
