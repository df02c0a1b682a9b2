import Verif.Grad.StepLemmas
/-! C48: momentum and Nesterov momentum. -/
namespace Nntl.Grad
open Nntl.Kernel Nntl.Matrix Nntl.Threads
open scoped BigOperators

section
variable {T : Nat} {E E' : Nat → Env} {c : Nat → Cfg} {g : Nat → Mtx ℝ} {draw draw' : Nat → Nat → ℝ} {s p : Nat → St}

/-- C48. With momentum (classical or Nesterov, with any mixture of learning rate dropout, max-norm and L1/L2 penalties, and settings that change
from step to step) the velocity is the exponentially weighted sum of all gradients seen so far, each multiplied by the learning rate of its
step. -/
theorem velocity_is_weighted_sum (h : Session T E E' c g draw draw' s p) (hm : (c 0).useMom = true) (htype : (c 0).type = .classicalConstant)
    (hilr : (c 0).useILR = false) (t : Nat) (ht : t ≤ T) (i : Nat) (hi : i < (s 0).W.rows * (s 0).W.cols) :
    (s t).V i = weightedSum (fun j => (c j).mom) (fun k => (c k).lr * penalised (c k) (p k).W (g k) i) t := by
  induction t with
  | zero =>
    obtain ⟨W, _, hi0⟩ := h.init
    rw [weightedSum_zero]
    exact hi0.2.2.1 hm i (by rw [← hi0.1]; exact hi)
  | succ t ih =>
    have ht' : t < T := by omega
    rw [weightedSum_succ, ← ih (by omega), h.velocity hm t ht' i hi]
    congr 1
    unfold dirAt
    have hk := h.kind t ht'
    rw [dirF_noILR _ _ (by rw [hk.useILR, hilr]), opt_classical _ (by rw [hk.type, htype]) _ _ (by rw [(h.pre_n t ht').2.2.1]; exact hi)]
    rfl

/-- C48. With a constant momentum `m` and learning rate `lr` and without penalties: `V_t = Σ_{k<t} m^(t−1−k)·lr·g_k`. -/
theorem velocity_constant_settings (h : Session T E E' c g draw draw' s p) (hm : (c 0).useMom = true) (htype : (c 0).type = .classicalConstant)
    (hilr : (c 0).useILR = false) (m lr : ℝ) (hc : ∀ t, t < T → (c t).mom = m ∧ (c t).lr = lr ∧ (c t).l1 = 0 ∧ (c t).l2 = 0)
    (t : Nat) (ht : t ≤ T) (i : Nat) (hi : i < (s 0).W.rows * (s 0).W.cols) :
    (s t).V i = ∑ k ∈ Finset.range t, m ^ (t - 1 - k) * (lr * (g k).data i) := by
  rw [velocity_is_weighted_sum h hm htype hilr t ht i hi]
  unfold weightedSum
  apply Finset.sum_congr rfl
  intro k hk
  have hk' := Finset.mem_range.1 hk
  obtain ⟨_, h2, h3, h4⟩ := hc k (by omega)
  congr 1
  · rw [Finset.prod_congr rfl (g := fun _ => m)]
    · rw [Finset.prod_const, Nat.card_Ico]; congr 1; omega
    · intro j hj
      have := (Finset.mem_Ico.1 hj).2
      exact (hc j (by omega)).1
  · dsimp only
    rw [h2]
    unfold penalised
    rw [h3, h4]
    simp

/-- C48. Classical momentum: every step subtracts the new velocity from the weights; elements that the learning rate dropout turned off
(their draw is not below the share of active ones) are left alone, and so is their share of the velocity. Nothing is done before the gradient is
calculated. Holds for every optimiser and with individual gains. -/
theorem momentum_step (h : Session T E E' c g draw draw' s p) (hm : (c 0).useMom = true) (t : Nat) (ht : t < T) (hn : (c t).nesterov = false)
    (hx : (c t).useMaxNorm = false) (i : Nat) (hi : i < (s 0).W.rows * (s 0).W.cols) :
    p t = s t ∧ (s (t + 1)).W.data i =
      (s t).W.data i - (if (c t).lrDrop < 1 then (if draw' t i < (c t).lrDrop then 1 else 0) else 1) * (s (t + 1)).V i := by
  obtain ⟨e1, e2⟩ := h.step_eq t ht
  obtain ⟨n1, n2, n3, _⟩ := h.pre_n t ht
  have hmt : (c t).useMom = true := by rw [(h.kind t ht).useMom, hm]
  have hp : p t = s t := by rw [e1]; unfold preF; rw [if_neg (by simp [hn])]
  refine ⟨hp, ?_⟩
  rw [h.velocity hm t ht i hi, e2, apply_W_off _ _ _ hx i (by rw [n3]; exact hi), if_pos ⟨hmt, hn⟩]
  show (p t).W.data i - lrMask _ _ _ * ((c t).mom * (p t).V i + dirAt c g p t i) = _
  rw [hp]
  rfl

/-- C48. Nesterov momentum, in the form of the textbook: the gradient is taken at the look-ahead point `W − m·V`, the velocity becomes
`m·V + lr·gradient`, and the new velocity is subtracted from the weights the step began with. `F t` is the function whose value at the current weights is the
gradient of step `t` (penalties apart). -/
theorem nesterov_lookahead (h : Session T E E' c g draw draw' s p) (hm : (c 0).useMom = true) (htype : (c 0).type = .classicalConstant)
    (hilr : (c 0).useILR = false)
    (hc : ∀ t, t < T → (c t).nesterov = true ∧ (c t).useMaxNorm = false ∧ 1 ≤ (c t).lrDrop ∧ (c t).l1 = 0 ∧ (c t).l2 = 0)
    (n : Nat) (hn : n = (s 0).W.rows * (s 0).W.cols) (F : Nat → (Fin n → ℝ) → Fin n → ℝ)
    (hF : ∀ t, t < T → vec n (g t).data = F t (vec n (p t).W.data)) (t : Nat) (ht : t < T) :
    vec n (s (t + 1)).V = (c t).mom • vec n (s t).V + (c t).lr • F t (vec n (s t).W.data - (c t).mom • vec n (s t).V) ∧
    vec n (s (t + 1)).W.data = vec n (s t).W.data - vec n (s (t + 1)).V := by
  obtain ⟨h1, h2, h3, h4, h5⟩ := hc t ht
  obtain ⟨e1, e2⟩ := h.step_eq t ht
  obtain ⟨n1, n2, n3, _⟩ := h.pre_n t ht
  have hk := h.kind t ht
  have hmt : (c t).useMom = true := by rw [hk.useMom, hm]
  have hlook : vec n (p t).W.data = vec n (s t).W.data - (c t).mom • vec n (s t).V := by
    funext i
    show (p t).W.data i = (s t).W.data i - (c t).mom * (s t).V i
    have hi : (i : Nat) < (s t).n := by rw [n1]; have := i.2; unfold St.n; omega
    rw [e1, pre_W_off _ _ _ h2 i hi, if_pos ⟨hmt, h1⟩]
    unfold lrMask
    rw [if_neg (not_lt.2 h3)]
    simp
  have hdir : ∀ i : Fin n, dirAt c g p t i = (c t).lr * F t (vec n (s t).W.data - (c t).mom • vec n (s t).V) i := by
    intro i
    have hi : (i : Nat) < ((p t).withG (g t)).n := by rw [n3]; have := i.2; unfold St.n; omega
    unfold dirAt
    rw [dirF_noILR _ _ (by rw [hk.useILR, hilr]), opt_classical _ (by rw [hk.type, htype]) _ _ hi, ← hlook, ← hF t ht]
    congr 1
    unfold penalised
    rw [h4, h5]
    show (g t).data i + _ + _ = (g t).data i
    simp
  have hV : ∀ i : Fin n, (s (t + 1)).V i = (c t).mom * (s t).V i + dirAt c g p t i := fun i =>
    h.velocity hm t ht i (by have := i.2; unfold St.n; omega)
  constructor
  · funext i
    show (s (t + 1)).V i = (c t).mom * (s t).V i + (c t).lr * _
    rw [hV, hdir]
  · funext i
    show (s (t + 1)).W.data i = (s t).W.data i - (s (t + 1)).V i
    have hi : (i : Nat) < ((p t).withG (g t)).n := by rw [n3]; have := i.2; unfold St.n; omega
    rw [hV, e2, apply_W_off _ _ _ h2 i hi, if_neg (by simp [h1])]
    unfold lrMask
    rw [if_neg (not_lt.2 h3), one_mul]
    show vec n (p t).W.data i - dirAt c g p t i = _
    rw [hlook]
    show (s t).W.data i - (c t).mom * (s t).V i - _ = _
    ring

/-- C48. The whole history of a Nesterov session: every iterate is the initial point minus all velocities so far. -/
theorem nesterov_total (h : Session T E E' c g draw draw' s p) (hm : (c 0).useMom = true) (htype : (c 0).type = .classicalConstant)
    (hilr : (c 0).useILR = false)
    (hc : ∀ t, t < T → (c t).nesterov = true ∧ (c t).useMaxNorm = false ∧ 1 ≤ (c t).lrDrop ∧ (c t).l1 = 0 ∧ (c t).l2 = 0)
    (t : Nat) (ht : t ≤ T) (i : Nat) (hi : i < (s 0).W.rows * (s 0).W.cols) :
    (s t).W.data i = (s 0).W.data i - ∑ k ∈ Finset.range t, (s (k + 1)).V i := by
  induction t with
  | zero => simp
  | succ t ih =>
    have := (nesterov_lookahead h hm htype hilr hc ((s 0).W.rows * (s 0).W.cols) rfl
      (fun t _ => vec ((s 0).W.rows * (s 0).W.cols) (g t).data) (fun _ _ => rfl) t (by omega)).2
    have := congrFun this ⟨i, hi⟩
    rw [Finset.sum_range_succ]
    have e : (s (t + 1)).W.data i = (s t).W.data i - (s (t + 1)).V i := this
    rw [e, ih (by omega)]
    ring

end

/-- C48. Momentum on top of any optimiser (and of individual gains that are controlled by gradients): the velocity accumulates exactly the step
that the same call would have made without momentum. -/
theorem momentum_accumulates_plain_step {E E' : Env} (hE : E.Ok) (hE' : E'.Ok) (c : Cfg) (hm : c.useMom = true) (hn : c.nesterov = false)
    (hi : c.useILR = false ∨ c.ilrToMom = false) (g : Mtx ℝ) (draw draw' : Nat → ℝ) (s s1 s2 : St) (hs : WeightsOk s.W) (hr : Ready c s)
    (hg : WeightsOk g) (hrow : g.rows = s.W.rows) (hcol : g.cols = s.W.cols)
    (h1 : step E (.apply c false g draw) s (some s1))
    (h2 : step E' (.apply c.plain false g draw') s (some s2))
    (i : Nat) (hin : i < s.W.rows * s.W.cols) : s1.V i = c.mom * s.V i + (s.W.data i - s2.W.data i) := by
  have hum : c.useILR = true → c.ilrUseMom = false := by
    intro hu
    unfold Cfg.ilrUseMom
    rcases hi with hi | hi
    · rw [hi] at hu; cases hu
    · rw [hi]; simp
  have hr2 : Ready c.plain s :=
    ⟨hr.a, hr.b, (fun h => by cases h), hr.gain, fun hu _ => hr.prev hu (hum hu)⟩
  have e1 := Option.some.inj ((apply_iff hE c false draw hs hr hg hrow hcol _).1 h1)
  have e2 := Option.some.inj ((apply_iff hE' _ false draw' hs hr2 hg hrow hcol _).1 h2)
  have hd : dirF c.plain (s.withG g) = dirF c (s.withG g) := by
    unfold dirF ilrF
    by_cases hu : c.useILR = false
    · rw [if_pos hu, if_pos (show c.plain.useILR = false from hu)]
      rfl
    · rw [if_neg hu, if_neg (show ¬ c.plain.useILR = false from hu)]
      have k1 := hum (by simpa using hu)
      have k2 : c.plain.ilrUseMom = false := rfl
      simp only [k1, k2]
      rfl
  rw [e1, e2, apply_V _ _ (s.withG g) hm i hin, apply_W_off _ _ (s.withG g) rfl i hin, if_neg (by simp [hn]), if_neg (by unfold Cfg.plain; simp), hd]
  unfold lrMask
  rw [if_neg (show ¬ c.plain.lrDrop < 1 from lt_irrefl _)]
  show _ * s.V i + _ = _ * s.V i + (s.W.data i - (s.W.data i - 1 * _))
  simp

end Nntl.Grad
