import Verif.Grad.OptLemmas
/-! C51: individual learning rates. -/
namespace Nntl.Grad
open Nntl.Kernel Nntl.Matrix Nntl.Threads
open scoped BigOperators

/-- The rule for gains: `x` is the previous and `y` the current direction of an element. Up if the sign was kept and the gain is below the upper
cap, down if it flipped and the gain is above the lower cap, no change otherwise. -/
noncomputable def gainRule (c : Cfg) (x y gain : ℝ) : ℝ :=
  if 0 < x * y ∧ gain < c.capHigh then gain * c.incr
  else if x * y < 0 ∧ c.capLow < gain then gain * c.decr
  else gain

/-- Sensible settings of the gains. -/
structure GainCfg (c : Cfg) : Prop where
  decr : 0 < c.decr ∧ c.decr < 1
  incr : 1 < c.incr
  low : 0 < c.capLow
  order : c.capLow < c.capHigh

theorem gainFactor_rule (c : Cfg) (x y gain : ℝ) : gain * gainFactor c.decr c.incr c.capLow c.capHigh (x * y) gain = gainRule c x y gain := by
  unfold gainFactor gainRule
  dsimp only
  by_cases h1 : 0 < x * y ∧ gain < c.capHigh
  · have h2 : ¬ (x * y < 0 ∧ c.capLow < gain) := fun h => absurd h.1 (not_lt.2 h1.1.le)
    rw [if_pos h1, if_pos h1, if_neg (by simp [h1]), if_neg h2]; ring
  · by_cases h2 : x * y < 0 ∧ c.capLow < gain
    · rw [if_neg h1, if_pos h2, if_neg h1, if_neg (by simp [h2]), if_pos h2]; ring
    · rw [if_neg h1, if_neg h2, if_neg h1, if_neg h2, if_pos (by simp only [h1, h2, or_self, not_false_iff])]; ring

/-- Only the signs matter. -/
theorem gainRule_scale (c : Cfg) (x y gain a b : ℝ) (ha : 0 < a) (hb : 0 < b) : gainRule c (x * a) (y * b) gain = gainRule c x y gain := by
  have e : x * a * (y * b) = x * y * (a * b) := by ring
  have hab := mul_pos ha hb
  unfold gainRule
  rw [e]
  have h1 : 0 < x * y * (a * b) ↔ 0 < x * y := by rw [mul_comm]; exact mul_pos_iff_of_pos_left hab
  have h2 : x * y * (a * b) < 0 ↔ x * y < 0 := by
    constructor
    · intro h; by_contra hc; exact absurd h (not_lt.2 (mul_nonneg (not_lt.1 hc) hab.le))
    · intro h; exact mul_neg_of_neg_of_pos h hab
  simp only [h1, h2]

theorem gainRule_pos (c : Cfg) (hc : GainCfg c) (x y gain : ℝ) (h : 0 < gain) : 0 < gainRule c x y gain := by
  unfold gainRule
  have := hc.incr
  split
  · exact mul_pos h (by linarith)
  · split
    · exact mul_pos h hc.decr.1
    · exact h

section
variable {T : Nat} {E E' : Nat → Env} {c : Nat → Cfg} {g : Nat → Mtx ℝ} {draw draw' : Nat → Nat → ℝ} {s p : Nat → St}

/-- What the optimiser makes of the gradient of step `t`, before gains; `u` is chosen as in `Session.opt_at`. -/
theorem Session.gain_step (h : Session T E E' c g draw draw' s p) (hu : (c 0).useILR = true) (t : Nat) (ht : t < T) (i : Nat) (hi : i < (s 0).n) :
    ∃ y : ℝ, ((c 0).type = .classicalConstant → y = (c t).lr * gradAt c g p t i) ∧
      (s (t + 1)).gain i = (if t = 0 then (s t).gain i else gainRule (c t) (if (c 0).ilrUseMom then (p t).V i else (s t).prev i) y ((s t).gain i)) ∧
      dirAt c g p t i = (if t = 0 then y else y * (s (t + 1)).gain i) ∧
      ((c 0).ilrUseMom = false → (s (t + 1)).prev i = dirAt c g p t i) := by
  obtain ⟨u, _, _, _, _, _, hn, hG, _, _, _, _, _, kd, kg, kp, ug, up, uv⟩ := h.opt_at t ht
  have hk := h.kind t ht
  have hu' : (c t).useILR = true := by rw [hk.useILR, hu]
  have hm : (c t).ilrUseMom = (c 0).ilrUseMom := by unfold Cfg.ilrUseMom; rw [hk.useMom, hk.ilrToMom]
  obtain ⟨_, oV, og, op, _⟩ := optF_keeps (c t) (decide (t = 0)) u
  have on := (optF_same (c t) (decide (t = 0)) u).n
  have hcl : (c 0).type = .classicalConstant → (optF (c t) (decide (t = 0)) u).G.data i = (c t).lr * gradAt c g p t i := by
    intro hty
    have := congrArg Prod.fst (optF_at (c t) (decide (t = 0)) u i (by rw [hn]; exact hi))
    have hty' : (c t).type = .classicalConstant := by rw [hk.type, hty]
    unfold optCell firstF at this
    rw [hty'] at this
    rw [show (optF (c t) (decide (t = 0)) u).G.data i = _ from this]
    show u.G.data i * _ = _
    rw [hG i hi, mul_comm]
  refine ⟨(optF (c t) (decide (t = 0)) u).G.data i, hcl, ?_⟩
  rw [kg, kp, kd]
  rw [← ug, ← up, ← uv, ← og, ← op, ← oV, ← hm]
  have on' : i < (optF (c t) (decide (t = 0)) u).n := by rw [on, hn]; exact hi
  generalize optF (c t) (decide (t = 0)) u = w at *
  unfold ilrF
  rw [if_neg (by simp [hu'])]
  by_cases h0 : t = 0
  · simp only [h0, decide_true, if_true]
    cases hmm : (c 0).ilrUseMom with
    | true => simp
    | false => simp only [Bool.false_eq_true, if_false, copyTo]; rw [h0] at *; exact ⟨trivial, trivial, fun _ => if_pos on'⟩
  · simp only [h0, decide_false, Bool.false_eq_true, if_false]
    cases hmm : (c t).ilrUseMom with
    | true =>
      simp only [if_true, St.setG, each, if_pos on', gainFactor_rule]
      simp
    | false =>
      simp only [Bool.false_eq_true, if_false, St.setG, each, if_pos on', gainFactor_rule, copyTo]
      simp

/-- C51. Gains start at one, always stay positive, and the first step does not change them. -/
theorem gains_positive (h : Session T E E' c g draw draw' s p) (hu : (c 0).useILR = true) (hc : ∀ t, t < T → GainCfg (c t)) (t : Nat) (ht : t ≤ T)
    (i : Nat) (hi : i < (s 0).W.rows * (s 0).W.cols) : 0 < (s t).gain i ∧ (t ≤ 1 → (s t).gain i = 1) := by
  induction t with
  | zero =>
    obtain ⟨W, _, h0⟩ := h.init
    have : (s 0).gain i = 1 := h0.2.2.2.2.2.2.2.1 hu i (by rw [← h0.1]; exact hi)
    rw [this]; exact ⟨one_pos, fun _ => rfl⟩
  | succ t ih =>
    obtain ⟨i1, i2⟩ := ih (by omega)
    obtain ⟨y, _, hg, _⟩ := h.gain_step hu t (by omega) i hi
    rw [hg]
    by_cases h0 : t = 0
    · rw [if_pos h0]; exact ⟨i1, fun _ => i2 (by omega)⟩
    · rw [if_neg h0]
      exact ⟨gainRule_pos _ (hc t (by omega)) _ _ _ i1, fun h1 => absurd h1 (by omega)⟩

/-- C51. With the plain optimiser a gain goes up exactly when the gradient of the element has the sign it had at the previous step (and the gain is
below the upper cap), down exactly when the sign flipped (and the gain is above the lower cap), and stays otherwise. Momentum may be used as long as the
gains are not controlled by it. -/
theorem gains_follow_gradient_signs (h : Session T E E' c g draw draw' s p) (hu : (c 0).useILR = true) (hc : ∀ t, t < T → GainCfg (c t))
    (htype : (c 0).type = .classicalConstant) (hm : (c 0).useMom = false ∨ (c 0).ilrToMom = false) (hlr : ∀ t, t < T → 0 < (c t).lr)
    (t : Nat) (ht : t + 1 < T) (i : Nat) (hi : i < (s 0).W.rows * (s 0).W.cols) :
    (s (t + 2)).gain i = gainRule (c (t + 1)) (penalised (c t) (p t).W (g t) i) (penalised (c (t + 1)) (p (t + 1)).W (g (t + 1)) i) ((s (t + 1)).gain i) := by
  have hum : (c 0).ilrUseMom = false := by unfold Cfg.ilrUseMom; rcases hm with hm | hm <;> rw [hm] <;> simp
  obtain ⟨y, hy, _, hd, hp⟩ := h.gain_step hu t (by omega) i hi
  obtain ⟨y', hy', hg', _, _⟩ := h.gain_step hu (t + 1) ht i hi
  have hpos := (gains_positive h hu hc (t + 1) (by omega) i hi).1
  rw [hg', if_neg (by omega), hum, if_neg (by simp), hp hum, hd, hy htype, hy' htype]
  have l1 := hlr t (by omega)
  have l2 := hlr (t + 1) ht
  by_cases h0 : t = 0
  · rw [if_pos h0, mul_comm (c t).lr, mul_comm (c (t + 1)).lr, gainRule_scale _ _ _ _ _ _ l1 l2]; rfl
  · rw [if_neg h0, show (c t).lr * gradAt c g p t i * (s (t + 1)).gain i = gradAt c g p t i * ((c t).lr * (s (t + 1)).gain i) by ring,
      mul_comm (c (t + 1)).lr, gainRule_scale _ _ _ _ _ _ (mul_pos l1 hpos) l2]; rfl

/-- C51. With any optimiser (no momentum, norm constraint and learning rate dropout) the same rule holds for the steps the weights make. -/
theorem gains_follow_steps (h : Session T E E' c g draw draw' s p) (hu : (c 0).useILR = true) (hc : ∀ t, t < T → GainCfg (c t))
    (hm : (c 0).useMom = false) (hx : ∀ t, t < T → (c t).useMaxNorm = false ∧ 1 ≤ (c t).lrDrop)
    (t : Nat) (ht : t + 1 < T) (i : Nat) (hi : i < (s 0).W.rows * (s 0).W.cols) :
    (s (t + 2)).gain i = gainRule (c (t + 1)) ((s t).W.data i - (s (t + 1)).W.data i) ((s (t + 1)).W.data i - (s (t + 2)).W.data i) ((s (t + 1)).gain i) := by
  have hum : (c 0).ilrUseMom = false := by unfold Cfg.ilrUseMom; rw [hm]; rfl
  obtain ⟨y, _, _, hd, hp⟩ := h.gain_step hu t (by omega) i hi
  obtain ⟨y', _, hg', hd', _⟩ := h.gain_step hu (t + 1) ht i hi
  have hpos := (gains_positive h hu hc (t + 2) (by omega) i hi).1
  have w1 := (h.plain_step t (by omega) (by rw [(h.kind t (by omega)).useMom, hm]) (hx t (by omega)).1 (hx t (by omega)).2 i hi).2
  have w2 := (h.plain_step (t + 1) ht (by rw [(h.kind (t + 1) ht).useMom, hm]) (hx (t + 1) ht).1 (hx (t + 1) ht).2 i hi).2
  have e1 : (s t).W.data i - (s (t + 1)).W.data i = dirAt c g p t i := by rw [w1]; ring
  have e2 : (s (t + 1)).W.data i - (s (t + 2)).W.data i = y' * (s (t + 2)).gain i := by
    rw [if_neg (by omega)] at hd'
    rw [← hd', show t + 2 = t + 1 + 1 from rfl, w2]; ring
  rw [e1, e2]
  have := gainRule_scale (c (t + 1)) (dirAt c g p t i) y' ((s (t + 1)).gain i) 1 ((s (t + 2)).gain i) one_pos hpos
  rw [mul_one] at this
  rw [this, show t + 2 = t + 1 + 1 from rfl, hg', if_neg (by omega), hum, if_neg (by simp), hp hum]

/-- C51. When the gains are controlled by the momentum, the previous direction is the velocity with which the layer enters the step. -/
theorem gains_follow_velocity (h : Session T E E' c g draw draw' s p) (hu : (c 0).useILR = true)
    (htype : (c 0).type = .classicalConstant) (hm : (c 0).useMom = true ∧ (c 0).ilrToMom = true) (hlr : ∀ t, t < T → 0 < (c t).lr ∧ 0 < (c t).mom)
    (t : Nat) (ht : t + 1 < T) (i : Nat) (hi : i < (s 0).W.rows * (s 0).W.cols) :
    (s (t + 2)).gain i = gainRule (c (t + 1)) ((s (t + 1)).V i) (penalised (c (t + 1)) (p (t + 1)).W (g (t + 1)) i) ((s (t + 1)).gain i) := by
  have hum : (c 0).ilrUseMom = true := by unfold Cfg.ilrUseMom; rw [hm.1, hm.2]; rfl
  obtain ⟨y', hy', hg', _, _⟩ := h.gain_step hu (t + 1) ht i hi
  obtain ⟨l1, l2⟩ := hlr (t + 1) ht
  rw [show t + 2 = t + 1 + 1 from rfl, hg', if_neg (by omega), hum, if_pos rfl, hy' htype, (h.step_eq (t + 1) ht).1,
    pre_V _ _ _ i (by rw [(h.pre_n (t + 1) ht).1]; exact hi), ← (h.step_eq (t + 1) ht).1, mul_comm (c (t + 1)).lr]
  split
  · rw [mul_comm (c (t + 1)).mom, gainRule_scale _ _ _ _ _ _ l2 l1]; rfl
  · have := gainRule_scale (c (t + 1)) ((s (t + 1)).V i) (gradAt c g p (t + 1) i) ((s (t + 1)).gain i) 1 (c (t + 1)).lr one_pos l1
    rw [mul_one] at this
    rw [this]; rfl

/-- C51. What the rule means: a gain grows only after a kept sign, shrinks only after a flip. -/
theorem gainRule_direction (c : Cfg) (hc : GainCfg c) (x y gain : ℝ) (h : 0 < gain) :
    (gain < gainRule c x y gain ↔ 0 < x * y ∧ gain < c.capHigh) ∧ (gainRule c x y gain < gain ↔ x * y < 0 ∧ c.capLow < gain) := by
  have hi := hc.incr
  have hd := hc.decr.2
  have up : gain < gain * c.incr := by nlinarith
  have dn : gain * c.decr < gain := by nlinarith
  unfold gainRule
  by_cases h1 : 0 < x * y ∧ gain < c.capHigh
  · rw [if_pos h1]
    exact ⟨⟨fun _ => h1, fun _ => up⟩, ⟨fun h => absurd h (not_lt.2 up.le), fun h => absurd h.1 (not_lt.2 h1.1.le)⟩⟩
  · rw [if_neg h1]
    by_cases h2 : x * y < 0 ∧ c.capLow < gain
    · rw [if_pos h2]
      exact ⟨⟨fun h => absurd h (not_lt.2 dn.le), fun h => absurd h h1⟩, ⟨fun _ => h2, fun _ => dn⟩⟩
    · rw [if_neg h2]
      exact ⟨⟨fun h => absurd h (lt_irrefl _), fun h => absurd h h1⟩, ⟨fun h => absurd h (lt_irrefl _), fun h => absurd h h2⟩⟩

/-- C51. With any optimiser, momentum and schedule of the other settings: gains that are inside of `(capLow·decr, capHigh·incr)` stay there for the rest of the
session; the initial gains are inside if `1` is. -/
theorem gains_stay_inside (h : Session T E E' c g draw draw' s p) (hu : (c 0).useILR = true) (decr incr lo hi : ℝ)
    (hc : ∀ t, t < T → GainCfg (c t) ∧ (c t).decr = decr ∧ (c t).incr = incr ∧ (c t).capLow = lo ∧ (c t).capHigh = hi)
    (t0 t : Nat) (h0 : t0 ≤ t) (ht : t ≤ T) (i : Nat) (hin : i < (s 0).W.rows * (s 0).W.cols)
    (hb : lo * decr < (s t0).gain i ∧ (s t0).gain i < hi * incr) : lo * decr < (s t).gain i ∧ (s t).gain i < hi * incr := by
  induction t, h0 using Nat.le_induction with
  | base => exact hb
  | succ t hle ih =>
    obtain ⟨i1, i2⟩ := ih (by omega)
    obtain ⟨cg, e1, e2, e3, e4⟩ := hc t (by omega)
    have hpos := (gains_positive h hu (fun t ht => (hc t ht).1) t (by omega) i hin).1
    obtain ⟨y, _, hg, _⟩ := h.gain_step hu t (by omega) i hin
    have d1 := cg.decr
    have d2 := cg.incr
    have d3 := cg.low
    rw [e1] at d1
    rw [e2] at d2
    rw [e3] at d3
    rw [hg]
    by_cases hz : t = 0
    · rw [if_pos hz]; exact ⟨i1, i2⟩
    · rw [if_neg hz]
      generalize (if (c 0).ilrUseMom = true then (p t).V i else (s t).prev i) = x
      unfold gainRule
      rw [e1, e2, e3, e4]
      split
      · next hh => exact ⟨by nlinarith, by nlinarith [hh.2]⟩
      · split
        · next hh => exact ⟨by nlinarith [hh.2], by nlinarith⟩
        · exact ⟨i1, i2⟩

end

/-- Settings with gains. -/
noncomputable def demoGain : Cfg := { demoCfg .classicalConstant false false with useILR := true }

/-- The hypotheses can be met: a session of any length; after a kept sign the gain of an element is doubled. -/
example (T : Nat) (hT : 2 ≤ T) : ∃ s p, Session T (fun _ => demoEnv) (fun _ => demoEnv) (fun _ => demoGain) (fun _ => { demoW with data := fun _ => 1 })
    (fun _ _ => 0) (fun _ _ => 0) s p ∧ GainCfg demoGain ∧ (s 2).gain 3 = 2 := by
  obtain ⟨s, p, h0, h⟩ := demo_session T (fun _ => demoGain) (fun _ _ => ⟨rfl, rfl, rfl, rfl⟩) (fun _ _ => 0) (fun _ _ => 0) (fun _ _ => 1)
  have hc : GainCfg demoGain := by
    constructor <;> norm_num [demoGain, demoCfg]
  have hn : 3 < (s 0).W.rows * (s 0).W.cols := by rw [h0]; decide
  refine ⟨s, p, h, hc, ?_⟩
  rw [gains_follow_gradient_signs h rfl (fun _ _ => hc) rfl (Or.inl rfl) (fun _ _ => by norm_num [demoGain, demoCfg]) 0 (by omega) 3 hn,
    (gains_positive h rfl (fun _ _ => hc) 1 (by omega) 3 hn).2 (by omega)]
  norm_num [gainRule, penalised, demoGain, demoCfg]

end Nntl.Grad
