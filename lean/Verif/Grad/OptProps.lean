import Verif.Grad.AdamProps
/-! C70–C72: the other optimisers. -/
namespace Nntl.Grad
open Nntl.Kernel Nntl.Matrix Nntl.Threads
open scoped BigOperators

section
variable {T : Nat} {E E' : Nat → Env} {c : Nat → Cfg} {g : Nat → Mtx ℝ} {draw draw' : Nat → Nat → ℝ} {s p : Nat → St}

theorem Session.n_pos (h : Session T E E' c g draw draw' s p) : 0 < (s 0).n := by
  obtain ⟨W, hW, hi⟩ := h.init
  unfold St.n; rw [hi.1]; exact Nat.mul_pos hW.rows (by have := hW.cols; omega)

/-- Optimisers without a cleared start: one step. -/
theorem Session.opt_cell (h : Session T E E' c g draw draw' s p) (hz : (c 0).type.cleared = false) (t : Nat) (ht : t < T) (i : Nat) (hi : i < (s 0).n) :
    ∃ pw gm d, (d, (s (t + 1)).A i, (s (t + 1)).B i) = optCell (c t) (decide (t = 0)) pw gm (gradAt c g p t i, (s t).A i, (s t).B i) ∧
      ((c 0).useILR = false → dirAt c g p t i = d) := by
  obtain ⟨u, hA, hB, _, _, _, hn, hG, kA, kB, _, _, _, kd, _⟩ := h.opt_at t ht
  have hk := h.kind t ht
  have hf : firstF (c t) (decide (t = 0)) u = u := by
    unfold firstF
    have : (c t).type.cleared = false := by rw [hk.type]; exact hz
    split <;> first | rfl | skip
    all_goals
      next he => rw [he] at this; cases this
  have ha := optF_at (c t) (decide (t = 0)) u i (by rw [hn]; exact hi)
  rw [hf] at ha
  refine ⟨powF (c t) u, u.gamma, (optF (c t) (decide (t = 0)) u).G.data i, ?_, fun hilr => ?_⟩
  · rw [kA, kB, ← hA, ← hB, ← hG i hi]; exact ha
  · rw [kd]; unfold ilrF; rw [if_pos (show (c t).useILR = false by rw [hk.useILR, hilr])]

/-! ### RMSProp (Hinton) and ModProp -/

/-- C70. RMSProp: after the first step (an ordinary one) the average is the weighted sum of all squared gradients — the first one with its full weight — and the
direction is `lr·g/(√average + eps)`. -/
theorem rmsprop_average (h : Session T E E' c g draw draw' s p) (hty : (c 0).type = .rmsHinton) (t : Nat) (ht : t < T) (i : Nat)
    (hi : i < (s 0).W.rows * (s 0).W.cols) :
    (s (t + 1)).A i = weightedSum (fun j => (c j).beta1) (fun k => (if k = 0 then 1 else 1 - (c k).beta1) * penalised (c k) (p k).W (g k) i ^ 2) (t + 1) ∧
    ((c 0).useILR = false → dirAt c g p t i = if t = 0 then (c t).lr * penalised (c t) (p t).W (g t) i
      else (c t).lr * (penalised (c t) (p t).W (g t) i / (Real.sqrt ((s (t + 1)).A i) + (c t).eps))) := by
  have one : ∀ t, t < T → (s (t + 1)).A i = (if t = 0 then 0 else (c t).beta1 * (s t).A i) + (if t = 0 then 1 else 1 - (c t).beta1) * gradAt c g p t i ^ 2 ∧
      ((c 0).useILR = false → dirAt c g p t i = if t = 0 then (c t).lr * gradAt c g p t i
        else (c t).lr * (gradAt c g p t i / (Real.sqrt ((s (t + 1)).A i) + (c t).eps))) := by
    intro t ht
    obtain ⟨pw, gm, d, he, hd⟩ := h.opt_cell (by rw [hty]; rfl) t ht i hi
    unfold optCell at he
    rw [show (c t).type = .rmsHinton by rw [(h.kind t ht).type, hty]] at he
    by_cases h0 : t = 0
    · simp only [h0, decide_true, if_true, Prod.mk.injEq] at he ⊢
      obtain ⟨e1, e2, _⟩ := he
      exact ⟨by rw [e2]; ring, fun hl => by rw [h0] at hd; rw [hd hl, e1]; ring⟩
    · simp only [h0, decide_false, Bool.false_eq_true, if_false, hintonCell, Prod.mk.injEq] at he ⊢
      obtain ⟨e1, e2, _⟩ := he
      exact ⟨by rw [e2]; ring, fun hl => by rw [hd hl, e1, e2]⟩
  refine ⟨?_, (one t ht).2⟩
  induction t with
  | zero => rw [(one 0 ht).1, weightedSum_succ, weightedSum_zero]; simp [gradAt]
  | succ t ih =>
    rw [(one (t + 1) ht).1, if_neg (by omega), ih (by omega), weightedSum_succ _ _ (t + 1)]
    rfl

/-- Weighted sums of non-negative numbers. -/
theorem weightedSum_nonneg (m x : Nat → ℝ) (t : Nat) (hm : ∀ j, j < t → 0 ≤ m j) (hx : ∀ k, k < t → 0 ≤ x k) : 0 ≤ weightedSum m x t := by
  unfold weightedSum
  apply Finset.sum_nonneg
  intro k hk
  exact mul_nonneg (Finset.prod_nonneg fun j hj => hm j (Finset.mem_Ico.1 hj).2) (hx k (Finset.mem_range.1 hk))

/-- C70. RMSProp never moves a weight further than `lr/√(1 − beta)`, however large the gradients are (from the second step on). -/
theorem rmsprop_step_bounded (h : Session T E E' c g draw draw' s p) (hty : (c 0).type = .rmsHinton) (hilr : (c 0).useILR = false) (hm : (c 0).useMom = false)
    (hc : ∀ t, t < T → 0 ≤ (c t).beta1 ∧ (c t).beta1 < 1 ∧ 0 ≤ (c t).eps ∧ 0 ≤ (c t).lr ∧ (c t).useMaxNorm = false ∧ 1 ≤ (c t).lrDrop)
    (t : Nat) (h0 : 0 < t) (ht : t < T) (i : Nat) (hi : i < (s 0).W.rows * (s 0).W.cols) :
    |(s (t + 1)).W.data i - (s t).W.data i| ≤ (c t).lr / Real.sqrt (1 - (c t).beta1) := by
  obtain ⟨b0, b1, e0, l0, hx, hd⟩ := hc t ht
  obtain ⟨a1, a2⟩ := rmsprop_average h hty t ht i hi
  rw [(h.plain_step t ht (by rw [(h.kind t ht).useMom, hm]) hx hd i hi).2, a2 hilr, if_neg (by omega)]
  rw [weightedSum_succ, if_neg (by omega)] at a1
  have hw : 0 ≤ weightedSum (fun j => (c j).beta1) (fun k => (if k = 0 then 1 else 1 - (c k).beta1) * penalised (c k) (p k).W (g k) i ^ 2) t := by
    apply weightedSum_nonneg
    · intro j hj; exact (hc j (by omega)).1
    · intro k hk
      apply mul_nonneg _ (sq_nonneg _)
      split
      · exact zero_le_one
      · have := (hc k (by omega)).2.1; linarith
  have hge : (1 - (c t).beta1) * penalised (c t) (p t).W (g t) i ^ 2 ≤ (s (t + 1)).A i := by
    rw [a1]; have := mul_nonneg b0 hw; linarith
  generalize penalised (c t) (p t).W (g t) i = x at *
  generalize (s (t + 1)).A i = A at *
  have hq : 0 < Real.sqrt (1 - (c t).beta1) := Real.sqrt_pos.2 (by linarith)
  have hs : Real.sqrt (1 - (c t).beta1) * |x| ≤ Real.sqrt A := by
    rw [← Real.sqrt_sq_eq_abs, ← Real.sqrt_mul (by linarith)]
    exact Real.sqrt_le_sqrt hge
  have habs : |(s t).W.data i - (c t).lr * (x / (Real.sqrt A + (c t).eps)) - (s t).W.data i| = (c t).lr * (|x| / (Real.sqrt A + (c t).eps)) := by
    rw [show (s t).W.data i - (c t).lr * (x / (Real.sqrt A + (c t).eps)) - (s t).W.data i = -((c t).lr * (x / (Real.sqrt A + (c t).eps))) by ring, abs_neg, abs_mul, abs_div,
      abs_of_nonneg l0, abs_of_nonneg (add_nonneg (Real.sqrt_nonneg _) e0)]
  rw [habs, show (c t).lr / Real.sqrt (1 - (c t).beta1) = (c t).lr * (1 / Real.sqrt (1 - (c t).beta1)) by ring]
  apply mul_le_mul_of_nonneg_left _ l0
  by_cases hx0 : Real.sqrt A + (c t).eps = 0
  · rw [hx0, div_zero]; exact (one_div_pos.2 hq).le
  · have hpos : 0 < Real.sqrt A + (c t).eps := lt_of_le_of_ne (add_nonneg (Real.sqrt_nonneg _) e0) (Ne.symm hx0)
    rw [div_le_div_iff₀ hpos hq]
    linarith

/-- C70. ModProp: the same with absolute values: the average is the weighted sum of `|g|`. -/
theorem modprop_average (h : Session T E E' c g draw draw' s p) (hty : (c 0).type = .modprop) (t : Nat) (ht : t < T) (i : Nat)
    (hi : i < (s 0).W.rows * (s 0).W.cols) :
    (s (t + 1)).A i = weightedSum (fun j => (c j).beta1) (fun k => (if k = 0 then 1 else 1 - (c k).beta1) * |penalised (c k) (p k).W (g k) i|) (t + 1) ∧
    ((c 0).useILR = false → dirAt c g p t i = if t = 0 then (c t).lr * penalised (c t) (p t).W (g t) i
      else (c t).lr * (penalised (c t) (p t).W (g t) i / ((s (t + 1)).A i + (c t).eps))) := by
  have one : ∀ t, t < T → (s (t + 1)).A i = (if t = 0 then 0 else (c t).beta1 * (s t).A i) + (if t = 0 then 1 else 1 - (c t).beta1) * |gradAt c g p t i| ∧
      ((c 0).useILR = false → dirAt c g p t i = if t = 0 then (c t).lr * gradAt c g p t i
        else (c t).lr * (gradAt c g p t i / ((s (t + 1)).A i + (c t).eps))) := by
    intro t ht
    obtain ⟨pw, gm, d, he, hd⟩ := h.opt_cell (by rw [hty]; rfl) t ht i hi
    unfold optCell at he
    rw [show (c t).type = .modprop by rw [(h.kind t ht).type, hty]] at he
    by_cases h0 : t = 0
    · simp only [h0, decide_true, if_true, Prod.mk.injEq] at he ⊢
      obtain ⟨e1, e2, _⟩ := he
      exact ⟨by rw [e2]; ring, fun hl => by rw [h0] at hd; rw [hd hl, e1]; ring⟩
    · simp only [h0, decide_false, Bool.false_eq_true, if_false, modCell, Prod.mk.injEq] at he ⊢
      obtain ⟨e1, e2, _⟩ := he
      exact ⟨by rw [e2]; ring, fun hl => by rw [hd hl, e1, e2]⟩
  refine ⟨?_, (one t ht).2⟩
  induction t with
  | zero => rw [(one 0 ht).1, weightedSum_succ, weightedSum_zero]; simp [gradAt]
  | succ t ih =>
    rw [(one (t + 1) ht).1, if_neg (by omega), ih (by omega), weightedSum_succ _ _ (t + 1)]
    rfl

/-! ### RMSProp (Graves) -/

/-- C70. Graves' RMSProp keeps averages of gradients and of squares; the number under its square root, average of squares minus squared average plus `eps`, is never
smaller than `eps`: there is no square root of a negative number in any history. -/
theorem graves_radicand_nonneg (h : Session T E E' c g draw draw' s p) (hty : (c 0).type = .rmsGraves)
    (hc : ∀ t, t < T → 0 ≤ (c t).beta1 ∧ (c t).beta1 ≤ 1) (t : Nat) (ht : t < T) (i : Nat) (hi : i < (s 0).W.rows * (s 0).W.cols) :
    (c t).eps ≤ (s (t + 1)).A i - (s (t + 1)).B i * (s (t + 1)).B i + (c t).eps ∧
    ((c 0).useILR = false → dirAt c g p t i = if t = 0 then (c t).lr * penalised (c t) (p t).W (g t) i
      else (c t).lr * (penalised (c t) (p t).W (g t) i / Real.sqrt ((s (t + 1)).A i - (s (t + 1)).B i * (s (t + 1)).B i + (c t).eps))) := by
  have one : ∀ t, t < T → (t = 0 → (s (t + 1)).A i = gradAt c g p t i * gradAt c g p t i ∧ (s (t + 1)).B i = gradAt c g p t i) ∧
      (t ≠ 0 → (s (t + 1)).A i = (c t).beta1 * (s t).A i + gradAt c g p t i * (gradAt c g p t i * (1 - (c t).beta1)) ∧
        (s (t + 1)).B i = (c t).beta1 * (s t).B i + gradAt c g p t i * (1 - (c t).beta1)) ∧
      ((c 0).useILR = false → dirAt c g p t i = if t = 0 then (c t).lr * gradAt c g p t i
        else (c t).lr * (gradAt c g p t i / Real.sqrt ((s (t + 1)).A i - (s (t + 1)).B i * (s (t + 1)).B i + (c t).eps))) := by
    intro t ht
    obtain ⟨pw, gm, d, he, hd⟩ := h.opt_cell (by rw [hty]; rfl) t ht i hi
    unfold optCell at he
    rw [show (c t).type = .rmsGraves by rw [(h.kind t ht).type, hty]] at he
    by_cases h0 : t = 0
    · simp only [h0, decide_true, if_true, Prod.mk.injEq] at he ⊢
      obtain ⟨e1, e2, e3⟩ := he
      exact ⟨fun _ => ⟨e2, e3⟩, fun hn => absurd rfl hn, fun hl => by rw [h0] at hd; rw [hd hl, e1]; ring⟩
    · simp only [h0, decide_false, Bool.false_eq_true, if_false, gravesCell, Prod.mk.injEq] at he ⊢
      obtain ⟨e1, e2, e3⟩ := he
      exact ⟨fun hn => hn.elim, fun _ => ⟨e2, e3⟩, fun hl => by rw [hd hl, e1, e2, e3]⟩
  have key : ∀ t, t < T → (s (t + 1)).B i * (s (t + 1)).B i ≤ (s (t + 1)).A i := by
    intro t
    induction t with
    | zero => intro ht; obtain ⟨e1, e2⟩ := (one 0 ht).1 rfl; rw [e1, e2]
    | succ t ih =>
      intro ht
      have hprev := ih (by omega)
      obtain ⟨e1, e2⟩ := (one (t + 1) ht).2.1 (by omega)
      obtain ⟨b0, b1⟩ := hc (t + 1) ht
      rw [e1, e2]
      generalize gradAt c g p (t + 1) i = x
      generalize (s (t + 1)).A i = A at *
      generalize (s (t + 1)).B i = B at *
      generalize (c (t + 1)).beta1 = b at *
      have h1 : 0 ≤ b * (1 - b) * (x - B) ^ 2 := mul_nonneg (mul_nonneg b0 (by linarith)) (sq_nonneg _)
      have h2 : 0 ≤ b * (A - B * B) := mul_nonneg b0 (by linarith)
      nlinarith [h1, h2]
  exact ⟨by have := key t ht; linarith, (one t ht).2.2⟩

/-! ### RProp -/

/-- C70. RProp moves every weight by exactly the learning rate against the sign of its gradient, or not at all if the gradient is zero. -/
theorem rprop_step (h : Session T E E' c g draw draw' s p) (hty : (c 0).type = .rprop) (hilr : (c 0).useILR = false) (hm : (c 0).useMom = false)
    (t : Nat) (ht : t < T) (hx : (c t).useMaxNorm = false) (hd : 1 ≤ (c t).lrDrop) (i : Nat) (hi : i < (s 0).W.rows * (s 0).W.cols) :
    (s (t + 1)).W.data i = if 0 < penalised (c t) (p t).W (g t) i then (s t).W.data i - (c t).lr
      else if penalised (c t) (p t).W (g t) i < 0 then (s t).W.data i + (c t).lr else (s t).W.data i := by
  obtain ⟨pw, gm, d, he, hdir⟩ := h.opt_cell (by rw [hty]; rfl) t ht i hi
  unfold optCell at he
  rw [show (c t).type = .rprop by rw [(h.kind t ht).type, hty]] at he
  simp only [Prod.mk.injEq] at he
  rw [(h.plain_step t ht (by rw [(h.kind t ht).useMom, hm]) hx hd i hi).2, hdir hilr, he.1]
  show (s t).W.data i - (c t).lr * sgn (penalised (c t) (p t).W (g t) i) = _
  generalize penalised (c t) (p t).W (g t) i = x
  unfold sgn
  by_cases h1 : 0 < x
  · rw [if_pos h1, if_pos h1, if_neg (not_lt.2 h1.le)]; ring
  · rw [if_neg h1, if_neg h1]
    by_cases h2 : x < 0
    · rw [if_pos h2, if_pos h2]; ring
    · rw [if_neg h2, if_neg h2]; ring

/-! ### Optimisers with a cleared start -/

theorem Session.cleared_cell (h : Session T E E' c g draw draw' s p) (hz : (c 0).type.cleared = true) (t : Nat) (ht : t < T) (i : Nat) (hi : i < (s 0).n) :
    ∃ u : St, ∃ d, u.b1t = (if t = 0 then 1 else (s t).b1t) ∧ ((c 0).type ≠ .adamax → u.b2t = if t = 0 then 1 else (s t).b2t) ∧
      u.gamma = (if t = 0 ∧ (c 0).type = .nadam then 0 else (s t).gamma) ∧
      (d, (s (t + 1)).A i, (s (t + 1)).B i) = optCell (c t) (decide (t = 0)) (powF (c t) u) u.gamma
        (gradAt c g p t i, (if t = 0 then 0 else (s t).A i), (if t = 0 then 0 else (s t).B i)) ∧
      ((s (t + 1)).b1t, (s (t + 1)).b2t) = powF (c t) u ∧ (s (t + 1)).gamma = u.gamma ∧
      ((c 0).useILR = false → dirAt c g p t i = d) := by
  obtain ⟨u, hA, hB, hb1, hb2, hgm, hn, hG, kA, kB, kb1, kb2, kgm, kd, _⟩ := h.opt_at t ht
  have hk := h.kind t ht
  have hz' : (c t).type.cleared = true := by rw [hk.type]; exact hz
  obtain ⟨f1, f2, f3⟩ := firstF_cell (c t) (decide (t = 0)) u hz' i (by rw [hn]; exact hi)
  have ha := optF_at (c t) (decide (t = 0)) u i (by rw [hn]; exact hi)
  rw [f1, hG i hi, hA, hB, ← kA, ← kB] at ha
  simp only [decide_eq_true_eq] at ha f2 f3
  refine ⟨firstF (c t) (decide (t = 0)) u, _, by rw [f2, hb1], fun hne => by rw [f3 (by rw [hk.type]; exact hne), hb2], ?_, ha, ?_, ?_, ?_⟩
  · rw [firstF_gamma, hgm, hk.type]; simp only [decide_eq_true_eq]
  · rw [kb1, kb2]; rfl
  · rw [kgm]; rfl
  · intro hilr; rw [kd]; unfold ilrF; rw [if_pos (show (c t).useILR = false by rw [hk.useILR, hilr])]

/-- C71. AdaMax: the second accumulator is the largest of all past absolute gradients, each discounted by the betas of the steps since then; it is an upper
bound of all of them and it is one of them. -/
theorem adamax_infinity_norm (h : Session T E E' c g draw draw' s p) (hty : (c 0).type = .adamax) (hb : ∀ t, t < T → 0 ≤ (c t).beta2)
    (t : Nat) (ht : t < T) (i : Nat) (hi : i < (s 0).W.rows * (s 0).W.cols) :
    (∀ k, k ≤ t → (∏ j ∈ Finset.Ico (k + 1) (t + 1), (c j).beta2) * |penalised (c k) (p k).W (g k) i| ≤ (s (t + 1)).B i) ∧
    (∃ k, k ≤ t ∧ (s (t + 1)).B i = (∏ j ∈ Finset.Ico (k + 1) (t + 1), (c j).beta2) * |penalised (c k) (p k).W (g k) i|) := by
  have one : ∀ t, t < T → (s (t + 1)).B i = max |gradAt c g p t i| ((c t).beta2 * if t = 0 then 0 else (s t).B i) := by
    intro t ht
    obtain ⟨u, d, _, _, _, he, _⟩ := h.cleared_cell (by rw [hty]; rfl) t ht i hi
    unfold optCell at he
    rw [show (c t).type = .adamax by rw [(h.kind t ht).type, hty]] at he
    simp only [adaMaxCell, Prod.mk.injEq] at he
    exact he.2.2
  induction t with
  | zero =>
    rw [one 0 ht]
    simp only [if_true, mul_zero]
    rw [max_eq_left (abs_nonneg _)]
    refine ⟨fun k hk => ?_, ⟨0, le_refl _, ?_⟩⟩
    · have : k = 0 := by omega
      subst this; simp [gradAt]
    · simp [gradAt]
  | succ t ih =>
    obtain ⟨i1, k0, i2, i3⟩ := ih (by omega)
    rw [one (t + 1) ht, if_neg (by omega)]
    have b0 := hb (t + 1) ht
    have ext : ∀ k, k ≤ t → ∏ j ∈ Finset.Ico (k + 1) (t + 1 + 1), (c j).beta2 = (∏ j ∈ Finset.Ico (k + 1) (t + 1), (c j).beta2) * (c (t + 1)).beta2 :=
      fun k hk => Finset.prod_Ico_succ_top (by omega) _
    refine ⟨fun k hk => ?_, ?_⟩
    · by_cases hkt : k = t + 1
      · subst hkt; simp only [Finset.Ico_self, Finset.prod_empty, one_mul]; exact le_max_left _ _
      · rw [ext k (by omega)]
        refine le_trans ?_ (le_max_right _ _)
        have := mul_le_mul_of_nonneg_left (i1 k (by omega)) b0
        calc _ = (c (t + 1)).beta2 * ((∏ j ∈ Finset.Ico (k + 1) (t + 1), (c j).beta2) * |penalised (c k) (p k).W (g k) i|) := by ring
          _ ≤ _ := this
    · rcases le_total ((c (t + 1)).beta2 * (s (t + 1)).B i) |gradAt c g p (t + 1) i| with hle | hle
      · refine ⟨t + 1, le_refl _, ?_⟩
        rw [max_eq_left hle]; simp [gradAt]
      · refine ⟨k0, by omega, ?_⟩
        rw [max_eq_right hle, i3, ext k0 i2]; ring

/-- C71. AdaMax: first average and power as in Adam, and the direction. -/
theorem adamax_bookkeeping (h : Session T E E' c g draw draw' s p) (hty : (c 0).type = .adamax) (t : Nat) (ht : t < T) :
    (s (t + 1)).b1t = ∏ j ∈ Finset.range (t + 1), (c j).beta1 ∧
    ∀ i, i < (s 0).W.rows * (s 0).W.cols →
      (s (t + 1)).A i = weightedSum (fun j => (c j).beta1) (fun k => (1 - (c k).beta1) * penalised (c k) (p k).W (g k) i) (t + 1) ∧
      ((c 0).useILR = false → dirAt c g p t i = (c t).lr / (1 - (s (t + 1)).b1t) * (s (t + 1)).A i / ((s (t + 1)).B i + (c t).eps)) := by
  have one : ∀ t, t < T → ∀ i, i < (s 0).n → (s (t + 1)).b1t = (if t = 0 then 1 else (s t).b1t) * (c t).beta1 ∧
      (s (t + 1)).A i = (if t = 0 then 0 else (s t).A i) * (c t).beta1 + gradAt c g p t i * (1 - (c t).beta1) ∧
      ((c 0).useILR = false → dirAt c g p t i = (c t).lr / (1 - (s (t + 1)).b1t) * (s (t + 1)).A i / ((s (t + 1)).B i + (c t).eps)) := by
    intro t ht i hi
    obtain ⟨u, d, hu, _, _, he, hp, _, hd⟩ := h.cleared_cell (by rw [hty]; rfl) t ht i hi
    have hty' : (c t).type = .adamax := by rw [(h.kind t ht).type, hty]
    unfold optCell at he
    unfold powF at he hp
    rw [hty'] at he hp
    simp only [adaMaxCell, Prod.mk.injEq] at he hp
    obtain ⟨e1, e2, e3⟩ := he
    exact ⟨by rw [hp.1, hu], e2, fun hl => by rw [hd hl, e1, e2, e3, hp.1]⟩
  induction t with
  | zero =>
    refine ⟨by rw [(one 0 ht 0 h.n_pos).1]; simp, fun i hi => ⟨?_, (one 0 ht i hi).2.2⟩⟩
    rw [(one 0 ht i hi).2.1, weightedSum_succ, weightedSum_zero]; simp [gradAt]; ring
  | succ t ih =>
    obtain ⟨i1, i2⟩ := ih (by omega)
    refine ⟨by rw [(one (t + 1) ht 0 h.n_pos).1, if_neg (by omega), i1, ← Finset.prod_range_succ], fun i hi => ⟨?_, (one (t + 1) ht i hi).2.2⟩⟩
    rw [(one (t + 1) ht i hi).2.1, if_neg (by omega), (i2 i hi).1, weightedSum_succ _ _ (t + 1)]
    show _ * _ + penalised _ _ _ _ * _ = _
    ring

/-- C72. Nadam and RAdam fold the bias correction into their averages: with constant betas the averages after `t` steps are the corrected averages of Adam,
`(1−b)·Σ b^(t−1−k)·g_k / (1 − b^t)` and the same for squares; the powers are `b^t`. -/
theorem rnadam_averages (h : Session T E E' c g draw draw' s p) (hty : (c 0).type = .nadam ∨ (c 0).type = .radam) (b1 b2 : ℝ) (h1 : |b1| < 1) (h2 : |b2| < 1)
    (hc : ∀ t, t < T → (c t).beta1 = b1 ∧ (c t).beta2 = b2) (t : Nat) (h0 : 0 < t) (ht : t ≤ T) :
    (s t).b1t = b1 ^ t ∧ (s t).b2t = b2 ^ t ∧ ∀ i, i < (s 0).W.rows * (s 0).W.cols →
      (1 - b1 ^ t) * (s t).A i = weightedSum (fun _ => b1) (fun k => (1 - b1) * penalised (c k) (p k).W (g k) i) t ∧
      (1 - b2 ^ t) * (s t).B i = weightedSum (fun _ => b2) (fun k => (1 - b2) * penalised (c k) (p k).W (g k) i ^ 2) t := by
  have one : ∀ t, t < T → ∀ i, i < (s 0).n → (s (t + 1)).b1t = (if t = 0 then 1 else (s t).b1t) * b1 ∧ (s (t + 1)).b2t = (if t = 0 then 1 else (s t).b2t) * b2 ∧
      (s (t + 1)).A i = (if t = 0 then 0 else (s t).A i) * ((b1 - (s (t + 1)).b1t) / (1 - (s (t + 1)).b1t)) +
        gradAt c g p t i * (1 - (b1 - (s (t + 1)).b1t) / (1 - (s (t + 1)).b1t)) ∧
      (s (t + 1)).B i = (if t = 0 then 0 else (s t).B i) * ((b2 - (s (t + 1)).b2t) / (1 - (s (t + 1)).b2t)) +
        gradAt c g p t i * gradAt c g p t i * (1 - (b2 - (s (t + 1)).b2t) / (1 - (s (t + 1)).b2t)) := by
    intro t ht i hi
    obtain ⟨c1, c2⟩ := hc t ht
    obtain ⟨u, d, hu1, hu2, _, he, hp, _, _⟩ := h.cleared_cell (by rcases hty with hty | hty <;> rw [hty] <;> rfl) t ht i hi
    have hne : (c 0).type ≠ .adamax := by rcases hty with hty | hty <;> rw [hty] <;> decide
    have hty' : (c t).type = .nadam ∨ (c t).type = .radam := by rw [(h.kind t ht).type]; exact hty
    have hpw : powF (c t) u = (u.b1t * (c t).beta1, u.b2t * (c t).beta2) := by
      unfold powF; rcases hty' with hty' | hty' <;> rw [hty']
    have hcell : ∀ pw gm x, optCell (c t) (decide (t = 0)) pw gm x = rNadamCell pw.1 pw.2 (c t).lr (c t).beta1 (c t).beta2 gm (c t).eps x := by
      intro pw gm x; unfold optCell; rcases hty' with hty' | hty' <;> rw [hty']
    rw [hcell, hpw] at he
    rw [hpw] at hp
    simp only [rNadamCell, Prod.mk.injEq] at he hp
    obtain ⟨_, e2, e3⟩ := he
    rw [← hp.1, c1] at e2
    rw [← hp.2, c2] at e3
    refine ⟨?_, ?_, e2, e3⟩
    · rw [hp.1, hu1, c1]
    · rw [hp.2, hu2 hne, c2]
  have ne : ∀ b : ℝ, |b| < 1 → ∀ t : Nat, 0 < t → 1 - b ^ t ≠ 0 := by
    intro b hb t ht
    have : b ^ t < 1 := lt_of_le_of_lt (le_abs_self _) (by rw [abs_pow]; exact pow_lt_one₀ (abs_nonneg _) hb (by omega))
    linarith
  have alg : ∀ (b A x : ℝ) (t : Nat), |b| < 1 → (1 - b ^ (t + 1)) * (A * ((b - b ^ (t + 1)) / (1 - b ^ (t + 1))) + x * (1 - (b - b ^ (t + 1)) / (1 - b ^ (t + 1)))) =
      b * ((1 - b ^ t) * A) + (1 - b) * x := by
    intro b A x t hb
    have hn := ne b hb (t + 1) (by omega)
    have e1 : (1 - b ^ (t + 1)) * ((b - b ^ (t + 1)) / (1 - b ^ (t + 1))) = b - b ^ (t + 1) := mul_div_cancel₀ _ hn
    calc _ = A * ((1 - b ^ (t + 1)) * ((b - b ^ (t + 1)) / (1 - b ^ (t + 1)))) +
          x * ((1 - b ^ (t + 1)) - (1 - b ^ (t + 1)) * ((b - b ^ (t + 1)) / (1 - b ^ (t + 1)))) := by ring
      _ = _ := by rw [e1]; ring
  induction t with
  | zero => omega
  | succ t ih =>
    by_cases ht0 : t = 0
    · subst ht0
      have o := fun i hi => one 0 (by omega) i hi
      have q1 : (s 1).b1t = b1 ^ 1 := by rw [(o 0 h.n_pos).1]; simp
      have q2 : (s 1).b2t = b2 ^ 1 := by rw [(o 0 h.n_pos).2.1]; simp
      refine ⟨q1, q2, fun i hi => ?_⟩
      obtain ⟨_, _, a, b⟩ := o i hi
      simp only [Nat.zero_add] at a b ⊢
      rw [q1] at a
      rw [q2] at b
      have A1 := alg b1 0 (gradAt c g p 0 i) 0 h1
      have B1 := alg b2 0 (gradAt c g p 0 i * gradAt c g p 0 i) 0 h2
      simp only [Nat.zero_add] at A1 B1
      simp only [if_true] at a b
      rw [a, b, A1, B1, weightedSum_succ, weightedSum_zero, weightedSum_succ, weightedSum_zero]
      unfold gradAt
      constructor <;> ring
    · obtain ⟨i1, i2, i3⟩ := ih (by omega) (by omega)
      have o := fun i hi => one t (by omega) i hi
      have q1 : (s (t + 1)).b1t = b1 ^ (t + 1) := by rw [(o 0 h.n_pos).1, if_neg ht0, i1, pow_succ]
      have q2 : (s (t + 1)).b2t = b2 ^ (t + 1) := by rw [(o 0 h.n_pos).2.1, if_neg ht0, i2, pow_succ]
      refine ⟨q1, q2, fun i hi => ?_⟩
      obtain ⟨_, _, a, b⟩ := o i hi
      rw [q1, if_neg ht0] at a
      rw [q2, if_neg ht0] at b
      obtain ⟨j1, j2⟩ := i3 i hi
      rw [a, b, alg b1 _ _ t h1, alg b2 _ _ t h2, j1, j2, weightedSum_succ, weightedSum_succ]
      unfold gradAt
      constructor <;> ring

end

/-- Sessions with each of these optimisers exist. -/
example (ty : GradType) (T : Nat) : ∃ s p, Session T (fun _ => demoEnv) (fun _ => demoEnv) (fun _ => demoCfg ty false false)
    (fun t => { demoW with data := fun i => t + i }) (fun _ _ => 0) (fun _ _ => 0) s p := by
  obtain ⟨s, p, _, h⟩ := demo_session T (fun _ => demoCfg ty false false) (fun _ _ => ⟨rfl, rfl, rfl, rfl⟩) (fun _ _ => 0) (fun _ _ => 0) (fun t i => t + i)
  exact ⟨s, p, h⟩

end Nntl.Grad
