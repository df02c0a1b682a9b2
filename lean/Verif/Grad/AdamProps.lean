import Verif.Grad.OptLemmas
/-! C50: Adam. -/
namespace Nntl.Grad
open Nntl.Kernel Nntl.Matrix Nntl.Threads
open scoped BigOperators

/-- Two sessions that differ only in the machine (number of threads, which calls go to the pool, how the threads are scheduled) go through
the same states: weights, optimiser state, gains. Holds for every optimiser. -/
theorem session_machine_independent {T : Nat} {E E' F F' : Nat → Env} {c : Nat → Cfg} {g : Nat → Mtx ℝ} {draw draw' : Nat → Nat → ℝ} {s p s' p' : Nat → St}
    (h : Session T E E' c g draw draw' s p) (h' : Session T F F' c g draw draw' s' p') (h0 : s 0 = s' 0) (t : Nat) (ht : t ≤ T) : s t = s' t := by
  induction t with
  | zero => exact h0
  | succ t ih =>
    have e := ih (by omega)
    obtain ⟨a1, a2⟩ := h.step_eq t (by omega)
    obtain ⟨b1, b2⟩ := h'.step_eq t (by omega)
    rw [a2, b2, a1, b1, e]

section
variable {T : Nat} {E E' : Nat → Env} {c : Nat → Cfg} {g : Nat → Mtx ℝ} {draw draw' : Nat → Nat → ℝ} {s p : Nat → St}

theorem Session.adam_step (h : Session T E E' c g draw draw' s p) (hty : (c 0).type = .adam) (t : Nat) (ht : t < T) :
    (s (t + 1)).b1t = (if t = 0 then 1 else (s t).b1t) * (c t).beta1 ∧ (s (t + 1)).b2t = (if t = 0 then 1 else (s t).b2t) * (c t).beta2 ∧
    ∀ i, i < (s 0).n →
      (s (t + 1)).A i = (if t = 0 then 0 else (s t).A i) * (c t).beta1 + gradAt c g p t i * (1 - (c t).beta1) ∧
      (s (t + 1)).B i = (if t = 0 then 0 else (s t).B i) * (c t).beta2 + gradAt c g p t i * gradAt c g p t i * (1 - (c t).beta2) ∧
      ((c 0).useILR = false → dirAt c g p t i = (c t).lr * Real.sqrt (1 - (s (t + 1)).b2t) / (1 - (s (t + 1)).b1t) * (s (t + 1)).A i /
        (Real.sqrt ((s (t + 1)).B i) + (c t).eps)) := by
  obtain ⟨u, hA, hB, hb1, hb2, _, hn, hG, kA, kB, kb1, kb2, _, kd, _⟩ := h.opt_at t ht
  have hk := h.kind t ht
  have hty' : (c t).type = .adam := by rw [hk.type, hty]
  have key : ∀ i, i < (s 0).n → (firstF (c t) (decide (t = 0)) u).cell i =
      (gradAt c g p t i, (if t = 0 then 0 else (s t).A i), (if t = 0 then 0 else (s t).B i)) := by
    intro i hi
    rw [(firstF_cell _ _ u (by rw [hty']; rfl) i (by rw [hn]; exact hi)).1, hG i hi, hA, hB]
    simp only [decide_eq_true_eq]
  have hn0 : 0 < (s 0).n := by
    obtain ⟨W, hW, hi⟩ := h.init
    unfold St.n; rw [hi.1]; exact Nat.mul_pos hW.rows (by have := hW.cols; omega)
  obtain ⟨_, p1, p2⟩ := firstF_cell (c t) (decide (t = 0)) u (by rw [hty']; rfl) 0 (by rw [hn]; exact hn0)
  have hpow : powF (c t) (firstF (c t) (decide (t = 0)) u) =
      ((if t = 0 then 1 else (s t).b1t) * (c t).beta1, (if t = 0 then 1 else (s t).b2t) * (c t).beta2) := by
    unfold powF
    rw [hty', p1, p2 (by rw [hty']; decide), hb1, hb2]
    simp only [decide_eq_true_eq]
  have e1 : (s (t + 1)).b1t = (if t = 0 then 1 else (s t).b1t) * (c t).beta1 := by
    rw [kb1]; exact congrArg Prod.fst hpow
  have e2 : (s (t + 1)).b2t = (if t = 0 then 1 else (s t).b2t) * (c t).beta2 := by
    rw [kb2]; exact congrArg Prod.snd hpow
  refine ⟨e1, e2, fun i hi => ?_⟩
  have ha := optF_at (c t) (decide (t = 0)) u i (by rw [hn]; exact hi)
  rw [key i hi, hpow, ← kA, ← kB] at ha
  unfold optCell at ha
  rw [hty'] at ha
  simp only [adamCell, Prod.mk.injEq] at ha
  obtain ⟨a1, a2, a3⟩ := ha
  refine ⟨a2, a3, fun hilr => ?_⟩
  rw [kd]
  unfold ilrF
  rw [if_pos (show (c t).useILR = false by rw [hk.useILR, hilr]), a1, e1, e2, a2, a3]

/-- C50. After `t` steps of Adam the accumulators are the products of the betas of all steps so far, and the two averages are the exponentially
weighted sums of all past gradients and of their squares. The settings may change between steps; momentum, gains, norms and penalties may be on. -/
theorem adam_bookkeeping (h : Session T E E' c g draw draw' s p) (hty : (c 0).type = .adam) (t : Nat) (h0 : 0 < t) (ht : t ≤ T) :
    (s t).b1t = ∏ j ∈ Finset.range t, (c j).beta1 ∧ (s t).b2t = ∏ j ∈ Finset.range t, (c j).beta2 ∧
    ∀ i, i < (s 0).W.rows * (s 0).W.cols →
      (s t).A i = weightedSum (fun j => (c j).beta1) (fun k => (1 - (c k).beta1) * penalised (c k) (p k).W (g k) i) t ∧
      (s t).B i = weightedSum (fun j => (c j).beta2) (fun k => (1 - (c k).beta2) * penalised (c k) (p k).W (g k) i ^ 2) t := by
  induction t with
  | zero => omega
  | succ t ih =>
    obtain ⟨a1, a2, a3⟩ := h.adam_step hty t (by omega)
    rw [Finset.prod_range_succ, Finset.prod_range_succ, a1, a2]
    by_cases ht0 : t = 0
    · subst ht0
      refine ⟨by simp, by simp, fun i hi => ?_⟩
      obtain ⟨b1, b2, _⟩ := a3 i hi
      rw [b1, b2, weightedSum_succ, weightedSum_zero, weightedSum_succ, weightedSum_zero]
      simp only [if_true, gradAt]
      constructor <;> ring
    · obtain ⟨i1, i2, i3⟩ := ih (by omega) (by omega)
      rw [if_neg ht0, if_neg ht0, i1, i2]
      refine ⟨rfl, rfl, fun i hi => ?_⟩
      obtain ⟨b1, b2, _⟩ := a3 i hi
      obtain ⟨j1, j2⟩ := i3 i hi
      rw [b1, b2, if_neg ht0, if_neg ht0, weightedSum_succ, weightedSum_succ, ← j1, ← j2]
      simp only [gradAt]
      constructor <;> ring

/-- C50. With constant betas: `beta^t`, and the sums of the paper. -/
theorem adam_constant_betas (h : Session T E E' c g draw draw' s p) (hty : (c 0).type = .adam) (b1 b2 : ℝ)
    (hc : ∀ t, t < T → (c t).beta1 = b1 ∧ (c t).beta2 = b2 ∧ (c t).l1 = 0 ∧ (c t).l2 = 0) (t : Nat) (h0 : 0 < t) (ht : t ≤ T) :
    (s t).b1t = b1 ^ t ∧ (s t).b2t = b2 ^ t ∧
    ∀ i, i < (s 0).W.rows * (s 0).W.cols →
      (s t).A i = (1 - b1) * ∑ k ∈ Finset.range t, b1 ^ (t - 1 - k) * (g k).data i ∧
      (s t).B i = (1 - b2) * ∑ k ∈ Finset.range t, b2 ^ (t - 1 - k) * (g k).data i ^ 2 := by
  obtain ⟨a1, a2, a3⟩ := adam_bookkeeping h hty t h0 ht
  have pw : ∀ (f : Nat → ℝ) (b : ℝ), (∀ j, j < T → f j = b) → ∀ k n, k + n ≤ T → ∏ j ∈ Finset.Ico k (k + n), f j = b ^ n := by
    intro f b hf k n
    induction n with
    | zero => intro _; simp
    | succ n ih =>
      intro hkn
      rw [← Nat.add_assoc, Finset.prod_Ico_succ_top (by omega), ih (by omega), hf _ (by omega), pow_succ]
  have f1 : ∀ j, j < T → (c j).beta1 = b1 := fun j hj => (hc j hj).1
  have f2 : ∀ j, j < T → (c j).beta2 = b2 := fun j hj => (hc j hj).2.1
  refine ⟨?_, ?_, fun i hi => ?_⟩
  · rw [a1, Finset.range_eq_Ico]
    have := pw _ b1 f1 0 t (by omega)
    rw [Nat.zero_add] at this
    exact this
  · rw [a2, Finset.range_eq_Ico]
    have := pw _ b2 f2 0 t (by omega)
    rw [Nat.zero_add] at this
    exact this
  · obtain ⟨j1, j2⟩ := a3 i hi
    have pen : ∀ k, k < T → penalised (c k) (p k).W (g k) i = (g k).data i := by
      intro k hk
      obtain ⟨_, _, l1, l2⟩ := hc k hk
      unfold penalised
      rw [l1, l2]; simp
    rw [j1, j2]
    unfold weightedSum
    rw [Finset.mul_sum, Finset.mul_sum]
    constructor
    · apply Finset.sum_congr rfl
      intro k hk
      have hk' := Finset.mem_range.1 hk
      have := pw _ b1 f1 (k + 1) (t - 1 - k) (by omega)
      rw [show k + 1 + (t - 1 - k) = t by omega] at this
      dsimp only
      rw [this, f1 k (by omega), pen k (by omega)]; ring
    · apply Finset.sum_congr rfl
      intro k hk
      have hk' := Finset.mem_range.1 hk
      have := pw _ b2 f2 (k + 1) (t - 1 - k) (by omega)
      rw [show k + 1 + (t - 1 - k) = t by omega] at this
      dsimp only
      rw [this, f2 k (by omega), pen k (by omega)]; ring

/-- C50. The update itself: with `m`, `v` the averages after the step and `B1`, `B2` the powers, the weights move by
`lr·√(1−B2)/(1−B1)·m/(√v + eps)`. -/
theorem adam_update (h : Session T E E' c g draw draw' s p) (hty : (c 0).type = .adam) (hilr : (c 0).useILR = false) (hm : (c 0).useMom = false)
    (t : Nat) (ht : t < T) (hx : (c t).useMaxNorm = false) (hd : 1 ≤ (c t).lrDrop) (i : Nat) (hi : i < (s 0).W.rows * (s 0).W.cols) :
    (s (t + 1)).W.data i = (s t).W.data i - (c t).lr * Real.sqrt (1 - (s (t + 1)).b2t) / (1 - (s (t + 1)).b1t) * (s (t + 1)).A i /
      (Real.sqrt ((s (t + 1)).B i) + (c t).eps) := by
  rw [(h.plain_step t ht (by rw [(h.kind t ht).useMom, hm]) hx hd i hi).2, ((h.adam_step hty t ht).2.2 i hi).2.2 hilr]

/-- C50. What the accumulators are for: when all gradients of an element are equal, dividing the averages by `1 − beta^t` gives exactly that
gradient and its square, from the first step on. -/
theorem adam_bias_correction (h : Session T E E' c g draw draw' s p) (hty : (c 0).type = .adam) (b1 b2 x : ℝ) (h1 : |b1| < 1) (h2 : |b2| < 1)
    (hc : ∀ t, t < T → (c t).beta1 = b1 ∧ (c t).beta2 = b2 ∧ (c t).l1 = 0 ∧ (c t).l2 = 0) (i : Nat) (hi : i < (s 0).W.rows * (s 0).W.cols)
    (hg : ∀ t, t < T → (g t).data i = x) (t : Nat) (h0 : 0 < t) (ht : t ≤ T) :
    (s t).A i / (1 - (s t).b1t) = x ∧ (s t).B i / (1 - (s t).b2t) = x ^ 2 := by
  obtain ⟨a1, a2, a3⟩ := adam_constant_betas h hty b1 b2 hc t h0 ht
  obtain ⟨j1, j2⟩ := a3 i hi
  have geo : ∀ (b y : ℝ) (t : Nat), (1 - b) * ∑ k ∈ Finset.range t, b ^ (t - 1 - k) * y = (1 - b ^ t) * y := by
    intro b y t
    have := Finset.sum_range_reflect (fun k => b ^ k * y) t
    rw [this, ← Finset.sum_mul, ← mul_assoc, mul_comm (1 - b), geom_sum_mul_neg]
  have e1 : ∑ k ∈ Finset.range t, b1 ^ (t - 1 - k) * (g k).data i = ∑ k ∈ Finset.range t, b1 ^ (t - 1 - k) * x :=
    Finset.sum_congr rfl fun k hk => by rw [hg k (by have := Finset.mem_range.1 hk; omega)]
  have e2 : ∑ k ∈ Finset.range t, b2 ^ (t - 1 - k) * (g k).data i ^ 2 = ∑ k ∈ Finset.range t, b2 ^ (t - 1 - k) * x ^ 2 :=
    Finset.sum_congr rfl fun k hk => by rw [hg k (by have := Finset.mem_range.1 hk; omega)]
  have ne : ∀ b : ℝ, |b| < 1 → 1 - b ^ t ≠ 0 := by
    intro b hb
    have : b ^ t < 1 := lt_of_le_of_lt (le_abs_self _) (by rw [abs_pow]; exact pow_lt_one₀ (abs_nonneg _) hb (by omega))
    linarith
  rw [j1, j2, e1, e2, geo, geo, a1, a2]
  exact ⟨mul_div_cancel_left₀ _ (ne b1 h1), mul_div_cancel_left₀ _ (ne b2 h2)⟩

end

/-- A session of any length with Adam on a layer of two neurons, once in one thread and once in three. -/
example (T : Nat) : ∃ s p, Session T (fun _ => demoEnv) (fun _ => demoEnv) (fun _ => demoCfg .adam false false) (fun t => { demoW with data := fun i => t + i })
    (fun _ _ => 0) (fun _ _ => 0) s p ∧ (0 < T → (s 1).A 3 = 3 / 2) := by
  obtain ⟨s, p, h0, h⟩ := demo_session T (fun _ => demoCfg .adam false false) (fun _ _ => ⟨rfl, rfl, rfl, rfl⟩) (fun _ _ => 0) (fun _ _ => 0)
    (fun t i => t + i)
  refine ⟨s, p, h, fun hT => ?_⟩
  rw [((adam_constant_betas h rfl (1 / 2) (1 / 4) (fun _ _ => ⟨rfl, rfl, rfl, rfl⟩) 1 (by omega) (by omega)).2.2 3 (by rw [h0]; decide)).1]
  norm_num

end Nntl.Grad
