import Verif.Sgd.Cases
import Verif.Sgd.AnyRules

/-! C193: which rules the gradient works of the library follow. -/
namespace Nntl.Sgd

open Nntl.Layers Nntl.Pass Nntl.Backprop Nntl.Grad
open Finset

/-- A call that updates the weights, without individual learning rates, limits of norms and dropout of learning rates. Penalties are allowed. -/
structure Quiet (c : Call) : Prop where
  blocked : c.blocked = false
  ilr : c.cfg.useILR = false
  norm : c.cfg.useMaxNorm = false
  drop : c.cfg.bLRDropout = false

/-- The derivative of the penalties in these settings. -/
noncomputable def slopes (c : Cfg) (bias : Bool) : ℝ → ℝ := penaltySlope c.l1 c.l2 c.l1IgnBias c.l2IgnBias bias

theorem cell_lt {m k c j : ℕ} (hc : c < m) (hj : j < k) : c + m * j < m * k := by
  calc c + m * j < m + m * j := by omega
    _ = m * (j + 1) := by ring
    _ ≤ m * k := Nat.mul_le_mul_left _ hj

theorem memOf_cell {m c j : ℕ} (hc : c < m) (w : Mat ℝ) : memOf m w (c + m * j) = w c j := by
  show w ((c + m * j) % m) ((c + m * j) / m) = w c j
  rw [Nat.add_mul_mod_self_left, Nat.mod_eq_of_lt hc, Nat.add_mul_div_left _ _ (by omega), Nat.div_eq_of_lt hc, Nat.zero_add]

theorem bias_cell {m k c j : ℕ} (hc : c < m) (hj : j < k) : m * (k - 1) ≤ c + m * j ↔ j + 1 = k := by
  constructor
  · intro h
    refine Classical.byContradiction fun hn => ?_
    have h1 : m * (j + 1) ≤ m * (k - 1) := Nat.mul_le_mul_left _ (by omega)
    have h2 : m * (j + 1) = m * j + m := by ring
    omega
  · rintro rfl
    show m * j ≤ _
    omega

/-- The gradient with penalties. -/
theorem lossF_cell (cfg : Cfg) (s : St) (m k : ℕ) (w d : Mat ℝ) {c j : ℕ} (hc : c < m) (hj : j < k) :
    (lossF cfg { s with W := mtxOf m k w, G := mtxOf m k d }).G.data (c + m * j) = d c j + slopes cfg (decide (j + 1 = k)) (w c j) := by
  refine (lossF_at cfg { s with W := mtxOf m k w, G := mtxOf m k d } (c + m * j) (cell_lt hc hj)).trans ?_
  unfold penalised slopes penaltySlope
  show memOf m d (c + m * j) + (if cfg.l1IgnBias = true ∧ m * (k - 1) ≤ c + m * j then 0 else cfg.l1 * sgn (memOf m w (c + m * j))) +
    (if cfg.l2IgnBias = true ∧ m * (k - 1) ≤ c + m * j then 0 else cfg.l2 * memOf m w (c + m * j)) = _
  rw [memOf_cell hc, memOf_cell hc, add_assoc]
  unfold sgn
  simp only [bias_cell hc hj, Bool.and_eq_true, decide_eq_true_eq]

/-- What is left of `apply_grad` in such a call. -/
theorem applyF_quiet {c : Call} (hq : Quiet c) (s : St) (m k : ℕ) (w d : Mat ℝ) : ∃ D : ℕ → ℝ,
    (∀ i < m, ∀ j < k, D (i + m * j) = d i j + slopes c.cfg (decide (j + 1 = k)) (w i j)) ∧
    applyF c.cfg c.blocked c.draw { s with W := mtxOf m k w, G := mtxOf m k d } =
      updF c.cfg c.draw (optF c.cfg s.firstRun (({ s with W := mtxOf m k w, G := { mtxOf m k d with data := D } } : St).ran)) := by
  refine ⟨_, fun i hi j hj => lossF_cell c.cfg s m k w d hi hj, ?_⟩
  unfold applyF
  rw [hq.blocked, if_neg Bool.false_ne_true]
  have hn : ∀ s : St, normF c.cfg s = s := fun s => by unfold normF; rw [if_pos hq.norm]
  have hi : ∀ b (s : St), ilrF c.cfg b s = s := fun b s => by unfold ilrF; rw [if_pos hq.ilr]
  rw [hn, hi]
  conv => lhs; rw [lossF_eq]
  rfl

theorem maskF_quiet {c : Call} (hq : Quiet c) (n : ℕ) (x : ℕ → ℝ) : maskF c.cfg c.draw n x = x := by
  unfold maskF; rw [hq.drop, if_neg Bool.false_ne_true]

/-- Velocities. -/
def velocities (m k : ℕ) (g : GwS) (st : ℕ → ℕ → ℕ × ℝ) : Prop := g.p = g.t ∧ ∀ c < m, ∀ j < k, st c j = (g.t, g.s.V (c + m * j))

theorem preF_still {c : Call} (h : (c.cfg.useMom && c.cfg.nesterov) = false) (s : St) : preF c.cfg c.blocked c.draw s = s := by
  unfold preF
  rw [h, Bool.and_false, if_neg Bool.false_ne_true]

theorem pre_still (o : Opt) (m k : ℕ) (g : GwS) (h : ((o.pre g.p).cfg.useMom && (o.pre g.p).cfg.nesterov) = false) (w : Mat ℝ) :
    (gradWorks o m k).pre g w = (⟨g.p + 1, g.t, { g.s with W := mtxOf m k w }⟩, matOf m (memOf m w)) := by
  show (_, _) = _
  rw [preF_still h]
  rfl

theorem matOf_memOf {m c : ℕ} (hc : c < m) (w : Mat ℝ) (j : ℕ) : matOf m (memOf m w) c j = w c j := memOf_cell hc w

/-- The optimiser without momentum. -/
theorem updF_plain {c : Call} (hq : Quiet c) (h : c.cfg.useMom = false) (s : St) :
    updF c.cfg c.draw s = s.setW (each s.n (fun i w => w - s.G.data i) s.W.data) := by
  unfold updF subF
  rw [if_pos h, maskF_quiet hq]
  rfl

theorem momentum_call {x : Call} (hq : Quiet x) (h1 : x.cfg.type = .classicalConstant) (h2 : x.cfg.useMom = true) (h3 : x.cfg.nesterov = false) (s : St)
    (m k : ℕ) (w d : Mat ℝ) {c j : ℕ} (hc : c < m) (hj : j < k) :
    (applyF x.cfg x.blocked x.draw { s with W := mtxOf m k w, G := mtxOf m k d }).V (c + m * j) =
      x.cfg.mom * s.V (c + m * j) + x.cfg.lr * (d c j + slopes x.cfg (decide (j + 1 = k)) (w c j)) ∧
    (applyF x.cfg x.blocked x.draw { s with W := mtxOf m k w, G := mtxOf m k d }).W.data (c + m * j) =
      w c j - (x.cfg.mom * s.V (c + m * j) + x.cfg.lr * (d c j + slopes x.cfg (decide (j + 1 = k)) (w c j))) := by
  obtain ⟨D, hD, e⟩ := applyF_quiet hq s m k w d
  have hlt := cell_lt hc hj
  rw [e, ← hD c hc j hj]
  unfold updF optF firstF optCell
  simp only [h1, h2, h3, hq.drop, Bool.true_eq_false, Bool.false_eq_true, if_false]
  simp only [St.setW, St.setG, each, St.ran, St.n, St.cell, mtxOf, hlt, if_true, memOf_cell hc]
  constructor <;> ring

theorem nesterov_call {x : Call} (hq : Quiet x) (h1 : x.cfg.type = .classicalConstant) (h2 : x.cfg.useMom = true) (h3 : x.cfg.nesterov = true) (s : St)
    (m k : ℕ) (w d : Mat ℝ) {c j : ℕ} (hc : c < m) (hj : j < k) :
    (applyF x.cfg x.blocked x.draw { s with W := mtxOf m k w, G := mtxOf m k d }).V (c + m * j) =
      s.V (c + m * j) + x.cfg.lr * (d c j + slopes x.cfg (decide (j + 1 = k)) (w c j)) ∧
    (applyF x.cfg x.blocked x.draw { s with W := mtxOf m k w, G := mtxOf m k d }).W.data (c + m * j) =
      w c j - x.cfg.lr * (d c j + slopes x.cfg (decide (j + 1 = k)) (w c j)) := by
  obtain ⟨D, hD, e⟩ := applyF_quiet hq s m k w d
  have hlt := cell_lt hc hj
  rw [e, ← hD c hc j hj]
  unfold updF subF optF firstF optCell
  simp only [h1, h2, h3, Bool.true_eq_false, if_false, if_true, maskF_quiet hq]
  simp only [St.setW, St.setG, each, St.ran, St.n, St.cell, mtxOf, hlt, if_true, memOf_cell hc]
  constructor <;> ring

theorem nesterov_pre {x : Call} (hq : Quiet x) (h2 : x.cfg.useMom = true) (h3 : x.cfg.nesterov = true) (s : St) (m k : ℕ) (w : Mat ℝ) {c j : ℕ} (hc : c < m)
    (hj : j < k) :
    (preF x.cfg x.blocked x.draw { s with W := mtxOf m k w }).V (c + m * j) = x.cfg.mom * s.V (c + m * j) ∧
    (preF x.cfg x.blocked x.draw { s with W := mtxOf m k w }).W.data (c + m * j) = w c j - x.cfg.mom * s.V (c + m * j) := by
  have hlt := cell_lt hc hj
  have hn : ∀ s : St, normF x.cfg s = s := fun s => by unfold normF; rw [if_pos hq.norm]
  unfold preF
  simp only [hn, hq.blocked, h2, h3, hq.drop, Bool.not_false, Bool.and_self, if_true, Bool.false_and, Bool.false_eq_true, if_false]
  simp only [St.setW, each, St.n, mtxOf, hlt, if_true, memOf_cell hc]
  constructor <;> ring

/-- C193. Gradient works of type `ClassicalConstant` with momentum are momentum; learning rates, momenta and penalties may change from call to call. -/
theorem gradWorks_momentum (o : Opt) (m k : ℕ) (hp : ∀ t, (o.pre t).cfg.nesterov = false)
    (ha : ∀ t, Quiet (o.app t) ∧ (o.app t).cfg.type = .classicalConstant ∧ (o.app t).cfg.useMom = true ∧ (o.app t).cfg.nesterov = false) :
    Follows (gradWorks o m k) m k (fun bias => .scheduled fun t => momentumRule (o.app t).cfg.lr (o.app t).cfg.mom (slopes (o.app t).cfg bias)) (velocities m k) where
  inside := fun g st st' h e => ⟨h.1, fun c hc j hj => (e c hc j hj).trans (h.2 c hc j hj)⟩
  look := fun g st w h c hc j hj => by
    rw [pre_still o m k g (by rw [hp, Bool.and_false])]
    exact matOf_memOf hc w j
  move := fun g st w d h => by
    rw [pre_still o m k g (by rw [hp, Bool.and_false])]
    obtain ⟨hq, h1, h2, h3⟩ := ha g.t
    have key := fun c (hc : c < m) j (hj : j < k) => momentum_call hq h1 h2 h3 { g.s with W := mtxOf m k w } m k (matOf m (memOf m w)) d hc hj
    refine ⟨fun c hc j hj => ?_, congrArg (· + 1) h.1, fun c hc j hj => ?_⟩
    · rw [h.2 c hc j hj]
      refine (key c hc j hj).2.trans ?_
      rw [matOf_memOf hc]
      rfl
    · beta_reduce
      rw [h.2 c hc j hj]
      refine Prod.ext rfl (Eq.trans ?_ (key c hc j hj).1.symm)
      rw [matOf_memOf hc]
      rfl

/-- C193. With Nesterov's momentum they are Nesterov's momentum. -/
theorem gradWorks_nesterov (o : Opt) (m k : ℕ) (hp : ∀ t, Quiet (o.pre t) ∧ (o.pre t).cfg.useMom = true ∧ (o.pre t).cfg.nesterov = true)
    (ha : ∀ t, Quiet (o.app t) ∧ (o.app t).cfg.type = .classicalConstant ∧ (o.app t).cfg.useMom = true ∧ (o.app t).cfg.nesterov = true) :
    Follows (gradWorks o m k) m k (fun bias => .scheduled fun t => nesterovRule (o.app t).cfg.lr (o.pre t).cfg.mom (slopes (o.app t).cfg bias)) (velocities m k) where
  inside := fun g st st' h e => ⟨h.1, fun c hc j hj => (e c hc j hj).trans (h.2 c hc j hj)⟩
  look := fun g st w h c hc j hj => by
    obtain ⟨hq, h1, h2⟩ := hp g.p
    refine (nesterov_pre hq h1 h2 g.s m k w hc hj).2.trans ?_
    rw [h.2 c hc j hj, h.1]
    rfl
  move := fun g st w d h => by
    obtain ⟨hq, h1, h2⟩ := hp g.p
    obtain ⟨hq', h3, h4, h5⟩ := ha g.t
    have k1 := fun c (hc : c < m) j (hj : j < k) => nesterov_pre hq h1 h2 g.s m k w hc hj
    have key := fun c (hc : c < m) j (hj : j < k) => nesterov_call hq' h3 h4 h5 ((gradWorks o m k).pre g w).1.s m k ((gradWorks o m k).pre g w).2 d hc hj
    refine ⟨fun c hc j hj => ?_, congrArg (· + 1) h.1, fun c hc j hj => ?_⟩
    · rw [h.2 c hc j hj]
      refine (key c hc j hj).2.trans ?_
      have : ((gradWorks o m k).pre g w).2 c j = _ := (k1 c hc j hj).2
      rw [this, h.1]
      show _ = w c j - (_ * _ + _ * (_ + _))
      ring
    · beta_reduce
      rw [h.2 c hc j hj]
      refine Prod.ext rfl (Eq.trans ?_ (key c hc j hj).1.symm)
      have e1 : ((gradWorks o m k).pre g w).2 c j = _ := (k1 c hc j hj).2
      have e2 : ((gradWorks o m k).pre g w).1.s.V (c + m * j) = _ := (k1 c hc j hj).1
      rw [e1, e2, h.1]
      rfl

/-- What Adam keeps: before the first step nothing, then the powers of the decays and the two means. -/
def moments (m k : ℕ) (β1 β2 : ℝ) (g : GwS) (st : ℕ → ℕ → ℕ × ℕ × ℝ × ℝ) : Prop :=
  (g.s.firstRun = true ∧ ∀ c < m, ∀ j < k, st c j = (g.t, 0, 0, 0)) ∨
  g.s.firstRun = false ∧ ∃ n, g.s.b1t = β1 ^ n ∧ g.s.b2t = β2 ^ n ∧ ∀ c < m, ∀ j < k, st c j = (g.t, n, g.s.A (c + m * j), g.s.B (c + m * j))

theorem adamCell_eq (b1t b2t lr b1 b2 eps g a b : ℝ) : adamCell b1t b2t lr b1 b2 eps (g, a, b) =
    (lr * Real.sqrt (1 - b2t) / (1 - b1t) * (b1 * a + (1 - b1) * g) / (Real.sqrt (b2 * b + (1 - b2) * g ^ 2) + eps), b1 * a + (1 - b1) * g,
      b2 * b + (1 - b2) * g ^ 2) := by
  unfold adamCell
  simp only
  rw [show a * b1 + g * (1 - b1) = b1 * a + (1 - b1) * g by ring, show b * b2 + g * g * (1 - b2) = b2 * b + (1 - b2) * g ^ 2 by ring]

theorem hintonCell_eq (lr b eps g a : ℝ) : hintonCell lr b eps (g, a) =
    (lr * g / (Real.sqrt (b * a + (1 - b) * g ^ 2) + eps), b * a + (1 - b) * g ^ 2) := by
  unfold hintonCell
  simp only
  rw [show b * a + g * g * (1 - b) = b * a + (1 - b) * g ^ 2 by ring, mul_div_assoc]

theorem adam_call {x : Call} (hq : Quiet x) (h1 : x.cfg.type = .adam) (h2 : x.cfg.useMom = false) (s : St) (m k : ℕ) (w d : Mat ℝ) (n : ℕ) (a b : ℕ → ℝ)
    (hs : s.firstRun = true ∧ n = 0 ∧ (∀ i, a i = 0) ∧ (∀ i, b i = 0) ∨
      s.firstRun = false ∧ s.b1t = x.cfg.beta1 ^ n ∧ s.b2t = x.cfg.beta2 ^ n ∧ (∀ i, a i = s.A i) ∧ ∀ i, b i = s.B i) :
    (applyF x.cfg x.blocked x.draw { s with W := mtxOf m k w, G := mtxOf m k d }).firstRun = false ∧
    (applyF x.cfg x.blocked x.draw { s with W := mtxOf m k w, G := mtxOf m k d }).b1t = x.cfg.beta1 ^ (n + 1) ∧
    (applyF x.cfg x.blocked x.draw { s with W := mtxOf m k w, G := mtxOf m k d }).b2t = x.cfg.beta2 ^ (n + 1) ∧
    ∀ c < m, ∀ j < k,
      ((n + 1, (applyF x.cfg x.blocked x.draw { s with W := mtxOf m k w, G := mtxOf m k d }).A (c + m * j),
        (applyF x.cfg x.blocked x.draw { s with W := mtxOf m k w, G := mtxOf m k d }).B (c + m * j)),
        (applyF x.cfg x.blocked x.draw { s with W := mtxOf m k w, G := mtxOf m k d }).W.data (c + m * j)) =
      (adamRule x.cfg.lr x.cfg.beta1 x.cfg.beta2 x.cfg.eps (slopes x.cfg (decide (j + 1 = k)))).move (n, a (c + m * j), b (c + m * j)) (w c j) (d c j) := by
  obtain ⟨D, hD, e⟩ := applyF_quiet hq s m k w d
  rw [e, updF_plain hq h2]
  unfold optF firstF optCell powF
  rcases hs with ⟨hf, rfl, ha, hb⟩ | ⟨hf, hp1, hp2, ha, hb⟩
  · simp only [h1, hf, if_true]
    refine ⟨rfl, by simp [St.setW, St.setG], by simp [St.setW, St.setG], fun c hc j hj => ?_⟩
    have hlt := cell_lt hc hj
    unfold adamRule
    simp only [← hD c hc j hj, ha, hb]
    simp only [St.setW, St.setG, each, St.ran, St.n, St.cell, mtxOf, hlt, if_true, memOf_cell hc, fillWith, zero_add, pow_one, one_mul, adamCell_eq]
  · simp only [h1, hf, Bool.false_eq_true, if_false]
    refine ⟨rfl, ?_, ?_, fun c hc j hj => ?_⟩
    · show s.b1t * x.cfg.beta1 = _
      rw [hp1, pow_succ]
    · show s.b2t * x.cfg.beta2 = _
      rw [hp2, pow_succ]
    have hlt := cell_lt hc hj
    unfold adamRule
    simp only [← hD c hc j hj, ha, hb]
    simp only [St.setW, St.setG, each, St.ran, St.n, St.cell, mtxOf, hlt, if_true, memOf_cell hc, hp1, hp2, ← pow_succ, adamCell_eq]

/-- C193. Gradient works of type `Adam` without momentum are Adam; learning rates, the small constants and penalties may change from call to call. -/
theorem gradWorks_adam (o : Opt) (m k : ℕ) (β1 β2 : ℝ) (hp : ∀ t, (o.pre t).cfg.useMom = false)
    (ha : ∀ t, Quiet (o.app t) ∧ (o.app t).cfg.type = .adam ∧ (o.app t).cfg.useMom = false ∧ (o.app t).cfg.beta1 = β1 ∧ (o.app t).cfg.beta2 = β2) :
    Follows (gradWorks o m k) m k (fun bias => .scheduled fun t => adamRule (o.app t).cfg.lr β1 β2 (o.app t).cfg.eps (slopes (o.app t).cfg bias))
      (moments m k β1 β2) where
  inside := fun g st st' h e => by
    rcases h with ⟨h1, h2⟩ | ⟨h1, n, h2, h3, h4⟩
    · exact .inl ⟨h1, fun c hc j hj => (e c hc j hj).trans (h2 c hc j hj)⟩
    · exact .inr ⟨h1, n, h2, h3, fun c hc j hj => (e c hc j hj).trans (h4 c hc j hj)⟩
  look := fun g st w h c hc j hj => by
    rw [pre_still o m k g (by rw [hp, Bool.false_and])]
    exact matOf_memOf hc w j
  move := fun g st w d h => by
    rw [pre_still o m k g (by rw [hp, Bool.false_and])]
    obtain ⟨hq, h1, h2, rfl, rfl⟩ := ha g.t
    obtain ⟨n, a, b, hs, hst⟩ : ∃ (n : ℕ) (a b : ℕ → ℝ), (g.s.firstRun = true ∧ n = 0 ∧ (∀ i, a i = 0) ∧ (∀ i, b i = 0) ∨
      g.s.firstRun = false ∧ g.s.b1t = (o.app g.t).cfg.beta1 ^ n ∧ g.s.b2t = (o.app g.t).cfg.beta2 ^ n ∧ (∀ i, a i = g.s.A i) ∧ ∀ i, b i = g.s.B i) ∧
      ∀ c < m, ∀ j < k, st c j = (g.t, n, a (c + m * j), b (c + m * j)) := by
      rcases h with ⟨h1, h2⟩ | ⟨h1, n, h2, h3, h4⟩
      · exact ⟨0, fun _ => 0, fun _ => 0, .inl ⟨h1, rfl, fun _ => rfl, fun _ => rfl⟩, h2⟩
      · exact ⟨n, g.s.A, g.s.B, .inr ⟨h1, h2, h3, fun _ => rfl, fun _ => rfl⟩, h4⟩
    obtain ⟨k1, k2, k3, k4⟩ := adam_call hq h1 h2 { g.s with W := mtxOf m k w } m k (matOf m (memOf m w)) d n a b hs
    refine ⟨fun c hc j hj => ?_, .inr ⟨k1, n + 1, k2, k3, fun c hc j hj => ?_⟩⟩
    · rw [hst c hc j hj]
      have := congrArg Prod.snd (k4 c hc j hj)
      rw [matOf_memOf hc] at this
      exact this
    · beta_reduce
      rw [hst c hc j hj]
      have := congrArg Prod.fst (k4 c hc j hj)
      rw [matOf_memOf hc] at this
      exact Prod.ext rfl this.symm

/-- What RMSProp keeps: before the first step nothing, then the mean of squares. -/
def squares (m k : ℕ) (g : GwS) (st : ℕ → ℕ → ℕ × Option ℝ) : Prop :=
  ∀ c < m, ∀ j < k, st c j = (g.t, if g.s.firstRun then none else some (g.s.A (c + m * j)))

theorem rms_call {x : Call} (hq : Quiet x) (h1 : x.cfg.type = .rmsHinton) (h2 : x.cfg.useMom = false) (s : St) (m k : ℕ) (w d : Mat ℝ) :
    (applyF x.cfg x.blocked x.draw { s with W := mtxOf m k w, G := mtxOf m k d }).firstRun = false ∧
    ∀ c < m, ∀ j < k,
      (some ((applyF x.cfg x.blocked x.draw { s with W := mtxOf m k w, G := mtxOf m k d }).A (c + m * j)),
        (applyF x.cfg x.blocked x.draw { s with W := mtxOf m k w, G := mtxOf m k d }).W.data (c + m * j)) =
      (rmsRule x.cfg.lr x.cfg.beta1 x.cfg.eps (slopes x.cfg (decide (j + 1 = k)))).move (if s.firstRun then none else some (s.A (c + m * j))) (w c j) (d c j) := by
  obtain ⟨D, hD, e⟩ := applyF_quiet hq s m k w d
  rw [e, updF_plain hq h2]
  unfold optF firstF optCell powF
  refine ⟨by simp only [h1]; rfl, fun c hc j hj => ?_⟩
  have hlt := cell_lt hc hj
  unfold rmsRule
  by_cases hf : s.firstRun = true
  · simp only [h1, hf, if_true, ← hD c hc j hj]
    simp only [St.setW, St.setG, each, St.ran, St.n, St.cell, mtxOf, hlt, if_true, memOf_cell hc]
    refine Prod.ext (congrArg some ?_) ?_
    · ring
    · show _ - _ = _ - _
      ring
  · simp only [h1, hf, if_false, Bool.false_eq_true, ← hD c hc j hj]
    simp only [St.setW, St.setG, each, St.ran, St.n, St.cell, mtxOf, hlt, if_true, memOf_cell hc, hintonCell_eq]

/-- C193. Gradient works of type `RMSProp_Hinton` without momentum are RMSProp whose first step is plain. -/
theorem gradWorks_rmsprop (o : Opt) (m k : ℕ) (hp : ∀ t, (o.pre t).cfg.useMom = false)
    (ha : ∀ t, Quiet (o.app t) ∧ (o.app t).cfg.type = .rmsHinton ∧ (o.app t).cfg.useMom = false) :
    Follows (gradWorks o m k) m k (fun bias => .scheduled fun t => rmsRule (o.app t).cfg.lr (o.app t).cfg.beta1 (o.app t).cfg.eps (slopes (o.app t).cfg bias))
      (squares m k) where
  inside := fun g st st' h e => fun c hc j hj => (e c hc j hj).trans (h c hc j hj)
  look := fun g st w h c hc j hj => by
    rw [pre_still o m k g (by rw [hp, Bool.false_and])]
    exact matOf_memOf hc w j
  move := fun g st w d h => by
    rw [pre_still o m k g (by rw [hp, Bool.false_and])]
    obtain ⟨hq, h1, h2⟩ := ha g.t
    obtain ⟨k1, k2⟩ := rms_call hq h1 h2 { g.s with W := mtxOf m k w } m k (matOf m (memOf m w)) d
    refine ⟨fun c hc j hj => ?_, fun c hc j hj => ?_⟩
    · rw [h c hc j hj]
      have := congrArg Prod.snd (k2 c hc j hj)
      rw [matOf_memOf hc] at this
      exact this
    · beta_reduce
      rw [h c hc j hj]
      have := congrArg Prod.fst (k2 c hc j hj)
      rw [matOf_memOf hc] at this
      refine Prod.ext rfl (this.symm.trans ?_)
      have e : ((gradWorks o m k).apply (⟨g.p + 1, g.t, { g.s with W := mtxOf m k w }⟩ : GwS) (matOf m (memOf m w)) d).1.s.firstRun = false := k1
      show _ = if _ then none else some _
      rw [e]
      rfl

end Nntl.Sgd
