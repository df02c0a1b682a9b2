import Verif.Sgd.AnyOpts
import Verif.Sgd.AllSpec
import Verif.Grad.StepLemmas
import Verif.Grad.GainProps

/-! C195: every method of the library, with or without momentum, gains and penalties, does what its formulas say. -/
namespace Nntl.Sgd

open Nntl.Layers Nntl.Pass Nntl.Backprop Nntl.Grad
open Finset

/-- The settings of a pair of calls: `pre_training_fprop` and `apply_grad`. -/
def numbersOf (c : Cfg) (γ : ℝ) : Numbers := ⟨c.lr, c.beta1, c.beta2, c.eps, γ⟩
def momentumOf (pre app : Cfg) : Momentum := if app.useMom then (if app.nesterov then .nesterov pre.mom else .classical app.mom) else .off
def gainsOf (c : Cfg) : Option Gains := if c.useILR then some ⟨c.useMom && c.ilrToMom, c.decr, c.incr, c.capLow, c.capHigh⟩ else none

/-- A call that is not blocked, without limits of norms and dropout of learning rates. -/
structure Calm (c : Call) : Prop where
  blocked : c.blocked = false
  norm : c.cfg.useMaxNorm = false
  drop : c.cfg.bLRDropout = false

/-- The running numbers `a` and `b` after `n` steps are where the method keeps them. -/
def Running (ty : GradType) (β1 β2 : ℝ) (s : St) (i n : ℕ) (a b : ℝ) : Prop :=
  match ty with
  | .classicalConstant | .rprop => True
  | .rmsHinton | .modprop => s.A i = a
  | .rmsGraves => s.A i = a ∧ s.B i = b
  | .adam | .radam => s.A i = a ∧ s.B i = b ∧ s.b1t = β1 ^ n ∧ s.b2t = β2 ^ n
  | .adamax => s.A i = a ∧ s.B i = b ∧ s.b1t = β1 ^ n
  | .nadam => s.A i = a ∧ s.B i = b ∧ s.b1t = β1 ^ n ∧ s.b2t = β2 ^ n ∧ s.gamma = 0

/-- Nothing before the first step. -/
def Remembered (ty : GradType) (β1 β2 : ℝ) (first : Bool) (s : St) (i n : ℕ) (a b : ℝ) : Prop :=
  (first = true ∧ n = 0 ∧ a = 0 ∧ b = 0) ∨ (first = false ∧ 0 < n ∧ Running ty β1 β2 s i n a b)

theorem gravesCell_eq (lr d eps g a b : ℝ) : gravesCell lr d eps (g, a, b) =
    (lr * g / Real.sqrt (d * a + (1 - d) * g ^ 2 - (d * b + (1 - d) * g) ^ 2 + eps), d * a + (1 - d) * g ^ 2, d * b + (1 - d) * g) := by
  unfold gravesCell
  simp only
  rw [show d * a + g * (g * (1 - d)) = d * a + (1 - d) * g ^ 2 by ring, show d * b + g * (1 - d) = d * b + (1 - d) * g by ring, ← pow_two, mul_div_assoc]

theorem modCell_eq (lr d eps g a : ℝ) : modCell lr d eps (g, a) = (lr * g / (d * a + (1 - d) * |g| + eps), d * a + (1 - d) * |g|) := by
  unfold modCell
  simp only
  rw [show a * d + |g| * (1 - d) = d * a + (1 - d) * |g| by ring, mul_div_assoc]

theorem adaMaxCell_eq (b1t lr b1 b2 eps g a b : ℝ) : adaMaxCell b1t lr b1 b2 eps (g, a, b) =
    (lr / (1 - b1t) * (b1 * a + (1 - b1) * g) / (max (b2 * b) |g| + eps), b1 * a + (1 - b1) * g, max (b2 * b) |g|) := by
  unfold adaMaxCell
  simp only
  rw [show a * b1 + g * (1 - b1) = b1 * a + (1 - b1) * g by ring, max_comm]

theorem rNadamCell_eq (q : Numbers) (n : ℕ) (a b g γ : ℝ) :
    rNadamCell (q.β1 ^ (n + 1)) (q.β2 ^ (n + 1)) q.η q.β1 q.β2 γ q.ε (g, a, b) =
      ((method.nadam q n a b g γ).2, (method.nadam q n a b g γ).1.1, (method.nadam q n a b g γ).1.2) := by
  unfold rNadamCell method.nadam
  simp only
  rw [show q.β1 ^ (n + 2) = q.β1 * q.β1 ^ (n + 1) by ring]
  by_cases h : γ = 0
  · simp only [h, if_true]
    refine Prod.ext ?_ (Prod.ext ?_ ?_)
    all_goals simp only [mul_comm, pow_two]
  · simp only [h, if_false]
    refine Prod.ext ?_ (Prod.ext ?_ ?_)
    all_goals simp only [mul_comm, pow_two]

theorem sgn_eq (η g : ℝ) : η * sgn g = if 0 < g then η else if g < 0 then -η else 0 := by
  unfold sgn
  by_cases h : 0 < g
  · rw [if_pos h, if_pos h, if_neg (not_lt.2 h.le)]; ring
  · rw [if_neg h, if_neg h]
    split <;> ring

/-- The optimiser, element by element. -/
theorem opt_cell (c : Cfg) (f : Bool) (s : St) (i : ℕ) (hi : i < s.n) (n : ℕ) (a b γ : ℝ) (hg : c.type = .radam → s.gamma = γ)
    (h : Remembered c.type c.beta1 c.beta2 f s i n a b) :
    (optF c f s).G.data i = (method c.type (numbersOf c γ) n a b (s.G.data i)).2 ∧
    Running c.type c.beta1 c.beta2 (optF c f s) i (n + 1) (method c.type (numbersOf c γ) n a b (s.G.data i)).1.1
      (method c.type (numbersOf c γ) n a b (s.G.data i)).1.2 := by
  have hi' : i < s.W.rows * s.W.cols := hi
  unfold optF firstF optCell powF method
  rcases h with ⟨rfl, rfl, rfl, rfl⟩ | ⟨rfl, hn, h⟩
  · cases hty : c.type <;> simp only [hty, if_true, Running] at hg ⊢ <;>
      simp only [St.setG, each, St.n, St.cell, hi', if_true, fillWith, numbersOf, zero_add, one_mul, pow_one]
    · exact ⟨mul_comm _ _, trivial⟩
    · exact ⟨mul_comm _ _, (pow_two _).symm⟩
    · exact ⟨mul_comm _ _, (pow_two _).symm, trivial⟩
    · exact ⟨sgn_eq _ _, trivial⟩
    · exact ⟨mul_comm _ _, trivial⟩
    · simp only [adamCell_eq]
      exact ⟨trivial, trivial, trivial, trivial, trivial⟩
    · simp only [adaMaxCell_eq]
      exact ⟨trivial, trivial, trivial, trivial⟩
    · have := rNadamCell_eq (numbersOf c γ) 0 0 0 (s.G.data i) 0
      simp only [numbersOf, zero_add, pow_one] at this
      rw [this]
      exact ⟨rfl, rfl, rfl, trivial, trivial, trivial⟩
    · have := rNadamCell_eq (numbersOf c γ) 0 0 0 (s.G.data i) γ
      simp only [numbersOf, zero_add, pow_one] at this
      rw [hg trivial, this]
      exact ⟨rfl, rfl, rfl, trivial, trivial⟩
  · have hn' : ¬ n = 0 := by omega
    cases hty : c.type <;> simp only [hty, Bool.false_eq_true, if_false, hn', Running] at hg h ⊢ <;>
      simp only [St.setG, each, St.n, St.cell, hi', if_true, numbersOf]
    · exact ⟨mul_comm _ _, trivial⟩
    · rw [h]; simp only [hintonCell_eq]; exact ⟨trivial, trivial⟩
    · rw [h.1, h.2]; simp only [gravesCell_eq]; exact ⟨trivial, trivial, trivial⟩
    · exact ⟨sgn_eq _ _, trivial⟩
    · rw [h]; simp only [modCell_eq]; exact ⟨trivial, trivial⟩
    · obtain ⟨h1, h2, h3, h4⟩ := h
      rw [h1, h2, h3, h4, ← pow_succ, ← pow_succ]
      simp only [adamCell_eq]
      exact ⟨trivial, trivial, trivial, trivial, trivial⟩
    · obtain ⟨h1, h2, h3⟩ := h
      rw [h1, h2, h3, ← pow_succ]
      simp only [adaMaxCell_eq]
      exact ⟨trivial, trivial, trivial, trivial⟩
    · obtain ⟨h1, h2, h3, h4, h5⟩ := h
      have := rNadamCell_eq (numbersOf c γ) n a b (s.G.data i) 0
      simp only [numbersOf] at this
      rw [h1, h2, h3, h4, h5, ← pow_succ, ← pow_succ, this]
      exact ⟨rfl, rfl, rfl, rfl, rfl, rfl⟩
    · obtain ⟨h1, h2, h3, h4⟩ := h
      have := rNadamCell_eq (numbersOf c γ) n a b (s.G.data i) γ
      simp only [numbersOf] at this
      rw [h1, h2, h3, h4, hg trivial, ← pow_succ, ← pow_succ, this]
      exact ⟨rfl, rfl, rfl, rfl, rfl⟩

/-- The gains, element by element; `v` is the velocity they may be compared with. -/
theorem gain_cell (c : Cfg) (f : Bool) (s : St) (i : ℕ) (hi : i < s.n) (n : ℕ) (hf : f = true ↔ n = 0) :
    (ilrF c f s).gain i = (match gainsOf c with
      | none => s.gain i
      | some G => if n = 0 then s.gain i else G.next (s.gain i) ((if G.byVelocity then s.V i else s.prev i) * s.G.data i)) ∧
    (ilrF c f s).G.data i = (match gainsOf c with
      | none => s.G.data i
      | some _ => if n = 0 then s.G.data i else s.G.data i * (ilrF c f s).gain i) ∧
    (ilrF c f s).prev i = (match gainsOf c with
      | none => s.prev i
      | some G => if G.byVelocity then s.prev i else (ilrF c f s).G.data i) := by
  unfold ilrF gainsOf
  cases hu : c.useILR with
  | false => exact ⟨rfl, rfl, rfl⟩
  | true =>
    simp only [Bool.true_eq_false, if_false, if_true]
    have e : (c.useMom && c.ilrToMom) = c.ilrUseMom := rfl
    rw [e]
    by_cases h0 : n = 0
    · rw [hf.2 h0]
      simp only [h0, if_true]
      cases hm : c.ilrUseMom with
      | true => exact ⟨rfl, rfl, rfl⟩
      | false => exact ⟨rfl, rfl, by simp [copyTo, hi]⟩
    · have : f = false := by
        cases f with
        | true => exact absurd (hf.1 rfl) h0
        | false => rfl
      rw [this]
      simp only [h0, if_false, Bool.false_eq_true]
      have hg : ∀ x g : ℝ, g * gainFactor c.decr c.incr c.capLow c.capHigh (x * s.G.data i) g =
          (⟨c.ilrUseMom, c.decr, c.incr, c.capLow, c.capHigh⟩ : Gains).next g (x * s.G.data i) := fun x g => gainFactor_rule c x _ g
      cases hm : c.ilrUseMom with
      | true =>
        simp only [hm] at hg
        simp only [Bool.false_eq_true, if_true, if_false, St.setG, each, hi, hg]
        exact ⟨trivial, trivial, trivial⟩
      | false =>
        simp only [hm] at hg
        simp only [Bool.false_eq_true, if_true, if_false, St.setG, each, hi, hg, copyTo]
        exact ⟨trivial, trivial, trivial⟩

theorem Running.congr {ty : GradType} {β1 β2 : ℝ} {s s' : St} {i n : ℕ} {a b : ℝ} (h : Running ty β1 β2 s i n a b) (e1 : s'.A i = s.A i) (e2 : s'.B i = s.B i)
    (e3 : s'.b1t = s.b1t) (e4 : s'.b2t = s.b2t) (e5 : s'.gamma = s.gamma) : Running ty β1 β2 s' i n a b := by
  unfold Running at *
  rw [e1, e2, e3, e4, e5]
  exact h

theorem Remembered.first {ty : GradType} {β1 β2 : ℝ} {f : Bool} {s : St} {i n : ℕ} {a b : ℝ} (h : Remembered ty β1 β2 f s i n a b) : f = true ↔ n = 0 := by
  rcases h with ⟨h1, h2, _⟩ | ⟨h1, h2, _⟩
  · exact ⟨fun _ => h2, fun _ => h1⟩
  · exact ⟨fun h => absurd (h1.symm.trans h) (by decide), fun h => by omega⟩

theorem optF_gamma (c : Cfg) (f : Bool) (s : St) (h : c.type = .radam) : (optF c f s).gamma = s.gamma := by
  unfold optF firstF
  rw [h]
  dsimp only
  split <;> rfl

theorem calm_mask {c : Call} (h : Calm c) (i : ℕ) : lrMask c.cfg c.draw i = 1 := by
  have := h.drop
  unfold Cfg.bLRDropout at this
  exact if_neg (of_decide_eq_false this)

/-- `apply_grad`, element by element: the method and the gains, then the velocity and the weight. `g` is the derivative with the penalties. -/
theorem apply_cell {y : Call} (hy : Calm y) (S : St) (i : ℕ) (hi : i < S.n) (n : ℕ) (a b γ g : ℝ) (hg : y.cfg.type = .radam → S.gamma = γ)
    (hl : (lossF y.cfg S).G.data i = g) (h : Remembered y.cfg.type y.cfg.beta1 y.cfg.beta2 S.firstRun S i n a b)
    (s2 : St) (e2 : s2 = applyF y.cfg y.blocked y.draw S) (x : (ℝ × ℝ) × ℝ) (hx : x = method y.cfg.type (numbersOf y.cfg γ) n a b g) :
    ∃ dir : ℝ, s2.gain i = (match gainsOf y.cfg with
        | none => S.gain i
        | some G => if n = 0 then S.gain i else G.next (S.gain i) ((if G.byVelocity then S.V i else S.prev i) * x.2)) ∧
      dir = (match gainsOf y.cfg with
        | none => x.2
        | some _ => if n = 0 then x.2 else x.2 * s2.gain i) ∧
      s2.prev i = (match gainsOf y.cfg with
        | none => S.prev i
        | some G => if G.byVelocity then S.prev i else dir) ∧
      s2.V i = (if y.cfg.useMom then (if y.cfg.nesterov then S.V i else y.cfg.mom * S.V i) + dir else S.V i) ∧
      s2.W.data i = S.W.data i - (if y.cfg.useMom = true ∧ y.cfg.nesterov = false then y.cfg.mom * S.V i + dir else dir) ∧
      s2.firstRun = false ∧ (y.cfg.type = .radam → s2.gamma = γ) ∧ Running y.cfg.type y.cfg.beta1 y.cfg.beta2 s2 i (n + 1) x.1.1 x.1.2 := by
  subst hx
  rw [hy.blocked] at e2
  obtain ⟨a1, a2, a3, a4, a5, a6, a7, a8⟩ := apply_opt y.cfg y.draw S
  have av := fun h => apply_V y.cfg y.draw S h i hi
  have aw := apply_W_off y.cfg y.draw S hy.norm i hi
  rw [calm_mask hy, one_mul] at aw
  have av' : y.cfg.useMom = false → (applyF y.cfg false y.draw S).V = S.V := fun h => by
    rw [applyF_eq, (normF_keeps _ _).1]
    unfold updF
    rw [if_pos h]
    exact midF_V _ _
  rw [← e2] at a1 a2 a3 a4 a5 a6 a7 a8 av aw av'
  have hk := lossF_eq y.cfg S
  have l1 : (lossF y.cfg S).ran.n = S.n := by rw [hk]; rfl
  have l2 : (lossF y.cfg S).ran.V = S.V := by rw [hk]; rfl
  have l3 : (lossF y.cfg S).ran.gain = S.gain := by rw [hk]; rfl
  have l4 : (lossF y.cfg S).ran.prev = S.prev := by rw [hk]; rfl
  have l5 : (lossF y.cfg S).ran.gamma = S.gamma := by rw [hk]; rfl
  obtain ⟨o1, o2⟩ := opt_cell y.cfg S.firstRun (lossF y.cfg S).ran i (by rw [l1]; exact hi) n a b γ (fun ht => l5.trans (hg ht)) (by
    rcases h with ⟨h1, h2⟩ | ⟨h1, h2, h3⟩
    · exact .inl ⟨h1, h2⟩
    · exact .inr ⟨h1, h2, h3.congr (by rw [hk]; rfl) (by rw [hk]; rfl) (by rw [hk]; rfl) (by rw [hk]; rfl) l5⟩)
  rw [show (lossF y.cfg S).ran.G.data i = g from hl] at o1 o2
  obtain ⟨g1, g2, g3⟩ := gain_cell y.cfg S.firstRun (optF y.cfg S.firstRun (lossF y.cfg S).ran) i (by rw [(optF_same _ _ _).n, l1]; exact hi) n h.first
  obtain ⟨_, k2, k3, k4, _⟩ := optF_keeps y.cfg S.firstRun (lossF y.cfg S).ran
  rw [o1, k2, k3, k4, l2, l3, l4] at g1
  rw [o1] at g2
  rw [k4, l4] at g3
  refine ⟨dirF y.cfg S i, (congrFun a7 i).trans g1, ?_, (congrFun a8 i).trans g3, ?_, aw, a6, fun ht => ?_, ?_⟩
  · rw [a7]; exact g2
  · cases hm : y.cfg.useMom with
    | true => exact av hm
    | false => exact congrFun (av' hm) i
  · rw [a5, optF_gamma _ _ _ ht, l5]; exact hg ht
  · exact o2.congr (congrFun a1 i) (congrFun a2 i) a3 a4 a5

/-- One step, element by element. -/
theorem full_cell {x y : Call} (hx : Calm x) (hy : Calm y) (hn : (x.cfg.useMom && x.cfg.nesterov) = (y.cfg.useMom && y.cfg.nesterov)) (s : St) (m k : ℕ)
    (w d : Mat ℝ) {c j : ℕ} (hc : c < m) (hj : j < k) (hw : s.W = mtxOf m k w) (γ : ℝ) (q : Memo) (hg : y.cfg.type = .radam → s.gamma = γ)
    (hv : s.V (c + m * j) = q.v) (hgain : s.gain (c + m * j) = q.gain) (hprev : s.prev (c + m * j) = q.prev)
    (h : Remembered y.cfg.type y.cfg.beta1 y.cfg.beta2 s.firstRun s (c + m * j) q.n q.a q.b)
    (s1 s2 : St) (w1 : Mat ℝ) (e1 : s1 = preF x.cfg x.blocked x.draw s) (ew : w1 = matOf m s1.W.data)
    (e2 : s2 = applyF y.cfg y.blocked y.draw { s1 with W := mtxOf m k w1, G := mtxOf m k d }) (ρ : Rule Memo)
    (hρ : ρ = fullRule y.cfg.type (numbersOf y.cfg γ) (momentumOf x.cfg y.cfg) (gainsOf y.cfg) (slopes y.cfg (decide (j + 1 = k)))) :
    w1 c j = ρ.look q (w c j) ∧ s2.W.data (c + m * j) = (ρ.move q (w c j) (d c j)).2 ∧ s2.firstRun = false ∧
    s2.V (c + m * j) = (ρ.move q (w c j) (d c j)).1.v ∧ s2.gain (c + m * j) = (ρ.move q (w c j) (d c j)).1.gain ∧
    s2.prev (c + m * j) = (ρ.move q (w c j) (d c j)).1.prev ∧ (y.cfg.type = .radam → s2.gamma = γ) ∧ (ρ.move q (w c j) (d c j)).1.n = q.n + 1 ∧
    Running y.cfg.type y.cfg.beta1 y.cfg.beta2 s2 (c + m * j) (q.n + 1) (ρ.move q (w c j) (d c j)).1.a (ρ.move q (w c j) (d c j)).1.b := by
  have hsn : s.n = m * k := by unfold St.n; rw [hw]; rfl
  have hlt := cell_lt hc hj
  rw [hx.blocked] at e1
  obtain ⟨p1, p2, p3, p4, p5, p6, p7, p8⟩ := preF_keeps x.cfg x.draw s
  have pv := pre_V x.cfg x.draw s (c + m * j) (by rw [hsn]; exact hlt)
  have pw := pre_W_off x.cfg x.draw s hx.norm (c + m * j) (by rw [hsn]; exact hlt)
  rw [← e1] at p1 p2 p3 p4 p5 p6 p7 p8 pv pw
  have hL : s1.W.data (c + m * j) = w1 c j := by rw [ew]; rfl
  have hwc : s.W.data (c + m * j) = w c j := by rw [hw]; exact memOf_cell hc w
  simp only [calm_mask hx, ite_self, one_mul, hL, hwc, hv] at pw pv
  generalize hS : ({ s1 with W := mtxOf m k w1, G := mtxOf m k d } : St) = S at e2
  have hl := lossF_cell y.cfg s1 m k w1 d hc hj
  rw [hS] at hl
  have q1 : S.V = s1.V := by rw [← hS]
  have q2 : S.gain = s1.gain := by rw [← hS]
  have q3 : S.prev = s1.prev := by rw [← hS]
  have q4 : S.W.data (c + m * j) = w1 c j := by rw [← hS]; exact memOf_cell hc w1
  have q5 : S.firstRun = s.firstRun := by rw [← hS, ← p8]
  have q6 : S.gamma = s.gamma := by rw [← hS, ← p7]
  have hS' : S.n = m * k := by rw [← hS]; rfl
  obtain ⟨dir, r1, r2, r3, r4, r5, r6, r7, r8⟩ := apply_cell hy S (c + m * j) (by rw [hS']; exact hlt) q.n q.a q.b γ _ (fun ht => q6.trans (hg ht)) hl (by
    rw [q5]
    rcases h with ⟨h1, h2⟩ | ⟨h1, h2, h3⟩
    · exact .inl ⟨h1, h2⟩
    · exact .inr ⟨h1, h2, h3.congr (by rw [← hS, ← p1]) (by rw [← hS, ← p2]) (by rw [← hS, ← p5]) (by rw [← hS, ← p6]) q6⟩) s2 e2 _ rfl
  rw [q1, q2, q3, p3, p4, hgain, hprev] at r1
  rw [q3, p4, hprev] at r3
  rw [q1] at r4
  rw [q1, q4] at r5
  have hN : (x.cfg.useMom = true ∧ x.cfg.nesterov = true) ↔ (y.cfg.useMom = true ∧ y.cfg.nesterov = true) := by
    rw [← Bool.and_eq_true, ← Bool.and_eq_true, hn]
  simp only [hN] at pv pw
  subst hρ
  unfold fullRule momentumOf
  cases hm : y.cfg.useMom with
  | false =>
    simp only [hm, Bool.false_eq_true, false_and, if_false] at pv pw r4 r5 ⊢
    rw [pw, pv] at r1
    rw [pw] at r2 r5 r8
    cases hG : gainsOf y.cfg with
    | none =>
      simp only [hG] at r1 r2 r3 ⊢
      rw [r2] at r5
      exact ⟨pw, r5, r6, r4.trans pv, r1, r3, r7, trivial, r8⟩
    | some G =>
      simp only [hG] at r1 r2 r3 ⊢
      rw [r1] at r2
      rw [r2] at r3 r5
      exact ⟨pw, r5, r6, r4.trans pv, r1, r3, r7, trivial, r8⟩
  | true =>
    cases hne : y.cfg.nesterov with
    | false =>
      simp only [hm, hne, Bool.false_eq_true, and_false, if_false, if_true, and_self] at pv pw r4 r5 ⊢
      rw [pw, pv] at r1
      rw [pw] at r2 r5 r8
      rw [pv] at r4 r5
      cases hG : gainsOf y.cfg with
      | none =>
        simp only [hG] at r1 r2 r3 ⊢
        rw [r2] at r4 r5
        exact ⟨pw, r5, r6, r4, r1, r3, r7, trivial, r8⟩
      | some G =>
        simp only [hG] at r1 r2 r3 ⊢
        rw [r1] at r2
        rw [r2] at r3 r4 r5
        exact ⟨pw, r5, r6, r4, r1, r3, r7, trivial, r8⟩
    | true =>
      simp only [hm, hne, Bool.true_eq_false, and_false, if_false, if_true, and_self] at pv pw r4 r5 ⊢
      rw [pw, pv] at r1
      rw [pw] at r2 r5 r8
      rw [pv] at r4
      cases hG : gainsOf y.cfg with
      | none =>
        simp only [hG] at r1 r2 r3 ⊢
        rw [r2] at r4 r5
        exact ⟨pw, r5.trans (by ring), r6, r4, r1, r3, r7, trivial, r8⟩
      | some G =>
        simp only [hG] at r1 r2 r3 ⊢
        rw [r1] at r2
        rw [r2] at r3 r4 r5
        exact ⟨pw, r5.trans (by ring), r6, r4, r1, r3, r7, trivial, r8⟩

/-- The states of the rules that a state of gradient works stands for. -/
def remembers (m k : ℕ) (ty : GradType) (β1 β2 γ : ℝ) (g : GwS) (st : ℕ → ℕ → ℕ × Memo) : Prop :=
  g.p = g.t ∧ (ty = .radam → g.s.gamma = γ) ∧ ∀ c < m, ∀ j < k, (st c j).1 = g.t ∧ g.s.V (c + m * j) = (st c j).2.v ∧ g.s.gain (c + m * j) = (st c j).2.gain ∧
    g.s.prev (c + m * j) = (st c j).2.prev ∧ Remembered ty β1 β2 g.s.firstRun g.s (c + m * j) (st c j).2.n (st c j).2.a (st c j).2.b

/-- C195. Gradient works of every type do what the formulas of their methods say, with or without momentum, gains and penalties. Everything but the type, the decays and
the share of `RAdam` may change from call to call; both calls of a step agree on whether the momentum is Nesterov's. -/
theorem gradWorks_methods (o : Opt) (m k : ℕ) (ty : GradType) (β1 β2 γ : ℝ) (hp : ∀ t, Calm (o.pre t))
    (ha : ∀ t, Calm (o.app t) ∧ (o.app t).cfg.type = ty ∧ (o.app t).cfg.beta1 = β1 ∧ (o.app t).cfg.beta2 = β2)
    (hn : ∀ t, ((o.pre t).cfg.useMom && (o.pre t).cfg.nesterov) = ((o.app t).cfg.useMom && (o.app t).cfg.nesterov)) :
    Follows (gradWorks o m k) m k (fun bias => .scheduled fun t => fullRule ty ⟨(o.app t).cfg.lr, β1, β2, (o.app t).cfg.eps, γ⟩
      (momentumOf (o.pre t).cfg (o.app t).cfg) (gainsOf (o.app t).cfg) (slopes (o.app t).cfg bias)) (remembers m k ty β1 β2 γ) where
  inside := fun g st st' h e => ⟨h.1, h.2.1, fun c hc j hj => by rw [e c hc j hj]; exact h.2.2 c hc j hj⟩
  look := fun ⟨p, t, s⟩ st w h c hc j hj => by
    obtain ⟨h0, hg, h⟩ := h
    obtain rfl : p = t := h0
    obtain ⟨h1, h2, h3, h4, h5⟩ := h c hc j hj
    obtain ⟨hy, rfl, rfl, rfl⟩ := ha p
    rw [show st c j = (p, (st c j).2) from Prod.ext h1 rfl]
    exact (full_cell (hp p) hy (hn p) { s with W := mtxOf m k w } m k w (fun _ _ => 0) hc hj rfl γ (st c j).2 hg h2 h3 h4 (h5.imp_right fun h5 =>
      ⟨h5.1, h5.2.1, h5.2.2.congr rfl rfl rfl rfl rfl⟩) _ _ _ rfl rfl rfl _ rfl).1
  move := fun ⟨p, t, s⟩ st w d h => by
    obtain ⟨h0, hg, h⟩ := h
    obtain rfl : p = t := h0
    obtain ⟨hy, rfl, rfl, rfl⟩ := ha p
    have key := fun c (hc : c < m) j (hj : j < k) => full_cell (hp p) hy (hn p) { s with W := mtxOf m k w } m k w d hc hj rfl γ (st c j).2 hg (h c hc j hj).2.1
      (h c hc j hj).2.2.1 (h c hc j hj).2.2.2.1 ((h c hc j hj).2.2.2.2.imp_right fun h5 => ⟨h5.1, h5.2.1, h5.2.2.congr rfl rfl rfl rfl rfl⟩) _ _ _ rfl rfl rfl _ rfl
    have e := fun c (hc : c < m) j (hj : j < k) => show st c j = (p, (st c j).2) from Prod.ext (h c hc j hj).1 rfl
    refine ⟨fun c hc j hj => ?_, rfl, fun ht => ?_, fun c hc j hj => ?_⟩
    · rw [e c hc j hj]
      exact (key c hc j hj).2.1
    · refine Eq.trans ?_ (hg ht)
      show (applyF (o.app p).cfg (o.app p).blocked (o.app p).draw { preF (o.pre p).cfg (o.pre p).blocked (o.pre p).draw { s with W := mtxOf m k w } with
        W := mtxOf m k (matOf m (preF (o.pre p).cfg (o.pre p).blocked (o.pre p).draw { s with W := mtxOf m k w }).W.data), G := mtxOf m k d }).gamma = s.gamma
      rw [hy.blocked, (hp p).blocked, (apply_opt _ _ _).2.2.2.2.1, optF_gamma _ _ _ ht, lossF_eq]
      exact (preF_keeps (o.pre p).cfg (o.pre p).draw { s with W := mtxOf m k w }).2.2.2.2.2.2.1
    · beta_reduce
      rw [e c hc j hj]
      obtain ⟨_, _, k3, k4, k5, k6, _, k8, k9⟩ := key c hc j hj
      exact ⟨rfl, k4, k5, k6, .inr ⟨k3, Nat.succ_pos _, k9⟩⟩

end Nntl.Sgd
