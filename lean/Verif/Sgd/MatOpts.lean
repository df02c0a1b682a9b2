import Verif.Sgd.MatLemmas
import Verif.Sgd.AllProps

/-! C196: gradient works with every setting do what `MatSpec` says. -/
namespace Nntl.Sgd

open Nntl.Layers Nntl.Pass Nntl.Backprop Nntl.Grad
open Finset

/-- The settings as they are found in the calls. -/
noncomputable def limitOf (c : Cfg) : Option Limit := if c.useMaxNorm then some ⟨c.maxNorm2, c.normInclBias⟩ else none

noncomputable def beforeOf (o : Opt) (m : ℕ) (t : ℕ) : Option Ahead :=
  if (o.pre t).blocked = false ∧ (o.pre t).cfg.useMom = true ∧ (o.pre t).cfg.nesterov = true then
    some ⟨(o.pre t).cfg.mom, fun c j => !decide ((o.pre t).cfg.lrDrop < 1) || !(o.pre t).cfg.lrDropNesterov || decide ((o.pre t).draw (c + m * j) < (o.pre t).cfg.lrDrop),
      limitOf (o.pre t).cfg⟩
  else none

noncomputable def afterOf (o : Opt) (m : ℕ) (ty : GradType) (β1 β2 γ : ℝ) (t : ℕ) : Option After :=
  if (o.app t).blocked then none
  else some ⟨ty, ⟨(o.app t).cfg.lr, β1, β2, (o.app t).cfg.eps, γ⟩,
    if (o.app t).cfg.useMom then (if (o.app t).cfg.nesterov then .added else .classical (o.app t).cfg.mom) else .off,
    if (o.app t).cfg.useILR then
      some ⟨(o.app t).cfg.useMom && (o.app t).cfg.ilrToMom, (o.app t).cfg.decr, (o.app t).cfg.incr, (o.app t).cfg.capLow, (o.app t).cfg.capHigh⟩ else none,
    penaltySlope (o.app t).cfg.l1 (o.app t).cfg.l2 (o.app t).cfg.l1IgnBias (o.app t).cfg.l2IgnBias,
    fun c j => !decide ((o.app t).cfg.lrDrop < 1) || decide ((o.app t).draw (c + m * j) < (o.app t).cfg.lrDrop), limitOf (o.app t).cfg⟩

/-- The state of gradient works stands for what is remembered. -/
def stands (m k : ℕ) (ty : GradType) (β1 β2 γ : ℝ) (g : GwS) (st : LayerMemo) : Prop :=
  st.p = g.p ∧ st.t = g.t ∧ (ty = .radam → g.s.gamma = γ) ∧ ∀ c < m, ∀ j < k, g.s.V (c + m * j) = (st.cell c j).v ∧ g.s.gain (c + m * j) = (st.cell c j).gain ∧
    g.s.prev (c + m * j) = (st.cell c j).prev ∧ Remembered ty β1 β2 g.s.firstRun g.s (c + m * j) (st.cell c j).n (st.cell c j).a (st.cell c j).b

/-- The length of a row. -/
theorem rowNorm2_cell {m k kn r : ℕ} (hk : kn ≤ k) (hr : r < m) {d : ℕ → ℝ} {w : Mat ℝ} (h : ∀ c < m, ∀ j < k, d (c + m * j) = w c j) :
    rowNorm2 d m kn r = ∑ i ∈ range kn, w r i ^ 2 := by
  unfold rowNorm2
  rw [Finset.sum_range, ← List.sum_ofFn]
  congr 1
  refine List.ext_getElem (by simp) fun i h1 h2 => ?_
  simp only [List.getElem_map, List.getElem_range, List.getElem_ofFn]
  have : i < kn := by simpa using h1
  rw [h r hr i (by omega), pow_two]

/-- The limit of lengths, element by element. -/
theorem normF_cell (c : Cfg) (s : St) {m k : ℕ} (hm : s.W.rows = m) (hk : s.W.cols = k) (w : Mat ℝ) (h : ∀ c < m, ∀ j < k, s.W.data (c + m * j) = w c j) :
    ∀ i < m, ∀ j < k, (normF c s).W.data (i + m * j) = limited k (limitOf c) w i j := by
  intro i hi j hj
  unfold normF limitOf
  cases hu : c.useMaxNorm with
  | false => exact h i hi j hj
  | true =>
    simp only [Bool.true_eq_false, if_false, if_true, limited, Limit.shrink]
    simp only [St.setW, normRows, scaleRows, hm, hk]
    rw [if_pos (cell_lt hi hj), Nat.add_mul_mod_self_left, Nat.mod_eq_of_lt hi, h i hi j hj]
    have hle : (if c.normInclBias = true then k else k - 1) ≤ k := by split <;> omega
    rw [rowNorm2_cell hle hi h]
    unfold normCoef
    generalize ∑ i_1 ∈ range (if c.normInclBias = true then k else k - 1), w i i_1 ^ 2 = len
    by_cases hlen : c.maxNorm2 < len
    · rw [if_pos hlen, if_pos hlen, mul_comm]
    · rw [if_neg hlen, if_neg hlen, mul_one]

theorem before_W (o : Opt) (m k t : ℕ) (a : Ahead) (ha : beforeOf o m t = some a) (s : St) (w : Mat ℝ) (hs : s.W = mtxOf m k w) (st : ℕ → ℕ → Memo)
    (hv : ∀ c < m, ∀ j < k, s.V (c + m * j) = (st c j).v) :
    ∀ i < m, ∀ j < k, (preF (o.pre t).cfg (o.pre t).blocked (o.pre t).draw s).W.data (i + m * j) = (a.go k st w).2 i j ∧
      (preF (o.pre t).cfg (o.pre t).blocked (o.pre t).draw s).V (i + m * j) = ((a.go k st w).1 i j).v := by
  unfold beforeOf at ha
  split at ha
  next hc =>
    obtain ⟨h1, h2, h3⟩ := hc
    cases ha
    have hn : s.n = m * k := by unfold St.n; rw [hs]; rfl
    intro i hi j hj
    have hlt : i + m * j < s.n := by rw [hn]; exact cell_lt hi hj
    have hV := pre_V (o.pre t).cfg (o.pre t).draw s (i + m * j) hlt
    rw [h1]
    refine ⟨?_, ?_⟩
    · unfold preF
      rw [if_pos (by simp [h2, h3])]
      refine normF_cell _ _ (m := m) (k := k) (by show s.W.rows = m; rw [hs]; rfl) (by show s.W.cols = k; rw [hs]; rfl) _ (fun c hc j hj => ?_) i hi j hj
      have hlt : c + m * j < s.n := by rw [hn]; exact cell_lt hc hj
      have hw : s.W.data (c + m * j) = w c j := by rw [hs]; exact memOf_cell hc w
      show (if _ then _ else _ : ℕ → ℝ) (c + m * j) = _
      simp only [Cfg.bLRDropout]
      by_cases hd : (o.pre t).cfg.lrDrop < 1
      · cases hl : (o.pre t).cfg.lrDropNesterov with
        | true =>
          simp only [hd, decide_true, Bool.and_self, if_true, each, hlt, hw, hv c hc j hj, Bool.not_true, Bool.false_or, decide_eq_true_eq]
          split <;> ring
        | false =>
          simp only [hd, decide_true, Bool.and_false, Bool.false_eq_true, if_false, if_true, each, hlt, hw, hv c hc j hj, Bool.not_true, Bool.not_false, Bool.false_or,
            Bool.true_or]
          ring
      · simp only [hd, decide_false, Bool.false_and, Bool.false_eq_true, if_false, if_true, each, hlt, hw, hv c hc j hj, Bool.not_false, Bool.true_or]
        ring
    · rw [hV, if_pos ⟨h2, h3⟩, hv i hi j hj]
      rfl
  next => cases ha

theorem pre_off (o : Opt) (m t : ℕ) (ha : beforeOf o m t = none) (s : St) : preF (o.pre t).cfg (o.pre t).blocked (o.pre t).draw s = s := by
  unfold beforeOf at ha
  split at ha
  next => cases ha
  next hc =>
    unfold preF
    rw [if_neg]
    simpa using hc

theorem pre_blocked_keeps (c : Cfg) (b : Bool) (draw : ℕ → ℝ) (s : St) : (preF c b draw s).A = s.A ∧ (preF c b draw s).B = s.B ∧ (preF c b draw s).gain = s.gain ∧
    (preF c b draw s).prev = s.prev ∧ (preF c b draw s).b1t = s.b1t ∧ (preF c b draw s).b2t = s.b2t ∧ (preF c b draw s).gamma = s.gamma ∧
    (preF c b draw s).firstRun = s.firstRun := by
  cases b with
  | false => exact preF_keeps c draw s
  | true =>
    have : preF c true draw s = s := by unfold preF; rw [if_neg (by simp)]
    rw [this]
    exact ⟨rfl, rfl, rfl, rfl, rfl, rfl, rfl, rfl⟩

/-- `apply_grad`, element by element, before the limit. -/
theorem after_cell (o : Opt) (m k t : ℕ) (ty : GradType) (β1 β2 γ : ℝ) (hty : (o.app t).cfg.type = ty) (h1 : (o.app t).cfg.beta1 = β1) (h2 : (o.app t).cfg.beta2 = β2)
    (a : After) (ha : afterOf o m ty β1 β2 γ t = some a) (s S s2 : St) (w d : Mat ℝ) (hS : ({ s with W := mtxOf m k w, G := mtxOf m k d } : St) = S)
    (e2 : s2 = applyF (o.app t).cfg (o.app t).blocked (o.app t).draw S) (q : Memo) {c j : ℕ} (hc : c < m) (hj : j < k)
    (hg : ty = .radam → s.gamma = γ) (hv : s.V (c + m * j) = q.v) (hgain : s.gain (c + m * j) = q.gain) (hprev : s.prev (c + m * j) = q.prev)
    (h : Remembered ty β1 β2 s.firstRun s (c + m * j) q.n q.a q.b) :
    (updF (o.app t).cfg (o.app t).draw (midF (o.app t).cfg S)).W.data (c + m * j) =
      (if a.keep c j then w c j - (a.cell (decide (j + 1 = k)) q (w c j) (d c j)).2 else w c j) ∧ s2.firstRun = false ∧
    s2.V (c + m * j) = (a.cell (decide (j + 1 = k)) q (w c j) (d c j)).1.v ∧ s2.gain (c + m * j) = (a.cell (decide (j + 1 = k)) q (w c j) (d c j)).1.gain ∧
    s2.prev (c + m * j) = (a.cell (decide (j + 1 = k)) q (w c j) (d c j)).1.prev ∧ (ty = .radam → s2.gamma = γ) ∧
    (a.cell (decide (j + 1 = k)) q (w c j) (d c j)).1.n = q.n + 1 ∧
    Running ty β1 β2 s2 (c + m * j) (q.n + 1) (a.cell (decide (j + 1 = k)) q (w c j) (d c j)).1.a (a.cell (decide (j + 1 = k)) q (w c j) (d c j)).1.b := by
  subst hty h1 h2
  unfold afterOf at ha
  split at ha
  next => cases ha
  next hb =>
    cases ha
    have hb : (o.app t).blocked = false := by simpa using hb
    rw [hb] at e2
    generalize hy : o.app t = y at *
    have hlt : c + m * j < S.n := by rw [← hS]; exact cell_lt hc hj
    have hl := lossF_cell y.cfg s m k w d hc hj
    rw [hS] at hl
    have q1 : S.V (c + m * j) = q.v := by rw [← hS]; exact hv
    have q2 : S.gain (c + m * j) = q.gain := by rw [← hS]; exact hgain
    have q3 : S.prev (c + m * j) = q.prev := by rw [← hS]; exact hprev
    have q4 : S.W.data (c + m * j) = w c j := by rw [← hS]; exact memOf_cell hc w
    have q5 : S.firstRun = s.firstRun := by rw [← hS]
    have q6 : S.gamma = s.gamma := by rw [← hS]
    obtain ⟨a1, a2, a3, a4, a5, a6, a7, a8⟩ := apply_opt y.cfg y.draw S
    have av := fun h => apply_V y.cfg y.draw S h (c + m * j) hlt
    have av' : y.cfg.useMom = false → (applyF y.cfg false y.draw S).V = S.V := fun h => by
      rw [applyF_eq, (normF_keeps _ _).1]
      unfold updF
      rw [if_pos h]
      exact midF_V _ _
    rw [← e2] at a1 a2 a3 a4 a5 a6 a7 a8 av av'
    have aw := upd_W y.cfg y.draw (midF y.cfg S) (c + m * j) (by rw [midF_n]; exact hlt)
    rw [midF_W, midF_V, q1, q4, show (midF y.cfg S).G.data (c + m * j) = dirF y.cfg S (c + m * j) from rfl] at aw
    rw [q1] at av
    have hk := lossF_eq y.cfg S
    have l1 : (lossF y.cfg S).ran.n = S.n := by rw [hk]; rfl
    have l2 : (lossF y.cfg S).ran.V = S.V := by rw [hk]; rfl
    have l3 : (lossF y.cfg S).ran.gain = S.gain := by rw [hk]; rfl
    have l4 : (lossF y.cfg S).ran.prev = S.prev := by rw [hk]; rfl
    have l5 : (lossF y.cfg S).ran.gamma = S.gamma := by rw [hk]; rfl
    obtain ⟨o1, o2⟩ := opt_cell y.cfg S.firstRun (lossF y.cfg S).ran (c + m * j) (by rw [l1]; exact hlt) q.n q.a q.b γ (fun ht => l5.trans (q6.trans (hg ht))) (by
      rw [q5]
      rcases h with ⟨h1, h2⟩ | ⟨h1, h2, h3⟩
      · exact .inl ⟨h1, h2⟩
      · exact .inr ⟨h1, h2, h3.congr (by rw [hk, ← hS]; rfl) (by rw [hk, ← hS]; rfl) (by rw [hk, ← hS]; rfl) (by rw [hk, ← hS]; rfl) (l5.trans q6)⟩)
    rw [show (lossF y.cfg S).ran.G.data (c + m * j) = _ from hl] at o1 o2
    obtain ⟨g1, g2, g3⟩ := gain_cell y.cfg S.firstRun (optF y.cfg S.firstRun (lossF y.cfg S).ran) (c + m * j)
      (by rw [(optF_same _ _ _).n, l1]; exact hlt) q.n (by rw [q5]; exact h.first)
    obtain ⟨_, k2, k3, k4, _⟩ := optF_keeps y.cfg S.firstRun (lossF y.cfg S).ran
    rw [o1, k2, k3, k4, l2, l3, l4, q1, q2, q3] at g1
    rw [o1] at g2
    rw [k4, l4, q3] at g3
    have g1 := (congrFun a7 (c + m * j)).trans g1
    have g3 := (congrFun a8 (c + m * j)).trans g3
    have g2 : dirF y.cfg S (c + m * j) = _ := g2
    rw [show (ilrF y.cfg S.firstRun (optF y.cfg S.firstRun (lossF y.cfg S).ran)).gain = s2.gain from a7.symm] at g2
    rw [show (ilrF y.cfg S.firstRun (optF y.cfg S.firstRun (lossF y.cfg S).ran)).G.data = dirF y.cfg S from rfl] at g3
    have hga : y.cfg.type = .radam → s2.gamma = γ := fun ht => by rw [a5, optF_gamma _ _ _ ht, l5, q6]; exact hg ht
    have hrun := o2.congr (s' := s2) (congrFun a1 (c + m * j)) (congrFun a2 (c + m * j)) a3 a4 a5
    generalize dirF y.cfg S (c + m * j) = dir at *
    have hmask : ∀ x : ℝ, w c j - lrMask y.cfg y.draw (c + m * j) * x =
        if (!decide (y.cfg.lrDrop < 1) || decide (y.draw (c + m * j) < y.cfg.lrDrop)) = true then w c j - x else w c j := by
      intro x
      unfold lrMask
      by_cases h1 : y.cfg.lrDrop < 1
      · by_cases h2 : y.draw (c + m * j) < y.cfg.lrDrop
        · simp [h1, h2]
        · simp [h1, h2]
      · simp [h1]
    rw [hmask] at aw
    unfold After.cell
    simp only
    have hG : (if y.cfg.useILR = true then some (⟨y.cfg.useMom && y.cfg.ilrToMom, y.cfg.decr, y.cfg.incr, y.cfg.capLow, y.cfg.capHigh⟩ : Gains) else none) = gainsOf y.cfg := rfl
    have hQ : (⟨y.cfg.lr, y.cfg.beta1, y.cfg.beta2, y.cfg.eps, γ⟩ : Numbers) = numbersOf y.cfg γ := rfl
    have hp : penaltySlope y.cfg.l1 y.cfg.l2 y.cfg.l1IgnBias y.cfg.l2IgnBias (decide (j + 1 = k)) = slopes y.cfg (decide (j + 1 = k)) := rfl
    rw [hG, hQ, hp]
    generalize method y.cfg.type (numbersOf y.cfg γ) q.n q.a q.b (d c j + slopes y.cfg (decide (j + 1 = k)) (w c j)) = x at *
    have fin : (updF y.cfg y.draw (midF y.cfg S)).W.data (c + m * j) =
          (if (!decide (y.cfg.lrDrop < 1) || decide (y.draw (c + m * j) < y.cfg.lrDrop)) = true then w c j -
            (match (if y.cfg.useMom then (if y.cfg.nesterov then .added else .classical y.cfg.mom) else .off : Push) with
              | .classical _ => (match (if y.cfg.useMom then (if y.cfg.nesterov then .added else .classical y.cfg.mom) else .off : Push) with
                | .off => q.v
                | .classical μ => μ * q.v + dir
                | .added => q.v + dir)
              | _ => dir) else w c j) ∧
        s2.V (c + m * j) = (match (if y.cfg.useMom then (if y.cfg.nesterov then .added else .classical y.cfg.mom) else .off : Push) with
                | .off => q.v
                | .classical μ => μ * q.v + dir
                | .added => q.v + dir) := by
      cases hm : y.cfg.useMom with
      | false =>
        rw [aw, av' hm, q1]
        simp only [hm, Bool.false_eq_true, false_and, if_false, and_self]
      | true =>
        rw [aw, av hm]
        cases hne : y.cfg.nesterov with
        | false => simp only [hm, hne, Bool.false_eq_true, and_self, if_false, if_true]
        | true => simp only [hm, hne, Bool.true_eq_false, and_false, and_self, if_false, if_true]
    cases hG2 : gainsOf y.cfg with
    | none =>
      simp only [hG2] at g1 g2 g3 ⊢
      rw [← g2]
      exact ⟨fin.1, a6, fin.2, g1, g3, hga, trivial, hrun⟩
    | some G =>
      simp only [hG2] at g1 g2 g3 ⊢
      rw [g1] at g2
      rw [← g2]
      exact ⟨fin.1, a6, fin.2, g1, g3, hga, trivial, hrun⟩

/-- The limit of `apply_grad` comes last. -/
theorem after_W (o : Opt) (m k t : ℕ) (hb : (o.app t).blocked = false) (S : St) (hr : S.W.rows = m) (hk : S.W.cols = k) (u : Mat ℝ)
    (h : ∀ c < m, ∀ j < k, (updF (o.app t).cfg (o.app t).draw (midF (o.app t).cfg S)).W.data (c + m * j) = u c j) :
    ∀ c < m, ∀ j < k, (applyF (o.app t).cfg (o.app t).blocked (o.app t).draw S).W.data (c + m * j) = limited k (limitOf (o.app t).cfg) u c j := by
  rw [hb, applyF_eq]
  have h1 := (midF_same (o.app t).cfg S).trans (updF_same (o.app t).cfg (o.app t).draw (midF (o.app t).cfg S))
  exact normF_cell _ _ (h1.rows.trans hr) (h1.cols.trans hk) u h

theorem limited_congr {m k : ℕ} (l : Option Limit) {w w' : Mat ℝ} (h : Agree m k w w') : Agree m k (limited k l w) (limited k l w') := by
  intro c hc j hj
  unfold limited
  cases l with
  | none => exact h c hc j hj
  | some l =>
    unfold Limit.shrink
    have e : ∑ i ∈ range (if l.bias = true then k else k - 1), w c i ^ 2 = ∑ i ∈ range (if l.bias = true then k else k - 1), w' c i ^ 2 := by
      refine Finset.sum_congr rfl fun i hi => ?_
      have : i < k := by
        have := Finset.mem_range.1 hi
        split at this <;> omega
      rw [h c hc i this]
    simp only [e, h c hc j hj]

/-- C196. Gradient works of every type with every setting do what `MatSpec` says. The type, the decays and the share of `RAdam` stay. -/
theorem gradWorks_obey (o : Opt) (m k : ℕ) (ty : GradType) (β1 β2 γ : ℝ)
    (ha : ∀ t, (o.app t).cfg.type = ty ∧ (o.app t).cfg.beta1 = β1 ∧ (o.app t).cfg.beta2 = β2) :
    Obeys (gradWorks o m k) m k (.scheduled k (beforeOf o m) (afterOf o m ty β1 β2 γ)) (stands m k ty β1 β2 γ) where
  before := fun ⟨p, t, s⟩ st w w' ⟨h1, h2, h3, h4⟩ hw => by
    obtain rfl : st.p = p := h1
    obtain rfl : st.t = t := h2
    obtain ⟨n1, n2, n3, n4, n5, n6, n7, n8⟩ := pre_blocked_keeps (o.pre st.p).cfg (o.pre st.p).blocked (o.pre st.p).draw { s with W := mtxOf m k w }
    show stands m k ty β1 β2 γ ⟨st.p + 1, st.t, preF (o.pre st.p).cfg (o.pre st.p).blocked (o.pre st.p).draw { s with W := mtxOf m k w }⟩ _ ∧
      Agree m k (matOf m (preF (o.pre st.p).cfg (o.pre st.p).blocked (o.pre st.p).draw { s with W := mtxOf m k w }).W.data) _
    have hR : ∀ c < m, ∀ j < k, Remembered ty β1 β2 (preF (o.pre st.p).cfg (o.pre st.p).blocked (o.pre st.p).draw { s with W := mtxOf m k w }).firstRun
        (preF (o.pre st.p).cfg (o.pre st.p).blocked (o.pre st.p).draw { s with W := mtxOf m k w }) (c + m * j) (st.cell c j).n (st.cell c j).a (st.cell c j).b := by
      intro c hc j hj
      rw [n8]
      exact (h4 c hc j hj).2.2.2.imp_right fun h => ⟨h.1, h.2.1, h.2.2.congr (congrFun n1 _) (congrFun n2 _) n5 n6 n7⟩
    unfold MatRule.scheduled
    dsimp only
    cases hb : beforeOf o m st.p with
    | none =>
      rw [pre_off o m st.p hb] at hR ⊢
      refine ⟨⟨rfl, rfl, h3, fun c hc j hj => ⟨(h4 c hc j hj).1, (h4 c hc j hj).2.1, (h4 c hc j hj).2.2.1, hR c hc j hj⟩⟩, fun c hc j hj => ?_⟩
      exact (memOf_cell hc w).trans (hw c hc j hj)
    | some a =>
      have key := before_W o m k st.p a hb { s with W := mtxOf m k w } w rfl st.cell fun c hc j hj => (h4 c hc j hj).1
      generalize preF (o.pre st.p).cfg (o.pre st.p).blocked (o.pre st.p).draw { s with W := mtxOf m k w } = s1 at *
      refine ⟨⟨rfl, rfl, fun ht => n7.trans (h3 ht), fun c hc j hj => ⟨(key c hc j hj).2, ?_, ?_, hR c hc j hj⟩⟩, fun c hc j hj => ?_⟩
      · rw [n3]; exact (h4 c hc j hj).2.1
      · rw [n4]; exact (h4 c hc j hj).2.2.1
      · refine ((key c hc j hj).1).trans (limited_congr (m := m) a.limit (fun c hc j hj => ?_) c hc j hj)
        simp only [hw c hc j hj]
  after := fun ⟨p, t, s⟩ st w w' d d' ⟨h1, h2, h3, h4⟩ hw hd => by
    obtain rfl : st.p = p := h1
    obtain rfl : st.t = t := h2
    show stands m k ty β1 β2 γ ⟨st.p, st.t + 1, applyF (o.app st.t).cfg (o.app st.t).blocked (o.app st.t).draw { s with W := mtxOf m k w, G := mtxOf m k d }⟩ _ ∧
      Agree m k (matOf m (applyF (o.app st.t).cfg (o.app st.t).blocked (o.app st.t).draw { s with W := mtxOf m k w, G := mtxOf m k d }).W.data) _
    unfold MatRule.scheduled
    dsimp only
    cases hb : afterOf o m ty β1 β2 γ st.t with
    | none =>
      have hbl : (o.app st.t).blocked = true := by
        unfold afterOf at hb
        split at hb
        next h => exact h
        next => cases hb
      rw [hbl]
      unfold applyF
      rw [if_pos rfl, lossF_eq]
      refine ⟨⟨rfl, rfl, h3, fun c hc j hj => ⟨(h4 c hc j hj).1, (h4 c hc j hj).2.1, (h4 c hc j hj).2.2.1, ?_⟩⟩, fun c hc j hj => ?_⟩
      · exact (h4 c hc j hj).2.2.2.imp_right fun h => ⟨h.1, h.2.1, h.2.2.congr rfl rfl rfl rfl rfl⟩
      · exact (memOf_cell hc w).trans (hw c hc j hj)
    | some a =>
      have hbl : (o.app st.t).blocked = false := by
        unfold afterOf at hb
        split at hb
        next => cases hb
        next h => simpa using h
      have hlim : a.limit = limitOf (o.app st.t).cfg := by
        unfold afterOf at hb
        rw [hbl, if_neg Bool.false_ne_true] at hb
        cases hb
        rfl
      have key := fun c (hc : c < m) j (hj : j < k) => after_cell o m k st.t ty β1 β2 γ (ha st.t).1 (ha st.t).2.1 (ha st.t).2.2 a hb s _ _ w d rfl rfl (st.cell c j) hc hj h3
        (h4 c hc j hj).1 (h4 c hc j hj).2.1 (h4 c hc j hj).2.2.1 (h4 c hc j hj).2.2.2
      have kw := after_W o m k st.t hbl { s with W := mtxOf m k w, G := mtxOf m k d } rfl rfl _ fun c hc j hj => (key c hc j hj).1
      rw [← hlim] at kw
      refine ⟨⟨rfl, rfl, fun ht => ?_, fun c hc j hj => ?_⟩, fun c hc j hj => ?_⟩
      · rw [← (ha st.t).1] at ht
        show (applyF (o.app st.t).cfg (o.app st.t).blocked (o.app st.t).draw { s with W := mtxOf m k w, G := mtxOf m k d }).gamma = γ
        rw [hbl, (apply_opt _ _ _).2.2.2.2.1, optF_gamma _ _ _ ht, lossF_eq]
        exact h3 ((ha st.t).1.symm.trans ht)
      · obtain ⟨_, k2, k3, k4, k5, _, k7, k8⟩ := key c hc j hj
        rw [hw c hc j hj, hd c hc j hj] at k3 k4 k5 k7 k8
        exact ⟨k3, k4, k5, .inr ⟨k2, by show 0 < (a.cell _ _ _ _).1.n; rw [k7]; omega, by
          show Running _ _ _ _ _ (a.cell _ _ _ _).1.n _ _
          rw [k7]; exact k8⟩⟩
      · refine (kw c hc j hj).trans (limited_congr (m := m) a.limit (fun c hc j hj => ?_) c hc j hj)
        simp only [hw c hc j hj, hd c hc j hj]

end Nntl.Sgd
