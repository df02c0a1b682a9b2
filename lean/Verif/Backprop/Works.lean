import Verif.Pass.DetSpec
import Verif.Grad.Func
import Verif.Grad.StepLemmas
/-! The gradient works of `nntl/grad_works/grad_works.h` as modelled in `Grad` (C48–C52), as the optimiser of a layer in a network. -/
namespace Nntl.Backprop

open Nntl.Pass Nntl.Grad Nntl.Matrix

/-- Settings at a call of `pre_training_fprop` or `apply_grad`, whether learning is blocked, and what the random generator delivers in it. -/
structure Call where
  cfg : Cfg
  blocked : Bool
  draw : ℕ → ℝ

/-- The settings a layer starts with, and those at each call of the two functions. -/
structure Opt where
  kind : Cfg
  pre : ℕ → Call
  app : ℕ → Call

structure Opt.Ok (o : Opt) : Prop where
  pre : ∀ t, SameKind o.kind (o.pre t).cfg
  app : ∀ t, SameKind o.kind (o.app t).cfg

/-- How often the functions were called, and the state. -/
structure GwS where
  p : ℕ
  t : ℕ
  s : St

/-- A matrix of weights of `m` neurons, or of their gradient. -/
noncomputable def mtxOf (m k : ℕ) (w : Mat ℝ) : Mtx ℝ :=
  { data := memOf m w, cap := m * k, rows := m, cols := k, emul := false, ext := false, holey := false, bir := false, maxSize := m * k }

/-- `pre_training_fprop` 339–390 and `apply_grad` 393–580 of `nntl/grad_works/grad_works.h`, by the functions they are proved to be
(`Grad.preTrainingFprop_iff`, `Grad.applyGrad_iff`; see `gradWorks_pre`, `gradWorks_apply`). The weights are those of the layer. -/
noncomputable def gradWorks (o : Opt) (m k : ℕ) : GradWorks ℝ where
  G := GwS
  pre := fun g w =>
    let s := preF (o.pre g.p).cfg (o.pre g.p).blocked (o.pre g.p).draw { g.s with W := mtxOf m k w }
    (⟨g.p + 1, g.t, s⟩, matOf m s.W.data)
  apply := fun g w d =>
    let s := applyF (o.app g.t).cfg (o.app g.t).blocked (o.app g.t).draw { g.s with W := mtxOf m k w, G := mtxOf m k d }
    (⟨g.p, g.t + 1, s⟩, matOf m s.W.data, matOf m s.G.data)

/-- The powers an optimiser uses. -/
def needs1 : GradType → Bool
  | .adam | .adamax | .nadam | .radam => true
  | _ => false
def needs2 : GradType → Bool
  | .adam | .nadam | .radam => true
  | _ => false

/-- States that agree in what the settings `K` let the optimiser look at. `f`: nothing was written yet to the matrices of the optimiser and to its
powers; `fp`: nothing was written to the matrix of the previous gradient. -/
structure Tw (K : Cfg) (n : ℕ) (f fp : Bool) (s t : St) : Prop where
  first : s.firstRun = t.firstRun
  gamma : s.gamma = t.gamma
  v : K.useMom = true → ∀ i < n, s.V i = t.V i
  a : f = false → K.type.needsA = true → ∀ i < n, s.A i = t.A i
  b : f = false → K.type.needsB = true → ∀ i < n, s.B i = t.B i
  p1 : f = false → needs1 K.type = true → s.b1t = t.b1t
  p2 : f = false → needs2 K.type = true → s.b2t = t.b2t
  gain : K.useILR = true → ∀ i < n, s.gain i = t.gain i
  prev : fp = false → K.useILR = true → K.ilrUseMom = false → ∀ i < n, s.prev i = t.prev i

/-- Twin states of gradient works: the same number of calls, and before the first update only what `gw_init` sets. -/
def GwTwin (K : Cfg) (n : ℕ) (g h : GwS) : Prop := g.p = h.p ∧ g.t = h.t ∧ Tw K n g.s.firstRun g.s.firstRun g.s h.s

/-- The same in weights and gradients too. -/
structure TwM (K : Cfg) (m k : ℕ) (f fp : Bool) (s t : St) : Prop where
  tw : Tw K (m * k) f fp s t
  sizes : s.W.rows = m ∧ s.W.cols = k ∧ t.W.rows = m ∧ t.W.cols = k
  w : ∀ i < m * k, s.W.data i = t.W.data i
  g : ∀ i < m * k, s.G.data i = t.G.data i

theorem TwM.ns {K : Cfg} {m k : ℕ} {f fp : Bool} {s t : St} (h : TwM K m k f fp s t) : s.n = m * k := by
  unfold St.n; rw [h.sizes.1, h.sizes.2.1]
theorem TwM.nt {K : Cfg} {m k : ℕ} {f fp : Bool} {s t : St} (h : TwM K m k f fp s t) : t.n = m * k := by
  unfold St.n; rw [h.sizes.2.2.1, h.sizes.2.2.2]

theorem each_agree {n l : ℕ} {f g : ℕ → ℝ → ℝ} {a b : ℕ → ℝ} (h : ∀ i < n, a i = b i) (hf : ∀ i < n, f i (a i) = g i (b i)) :
    ∀ i < n, each l f a i = each l g b i := by
  intro i hi
  unfold each
  split
  · exact hf i hi
  · exact h i hi

section
variable {K : Cfg} {m k : ℕ} {f fp : Bool} {s t : St}

theorem addF_tw (h : TwM K m k f fp s t) (kk : ℝ → ℝ) (scale : ℝ) (ign : Bool) : TwM K m k f fp (addF kk scale ign s) (addF kk scale ign t) := by
  unfold addF
  split
  · exact h
  · refine ⟨⟨h.tw.first, h.tw.gamma, h.tw.v, h.tw.a, h.tw.b, h.tw.p1, h.tw.p2, h.tw.gain, h.tw.prev⟩, h.sizes, h.w, ?_⟩
    have e : t.added ign = s.added ign := by
      unfold St.added; rw [h.sizes.1, h.sizes.2.1, h.sizes.2.2.1, h.sizes.2.2.2]
    simp only [St.setG, e]
    exact each_agree h.g fun i hi => by rw [h.w i hi, h.g i hi]

theorem lossF_tw (h : TwM K m k f fp s t) (c : Cfg) : TwM K m k f fp (lossF c s) (lossF c t) := addF_tw (addF_tw h _ _ _) _ _ _

theorem optF_tw {c : Cfg} (hc : SameKind K c) (h : TwM K m k f fp s t) : TwM K m k false fp (optF c f s) (optF c f t) := by
  have hs := h.ns
  have ht := h.nt
  obtain ⟨⟨h1, h2, h3, h4, h5, h6, h7, h8, h9⟩, hz, hw, hg⟩ := h
  have hk := hc.type
  rw [← hk] at h4 h5 h6 h7
  have hn : ∀ s : St, (firstF c f s).n = s.n := fun s => (firstF_same c f s).n
  -- What the cells become.
  have key : (∀ i < m * k, (optF c f s).G.data i = (optF c f t).G.data i ∧
      (c.type.needsA = true → (optF c f s).A i = (optF c f t).A i) ∧ (c.type.needsB = true → (optF c f s).B i = (optF c f t).B i)) ∧
      (needs1 c.type = true → (optF c f s).b1t = (optF c f t).b1t) ∧ (needs2 c.type = true → (optF c f s).b2t = (optF c f t).b2t) ∧
      (optF c f s).gamma = (optF c f t).gamma := by
    have hin : ∀ i < m * k, i < s.n ∧ i < t.n := fun i hi => by rw [hs, ht]; exact ⟨hi, hi⟩
    unfold optF
    simp only [hn]
    unfold optCell firstF powF St.cell
    cases hty : c.type <;> rw [hty] at h4 h5 h6 h7 <;> cases f <;>
      simp only [GradType.needsA, GradType.needsB, needs1, needs2, forall_true_left, Bool.false_eq_true, false_imp_iff, if_true, if_false, true_and,
        and_true, St.setG, Bool.true_eq_false] at h4 h5 h6 h7 ⊢ <;>
      (try refine ⟨fun i hi => ?_, ?_⟩) <;> (try intro i hi) <;>
      (try simp (disch := assumption) only [each, fillWith, (hin i hi).1, (hin i hi).2, if_true, hg i hi, h4, h5, h6, h7, h2, and_self])
    all_goals first | exact h2 | simp only [h6, h7, h2, and_self]
  have keep : ∀ s : St, (optF c f s).V = s.V ∧ (optF c f s).gain = s.gain ∧ (optF c f s).prev = s.prev ∧ (optF c f s).W = s.W ∧
      (optF c f s).firstRun = s.firstRun := by
    intro s
    show (firstF c f s).V = _ ∧ (firstF c f s).gain = _ ∧ (firstF c f s).prev = _ ∧ (firstF c f s).W = _ ∧ (firstF c f s).firstRun = _
    unfold firstF
    split <;> (try split) <;> exact ⟨rfl, rfl, rfl, rfl, rfl⟩
  obtain ⟨s1, s2, s3, s4, s5⟩ := keep s
  obtain ⟨t1, t2, t3, t4, t5⟩ := keep t
  obtain ⟨k1, k2, k3, k4⟩ := key
  rw [hk] at k1 k2 k3
  exact ⟨⟨by rw [s5, t5, h1], k4, by rw [s1, t1]; exact h3, fun _ ha i hi => (k1 i hi).2.1 ha, fun _ hb i hi => (k1 i hi).2.2 hb, fun _ => k2, fun _ => k3,
    by rw [s2, t2]; exact h8, by rw [s3, t3]; exact h9⟩, by rw [s4, t4]; exact hz, by rw [s4, t4]; exact hw, fun i hi => (k1 i hi).1⟩

theorem copyTo_agree {n l : ℕ} {a b d e : ℕ → ℝ} (hl : n ≤ l) (h : ∀ i < n, a i = b i) : ∀ i < n, copyTo l a d i = copyTo l b e i := by
  intro i hi
  unfold copyTo
  rw [if_pos (by omega), if_pos (by omega), h i hi]

theorem sameKind_ilr {c : Cfg} (hc : SameKind K c) : c.ilrUseMom = K.ilrUseMom := by unfold Cfg.ilrUseMom; rw [hc.useMom, hc.ilrToMom]

theorem ilrF_tw {c : Cfg} (hc : SameKind K c) (h : TwM K m k f fp s t) : TwM K m k f false (ilrF c fp s) (ilrF c fp t) := by
  have hs := h.ns
  have ht := h.nt
  have hu := hc.useILR
  have hm := sameKind_ilr hc
  obtain ⟨⟨h1, h2, h3, h4, h5, h6, h7, h8, h9⟩, hz, hw, hg⟩ := h
  unfold ilrF
  by_cases hi : c.useILR = false
  · rw [if_pos hi, if_pos hi]
    exact ⟨⟨h1, h2, h3, h4, h5, h6, h7, h8, fun _ h => by rw [← hu, hi] at h; cases h⟩, hz, hw, hg⟩
  · rw [if_neg hi, if_neg hi]
    have hi' : K.useILR = true := by rw [← hu]; simpa using hi
    rw [hs, ht]
    cases hmm : c.ilrUseMom with
    | true =>
      have hv := h3 (by rw [← hc.useMom]; unfold Cfg.ilrUseMom at hmm; simp at hmm; exact hmm.1)
      have no : ∀ {P : Prop}, K.ilrUseMom = false → P := fun h => by rw [← hm, hmm] at h; cases h
      cases fp with
      | true => exact ⟨⟨h1, h2, h3, h4, h5, h6, h7, h8, fun _ _ => no⟩, hz, hw, hg⟩
      | false =>
        simp only [if_true, Bool.false_eq_true, if_false]
        have eg : ∀ i < m * k, _ = _ := each_agree (l := m * k)
          (f := fun i g => g * gainFactor c.decr c.incr c.capLow c.capHigh (s.V i * s.G.data i) g)
          (g := fun i g => g * gainFactor c.decr c.incr c.capLow c.capHigh (t.V i * t.G.data i) g) (h8 hi')
          fun i hi => by rw [hv i hi, hg i hi, h8 hi' i hi]
        refine ⟨⟨h1, h2, h3, h4, h5, h6, h7, fun _ => eg, fun _ _ => no⟩, hz, hw, ?_⟩
        simp only [St.setG]
        exact each_agree hg fun i hi => by rw [hg i hi, eg i hi]
    | false =>
      cases fp with
      | true => exact ⟨⟨h1, h2, h3, h4, h5, h6, h7, h8, fun _ _ _ => copyTo_agree (le_refl _) hg⟩, hz, hw, hg⟩
      | false =>
        simp only [Bool.false_eq_true, if_false]
        have hp := h9 rfl hi' (by rw [← hm, hmm])
        have eg : ∀ i < m * k, _ = _ := each_agree (l := m * k)
          (f := fun i g => g * gainFactor c.decr c.incr c.capLow c.capHigh (s.prev i * s.G.data i) g)
          (g := fun i g => g * gainFactor c.decr c.incr c.capLow c.capHigh (t.prev i * t.G.data i) g) (h8 hi')
          fun i hi => by rw [hp i hi, hg i hi, h8 hi' i hi]
        have ed : ∀ i < m * k, _ = _ := each_agree (l := m * k)
          (f := fun i d => d * each (m * k) (fun i g => g * gainFactor c.decr c.incr c.capLow c.capHigh (s.prev i * s.G.data i) g) s.gain i)
          (g := fun i d => d * each (m * k) (fun i g => g * gainFactor c.decr c.incr c.capLow c.capHigh (t.prev i * t.G.data i) g) t.gain i) hg
          fun i hi => by rw [hg i hi, eg i hi]
        exact ⟨⟨h1, h2, h3, h4, h5, h6, h7, fun _ => eg, fun _ _ _ => copyTo_agree (le_refl _) ed⟩, hz, hw, ed⟩

theorem maskF_agree {c : Cfg} {draw : ℕ → ℝ} {n l : ℕ} {a b : ℕ → ℝ} (h : ∀ i < n, a i = b i) : ∀ i < n, maskF c draw l a i = maskF c draw l b i := by
  unfold maskF
  split
  · exact each_agree h fun i hi => by rw [h i hi]
  · exact h

theorem subF_tw (h : TwM K m k f fp s t) (c : Cfg) (draw : ℕ → ℝ) : TwM K m k f fp (subF c draw s) (subF c draw t) := by
  have hs := h.ns
  have ht := h.nt
  obtain ⟨⟨h1, h2, h3, h4, h5, h6, h7, h8, h9⟩, hz, hw, hg⟩ := h
  have e := maskF_agree (c := c) (draw := draw) (l := m * k) hg
  unfold subF
  rw [hs, ht]
  refine ⟨⟨h1, h2, h3, h4, h5, h6, h7, h8, h9⟩, hz, ?_, e⟩
  simp only [St.setW, St.setG]
  exact each_agree hw fun i hi => by rw [hw i hi, e i hi]

theorem updF_tw {c : Cfg} (hc : SameKind K c) (h : TwM K m k f fp s t) (draw : ℕ → ℝ) : TwM K m k f fp (updF c draw s) (updF c draw t) := by
  have hs := h.ns
  have ht := h.nt
  unfold updF
  by_cases hm : c.useMom = false
  · rw [if_pos hm, if_pos hm]
    exact subF_tw h c draw
  · rw [if_neg hm, if_neg hm]
    have hv := h.tw.v (by rw [← hc.useMom]; simpa using hm)
    rw [hs, ht]
    by_cases hn : c.nesterov = true
    · rw [if_pos hn, if_pos hn]
      obtain ⟨⟨h1, h2, h3, h4, h5, h6, h7, h8, h9⟩, hz, hw, hg⟩ := h
      have ev : ∀ i < m * k, _ = _ := each_agree (l := m * k) (f := fun i v => v + s.G.data i) (g := fun i v => v + t.G.data i) hv
        fun i hi => by rw [hv i hi, hg i hi]
      refine subF_tw ?_ c draw
      exact ⟨⟨h1, h2, fun _ => ev, h4, h5, h6, h7, h8, h9⟩, hz, hw, hg⟩
    · rw [if_neg hn, if_neg hn]
      obtain ⟨⟨h1, h2, h3, h4, h5, h6, h7, h8, h9⟩, hz, hw, hg⟩ := h
      have ev : ∀ i < m * k, _ = _ := each_agree (l := m * k) (f := fun i v => c.mom * v + s.G.data i) (g := fun i v => c.mom * v + t.G.data i) hv
        fun i hi => by rw [hv i hi, hg i hi]
      dsimp only
      split
      · refine subF_tw ?_ c draw
        exact ⟨⟨h1, h2, fun _ => ev, h4, h5, h6, h7, h8, h9⟩, hz, hw, copyTo_agree (le_refl _) ev⟩
      · refine ⟨⟨h1, h2, fun _ => ev, h4, h5, h6, h7, h8, h9⟩, hz, ?_, hg⟩
        simp only [St.setW]
        exact each_agree hw fun i hi => by rw [hw i hi, ev i hi]

theorem normRows_agree {mx : ℝ} {cn : ℕ} {a b : ℕ → ℝ} (hcn : cn ≤ k) (h : ∀ i < m * k, a i = b i) :
    ∀ i < m * k, normRows mx m k cn a i = normRows mx m k cn b i := by
  intro i hi
  have hm : 0 < m := Nat.pos_of_ne_zero fun e => by rw [e] at hi; omega
  unfold normRows scaleRows
  rw [if_pos hi, if_pos hi, h i hi]
  have : rowNorm2 a m cn (i % m) = rowNorm2 b m cn (i % m) := by
    unfold rowNorm2
    congr 1
    refine List.map_congr_left fun c hc => ?_
    have hc := List.mem_range.1 hc
    have h1 := Nat.mod_lt i hm
    have h2 : m * (c + 1) ≤ m * k := Nat.mul_le_mul_left m (by omega)
    rw [h _ (by rw [Nat.mul_succ] at h2; omega)]
  simp only [this]

theorem normF_tw (h : TwM K m k f fp s t) (c : Cfg) : TwM K m k f fp (normF c s) (normF c t) := by
  unfold normF
  split
  · exact h
  · obtain ⟨⟨h1, h2, h3, h4, h5, h6, h7, h8, h9⟩, ⟨z1, z2, z3, z4⟩, hw, hg⟩ := h
    refine ⟨⟨h1, h2, h3, h4, h5, h6, h7, h8, h9⟩, ⟨z1, z2, z3, z4⟩, ?_, hg⟩
    simp only [St.setW, z1, z2, z3, z4]
    exact normRows_agree (by split <;> omega) hw

theorem preF_tw {c : Cfg} (hc : SameKind K c) (h : TwM K m k f fp s t) (b : Bool) (draw : ℕ → ℝ) :
    TwM K m k f fp (preF c b draw s) (preF c b draw t) := by
  have hs := h.ns
  have ht := h.nt
  unfold preF
  split
  · rename_i hb
    have hv := h.tw.v (by rw [← hc.useMom]; simp at hb; exact hb.2.1)
    rw [hs, ht]
    obtain ⟨⟨h1, h2, h3, h4, h5, h6, h7, h8, h9⟩, hz, hw, hg⟩ := h
    have ev : ∀ i < m * k, _ = _ := each_agree (l := m * k) (f := fun _ v => v * c.mom) (g := fun _ v => v * c.mom) hv fun i hi => by rw [hv i hi]
    refine normF_tw ?_ c
    refine ⟨⟨h1, h2, fun _ => ev, h4, h5, h6, h7, h8, h9⟩, hz, ?_, hg⟩
    simp only [St.setW]
    split
    · have ed : ∀ i < m * k, _ = _ := each_agree (l := m * k) (f := fun i v => v * (if draw i < c.lrDrop then 1 else 0))
        (g := fun i v => v * (if draw i < c.lrDrop then 1 else 0)) ev fun i hi => by rw [ev i hi]
      exact each_agree hw fun i hi => by rw [hw i hi, ed i hi]
    · exact each_agree hw fun i hi => by rw [hw i hi, hv i hi]
  · exact h

theorem applyF_tw {c : Cfg} (hc : SameKind K c) (h : TwM K m k s.firstRun s.firstRun s t) (b : Bool) (draw : ℕ → ℝ) :
    TwM K m k (applyF c b draw s).firstRun (applyF c b draw s).firstRun (applyF c b draw s) (applyF c b draw t) := by
  have hl := lossF_tw h c
  have f1 : (lossF c s).firstRun = s.firstRun := by unfold lossF addF; split <;> split <;> rfl
  have f2 : (lossF c t).firstRun = s.firstRun := by rw [← f1]; exact hl.tw.first.symm
  unfold applyF
  cases b with
  | true =>
    simp only [if_true]
    rw [f1]; exact hl
  | false =>
    simp only [Bool.false_eq_true, if_false]
    have hr : TwM K m k s.firstRun s.firstRun (lossF c s).ran (lossF c t).ran :=
      ⟨⟨rfl, hl.tw.gamma, hl.tw.v, hl.tw.a, hl.tw.b, hl.tw.p1, hl.tw.p2, hl.tw.gain, hl.tw.prev⟩, hl.sizes, hl.w, hl.g⟩
    rw [f1, f2]
    have e := normF_tw (updF_tw hc (ilrF_tw hc (optF_tw hc hr)) draw) c
    have ff : (normF c (updF c draw (ilrF c s.firstRun (optF c s.firstRun (lossF c s).ran)))).firstRun = false := by
      have o1 : (optF c s.firstRun (lossF c s).ran).firstRun = false := by
        show (firstF c s.firstRun (lossF c s).ran).firstRun = false
        unfold firstF
        split <;> (try split) <;> rfl
      generalize optF c s.firstRun (lossF c s).ran = x at o1
      have o2 : (ilrF c s.firstRun x).firstRun = false := by
        unfold ilrF; dsimp only; split <;> (try split) <;> (try split) <;> exact o1
      generalize ilrF c s.firstRun x = x at o2
      have o3 : (updF c draw x).firstRun = false := by
        unfold updF subF; dsimp only; split <;> (try split) <;> (try split) <;> exact o2
      generalize updF c draw x = x at o3
      unfold normF; split <;> exact o3
    rw [ff]; exact e
end

theorem matOf_agree {m k : ℕ} {a b : ℕ → ℝ} (h : ∀ i < m * k, a i = b i) : Agree m k (matOf m a) (matOf m b) := by
  intro r hr c hc
  have h2 : m * (c + 1) ≤ m * k := Nat.mul_le_mul_left m (by omega)
  exact h _ (by rw [Nat.mul_succ] at h2; omega)

theorem memOf_agree {m k : ℕ} {w v : Mat ℝ} (h : Agree m k w v) : ∀ i < m * k, memOf m w i = memOf m v i := by
  intro i hi
  have hm : 0 < m := Nat.pos_of_ne_zero fun e => by rw [e] at hi; omega
  exact h _ (Nat.mod_lt i hm) _ ((Nat.div_lt_iff_lt_mul hm).2 (by rw [Nat.mul_comm]; exact hi))

theorem preF_withG (c : Cfg) (b : Bool) (draw : ℕ → ℝ) (s : St) (W g : Mtx ℝ) :
    preF c b draw { s with W := W, G := g } = { preF c b draw { s with W := W } with G := g } := by
  unfold preF normF
  split <;> (try split) <;> rfl

/-- Gradient works looks only at the elements of the matrices it is given and at what it has set before. -/
theorem gradWorks_local {o : Opt} (ho : o.Ok) (m k : ℕ) : (gradWorks o m k).Local m k (GwTwin o.kind (m * k)) where
  refl := fun g => ⟨rfl, rfl, ⟨rfl, rfl, fun _ _ _ => rfl, fun _ _ _ _ => rfl, fun _ _ _ _ => rfl, fun _ _ => rfl, fun _ _ => rfl, fun _ _ _ => rfl,
    fun _ _ _ _ _ => rfl⟩⟩
  symm := by
    rintro g h ⟨hp, ht, h1, h2, h3, h4, h5, h6, h7, h8, h9⟩
    rw [h1] at h4 h5 h6 h7 h9
    exact ⟨hp.symm, ht.symm, ⟨h1.symm, h2.symm, fun a i hi => (h3 a i hi).symm, fun a b i hi => (h4 a b i hi).symm, fun a b i hi => (h5 a b i hi).symm,
      fun a b => (h6 a b).symm, fun a b => (h7 a b).symm, fun a i hi => (h8 a i hi).symm, fun a b c i hi => (h9 a b c i hi).symm⟩⟩
  trans := by
    rintro g h j ⟨hp, ht, h1, h2, h3, h4, h5, h6, h7, h8, h9⟩ ⟨kp, kt, k1, k2, k3, k4, k5, k6, k7, k8, k9⟩
    rw [← h1] at k4 k5 k6 k7 k9
    exact ⟨hp.trans kp, ht.trans kt, ⟨h1.trans k1, h2.trans k2, fun a i hi => (h3 a i hi).trans (k3 a i hi),
      fun a b i hi => (h4 a b i hi).trans (k4 a b i hi), fun a b i hi => (h5 a b i hi).trans (k5 a b i hi), fun a b => (h6 a b).trans (k6 a b),
      fun a b => (h7 a b).trans (k7 a b), fun a i hi => (h8 a i hi).trans (k8 a i hi), fun a b c i hi => (h9 a b c i hi).trans (k9 a b c i hi)⟩⟩
  pre := by
    rintro g h w v ⟨hp, ht, q⟩ hw
    have e := preF_tw (s := { g.s with W := mtxOf m k w, G := mtxOf m k w }) (t := { h.s with W := mtxOf m k v, G := mtxOf m k v }) (ho.pre g.p)
      ⟨⟨q.first, q.gamma, q.v, q.a, q.b, q.p1, q.p2, q.gain, q.prev⟩, ⟨rfl, rfl, rfl, rfl⟩, memOf_agree hw, memOf_agree hw⟩ (o.pre g.p).blocked
      (o.pre g.p).draw
    rw [preF_withG _ _ _ g.s, preF_withG _ _ _ h.s] at e
    simp only [gradWorks]
    rw [← hp]
    have f1 : (preF (o.pre g.p).cfg (o.pre g.p).blocked (o.pre g.p).draw { g.s with W := mtxOf m k w }).firstRun = g.s.firstRun := by
      unfold preF normF
      split <;> (try split) <;> rfl
    refine ⟨⟨rfl, ht, ?_⟩, matOf_agree e.w⟩
    rw [f1]
    exact ⟨e.tw.first, e.tw.gamma, e.tw.v, e.tw.a, e.tw.b, e.tw.p1, e.tw.p2, e.tw.gain, e.tw.prev⟩
  apply := by
    rintro g h w v d e ⟨hp, ht, q⟩ hw hd
    have e := applyF_tw (s := { g.s with W := mtxOf m k w, G := mtxOf m k d }) (t := { h.s with W := mtxOf m k v, G := mtxOf m k e }) (ho.app g.t)
      ⟨⟨q.first, q.gamma, q.v, q.a, q.b, q.p1, q.p2, q.gain, q.prev⟩, ⟨rfl, rfl, rfl, rfl⟩, memOf_agree hw, memOf_agree hd⟩ (o.app g.t).blocked
      (o.app g.t).draw
    simp only [gradWorks]
    rw [← ht]
    exact ⟨⟨hp, rfl, e.tw⟩, matOf_agree e.w⟩

end Nntl.Backprop
