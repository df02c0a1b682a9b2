import Verif.Grad.OptLemmas
/-! C52: the norm constraint. -/
namespace Nntl.Grad
open Nntl.Kernel Nntl.Matrix Nntl.Threads
open scoped BigOperators

theorem rowNorm2_eq (W : Mtx ℝ) (cols r : Nat) : rowNorm2 W.data W.rows cols r = rowLen2 W cols r := by
  unfold rowNorm2 rowLen2
  rw [← List.sum_toFinset _ List.nodup_range]
  have : (List.range cols).toFinset = Finset.range cols := by ext x; simp
  rw [this]
  exact Finset.sum_congr rfl fun c _ => (sq _).symm

/-- One row after the check: every element is multiplied by the same factor. -/
theorem normRows_elem (m2 : ℝ) (W : Mtx ℝ) (hr : 0 < W.rows) (cn r c : Nat) (h1 : r < W.rows) (h2 : c < W.cols) :
    normRows m2 W.rows W.cols cn W.data (r + W.rows * c) = W.data (r + W.rows * c) * normCoef m2 (rowLen2 W cn r) := by
  unfold normRows scaleRows
  have hlt : r + W.rows * c < W.rows * W.cols := by
    calc r + W.rows * c < W.rows + W.rows * c := by omega
      _ = W.rows * (c + 1) := by ring
      _ ≤ W.rows * W.cols := Nat.mul_le_mul_left _ h2
  rw [if_pos hlt]
  have : (r + W.rows * c) % W.rows = r := by rw [Nat.add_mul_mod_self_left, Nat.mod_eq_of_lt h1]
  dsimp only
  rw [this, rowNorm2_eq]

theorem normCoef_nonneg (m2 x : ℝ) : 0 ≤ normCoef m2 x := by
  unfold normCoef; split
  · exact Real.sqrt_nonneg _
  · exact zero_le_one

theorem normCoef_bound (m2 x : ℝ) (hm : 0 ≤ m2) : normCoef m2 x ^ 2 * x = min m2 x := by
  unfold normCoef
  split
  · next h =>
    have hx : 0 < x := lt_of_le_of_lt hm h
    rw [Real.sq_sqrt (div_nonneg hm hx.le), div_mul_cancel₀ _ hx.ne', min_eq_left h.le]
  · next h => rw [one_pow, one_mul, min_eq_right (not_lt.1 h)]

/-- What a check of the rows must do to a matrix: `cols` columns count for the norm. -/
structure RowsBounded (bound : ℝ) (cols : Nat) (W W' : Mtx ℝ) : Prop where
  rows : W'.rows = W.rows
  columns : W'.cols = W.cols
  bounded : ∀ r, r < W.rows → rowLen2 W' cols r ≤ bound
  exact_ : ∀ r, r < W.rows → bound < rowLen2 W cols r → rowLen2 W' cols r = bound
  unchanged : ∀ r, r < W.rows → rowLen2 W cols r ≤ bound → ∀ k, k < W.cols → W'.data (r + W.rows * k) = W.data (r + W.rows * k)
  direction : ∀ r, r < W.rows → ∃ q : ℝ, 0 ≤ q ∧ q ≤ 1 ∧ (0 < bound → 0 < q) ∧ ∀ k, k < W.cols → W'.data (r + W.rows * k) = q * W.data (r + W.rows * k)

theorem normRows_bounded (m2 : ℝ) (hm : 0 ≤ m2) (W : Mtx ℝ) (hr : 0 < W.rows) (cn : Nat) (hcn : cn ≤ W.cols) :
    RowsBounded m2 cn W { W with data := normRows m2 W.rows W.cols cn W.data } := by
  have len : ∀ r, r < W.rows → rowLen2 { W with data := normRows m2 W.rows W.cols cn W.data } cn r = min m2 (rowLen2 W cn r) := by
    intro r h
    rw [← normCoef_bound m2 _ hm]
    conv_lhs => unfold rowLen2
    rw [show ∀ q : ℝ, q * rowLen2 W cn r = ∑ c ∈ Finset.range cn, q * (W.data (r + W.rows * c)) ^ 2 from fun q => Finset.mul_sum ..]
    apply Finset.sum_congr rfl
    intro c hc
    show normRows m2 W.rows W.cols cn W.data (r + W.rows * c) ^ 2 = _
    rw [normRows_elem m2 W hr cn r c h (by have := Finset.mem_range.1 hc; omega)]
    ring
  refine ⟨rfl, rfl, ?_, ?_, ?_, ?_⟩
  · intro r h; rw [len r h]; exact min_le_left _ _
  · intro r h h2; rw [len r h]; exact min_eq_left h2.le
  · intro r h h2 k hk
    show normRows m2 W.rows W.cols cn W.data (r + W.rows * k) = _
    rw [normRows_elem m2 W hr cn r k h hk]
    unfold normCoef
    rw [if_neg (not_lt.2 h2), mul_one]
  · intro r h
    refine ⟨normCoef m2 (rowLen2 W cn r), normCoef_nonneg _ _, ?_, ?_, ?_⟩
    · unfold normCoef
      split
      · next hh =>
        have hx : 0 < rowLen2 W cn r := lt_of_le_of_lt hm hh
        exact Real.sqrt_le_one.2 ((div_le_one hx).2 hh.le)
      · exact le_refl _
    · intro hb
      unfold normCoef
      split
      · next hh => exact Real.sqrt_pos.2 (div_pos hb (lt_trans hb hh))
      · exact one_pos
    · intro k hk
      show normRows m2 W.rows W.cols cn W.data (r + W.rows * k) = _
      rw [normRows_elem m2 W hr cn r k h hk, mul_comm]

/-- C52. `mCheck_normalize_rows`, in one thread or many, with or without the column of biases: afterwards no row is longer than the bound, longer rows have been
shortened exactly to it, the others are untouched, and every row (with its bias) keeps its direction. Nothing but the elements changes. -/
theorem check_normalize_rows {E : Env} (hE : E.Ok) (maxNorm2 : ℝ) (hm : 0 ≤ maxNorm2) (incl : Bool) (W : Mtx ℝ) (h : WeightsOk W) (o : Option (Mtx ℝ))
    (hrun : checkNormalizeRows E maxNorm2 incl W o) :
    ∃ W', o = some W' ∧ W' = { W with data := W'.data } ∧ RowsBounded maxNorm2 (if incl then W.cols else W.cols - 1) W W' := by
  rw [checkNormalizeRows_iff hE maxNorm2 incl W h] at hrun
  refine ⟨_, hrun, rfl, normRows_bounded maxNorm2 hm W h.rows _ (by split <;> omega)⟩

/-- C52. After every call of `apply_grad` that is not blocked, and after every look-ahead of Nesterov's momentum, the rows of the weights are within the
bound, whatever happened before. -/
theorem apply_grad_bounds_rows {E : Env} (hE : E.Ok) (c : Cfg) (hx : c.useMaxNorm = true) (hm : 0 ≤ c.maxNorm2) (g : Mtx ℝ) (draw : Nat → ℝ) (s t : St)
    (hs : WeightsOk s.W) (hr : Ready c s) (hg : WeightsOk g) (h1 : g.rows = s.W.rows) (h2 : g.cols = s.W.cols)
    (h : step E (.apply c false g draw) s (some t) ∨ (c.useMom = true ∧ c.nesterov = true ∧ step E (.pre c false draw) s (some t)))
    (r : Nat) (hrow : r < s.W.rows) : rowLen2 t.W (if c.normInclBias then s.W.cols else s.W.cols - 1) r ≤ c.maxNorm2 := by
  have key : ∀ u : St, WeightsOk u.W → u.W.rows = s.W.rows → u.W.cols = s.W.cols →
      rowLen2 (normF c u).W (if c.normInclBias then s.W.cols else s.W.cols - 1) r ≤ c.maxNorm2 := by
    intro u hu e1 e2
    unfold normF
    rw [if_neg (by simp [hx])]
    have := (normRows_bounded c.maxNorm2 hm u.W hu.rows (if c.normInclBias then u.W.cols else u.W.cols - 1) (by split <;> omega)).bounded r (by rw [e1]; exact hrow)
    rw [e2] at this
    rw [← e2] at this
    rw [← e2]
    exact this
  rcases h with h | ⟨m1, m2, h⟩
  · have e := Option.some.inj ((apply_iff hE c false draw hs hr hg h1 h2 _).1 h)
    rw [e, applyF_eq]
    have sm : Same (s.withG g) (updF c draw (midF c (s.withG g))) := (midF_same c (s.withG g)).trans (updF_same c draw _)
    have ok := sm.shape ⟨hs, hg, h1, h2⟩
    exact key _ ok.w sm.rows sm.cols
  · have e := Option.some.inj ((preTrainingFprop_iff hE c false draw hs hr _).1 h)
    rw [e]
    unfold preF
    rw [if_pos (by simp [m1, m2])]
    refine key _ ?_ rfl rfl
    exact ⟨hs.1, hs.2, hs.3, hs.4, hs.5⟩

/-- C52. A whole session with a constant bound: from the first step on the weights are within the bound each time a gradient is calculated. -/
theorem session_rows_bounded {T : Nat} {E E' : Nat → Env} {c : Nat → Cfg} {g : Nat → Mtx ℝ} {draw draw' : Nat → Nat → ℝ} {s p : Nat → St}
    (h : Session T E E' c g draw draw' s p) (bound : ℝ) (hb : 0 ≤ bound) (incl : Bool)
    (hc : ∀ t, t < T → (c t).useMaxNorm = true ∧ (c t).maxNorm2 = bound ∧ (c t).normInclBias = incl) (t : Nat) (h0 : 0 < t) (ht : t ≤ T) (r : Nat)
    (hr : r < (s 0).W.rows) :
    rowLen2 (s t).W (if incl then (s 0).W.cols else (s 0).W.cols - 1) r ≤ bound ∧
    (t < T → rowLen2 (p t).W (if incl then (s 0).W.cols else (s 0).W.cols - 1) r ≤ bound) := by
  obtain ⟨W, hW, hi⟩ := h.init
  have hw0 : WeightsOk (s 0).W := by rw [hi.1]; exact hW
  have hst : rowLen2 (s t).W (if incl then (s 0).W.cols else (s 0).W.cols - 1) r ≤ bound := by
    obtain ⟨t', rfl⟩ : ∃ t', t = t' + 1 := ⟨t - 1, by omega⟩
    obtain ⟨c1, c2, c3⟩ := hc t' (by omega)
    obtain ⟨kp, _, _⟩ := (h.states (t' + 1) ht).2 t' (by omega)
    obtain ⟨g1, g2, g3⟩ := h.grad t' (by omega)
    have := apply_grad_bounds_rows (h.env t' (by omega)).2 (c t') c1 (by rw [c2]; exact hb) (g t') (draw' t') (p t') (s (t' + 1)) (kp.wshape hw0)
      (kp.ready (ready_init (h.kind t' (by omega)) hi)) g1 (by rw [kp.rows, g2]) (by rw [kp.cols, g3]) (Or.inl (h.apply t' (by omega))) r (by rw [kp.rows]; exact hr)
    rw [c2, c3, kp.cols] at this
    exact this
  refine ⟨hst, fun htT => ?_⟩
  obtain ⟨c1, c2, c3⟩ := hc t htT
  obtain ⟨k, _⟩ := h.states t ht
  obtain ⟨g1, g2, g3⟩ := h.grad t htT
  by_cases hmn : (c t).useMom = true ∧ (c t).nesterov = true
  · have := apply_grad_bounds_rows (h.env t htT).1 (c t) c1 (by rw [c2]; exact hb) (g t) (draw t) (s t) (p t) (k.wshape hw0)
      (k.ready (ready_init (h.kind t htT) hi)) g1 (by rw [k.rows, g2]) (by rw [k.cols, g3]) (Or.inr ⟨hmn.1, hmn.2, h.pre t htT⟩) r (by rw [k.rows]; exact hr)
    rw [c2, c3, k.cols] at this
    exact this
  · have e := (h.step_eq t htT).1
    have : preF (c t) false (draw t) (s t) = s t := by
      unfold preF
      rw [if_neg (by simp only [Bool.not_false, Bool.true_and, Bool.and_eq_true]; exact hmn)]
    rw [e, this]; exact hst

/-- The hypotheses can be met: rows (0, 2 | 4) and (1, 3 | 5) with the bound 1 on the squared length without the bias. The check can be executed, and
the second row has to be shortened. -/
example : ∃ o, checkNormalizeRows demoEnv 1 false demoW o ∧ WeightsOk demoW ∧ 1 < rowLen2 demoW 2 1 := by
  refine ⟨_, (checkNormalizeRows_iff demoEnv_ok 1 false demoW demoW_ok _).2 rfl, demoW_ok, ?_⟩
  simp only [rowLen2, Finset.sum_range_succ, Finset.sum_range_zero, demoW]
  norm_num

example (T : Nat) : ∃ s p, Session T (fun _ => demoEnv) (fun _ => demoEnv) (fun _ => { demoCfg .rmsHinton true true with useMaxNorm := true })
    (fun t => { demoW with data := fun i => t + i }) (fun _ _ => 0) (fun _ _ => 0) s p := by
  obtain ⟨s, p, _, h⟩ := demo_session T (fun _ => { demoCfg .rmsHinton true true with useMaxNorm := true }) (fun _ _ => ⟨rfl, rfl, rfl, rfl⟩) (fun _ _ => 0)
    (fun _ _ => 0) (fun t i => t + i)
  exact ⟨s, p, h⟩

end Nntl.Grad
