import Verif.Grad.SessionLemmas
/-! One step, element by element. -/
namespace Nntl.Grad
open Nntl.Kernel Nntl.Matrix Nntl.Threads

/-! ### What each stage leaves alone -/

theorem addF_eq (k : ℝ → ℝ) (scale : ℝ) (ign : Bool) (s : St) : addF k scale ign s = s.setG (addF k scale ign s).G.data := by
  unfold addF; split <;> rfl

theorem addF_at (k : ℝ → ℝ) (scale : ℝ) (ign : Bool) (s : St) (i : Nat) (hi : i < s.n) : (addF k scale ign s).G.data i =
    s.G.data i + (if ign = true ∧ s.W.rows * (s.W.cols - 1) ≤ i then 0 else scale * k (s.W.data i)) := by
  unfold addF
  by_cases h0 : scale = 0
  · rw [if_pos h0, h0]; simp
  · rw [if_neg h0]
    simp only [St.setG, each, St.added]
    cases ign with
    | true =>
      simp only [if_true, true_and]
      by_cases h : i < s.W.rows * (s.W.cols - 1)
      · rw [if_pos h, if_neg (by omega)]
      · rw [if_neg h, if_pos (by omega), add_zero]
    | false =>
      simp only [Bool.false_eq_true, if_false, false_and]
      rw [if_pos (show i < s.W.rows * s.W.cols from hi)]

theorem lossF_eq (c : Cfg) (s : St) : lossF c s = s.setG (lossF c s).G.data := by
  have h1 := addF_eq sgn c.l1 c.l1IgnBias s
  have h2 := addF_eq id c.l2 c.l2IgnBias (addF sgn c.l1 c.l1IgnBias s)
  show addF id c.l2 c.l2IgnBias (addF sgn c.l1 c.l1IgnBias s) = _
  have e : (lossF c s).G.data = (addF id c.l2 c.l2IgnBias (addF sgn c.l1 c.l1IgnBias s)).G.data := rfl
  rw [h2, e]
  generalize (addF id c.l2 c.l2IgnBias (addF sgn c.l1 c.l1IgnBias s)).G.data = d
  rw [h1]
  rfl

theorem lossF_at (c : Cfg) (s : St) (i : Nat) (hi : i < s.n) : (lossF c s).G.data i = penalised c s.W s.G i := by
  have h1 := addF_eq sgn c.l1 c.l1IgnBias s
  have hw : (addF sgn c.l1 c.l1IgnBias s).W = s.W := by rw [h1]; rfl
  unfold lossF penalised
  rw [addF_at _ _ _ _ _ (by unfold St.n at *; rw [hw]; exact hi), addF_at _ _ _ _ _ hi, hw]
  rfl

/-- What the optimiser and the gains make of the gradient. -/
noncomputable def dirF (c : Cfg) (s : St) : Nat → ℝ := (ilrF c s.firstRun (optF c s.firstRun (lossF c s).ran)).G.data

theorem optF_keeps (c : Cfg) (f : Bool) (s : St) : (optF c f s).W = s.W ∧ (optF c f s).V = s.V ∧ (optF c f s).gain = s.gain ∧ (optF c f s).prev = s.prev ∧
    (optF c f s).firstRun = s.firstRun := by
  unfold optF firstF
  dsimp only
  split <;> try split
  all_goals exact ⟨rfl, rfl, rfl, rfl, rfl⟩

theorem ilrF_keeps (c : Cfg) (f : Bool) (s : St) : (ilrF c f s).W = s.W ∧ (ilrF c f s).V = s.V ∧ (ilrF c f s).A = s.A ∧ (ilrF c f s).B = s.B ∧
    (ilrF c f s).b1t = s.b1t ∧ (ilrF c f s).b2t = s.b2t ∧ (ilrF c f s).gamma = s.gamma ∧ (ilrF c f s).firstRun = s.firstRun := by
  unfold ilrF
  split
  · exact ⟨rfl, rfl, rfl, rfl, rfl, rfl, rfl, rfl⟩
  · split
    · split <;> exact ⟨rfl, rfl, rfl, rfl, rfl, rfl, rfl, rfl⟩
    · dsimp only; split <;> exact ⟨rfl, rfl, rfl, rfl, rfl, rfl, rfl, rfl⟩

theorem updF_keeps (c : Cfg) (draw : Nat → ℝ) (s : St) : (updF c draw s).A = s.A ∧ (updF c draw s).B = s.B ∧ (updF c draw s).gain = s.gain ∧
    (updF c draw s).prev = s.prev ∧ (updF c draw s).b1t = s.b1t ∧ (updF c draw s).b2t = s.b2t ∧ (updF c draw s).gamma = s.gamma ∧
    (updF c draw s).firstRun = s.firstRun := by
  unfold updF subF
  split
  · exact ⟨rfl, rfl, rfl, rfl, rfl, rfl, rfl, rfl⟩
  · split
    · exact ⟨rfl, rfl, rfl, rfl, rfl, rfl, rfl, rfl⟩
    · dsimp only; split <;> exact ⟨rfl, rfl, rfl, rfl, rfl, rfl, rfl, rfl⟩

theorem normF_eq (c : Cfg) (s : St) : normF c s = s.setW (normF c s).W.data := by
  unfold normF; split <;> rfl

theorem normF_off (c : Cfg) (h : c.useMaxNorm = false) (s : St) : normF c s = s := if_pos h

/-- The state after the optimiser and the gains. -/
noncomputable def midF (c : Cfg) (s : St) : St := ilrF c s.firstRun (optF c s.firstRun (lossF c s).ran)

theorem lossF_firstRun (c : Cfg) (s : St) : (lossF c s).firstRun = s.firstRun := by rw [lossF_eq]; rfl

theorem applyF_eq (c : Cfg) (draw : Nat → ℝ) (s : St) : applyF c false draw s = normF c (updF c draw (midF c s)) := by
  show normF c (updF c draw (ilrF c (lossF c s).firstRun (optF c (lossF c s).firstRun (lossF c s).ran))) = _
  rw [lossF_firstRun]; rfl

theorem midF_same (c : Cfg) (s : St) : Same s (midF c s) :=
  (lossF_same c s).trans ((show Same (lossF c s) (lossF c s).ran from ⟨rfl, rfl, rfl⟩).trans ((optF_same c _ _).trans (ilrF_same c _ _)))

theorem midF_W (c : Cfg) (s : St) : (midF c s).W = s.W := by
  unfold midF
  rw [(ilrF_keeps _ _ _).1, (optF_keeps _ _ _).1]
  show (lossF c s).W = _
  rw [lossF_eq]; rfl

theorem midF_V (c : Cfg) (s : St) : (midF c s).V = s.V := by
  unfold midF
  rw [(ilrF_keeps _ _ _).2.1, (optF_keeps _ _ _).2.1]
  show (lossF c s).V = _
  rw [lossF_eq]; rfl

theorem midF_n (c : Cfg) (s : St) : (midF c s).n = s.n := (midF_same c s).n

theorem normF_keeps (c : Cfg) (s : St) : (normF c s).V = s.V ∧ (normF c s).A = s.A ∧ (normF c s).B = s.B ∧ (normF c s).gain = s.gain ∧
    (normF c s).prev = s.prev ∧ (normF c s).b1t = s.b1t ∧ (normF c s).b2t = s.b2t ∧ (normF c s).gamma = s.gamma ∧
    (normF c s).firstRun = s.firstRun ∧ (normF c s).G = s.G := by
  unfold normF; split <;> exact ⟨rfl, rfl, rfl, rfl, rfl, rfl, rfl, rfl, rfl, rfl⟩

/-- The velocity. -/
theorem apply_V (c : Cfg) (draw : Nat → ℝ) (s : St) (hm : c.useMom = true) (i : Nat) (hi : i < s.n) :
    (applyF c false draw s).V i = (if c.nesterov then s.V i else c.mom * s.V i) + dirF c s i := by
  rw [applyF_eq, (normF_keeps _ _).1]
  unfold updF
  rw [if_neg (by simp [hm])]
  by_cases hn : c.nesterov = true
  · rw [if_pos hn, if_pos hn]
    simp only [subF, St.setW, St.setG, each]
    rw [midF_n, if_pos hi, midF_V]; rfl
  · rw [if_neg hn, if_neg hn]
    dsimp only
    have : each (midF c s).n (fun i v => c.mom * v + (midF c s).G.data i) (midF c s).V i = c.mom * s.V i + dirF c s i := by
      unfold each
      rw [midF_n, if_pos hi, midF_V]; rfl
    split
    · exact this
    · exact this

/-- Zero or one: whether the learning rate dropout lets an element through. -/
noncomputable def lrMask (c : Cfg) (draw : Nat → ℝ) (i : Nat) : ℝ := if c.lrDrop < 1 then (if draw i < c.lrDrop then 1 else 0) else 1

theorem maskF_at (c : Cfg) (draw : Nat → ℝ) (n : Nat) (d : Nat → ℝ) (i : Nat) (hi : i < n) : maskF c draw n d i = lrMask c draw i * d i := by
  unfold maskF lrMask Cfg.bLRDropout
  by_cases h : c.lrDrop < 1
  · rw [if_pos h, if_pos (by simp [h])]
    unfold each
    rw [if_pos hi, mul_comm]
  · rw [if_neg h, if_neg (by simp [h]), one_mul]

/-- The weights before their norms are checked. -/
theorem upd_W (c : Cfg) (draw : Nat → ℝ) (s : St) (i : Nat) (hi : i < s.n) :
    (updF c draw s).W.data i = s.W.data i - lrMask c draw i * (if c.useMom = true ∧ c.nesterov = false then c.mom * s.V i + s.G.data i else s.G.data i) := by
  unfold updF
  cases hm : c.useMom with
  | false =>
    simp only [if_true, Bool.false_eq_true, false_and, if_false]
    simp only [subF, St.setW, St.setG, each]
    rw [if_pos hi, maskF_at _ _ _ _ _ hi]
  | true =>
    simp only [Bool.true_eq_false, if_false, true_and]
    cases hn : c.nesterov with
    | true =>
      simp only [if_true, Bool.true_eq_false, if_false]
      simp only [subF, St.setW, St.setG, each]
      refine (if_pos hi).trans ?_
      show s.W.data i - maskF c draw s.n s.G.data i = _
      rw [maskF_at _ _ _ _ _ hi]
    | false =>
      simp only [Bool.false_eq_true, if_false, if_true]
      by_cases hd : c.bLRDropout = true
      · rw [if_pos hd]
        simp only [subF, St.setW, St.setG, each]
        refine (if_pos hi).trans ?_
        show s.W.data i - maskF c draw s.n (copyTo s.n (each s.n (fun i v => c.mom * v + s.G.data i) s.V) s.G.data) i = _
        rw [maskF_at _ _ _ _ _ hi]
        unfold copyTo each
        rw [if_pos hi, if_pos hi]
      · rw [if_neg hd]
        simp only [St.setW, each, if_pos hi]
        have : ¬ c.lrDrop < 1 := by unfold Cfg.bLRDropout at hd; simpa using hd
        unfold lrMask
        rw [if_neg this, one_mul]

theorem apply_W_off (c : Cfg) (draw : Nat → ℝ) (s : St) (hx : c.useMaxNorm = false) (i : Nat) (hi : i < s.n) :
    (applyF c false draw s).W.data i = s.W.data i - lrMask c draw i * (if c.useMom = true ∧ c.nesterov = false then c.mom * s.V i + dirF c s i else dirF c s i) := by
  rw [applyF_eq, normF_off c hx, upd_W _ _ _ _ (by rw [midF_n]; exact hi), midF_W, midF_V]
  rfl

theorem pre_V (c : Cfg) (draw : Nat → ℝ) (s : St) (i : Nat) (hi : i < s.n) :
    (preF c false draw s).V i = if c.useMom = true ∧ c.nesterov = true then c.mom * s.V i else s.V i := by
  unfold preF
  by_cases h : c.useMom = true ∧ c.nesterov = true
  · rw [if_pos h, if_pos (by simp [h.1, h.2]), (normF_keeps _ _).1]
    simp only [St.setW, each, if_pos hi]
    rw [mul_comm]
  · rw [if_neg h, if_neg]
    simp only [Bool.not_false, Bool.true_and, Bool.and_eq_true]; exact h

theorem pre_W_off (c : Cfg) (draw : Nat → ℝ) (s : St) (hx : c.useMaxNorm = false) (i : Nat) (hi : i < s.n) :
    (preF c false draw s).W.data i = if c.useMom = true ∧ c.nesterov = true then
      s.W.data i - (if c.lrDropNesterov then lrMask c draw i else 1) * (c.mom * s.V i) else s.W.data i := by
  unfold preF
  by_cases h : c.useMom = true ∧ c.nesterov = true
  · rw [if_pos h, if_pos (by simp [h.1, h.2]), normF_off c hx]
    show (if _ then _ else _ : Nat → ℝ) i = _
    by_cases hd : c.lrDrop < 1
    · cases hl : c.lrDropNesterov with
      | true =>
        rw [if_pos (by unfold Cfg.bLRDropout; simp [hd]), if_pos rfl]
        simp only [each, lrMask, if_pos hi, if_pos hd]; ring
      | false =>
        rw [if_neg (by simp), if_neg (by simp)]
        unfold each
        rw [if_pos hi]; ring
    · rw [if_neg (by unfold Cfg.bLRDropout; simp [hd])]
      unfold each lrMask
      rw [if_pos hi, if_neg hd]
      split <;> ring
  · rw [if_neg h, if_neg]
    simp only [Bool.not_false, Bool.true_and, Bool.and_eq_true]; exact h

theorem preF_keeps (c : Cfg) (draw : Nat → ℝ) (s : St) : (preF c false draw s).A = s.A ∧ (preF c false draw s).B = s.B ∧ (preF c false draw s).gain = s.gain ∧
    (preF c false draw s).prev = s.prev ∧ (preF c false draw s).b1t = s.b1t ∧ (preF c false draw s).b2t = s.b2t ∧ (preF c false draw s).gamma = s.gamma ∧
    (preF c false draw s).firstRun = s.firstRun := by
  unfold preF
  split
  · obtain ⟨_, h2, h3, h4, h5, h6, h7, h8, h9, _⟩ := normF_keeps c ({ s with V := each s.n (fun _ v => v * c.mom) s.V }.setW
      (if c.bLRDropout && c.lrDropNesterov then
        each s.n (fun i w => w - each s.n (fun i v => v * (if draw i < c.lrDrop then 1 else 0)) (each s.n (fun _ v => v * c.mom) s.V) i) s.W.data
      else each s.n (fun i w => w - s.V i * c.mom) s.W.data))
    exact ⟨h2, h3, h4, h5, h6, h7, h8, h9⟩
  · exact ⟨rfl, rfl, rfl, rfl, rfl, rfl, rfl, rfl⟩

/-- The optimiser's own state after a step. -/
theorem apply_opt (c : Cfg) (draw : Nat → ℝ) (s : St) : (applyF c false draw s).A = (optF c s.firstRun (lossF c s).ran).A ∧
    (applyF c false draw s).B = (optF c s.firstRun (lossF c s).ran).B ∧
    (applyF c false draw s).b1t = (optF c s.firstRun (lossF c s).ran).b1t ∧ (applyF c false draw s).b2t = (optF c s.firstRun (lossF c s).ran).b2t ∧
    (applyF c false draw s).gamma = (optF c s.firstRun (lossF c s).ran).gamma ∧ (applyF c false draw s).firstRun = false ∧
    (applyF c false draw s).gain = (midF c s).gain ∧ (applyF c false draw s).prev = (midF c s).prev := by
  rw [applyF_eq]
  obtain ⟨_, n2, n3, n4, n5, n6, n7, n8, n9, _⟩ := normF_keeps c (updF c draw (midF c s))
  obtain ⟨u1, u2, u3, u4, u5, u6, u7, u8⟩ := updF_keeps c draw (midF c s)
  obtain ⟨_, _, i1, i2, i3, i4, i5, i6⟩ := ilrF_keeps c s.firstRun (optF c s.firstRun (lossF c s).ran)
  refine ⟨?_, ?_, ?_, ?_, ?_, ?_, ?_, ?_⟩
  · rw [n2, u1]; exact i1
  · rw [n3, u2]; exact i2
  · rw [n6, u5]; exact i3
  · rw [n7, u6]; exact i4
  · rw [n8, u7]; exact i5
  · rw [n9, u8]; exact i6.trans ((optF_keeps _ _ _).2.2.2.2)
  · rw [n4, u3]
  · rw [n5, u4]

/-- Without gains the direction is the optimiser's. -/
theorem dirF_noILR (c : Cfg) (s : St) (h : c.useILR = false) : dirF c s = (optF c s.firstRun (lossF c s).ran).G.data := by
  unfold dirF ilrF; rw [if_pos h]

theorem opt_classical (c : Cfg) (h : c.type = .classicalConstant) (s : St) (i : Nat) (hi : i < s.n) :
    (optF c s.firstRun (lossF c s).ran).G.data i = c.lr * penalised c s.W s.G i := by
  have hn : (lossF c s).ran.n = s.n := (lossF_same c s).n
  unfold optF firstF optCell
  rw [h]
  simp only [St.setG, each]
  rw [hn, if_pos hi, ← lossF_at c s i hi, mul_comm]
  rfl

section
variable {T : Nat} {E E' : Nat → Env} {c : Nat → Cfg} {g : Nat → Mtx ℝ} {draw draw' : Nat → Nat → ℝ} {s p : Nat → St}

theorem Session.pre_n (h : Session T E E' c g draw draw' s p) (t : Nat) (ht : t < T) :
    (s t).n = (s 0).n ∧ (p t).n = (s 0).n ∧ ((p t).withG (g t)).n = (s 0).n ∧ (s t).W.rows = (s 0).W.rows ∧ (s t).W.cols = (s 0).W.cols ∧
    (p t).W.rows = (s 0).W.rows ∧ (p t).W.cols = (s 0).W.cols := by
  obtain ⟨k, _⟩ := h.states t (by omega)
  obtain ⟨kp, _, _⟩ := (h.states (t + 1) (by omega)).2 t (by omega)
  have h1 : (p t).n = (s 0).n := by unfold St.n; rw [kp.rows, kp.cols]
  exact ⟨by unfold St.n; rw [k.rows, k.cols], h1, h1, k.rows, k.cols, kp.rows, kp.cols⟩

theorem Session.step_eq (h : Session T E E' c g draw draw' s p) (t : Nat) (ht : t < T) :
    p t = preF (c t) false (draw t) (s t) ∧ s (t + 1) = applyF (c t) false (draw' t) ((p t).withG (g t)) := by
  obtain ⟨_, h1, h2⟩ := (h.states (t + 1) (by omega)).2 t (by omega)
  exact ⟨h1, h2⟩

theorem Session.firstRun (h : Session T E E' c g draw draw' s p) (t : Nat) (ht : t < T) :
    (s t).firstRun = decide (t = 0) ∧ ((p t).withG (g t)).firstRun = decide (t = 0) := by
  have key : (s t).firstRun = decide (t = 0) := by
    cases t with
    | zero => obtain ⟨W, _, hi⟩ := h.init; exact hi.2.2.2.2.2.2.2.2
    | succ t =>
      rw [(h.step_eq t (by omega)).2, (apply_opt _ _ _).2.2.2.2.2.1]
      simp
  refine ⟨key, ?_⟩
  show (p t).firstRun = _
  rw [(h.step_eq t ht).1, (preF_keeps _ _ _).2.2.2.2.2.2.2]
  exact key

/-- The direction taken at step `t`. -/
noncomputable def dirAt (c : Nat → Cfg) (g : Nat → Mtx ℝ) (p : Nat → St) (t i : Nat) : ℝ := dirF (c t) ((p t).withG (g t)) i

theorem Session.velocity (h : Session T E E' c g draw draw' s p) (hm : (c 0).useMom = true) (t : Nat) (ht : t < T) (i : Nat) (hi : i < (s 0).n) :
    (s (t + 1)).V i = (c t).mom * (s t).V i + dirAt c g p t i := by
  obtain ⟨e1, e2⟩ := h.step_eq t ht
  obtain ⟨n1, n2, n3, _⟩ := h.pre_n t ht
  have hmt : (c t).useMom = true := by rw [(h.kind t ht).useMom, hm]
  rw [e2, apply_V _ _ _ hmt i (by rw [n3]; exact hi)]
  show (if _ then (p t).V i else _ * (p t).V i) + _ = _
  rw [e1, pre_V _ _ _ i (by rw [n1]; exact hi)]
  cases hn : (c t).nesterov with
  | true => rw [if_pos rfl, if_pos ⟨hmt, rfl⟩, ← e1]; rfl
  | false => rw [if_neg (by simp), if_neg (by simp), ← e1]; rfl

end
end Nntl.Grad
