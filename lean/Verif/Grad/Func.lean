import Verif.Grad.Lemmas
/-! The stages of `apply_grad` and `pre_training_fprop` as functions, and the proof that the relations of the model are these functions
(so they always have an outcome, and it does not depend on the threads, the thresholds or the interleaving). -/
namespace Nntl.Grad
open Nntl.Kernel Nntl.Matrix Nntl.Threads

theorem seq_some {r q : Rel} {s m : St} (h : ∀ o, r s o ↔ o = some m) (o : Option St) : (r ⨟ q) s o ↔ q m o := by
  unfold Rel.seq
  constructor
  · rintro (⟨h1, _⟩ | ⟨k, h1, h2⟩)
    · cases (h _).1 h1
    · cases (h _).1 h1; exact h2
  · intro hq; exact Or.inr ⟨m, (h _).2 rfl, hq⟩

theorem seq_none {r q : Rel} {s : St} (h : ∀ o, r s o ↔ o = none) (o : Option St) : (r ⨟ q) s o ↔ o = none := by
  unfold Rel.seq
  constructor
  · rintro (⟨_, h1⟩ | ⟨k, h1, _⟩)
    · exact h1
    · cases (h _).1 h1
  · intro ho; exact Or.inl ⟨(h _).2 rfl, ho⟩

theorem ex_eq {α : Type} {a : α} {p : α → Prop} : (∃ x, x = a ∧ p x) ↔ p a := ⟨fun ⟨_, h, hp⟩ => h ▸ hp, fun h => ⟨_, rfl, h⟩⟩

/-- Weights and gradient have the same size and a column of biases. -/
structure Shape (s : St) : Prop where
  w : WeightsOk s.W
  g : WeightsOk s.G
  rows : s.G.rows = s.W.rows
  cols : s.G.cols = s.W.cols

/-- Everything but the contents. -/
structure Same (s t : St) : Prop where
  w : t.W = { s.W with data := t.W.data }
  g : t.G = { s.G with data := t.G.data }
  flags : (t.hasV, t.hasA, t.hasB, t.hasGain, t.hasPrev) = (s.hasV, s.hasA, s.hasB, s.hasGain, s.hasPrev)

theorem Same.refl (s : St) : Same s s := ⟨rfl, rfl, rfl⟩
theorem Same.trans {s t u : St} (h : Same s t) (k : Same t u) : Same s u :=
  ⟨by rw [k.w, h.w], by rw [k.g, h.g], k.flags.trans h.flags⟩
theorem Same.rows {s t : St} (h : Same s t) : t.W.rows = s.W.rows := by rw [h.w]
theorem Same.cols {s t : St} (h : Same s t) : t.W.cols = s.W.cols := by rw [h.w]
theorem Same.n {s t : St} (h : Same s t) : t.n = s.n := by unfold St.n; rw [h.rows, h.cols]
theorem Same.shape {s t : St} (h : Same s t) (hs : Shape s) : Shape t := by
  obtain ⟨hw, hg, hr, hc⟩ := hs
  refine ⟨?_, ?_, ?_, ?_⟩
  · rw [h.w]; exact ⟨hw.1, hw.2, hw.3, hw.4, hw.5⟩
  · rw [h.g]; exact ⟨hg.1, hg.2, hg.3, hg.4, hg.5⟩
  · rw [h.w, h.g]; exact hr
  · rw [h.w, h.g]; exact hc
theorem Same.ready {s t : St} (h : Same s t) {c : Cfg} (hs : Ready c s) : Ready c t := by
  have hf := h.flags
  simp only [Prod.mk.injEq] at hf
  obtain ⟨h1, h2, h3, h4, h5⟩ := hf
  exact ⟨by rw [h2]; exact hs.a, by rw [h3]; exact hs.b, by rw [h1]; exact hs.v, by rw [h4]; exact hs.gain, by rw [h5]; exact hs.prev⟩

theorem Shape.n_pos {s : St} (h : Shape s) : 0 < s.n := Nat.mul_pos h.w.rows (by have := h.w.cols; omega)

/-! ### Loss addendums -/

/-- Number of elements an addendum applies to. -/
def St.added (s : St) (ign : Bool) : Nat := s.W.rows * (if ign then s.W.cols - 1 else s.W.cols)

noncomputable def addF (k : ℝ → ℝ) (scale : ℝ) (ign : Bool) (s : St) : St :=
  if scale = 0 then s else s.setG (each (s.added ign) (fun i g => g + scale * k (s.W.data i)) s.G.data)

theorem addF_same (k : ℝ → ℝ) (scale : ℝ) (ign : Bool) (s : St) : Same s (addF k scale ign s) := by
  unfold addF; split
  · exact Same.refl s
  · exact ⟨rfl, rfl, rfl⟩

theorem addendum_iff (kern : Nat → ℝ → (Nat → ℝ) → (Nat → ℝ) → (Nat → ℝ) → Prop) (k : ℝ → ℝ)
    (hk : ∀ n, 0 < n → ∀ c B A A', kern n c B A A' ↔ A' = each n (fun i v => v + c * k (B i)) A)
    (scale : ℝ) (ign : Bool) {s : St} (hs : Shape s) (o : Option St) : addendum kern scale ign s o ↔ o = some (addF k scale ign s) := by
  unfold addendum addF
  by_cases h0 : scale = 0
  · rw [if_pos h0, if_pos h0]
  · rw [if_neg h0, if_neg h0]
    have hr := hs.w.rows
    have hc := hs.w.cols
    obtain ⟨hhw, hrw⟩ := hide_restore hs.w
    obtain ⟨hhg, hrg⟩ := hide_restore hs.g
    have hrw' : ({ s.W with cols := s.W.cols - 1 } : Mtx ℝ).restoreLastCol = some s.W := hrw s.W.data
    cases ign with
    | true =>
      simp only [if_true]
      rw [hhw, hhg]
      simp only [hrg, hrw']
      have hn : ({ s.G with cols := s.G.cols - 1 } : Mtx ℝ).numel = s.added true := by
        show s.G.rows * (s.G.cols - 1) = _
        rw [hs.rows, hs.cols]; rfl
      rw [hn]
      simp only [hk _ (show 0 < s.added true from Nat.mul_pos hr (by show 0 < s.W.cols - 1; omega))]
      exact ex_eq
    | false =>
      simp only [Bool.false_eq_true, if_false]
      have hn : s.G.numel = s.added false := by
        show s.G.rows * s.G.cols = _
        rw [hs.rows, hs.cols]; rfl
      rw [hn]
      simp only [hk _ (show 0 < s.added false from Nat.mul_pos hr (by show 0 < s.W.cols; omega))]
      exact ex_eq

noncomputable def lossF (c : Cfg) (s : St) : St := addF id c.l2 c.l2IgnBias (addF sgn c.l1 c.l1IgnBias s)

theorem lossF_same (c : Cfg) (s : St) : Same s (lossF c s) := (addF_same _ _ _ s).trans (addF_same _ _ _ _)

theorem lossAddendums_iff {E : Env} (hE : E.Ok) (c : Cfg) {s : St} (hs : Shape s) (o : Option St) :
    lossAddendums E c s o ↔ o = some (lossF c s) := by
  unfold lossAddendums
  rw [seq_some (addendum_iff _ sgn (fun n hn => evAddScaledSignIp_iff hE hn) _ _ hs)]
  exact addendum_iff _ id (fun n hn => evAddScaledIp_iff hE hn) _ _ ((addF_same _ _ _ s).shape hs) o

/-! ### Optimisers -/

/-- The state before the first use of an optimiser with moments. -/
noncomputable def firstF (c : Cfg) (first : Bool) (s : St) : St :=
  match c.type with
  | .adam => if first then { s with b1t := 1, b2t := 1, A := fillWith s.n 0 s.A, B := fillWith s.n 0 s.B } else s
  | .adamax => if first then { s with b1t := 1, A := fillWith s.n 0 s.A, B := fillWith s.n 0 s.B } else s
  | .nadam => if first then { s with b1t := 1, b2t := 1, A := fillWith s.n 0 s.A, B := fillWith s.n 0 s.B, gamma := 0 } else s
  | .radam => if first then { s with b1t := 1, b2t := 1, A := fillWith s.n 0 s.A, B := fillWith s.n 0 s.B } else s
  | _ => s

/-- New powers. -/
def powF (c : Cfg) (s : St) : ℝ × ℝ :=
  match c.type with
  | .adam | .nadam | .radam => (s.b1t * c.beta1, s.b2t * c.beta2)
  | .adamax => (s.b1t * c.beta1, s.b2t)
  | _ => (s.b1t, s.b2t)

/-- What the optimiser makes of the gradient and of the two matrices, element by element; `p` are the new powers. -/
noncomputable def optCell (c : Cfg) (first : Bool) (p : ℝ × ℝ) (gamma : ℝ) (x : ℝ × ℝ × ℝ) : ℝ × ℝ × ℝ :=
  match c.type with
  | .classicalConstant => (x.1 * c.lr, x.2.1, x.2.2)
  | .rmsHinton => if first then (x.1 * c.lr, x.1 * x.1, x.2.2)
      else ((hintonCell c.lr c.beta1 c.eps (x.1, x.2.1)).1, (hintonCell c.lr c.beta1 c.eps (x.1, x.2.1)).2, x.2.2)
  | .rmsGraves => if first then (x.1 * c.lr, x.1 * x.1, x.1) else gravesCell c.lr c.beta1 c.eps x
  | .rprop => (c.lr * sgn x.1, x.2.1, x.2.2)
  | .modprop => if first then (x.1 * c.lr, |x.1|, x.2.2)
      else ((modCell c.lr c.beta1 c.eps (x.1, x.2.1)).1, (modCell c.lr c.beta1 c.eps (x.1, x.2.1)).2, x.2.2)
  | .adam => adamCell p.1 p.2 c.lr c.beta1 c.beta2 c.eps x
  | .adamax => adaMaxCell p.1 c.lr c.beta1 c.beta2 c.eps x
  | .nadam | .radam => rNadamCell p.1 p.2 c.lr c.beta1 c.beta2 gamma c.eps x

/-- One cell of the state: gradient and the two matrices. -/
def St.cell (s : St) (i : Nat) : ℝ × ℝ × ℝ := (s.G.data i, s.A i, s.B i)

noncomputable def optF (c : Cfg) (first : Bool) (s0 : St) : St :=
  let s := firstF c first s0
  let f := fun i => optCell c first (powF c s) s.gamma (s.cell i)
  { s.setG (each s.n (fun i _ => (f i).1) s.G.data) with
    A := each s.n (fun i _ => (f i).2.1) s.A, B := each s.n (fun i _ => (f i).2.2) s.B, b1t := (powF c s).1, b2t := (powF c s).2 }

theorem each_self (n : Nat) (a : Nat → ℝ) : each n (fun i _ => a i) a = a := by
  funext i; unfold each; split <;> rfl

theorem firstF_same (c : Cfg) (first : Bool) (s : St) : Same s (firstF c first s) := by
  unfold firstF; split <;> try split
  all_goals exact ⟨rfl, rfl, rfl⟩

theorem optF_same (c : Cfg) (first : Bool) (s : St) : Same s (optF c first s) := by
  have h := firstF_same c first s
  exact ⟨h.w, by show ({ (firstF c first s).G with data := _ } : Mtx ℝ) = _; rw [h.g]; rfl, h.flags⟩

theorem optimise_iff {E : Env} (hE : E.Ok) (c : Cfg) (first : Bool) {s : St} (hs : Shape s) (hr : Ready c s) (o : Option St) :
    optimise E c first s o ↔ o = some (optF c first s) := by
  have hn := hs.n_pos
  have ha := hr.a
  have hb := hr.b
  unfold optimise optF optCell firstF powF St.cell
  cases ht : c.type with
  | classicalConstant =>
    simp only [evMulCIp_iff hE hn, ex_eq, each_self]
    rfl
  | rprop =>
    simp only [rProp_iff hE hn, ex_eq, each_self]
    rfl
  | rmsHinton =>
    rw [ht] at ha
    rw [ha rfl]
    cases first with
    | true =>
      simp only [evSquare_iff hE hn, evMulCIp_iff hE hn, exists_and_left, exists_eq_left, each_self, if_true, Bool.true_eq_false, if_false]
      rfl
    | false =>
      simp only [rmsPropHinton, runs_pair hE hn, and_assoc, exists_and_left, exists_eq_left, each_self, if_true, Bool.true_eq_false, if_false, Bool.false_eq_true]
      rfl
  | modprop =>
    rw [ht] at ha
    rw [ha rfl]
    cases first with
    | true =>
      simp only [evAbs_iff hE hn, evMulCIp_iff hE hn, exists_and_left, exists_eq_left, each_self, if_true, Bool.true_eq_false, if_false]
      rfl
    | false =>
      simp only [modProp, runs_pair hE hn, and_assoc, exists_and_left, exists_eq_left, each_self, if_true, Bool.true_eq_false, if_false, Bool.false_eq_true]
      rfl
  | rmsGraves =>
    rw [ht] at ha hb
    rw [ha rfl, hb rfl]
    cases first with
    | true =>
      simp only [evSquare_iff hE hn, evMulCIp_iff hE hn, exists_and_left, exists_eq_left, each_self, if_true, Bool.true_eq_false, if_false, or_self]
      rfl
    | false =>
      simp only [rmsPropGraves, runs_triple hE hn, and_assoc, exists_and_left, exists_eq_left, each_self, if_true, Bool.true_eq_false, if_false,
        Bool.false_eq_true, or_self]
      rfl
  | adam =>
    rw [ht] at ha hb
    rw [ha rfl, hb rfl]
    cases first <;>
    · simp only [adam, runs_triple hE hn, and_assoc, exists_and_left, exists_eq_left, if_true, Bool.true_eq_false, if_false, Bool.false_eq_true, or_self]
      try rfl
  | adamax =>
    rw [ht] at ha hb
    rw [ha rfl, hb rfl]
    cases first <;>
    · simp only [adaMax, runs_triple hE hn, and_assoc, exists_and_left, exists_eq_left, if_true, Bool.true_eq_false, if_false, Bool.false_eq_true, or_self]
      try rfl
  | nadam =>
    rw [ht] at ha hb
    rw [ha rfl, hb rfl]
    cases first <;>
    · simp only [rNadam, runs_triple hE hn, and_assoc, exists_and_left, exists_eq_left, if_true, Bool.true_eq_false, if_false, Bool.false_eq_true, or_self]
      try rfl
  | radam =>
    rw [ht] at ha hb
    rw [ha rfl, hb rfl]
    cases first <;>
    · simp only [rNadam, runs_triple hE hn, and_assoc, exists_and_left, exists_eq_left, if_true, Bool.true_eq_false, if_false, Bool.false_eq_true, or_self,
        reduceCtorEq]
      try rfl

/-! ### Individual gains -/

noncomputable def ilrF (c : Cfg) (first : Bool) (s : St) : St :=
  if c.useILR = false then s
  else if first then (if c.ilrUseMom then s else { s with prev := copyTo s.n s.G.data s.prev })
  else
    let g := each s.n (fun i g => g * gainFactor c.decr c.incr c.capLow c.capHigh ((if c.ilrUseMom then s.V i else s.prev i) * s.G.data i) g) s.gain
    let d := each s.n (fun i d => d * g i) s.G.data
    if c.ilrUseMom then { s.setG d with gain := g } else { s.setG d with gain := g, prev := copyTo s.n d s.prev }

theorem ilrF_same (c : Cfg) (first : Bool) (s : St) : Same s (ilrF c first s) := by
  unfold ilrF
  split
  · exact Same.refl s
  · split
    · split <;> exact ⟨rfl, rfl, rfl⟩
    · dsimp only; split <;> exact ⟨rfl, rfl, rfl⟩

theorem ilrApply_iff {E : Env} (hE : E.Ok) (c : Cfg) (first : Bool) {s : St} (hs : Shape s) (hr : Ready c s) (o : Option St) :
    ilrApply E c first s o ↔ o = some (ilrF c first s) := by
  have hn := hs.n_pos
  unfold ilrApply ilrF
  by_cases hu : c.useILR = false
  · rw [if_pos hu, if_pos hu]
  · rw [if_neg hu, if_neg hu]
    have hu' : c.useILR = true := by simpa using hu
    have hg := hr.gain hu'
    cases hm : c.ilrUseMom with
    | true =>
      have hv : s.hasV = true := hr.v (by unfold Cfg.ilrUseMom at hm; simp at hm; exact hm.1)
      cases first with
      | true => simp [hg, hv]
      | false =>
        simp only [hg, hv, applyILR_iff hE hn, if_true, if_false, Bool.true_eq_false, Bool.false_eq_true, or_self]
        constructor
        · rintro ⟨d, g, ⟨rfl, rfl⟩, ho⟩; exact ho
        · intro ho; exact ⟨_, _, ⟨rfl, rfl⟩, ho⟩
    | false =>
      have hv := hr.prev hu' hm
      cases first with
      | true => simp [hg, hv]
      | false =>
        simp only [hg, hv, applyILR_iff hE hn, if_false, Bool.true_eq_false, Bool.false_eq_true, or_self]
        constructor
        · rintro ⟨d, g, ⟨rfl, rfl⟩, ho⟩; exact ho
        · intro ho; exact ⟨_, _, ⟨rfl, rfl⟩, ho⟩

/-! ### Momentum, mask, update, norm -/

/-- The mask of the learning rate dropout. -/
noncomputable def maskF (c : Cfg) (draw : Nat → ℝ) (n : Nat) (d : Nat → ℝ) : Nat → ℝ :=
  if c.bLRDropout then each n (fun i v => v * (if draw i < c.lrDrop then 1 else 0)) d else d

noncomputable def subF (c : Cfg) (draw : Nat → ℝ) (s : St) : St :=
  (s.setG (maskF c draw s.n s.G.data)).setW (each s.n (fun i w => w - maskF c draw s.n s.G.data i) s.W.data)

theorem dropAndSub_iff {E : Env} (hE : E.Ok) (c : Cfg) (draw : Nat → ℝ) {s : St} (hs : Shape s) (o : Option St) :
    dropAndSub E c draw s o ↔ o = some (subF c draw s) := by
  have hn := hs.n_pos
  unfold dropAndSub subF maskF
  by_cases hd : c.bLRDropout = true
  · simp only [if_pos hd, applyDropoutMask_iff hE hn, evSubIp_iff hE hn, exists_and_left, exists_eq_left]
  · simp only [if_neg hd, evSubIp_iff hE hn, exists_and_left, exists_eq_left]

noncomputable def updF (c : Cfg) (draw : Nat → ℝ) (s : St) : St :=
  if c.useMom = false then subF c draw s
  else if c.nesterov then subF c draw { s with V := each s.n (fun i v => v + s.G.data i) s.V }
  else
    let v := each s.n (fun i v => c.mom * v + s.G.data i) s.V
    if c.bLRDropout then subF c draw ({ s with V := v }.setG (copyTo s.n v s.G.data))
    else { s with V := v }.setW (each s.n (fun i w => w - v i) s.W.data)

theorem subF_same (c : Cfg) (draw : Nat → ℝ) (s : St) : Same s (subF c draw s) := ⟨rfl, rfl, rfl⟩

theorem updF_same (c : Cfg) (draw : Nat → ℝ) (s : St) : Same s (updF c draw s) := by
  unfold updF
  split
  · exact subF_same c draw s
  · split
    · exact ⟨rfl, rfl, rfl⟩
    · dsimp only; split <;> exact ⟨rfl, rfl, rfl⟩

theorem update_iff {E : Env} (hE : E.Ok) (c : Cfg) (draw : Nat → ℝ) {s : St} (hs : Shape s) (hr : Ready c s) (o : Option St) :
    update E c draw s o ↔ o = some (updF c draw s) := by
  have hn := hs.n_pos
  unfold update updF
  by_cases hm : c.useMom = false
  · rw [if_pos hm, if_pos hm]; exact dropAndSub_iff hE c draw hs o
  · have hv : s.hasV = true := hr.v (by simpa using hm)
    rw [if_neg hm, if_neg hm, if_neg (by simp [hv])]
    by_cases hnst : c.nesterov = true
    · simp only [if_pos hnst, evAddIp_iff hE hn, exists_eq_left]
      exact dropAndSub_iff hE c draw (by refine Same.shape (s := s) ?_ hs; exact ⟨rfl, rfl, rfl⟩) o
    · simp only [if_neg hnst, applyMomentum_iff hE hn, exists_eq_left]
      by_cases hd : c.bLRDropout = true
      · simp only [if_pos hd]
        exact dropAndSub_iff hE c draw (by refine Same.shape (s := s) ?_ hs; exact ⟨rfl, rfl, rfl⟩) o
      · simp only [if_neg hd, evSubIp_iff hE hn, exists_eq_left]

noncomputable def normF (c : Cfg) (s : St) : St :=
  if c.useMaxNorm = false then s
  else s.setW (normRows c.maxNorm2 s.W.rows s.W.cols (if c.normInclBias then s.W.cols else s.W.cols - 1) s.W.data)

theorem normF_same (c : Cfg) (s : St) : Same s (normF c s) := by
  unfold normF; split
  · exact Same.refl s
  · exact ⟨rfl, rfl, rfl⟩

theorem maxNorm_iff {E : Env} (hE : E.Ok) (c : Cfg) {s : St} (hs : WeightsOk s.W) (o : Option St) : maxNorm E c s o ↔ o = some (normF c s) := by
  unfold maxNorm normF
  by_cases h : c.useMaxNorm = false
  · rw [if_pos h, if_pos h]
  · rw [if_neg h, if_neg h]
    simp only [checkNormalizeRows_iff hE _ _ _ hs, exists_eq_left, Option.map_some]
    rfl

/-! ### Whole calls -/

noncomputable def applyF (c : Cfg) (blocked : Bool) (draw : Nat → ℝ) (s : St) : St :=
  if blocked then lossF c s
  else normF c (updF c draw (ilrF c (lossF c s).firstRun (optF c (lossF c s).firstRun (lossF c s).ran)))

theorem applyF_same (c : Cfg) (blocked : Bool) (draw : Nat → ℝ) (s : St) : Same s (applyF c blocked draw s) := by
  unfold applyF
  split
  · exact lossF_same c s
  · refine (lossF_same c s).trans ((show Same (lossF c s) (lossF c s).ran from ⟨rfl, rfl, rfl⟩).trans ((optF_same c _ (lossF c s).ran).trans
      ((ilrF_same c _ _).trans ((updF_same c draw _).trans (normF_same c _)))))

/-- `apply_grad` has exactly one outcome. -/
theorem applyGrad_iff {E : Env} (hE : E.Ok) (c : Cfg) (blocked : Bool) (draw : Nat → ℝ) {s : St} (hs : Shape s) (hr : Ready c s) (o : Option St) :
    applyGrad E c blocked draw s o ↔ o = some (applyF c blocked draw s) := by
  unfold applyGrad applyF
  have h1 : ∀ o, Rel.need (fun s => decide (s.G.rows = s.W.rows ∧ s.G.cols = s.W.cols) && !s.W.bir && !s.G.bir) s o ↔ o = some s := by
    intro o
    unfold Rel.need
    rw [if_pos]
    simp [hs.rows, hs.cols, hs.w.notBatchInRow, hs.g.notBatchInRow]
  have h2 : ∀ o, (Rel.need (fun s => decide (s.G.rows = s.W.rows ∧ s.G.cols = s.W.cols) && !s.W.bir && !s.G.bir) ⨟ lossAddendums E c) s o ↔
      o = some (lossF c s) := fun o => (seq_some h1 o).trans (lossAddendums_iff hE c hs o)
  rw [seq_some h2]
  have hl := lossF_same c s
  generalize lossF c s = t at *
  cases blocked with
  | true => rfl
  | false =>
    simp only [Bool.false_eq_true, if_false]
    have ht := hl.shape hs
    have hrt := hl.ready hr
    have a1 : Same t t.ran := ⟨rfl, rfl, rfl⟩
    have e1 : ∀ o, (Rel.upd St.ran ⨟ optimise E c t.firstRun) t o ↔ o = some (optF c t.firstRun t.ran) :=
      fun o => (seq_some (m := t.ran) (fun _ => Iff.rfl) o).trans (optimise_iff hE c _ (a1.shape ht) (a1.ready hrt) o)
    have a2 := a1.trans (optF_same c t.firstRun t.ran)
    generalize optF c t.firstRun t.ran = u at *
    have e2 : ∀ o, (Rel.upd St.ran ⨟ optimise E c t.firstRun ⨟ ilrApply E c t.firstRun) t o ↔ o = some (ilrF c t.firstRun u) :=
      fun o => (seq_some e1 o).trans (ilrApply_iff hE c _ (a2.shape ht) (a2.ready hrt) o)
    have a3 := a2.trans (ilrF_same c t.firstRun u)
    generalize ilrF c t.firstRun u = v at *
    have e3 : ∀ o, (Rel.upd St.ran ⨟ optimise E c t.firstRun ⨟ ilrApply E c t.firstRun ⨟ update E c draw) t o ↔
        o = some (updF c draw v) :=
      fun o => (seq_some e2 o).trans (update_iff hE c draw (a3.shape ht) (a3.ready hrt) o)
    have a4 := a3.trans (updF_same c draw v)
    rw [seq_some e3]
    exact maxNorm_iff hE c (a4.shape ht).w o

noncomputable def preF (c : Cfg) (blocked : Bool) (draw : Nat → ℝ) (s : St) : St :=
  if !blocked && (c.useMom && c.nesterov) then
    normF c ({ s with V := each s.n (fun _ v => v * c.mom) s.V }.setW
      (if c.bLRDropout && c.lrDropNesterov then
        each s.n (fun i w => w - each s.n (fun i v => v * (if draw i < c.lrDrop then 1 else 0)) (each s.n (fun _ v => v * c.mom) s.V) i) s.W.data
      else each s.n (fun i w => w - s.V i * c.mom) s.W.data))
  else s

theorem preF_same (c : Cfg) (blocked : Bool) (draw : Nat → ℝ) (s : St) : Same s (preF c blocked draw s) := by
  unfold preF
  split
  · refine Same.trans ?_ (normF_same c _)
    exact ⟨rfl, rfl, rfl⟩
  · exact Same.refl s

theorem preTrainingFprop_iff {E : Env} (hE : E.Ok) (c : Cfg) (blocked : Bool) (draw : Nat → ℝ) {s : St} (hs : WeightsOk s.W) (hr : Ready c s)
    (o : Option St) : preTrainingFprop E c blocked draw s o ↔ o = some (preF c blocked draw s) := by
  have hn : 0 < s.n := Nat.mul_pos hs.rows (by have := hs.cols; omega)
  unfold preTrainingFprop preF
  by_cases h : (!blocked && (c.useMom && c.nesterov)) = true
  · rw [if_pos h, if_pos h]
    have hv : s.hasV = true := hr.v (by simp at h; exact h.2.1)
    by_cases hd : (c.bLRDropout && c.lrDropNesterov) = true
    · simp only [if_pos hd]
      refine (seq_some (m := { s with V := each s.n (fun _ v => v * c.mom) s.V }.setW
        (each s.n (fun i w => w - each s.n (fun i v => v * (if draw i < c.lrDrop then 1 else 0)) (each s.n (fun _ v => v * c.mom) s.V) i) s.W.data)) ?_ o).trans
        (maxNorm_iff hE c (by exact ⟨hs.1, hs.2, hs.3, hs.4, hs.5⟩) o)
      intro o
      rw [if_neg (by simp [hv])]
      simp only [evMulCIp_iff hE hn, applyDropoutMask_iff hE hn, evSubIp_iff hE hn, exists_and_left, exists_eq_left]
    · simp only [if_neg hd]
      refine (seq_some (m := { s with V := each s.n (fun _ v => v * c.mom) s.V }.setW
        (each s.n (fun i w => w - s.V i * c.mom) s.W.data)) ?_ o).trans
        (maxNorm_iff hE c (by exact ⟨hs.1, hs.2, hs.3, hs.4, hs.5⟩) o)
      intro o
      rw [if_neg (by simp [hv])]
      simp only [evMulCIpSubIp_iff hE hn, and_assoc, exists_and_left, exists_eq_left]
  · rw [if_neg h, if_neg h]; rfl

end Nntl.Grad
