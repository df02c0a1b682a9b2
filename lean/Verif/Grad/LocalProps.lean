import Verif.Grad.BlockedProps
/-! What one optimiser does not touch, and which numbers a weight depends on (C202). -/
namespace Nntl.Grad
open Nntl.Kernel Nntl.Matrix Nntl.Threads

/-! ### Specification -/

/-- Outside of the matrices nothing differs: the memory behind the last element of the weights and of every matrix of the optimiser is the same, and so
is the whole memory of the matrices that the optimiser does not have. -/
structure OutsideSame (s t : St) : Prop where
  weights : ∀ i, s.W.rows * s.W.cols ≤ i → t.W.data i = s.W.data i
  velocity : ∀ i, s.W.rows * s.W.cols ≤ i ∨ s.hasV = false → t.V i = s.V i
  first : ∀ i, s.W.rows * s.W.cols ≤ i ∨ s.hasA = false → t.A i = s.A i
  second : ∀ i, s.W.rows * s.W.cols ≤ i ∨ s.hasB = false → t.B i = s.B i
  gains : ∀ i, s.W.rows * s.W.cols ≤ i ∨ s.hasGain = false → t.gain i = s.gain i
  previous : ∀ i, s.W.rows * s.W.cols ≤ i ∨ s.hasPrev = false → t.prev i = s.prev i

/-- Two optimisers for weights of the same size, with the same flags and powers, whose matrices agree at the indices `I`. -/
structure AgreeAt (I : Nat → Prop) (s t : St) : Prop where
  rows : t.W.rows = s.W.rows
  cols : t.W.cols = s.W.cols
  weights : ∀ i, I i → t.W.data i = s.W.data i
  velocity : ∀ i, I i → t.V i = s.V i
  first : ∀ i, I i → t.A i = s.A i
  second : ∀ i, I i → t.B i = s.B i
  gains : ∀ i, I i → t.gain i = s.gain i
  previous : ∀ i, I i → t.prev i = s.prev i
  powers : t.b1t = s.b1t ∧ t.b2t = s.b2t
  gamma : t.gamma = s.gamma
  firstRun : t.firstRun = s.firstRun

/-- The same call with the same settings; its gradient and its random numbers agree at the indices `I`. -/
def CallsAgreeAt (I : Nat → Prop) : Ev → Ev → Prop
  | .pre c b draw, .pre c' b' draw' => c' = c ∧ b' = b ∧ ∀ i, I i → draw' i = draw i
  | .apply c b g draw, .apply c' b' g' draw' => c' = c ∧ b' = b ∧ (∀ i, I i → g'.data i = g.data i) ∧ ∀ i, I i → draw' i = draw i
  | .setGamma x, .setGamma x' => x' = x
  | _, _ => False

/-- The settings of a call do not limit the lengths of the weight vectors. -/
def NoLimit : Ev → Prop
  | .pre c _ _ => c.useMaxNorm = false
  | .apply c _ _ _ => c.useMaxNorm = false
  | .setGamma _ => True

/-- The elements of row `r` of a matrix with `rows` rows and `cols` columns. -/
def InRow (rows cols r : Nat) (i : Nat) : Prop := ∃ k, k < cols ∧ i = r + rows * k

/-! ### Proofs -/

theorem OutsideSame.refl (s : St) : OutsideSame s s := ⟨fun _ _ => rfl, fun _ _ => rfl, fun _ _ => rfl, fun _ _ => rfl, fun _ _ => rfl, fun _ _ => rfl⟩

theorem OutsideSame.trans {s t u : St} (h : OutsideSame s t) (k : Same s t) (q : OutsideSame t u) : OutsideSame s u := by
  obtain ⟨a1, a2, a3, a4, a5, a6⟩ := h
  obtain ⟨b1, b2, b3, b4, b5, b6⟩ := q
  have hf := k.flags
  simp only [Prod.mk.injEq] at hf
  obtain ⟨f1, f2, f3, f4, f5⟩ := hf
  rw [k.rows, k.cols] at b1 b2 b3 b4 b5 b6
  rw [f1] at b2; rw [f2] at b3; rw [f3] at b4; rw [f4] at b5; rw [f5] at b6
  exact ⟨fun i hi => (b1 i hi).trans (a1 i hi), fun i hi => (b2 i hi).trans (a2 i hi), fun i hi => (b3 i hi).trans (a3 i hi),
    fun i hi => (b4 i hi).trans (a4 i hi), fun i hi => (b5 i hi).trans (a5 i hi), fun i hi => (b6 i hi).trans (a6 i hi)⟩

theorem each_out {n : Nat} (f : Nat → ℝ → ℝ) (a : Nat → ℝ) {i : Nat} (h : n ≤ i) : each n f a i = a i := by
  unfold each; rw [if_neg (by omega)]

theorem addF_keeps (k : ℝ → ℝ) (scale : ℝ) (ign : Bool) (s : St) : ∃ d, addF k scale ign s = s.setG d := by
  unfold addF; split
  · exact ⟨s.G.data, rfl⟩
  · exact ⟨_, rfl⟩

theorem lossF_keeps (c : Cfg) (s : St) : ∃ d, lossF c s = s.setG d := by
  obtain ⟨d, h⟩ := addF_keeps sgn c.l1 c.l1IgnBias s
  obtain ⟨d', h'⟩ := addF_keeps id c.l2 c.l2IgnBias (addF sgn c.l1 c.l1IgnBias s)
  exact ⟨d', by unfold lossF; rw [h', h]; rfl⟩

theorem fill_out {n : Nat} {v : ℝ} {a : Nat → ℝ} {i : Nat} (h : n ≤ i) : fillWith n v a i = a i := by
  unfold fillWith; rw [if_neg (by omega)]

theorem copy_out {n : Nat} {v a : Nat → ℝ} {i : Nat} (h : n ≤ i) : copyTo n v a i = a i := by
  unfold copyTo; rw [if_neg (by omega)]

theorem firstF_out (c : Cfg) (f : Bool) (s : St) (hr : Ready c s) : OutsideSame s (firstF c f s) := by
  have ha := hr.a
  have hb := hr.b
  unfold firstF
  cases hc : c.type <;> cases f <;> simp only [if_true, Bool.false_eq_true, if_false] <;> try exact OutsideSame.refl s
  all_goals
    rw [hc] at ha hb
    have ha := ha rfl
    have hb := hb rfl
    exact ⟨fun _ _ => rfl, fun _ _ => rfl, fun i hi => fill_out (hi.resolve_right (by simp [ha])),
      fun i hi => fill_out (hi.resolve_right (by simp [hb])), fun _ _ => rfl, fun _ _ => rfl⟩

theorem optF_out (c : Cfg) (f : Bool) (s : St) (hr : Ready c s) : OutsideSame s (optF c f s) := by
  refine (firstF_out c f s hr).trans (firstF_same c f s) ?_
  have hr' := (firstF_same c f s).ready hr
  unfold optF
  generalize firstF c f s = u at hr'
  dsimp only
  have ha := hr'.a
  have hb := hr'.b
  refine ⟨fun _ _ => rfl, fun _ _ => rfl, fun i hi => ?_, fun i hi => ?_, fun _ _ => rfl, fun _ _ => rfl⟩
  · dsimp only
    by_cases h : u.n ≤ i
    · exact each_out _ _ h
    · have h2 := hi.resolve_left h
      unfold each; rw [if_pos (by omega)]
      unfold optCell St.cell
      cases hc : c.type <;> first | rfl | (rw [hc] at ha; rw [ha rfl] at h2; cases h2)
  · dsimp only
    by_cases h : u.n ≤ i
    · exact each_out _ _ h
    · have h2 := hi.resolve_left h
      unfold each; rw [if_pos (by omega)]
      unfold optCell St.cell
      cases hc : c.type <;> first | rfl | (cases f <;> rfl) | (rw [hc] at hb; rw [hb rfl] at h2; cases h2)

theorem ilrF_out (c : Cfg) (f : Bool) (s : St) (hr : Ready c s) : OutsideSame s (ilrF c f s) := by
  unfold ilrF
  by_cases hu : c.useILR = false
  · rw [if_pos hu]; exact OutsideSame.refl s
  · rw [if_neg hu]
    have hu' : c.useILR = true := by simpa using hu
    have hg := hr.gain hu'
    cases hm : c.ilrUseMom with
    | true =>
      cases f with
      | true => exact OutsideSame.refl s
      | false =>
        simp only [Bool.false_eq_true, if_false, if_true]
        refine ⟨fun _ _ => rfl, fun _ _ => rfl, fun _ _ => rfl, fun _ _ => rfl, fun i hi => ?_, fun _ _ => rfl⟩
        dsimp only
        exact each_out _ _ (hi.resolve_right (by simp [hg]))
    | false =>
      have hp := hr.prev hu' hm
      cases f with
      | true => exact ⟨fun _ _ => rfl, fun _ _ => rfl, fun _ _ => rfl, fun _ _ => rfl, fun _ _ => rfl, fun i hi => copy_out (hi.resolve_right (by simp [hp]))⟩
      | false =>
        simp only [Bool.false_eq_true, if_false, if_true]
        refine ⟨fun _ _ => rfl, fun _ _ => rfl, fun _ _ => rfl, fun _ _ => rfl, fun i hi => ?_, fun i hi => ?_⟩
        · dsimp only
          exact each_out _ _ (hi.resolve_right (by simp [hg]))
        · dsimp only
          exact copy_out (hi.resolve_right (by simp [hp]))

theorem setG_out (s : St) (d : Nat → ℝ) : OutsideSame s (s.setG d) :=
  ⟨fun _ _ => rfl, fun _ _ => rfl, fun _ _ => rfl, fun _ _ => rfl, fun _ _ => rfl, fun _ _ => rfl⟩

theorem setW_out (s : St) (f : Nat → ℝ → ℝ) : OutsideSame s (s.setW (each s.n f s.W.data)) := by
  refine ⟨fun i hi => ?_, fun _ _ => rfl, fun _ _ => rfl, fun _ _ => rfl, fun _ _ => rfl, fun _ _ => rfl⟩
  show each s.n f s.W.data i = _
  exact each_out f s.W.data hi

theorem setV_out (s : St) (f : Nat → ℝ → ℝ) (hv : s.hasV = true) : OutsideSame s { s with V := each s.n f s.V } := by
  refine ⟨fun _ _ => rfl, fun i hi => ?_, fun _ _ => rfl, fun _ _ => rfl, fun _ _ => rfl, fun _ _ => rfl⟩
  exact each_out f s.V (hi.resolve_right (by simp [hv]))

theorem subF_out (c : Cfg) (draw : Nat → ℝ) (s : St) : OutsideSame s (subF c draw s) :=
  (setG_out s (maskF c draw s.n s.G.data)).trans ⟨rfl, rfl, rfl⟩
    (setW_out (s.setG (maskF c draw s.n s.G.data)) (fun i w => w - maskF c draw s.n s.G.data i))

theorem updF_out (c : Cfg) (draw : Nat → ℝ) (s : St) (hr : Ready c s) : OutsideSame s (updF c draw s) := by
  unfold updF
  by_cases hm : c.useMom = false
  · rw [if_pos hm]; exact subF_out c draw s
  · rw [if_neg hm]
    have hv := hr.v (by simpa using hm)
    split
    · exact (setV_out s _ hv).trans ⟨rfl, rfl, rfl⟩ (subF_out c draw _)
    · dsimp only
      have h := setV_out s (fun i v => c.mom * v + s.G.data i) hv
      split
      · refine h.trans ⟨rfl, rfl, rfl⟩ ?_
        refine OutsideSame.trans (setG_out _ (copyTo s.n (each s.n (fun i v => c.mom * v + s.G.data i) s.V) s.G.data)) ?_ (subF_out c draw _)
        exact ⟨rfl, rfl, rfl⟩
      · exact h.trans ⟨rfl, rfl, rfl⟩ (setW_out { s with V := each s.n (fun i v => c.mom * v + s.G.data i) s.V } _)

theorem normF_out (c : Cfg) (s : St) : OutsideSame s (normF c s) := by
  unfold normF; split
  · exact OutsideSame.refl s
  · refine ⟨fun i hi => ?_, fun _ _ => rfl, fun _ _ => rfl, fun _ _ => rfl, fun _ _ => rfl, fun _ _ => rfl⟩
    show normRows _ _ _ _ _ i = _
    unfold normRows scaleRows
    rw [if_neg (by omega)]

theorem preF_out (c : Cfg) (b : Bool) (draw : Nat → ℝ) (s : St) (hr : Ready c s) : OutsideSame s (preF c b draw s) := by
  unfold preF
  split
  case isTrue h =>
    have hv := hr.v (by simp at h; exact h.2.1)
    have h1 := setV_out s (fun _ v => v * c.mom) hv
    refine OutsideSame.trans ?_ ?_ (normF_out c _)
    rotate_left
    · exact ⟨rfl, rfl, rfl⟩
    refine h1.trans ⟨rfl, rfl, rfl⟩ ?_
    split
    · exact setW_out { s with V := each s.n (fun _ v => v * c.mom) s.V } _
    · exact setW_out { s with V := each s.n (fun _ v => v * c.mom) s.V } (fun i w => w - s.V i * c.mom)
  case isFalse h => exact OutsideSame.refl s

theorem applyF_out (c : Cfg) (b : Bool) (draw : Nat → ℝ) (s : St) (hr : Ready c s) : OutsideSame s (applyF c b draw s) := by
  have h0 : OutsideSame s (lossF c s) := by
    obtain ⟨d, hd⟩ := lossF_keeps c s
    rw [hd]
    exact ⟨fun _ _ => rfl, fun _ _ => rfl, fun _ _ => rfl, fun _ _ => rfl, fun _ _ => rfl, fun _ _ => rfl⟩
  unfold applyF
  split
  · exact h0
  · have k0 := lossF_same c s
    have r0 := k0.ready hr
    refine h0.trans k0 ?_
    generalize lossF c s = u at r0
    have r1 : Ready c u.ran := ⟨r0.1, r0.2, r0.3, r0.4, r0.5⟩
    have h1 : OutsideSame u u.ran := ⟨fun _ _ => rfl, fun _ _ => rfl, fun _ _ => rfl, fun _ _ => rfl, fun _ _ => rfl, fun _ _ => rfl⟩
    refine h1.trans ⟨rfl, rfl, rfl⟩ ?_
    refine (optF_out c u.firstRun u.ran r1).trans (optF_same c _ _) ?_
    have r2 := (optF_same c u.firstRun u.ran).ready r1
    refine (ilrF_out c u.firstRun _ r2).trans (ilrF_same c _ _) ?_
    have r3 := (ilrF_same c u.firstRun (optF c u.firstRun u.ran)).ready r2
    exact (updF_out c draw _ r3).trans (updF_same c draw _) (normF_out c _)

theorem OutsideSame.kept {s t u : St} (h : OutsideSame s t) (k : Kept s t) (q : OutsideSame t u) : OutsideSame s u := by
  obtain ⟨a1, a2, a3, a4, a5, a6⟩ := h
  obtain ⟨b1, b2, b3, b4, b5, b6⟩ := q
  have hf := k.flags
  simp only [Prod.mk.injEq] at hf
  obtain ⟨f1, f2, f3, f4, f5⟩ := hf
  rw [k.rows, k.cols] at b1 b2 b3 b4 b5 b6
  rw [f1] at b2; rw [f2] at b3; rw [f3] at b4; rw [f4] at b5; rw [f5] at b6
  exact ⟨fun i hi => (b1 i hi).trans (a1 i hi), fun i hi => (b2 i hi).trans (a2 i hi), fun i hi => (b3 i hi).trans (a3 i hi),
    fun i hi => (b4 i hi).trans (a4 i hi), fun i hi => (b5 i hi).trans (a5 i hi), fun i hi => (b6 i hi).trans (a6 i hi)⟩

theorem stepF_out (e : Ev) (s : St) (he : e.Fits s) : OutsideSame s (stepF e s) := by
  cases e with
  | pre c b d => exact preF_out c b d s he
  | apply c b g d =>
    have hr : Ready c (s.withG g) := ⟨he.1.1, he.1.2, he.1.3, he.1.4, he.1.5⟩
    have h := applyF_out c b d (s.withG g) hr
    exact ⟨h.1, h.2, h.3, h.4, h.5, h.6⟩
  | setGamma x => exact ⟨fun _ _ => rfl, fun _ _ => rfl, fun _ _ => rfl, fun _ _ => rfl, fun _ _ => rfl, fun _ _ => rfl⟩

/-- C202. Whatever the settings, gradients, random numbers and threads are: a history of calls of the optimiser writes to no memory behind the last element
of the weights, of the velocity, of its own matrices, or of the gains, and to no matrix that was not allocated. -/
theorem optimiser_writes_only_its_matrices {E : Env} (hE : E.Ok) (es : List Ev) (s : St) (hs : WeightsOk s.W) (hf : ∀ e, e ∈ es → e.Fits s)
    (o : Option St) (h : run E es s o) : ∃ t, o = some t ∧ OutsideSame s t := by
  refine ⟨_, (run_iff hE es hs hf o).1 h, ?_⟩
  clear h o hs
  induction es generalizing s with
  | nil => exact OutsideSame.refl s
  | cons e es ih =>
    have he := hf e (List.mem_cons_self ..)
    have hk := stepF_kept e s
    exact (stepF_out e s he).kept hk (ih _ fun e' he' => (hf e' (List.mem_cons_of_mem _ he')).kept hk)

/-- Agreement including the gradient. -/
structure AgreeG (I : Nat → Prop) (s t : St) : Prop where
  all : AgreeAt I s t
  grad : ∀ i, I i → t.G.data i = s.G.data i

/-- With each index of the matrix, all indices of its row are in `I`. -/
def RowClosed (rows cols : Nat) (I : Nat → Prop) : Prop := ∀ i, I i → i < rows * cols → ∀ k, k < cols → I (i % rows + rows * k)

theorem each_agree {I : Nat → Prop} {n m : Nat} (hn : m = n) {f g : Nat → ℝ → ℝ} {a b : Nat → ℝ} (hf : ∀ i x, I i → g i x = f i x)
    (ha : ∀ i, I i → b i = a i) : ∀ i, I i → each m g b i = each n f a i := by
  intro i hi
  subst hn
  unfold each
  split
  · rw [hf i _ hi, ha i hi]
  · exact ha i hi

theorem copy_agree {I : Nat → Prop} {n m : Nat} (hn : m = n) {f g a b : Nat → ℝ} (hf : ∀ i, I i → g i = f i)
    (ha : ∀ i, I i → b i = a i) : ∀ i, I i → copyTo m g b i = copyTo n f a i := by
  intro i hi
  subst hn
  unfold copyTo
  split
  · exact hf i hi
  · exact ha i hi

theorem fill_agree {I : Nat → Prop} {n m : Nat} (hn : m = n) {v : ℝ} {a b : Nat → ℝ}
    (ha : ∀ i, I i → b i = a i) : ∀ i, I i → fillWith m v b i = fillWith n v a i := by
  intro i hi
  subst hn
  unfold fillWith
  split
  · rfl
  · exact ha i hi

theorem AgreeAt.n {I : Nat → Prop} {s t : St} (h : AgreeAt I s t) : t.n = s.n := by unfold St.n; rw [h.rows, h.cols]

theorem AgreeG.setG {I : Nat → Prop} {s t : St} (h : AgreeG I s t) {d d' : Nat → ℝ} (hd : ∀ i, I i → d' i = d i) : AgreeG I (s.setG d) (t.setG d') :=
  ⟨⟨h.all.rows, h.all.cols, h.all.weights, h.all.velocity, h.all.first, h.all.second, h.all.gains, h.all.previous, h.all.powers, h.all.gamma, h.all.firstRun⟩, hd⟩

theorem AgreeG.setW {I : Nat → Prop} {s t : St} (h : AgreeG I s t) {d d' : Nat → ℝ} (hd : ∀ i, I i → d' i = d i) : AgreeG I (s.setW d) (t.setW d') :=
  ⟨⟨h.all.rows, h.all.cols, hd, h.all.velocity, h.all.first, h.all.second, h.all.gains, h.all.previous, h.all.powers, h.all.gamma, h.all.firstRun⟩, h.grad⟩

theorem AgreeG.setV {I : Nat → Prop} {s t : St} (h : AgreeG I s t) {d d' : Nat → ℝ} (hd : ∀ i, I i → d' i = d i) :
    AgreeG I { s with V := d } { t with V := d' } :=
  ⟨⟨h.all.rows, h.all.cols, h.all.weights, hd, h.all.first, h.all.second, h.all.gains, h.all.previous, h.all.powers, h.all.gamma, h.all.firstRun⟩, h.grad⟩

theorem addF_agree {I : Nat → Prop} (k : ℝ → ℝ) (scale : ℝ) (ign : Bool) {s t : St} (h : AgreeG I s t) :
    AgreeG I (addF k scale ign s) (addF k scale ign t) := by
  unfold addF; split
  · exact h
  · refine h.setG (each_agree ?_ (fun i x hi => ?_) h.grad)
    · unfold St.added; rw [h.all.rows, h.all.cols]
    · rw [h.all.weights i hi]

theorem lossF_agree {I : Nat → Prop} (c : Cfg) {s t : St} (h : AgreeG I s t) : AgreeG I (lossF c s) (lossF c t) :=
  addF_agree _ _ _ (addF_agree _ _ _ h)

theorem firstF_agree {I : Nat → Prop} (c : Cfg) (f : Bool) {s t : St} (h : AgreeG I s t) : AgreeG I (firstF c f s) (firstF c f t) := by
  obtain ⟨⟨h1, h2, h3, h4, h5, h6, h7, h8, h9, h10, h11⟩, hg⟩ := h
  have hn : t.n = s.n := by unfold St.n; rw [h1, h2]
  unfold firstF
  cases hc : c.type <;> cases f <;> simp only [if_true, Bool.false_eq_true, if_false] <;>
    try exact ⟨⟨h1, h2, h3, h4, h5, h6, h7, h8, h9, h10, h11⟩, hg⟩
  · exact ⟨⟨h1, h2, h3, h4, fill_agree hn h5, fill_agree hn h6, h7, h8, ⟨rfl, rfl⟩, h10, h11⟩, hg⟩
  · exact ⟨⟨h1, h2, h3, h4, fill_agree hn h5, fill_agree hn h6, h7, h8, ⟨rfl, h9.2⟩, h10, h11⟩, hg⟩
  · exact ⟨⟨h1, h2, h3, h4, fill_agree hn h5, fill_agree hn h6, h7, h8, ⟨rfl, rfl⟩, rfl, h11⟩, hg⟩
  · exact ⟨⟨h1, h2, h3, h4, fill_agree hn h5, fill_agree hn h6, h7, h8, ⟨rfl, rfl⟩, h10, h11⟩, hg⟩

theorem optF_agree {I : Nat → Prop} (c : Cfg) (f : Bool) {s t : St} (h : AgreeG I s t) : AgreeG I (optF c f s) (optF c f t) := by
  have h := firstF_agree c f h
  unfold optF
  generalize firstF c f s = u at h
  generalize firstF c f t = v at h
  dsimp only
  obtain ⟨⟨h1, h2, h3, h4, h5, h6, h7, h8, h9, h10, h11⟩, hg⟩ := h
  have hn : v.n = u.n := by unfold St.n; rw [h1, h2]
  have hp : powF c v = powF c u := by unfold powF; rw [h9.1, h9.2]
  have hcell : ∀ i, I i → optCell c f (powF c v) v.gamma (v.cell i) = optCell c f (powF c u) u.gamma (u.cell i) := by
    intro i hi
    have : v.cell i = u.cell i := by unfold St.cell; rw [hg i hi, h5 i hi, h6 i hi]
    rw [this, hp, h10]
  refine ⟨⟨h1, h2, h3, h4, ?_, ?_, h7, h8, ?_, h10, h11⟩, ?_⟩
  · dsimp only [St.setG]
    exact each_agree hn (fun i x hi => by rw [hcell i hi]) h5
  · dsimp only [St.setG]
    exact each_agree hn (fun i x hi => by rw [hcell i hi]) h6
  · exact ⟨by rw [hp], by rw [hp]⟩
  · dsimp only [St.setG]
    exact each_agree hn (fun i x hi => by rw [hcell i hi]) hg

theorem ilrF_agree {I : Nat → Prop} (c : Cfg) (f : Bool) {s t : St} (h : AgreeG I s t) : AgreeG I (ilrF c f s) (ilrF c f t) := by
  have h' := h
  obtain ⟨⟨h1, h2, h3, h4, h5, h6, h7, h8, h9, h10, h11⟩, hg⟩ := h'
  have hn : t.n = s.n := by unfold St.n; rw [h1, h2]
  unfold ilrF
  split
  · exact h
  · cases hm : c.ilrUseMom <;> cases f <;> simp only [if_true, Bool.false_eq_true, if_false]
    · have e1 : ∀ i, I i → each t.n (fun i g => g * gainFactor c.decr c.incr c.capLow c.capHigh (t.prev i * t.G.data i) g) t.gain i =
          each s.n (fun i g => g * gainFactor c.decr c.incr c.capLow c.capHigh (s.prev i * s.G.data i) g) s.gain i :=
        each_agree hn (fun i x hi => by rw [h8 i hi, hg i hi]) h7
      have e2 := each_agree (I := I) hn (f := fun i d => d * each s.n (fun i g => g * gainFactor c.decr c.incr c.capLow c.capHigh (s.prev i * s.G.data i) g) s.gain i)
        (g := fun i d => d * each t.n (fun i g => g * gainFactor c.decr c.incr c.capLow c.capHigh (t.prev i * t.G.data i) g) t.gain i)
        (fun i x hi => by rw [e1 i hi]) hg
      exact ⟨⟨h1, h2, h3, h4, h5, h6, e1, copy_agree hn e2 h8, h9, h10, h11⟩, e2⟩
    · exact ⟨⟨h1, h2, h3, h4, h5, h6, h7, copy_agree hn hg h8, h9, h10, h11⟩, hg⟩
    · have e1 : ∀ i, I i → each t.n (fun i g => g * gainFactor c.decr c.incr c.capLow c.capHigh (t.V i * t.G.data i) g) t.gain i =
          each s.n (fun i g => g * gainFactor c.decr c.incr c.capLow c.capHigh (s.V i * s.G.data i) g) s.gain i :=
        each_agree hn (fun i x hi => by rw [h4 i hi, hg i hi]) h7
      have e2 := each_agree (I := I) hn (f := fun i d => d * each s.n (fun i g => g * gainFactor c.decr c.incr c.capLow c.capHigh (s.V i * s.G.data i) g) s.gain i)
        (g := fun i d => d * each t.n (fun i g => g * gainFactor c.decr c.incr c.capLow c.capHigh (t.V i * t.G.data i) g) t.gain i)
        (fun i x hi => by rw [e1 i hi]) hg
      exact ⟨⟨h1, h2, h3, h4, h5, h6, e1, h8, h9, h10, h11⟩, e2⟩
    · exact h

theorem subF_agree {I : Nat → Prop} (c : Cfg) {draw draw' : Nat → ℝ} (hd : ∀ i, I i → draw' i = draw i) {s t : St} (h : AgreeG I s t) :
    AgreeG I (subF c draw s) (subF c draw' t) := by
  have e : ∀ i, I i → maskF c draw' t.n t.G.data i = maskF c draw s.n s.G.data i := by
    unfold maskF
    split
    · exact each_agree h.all.n (fun i x hi => by rw [hd i hi]) h.grad
    · exact h.grad
  exact (h.setG e).setW (each_agree h.all.n (fun i x hi => by rw [e i hi]) h.all.weights)

theorem updF_agree {I : Nat → Prop} (c : Cfg) {draw draw' : Nat → ℝ} (hd : ∀ i, I i → draw' i = draw i) {s t : St} (h : AgreeG I s t) :
    AgreeG I (updF c draw s) (updF c draw' t) := by
  unfold updF
  split
  · exact subF_agree c hd h
  · split
    · exact subF_agree c hd (h.setV (each_agree h.all.n (fun i x hi => by rw [h.grad i hi]) h.all.velocity))
    · dsimp only
      have hv := each_agree (I := I) h.all.n (f := fun i v => c.mom * v + s.G.data i) (g := fun i v => c.mom * v + t.G.data i)
        (fun i x hi => by rw [h.grad i hi]) h.all.velocity
      split
      · exact subF_agree c hd ((h.setV hv).setG (copy_agree h.all.n hv h.grad))
      · exact (h.setV hv).setW (each_agree h.all.n (fun i x hi => by rw [hv i hi]) h.all.weights)

theorem normF_agree {I : Nat → Prop} (c : Cfg) {s t : St} (hc : c.useMaxNorm = false ∨ RowClosed s.W.rows s.W.cols I) (h : AgreeG I s t) :
    AgreeG I (normF c s) (normF c t) := by
  unfold normF
  split
  · exact h
  case isFalse hm =>
    have hc := hc.resolve_left hm
    refine h.setW fun i hi => ?_
    rw [h.all.rows, h.all.cols]
    unfold normRows scaleRows
    split
    case isTrue hlt =>
      have e : rowNorm2 t.W.data s.W.rows (if c.normInclBias then s.W.cols else s.W.cols - 1) (i % s.W.rows) =
          rowNorm2 s.W.data s.W.rows (if c.normInclBias then s.W.cols else s.W.cols - 1) (i % s.W.rows) := by
        unfold rowNorm2
        refine congrArg List.sum (List.map_congr_left fun k hk => ?_)
        have hk : k < s.W.cols := by
          have := List.mem_range.1 hk
          split at this <;> omega
        rw [h.all.weights _ (hc i hi hlt k hk)]
      show t.W.data i * normCoef _ _ = s.W.data i * normCoef _ _
      rw [e, h.all.weights i hi]
    · exact h.all.weights i hi

theorem preF_agree {I : Nat → Prop} (c : Cfg) (b : Bool) {draw draw' : Nat → ℝ} (hd : ∀ i, I i → draw' i = draw i) {s t : St}
    (hc : c.useMaxNorm = false ∨ RowClosed s.W.rows s.W.cols I) (h : AgreeG I s t) : AgreeG I (preF c b draw s) (preF c b draw' t) := by
  unfold preF
  split
  · refine normF_agree c hc ?_
    have hv := each_agree (I := I) h.all.n (f := fun _ v => v * c.mom) (g := fun _ v => v * c.mom) (fun i x hi => rfl) h.all.velocity
    split
    · have hv' := each_agree (I := I) h.all.n (f := fun i v => v * (if draw i < c.lrDrop then 1 else 0)) (g := fun i v => v * (if draw' i < c.lrDrop then 1 else 0))
        (fun i x hi => by rw [hd i hi]) hv
      exact (h.setV hv).setW (each_agree h.all.n (fun i x hi => by rw [hv' i hi]) h.all.weights)
    · exact (h.setV hv).setW (each_agree h.all.n (fun i x hi => by rw [h.all.velocity i hi]) h.all.weights)
  · exact h

theorem applyF_agree {I : Nat → Prop} (c : Cfg) (b : Bool) {draw draw' : Nat → ℝ} (hd : ∀ i, I i → draw' i = draw i) {s t : St}
    (hc : c.useMaxNorm = false ∨ RowClosed s.W.rows s.W.cols I) (h : AgreeG I s t) : AgreeG I (applyF c b draw s) (applyF c b draw' t) := by
  unfold applyF
  have h0 := lossF_agree c h
  split
  · exact h0
  · have k0 := lossF_same c s
    rw [← k0.rows, ← k0.cols] at hc
    generalize lossF c s = u at h0 hc
    generalize lossF c t = v at h0
    rw [h0.all.firstRun]
    have h1 : AgreeG I u.ran v.ran :=
      ⟨⟨h0.all.rows, h0.all.cols, h0.all.weights, h0.all.velocity, h0.all.first, h0.all.second, h0.all.gains, h0.all.previous, h0.all.powers, h0.all.gamma, rfl⟩, h0.grad⟩
    refine normF_agree c ?_ (updF_agree c hd (ilrF_agree c u.firstRun (optF_agree c u.firstRun h1)))
    have k : Same u.ran (updF c draw (ilrF c u.firstRun (optF c u.firstRun u.ran))) :=
      (optF_same c _ _).trans ((ilrF_same c _ _).trans (updF_same c draw _))
    rw [k.rows, k.cols]
    exact hc

theorem stepF_agree {I : Nat → Prop} {e e' : Ev} (he : CallsAgreeAt I e e') {s t : St} (hc : NoLimit e ∨ RowClosed s.W.rows s.W.cols I)
    (h : AgreeAt I s t) : AgreeAt I (stepF e s) (stepF e' t) := by
  cases e with
  | pre c b d =>
    cases e' with
    | pre c' b' d' =>
      obtain ⟨h1, h2, h3⟩ := he
      subst h1; subst h2
      have h' : AgreeG I (s.withG s.G) (t.withG s.G) :=
        ⟨⟨h.rows, h.cols, h.weights, h.velocity, h.first, h.second, h.gains, h.previous, h.powers, h.gamma, h.firstRun⟩, fun _ _ => rfl⟩
      have r := (preF_agree c' b' h3 (s := s.withG s.G) hc h').all
      rw [preF_withG, preF_withG] at r
      exact ⟨r.rows, r.cols, r.weights, r.velocity, r.first, r.second, r.gains, r.previous, r.powers, r.gamma, r.firstRun⟩
    | apply => cases he
    | setGamma => cases he
  | apply c b g d =>
    cases e' with
    | apply c' b' g' d' =>
      obtain ⟨h1, h2, h3, h4⟩ := he
      subst h1; subst h2
      have h' : AgreeG I (s.withG g) (t.withG g') :=
        ⟨⟨h.rows, h.cols, h.weights, h.velocity, h.first, h.second, h.gains, h.previous, h.powers, h.gamma, h.firstRun⟩, h3⟩
      exact (applyF_agree c' b' h4 (s := s.withG g) hc h').all
    | pre => cases he
    | setGamma => cases he
  | setGamma x =>
    cases e' with
    | setGamma x' =>
      have h1 : x' = x := he
      subst h1
      exact ⟨h.rows, h.cols, h.weights, h.velocity, h.first, h.second, h.gains, h.previous, h.powers, rfl, h.firstRun⟩
    | pre => cases he
    | apply => cases he

theorem run_agree {I : Nat → Prop} {es es' : List Ev} (he : List.Forall₂ (CallsAgreeAt I) es es') : ∀ {s t : St},
    (∀ e, e ∈ es → NoLimit e ∨ RowClosed s.W.rows s.W.cols I) → AgreeAt I s t →
    AgreeAt I (es.foldl (fun s e => stepF e s) s) (es'.foldl (fun s e => stepF e s) t) := by
  induction he with
  | nil => intro s t _ h; exact h
  | @cons e e' _ _ h1 _ ih =>
    intro s t hc h
    have hk := stepF_kept e s
    refine ih (fun e' he' => ?_) (stepF_agree h1 (hc _ (List.mem_cons_self ..)) h)
    rw [hk.rows, hk.cols]
    exact hc e' (List.mem_cons_of_mem _ he')

theorem inRow_closed {rows cols r : Nat} (hr : r < rows) : RowClosed rows cols (InRow rows cols r) := by
  rintro i ⟨k, hk, rfl⟩ _ k' hk'
  refine ⟨k', hk', ?_⟩
  rw [Nat.add_mul_mod_self_left, Nat.mod_eq_of_lt hr]

/-- C202. The weights of a neuron depend on nothing but this neuron's own weights, gradients, random numbers and optimiser data: if two histories of the
same calls agree in these, then however different all other neurons are, and whatever the threads do, they agree after it. All settings are allowed,
also a limit of the lengths of the weight vectors. -/
theorem neurons_do_not_influence_each_other {E E' : Env} (hE : E.Ok) (hE' : E'.Ok) (es es' : List Ev) (s t : St) (hs : WeightsOk s.W) (ht : WeightsOk t.W)
    (hf : ∀ e, e ∈ es → e.Fits s) (hf' : ∀ e, e ∈ es' → e.Fits t) (r : Nat) (hr : r < s.W.rows)
    (hst : AgreeAt (InRow s.W.rows s.W.cols r) s t) (hes : List.Forall₂ (CallsAgreeAt (InRow s.W.rows s.W.cols r)) es es')
    (o o' : Option St) (h : run E es s o) (h' : run E' es' t o') :
    ∃ u v, o = some u ∧ o' = some v ∧ AgreeAt (InRow s.W.rows s.W.cols r) u v :=
  ⟨_, _, (run_iff hE es hs hf o).1 h, (run_iff hE' es' ht hf' o').1 h', run_agree hes (fun _ _ => Or.inr (inRow_closed hr)) hst⟩

/-- C202. Without a limit of lengths even every single weight depends on nothing but its own gradients, random numbers and optimiser data. -/
theorem weights_do_not_influence_each_other {E E' : Env} (hE : E.Ok) (hE' : E'.Ok) (es es' : List Ev) (s t : St) (hs : WeightsOk s.W) (ht : WeightsOk t.W)
    (hf : ∀ e, e ∈ es → e.Fits s) (hf' : ∀ e, e ∈ es' → e.Fits t) (hn : ∀ e, e ∈ es → NoLimit e) (i : Nat)
    (hst : AgreeAt (fun j => j = i) s t) (hes : List.Forall₂ (CallsAgreeAt fun j => j = i) es es')
    (o o' : Option St) (h : run E es s o) (h' : run E' es' t o') :
    ∃ u v, o = some u ∧ o' = some v ∧ AgreeAt (fun j => j = i) u v :=
  ⟨_, _, (run_iff hE es hs hf o).1 h, (run_iff hE' es' ht hf' o').1 h', run_agree hes (fun e he => Or.inl (hn e he)) hst⟩

/-- With a limit of lengths a weight does depend on the other weights of its neuron: two optimisers agree at element 0 and get gradients that agree there,
but the weights differ after one step. -/
theorem limit_couples_the_weights_of_a_neuron : ∃ (c : Cfg) (s t u v : St), WeightsOk s.W ∧ WeightsOk t.W ∧ AgreeAt (fun j => j = 0) s t ∧
    run demoEnv [.apply c false { demoW with data := fun _ => 0 } fun _ => 0] s (some u) ∧
    run demoEnv [.apply c false { demoW with data := fun _ => 0 } fun _ => 0] t (some v) ∧ u.W.data 0 ≠ v.W.data 0 := by
  let c : Cfg := { demoCfg .classicalConstant false false with useMaxNorm := true }
  let W1 : Mtx ℝ := { demoW with data := fun i => if i = 0 then 1 else 0 }
  let W2 : Mtx ℝ := { demoW with data := fun i => if i = 0 then 1 else 1 }
  have ok : ∀ d, WeightsOk ({ demoW with data := d } : Mtx ℝ) := fun d => ⟨demoW_ok.1, demoW_ok.2, demoW_ok.3, demoW_ok.4, demoW_ok.5⟩
  have fits : ∀ d, Ev.Fits (initState c ({ demoW with data := d } : Mtx ℝ) 0) (.apply c false { demoW with data := fun _ => 0 } fun _ => 0) :=
    fun d => ⟨⟨fun h => h, fun h => h, fun h => h, fun h => h, fun h => by cases h⟩, ok _, rfl, rfl⟩
  have val : ∀ d : Nat → ℝ, (stepF (.apply c false { demoW with data := fun _ => 0 } fun _ => 0) (initState c ({ demoW with data := d } : Mtx ℝ) 0)).W.data 0 =
      d 0 * normCoef 1 (d 0 * d 0 + d 2 * d 2) := by
    intro d
    simp [stepF, applyF, c, demoCfg, normF, updF, subF, maskF, ilrF, optF, firstF, powF, optCell, lossF, addF, St.withG, St.setG, St.setW, St.ran, St.n,
      each, initState, demoW, normRows, scaleRows, rowNorm2, Cfg.bLRDropout, St.cell, List.range_succ]
  refine ⟨c, initState c W1 0, initState c W2 0, _, _, ok _, ok _, ⟨rfl, rfl, ?_, fun _ _ => rfl, fun _ _ => rfl, fun _ _ => rfl, fun _ _ => rfl, fun _ _ => rfl,
    ⟨rfl, rfl⟩, rfl, rfl⟩, (run_iff demoEnv_ok _ (ok _) (by simpa using fits _) _).2 rfl, (run_iff demoEnv_ok _ (ok _) (by simpa using fits _) _).2 rfl, ?_⟩
  · rintro i rfl; rfl
  · rw [List.foldl_cons, List.foldl_cons, List.foldl_nil, List.foldl_nil]
    rw [val, val]
    simp only [if_true, normCoef]
    norm_num

/-- The hypotheses can be met: two steps with Adam, gains, Nesterov momentum and a limit of lengths, with gradients that differ in the second neuron; the
weights of the first neuron are the same. -/
example : ∃ (c : Cfg) (s u v : St), c.useMaxNorm = true ∧ c.nesterov = true ∧ c.useILR = true ∧
    run demoEnv [.pre c false fun _ => 0, .apply c false { demoW with data := fun _ => 1 } fun _ => 0, .pre c false fun _ => 0,
      .apply c false { demoW with data := fun i => i } fun _ => 0] s (some u) ∧
    run demoEnv [.pre c false fun _ => 0, .apply c false { demoW with data := fun i => if i % 2 = 0 then 1 else i } fun _ => 0, .pre c false fun _ => 0,
      .apply c false { demoW with data := fun i => if i % 2 = 0 then i else -1 } fun _ => 0] s (some v) ∧
    (∀ k, k < 3 → v.W.data (0 + 2 * k) = u.W.data (0 + 2 * k)) ∧ ∀ i, 6 ≤ i → u.W.data i = i := by
  let c : Cfg := { demoCfg .adam true true with useMaxNorm := true, useILR := true }
  have ok : ∀ d, WeightsOk ({ demoW with data := d } : Mtx ℝ) := fun d => ⟨demoW_ok.1, demoW_ok.2, demoW_ok.3, demoW_ok.4, demoW_ok.5⟩
  have rdy : Ready c (initState c demoW 0) := ⟨fun _ => rfl, fun _ => rfl, fun _ => rfl, fun _ => rfl, fun _ _ => rfl⟩
  have fits : ∀ d, Ev.Fits (initState c demoW 0) (.apply c false { demoW with data := d } fun _ => 0) := fun d => ⟨rdy, ok _, rfl, rfl⟩
  have f : ∀ d d' : Nat → ℝ, ∀ e, e ∈ [Ev.pre c false fun _ => 0, .apply c false { demoW with data := d } fun _ => 0, .pre c false fun _ => 0,
      .apply c false { demoW with data := d' } fun _ => 0] → e.Fits (initState c demoW 0) := by
    intro d d' e he
    simp only [List.mem_cons, List.not_mem_nil, or_false] at he
    rcases he with rfl | rfl | rfl | rfl
    · exact rdy
    · exact fits d
    · exact rdy
    · exact fits d'
  have r1 := (run_iff demoEnv_ok _ demoW_ok (f (fun _ => 1) (fun i => i)) _).2 rfl
  have r2 := (run_iff demoEnv_ok _ demoW_ok (f (fun i => if i % 2 = 0 then 1 else i) (fun i => if i % 2 = 0 then i else -1)) _).2 rfl
  refine ⟨c, initState c demoW 0, _, _, rfl, rfl, rfl, r1, r2, ?_, ?_⟩
  · have even : ∀ i, InRow 2 3 0 i → i % 2 = 0 := by rintro i ⟨k, _, rfl⟩; omega
    obtain ⟨u, v, e1, e2, h⟩ := neurons_do_not_influence_each_other demoEnv_ok demoEnv_ok _ _ (initState c demoW 0) (initState c demoW 0) demoW_ok demoW_ok (f _ _) (f _ _)
      0 (by decide) ⟨rfl, rfl, fun _ _ => rfl, fun _ _ => rfl, fun _ _ => rfl, fun _ _ => rfl, fun _ _ => rfl, fun _ _ => rfl, ⟨rfl, rfl⟩, rfl, rfl⟩
      (.cons ⟨rfl, rfl, fun _ _ => rfl⟩ (.cons ⟨rfl, rfl, fun i hi => if_pos (even i hi), fun _ _ => rfl⟩ (.cons ⟨rfl, rfl, fun _ _ => rfl⟩
        (.cons ⟨rfl, rfl, fun i hi => if_pos (even i hi), fun _ _ => rfl⟩ .nil)))) _ _ r1 r2
    cases e1; cases e2
    exact fun k hk => h.weights _ ⟨k, hk, rfl⟩
  · obtain ⟨u, e1, h⟩ := optimiser_writes_only_its_matrices demoEnv_ok _ _ demoW_ok (f _ _) _ r1
    cases e1
    exact fun i hi => h.weights i hi

end Nntl.Grad
