import Verif.Sgd.Spec
import Verif.Pass.Det

/-! Layers as functions of their weights: one kind of layer after the other, then trees. -/
namespace Nntl.Sgd

open Nntl.Layers Nntl.Pass Nntl.Backprop
open Finset

/-! ### Lists of matrices -/

theorem Same.refl (ms : List MatInfo) (W : ℕ → Mat ℝ) : Same ms W W := fun _ _ _ _ _ _ _ => rfl
theorem Same.symm {ms : List MatInfo} {W W' : ℕ → Mat ℝ} (h : Same ms W W') : Same ms W' W := fun i m hi c hc j hj => (h i m hi c hc j hj).symm
theorem Same.trans {ms : List MatInfo} {W W' W'' : ℕ → Mat ℝ} (h : Same ms W W') (h' : Same ms W' W'') : Same ms W W'' :=
  fun i m hi c hc j hj => (h i m hi c hc j hj).trans (h' i m hi c hc j hj)

theorem lt_of_getElem? {β : Type} {l : List β} {i : ℕ} {a : β} (h : l[i]? = some a) : i < l.length := by
  by_contra hh
  rw [List.getElem?_eq_none (by omega)] at h
  cases h

theorem each_append {a b : List MatInfo} {P : ℕ → MatInfo → Prop} :
    (∀ i m, (a ++ b)[i]? = some m → P i m) ↔ (∀ i m, a[i]? = some m → P i m) ∧ ∀ i m, b[i]? = some m → P (a.length + i) m := by
  constructor
  · intro h
    refine ⟨fun i m hi => h i m ?_, fun i m hi => h _ m ?_⟩
    · rw [List.getElem?_append_left (lt_of_getElem? hi), hi]
    · rw [List.getElem?_append_right (by omega), show a.length + i - a.length = i by omega, hi]
  · intro h i m hi
    by_cases hl : i < a.length
    · rw [List.getElem?_append_left hl] at hi
      exact h.1 i m hi
    · rw [List.getElem?_append_right (by omega)] at hi
      have := h.2 _ m hi
      rwa [show a.length + (i - a.length) = i by omega] at this

theorem same_append {a b : List MatInfo} {W W' : ℕ → Mat ℝ} : Same (a ++ b) W W' ↔ Same a W W' ∧ Same b (after a.length W) (after a.length W') :=
  each_append

theorem same_glue {a : List MatInfo} {n : ℕ} (hn : n = a.length) (g h : ℕ → Mat ℝ) : Same a (glue n g h) g := by
  intro i m hi c _ j _
  unfold glue
  rw [if_pos (hn ▸ lt_of_getElem? hi)]

theorem after_glue (n : ℕ) (g h : ℕ → Mat ℝ) : after n (glue n g h) = h := by
  funext i
  unfold after glue
  rw [if_neg (by omega), show n + i - n = i by omega]

theorem same_retile {k : ℕ} {ms : List MatInfo} {W W' : ℕ → Mat ℝ} :
    Same (ms.map fun m => { m with tiles := k * m.tiles }) W W' ↔ Same ms W W' := by
  constructor
  · intro h i m hi
    exact h i { m with tiles := k * m.tiles } (by rw [List.getElem?_map, hi]; rfl)
  · intro h i m hi
    rw [List.getElem?_map, Option.map_eq_some_iff] at hi
    obtain ⟨m0, h0, rfl⟩ := hi
    exact h i m0 h0

theorem each_retile {k : ℕ} {ms : List MatInfo} {P : ℕ → MatInfo → Prop} :
    (∀ i m, (ms.map fun m : MatInfo => { m with tiles := k * m.tiles })[i]? = some m → P i m) ↔
    ∀ i m, ms[i]? = some m → P i { m with tiles := k * m.tiles } := by
  constructor
  · intro h i m hi
    exact h i { m with tiles := k * m.tiles } (by rw [List.getElem?_map, hi]; rfl)
  · intro h i m hi
    rw [List.getElem?_map, Option.map_eq_some_iff] at hi
    obtain ⟨m0, h0, rfl⟩ := hi
    exact h i m0 h0

/-! ### Layers as functions of their weights -/

def toWt (m : MatInfo) : Wt := ⟨m.rows, m.cols, m.tiles⟩

/-- The optimiser of the matrix `m` was given the gradient `g`, if its layer is trained. -/
def Moved (upd : ℕ → Bool) (m : MatInfo) (c : Cell) (g : Mat ℝ) (c' : Cell) : Prop :=
  if upd m.id then ∃ d : Mat ℝ, (∀ r < m.rows, ∀ j < m.cols, d r j = g r j) ∧ c' = c.apply d else c' = c

/-- The first `n`, then the others. -/
def join (n : ℕ) (f g : ℕ → Cell) : ℕ → Cell := fun i => if i < n then f i else g (i - n)

/-- Where the weights are in a state, and the weights with their optimisers. -/
structure Reader (S : Type) : Type 1 where
  get : S → ℕ → Mat ℝ
  cells : S → ℕ → Cell

def Reader.over {S T U : Type} (n : ℕ) (A : Reader S) (B : Reader T) (f : U → S) (g : U → T) : Reader U :=
  ⟨fun s => glue n (A.get (f s)) (B.get (g s)), fun s => join n (A.cells (f s)) (B.cells (g s))⟩

/-- What a reader finds are the matrices `ms` with their optimisers. -/
structure Reads {S : Type} (A : Reader S) (ms : List MatInfo) (gw : ℕ → ℕ → ℕ → GradWorks ℝ) : Prop where
  wts : ∀ s i m, ms[i]? = some m → A.get s i = (A.cells s i).w
  own : ∀ s i m, ms[i]? = some m → (A.cells s i).gw = gw m.id m.rows m.cols

/-- Two states have the same matrices and optimisers. -/
def Kept {S : Type} (A : Reader S) (ms : List MatInfo) (s s' : S) : Prop := ∀ i m, ms[i]? = some m → A.cells s' i = A.cells s i

/-- The second state is that of a forward pass; `Inv b` if the mode is `b`. -/
def Passed {S : Type} (A : Reader S) (ms : List MatInfo) (s s' : S) (Inv : Bool → Prop) : Prop :=
  ∀ i m, ms[i]? = some m → ∃ b : Bool, A.cells s' i = (if b then (A.cells s i).pre else A.cells s i) ∧ ∀ b', Inv b' → b = b'

/-- The second state is that after optimisers were given gradients. -/
def Stepped {S : Type} (A : Reader S) (ms : List MatInfo) (upd : ℕ → Bool) (s : S) (g : ℕ → Mat ℝ) (s' : S) : Prop :=
  ∀ i m, ms[i]? = some m → Moved upd m (A.cells s i) (g i) (A.cells s' i)

/-- The weights that `A` finds in the state `s` of a layer are the matrices `ms`; the layer calculates `F` of them, and gives gradients to their optimisers. -/
structure IsNet {o : Obj ℝ} {L : Law o} (D : Diff L) (A : Reader o.S) (ms : List MatInfo) (F : (ℕ → Mat ℝ) → (ℕ → ℝ) → ℕ → ℝ)
    (Sm : (ℕ → Mat ℝ) → (ℕ → ℝ) → Prop) (gw : ℕ → ℕ → ℕ → GradWorks ℝ) (upd : ℕ → Bool) : Prop where
  reads : Reads A ms gw
  ws : D.ws = ms.map toWt
  fwd : ∀ R s X, 0 < R → ∀ r < R, ∀ c < o.neurons, L.fwd R s X r c = F (A.get s) (X r) c
  line : ∀ s V t, Same ms (A.get (D.line s V t)) fun i c j => A.get s i c j + t * V i c j
  step : ∀ s g s', D.Step s g s' → Stepped A ms upd s g s'
  mode : ∀ b s, Kept A ms s (o.mode b s)
  resize : ∀ R s, Kept A ms s (o.resize R s)
  fprop : ∀ R s I T O, Passed A ms s (o.fprop R s I T O).s fun b => ∃ R', L.Inv b R' s
  loc : ∀ W W' x x', Same ms W W' → (∀ j < o.inc, x j = x' j) → ∀ c < o.neurons, F W x c = F W' x' c
  smooth : ∀ R s X, 0 < R → (∀ r < R, Sm (A.get s) (X r)) → D.Smooth R s X
  smLoc : ∀ W W' x x', Same ms W W' → (∀ j < o.inc, x j = x' j) → Sm W x → Sm W' x'

theorem IsNet.length {o : Obj ℝ} {L : Law o} {D : Diff L} {A : Reader o.S} {ms : List MatInfo} {F : (ℕ → Mat ℝ) → (ℕ → ℝ) → ℕ → ℝ}
    {Sm : (ℕ → Mat ℝ) → (ℕ → ℝ) → Prop} {gw : ℕ → ℕ → ℕ → GradWorks ℝ} {upd : ℕ → Bool} (h : IsNet D A ms F Sm gw upd) : D.ws.length = ms.length := by
  rw [h.ws, List.length_map]

theorem reads_over {S T U : Type} {A : Reader S} {B : Reader T} {ms ms' : List MatInfo} {gw : ℕ → ℕ → ℕ → GradWorks ℝ} (hA : Reads A ms gw) (hB : Reads B ms' gw)
    (f : U → S) (g : U → T) : Reads (A.over ms.length B f g) (ms ++ ms') gw where
  wts := fun s => each_append.2 ⟨fun i m hi => by
    simp only [Reader.over, glue, join, if_pos (lt_of_getElem? hi)]
    exact hA.wts _ i m hi, fun i m hi => by
    simp only [Reader.over, glue, join, if_neg (show ¬ ms.length + i < ms.length by omega), show ms.length + i - ms.length = i by omega]
    exact hB.wts _ i m hi⟩
  own := fun s => each_append.2 ⟨fun i m hi => by
    simp only [Reader.over, join, if_pos (lt_of_getElem? hi)]
    exact hA.own _ i m hi, fun i m hi => by
    simp only [Reader.over, join, if_neg (show ¬ ms.length + i < ms.length by omega), show ms.length + i - ms.length = i by omega]
    exact hB.own _ i m hi⟩

theorem kept_over {S T U : Type} {A : Reader S} {B : Reader T} {ms ms' : List MatInfo} {f : U → S} {g : U → T} {s s' : U} (h : Kept A ms (f s) (f s'))
    (h' : Kept B ms' (g s) (g s')) : Kept (A.over ms.length B f g) (ms ++ ms') s s' :=
  each_append.2 ⟨fun i m hi => by
    simp only [Reader.over, join, if_pos (lt_of_getElem? hi)]
    exact h i m hi, fun i m hi => by
    simp only [Reader.over, join, if_neg (show ¬ ms.length + i < ms.length by omega), show ms.length + i - ms.length = i by omega]
    exact h' i m hi⟩

theorem passed_over {S T U : Type} {A : Reader S} {B : Reader T} {ms ms' : List MatInfo} {f : U → S} {g : U → T} {s s' : U} {I I' J : Bool → Prop}
    (h : Passed A ms (f s) (f s') I) (h' : Passed B ms' (g s) (g s') I') (hJ : ∀ b, J b → I b ∧ I' b) : Passed (A.over ms.length B f g) (ms ++ ms') s s' J :=
  each_append.2 ⟨fun i m hi => by
    simp only [Reader.over, join, if_pos (lt_of_getElem? hi)]
    obtain ⟨b, h1, h2⟩ := h i m hi
    exact ⟨b, h1, fun b' hb => h2 b' (hJ b' hb).1⟩, fun i m hi => by
    simp only [Reader.over, join, if_neg (show ¬ ms.length + i < ms.length by omega), show ms.length + i - ms.length = i by omega]
    obtain ⟨b, h1, h2⟩ := h' i m hi
    exact ⟨b, h1, fun b' hb => h2 b' (hJ b' hb).2⟩⟩

theorem stepped_over {S T U : Type} {A : Reader S} {B : Reader T} {ms ms' : List MatInfo} {f : U → S} {g : U → T} {upd : ℕ → Bool} {s s' : U} {d : ℕ → Mat ℝ}
    (h : Stepped A ms upd (f s) d (f s')) (h' : Stepped B ms' upd (g s) (fun i => d (ms.length + i)) (g s')) :
    Stepped (A.over ms.length B f g) (ms ++ ms') upd s d s' :=
  each_append.2 ⟨fun i m hi => by
    simp only [Reader.over, join, if_pos (lt_of_getElem? hi)]
    exact h i m hi, fun i m hi => by
    simp only [Reader.over, join, if_neg (show ¬ ms.length + i < ms.length by omega), show ms.length + i - ms.length = i by omega]
    exact h' i m hi⟩

/-- Gradient works that subtract `η` times the gradient. -/
structure Plain (gw : GradWorks ℝ) (m k : ℕ) (η : ℝ) : Prop where
  pre : ∀ g w, Agree m k (gw.pre g w).2 w
  apply : ∀ g w d, Agree m k (gw.apply g w d).2.1 fun c j => w c j - η * d c j

theorem Reads.same {S : Type} {A : Reader S} {ms : List MatInfo} {gw : ℕ → ℕ → ℕ → GradWorks ℝ} (h : Reads A ms gw) {s s' : S} (hk : Kept A ms s s') :
    Same ms (A.get s') (A.get s) := fun i m hi c _ j _ => by rw [h.wts s' i m hi, h.wts s i m hi, hk i m hi]

theorem Reads.plain {S : Type} {A : Reader S} {ms : List MatInfo} {gw : ℕ → ℕ → ℕ → GradWorks ℝ} (h : Reads A ms gw) {η : ℕ → ℝ}
    (hg : ∀ id m k, Plain (gw id m k) m k (η id)) (s : S) {i : ℕ} {m : MatInfo} (hi : ms[i]? = some m) : Plain (A.cells s i).gw m.rows m.cols (η m.id) := by
  rw [h.own s i m hi]
  exact hg _ _ _

/-- Plain optimisers do nothing before a forward pass. -/
theorem Reads.passed {S : Type} {A : Reader S} {ms : List MatInfo} {gw : ℕ → ℕ → ℕ → GradWorks ℝ} (h : Reads A ms gw) {η : ℕ → ℝ}
    (hg : ∀ id m k, Plain (gw id m k) m k (η id)) {s s' : S} {I : Bool → Prop} (hp : Passed A ms s s' I) : Same ms (A.get s') (A.get s) := by
  intro i m hi c hc j hj
  obtain ⟨b, h1, _⟩ := hp i m hi
  rw [h.wts s' i m hi, h.wts s i m hi, h1]
  cases b
  · rfl
  · exact (h.plain hg s hi).pre _ _ c hc j hj

/-- Plain optimisers subtract the gradient times the learning rate. -/
theorem Reads.stepped {S : Type} {A : Reader S} {ms : List MatInfo} {gw : ℕ → ℕ → ℕ → GradWorks ℝ} (h : Reads A ms gw) {η : ℕ → ℝ}
    (hg : ∀ id m k, Plain (gw id m k) m k (η id)) {upd : ℕ → Bool} {s s' : S} {g : ℕ → Mat ℝ} (hs : Stepped A ms upd s g s') :
    ∀ i m, ms[i]? = some m → ∀ c < m.rows, ∀ j < m.cols, A.get s' i c j = A.get s i c j - (if upd m.id then η m.id else 0) * g i c j := by
  intro i m hi c hc j hj
  have h1 := hs i m hi
  unfold Moved at h1
  rw [h.wts s' i m hi, h.wts s i m hi]
  by_cases hu : upd m.id = true
  · rw [if_pos hu] at h1 ⊢
    obtain ⟨d, hd, e⟩ := h1
    rw [e, ← hd c hc j hj]
    exact (h.plain hg s hi).apply _ _ _ c hc j hj
  · rw [if_neg hu] at h1 ⊢
    rw [h1, zero_mul, sub_zero]

theorem preAct_neuron (n : ℕ) (W X : Mat ℝ) (r c : ℕ) : preAct realArith n W X r c = neuron n W (X r) c := by
  unfold preAct neuron realArith withOnes
  simp only
  rw [sum_range_succ, if_neg (Nat.lt_irrefl n), one_mul]
  congr 1
  exact sum_congr rfl fun j hj => by rw [if_pos (mem_range.1 hj), mul_comm]

theorem neuron_congr {n m : ℕ} {W W' : Mat ℝ} {x x' : ℕ → ℝ} (hw : ∀ c < m, ∀ j < n + 1, W c j = W' c j) (hx : ∀ j < n, x j = x' j) {c : ℕ} (hc : c < m) :
    neuron n W x c = neuron n W' x' c := by
  unfold neuron
  rw [hw c hc n (by omega)]
  congr 1
  exact sum_congr rfl fun j hj => by
    have := mem_range.1 hj
    rw [hw c hc j (by omega), hx j this]

theorem updated_plain {gw : GradWorks ℝ} {upd : Bool} {m k : ℕ} {η : ℝ} (hg : Plain gw m k η) {s s' : FcS gw} {g : Mat ℝ} (h : Updated upd m k s g s') :
    ∀ c < m, ∀ j < k, s'.w c j = s.w c j - (if upd then η else 0) * g c j := by
  intro c hc j hj
  unfold Updated at h
  cases upd
  · simp only [Bool.false_eq_true, if_false] at h ⊢
    rw [h, zero_mul, sub_zero]
  · simp only [if_true] at h ⊢
    obtain ⟨g', hg', rfl⟩ := h
    have := hg.apply s.g s.w g' c hc j hj
    exact this.trans (by show s.w c j - η * g' c j = _; rw [hg' c hc j hj])

/-- The only matrix of a fully connected layer. -/
def fcReader (gw : GradWorks ℝ) : Reader (FcS gw) := ⟨fun s _ => s.w, fun s _ => ⟨gw, s.g, s.w⟩⟩

theorem fc_isNet {gw : ℕ → ℕ → ℕ → GradWorks ℝ} {act : Act.Act} (ha : act.Args) {upd : ℕ → Bool} {NT n m id : ℕ} :
    IsNet (fcDiff (gw id m (n + 1)) act.f act.df (upd id) NT n m) (fcReader (gw id m (n + 1))) [⟨id, m, n + 1, 1⟩] (fun W x c => act.fn (neuron n (W 0) x c))
      (fun W x => ∀ c < m, DifferentiableAt ℝ act.fn (neuron n (W 0) x c)) gw upd where
  reads := ⟨fun _ _ _ _ => rfl, fun s i mm hi => by
    have := lt_of_getElem? hi
    simp only [List.length_cons, List.length_nil] at this
    obtain rfl : i = 0 := by omega
    simp only [List.getElem?_cons_zero, Option.some.injEq] at hi
    subst hi
    rfl⟩
  ws := rfl
  fwd := fun R s X _ r _ c _ => by
    show act.f (preAct realArith n s.w X r c) = act.fn (neuron n s.w (X r) c)
    rw [preAct_neuron, Act.f_eq]
  line := fun s V t i mm hi c hc j hj => by
    have := lt_of_getElem? hi
    simp only [List.length_cons, List.length_nil] at this
    obtain rfl : i = 0 := by omega
    rfl
  step := fun s g s' h i mm hi => by
    have := lt_of_getElem? hi
    simp only [List.length_cons, List.length_nil] at this
    obtain rfl : i = 0 := by omega
    simp only [List.getElem?_cons_zero, Option.some.injEq] at hi
    subst hi
    have h : Updated (upd id) m (n + 1) s (g 0) s' := h
    unfold Updated at h
    unfold Moved
    show if upd id = true then _ else _
    split
    · rename_i hu
      rw [if_pos hu] at h
      obtain ⟨g', h1, rfl⟩ := h
      exact ⟨g', h1, rfl⟩
    · rename_i hu
      rw [if_neg hu] at h
      subst h
      rfl
  mode := fun _ _ _ _ _ => rfl
  resize := fun _ _ _ _ _ => rfl
  fprop := fun R s I T O i mm hi => by
    refine ⟨s.training, ?_, fun b' hb => by obtain ⟨_, hb⟩ := hb; exact hb⟩
    have key : ∀ s : FcS (gw id m (n + 1)), (fcReader (gw id m (n + 1))).cells
        (if s.training then ⟨((gw id m (n + 1)).pre s.g s.w).2, ((gw id m (n + 1)).pre s.g s.w).1, true⟩ else s) i =
        if s.training then ((fcReader (gw id m (n + 1))).cells s i).pre else (fcReader (gw id m (n + 1))).cells s i := by
      intro s
      split <;> rfl
    exact key s
  loc := fun W W' x x' hw hx c hc => by
    show act.fn _ = act.fn _
    rw [neuron_congr (hw 0 _ rfl) hx hc]
  smooth := fun R s X _ h r hr c hc => by
    have h1 := h r hr c hc
    have := Act.df_correct act ha (preAct realArith n s.w X r c) fun _ => by rw [preAct_neuron]; exact h1
    simp only [Act.f_eq]
    rw [show act.f = act.fn from funext (Act.f_eq _)]
    exact this
  smLoc := fun W W' x x' hw hx h c hc => by
    rw [← neuron_congr (hw 0 _ rfl) hx hc]
    exact h c hc

section
variable {l u : Obj ℝ} {L : Law l} {U : Law u} {D : Diff L} {E : Diff U} {A : Reader l.S} {B : Reader u.S} {ms ms' : List MatInfo}
  {F F' : (ℕ → Mat ℝ) → (ℕ → ℝ) → ℕ → ℝ} {Sm Sm' : (ℕ → Mat ℝ) → (ℕ → ℝ) → Prop} {gw : ℕ → ℕ → ℕ → GradWorks ℝ} {upd : ℕ → Bool}

theorem over_isNet (hD : IsNet D A ms F Sm gw upd) (hE : IsNet E B ms' F' Sm' gw upd) (hi : u.inc = l.neurons) :
    IsNet (overDiff D E) (A.over ms.length B (fun s : l.S × Stor ℝ × u.S => s.1) fun s => s.2.2) (ms ++ ms') (fun W x => F' (after ms.length W) (F W x))
      (fun W x => Sm W x ∧ Sm' (after ms.length W) (F W x)) gw upd := by
  exact {
    reads := reads_over hD.reads hE.reads _ _
    ws := by show D.ws ++ E.ws = _; rw [hD.ws, hE.ws, List.map_append]
    fwd := fun R s X h0 r hr c hc => by
      show U.fwd R s.2.2 (L.fwd R s.1 X) r c = F' (after ms.length (glue ms.length (A.get s.1) (B.get s.2.2))) (F (glue ms.length (A.get s.1) (B.get s.2.2)) (X r)) c
      rw [hE.fwd R s.2.2 _ h0 r hr c hc, after_glue]
      refine hE.loc _ _ _ _ (Same.refl _ _) (fun j hj => ?_) c hc
      rw [hi] at hj
      rw [hD.fwd R s.1 X h0 r hr j hj]
      exact hD.loc _ _ _ _ (same_glue rfl _ _).symm (fun _ _ => rfl) j hj
    line := fun s V t => by
      refine same_append.2 ⟨(same_glue rfl _ _).trans ((hD.line s.1 V t).trans ?_), ?_⟩
      · intro i m hi c hc j hj
        exact congrArg (· + t * V i c j) (same_glue rfl (A.get s.1) (B.get s.2.2) i m hi c hc j hj).symm
      · show Same ms' (after ms.length (glue ms.length (A.get (D.line s.1 V t)) (B.get (E.line s.2.2 (fun i => V (D.ws.length + i)) t)))) _
        rw [after_glue]
        refine (hE.line s.2.2 (fun i => V (D.ws.length + i)) t).trans ?_
        intro i m hi c hc j hj
        have e : (glue ms.length (A.get s.1) (B.get s.2.2)) (ms.length + i) = B.get s.2.2 i := congrFun (after_glue ms.length (A.get s.1) (B.get s.2.2)) i
        show _ = (glue ms.length (A.get s.1) (B.get s.2.2)) (ms.length + i) c j + t * V (ms.length + i) c j
        rw [e, hD.length]
    step := fun s g s' h => stepped_over (hD.step s.1 g s'.1 h.1) (by
      have := hE.step s.2.2 _ s'.2.2 h.2
      rw [hD.length] at this
      exact this)
    mode := fun b s => kept_over (hD.mode b s.1) (hE.mode b s.2.2)
    resize := fun R s => kept_over (hD.resize R s.1) (hE.resize R s.2.2)
    fprop := fun R s I T O => passed_over (hD.fprop R s.1 _ _ _) (hE.fprop R s.2.2 _ _ _) fun b ⟨R', h⟩ => ⟨⟨R', h.1⟩, R', h.2.1⟩
    loc := fun W W' x x' hw hx c hc => by
      obtain ⟨h1, h2⟩ := same_append.1 hw
      exact hE.loc _ _ _ _ h2 (fun j hj => hD.loc _ _ _ _ h1 hx j (hi ▸ hj)) c hc
    smooth := fun R s X h0 h => by
      have hf : ∀ r < R, ∀ j < u.inc, F (glue ms.length (A.get s.1) (B.get s.2.2)) (X r) j = L.fwd R s.1 X r j := fun r hr j hj => by
        rw [hi] at hj
        rw [hD.fwd R s.1 X h0 r hr j hj]
        exact hD.loc _ _ _ _ (same_glue rfl _ _) (fun _ _ => rfl) j hj
      refine ⟨hD.smooth R s.1 X h0 fun r hr => hD.smLoc _ _ _ _ (same_glue rfl _ _) (fun _ _ => rfl) (h r hr).1,
        hE.smooth R s.2.2 _ h0 fun r hr => ?_⟩
      have : Sm' (after ms.length (glue ms.length (A.get s.1) (B.get s.2.2))) (F (glue ms.length (A.get s.1) (B.get s.2.2)) (X r)) := (h r hr).2
      rw [after_glue] at this
      exact hE.smLoc _ _ _ _ (Same.refl _ _) (hf r hr) this
    smLoc := fun W W' x x' hw hx h => by
      obtain ⟨h1, h2⟩ := same_append.1 hw
      exact ⟨hD.smLoc _ _ _ _ h1 hx h.1, hE.smLoc _ _ _ _ h2 (fun j hj => hD.loc _ _ _ _ h1 hx j (hi ▸ hj)) h.2⟩ }

theorem tile_isNet {k cap : ℕ} (hk : 0 < k) (hD : IsNet D A ms F Sm gw upd) :
    IsNet (tileDiff k cap D) ⟨fun s : l.S × Stor ℝ × Stor ℝ => A.get s.1, fun s => A.cells s.1⟩ (ms.map fun m => { m with tiles := k * m.tiles })
      (fun W x c => F W (fun j => x (c / l.neurons * l.inc + j)) (c % l.neurons)) (fun W x => ∀ t < k, Sm W fun j => x (t * l.inc + j)) gw upd where
  reads := ⟨fun s => each_retile.2 (hD.reads.wts s.1), fun s => each_retile.2 (hD.reads.own s.1)⟩
  ws := by
    show D.ws.map _ = _
    rw [hD.ws, List.map_map, List.map_map]
    rfl
  fwd := fun R s X h0 r hr c hc => by
    have hc : c < k * l.neurons := hc
    have hm : 0 < l.neurons := by
      rcases Nat.eq_zero_or_pos l.neurons with h | h
      · rw [h, Nat.mul_zero] at hc; omega
      · exact h
    have ht : c / l.neurons < k := Nat.div_lt_of_lt_mul (by rwa [Nat.mul_comm])
    have hq : c / l.neurons * R + r < k * R := by
      calc c / l.neurons * R + r < c / l.neurons * R + R := by omega
        _ = (c / l.neurons + 1) * R := by rw [Nat.add_mul, Nat.one_mul]
        _ ≤ k * R := Nat.mul_le_mul_right _ ht
    show L.fwd (k * R) s.1 (roll R l.inc X) (c / l.neurons * R + r) (c % l.neurons) = _
    rw [hD.fwd (k * R) s.1 _ (Nat.mul_pos hk h0) _ hq _ (Nat.mod_lt _ hm)]
    unfold roll
    have e1 : (c / l.neurons * R + r) % R = r := by rw [Nat.mul_comm, Nat.mul_add_mod, Nat.mod_eq_of_lt hr]
    have e2 : (c / l.neurons * R + r) / R = c / l.neurons := by
      rw [Nat.mul_comm, Nat.mul_add_div h0, Nat.div_eq_of_lt hr, Nat.add_zero]
    rw [e1, e2]
  line := fun s V t => same_retile.2 (hD.line s.1 V t)
  step := fun s g s' h => each_retile.2 (hD.step s.1 g s'.1 h)
  mode := fun b s => each_retile.2 (hD.mode b s.1)
  resize := fun R s => each_retile.2 (hD.resize _ s.1)
  fprop := fun R s I T O => each_retile.2 fun i m hi => by
    obtain ⟨b, h1, h2⟩ := hD.fprop (k * R) s.1 _ _ _ i m hi
    exact ⟨b, h1, fun b' ⟨R', h⟩ => h2 b' ⟨_, h.1⟩⟩
  loc := fun W W' x x' hw hx c hc => by
    have hc : c < k * l.neurons := hc
    have hm : 0 < l.neurons := by
      rcases Nat.eq_zero_or_pos l.neurons with h | h
      · rw [h, Nat.mul_zero] at hc; omega
      · exact h
    have ht : c / l.neurons < k := Nat.div_lt_of_lt_mul (by rwa [Nat.mul_comm])
    refine hD.loc _ _ _ _ (same_retile.1 hw) (fun j hj => hx _ ?_) _ (Nat.mod_lt _ hm)
    show _ < k * l.inc
    calc c / l.neurons * l.inc + j < c / l.neurons * l.inc + l.inc := by omega
      _ = (c / l.neurons + 1) * l.inc := by rw [Nat.add_mul, Nat.one_mul]
      _ ≤ k * l.inc := Nat.mul_le_mul_right _ ht
  smooth := fun R s X h0 h => by
    refine hD.smooth (k * R) s.1 _ (Nat.mul_pos hk h0) fun q hq => ?_
    exact h (q % R) (Nat.mod_lt _ h0) (q / R) (Nat.div_lt_of_lt_mul (by rwa [Nat.mul_comm R k]))
  smLoc := fun W W' x x' hw hx h t ht => by
    refine hD.smLoc _ _ _ _ (same_retile.1 hw) (fun j hj => hx _ ?_) (h t ht)
    show _ < k * l.inc
    calc t * l.inc + j < t * l.inc + l.inc := by omega
      _ = (t + 1) * l.inc := by rw [Nat.add_mul, Nat.one_mul]
      _ ≤ k * l.inc := Nat.mul_le_mul_right _ ht

end

/-- The same for the inner layers of a horizontal pack. -/
structure FIsNet (inc : ℕ) (fs : List (Fld ℝ)) (Ls : Laws fs) (Ds : Diffs fs Ls) (A : Reader (FState fs)) (ms : List MatInfo)
    (F : (ℕ → Mat ℝ) → (ℕ → ℝ) → ℕ → ℝ) (Sm : (ℕ → Mat ℝ) → (ℕ → ℝ) → Prop) (gw : ℕ → ℕ → ℕ → GradWorks ℝ) (upd : ℕ → Bool) : Prop where
  reads : Reads A ms gw
  ws : fWs fs Ls Ds = ms.map toWt
  fwd : ∀ R s X, 0 < R → ∀ r < R, ∀ c < fNeurons fs, fFwd R X fs Ls s r c = F (A.get s) (X r) c
  line : ∀ s V t, Same ms (A.get (fLine fs Ls Ds s V t)) fun i c j => A.get s i c j + t * V i c j
  step : ∀ s g s', fStep fs Ls Ds s g s' → Stepped A ms upd s g s'
  mode : ∀ b s, Kept A ms s (fMode b fs s)
  resize : ∀ R s, Kept A ms s (fResize R fs s)
  fprop : ∀ R used fo s I T O, Passed A ms s (fFprop R inc used fs fo s I T O).s fun b => ∃ R', fInv b R' fs Ls s
  loc : ∀ W W' x x', Same ms W W' → (∀ j < inc, x j = x' j) → ∀ c < fNeurons fs, F W x c = F W' x' c
  smooth : ∀ R s X, 0 < R → (∀ r < R, Sm (A.get s) (X r)) → fSmooth R X fs Ls Ds s
  smLoc : ∀ W W' x x', Same ms W W' → (∀ j < inc, x j = x' j) → Sm W x → Sm W' x'

theorem nil_isNet (inc : ℕ) (Ls : Laws []) (gw : ℕ → ℕ → ℕ → GradWorks ℝ) (upd : ℕ → Bool) (F : (ℕ → Mat ℝ) → (ℕ → ℝ) → ℕ → ℝ)
    (A : Reader (FState ([] : List (Fld ℝ)))) : FIsNet inc [] Ls ⟨⟩ A [] F (fun _ _ => True) gw upd where
  reads := ⟨fun _ i m hi => absurd (lt_of_getElem? hi) (Nat.not_lt_zero i), fun _ i m hi => absurd (lt_of_getElem? hi) (Nat.not_lt_zero i)⟩
  ws := rfl
  fwd := fun _ _ _ _ _ _ c hc => absurd hc (Nat.not_lt_zero c)
  line := fun _ _ _ i m hi => absurd (lt_of_getElem? hi) (Nat.not_lt_zero i)
  step := fun _ _ _ _ i m hi => absurd (lt_of_getElem? hi) (Nat.not_lt_zero i)
  mode := fun _ _ i m hi => absurd (lt_of_getElem? hi) (Nat.not_lt_zero i)
  resize := fun _ _ i m hi => absurd (lt_of_getElem? hi) (Nat.not_lt_zero i)
  fprop := fun _ _ _ _ _ _ _ i m hi => absurd (lt_of_getElem? hi) (Nat.not_lt_zero i)
  loc := fun _ _ _ _ _ _ c hc => absurd hc (Nat.not_lt_zero c)
  smooth := fun _ _ _ _ _ => trivial
  smLoc := fun _ _ _ _ _ _ _ => trivial

theorem cons_isNet {inc : ℕ} {f : Fld ℝ} {fs : List (Fld ℝ)} {Ls : Laws (f :: fs)} {D : Diff Ls.head} {Ds : Diffs fs Ls.tail}
    {A : Reader f.obj.S} {B : Reader (FState fs)} {ms ms' : List MatInfo} {F F' : (ℕ → Mat ℝ) → (ℕ → ℝ) → ℕ → ℝ}
    {Sm Sm' : (ℕ → Mat ℝ) → (ℕ → ℝ) → Prop} {gw : ℕ → ℕ → ℕ → GradWorks ℝ} {upd : ℕ → Bool} (hD : IsNet D A ms F Sm gw upd)
    (hE : FIsNet inc fs Ls.tail Ds B ms' F' Sm' gw upd)
    (hi : f.ofs + f.obj.inc ≤ inc) :
    FIsNet inc (f :: fs) Ls (D, Ds) (A.over ms.length B (fun s : FState (f :: fs) => s.1) fun s => s.2) (ms ++ ms')
      (fun W x c => if c < f.obj.neurons then F W (fun j => x (f.ofs + j)) c else F' (after ms.length W) x (c - f.obj.neurons))
      (fun W x => Sm W (fun j => x (f.ofs + j)) ∧ Sm' (after ms.length W) x) gw upd := by
  exact {
    reads := reads_over hD.reads hE.reads _ _
    ws := by show D.ws ++ fWs fs Ls.tail Ds = _; rw [hD.ws, hE.ws, List.map_append]
    fwd := fun R s X h0 r hr c hc => by
      have hc : c < f.obj.neurons + fNeurons fs := hc
      show (if c < f.obj.neurons then Ls.head.fwd R s.1 (colsFrom f.ofs X) r c else fFwd R X fs Ls.tail s.2 r (c - f.obj.neurons)) =
        if c < f.obj.neurons then F (glue ms.length (A.get s.1) (B.get s.2)) (fun j => X r (f.ofs + j)) c
        else F' (after ms.length (glue ms.length (A.get s.1) (B.get s.2))) (X r) (c - f.obj.neurons)
      by_cases h : c < f.obj.neurons
      · rw [if_pos h, if_pos h, hD.fwd R s.1 _ h0 r hr c h]
        exact hD.loc _ _ _ _ (same_glue rfl _ _).symm (fun _ _ => rfl) c h
      · rw [if_neg h, if_neg h, after_glue, hE.fwd R s.2 X h0 r hr _ (by omega)]
    line := fun s V t => by
      refine same_append.2 ⟨(same_glue rfl _ _).trans ((hD.line s.1 V t).trans ?_), ?_⟩
      · intro i m hi c hc j hj
        exact congrArg (· + t * V i c j) (same_glue rfl (A.get s.1) (B.get s.2) i m hi c hc j hj).symm
      · show Same ms' (after ms.length (glue ms.length (A.get (D.line s.1 V t)) (B.get (fLine fs Ls.tail Ds s.2 (fun i => V (D.ws.length + i)) t)))) _
        rw [after_glue]
        refine (hE.line s.2 (fun i => V (D.ws.length + i)) t).trans ?_
        intro i m hi c hc j hj
        have e : (glue ms.length (A.get s.1) (B.get s.2)) (ms.length + i) = B.get s.2 i := congrFun (after_glue ms.length (A.get s.1) (B.get s.2)) i
        show _ = (glue ms.length (A.get s.1) (B.get s.2)) (ms.length + i) c j + t * V (ms.length + i) c j
        rw [e, hD.length]
    step := fun s g s' h => stepped_over (hD.step s.1 g s'.1 h.1) (by
      have := hE.step s.2 _ s'.2 h.2
      rw [hD.length] at this
      exact this)
    mode := fun b s => kept_over (hD.mode b s.1) (hE.mode b s.2)
    resize := fun R s => kept_over (hD.resize R s.1) (hE.resize R s.2)
    fprop := fun R used fo s I T O => passed_over (hD.fprop R s.1 _ _ _) (hE.fprop R used _ s.2 _ _ _) fun b ⟨R', h⟩ => ⟨⟨R', h.1⟩, R', h.2⟩
    loc := fun W W' x x' hw hx c hc => by
      have hc : c < f.obj.neurons + fNeurons fs := hc
      obtain ⟨h1, h2⟩ := same_append.1 hw
      by_cases h : c < f.obj.neurons
      · simp only [if_pos h]
        exact hD.loc _ _ _ _ h1 (fun j hj => hx _ (by omega)) c h
      · simp only [if_neg h]
        exact hE.loc _ _ _ _ h2 hx _ (by omega)
    smooth := fun R s X h0 h => by
      refine ⟨hD.smooth R s.1 _ h0 fun r hr => hD.smLoc _ _ _ _ (same_glue rfl _ _) (fun _ _ => rfl) (h r hr).1,
        hE.smooth R s.2 X h0 fun r hr => ?_⟩
      have : Sm' (after ms.length (glue ms.length (A.get s.1) (B.get s.2))) (X r) := (h r hr).2
      rw [after_glue] at this
      exact this
    smLoc := fun W W' x x' hw hx h => by
      obtain ⟨h1, h2⟩ := same_append.1 hw
      exact ⟨hD.smLoc _ _ _ _ h1 (fun j hj => hx _ (by omega)) h.1, hE.smLoc _ _ _ _ h2 hx h.2⟩ }

theorem horiz_isNet {inc bias buf cap : ℕ} {fs : List (Fld ℝ)} {Ls : Laws fs} {Ds : Diffs fs Ls} {A : Reader (FState fs)} {ms : List MatInfo}
    {F : (ℕ → Mat ℝ) → (ℕ → ℝ) → ℕ → ℝ} {Sm : (ℕ → Mat ℝ) → (ℕ → ℝ) → Prop} {gw : ℕ → ℕ → ℕ → GradWorks ℝ} {upd : ℕ → Bool}
    (h : FIsNet inc fs Ls Ds A ms F Sm gw upd) : IsNet (horizDiff inc bias buf cap Ds) A ms F Sm gw upd where
  reads := h.reads
  ws := h.ws
  fwd := h.fwd
  line := h.line
  step := h.step
  mode := h.mode
  resize := h.resize
  fprop := fun R s I T O => h.fprop R _ 0 s I T O
  loc := h.loc
  smooth := h.smooth
  smLoc := h.smLoc

/-! ### Trees -/

/-- A fully connected layer for every elementary layer of a tree: `gw id m k` are its gradient works for `m` neurons and `k - 1` inputs. As
`Backprop.actLayers`. `nntl/layer/fully_connected.h`. -/
noncomputable def fcLayers (gw : ℕ → ℕ → ℕ → GradWorks ℝ) (act : ℕ → Act.Act) (upd : ℕ → Bool) : ℕ → Leaf → BS → ℕ → Sem ℝ := fun id l inc n =>
  ⟨fc realArith (gw id l.neurons (n + 1)) (act id).f (act id).df (upd id) inc.maxTrainBS n l.neurons,
    fcLaw realArith (gw id l.neurons (n + 1)) (act id).f (act id).df (upd id) inc.maxTrainBS n l.neurons⟩

noncomputable def fcDiffs (gw : ℕ → ℕ → ℕ → GradWorks ℝ) (act : ℕ → Act.Act) (upd : ℕ → Bool) :
    ∀ id l inc n, Diff (fcLayers gw act upd id l inc n).law := fun id l inc n =>
  fcDiff (gw id l.neurons (n + 1)) (act id).f (act id).df (upd id) inc.maxTrainBS n l.neurons

variable {gw : ℕ → ℕ → ℕ → GradWorks ℝ} {act : ℕ → Act.Act} {upd : ℕ → Bool}

theorem fcDiffs_ok (l : Leaf) : LeafDiff (fcDiffs gw act upd) l where
  sizes := fun _ _ _ => ⟨rfl, rfl⟩
  diff := fun _ _ _ => fc_isDiff _ _ _ _ _ _ _

theorem fcDiffs_pen (l : Layer) (inc : BS) (n R : ℕ) (s : (sem (fcLayers gw act upd) l inc n).obj.S) (X : Mat ℝ) :
    (semDiff (fcDiffs gw act upd) l inc n).pen R s X = 0 := semDiff_pen (fun _ _ _ _ _ _ _ => rfl) l inc n R s X

/-- The simplest optimiser, to speak about functions of weights. -/
noncomputable def bare : GradWorks ℝ := ⟨Unit, fun g w => (g, w), fun g w d => (g, fun c j => w c j - 0 * d c j, d)⟩

mutual
/-- The weights in a state of a tree. -/
noncomputable def treeGet (gw : ℕ → ℕ → ℕ → GradWorks ℝ) (act : ℕ → Act.Act) (upd : ℕ → Bool) :
    (l : Layer) → (inc : BS) → (n : ℕ) → Reader (sem (fcLayers gw act upd) l inc n).obj.S
  | .leaf id l, _, n => fcReader (gw id l.neurons (n + 1))
  | .vert _ f r, inc, n => stackGet gw act upd r inc (sem (fcLayers gw act upd) f inc n) (mats f n).length (treeGet gw act upd f inc n)
  | .horiz _ _ fs, inc, _ => fieldsGet gw act upd fs inc
  | .tile _ k l, inc, n =>
    ⟨fun (s : (sem (fcLayers gw act upd) l (inc.mul k) (n / k)).obj.S × Stor ℝ × Stor ℝ) => (treeGet gw act upd l (inc.mul k) (n / k)).get s.1,
      fun (s : (sem (fcLayers gw act upd) l (inc.mul k) (n / k)).obj.S × Stor ℝ × Stor ℝ) => (treeGet gw act upd l (inc.mul k) (n / k)).cells s.1⟩
  termination_by structural l => l
noncomputable def stackGet (gw : ℕ → ℕ → ℕ → GradWorks ℝ) (act : ℕ → Act.Act) (upd : ℕ → Bool) :
    (r : Stack) → (inc : BS) → (acc : Sem ℝ) → ℕ → Reader acc.obj.S → Reader (semStack (fcLayers gw act upd) r inc acc).obj.S
  | .nil, _, _, _, A => A
  | .cons l r, inc, acc, len, A => stackGet gw act upd r inc
      ⟨over acc.obj (sem (fcLayers gw act upd) l inc acc.obj.neurons).obj, overLaw acc.law (sem (fcLayers gw act upd) l inc acc.obj.neurons).law⟩
      (len + (mats l acc.obj.neurons).length)
      (A.over len (treeGet gw act upd l inc acc.obj.neurons)
        (fun s : acc.obj.S × Stor ℝ × (sem (fcLayers gw act upd) l inc acc.obj.neurons).obj.S => s.1) fun s => s.2.2)
noncomputable def fieldsGet (gw : ℕ → ℕ → ℕ → GradWorks ℝ) (act : ℕ → Act.Act) (upd : ℕ → Bool) :
    (fs : Fields) → (inc : BS) → Reader (FState (semFields (fcLayers gw act upd) fs inc).fs)
  | .nil, _ => ⟨fun _ _ _ _ => 0, fun _ _ => ⟨bare, (), fun _ _ => 0⟩⟩
  | .cons _ cnt l r, inc => (treeGet gw act upd l inc cnt).over (mats l cnt).length (fieldsGet gw act upd r inc)
      (fun s : (sem (fcLayers gw act upd) l inc cnt).obj.S × FState (semFields (fcLayers gw act upd) r inc).fs => s.1) fun s => s.2
end

mutual
theorem tree_isNet (ha : ∀ id, (act id).Args)
    (l : Layer) (inc : BS) (n : ℕ) (hp : l.AllPacks FieldsInside Divisible n) (hx : NoExtra l) :
    IsNet (semDiff (fcDiffs gw act upd) l inc n) (treeGet gw act upd l inc n) (mats l n) (netFn (fun id => (act id).fn) l n)
      (SmoothAt (fun id => (act id).fn) l n) gw upd := by
  match l with
  | .leaf id l => exact fc_isNet (ha id)
  | .vert _ f r =>
    obtain ⟨_, h2, h3⟩ := semDiff_ok (DI := fcDiffs gw act upd) f inc n hp.1 (allLeaves_of fcDiffs_ok f) hx.1
    exact stack_isNet ha r inc f.neurons hp.2 hx.2 (sem (fcLayers gw act upd) f inc n) h3 (semDiff (fcDiffs gw act upd) f inc n)
      (treeGet gw act upd f inc n) _ _ _
      (tree_isNet ha f inc n hp.1 hx.1)
  | .horiz _ add fs =>
    simp only [Layer.AllPacks] at hp
    exact horiz_isNet (fields_isNet ha fs inc n hp.1 hp.2 hx.2)
  | .tile id k l =>
    obtain ⟨⟨hk, hm⟩, hp⟩ := hp
    obtain ⟨_, h2, h3⟩ := semDiff_ok (DI := fcDiffs gw act upd) l (inc.mul k) (n / k) hp (allLeaves_of fcDiffs_ok l) hx
    have := tile_isNet (cap := ((layerInit true (.tile id k l) inc n).getD Lid.zero).dLdA) hk (tree_isNet ha l (inc.mul k) (n / k) hp hx)
    rw [h2, h3] at this
    exact this
theorem stack_isNet (ha : ∀ id, (act id).Args)
    (r : Stack) (inc : BS) (m : ℕ) (hp : r.AllPacks FieldsInside Divisible m) (hx : NoExtraS r) (acc : Sem ℝ) (hm : acc.obj.neurons = m)
    (D : Diff acc.law) (get : Reader acc.obj.S) (ms : List MatInfo) (F : (ℕ → Mat ℝ) → (ℕ → ℝ) → ℕ → ℝ) (Sm : (ℕ → Mat ℝ) → (ℕ → ℝ) → Prop)
    (h : IsNet D get ms F Sm gw upd) :
    IsNet (stackDiff (fcDiffs gw act upd) r inc acc D) (stackGet gw act upd r inc acc ms.length get) (ms ++ matsS r m)
      (fun W x => stackFn (fun id => (act id).fn) r m (after ms.length W) (F W x))
      (fun W x => Sm W x ∧ SmoothAtS (fun id => (act id).fn) r m (after ms.length W) (F W x)) gw upd := by
  match r with
  | .nil =>
    simp only [matsS, List.append_nil, stackFn, SmoothAtS, and_true]
    exact h
  | .cons l r =>
    subst hm
    obtain ⟨_, h2, h3⟩ := semDiff_ok (DI := fcDiffs gw act upd) l inc acc.obj.neurons hp.1 (allLeaves_of fcDiffs_ok l) hx.1
    have := stack_isNet ha r inc l.neurons hp.2 hx.2
      ⟨over acc.obj (sem (fcLayers gw act upd) l inc acc.obj.neurons).obj, overLaw acc.law (sem (fcLayers gw act upd) l inc acc.obj.neurons).law⟩ h3
      (overDiff D (semDiff (fcDiffs gw act upd) l inc acc.obj.neurons))
      (get.over ms.length (treeGet gw act upd l inc acc.obj.neurons) (fun s : acc.obj.S × Stor ℝ × (sem (fcLayers gw act upd) l inc acc.obj.neurons).obj.S => s.1)
        fun s => s.2.2) _ _ _ (over_isNet h (tree_isNet ha l inc acc.obj.neurons hp.1 hx.1) h2)
    have e : ∀ W, after (ms ++ mats l acc.obj.neurons).length W = after (mats l acc.obj.neurons).length (after ms.length W) := by
      intro W
      funext i
      unfold after
      rw [List.length_append, Nat.add_assoc]
    simp only [e] at this
    rw [List.append_assoc, List.length_append] at this
    simp only [and_assoc] at this
    exact this
theorem fields_isNet (ha : ∀ id, (act id).Args)
    (fs : Fields) (inc : BS) (n : ℕ) (hin : FieldsInside n fs.coords) (hp : fs.AllPacks FieldsInside Divisible) (hx : NoExtraF fs) :
    FIsNet n (semFields (fcLayers gw act upd) fs inc).fs (semFields (fcLayers gw act upd) fs inc).laws (fieldsDiff (fcDiffs gw act upd) fs inc)
      (fieldsGet gw act upd fs inc) (matsF fs) (fieldsFn (fun id => (act id).fn) fs) (SmoothAtF (fun id => (act id).fn) fs) gw upd := by
  match fs with
  | .nil => exact nil_isNet _ _ _ _ _ _
  | .cons ofs cnt l r =>
    obtain ⟨_, h2, h3⟩ := semDiff_ok (DI := fcDiffs gw act upd) l inc cnt hp.1 (allLeaves_of fcDiffs_ok l) hx.1
    have := cons_isNet (f := ⟨ofs, cnt, (sem (fcLayers gw act upd) l inc cnt).obj⟩) (Ls := .cons (f := ⟨ofs, cnt, (sem (fcLayers gw act upd) l inc cnt).obj⟩)
      (sem (fcLayers gw act upd) l inc cnt).law (semFields (fcLayers gw act upd) r inc).laws) (tree_isNet ha l inc cnt hp.1 hx.1)
      (fields_isNet ha r inc n (fun c hc => hin c (List.mem_cons_of_mem _ hc)) hp.2 hx.2) (by
        have := hin (ofs, cnt) List.mem_cons_self
        rw [h2]
        exact this)
    rw [h3] at this
    exact this
end

end Nntl.Sgd
