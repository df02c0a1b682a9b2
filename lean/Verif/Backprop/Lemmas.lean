import Verif.Backprop.Spec
import Mathlib.Analysis.Calculus.Deriv.Add
import Mathlib.Analysis.Calculus.Deriv.Mul
import Mathlib.Analysis.Calculus.Deriv.Comp
import Mathlib.Algebra.BigOperators.Ring.Finset
import Mathlib.Algebra.BigOperators.Intervals
import Mathlib.Tactic.Ring
import Mathlib.Tactic.FieldSimp
import Mathlib.Tactic.Linarith

/-! Lemmas about derivatives of passes. -/
namespace Nntl.Backprop

open Nntl.Pass
open Finset

theorem inner_comm (m n : ℕ) (A B : Mat ℝ) : inner m n A B = inner m n B A := by
  unfold inner
  exact sum_congr rfl fun r _ => sum_congr rfl fun c _ => mul_comm _ _

theorem inner_congr {m n : ℕ} {A A' B B' : Mat ℝ} (h : ∀ r < m, ∀ c < n, A r c * B r c = A' r c * B' r c) : inner m n A B = inner m n A' B' := by
  unfold inner
  exact sum_congr rfl fun r hr => sum_congr rfl fun c hc => h r (mem_range.1 hr) c (mem_range.1 hc)

/-- The matrix with a single 1. -/
def unitAt (i j : ℕ) : Mat ℝ := fun r c => if r = i ∧ c = j then 1 else 0

theorem inner_unitAt {m n i j : ℕ} (hi : i < m) (hj : j < n) (A : Mat ℝ) : inner m n (unitAt i j) A = A i j := by
  unfold inner unitAt
  rw [sum_eq_single i, sum_eq_single j]
  · simp
  · intro c _ hc; simp [hc]
  · intro h; exact absurd (mem_range.2 hj) h
  · intro r _ hr
    exact sum_eq_zero fun c _ => by simp [hr]
  · intro h; exact absurd (mem_range.2 hi) h

theorem hasDerivAt_inner {m n : ℕ} (G : Mat ℝ) {Y : ℝ → Mat ℝ} {Y' : Mat ℝ} (h : ∀ r < m, ∀ c < n, HasDerivAt (fun t => Y t r c) (Y' r c) 0) :
    HasDerivAt (fun t => inner m n G (Y t)) (inner m n G Y') 0 := by
  unfold inner
  exact HasDerivAt.fun_sum fun r hr => HasDerivAt.fun_sum fun c hc => (h r (mem_range.1 hr) c (mem_range.1 hc)).const_mul _

theorem glue_left {n i : ℕ} (g h : ℕ → Mat ℝ) (hi : i < n) : glue n g h i = g i := if_pos hi

theorem glue_right (n i : ℕ) (g h : ℕ → Mat ℝ) : glue n g h (n + i) = h i := by
  unfold glue
  rw [if_neg (by omega)]
  congr 1; omega

theorem pairing_congr : ∀ (ws : List Wt) (g g' V : ℕ → Mat ℝ), (∀ i < ws.length, g i = g' i) → pairing ws g V = pairing ws g' V
  | [], _, _, _, _ => rfl
  | w :: ws, g, g', V, h => by
    simp only [pairing]
    rw [h 0 (by simp), pairing_congr ws _ (fun i => g' (i + 1)) _ fun i hi => h (i + 1) (by simpa using hi)]

theorem pairing_append : ∀ (ws vs : List Wt) (g V : ℕ → Mat ℝ),
    pairing (ws ++ vs) g V = pairing ws g V + pairing vs (fun i => g (ws.length + i)) (fun i => V (ws.length + i))
  | [], vs, g, V => by simp [pairing]
  | w :: ws, vs, g, V => by
    simp only [List.cons_append, pairing, List.length_cons]
    rw [pairing_append ws vs]
    simp only [add_assoc, add_comm, add_left_comm]

theorem pairing_glue (ws vs : List Wt) (g h V : ℕ → Mat ℝ) :
    pairing (ws ++ vs) (glue ws.length g h) V = pairing ws g V + pairing vs h (fun i => V (ws.length + i)) := by
  rw [pairing_append]
  congr 1
  · exact pairing_congr _ _ _ _ fun i hi => glue_left g h hi
  · exact pairing_congr _ _ _ _ fun i _ => glue_right ws.length i g h

theorem pairing_tiles (k : ℕ) : ∀ (ws : List Wt) (g V : ℕ → Mat ℝ),
    pairing (ws.map fun w => ⟨w.rows, w.cols, k * w.tiles⟩) g V = k * pairing ws g V
  | [], _, _ => by simp [pairing]
  | w :: ws, g, V => by
    simp only [List.map_cons, pairing]
    rw [pairing_tiles k ws]
    push_cast; ring

/-- The pairing as one sum. -/
theorem pairing_eq_sum : ∀ (ws : List Wt) (g V : ℕ → Mat ℝ),
    pairing ws g V = ∑ i ∈ range ws.length, (ws.getD i ⟨0, 0, 0⟩).tiles * inner (ws.getD i ⟨0, 0, 0⟩).rows (ws.getD i ⟨0, 0, 0⟩).cols (g i) (V i)
  | [], _, _ => by simp [pairing]
  | w :: ws, g, V => by
    simp only [pairing, List.length_cons]
    rw [sum_range_succ', pairing_eq_sum ws]
    simp only [List.getD_cons_succ, List.getD_cons_zero]
    ring

/-! ### Weakening, components -/

theorem inner_zero_right (m n : ℕ) (A : Mat ℝ) : inner m n A (fun _ _ => 0) = 0 := by
  unfold inner; exact sum_eq_zero fun r _ => sum_eq_zero fun c _ => mul_zero _

theorem IsDiff.weak {o : Obj ℝ} {L : Law o} {D : Diff L} (h : IsDiff D) : IsDiff0 D where
  line_zero := h.line_zero
  upd := h.upd
  step_congr := h.step_congr
  deriv := fun R s V X G h0 hs => by
    have := h.deriv R s V (fun _ => X) (fun _ _ => 0) G h0 hs fun r _ c _ => hasDerivAt_const _ _
    rwa [inner_zero_right, zero_add] at this

theorem inner_zero_left (m n : ℕ) (A : Mat ℝ) : inner m n (fun _ _ => 0) A = 0 := by
  unfold inner; exact sum_eq_zero fun r _ => sum_eq_zero fun c _ => zero_mul _

theorem IsDiff.comp {o : Obj ℝ} {L : Law o} {D : Diff L} (h : IsDiff D) {R : ℕ} {s : o.S} (V : ℕ → Mat ℝ) {X : ℝ → Mat ℝ} {X' : Mat ℝ} (h0 : 0 < R)
    (hs : D.Smooth R s (X 0)) (hX : ∀ r < R, ∀ c < o.inc, HasDerivAt (fun t => X t r c) (X' r c) 0) :
    ∀ r < R, ∀ c < o.neurons, HasDerivAt (fun t => L.fwd R (D.line s V t) (X t) r c) (_root_.deriv (fun t => L.fwd R (D.line s V t) (X t) r c) 0) 0 := by
  intro r hr c hc
  have h1 := h.deriv R s V X X' (unitAt r c) h0 hs hX
  have h2 := h.deriv R s V X X' (fun _ _ => 0) h0 hs hX
  simp only [inner_unitAt hr hc] at h1
  simp only [inner_zero_left, zero_add] at h2
  have h3 := h1.sub h2
  simp only [Pi.sub_def, add_sub_cancel_right] at h3
  exact h3.differentiableAt.hasDerivAt

theorem IsDiff0.comp {o : Obj ℝ} {L : Law o} {D : Diff L} (h : IsDiff0 D) {R : ℕ} {s : o.S} (V : ℕ → Mat ℝ) {X : Mat ℝ} (h0 : 0 < R)
    (hs : D.Smooth R s X) :
    ∀ r < R, ∀ c < o.neurons, HasDerivAt (fun t => L.fwd R (D.line s V t) X r c) (_root_.deriv (fun t => L.fwd R (D.line s V t) X r c) 0) 0 := by
  intro r hr c hc
  have h1 := h.deriv R s V X (unitAt r c) h0 hs
  have h2 := h.deriv R s V X (fun _ _ => 0) h0 hs
  simp only [inner_unitAt hr hc] at h1
  simp only [inner_zero_left, zero_add] at h2
  have h3 := h1.sub h2
  simp only [Pi.sub_def, add_sub_cancel_right] at h3
  exact h3.differentiableAt.hasDerivAt

/-! ### Fully connected layers -/

/-- Derivative of the preactivations. -/
theorem preAct_deriv {R n : ℕ} {X : ℝ → Mat ℝ} {X' : Mat ℝ} (W V : Mat ℝ) (hX : ∀ r < R, ∀ c < n, HasDerivAt (fun t => X t r c) (X' r c) 0) {r c : ℕ}
    (hr : r < R) :
    HasDerivAt (fun t => preAct realArith n (fun c j => W c j + t * V c j) (X t) r c)
      (∑ j ∈ range n, W c j * X' r j + ∑ j ∈ range (n + 1), withOnes n (X 0) r j * V c j) 0 := by
  unfold preAct realArith
  simp only
  have key : ∀ j ∈ range (n + 1), HasDerivAt (fun t => withOnes n (X t) r j * (W c j + t * V c j))
      ((if j < n then X' r j else 0) * (W c j + 0 * V c j) + withOnes n (X 0) r j * V c j) 0 := by
    intro j _
    refine HasDerivAt.mul (c := fun t => withOnes n (X t) r j) (d := fun t => W c j + t * V c j) ?_ ?_
    · unfold withOnes
      by_cases h : j < n
      · simp only [if_pos h]; exact hX r hr j h
      · simp only [if_neg h]; exact hasDerivAt_const _ _
    · have := ((hasDerivAt_id (0 : ℝ)).mul_const (V c j)).const_add (W c j)
      simpa using this
  refine (HasDerivAt.fun_sum key).congr_deriv ?_
  rw [sum_add_distrib]
  congr 1
  rw [sum_range_succ, if_neg (by omega), zero_mul, add_zero]
  exact sum_congr rfl fun j hj => by rw [if_pos (mem_range.1 hj)]; ring

/-- Summation of the products with a gradient with respect to preactivations. -/
theorem preAct_grad {R n m : ℕ} (h0 : 0 < R) (X X' W V Z : Mat ℝ) :
    ∑ r ∈ range R, ∑ c ∈ range m, Z r c * (∑ j ∈ range n, W c j * X' r j + ∑ j ∈ range (n + 1), withOnes n X r j * V c j) =
    inner R n (fun r j => ∑ c ∈ range m, Z r c * W c j) X' + R * (1 * inner m (n + 1) (gradW realArith R n X Z) V) := by
  have hR : (R : ℝ) ≠ 0 := Nat.cast_ne_zero.2 (Nat.pos_iff_ne_zero.1 h0)
  simp only [mul_add]
  simp only [sum_add_distrib]
  congr 1
  · unfold inner
    refine sum_congr rfl fun r _ => ?_
    simp only [mul_sum, sum_mul]
    rw [sum_comm]
    exact sum_congr rfl fun j _ => sum_congr rfl fun c _ => by ring
  · unfold inner gradW realArith
    simp only [one_mul, mul_sum, sum_mul]
    rw [sum_comm]
    refine sum_congr rfl fun c _ => ?_
    rw [sum_comm]
    refine sum_congr rfl fun j _ => sum_congr rfl fun r _ => ?_
    field_simp

theorem fc_isDiff (gw : GradWorks ℝ) (f df : ℝ → ℝ) (upd : Bool) (NT n m : ℕ) : IsDiff (fcDiff gw f df upd NT n m) where
  line_zero := fun s V => by
    simp only [fcDiff, zero_mul, add_zero]
    rfl
  upd := fun R s X G s' _ h => h
  step_congr := fun s g g' s' e h => by
    simp only [fcDiff] at h ⊢
    rwa [← e 0 (by simp [fcDiff])]
  deriv := fun R s V X X' G h0 hs hX => by
    have hz : ∀ r < R, ∀ c < m, HasDerivAt (fun t => f (preAct realArith n (fun c j => s.w c j + t * V 0 c j) (X t) r c))
        (df (f (preAct realArith n s.w (X 0) r c)) *
          (∑ j ∈ range n, s.w c j * X' r j + ∑ j ∈ range (n + 1), withOnes n (X 0) r j * V 0 c j)) 0 := by
      intro r hr c hc
      have h1 := preAct_deriv s.w (V 0) hX (c := c) hr
      have h2 := hs r hr c hc
      have e : preAct realArith n (fun c j => s.w c j + (0 : ℝ) * V 0 c j) (X 0) r c = preAct realArith n s.w (X 0) r c := by simp
      exact HasDerivAt.comp (0 : ℝ) (h₂ := f) (h := fun t => preAct realArith n (fun c j => s.w c j + t * V 0 c j) (X t) r c) (by rw [e]; exact h2) h1
    refine ((hasDerivAt_inner G hz).add_const 0).congr_deriv ?_
    have := preAct_grad (n := n) (m := m) h0 (X 0) X' s.w (V 0) fun r c => df (f (preAct realArith n s.w (X 0) r c)) * G r c
    have e : pairing (fcDiff gw f df upd NT n m).ws ((fcDiff gw f df upd NT n m).grad R s (X 0) G) V =
        1 * inner m (n + 1) (gradW realArith R n (X 0) fun r c => df (f (preAct realArith n s.w (X 0) r c)) * G r c) (V 0) := by
      simp only [fcDiff, pairing, add_zero, Nat.cast_one]
    rw [e]
    refine Eq.trans ?_ this
    unfold inner
    exact sum_congr rfl fun r _ => sum_congr rfl fun c _ => by ring

theorem identity_isDiff (n : ℕ) : IsDiff (identityDiff n) where
  line_zero := fun _ _ => rfl
  upd := fun _ _ _ _ _ _ _ => trivial
  step_congr := fun _ _ _ _ _ _ => trivial
  deriv := fun R s V X X' G h0 hs hX => by
    refine ((hasDerivAt_inner G hX).add_const 0).congr_deriv ?_
    simp [identityDiff, pairing, identityLaw, identity]

/-! ### Packs -/

theorem over_isDiff {l u : Obj ℝ} {L : Law l} {U : Law u} {D : Diff L} {E : Diff U} (hD : IsDiff D) (hE : IsDiff E) (hn : u.inc = l.neurons) :
    IsDiff (overDiff D E) where
  line_zero := fun s V => by simp only [overDiff, hD.line_zero, hE.line_zero]; rfl
  upd := fun R s X G s' hs h => by
    obtain ⟨h2, h1⟩ := h
    refine ⟨hD.step_congr _ _ _ _ (fun i hi => (glue_left _ _ hi).symm) (hD.upd _ _ _ _ _ hs.1 h1),
      hE.step_congr _ _ _ _ (fun i hi => (glue_right _ _ _ _).symm) (hE.upd _ _ _ _ _ hs.2 h2)⟩
  step_congr := fun s g g' s' e h => by
    have e' : ∀ i < D.ws.length + E.ws.length, g i = g' i := fun i hi => e i (by simpa [overDiff] using hi)
    exact ⟨hD.step_congr _ _ _ _ (fun i hi => e' i (by omega)) h.1, hE.step_congr _ _ _ _ (fun i hi => e' _ (by omega)) h.2⟩
  deriv := fun R s V X X' G h0 hs hX => by
    obtain ⟨hs1, hs2⟩ := hs
    have hY := hD.comp V h0 hs1 hX
    have h1 := hD.deriv R s.1 V X X' (U.bwd R s.2.2 (L.fwd R s.1 (X 0)) G) h0 hs1 hX
    have h2 := hasDerivAt_inner (U.bwd R s.2.2 (L.fwd R s.1 (X 0)) G) hY
    have hp := h1.sub h2
    simp only [Pi.sub_def, add_sub_cancel_left] at hp
    have e0 : L.fwd R (D.line s.1 V 0) (X 0) = L.fwd R s.1 (X 0) := by rw [hD.line_zero]
    have h3 := hE.deriv R s.2.2 (fun i => V (D.ws.length + i)) (fun t => L.fwd R (D.line s.1 V t) (X t)) _ G h0 (by rw [e0]; exact hs2)
      (by rw [hn]; exact hY)
    rw [e0, hn] at h3
    refine ((h3.add hp).congr_deriv ?_).congr_of_eventuallyEq (Filter.Eventually.of_forall fun t => ?_)
    swap
    · simp only [overDiff, overLaw, Pi.add_apply]
      show inner R u.neurons G _ + (_ + _) = _
      ring
    show _ = inner R l.inc _ X' + R * pairing (D.ws ++ E.ws) (glue D.ws.length _ _) V
    rw [pairing_glue]
    simp only [overLaw]
    ring

theorem frozen_isDiff {l u : Obj ℝ} {L : Law l} {U : Law u} {E : Diff U} (hE : IsDiff0 E) : IsDiff0 (frozenDiff (L := L) E) where
  line_zero := fun s V => by simp only [frozenDiff, hE.line_zero]; rfl
  upd := fun R s X G s' hs h => ⟨h.1, hE.upd _ _ _ _ _ hs h.2⟩
  step_congr := fun s g g' s' e h => ⟨h.1, hE.step_congr _ _ _ _ e h.2⟩
  deriv := fun R s V X G h0 hs => hE.deriv R s.2.2 V (L.fwd R s.1 X) G h0 hs

/-- All inner layers calculate derivatives, and their fields are inside of the input. -/
def fOk (inc : ℕ) : (fs : List (Fld ℝ)) → (Ls : Laws fs) → Diffs fs Ls → Prop
  | [], _, _ => True
  | f :: fs, Ls, D => IsDiff D.1 ∧ f.obj.inc = f.cnt ∧ f.ofs + f.cnt ≤ inc ∧ fOk inc fs Ls.tail D.2

theorem inner_split (R m k : ℕ) (G Y : Mat ℝ) : inner R (m + k) G Y = inner R m G Y + inner R k (colsFrom m G) (colsFrom m Y) := by
  unfold inner colsFrom
  rw [← sum_add_distrib]
  exact sum_congr rfl fun r _ => by rw [sum_range_add]

theorem inner_window {R inc ofs cnt : ℕ} (h : ofs + cnt ≤ inc) (P B X : Mat ℝ) :
    inner R inc (fun r j => if ofs ≤ j ∧ j < ofs + cnt then P r j + B r (j - ofs) else P r j) X = inner R cnt B (colsFrom ofs X) + inner R inc P X := by
  unfold inner colsFrom
  rw [← sum_add_distrib]
  refine sum_congr rfl fun r _ => ?_
  have e : ∀ j, (if ofs ≤ j ∧ j < ofs + cnt then P r j + B r (j - ofs) else P r j) * X r j =
      (if ofs ≤ j ∧ j < ofs + cnt then B r (j - ofs) * X r j else 0) + P r j * X r j := by
    intro j; split <;> ring
  simp only [e]
  rw [sum_add_distrib]
  congr 1
  obtain ⟨k, rfl⟩ := Nat.exists_eq_add_of_le h
  rw [sum_range_add, sum_range_add]
  have a : ∑ x ∈ range ofs, (if ofs ≤ x ∧ x < ofs + cnt then B r (x - ofs) * X r x else 0) = 0 :=
    sum_eq_zero fun j hj => if_neg fun hh => by have := mem_range.1 hj; omega
  have b : ∑ x ∈ range k, (if ofs ≤ ofs + cnt + x ∧ ofs + cnt + x < ofs + cnt then B r (ofs + cnt + x - ofs) * X r (ofs + cnt + x) else 0) = 0 :=
    sum_eq_zero fun j hj => if_neg fun hh => by omega
  rw [a, b, zero_add, add_zero]
  exact sum_congr rfl fun j hj => by
    have := mem_range.1 hj
    rw [if_pos ⟨by omega, by omega⟩, show ofs + j - ofs = j by omega]

theorem fLine_zero {inc : ℕ} : (fs : List (Fld ℝ)) → (Ls : Laws fs) → (D : Diffs fs Ls) → fOk inc fs Ls D → ∀ s V, fLine fs Ls D s V 0 = s
  | [], _, _, _, _, _ => rfl
  | _ :: fs, Ls, D, h, s, V => by
    simp only [fLine]
    rw [h.1.line_zero, fLine_zero fs Ls.tail D.2 h.2.2.2]
    rfl

theorem fUpd_step {inc R : ℕ} {X : Mat ℝ} : (fs : List (Fld ℝ)) → (Ls : Laws fs) → (D : Diffs fs Ls) → fOk inc fs Ls D → ∀ s G s',
    fSmooth R X fs Ls D s → fUpd R X fs Ls s G s' → fStep fs Ls D s (fGrad R X fs Ls D s G) s'
  | [], _, _, _, _, _, _, _, _ => trivial
  | f :: fs, Ls, D, h, s, G, s', hs, hu => by
    refine ⟨h.1.step_congr _ _ _ _ (fun i hi => (glue_left _ _ hi).symm) (h.1.upd _ _ _ _ _ hs.1 hu.1), ?_⟩
    have := fUpd_step fs Ls.tail D.2 h.2.2.2 s.2 _ s'.2 hs.2 hu.2
    have e : (fun i => fGrad R X (f :: fs) Ls D s G (D.1.ws.length + i)) = fGrad R X fs Ls.tail D.2 s.2 (colsFrom f.obj.neurons G) :=
      funext fun i => glue_right _ _ _ _
    rw [e]
    exact this

theorem fStep_congr {inc : ℕ} : (fs : List (Fld ℝ)) → (Ls : Laws fs) → (D : Diffs fs Ls) → fOk inc fs Ls D → ∀ s g g' s',
    (∀ i < (fWs fs Ls D).length, g i = g' i) → fStep fs Ls D s g s' → fStep fs Ls D s g' s'
  | [], _, _, _, _, _, _, _, _, _ => trivial
  | _ :: fs, Ls, D, h, s, g, g', s', e, hs => by
    have e' : ∀ i < D.1.ws.length + (fWs fs Ls.tail D.2).length, g i = g' i := fun i hi => e i (by simpa [fWs] using hi)
    exact ⟨h.1.step_congr _ _ _ _ (fun i hi => e' i (by omega)) hs.1,
      fStep_congr fs Ls.tail D.2 h.2.2.2 _ _ _ _ (fun i hi => e' _ (by omega)) hs.2⟩

theorem fields_deriv {inc R : ℕ} (h0 : 0 < R) {X : ℝ → Mat ℝ} {X' : Mat ℝ} (hX : ∀ r < R, ∀ c < inc, HasDerivAt (fun t => X t r c) (X' r c) 0) :
    (fs : List (Fld ℝ)) → (Ls : Laws fs) → (D : Diffs fs Ls) → fOk inc fs Ls D → ∀ s V G, fSmooth R (X 0) fs Ls D s →
    HasDerivAt (fun t => inner R (fNeurons fs) G (fFwd R (X t) fs Ls (fLine fs Ls D s V t)) + fPen R (X t) fs Ls D (fLine fs Ls D s V t))
      (inner R inc (fBwd R (X 0) fs Ls s G) X' + R * pairing (fWs fs Ls D) (fGrad R (X 0) fs Ls D s G) V) 0
  | [], _, _, _, s, V, G, _ => by
    simp only [fNeurons, fWs, pairing, fBwd, fPen]
    simpa [inner] using hasDerivAt_const (0 : ℝ) (0 : ℝ)
  | f :: fs, Ls, D, h, s, V, G, hs => by
    have h1 := h.1.deriv R s.1 V (fun t => colsFrom f.ofs (X t)) (colsFrom f.ofs X') G h0 hs.1
      fun r hr c hc => hX r hr _ (by have := h.2.1; have := h.2.2.1; omega)
    have h2 := fields_deriv h0 hX fs Ls.tail D.2 h.2.2.2 s.2 (fun i => V (D.1.ws.length + i)) (colsFrom f.obj.neurons G) hs.2
    have h3 := h1.add h2
    refine (h3.congr_deriv ?_).congr_of_eventuallyEq (Filter.Eventually.of_forall fun t => ?_)
    · have e := inner_window (R := R) h.2.2.1 (fBwd R (X 0) fs Ls.tail s.2 (colsFrom f.obj.neurons G))
        (Ls.head.bwd R s.1 (colsFrom f.ofs (X 0)) G) X'
      show _ = inner R inc (fun r j => if f.ofs ≤ j ∧ j < f.ofs + f.cnt then fBwd R (X 0) fs Ls.tail s.2 (colsFrom f.obj.neurons G) r j +
        Ls.head.bwd R s.1 (colsFrom f.ofs (X 0)) G r (j - f.ofs) else fBwd R (X 0) fs Ls.tail s.2 (colsFrom f.obj.neurons G) r j) X' +
        R * pairing (D.1.ws ++ fWs fs Ls.tail D.2) (glue D.1.ws.length _ _) V
      rw [e, pairing_glue, h.2.1]
      ring
    · show inner R (f.obj.neurons + fNeurons fs) G _ + (D.1.pen R _ _ + fPen R (X t) fs Ls.tail D.2 _) = _
      rw [inner_split]
      simp only [Pi.add_apply]
      rw [add_add_add_comm]
      congr 2
      · exact inner_congr fun r _ c hc => by
          congr 1
          exact if_pos hc
      · exact inner_congr fun r _ c hc => by
          congr 1
          show (if f.obj.neurons + c < f.obj.neurons then _ else _) = _
          rw [if_neg (by omega), show f.obj.neurons + c - f.obj.neurons = c by omega]
          rfl

theorem horiz_isDiff {inc bias buf cap : ℕ} {fs : List (Fld ℝ)} {Ls : Laws fs} {D : Diffs fs Ls} (h : fOk inc fs Ls D) :
    IsDiff (horizDiff inc bias buf cap D) where
  line_zero := fun s V => fLine_zero fs Ls D h s V
  upd := fun R s X G s' hs hu => fUpd_step fs Ls D h s G s' hs hu
  step_congr := fun s g g' s' e hs => fStep_congr fs Ls D h s g g' s' e hs
  deriv := fun R s V X X' G h0 hs hX => fields_deriv h0 hX fs Ls D h s V G hs

/-! ### Tiles -/

theorem sum_range_mul (k m : ℕ) (f : ℕ → ℝ) : ∑ i ∈ range (k * m), f i = ∑ t ∈ range k, ∑ c ∈ range m, f (t * m + c) := by
  induction k with
  | zero => simp
  | succ k ih => rw [Nat.succ_mul, sum_range_add, ih, sum_range_succ]

theorem inner_unroll {k R m : ℕ} (h0 : 0 < R) (G Y : Mat ℝ) : inner R (k * m) G (unroll R m Y) = inner (k * R) m (roll R m G) Y := by
  unfold inner
  rw [sum_range_mul]
  simp only [sum_range_mul]
  rw [sum_comm]
  refine sum_congr rfl fun t _ => sum_congr rfl fun r hr => sum_congr rfl fun c hc => ?_
  have hr := mem_range.1 hr
  have hc := mem_range.1 hc
  have hm : 0 < m := by omega
  unfold unroll roll
  have e1 : (t * m + c) / m = t := by rw [mul_comm, Nat.mul_add_div hm, Nat.div_eq_of_lt hc, add_zero]
  have e2 : (t * m + c) % m = c := by rw [mul_comm, Nat.mul_add_mod, Nat.mod_eq_of_lt hc]
  have e3 : (t * R + r) / R = t := by rw [mul_comm, Nat.mul_add_div h0, Nat.div_eq_of_lt hr, add_zero]
  have e4 : (t * R + r) % R = r := by rw [mul_comm, Nat.mul_add_mod, Nat.mod_eq_of_lt hr]
  rw [e1, e2, e3, e4]

theorem tile_isDiff {k cap : ℕ} (hk : 0 < k) {l : Obj ℝ} {L : Law l} {D : Diff L} (h : IsDiff D) : IsDiff (tileDiff k cap D) where
  line_zero := fun s V => by simp only [tileDiff, h.line_zero]; rfl
  upd := fun R s X G s' hs hu => h.upd _ _ _ _ _ hs hu
  step_congr := fun s g g' s' e hs => h.step_congr _ _ _ _ (fun i hi => e i (by simpa [tileDiff] using hi)) hs
  deriv := fun R s V X X' G h0 hs hX => by
    have h1 := h.deriv (k * R) s.1 V (fun t => roll R l.inc (X t)) (roll R l.inc X') (roll R l.neurons G) (Nat.mul_pos hk h0) hs
      fun q hq c hc => hX _ (Nat.mod_lt _ h0) _ (by
        have : q / R < k := Nat.div_lt_of_lt_mul (by rwa [mul_comm])
        show q / R * l.inc + c < k * l.inc
        calc q / R * l.inc + c < q / R * l.inc + l.inc := by omega
          _ = (q / R + 1) * l.inc := by ring
          _ ≤ k * l.inc := Nat.mul_le_mul_right _ this)
    refine (h1.congr_deriv ?_).congr_of_eventuallyEq (Filter.Eventually.of_forall fun t => ?_)
    · show _ = inner R (k * l.inc) (unroll R l.inc _) X' + R * pairing (D.ws.map _) _ V
      rw [inner_comm R, inner_unroll h0, pairing_tiles, inner_comm]
      push_cast
      simp only [tileDiff]
      ring
    · show inner R (k * l.neurons) G (unroll R l.neurons _) + _ = _
      rw [inner_unroll h0]
      rfl

end Nntl.Backprop
