import Verif.Dropout.Spec
import Verif.Grad.Lemmas
import Verif.Matrix.Lemmas
import Mathlib.Tactic.FieldSimp
/-! C53: dropout; C73: alpha dropout keeps mean and variance. -/
namespace Nntl.Dropout
open Nntl.Kernel Nntl.Matrix Nntl.Threads Nntl.Grad

/-- Invariant: masks for `cur` samples. -/
def Inv (k : Kind) (maxBS n : Nat) (d : Drop) (p : ℝ) (cur : Nat) : Prop :=
  d.p = p ∧ 0 < p ∧ p ≤ 1 ∧ 0 < cur ∧
  (d.mask.rows = cur ∧ d.mask.cols = n ∧ d.mask.emul = false ∧ d.mask.cap ≠ 0 ∧ d.mask.maxSize = maxBS * n) ∧
  (d.orig.rows = cur ∧ d.orig.cols = n ∧ d.orig.emul = false ∧ d.orig.bir = false ∧ d.orig.cap ≠ 0 ∧ d.orig.maxSize = maxBS * n) ∧
  (match k with
    | .classical => True
    | .alpha al mean var => p < 1 → d.a = alphaA al mean var p ∧ d.b = alphaB al mean var p ∧ d.mb = alphaA al mean var p * -al + alphaB al mean var p)

theorem coeffs_eq (al mean var p : ℝ) : coeffs al mean var p = (alphaA al mean var p, alphaB al mean var p, alphaA al mean var p * -al + alphaB al mean var p) := by
  have ha : Real.sqrt (var / (p * ((1 - p) * ((-al - mean) * (-al - mean)) + var))) = alphaA al mean var p := by
    unfold alphaA; rw [show (-al - mean) * (-al - mean) = (al + mean) ^ 2 by ring]
  have hb : mean - Real.sqrt (var / (p * ((1 - p) * ((-al - mean) * (-al - mean)) + var))) * (p * mean + (1 - p) * -al) = alphaB al mean var p := by
    rw [ha]; unfold alphaB; ring
  unfold coeffs
  simp only [ha, hb, Prod.mk.injEq, true_and]
  rw [← hb, ha]
  exact ⟨rfl, rfl⟩

theorem inv_setP {k : Kind} {maxBS n : Nat} {d : Drop} {p : ℝ} {cur : Nat} (h : Inv k maxBS n d p cur) (x : ℝ) :
    Inv k maxBS n (d.setP k x) (pAfter p (.setP x)) cur := by
  obtain ⟨h1, h2, h3, h4, h5, h6, h7⟩ := h
  have hp : (if x ≤ 0 ∨ 1 < x then (1 : ℝ) else x) = pAfter p (.setP x) := by
    show _ = if 0 < x ∧ x ≤ 1 then x else 1
    by_cases hx : 0 < x ∧ x ≤ 1
    · rw [if_pos hx, if_neg (by push Not; exact hx)]
    · rw [if_neg hx, if_pos (by by_contra hn; push Not at hn; exact hx hn)]
  have hpos : 0 < pAfter p (.setP x) ∧ pAfter p (.setP x) ≤ 1 := by
    unfold pAfter; dsimp only
    split
    · assumption
    · exact ⟨one_pos, le_refl _⟩
  have hlt : pAfter p (.setP x) < 1 → x = pAfter p (.setP x) := by
    unfold pAfter; dsimp only
    split
    · intro _; rfl
    · intro h; exact absurd h (lt_irrefl _)
  cases k with
  | classical =>
    unfold Drop.setP; rw [hp]
    exact ⟨rfl, hpos.1, hpos.2, h4, h5, h6, trivial⟩
  | alpha al mean var =>
    unfold Drop.setP; rw [hp]; dsimp only
    by_cases ho : pAfter p (.setP x) < 1
    · rw [if_pos (by unfold Drop.on; exact decide_eq_true ho), coeffs_eq]
      have e := hlt ho
      generalize pAfter p (.setP x) = q at *
      subst e
      exact ⟨rfl, hpos.1, hpos.2, h4, h5, h6, fun _ => ⟨rfl, rfl, rfl⟩⟩
    · rw [if_neg (by unfold Drop.on; simpa using ho)]
      exact ⟨rfl, hpos.1, hpos.2, h4, h5, h6, fun h => absurd h ho⟩

theorem inv_size {k : Kind} {maxBS n : Nat} {d : Drop} {p : ℝ} {cur : Nat} (h : Inv k maxBS n d p cur) (t : Bool) (bs : Nat) (hb : 0 < bs ∧ bs ≤ maxBS) :
    ∃ d', d.batchChange t bs = some d' ∧ Inv k maxBS n d' p (curAfter p cur (.size t bs)) := by
  obtain ⟨h1, h2, h3, h4, ⟨m1, m2, m3, m4, m5⟩, ⟨o1, o2, o3, o4, o5, o6⟩, h7⟩ := h
  have hle : bs * n ≤ maxBS * n := Nat.mul_le_mul_right _ hb.2
  show ∃ d', d.batchChange t bs = some d' ∧ Inv k maxBS n d' p (if t = true ∧ p < 1 then bs else cur)
  unfold Drop.batchChange
  by_cases ht : t = true ∧ p < 1
  · rw [if_pos ht, if_pos (by unfold Drop.on; rw [h1]; simpa using ht)]
    unfold Mtx.deformRows
    rw [if_pos ⟨by simpa [Mtx.empty] using m4, by rw [m5, m2]; exact hle⟩, if_pos ⟨by simpa [Mtx.empty] using o5, by rw [o6, o2]; exact hle⟩]
    exact ⟨_, rfl, h1, h2, h3, hb.1, ⟨rfl, m2, m3, m4, m5⟩, ⟨rfl, o2, o3, o4, o5, o6⟩, h7⟩
  · rw [if_neg (by unfold Drop.on; rw [h1]; simpa using ht), if_neg ht]
    exact ⟨_, rfl, h1, h2, h3, h4, ⟨m1, m2, m3, m4, m5⟩, ⟨o1, o2, o3, o4, o5, o6⟩, h7⟩

theorem copyN_at' (dst src : Nat → ℝ) (n i : Nat) : copyN dst src n i = if i < n then src i else dst i := by
  induction n with
  | zero => rfl
  | succ n ih =>
    show upd (copyN dst src n) n (src n) i = _
    unfold upd
    by_cases h : i = n
    · rw [if_pos h, if_pos (by omega), h]
    · rw [if_neg h, ih]
      by_cases h2 : i < n
      · rw [if_pos h2, if_pos (by omega)]
      · rw [if_neg h2, if_neg (by omega)]

theorem copyN_fun (dst src : Nat → ℝ) (n : Nat) : copyN dst src n = fun i => if i < n then src i else dst i := funext (copyN_at' dst src n)

theorem runs_pair_at {ex : Exec} (h : ex.Ok) {n : Nat} (hn : 0 < n) (f : ℝ × ℝ → ℝ × ℝ) (a b a' b' : Nat → ℝ) :
    Runs ex n (eachSteps fun _ => f) (fun i => (a i, b i)) (fun i => (a' i, b' i)) ↔
    a' = (fun i => if i < n then (f (a i, b i)).1 else a i) ∧ b' = fun i => if i < n then (f (a i, b i)).2 else b i := by
  refine (runs_each h hn _ _ _).trans ((pair_eq _ _ _).trans ?_)
  unfold each
  refine and_congr (Eq.congr_right ?_) (Eq.congr_right ?_) <;> (funext i; dsimp only; split <;> rfl)

/-- What the kernels write. -/
theorem alphaCell_eq (al mean var p u x : ℝ) (ha : alphaA al mean var p ≠ 0) :
    alphaCell p (alphaA al mean var p) (alphaB al mean var p) (alphaA al mean var p * -al + alphaB al mean var p) (x, u) =
      (dropped (.alpha al mean var) p u x, slope (.alpha al mean var) p u) := by
  unfold alphaCell dropped slope
  dsimp only
  by_cases h : u < p
  · simp only [if_pos h]
    refine Prod.ext ?_ rfl
    dsimp only; field_simp; ring
  · simp only [if_neg h]
    refine Prod.ext ?_ rfl
    dsimp only; field_simp; ring

theorem dropCell_eq (p u x : ℝ) : dropCell p (x, u) = (dropped .classical p u x, slope .classical p u) := by
  unfold dropCell dropped slope
  dsimp only
  by_cases h : u < p
  · simp only [if_pos h]; refine Prod.ext ?_ rfl; dsimp only; ring
  · simp only [if_neg h]; refine Prod.ext ?_ rfl; dsimp only; ring

/-- The parameters of the template make sense: the fixed point has a variance. -/
def Kind.Ok : Kind → Prop
  | .classical => True
  | .alpha _ _ var => 0 < var

theorem alphaA_pos {al mean var p : ℝ} (hv : 0 < var) (h0 : 0 < p) (h1 : p ≤ 1) : 0 < alphaA al mean var p := by
  unfold alphaA
  apply Real.sqrt_pos.2
  apply div_pos hv
  apply mul_pos h0
  have := mul_nonneg (sub_nonneg.2 h1) (sq_nonneg (al + mean))
  linarith

section
variable {E : Env} (hE : E.Ok) {k : Kind} (hk : k.Ok) {maxBS n : Nat} (hn : 0 < n) {d : Drop} {p : ℝ} {cur : Nat}
include hE hk hn

/-- Forward pass in training mode with dropout on. -/
theorem apply_on (h : Inv k maxBS n d p cur) (hp : p < 1) (act : Mtx ℝ) (ha : ActOk cur n act) (draw : Nat → ℝ) (r : Option (Drop × Mtx ℝ)) :
    d.apply E k true draw act r ↔ r = some ({ d with
      orig := { d.orig with bir := false, data := fun i => if i < cur * n then act.data i else d.orig.data i }
      mask := { d.mask with data := fun i => if i < cur * n then slope k p (draw i) else d.mask.data i } },
      { act with data := fun i => if i < cur * n then dropped k p (draw i) (act.data i) else act.data i }) := by
  obtain ⟨h1, h2, h3, h4, ⟨m1, m2, m3, m4, m5⟩, ⟨o1, o2, o3, o4, o5, o6⟩, h7⟩ := h
  obtain ⟨a1, a2, a3, a4⟩ := ha
  have hs : sizeNoBias act = (cur, n) := by
    unfold sizeNoBias Mtx.rowsNoBias Mtx.colsNoBias; rw [a1, a2, a3, a4]; simp
  have hnum : d.mask.numel = cur * n := by unfold Mtx.numel; rw [m1, m2]
  have hpos : 0 < cur * n := Nat.mul_pos h4 hn
  have hcopy : copyDataSkipBias act d.orig = some { d.orig with bir := false, data := fun i => if i < cur * n then act.data i else d.orig.data i } := by
    unfold copyDataSkipBias Mtx.numelNoBias Mtx.colsNoBias Mtx.rowsNoBias
    rw [a1, a2, a3, a4, o1, o2, o3]
    simp [copyN_fun, o1, o2, o3]
  unfold Drop.apply
  rw [if_neg (by unfold Drop.on; rw [h1]; simp [hp]), if_neg (by rw [hs, m1, m2, o1, o2, a3, m3]; simp), hcopy]
  dsimp only
  rw [hnum]
  simp only [copyN_fun]
  have key : ∀ A' D' : Nat → ℝ, d.kernel E k act.data (fun i => if i < cur * n then draw i else d.mask.data i) A' D' ↔
      A' = (fun i => if i < cur * n then dropped k p (draw i) (act.data i) else act.data i) ∧
      D' = fun i => if i < cur * n then slope k p (draw i) else d.mask.data i := by
    intro A' D'
    cases k with
    | classical =>
      show makeDropout E d.mask.numel d.p _ _ _ _ ↔ _
      rw [hnum, h1]; unfold makeDropout
      rw [runs_pair_at (exec_ok hE _ _) hpos]
      refine and_congr (Eq.congr_right ?_) (Eq.congr_right ?_) <;>
      · funext i
        by_cases hi : i < cur * n
        · simp only [if_pos hi]; rw [dropCell_eq]
        · simp only [if_neg hi]
    | alpha al mean var =>
      show makeAlphaDropout E d.mask.numel d.p _ _ _ _ _ _ _ ↔ _
      rw [hnum, h1]; unfold makeAlphaDropout
      obtain ⟨e1, e2, e3⟩ := h7 hp
      rw [runs_pair_at (exec_ok hE _ _) hpos, e1, e2, e3]
      refine and_congr (Eq.congr_right ?_) (Eq.congr_right ?_) <;>
      · funext i
        by_cases hi : i < cur * n
        · simp only [if_pos hi]; rw [alphaCell_eq _ _ _ _ _ _ (ne_of_gt (alphaA_pos hk h2 h3))]
        · simp only [if_neg hi]
  constructor
  · rintro ⟨A', D', hr, rfl⟩
    obtain ⟨rfl, rfl⟩ := (key A' D').1 hr
    rw [← a4]
  · intro hr
    exact ⟨_, _, (key _ _).2 ⟨rfl, rfl⟩, by rw [hr, ← a4]⟩

/-- Backward pass after it. -/
theorem restore_on (h : Inv k maxBS n d p cur) (hp : p < 1) (act dLdA : Mtx ℝ) (ha : ActOk cur n act) (hg : GradOk cur n dLdA) (r : Option (Mtx ℝ × Mtx ℝ)) :
    d.restore E true dLdA act r ↔ r = some ({ dLdA with data := fun i => if i < cur * n then dLdA.data i * d.mask.data i else dLdA.data i },
      { act with data := fun i => if i < cur * n then d.orig.data i else act.data i }) := by
  obtain ⟨h1, h2, h3, h4, ⟨m1, m2, m3, m4, m5⟩, ⟨o1, o2, o3, o4, o5, o6⟩, h7⟩ := h
  obtain ⟨a1, a2, a3, a4⟩ := ha
  obtain ⟨g1, g2, g3⟩ := hg
  have hs : sizeNoBias act = (cur, n) := by
    unfold sizeNoBias Mtx.rowsNoBias Mtx.colsNoBias; rw [a1, a2, a3, a4]; simp
  have hnum : dLdA.numel = cur * n := by unfold Mtx.numel; rw [g1, g2]
  have hcopy : copyDataSkipBias d.orig act = some { act with bir := false, data := fun i => if i < cur * n then d.orig.data i else act.data i } := by
    unfold copyDataSkipBias Mtx.numelNoBias Mtx.colsNoBias Mtx.rowsNoBias
    rw [a1, a2, a3, a4, o1, o2, o3, o4]
    simp only [Bool.and_false, Bool.false_eq_true, if_false, Bool.not_false, Bool.and_self, Bool.toNat_true, Bool.toNat_false, Nat.add_sub_cancel, Nat.sub_zero, ne_eq,
      not_true_eq_false, or_self, Bool.and_true]
    simp only [copyN_fun]
  unfold Drop.restore evMulIp
  rw [if_neg (by unfold Drop.on; rw [h1]; simp [hp]), if_neg (by rw [hs, m1, m2, o1, o2, g1, g2]; simp), hcopy, hnum]
  simp only [runs_each (exec_ok hE _ _) (Nat.mul_pos h4 hn), exists_eq_left]
  rw [← a4]
  rfl

/-- One batch. -/
theorem batch_right (h : Inv k maxBS n d p cur) (act dLdA : Mtx ℝ) (draw : Nat → ℝ) (bs : Nat) (_hb : 0 < bs) (ha : ActOk bs n act) (hg : GradOk bs n dLdA)
    (hc : p < 1 → cur = bs) (r : Option (Drop × Out)) (hr : call E k d (.batch act dLdA draw) r) :
    ∃ d' up g down, r = some (d', .batch up g down) ∧ Inv k maxBS n d' p cur ∧ RightBatch k p act dLdA draw up g down := by
  by_cases hp : p < 1
  · have hcb := hc hp
    subst hcb
    have hap := fun r => apply_on hE hk hn h hp act ha draw r
    rcases hr with ⟨hf, _⟩ | ⟨d1, up, h1, h2⟩
    · exact absurd ((hap _).1 hf) (by simp)
    · have e := (hap _).1 h1
      simp only [Option.some.injEq, Prod.mk.injEq] at e
      obtain ⟨rfl, rfl⟩ := e
      have h' := h
      obtain ⟨q1, q2, q3, q4, ⟨m1, m2, m3, m4, m5⟩, ⟨o1, o2, o3, o4, o5, o6⟩, q7⟩ := h
      have hi1 : Inv k maxBS n { d with
          orig := { d.orig with bir := false, data := fun i => if i < cur * n then act.data i else d.orig.data i }
          mask := { d.mask with data := fun i => if i < cur * n then slope k p (draw i) else d.mask.data i } } p cur :=
        ⟨q1, q2, q3, q4, ⟨m1, m2, m3, m4, m5⟩, ⟨o1, o2, o3, rfl, o5, o6⟩, q7⟩
      have ha1 : ActOk cur n { act with data := fun i => if i < cur * n then dropped k p (draw i) (act.data i) else act.data i } := ha
      have hre := fun r => restore_on hE hk hn hi1 hp _ dLdA ha1 hg r
      rcases h2 with ⟨hf, _⟩ | ⟨g, down, h3, rfl⟩
      · exact absurd ((hre _).1 hf) (by simp)
      · have e := (hre _).1 h3
        simp only [Option.some.injEq, Prod.mk.injEq] at e
        obtain ⟨rfl, rfl⟩ := e
        refine ⟨_, _, _, _, rfl, hi1, ⟨rfl, rfl, rfl⟩, ⟨rfl, rfl⟩, ⟨rfl, rfl, rfl, ?_⟩, ?_, ?_⟩
        · intro i
          dsimp only
          by_cases hi : i < cur * n
          · rw [if_pos hi, if_pos hi]
          · rw [if_neg hi, if_neg hi]
        · intro r c hr hcol
          have hi : r + act.rows * c < cur * n := by
            rw [ha.1]; rw [ha.2.1] at hcol
            rw [ha.1] at hr
            calc r + cur * c < cur + cur * c := by omega
              _ = cur * (c + 1) := by rw [Nat.mul_succ, Nat.add_comm]
              _ ≤ cur * n := Nat.mul_le_mul_left _ (by omega)
          simp only [if_pos hi, if_pos hp, and_self]
        · intro r hr
          have hi : ¬ r + act.rows * (act.cols - 1) < cur * n := by
            rw [ha.1, ha.2.1, Nat.add_sub_cancel]; omega
          simp only [if_neg hi]
  · have hoff : d.on = false := by unfold Drop.on; rw [h.1]; simpa using hp
    have hap : ∀ r, d.apply E k true draw act r ↔ r = some (d, act) := by intro r; unfold Drop.apply; rw [if_pos (Or.inl hoff)]
    have hre : ∀ r, d.restore E true dLdA act r ↔ r = some (dLdA, act) := by intro r; unfold Drop.restore; rw [if_pos hoff]
    rcases hr with ⟨hf, _⟩ | ⟨d1, up, h1, h2⟩
    · exact absurd ((hap _).1 hf) (by simp)
    · have e := (hap _).1 h1
      simp only [Option.some.injEq, Prod.mk.injEq] at e
      obtain ⟨rfl, rfl⟩ := e
      rcases h2 with ⟨hf, _⟩ | ⟨g, down, h3, rfl⟩
      · exact absurd ((hre _).1 hf) (by simp)
      · have e := (hre _).1 h3
        simp only [Option.some.injEq, Prod.mk.injEq] at e
        obtain ⟨rfl, rfl⟩ := e
        exact ⟨_, _, _, _, rfl, h, ⟨rfl, rfl, rfl⟩, ⟨rfl, rfl⟩, ⟨rfl, rfl, rfl, fun _ => rfl⟩, fun r c _ _ => by simp only [if_neg hp, and_self], fun _ _ => rfl⟩

theorem history_right (cs : List Call) : ∀ (d : Drop) (p : ℝ) (cur : Nat), Inv k maxBS n d p cur → Used maxBS n p cur cs → ∀ r, Hist E k d cs r →
    ∃ d' os, r = some (d', os) ∧ Right k p cs os := by
  induction cs with
  | nil => intro d p cur _ _ r hr; cases hr; exact ⟨_, _, rfl, .nil p⟩
  | cons c cs ih =>
    intro d p cur hi hu r hr
    have one : ∀ x, call E k d c x → ∃ d' o, x = some (d', o) ∧ Inv k maxBS n d' (pAfter p c) (curAfter p cur c) ∧ (∀ os, Right k (pAfter p c) cs os → Right k p (c :: cs) (o :: os)) := by
      intro x hx
      cases c with
      | setP y => exact ⟨_, _, hx, inv_setP hi y, fun os h => .setP h⟩
      | size t bs =>
        obtain ⟨d', e1, e2⟩ := inv_size hi t bs hu.1
        refine ⟨d', .quiet, ?_, e2, fun os h => .size h⟩
        rw [show x = _ from hx, e1]; rfl
      | batch act dLdA draw =>
        obtain ⟨bs, hb, ha, hg, hc⟩ := hu.1
        obtain ⟨d', up, g, down, e, hi', hrt⟩ := batch_right hE hk hn hi act dLdA draw bs hb ha hg hc x hx
        exact ⟨d', _, e, hi', fun os h => .batch hrt h⟩
      | eval act =>
        have hap : ∀ r, d.apply E k false (fun _ => 0) act r ↔ r = some (d, act) := by intro r; unfold Drop.apply; rw [if_pos (Or.inr rfl)]
        rcases hx with ⟨hf, _⟩ | ⟨d1, up, h1, h2⟩
        · exact absurd ((hap _).1 hf) (by simp)
        · have e := (hap _).1 h1
          simp only [Option.some.injEq, Prod.mk.injEq] at e
          obtain ⟨rfl, rfl⟩ := e
          exact ⟨_, _, h2, hi, fun os h => .eval h⟩
    cases hr with
    | fail h => obtain ⟨_, _, e, _⟩ := one _ h; cases e
    | stop h ht =>
      obtain ⟨d', o, e, hi', _⟩ := one _ h
      cases e
      obtain ⟨_, _, e2, _⟩ := ih _ _ _ hi' hu.2 _ ht
      cases e2
    | cons h ht =>
      obtain ⟨d', o, e, hi', hR⟩ := one _ h
      cases e
      obtain ⟨_, os, e2, hrt⟩ := ih _ _ _ hi' hu.2 _ ht
      cases e2
      exact ⟨_, _, rfl, hR _ hrt⟩
end

/-- A dropout object before the initialisation of its layer: the matrices are the object's own and carry no biases, the keep probability was set through the API (or never). -/
def Fresh (d : Drop) : Prop := 0 < d.p ∧ d.p ≤ 1 ∧ d.mask.emul = false ∧ d.mask.ext = false ∧ d.orig.emul = false ∧ d.orig.ext = false ∧ d.orig.bir = false

theorem init_inv (k : Kind) (d : Drop) (hf : Fresh d) (maxBS n : Nat) (hm : 0 < maxBS) (hn : 0 < n) (j1 j2 : Nat → ℝ) :
    ∃ d', d.init k maxBS n j1 j2 = some d' ∧ Inv k maxBS n d' d.p maxBS := by
  obtain ⟨h1, h2, h3, h4, h5, h6, h7⟩ := hf
  have key : ∀ (m : Mtx ℝ) (j : Nat → ℝ), m.emul = false → m.ext = false → ∃ m', m.dResize maxBS n j true = some (m', true) ∧
      m'.rows = maxBS ∧ m'.cols = n ∧ m'.emul = false ∧ m'.bir = m.bir ∧ m'.cap ≠ 0 ∧ m'.maxSize = maxBS * n := by
    intro m j he hx
    unfold Mtx.dResize Mtx.resize Mtx.implResize
    have hmn : 0 < maxBS * n := Nat.mul_pos hm hn
    simp only [he, hx, Bool.false_and, Bool.toNat_false, Nat.add_zero, Bool.false_eq_true, if_false, Bool.and_false]
    rw [if_neg (by omega), if_neg (by omega), if_neg (by omega)]
    simp only [Bool.and_false, Bool.false_eq_true, if_false, if_true]
    exact ⟨_, rfl, rfl, rfl, rfl, rfl, by dsimp only; omega, rfl⟩
  obtain ⟨m, e1, a1, a2, a3, a4, a5, a6⟩ := key d.mask j1 h3 h4
  obtain ⟨o, e2, b1, b2, b3, b4, b5, b6⟩ := key d.orig j2 h5 h6
  unfold Drop.init
  rw [e1, e2]
  cases k with
  | classical =>
    exact ⟨_, rfl, rfl, h1, h2, hm, ⟨a1, a2, a3, a5, a6⟩, ⟨b1, b2, b3, by rw [b4, h7], b5, b6⟩, trivial⟩
  | alpha al mean var =>
    refine ⟨_, rfl, ?_⟩
    dsimp only
    unfold Drop.setP
    dsimp only
    rw [show (if d.p ≤ 0 ∨ 1 < d.p then (1 : ℝ) else d.p) = d.p from if_neg (by push Not; exact ⟨h1, h2⟩)]
    by_cases ho : d.p < 1
    · rw [if_pos (by unfold Drop.on; exact decide_eq_true ho), coeffs_eq]
      exact ⟨rfl, h1, h2, hm, ⟨a1, a2, a3, a5, a6⟩, ⟨b1, b2, b3, by dsimp only; rw [b4, h7], b5, b6⟩, fun _ => ⟨rfl, rfl, rfl⟩⟩
    · rw [if_neg (by unfold Drop.on; simpa using ho)]
      exact ⟨rfl, h1, h2, hm, ⟨a1, a2, a3, a5, a6⟩, ⟨b1, b2, b3, by dsimp only; rw [b4, h7], b5, b6⟩, fun h => absurd h ho⟩

/-- C53. After the initialisation of the layer, in any history of changes of the keep probability, changes of the batch size and the mode, training batches and evaluations, no call fails and
every result is right: in training exactly the activations whose random number is below the keep probability are kept (scaled) and the others are dropped, the gradient is multiplied by the
same multiplier, biases are untouched, the wrapped layer gets its own activations back; evaluations are left alone. -/
theorem dropout_history (E : Env) (hE : E.Ok) (k : Kind) (hk : k.Ok) (d : Drop) (hf : Fresh d) (maxBS n : Nat) (hm : 0 < maxBS) (hn : 0 < n) (j1 j2 : Nat → ℝ)
    (cs : List Call) (hu : Used maxBS n d.p maxBS cs) :
    ∃ d0, d.init k maxBS n j1 j2 = some d0 ∧ ∀ r, Hist E k d0 cs r → ∃ d' os, r = some (d', os) ∧ Right k d.p cs os := by
  obtain ⟨d0, e, hi⟩ := init_inv k d hf maxBS n hm hn j1 j2
  exact ⟨d0, e, fun r hr => history_right hE hk hn cs d0 d.p maxBS hi hu r hr⟩

/-- Histories exist: the calls of the model always have an outcome. -/
theorem history_exists (E : Env) (k : Kind) (cs : List Call) : ∀ d : Drop, ∃ r, Hist E k d cs r := by
  induction cs with
  | nil => intro d; exact ⟨_, .nil d⟩
  | cons c cs ih =>
    intro d
    have hap : ∀ (d : Drop) t draw act, ∃ r, d.apply E k t draw act r := by
      intro d t draw act
      unfold Drop.apply
      split
      · exact ⟨_, rfl⟩
      · split
        · exact ⟨_, rfl⟩
        · split
          · exact ⟨_, rfl⟩
          · cases k with
            | classical =>
              obtain ⟨m, hm⟩ := runs_exists (E.exec .makeDropout d.mask.numel) d.mask.numel (eachSteps fun _ => dropCell d.p)
                (fun i => (act.data i, copyN d.mask.data draw d.mask.numel i))
              exact ⟨_, fun i => (m i).1, fun i => (m i).2, hm, rfl⟩
            | alpha al mean var =>
              obtain ⟨m, hm⟩ := runs_exists (E.exec .alphaDropout d.mask.numel) d.mask.numel (eachSteps fun _ => alphaCell d.p d.a d.b d.mb)
                (fun i => (act.data i, copyN d.mask.data draw d.mask.numel i))
              exact ⟨_, fun i => (m i).1, fun i => (m i).2, hm, rfl⟩
    have hre : ∀ (d : Drop) g act, ∃ r, d.restore E true g act r := by
      intro d g act
      unfold Drop.restore
      split
      · exact ⟨_, rfl⟩
      · split
        · exact ⟨_, rfl⟩
        · obtain ⟨m, hm⟩ := runs_exists (E.exec .evMulC g.numel) g.numel (eachSteps fun i v => v * d.mask.data i) g.data
          cases hc : copyDataSkipBias d.orig act with
          | none => exact ⟨_, m, hm, rfl⟩
          | some a => exact ⟨_, m, hm, rfl⟩
    have hcall : ∃ x, call E k d c x := by
      cases c with
      | setP y => exact ⟨_, rfl⟩
      | size t bs => exact ⟨_, rfl⟩
      | eval act =>
        obtain ⟨x, hx⟩ := hap d false (fun _ => 0) act
        cases x with
        | none => exact ⟨none, Or.inl ⟨hx, rfl⟩⟩
        | some q => exact ⟨_, Or.inr ⟨q.1, q.2, hx, rfl⟩⟩
      | batch act g draw =>
        obtain ⟨x, hx⟩ := hap d true draw act
        cases x with
        | none => exact ⟨none, Or.inl ⟨hx, rfl⟩⟩
        | some q =>
          obtain ⟨y, hy⟩ := hre q.1 g q.2
          cases y with
          | none => exact ⟨none, Or.inr ⟨q.1, q.2, hx, Or.inl ⟨hy, rfl⟩⟩⟩
          | some z => exact ⟨_, Or.inr ⟨q.1, q.2, hx, Or.inr ⟨z.1, z.2, hy, rfl⟩⟩⟩
    obtain ⟨x, hx⟩ := hcall
    cases x with
    | none => exact ⟨none, .fail hx⟩
    | some q =>
      obtain ⟨r, hr⟩ := ih q.1
      cases r with
      | none => exact ⟨none, .stop hx hr⟩
      | some w => exact ⟨_, .cons hx hr⟩

/-! ### Moments -/

/-- C73. Classical dropout leaves the expected activation unchanged: it is kept with probability `p` and dropped with probability `1 - p`. (`u0`: a number below `p`, `u1`: one that is not.) -/
theorem dropout_keeps_expectation (p x u0 u1 : ℝ) (hp : 0 < p) (h0 : u0 < p) (h1 : ¬ u1 < p) :
    p * dropped .classical p u0 x + (1 - p) * dropped .classical p u1 x = x := by
  unfold dropped; dsimp only
  rw [if_pos h0, if_neg h1]; field_simp; ring

/-- C73. Alpha dropout keeps mean and variance: if the activations are distributed over finitely many values `x j` with probabilities `w j`, with the mean and the variance the class was
instantiated for, then so are the results, each of them being kept with probability `p`. -/
theorem alpha_dropout_keeps_moments (al mean var p u0 u1 : ℝ) (hv : 0 < var) (h0 : 0 < p) (h1 : p ≤ 1) (hu0 : u0 < p) (hu1 : ¬ u1 < p)
    {ι : Type} (s : Finset ι) (w x : ι → ℝ) (hw : ∑ j ∈ s, w j = 1) (hm : ∑ j ∈ s, w j * x j = mean) (hvar : ∑ j ∈ s, w j * (x j - mean) ^ 2 = var) :
    (∑ j ∈ s, w j * (p * dropped (.alpha al mean var) p u0 (x j) + (1 - p) * dropped (.alpha al mean var) p u1 (x j))) = mean ∧
    (∑ j ∈ s, w j * (p * (dropped (.alpha al mean var) p u0 (x j) - mean) ^ 2 + (1 - p) * (dropped (.alpha al mean var) p u1 (x j) - mean) ^ 2)) = var := by
  have ha : alphaA al mean var p ^ 2 * (p * ((1 - p) * (al + mean) ^ 2 + var)) = var := by
    unfold alphaA
    have hq : 0 < p * ((1 - p) * (al + mean) ^ 2 + var) := by
      apply mul_pos h0
      have := mul_nonneg (sub_nonneg.2 h1) (sq_nonneg (al + mean))
      linarith
    rw [Real.sq_sqrt (div_nonneg hv.le hq.le), div_mul_cancel₀ _ (ne_of_gt hq)]
  unfold dropped; dsimp only
  simp only [if_pos hu0, if_neg hu1]
  unfold alphaB
  generalize alphaA al mean var p = a at *
  constructor
  · have : ∀ j ∈ s, w j * (p * (a * x j + (mean - a * (p * mean - (1 - p) * al))) + (1 - p) * (a * -al + (mean - a * (p * mean - (1 - p) * al)))) =
        p * a * (w j * x j) + (mean - p * a * mean) * w j := by intro j _; ring
    rw [Finset.sum_congr rfl this, Finset.sum_add_distrib, ← Finset.mul_sum, ← Finset.mul_sum, hm, hw]; ring
  · have : ∀ j ∈ s, w j * (p * (a * x j + (mean - a * (p * mean - (1 - p) * al)) - mean) ^ 2 + (1 - p) * (a * -al + (mean - a * (p * mean - (1 - p) * al)) - mean) ^ 2) =
        p * a ^ 2 * (w j * (x j - mean) ^ 2) + 2 * p * a ^ 2 * (1 - p) * (al + mean) * (w j * x j) +
        (a ^ 2 * (p * (1 - p) * (al + mean) ^ 2) - 2 * p * a ^ 2 * (1 - p) * (al + mean) * mean) * w j := by intro j _; ring
    rw [Finset.sum_congr rfl this, Finset.sum_add_distrib, Finset.sum_add_distrib, ← Finset.mul_sum, ← Finset.mul_sum, ← Finset.mul_sum, hm, hw, hvar]
    rw [← ha]
    ring_nf
    ring_nf at ha
    linear_combination (p * a ^ 2) * ha

/-! ### Examples -/

def emptyMtx : Mtx ℝ := Mtx.default fun _ => 0
noncomputable def demoDrop (p : ℝ) : Drop := { p := p, mask := emptyMtx, orig := emptyMtx, a := 0, b := 0, mb := 0 }
/-- Two samples, three neurons and the biases. -/
def demoAct : Mtx ℝ := { data := fun i => i, cap := 8, rows := 2, cols := 4, emul := true, ext := false, holey := false, bir := false, maxSize := 8 }
def demoGrad : Mtx ℝ := { data := fun i => 10 * i, cap := 6, rows := 2, cols := 3, emul := false, ext := false, holey := false, bir := false, maxSize := 6 }

/-- A history that meets the hypotheses: dropout is switched on, a batch size smaller than the largest is announced, then batches and evaluations follow, dropout is switched off
and a last batch is done. -/
noncomputable def demoCalls (draw : Nat → ℝ) : List Call :=
  [.setP (1 / 2), .size true 2, .batch demoAct demoGrad draw, .size false 4, .eval demoAct, .size true 2, .batch demoAct demoGrad draw, .setP 1, .batch demoAct demoGrad draw]

theorem demo_used (draw : Nat → ℝ) : Used 5 3 1 5 (demoCalls draw) := by
  have hb : ∀ (p : ℝ) (cur : Nat), (p < 1 → cur = 2) → ∃ bs, 0 < bs ∧ ActOk bs 3 demoAct ∧ GradOk bs 3 demoGrad ∧ (p < 1 → cur = bs) :=
    fun p cur h => ⟨2, by omega, ⟨rfl, rfl, rfl, rfl⟩, ⟨rfl, rfl, rfl⟩, h⟩
  have hh : (0 : ℝ) < 1 / 2 ∧ (1 : ℝ) / 2 ≤ 1 := by constructor <;> norm_num
  have hl : (1 : ℝ) / 2 < 1 := by norm_num
  refine ⟨trivial, ⟨by omega, by omega⟩, hb _ _ ?_, ⟨by omega, by omega⟩, trivial, ⟨by omega, by omega⟩, hb _ _ ?_, trivial, hb _ _ ?_, trivial⟩ <;>
    simp only [curAfter, pAfter, if_pos hh, hl, and_self, if_true, Bool.false_eq_true, false_and, if_false, implies_true]

example (draw : Nat → ℝ) : Fresh (demoDrop 1) ∧ Used 5 3 (demoDrop 1).p 5 (demoCalls draw) :=
  ⟨⟨one_pos, le_refl _, rfl, rfl, rfl, rfl, rfl⟩, demo_used draw⟩

/-- The hypothesis on announced sizes is needed: if dropout is switched on after the batch size was announced, the masks still have their old number of rows and the next batch fails (a
failed assertion; in a release build the kernel runs over the end of the activations). -/
theorem late_switch_fails (E : Env) (draw : Nat → ℝ) (j1 j2 : Nat → ℝ) : ∃ d0, (demoDrop 1).init .classical 5 3 j1 j2 = some d0 ∧
    ∀ r, Hist E .classical d0 [.size true 2, .setP (1 / 2), .batch demoAct demoGrad draw] r → r = none := by
  obtain ⟨d0, e, hi⟩ := init_inv .classical (demoDrop 1) ⟨one_pos, le_refl _, rfl, rfl, rfl, rfl, rfl⟩ 5 3 (by omega) (by omega) j1 j2
  refine ⟨d0, e, ?_⟩
  have hi : Inv .classical 5 3 d0 1 5 := hi
  obtain ⟨d1, e1, h1⟩ := inv_size hi true 2 ⟨by omega, by omega⟩
  have h1 : Inv .classical 5 3 d1 1 5 := by simpa only [curAfter, lt_irrefl, and_false, if_false] using h1
  have h2 := inv_setP h1 (1 / 2)
  have hb : ∀ r, call E .classical (d1.setP .classical (1 / 2)) (.batch demoAct demoGrad draw) r → r = none := by
    intro r hr
    have hap : ∀ q, (d1.setP .classical (1 / 2)).apply E .classical true draw demoAct q → q = none := by
      intro q hq
      obtain ⟨p1, _, _, _, ⟨m1, _⟩, _⟩ := h2
      unfold Drop.apply at hq
      rw [if_neg, if_pos] at hq
      · exact hq
      · left; rw [m1]; intro hc
        have h5 : 5 = (sizeNoBias demoAct).1 := congrArg Prod.fst hc
        exact absurd h5 (by decide)
      · unfold Drop.on; rw [p1]
        have hh : (0 : ℝ) < 1 / 2 ∧ (1 : ℝ) / 2 ≤ 1 := by constructor <;> norm_num
        simp only [pAfter, if_pos hh]
        norm_num
    rcases hr with ⟨_, rfl⟩ | ⟨_, _, h, _⟩
    · rfl
    · cases hap _ h
  intro r hr
  cases hr with
  | fail h => rfl
  | stop h ht => rfl
  | cons h ht =>
    rw [show call E .classical d0 (.size true 2) = fun r => r = (d0.batchChange true 2).map fun d' => (d', .quiet) from rfl, e1] at h
    cases h
    cases ht with
    | cons h ht =>
      cases h
      cases ht with
      | cons h ht => cases hb _ h

end Nntl.Dropout
