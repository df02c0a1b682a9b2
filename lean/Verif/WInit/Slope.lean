import Verif.WInit.ChainProps
/-! LSUV over activations: the offset of the biases is multiplied by the slope of the activation function, where a division is due. -/
namespace Nntl.WInit
open Nntl.Kernel Nntl.Threads Nntl.Norm
variable {K : Type} [Field K] [LinearOrder K] [IsStrictOrderedRing K]

/-- A measure of the activations of a layer whose activation function has the slope `c`: when all the biases grow by `b` the central value grows by `c * b`. -/
structure SlopeLaw (rows cols : Nat) (c : K) (m : (Nat → K) → Meas K) : Prop where
  good : ∀ w, (m w).scaleGood = true ∧ (m w).centralGood = true
  shift : ∀ w w' b, Rescaled rows cols (fun _ => 1) (fun _ => b) w w' → (m w').central = (m w).central + c * b

/-- Only the central value is normalised. -/
structure CentreOnly (s : Setts K) : Prop where
  central : s.normCentral = true
  scale : s.normScale = false

theorem slope_step {ex : Exec} (hex : ex.Ok) {rows cols : Nat} (h0 : 0 < rows) (h1 : 0 < cols) {s : Setts K} (hs : CentreOnly s) {c : K} {m : (Nat → K) → Meas K}
    (hm : SlopeLaw rows cols c m) {n : Nat} {w : Nat → K} {r : Bool × (Nat → K)} (h : wholeTries ex rows cols s c m (n + 1) w r) :
    (|(m w).central - s.targetCentral| < s.centralTol ∧ r = (true, w)) ∨ (s.centralTol ≤ |(m w).central - s.targetCentral| ∧
      ∃ w1, (m w1).central - s.targetCentral = (1 - c ^ 2) * ((m w).central - s.targetCentral) ∧ wholeTries ex rows cols s c m n w1 r) := by
  rw [wholeTries] at h
  obtain ⟨g1, g2⟩ := hm.good w
  have hS : doScale s (m w) = false := by unfold doScale; rw [hs.scale]; simp
  have hC : doCentral s (m w) = !centralOk s (m w) := by unfold doCentral; rw [g2, hs.central]; simp
  simp only [g1, g2, Bool.not_true, Bool.or_self, Bool.false_and, Bool.false_eq_true, if_false, hS, hC, Bool.false_or, Bool.not_false, Bool.true_or, Bool.true_and,
    Bool.not_not] at h
  obtain ⟨w1, h2, h3⟩ := h
  cases ho : centralOk s (m w)
  · right
    rw [ho] at h2 h3
    simp only [Bool.not_false, if_true, Bool.or_self, Bool.false_eq_true, if_false] at h2 h3
    unfold centralOk at ho
    rw [decide_eq_false_iff_not, not_lt] at ho
    have hr := normWhole_rescaled hex h0 h1 h2
    simp only [Bool.false_eq_true, if_false, if_true, mul_one] at hr
    refine ⟨ho, w1, ?_, h3⟩
    rw [hm.shift _ _ _ hr]
    ring
  · left
    rw [ho] at h2 h3
    simp only [Bool.not_true, Bool.false_eq_true, if_false, Bool.or_true, if_true] at h2 h3
    unfold centralOk at ho
    rw [decide_eq_true_eq] at ho
    exact ⟨ho, by rw [h3, h2]⟩

/-- Every try multiplies the distance from the target by `1 - c²`: when that makes it small enough in time, the centring succeeds. -/
theorem slope_centres_partial {ex : Exec} (hex : ex.Ok) {rows cols : Nat} (h0 : 0 < rows) (h1 : 0 < cols) {s : Setts K} (hs : CentreOnly s) {c : K} {m : (Nat → K) → Meas K}
    (hm : SlopeLaw rows cols c m) : ∀ {n k : Nat} {w : Nat → K} {r : Bool × (Nat → K)}, k < n → |1 - c ^ 2| ^ k * |(m w).central - s.targetCentral| < s.centralTol →
    wholeTries ex rows cols s c m n w r → r.1 = true ∧ |(m r.2).central - s.targetCentral| < s.centralTol := by
  intro n
  induction n with
  | zero => intro k w r hk; omega
  | succ n ih =>
    intro k w r hk hlt h
    rcases slope_step hex h0 h1 hs hm h with ⟨h2, h3⟩ | ⟨h2, w1, h3, h4⟩
    · rw [h3]; exact ⟨rfl, h2⟩
    · cases k with
      | zero => rw [pow_zero, one_mul] at hlt; exact absurd hlt (not_lt.2 h2)
      | succ k =>
        refine ih (k := k) (by omega) ?_ h4
        rw [h3, abs_mul, ← mul_assoc, ← pow_succ]
        exact hlt

/-- With a slope of `√2` or more the distance never shrinks: a layer that is not centred from the start is never centred, however many tries are allowed. -/
theorem steep_never_centred {ex : Exec} (hex : ex.Ok) {rows cols : Nat} (h0 : 0 < rows) (h1 : 0 < cols) {s : Setts K} (hs : CentreOnly s) {c : K}
    {m : (Nat → K) → Meas K} (hm : SlopeLaw rows cols c m) (hc : 2 ≤ c ^ 2) : ∀ {n : Nat} {w : Nat → K} {r : Bool × (Nat → K)},
    s.centralTol ≤ |(m w).central - s.targetCentral| → wholeTries ex rows cols s c m n w r → r.1 = false := by
  intro n
  induction n with
  | zero => intro w r _ h; rw [wholeTries] at h; rw [h]
  | succ n ih =>
    intro w r hw h
    rcases slope_step hex h0 h1 hs hm h with ⟨h2, _⟩ | ⟨_, w1, h3, h4⟩
    · exact absurd h2 (not_lt.2 hw)
    · refine ih ?_ h4
      rw [h3, abs_mul]
      have : 1 ≤ |1 - c ^ 2| := by
        rw [abs_sub_comm]
        exact le_trans (by linarith) (le_abs_self _)
      nlinarith [abs_nonneg ((m w).central - s.targetCentral)]

/-- A chain whose layer `k` has the activation `v ↦ c * v` (the identity scaled; for positive values SELU with `Lambda = c` is the same) obeys the law. -/
theorem chain_slope (C : Chain) (h : C.Ok) {c : ℝ} (ign : Nat → Bool) (ws : Nat → Nat → ℝ) {k : Nat} (hk : 1 ≤ k) (hi : ign k = false) (ha : C.act k = fun v => c * v) :
    SlopeLaw (C.size k) (C.size (k - 1) + 1) c (fun w => C.net.meas ign (put ws k w) k) := by
  refine ⟨fun w => ⟨rfl, rfl⟩, fun w w' b hr => ?_⟩
  show mean _ = mean _ + _
  have e : ∀ x, ∀ i < C.size k, C.out ign (put ws k w') k x i = 1 * C.out ign (put ws k w) k x i + c * b := by
    intro x i hi'
    have pre : ∀ v, C.out ign (put ws k v) k x i = c * C.out (put ign k true) (put ws k v) k x i := by
      intro v
      obtain ⟨k, rfl⟩ : ∃ j, k = j + 1 := ⟨k - 1, by omega⟩
      have lower : ∀ (j : Nat), j ≤ k → ∀ b i, C.out (put ign (k + 1) true) (put ws (k + 1) v) j b i = C.out ign (put ws (k + 1) v) j b i := by
        intro j
        induction j with
        | zero => intro _ b i; rfl
        | succ j ih =>
          intro hj b i
          simp only [Chain.out, ih (by omega), put_ne ign (true) (show j + 1 ≠ k + 1 by omega)]
      simp only [Chain.out, hi, Bool.false_eq_true, if_false, ha, put_same, if_true, lower k le_rfl]
    have hx := out_rescaled C (put ign k true) ws hk (by simp [put]) (i := i) (a := 1) (b := b) (w := w) (w' := w') (fun j hj => hr.1 i hi' j hj) x
    rw [pre, pre, hx]
    ring
  have ev : C.values ign (put ws k w') k = (C.values ign (put ws k w) k).map fun v => 1 * v + c * b := by
    unfold Chain.values
    rw [List.map_flatMap]
    congr 1
    funext x
    rw [List.map_map]
    apply List.map_congr_left
    intro i hi'
    exact e x i (List.mem_range.1 hi')
  rw [ev, mean_affine _ _ (values_ne C h _ _ _), one_mul]

/-- The slope 2: from the distance 1 (the target is 0, the tolerance 1/100) the layer is not centred in a thousand tries, although one step of half a unit would do. -/
example (w : Nat → ℚ) (hw : w 0 = 1/2) (s : Setts ℚ) (hs : s.normCentral = true ∧ s.normScale = false ∧ s.targetCentral = 0 ∧ s.centralTol = 1/100)
    (r : Bool × (Nat → ℚ)) (h : wholeTries .st 1 1 s 2 (fun w => ⟨1, 2 * w 0, false, true, true⟩) 1000 w r) : r.1 = false := by
  refine steep_never_centred (ex := .st) (c := 2) (m := fun w => ⟨1, 2 * w 0, false, true, true⟩) trivial one_pos one_pos ⟨hs.1, hs.2.1⟩
    ⟨fun _ => ⟨rfl, rfl⟩, fun w w' b hr => ?_⟩ (by norm_num) ?_ h
  · have := hr.cell 0 one_pos 0 one_pos
    simp at this
    simp only [this]; ring
  · simp only [hw, hs.2.2.1, hs.2.2.2]; norm_num

/-- The slope of the standard SELU, 1.0507: the distance falls to a ninth and less with every try. -/
example : |1 - (1.0507 : ℚ) ^ 2| < 1 / 9 := by rw [abs_lt]; constructor <;> norm_num

/-- Settings and chains the theorems of C92–C94 speak about exist. -/
example : Reachable ((tiny true true 1 3).setts 1) ∧ Requested (tiny true true 1 3).net 1 ∧ (tiny true true 1 3).Ok :=
  ⟨⟨rfl, by constructor <;> norm_num [tiny], by norm_num [tiny], by norm_num [tiny]⟩, ⟨rfl, Or.inr rfl, by norm_num [tiny, Chain.net]⟩, tiny_ok _ _ _ _⟩

end Nntl.WInit
