import Verif.WInit.Conv
import Mathlib.Analysis.Real.Sqrt
import Mathlib.Algebra.BigOperators.Intervals
import Mathlib.Algebra.BigOperators.Ring.Finset
/-! LSUV on chains of fully connected layers over the real numbers with the statistics the code computes. -/
namespace Nntl.WInit
open Nntl.Kernel Nntl.Threads Nntl.Norm Finset

/-- Mean, `get_central` of mtx2Normal.h 268–271. -/
noncomputable def mean (l : List ℝ) : ℝ := l.sum / l.length

/-- Square root of the unbiased variance, `get_scale` of mtx2Normal.h 276–286; `lazy_variance` of boost is the mean of the squares minus the squared mean. -/
noncomputable def std (l : List ℝ) : ℝ := √(l.length / (l.length - 1) * ((l.map fun v => v ^ 2).sum / l.length - mean l ^ 2))

/-- What the code measures (real numbers are always finite); `bScaleSpecial` of 284. -/
noncomputable def measOf (l : List ℝ) : Meas ℝ where
  scale := std l
  central := mean l
  special := decide (std l = 0)
  scaleGood := true
  centralGood := true

/-- A chain of `len` fully connected layers over data of `samples` samples. -/
structure Chain where
  len : Nat
  samples : Nat
  size : Nat → Nat
  X : Nat → Nat → ℝ
  act : Nat → ℝ → ℝ
  actSc : Nat → ℝ
  learnable : Nat → Bool
  setts : Nat → LSetts ℝ
  reinit : Nat → (Nat → ℝ) → (Nat → ℝ) → Prop
  ex : Nat → Exec

/-- Activation of neuron `i` of layer `k` for sample `b` (`_LFC_FProp::_lfc_fprop`, `nntl/layer/fully_connected.h` 236–280; `_activation_fprop` of
`_activation_wrapper.h` 136–143). -/
noncomputable def Chain.out (C : Chain) (ign : Nat → Bool) (ws : Nat → Nat → ℝ) : Nat → Nat → Nat → ℝ
  | 0, b, i => C.X b i
  | k + 1, b, i =>
    let z := ∑ j ∈ range (C.size k), ws (k + 1) (i + C.size (k + 1) * j) * C.out ign ws k b j + ws (k + 1) (i + C.size (k + 1) * C.size k)
    if ign (k + 1) then z else C.act (k + 1) z

/-- All the activations of a layer. -/
noncomputable def Chain.values (C : Chain) (ign : Nat → Bool) (ws : Nat → Nat → ℝ) (k : Nat) : List ℝ :=
  (List.range C.samples).flatMap fun b => (List.range (C.size k)).map fun i => C.out ign ws k b i

/-- The activations of a neuron. -/
noncomputable def Chain.valuesN (C : Chain) (ign : Nat → Bool) (ws : Nat → Nat → ℝ) (k i : Nat) : List ℝ := (List.range C.samples).map fun b => C.out ign ws k b i

/-- The chain as LSUV sees it. -/
noncomputable def Chain.net (C : Chain) : Net ℝ where
  rows := C.size
  cols k := C.size (k - 1) + 1
  learnable := C.learnable
  setts := C.setts
  actSc := C.actSc
  meas ign ws k := measOf (C.values ign ws k)
  measN ign ws k i := measOf (C.valuesN ign ws k i)
  reinit := C.reinit
  ex := C.ex

/-- Layers `1..len`. -/
def Chain.layers (C : Chain) : List Tree := (List.range' 1 C.len).map fun k => .node k []

theorem order_leaves : ∀ l : List Nat, orderAll (l.map fun k => .node k []) = l := by
  intro l
  induction l with
  | nil => simp [orderAll]
  | cons k l ih => simp [orderAll, Tree.order, ih]

theorem out_congr (C : Chain) (ign : Nat → Bool) {ws ws' : Nat → Nat → ℝ} : ∀ (k : Nat), (∀ j, 1 ≤ j → j ≤ k → ws j = ws' j) → ∀ b i,
    C.out ign ws k b i = C.out ign ws' k b i := by
  intro k
  induction k with
  | zero => intro _ b i; rfl
  | succ k ih =>
    intro h b i
    have e := ih (fun j h1 h2 => h j h1 (by omega))
    simp only [Chain.out, h (k + 1) (by omega) le_rfl]
    simp only [e]

/-- One neuron under a change of the weights of its layer. -/
theorem out_rescaled (C : Chain) (ign : Nat → Bool) (ws : Nat → Nat → ℝ) {k : Nat} (hk : 1 ≤ k) (hi : ign k = true) {w w' : Nat → ℝ} {i : Nat} {a b : ℝ}
    (h : ∀ j < C.size (k - 1) + 1, w' (i + C.size k * j) = a * w (i + C.size k * j) + if j + 1 = C.size (k - 1) + 1 then b else 0) (x : Nat) :
    C.out ign (put ws k w') k x i = a * C.out ign (put ws k w) k x i + b := by
  obtain ⟨k, rfl⟩ : ∃ j, k = j + 1 := ⟨k - 1, by omega⟩
  have e : ∀ b i, C.out ign (put ws (k + 1) w') k b i = C.out ign (put ws (k + 1) w) k b i :=
    out_congr C ign k (fun j h1 h2 => by rw [put_ne _ _ (by omega), put_ne _ _ (by omega)])
  simp only [Nat.add_sub_cancel] at h
  simp only [Chain.out, hi, if_true, put_same, e]
  rw [h (C.size k) (by omega), if_pos rfl]
  have : ∀ j ∈ range (C.size k), w' (i + C.size (k + 1) * j) * C.out ign (put ws (k + 1) w) k x j =
      a * (w (i + C.size (k + 1) * j) * C.out ign (put ws (k + 1) w) k x j) := by
    intro j hj
    have hj := mem_range.1 hj
    rw [h j (by omega), if_neg (by omega)]
    ring
  rw [sum_congr rfl this, ← mul_sum]
  ring

theorem sum_affine (a b : ℝ) (l : List ℝ) : (l.map fun v => a * v + b).sum = a * l.sum + b * l.length := by
  induction l with
  | nil => simp
  | cons x l ih => simp only [List.map_cons, List.sum_cons, ih, List.length_cons]; push_cast; ring

theorem sumsq_affine (a b : ℝ) (l : List ℝ) :
    ((l.map fun v => a * v + b).map fun v => v ^ 2).sum = a ^ 2 * (l.map fun v => v ^ 2).sum + 2 * a * b * l.sum + b ^ 2 * l.length := by
  induction l with
  | nil => simp
  | cons x l ih => simp only [List.map_cons, List.sum_cons, ih, List.length_cons]; push_cast; ring

theorem mean_affine (a b : ℝ) {l : List ℝ} (hl : l ≠ []) : mean (l.map fun v => a * v + b) = a * mean l + b := by
  have h : (l.length : ℝ) ≠ 0 := by simpa using hl
  unfold mean
  rw [sum_affine, List.length_map]
  field_simp

theorem std_affine {a : ℝ} (ha : 0 < a) (b : ℝ) {l : List ℝ} (hl : l ≠ []) : std (l.map fun v => a * v + b) = a * std l := by
  have h : (l.length : ℝ) ≠ 0 := by simpa using hl
  unfold std
  rw [mean_affine a b hl, sumsq_affine, List.length_map]
  have : (l.length : ℝ) / (l.length - 1) * ((a ^ 2 * (l.map fun v => v ^ 2).sum + 2 * a * b * l.sum + b ^ 2 * l.length) / l.length - (a * mean l + b) ^ 2) =
      a ^ 2 * ((l.length : ℝ) / (l.length - 1) * ((l.map fun v => v ^ 2).sum / l.length - mean l ^ 2)) := by
    have e : (a ^ 2 * (l.map fun v => v ^ 2).sum + 2 * a * b * l.sum + b ^ 2 * l.length) / l.length - (a * mean l + b) ^ 2 =
        a ^ 2 * ((l.map fun v => v ^ 2).sum / l.length - mean l ^ 2) := by
      unfold mean
      field_simp
      ring
    rw [e]; ring
  rw [this, Real.sqrt_mul (by positivity), Real.sqrt_sq ha.le]

theorem measOf_tidy (l : List ℝ) : Tidy (measOf l) := ⟨rfl, rfl, by simp [measOf], Real.sqrt_nonneg _⟩

theorem measOf_linear {a : ℝ} (ha : 0 < a) (b : ℝ) {l : List ℝ} (hl : l ≠ []) : Linear a b (measOf l) (measOf (l.map fun v => a * v + b)) :=
  ⟨std_affine ha b hl, mean_affine a b hl⟩

/-- The chain is what a network is: there are neurons and at least two samples. -/
structure Chain.Ok (C : Chain) : Prop where
  samples : 2 ≤ C.samples
  size : ∀ k, 0 < C.size k
  ex : ∀ k, (C.ex k).Ok
  reinit : ∀ k w, ∃ w', C.reinit k w w'

theorem values_ne (C : Chain) (h : C.Ok) (ign ws k) : C.values ign ws k ≠ [] := by
  intro e
  have := congrArg List.length e
  unfold Chain.values at this
  simp only [List.length_flatMap, List.length_map, List.length_range, List.map_const', List.sum_replicate, List.length_nil, smul_eq_mul] at this
  have h1 := h.samples
  have h2 := h.size k
  rcases Nat.mul_eq_zero.1 this with h3 | h3 <;> omega

theorem valuesN_ne (C : Chain) (h : C.Ok) (ign ws k i) : C.valuesN ign ws k i ≠ [] := by
  intro e
  have := congrArg List.length e
  unfold Chain.valuesN at this
  simp only [List.length_map, List.length_range, List.length_nil] at this
  have h1 := h.samples
  omega

theorem chain_whole (C : Chain) (h : C.Ok) (ign ws) {k : Nat} (hk : 1 ≤ k) (hi : ign k = true) :
    WholeLaw (C.net.rows k) (C.net.cols k) (fun w => C.net.meas ign (put ws k w) k) := by
  refine ⟨fun w => measOf_tidy _, fun w w' a b ha hr => ?_⟩
  show Linear a b (measOf (C.values ign (put ws k w) k)) (measOf (C.values ign (put ws k w') k))
  have : C.values ign (put ws k w') k = (C.values ign (put ws k w) k).map fun v => a * v + b := by
    unfold Chain.values
    rw [List.map_flatMap]
    congr 1
    funext x
    rw [List.map_map]
    apply List.map_congr_left
    intro i hi'
    exact out_rescaled C ign ws hk hi (fun j hj => hr.cell i (List.mem_range.1 hi') j hj) x
  rw [this]
  exact measOf_linear ha b (values_ne C h _ _ _)

theorem chain_rows (C : Chain) (h : C.Ok) (ign ws) {k : Nat} (hk : 1 ≤ k) (hi : ign k = true) :
    RowLaw (C.net.rows k) (C.net.cols k) (fun w => C.net.measN ign (put ws k w) k) := by
  refine ⟨fun w c => measOf_tidy _, fun w w' c a b hc ha hr => ?_⟩
  show Linear a b (measOf (C.valuesN ign (put ws k w) k c)) (measOf (C.valuesN ign (put ws k w') k c))
  have : C.valuesN ign (put ws k w') k c = (C.valuesN ign (put ws k w) k c).map fun v => a * v + b := by
    unfold Chain.valuesN
    rw [List.map_map]
    apply List.map_congr_left
    intro x _
    exact out_rescaled C ign ws hk hi (fun j hj => hr j hj) x
  rw [this]
  exact measOf_linear ha b (valuesN_ne C h _ _ _ _)

theorem chain_order (C : Chain) : orderAll C.layers = List.range' 1 C.len := order_leaves _

theorem chain_sane (C : Chain) (h : C.Ok) : Sane C.net (orderAll C.layers) := by
  rw [chain_order]
  refine ⟨fun k _ => h.size k, fun k _ => Nat.succ_pos _, List.nodup_range', ?_, h.ex⟩
  rw [List.mem_range'_1]; omega

/-- In a chain information flows upwards. -/
theorem chain_upward (C : Chain) : Upward C.net (orderAll C.layers) := by
  have split : ∀ l1 k l2, orderAll C.layers = l1 ++ k :: l2 → 1 ≤ k ∧ ∀ j, j ≤ k → j ∉ l2 := by
    intro l1 k l2 e
    rw [chain_order] at e
    have hp : (List.range' 1 C.len).Pairwise (· < ·) := List.pairwise_lt_range'
    rw [e, List.pairwise_append] at hp
    have hp2 := (List.pairwise_cons.1 hp.2.1).1
    refine ⟨?_, fun j hj hm => absurd (hp2 j hm) (by omega)⟩
    have : k ∈ List.range' 1 C.len := by rw [e]; simp
    rw [List.mem_range'_1] at this; omega
  constructor
  · intro l1 k l2 e ign ws ws' h
    obtain ⟨_, hs⟩ := split l1 k l2 e
    have := out_congr C ign k (fun j _ hj => h j (hs j hj))
    show measOf (C.values ign ws k) = measOf (C.values ign ws' k)
    unfold Chain.values
    simp only [this]
  · intro l1 k l2 e ign ws ws' n hn h hrow
    obtain ⟨h1, hs⟩ := split l1 k l2 e
    show measOf (C.valuesN ign ws k n) = measOf (C.valuesN ign ws' k n)
    obtain ⟨k, rfl⟩ : ∃ j, k = j + 1 := ⟨k - 1, by omega⟩
    have lower := out_congr C ign k (fun j _ hj => h j (hs j (by omega)) (by omega))
    have : ∀ b, C.out ign ws (k + 1) b n = C.out ign ws' (k + 1) b n := by
      intro b
      simp only [Chain.out, lower]
      have hrow : ∀ c < C.size k + 1, ws (k + 1) (n + C.size (k + 1) * c) = ws' (k + 1) (n + C.size (k + 1) * c) := hrow
      rw [hrow (C.size k) (by omega)]
      have : ∀ j ∈ range (C.size k), ws (k + 1) (n + C.size (k + 1) * j) * C.out ign ws' k b j = ws' (k + 1) (n + C.size (k + 1) * j) * C.out ign ws' k b j := by
        intro j hj
        have := mem_range.1 hj
        rw [hrow j (by omega)]
      rw [sum_congr rfl this]
    unfold Chain.valuesN
    simp only [this]

end Nntl.WInit
