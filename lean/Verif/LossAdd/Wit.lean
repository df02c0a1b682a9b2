import Verif.LossAdd.Pab
/-! Concrete cases: hypotheses that are met, and claims that are false. -/
namespace Nntl.LossAdd
open Nntl.Matrix

theorem sum_congr {R : Nat} {f g : Nat → Rat} (h : ∀ r < R, f r = g r) : ((List.range R).map f).sum = ((List.range R).map g).sum := by
  congr 1
  apply List.map_congr_left
  intro r hr
  exact h r (List.mem_range.1 hr)

/-- L1 and L2 look at the elements of the matrix only. -/
theorem local_L1_L2 (as : List Add) (h : ∀ a ∈ as, (∃ i f z, a.kind = kindL1 i f z) ∨ ∃ i f z, a.kind = kindL2 i f z) : Local as := by
  intro a ha R C x y hxy
  rcases h a ha with ⟨i, f, z, e⟩ | ⟨i, f, z, e⟩
  · rw [e]
    refine ⟨sum_congr fun r hr => sum_congr fun c hc => by rw [hxy r hr c hc], fun r hr c hc => ?_⟩
    show (if x r c < 0 then _ else _) = if y r c < 0 then _ else _
    rw [hxy r hr c hc]
  · rw [e]
    refine ⟨?_, fun r hr c hc => hxy r hr c hc⟩
    show mkRat 1 2 * _ = mkRat 1 2 * _
    congr 1
    exact sum_congr fun r hr => sum_congr fun c hc => by rw [hxy r hr c hc]

/-- A matrix of `r` rows whose elements are those of the list, column by column. -/
def mk (r c : Nat) (emul : Bool) (l : List Rat) : Mtx Rat :=
  { data := fun p => l.getD p 0, cap := r * c, rows := r, cols := c, emul, ext := false, holey := false, bir := false, maxSize := r * c }

/-- Weights of one neuron: 3, -4, and 10 for the bias. -/
def w0 : Mtx Rat := mk 1 3 false [3, -4, 10]
def g0 : Mtx Rat := mk 1 3 false [0, 1, 1]
def ks0 : List Kind := [kindL1 0 false false, kindL2 1 false false]

/-- `L1(2); L2(1, false); L1(5); addendum<L2>().scale(4)`. -/
def ops0 : List Op := [.set 0 2 true, .set 1 1 false, .set 0 5 true, .scaleOf 1 4]

example : Distinct ks0 ∧ (∀ k ∈ ks0, k.onFprop = false ∧ k.nz = false) ∧ (∀ o ∈ ops0, Names ks0 o) ∧ IsWeights w0 ∧ IsWeights g0 := by
  refine ⟨?_, ?_, ?_, ?_, ?_⟩
  · unfold Distinct; decide
  · intro k hk; simp only [ks0, List.mem_cons, List.not_mem_nil, or_false] at hk; rcases hk with rfl | rfl <;> exact ⟨rfl, rfl⟩
  · intro o ho
    simp only [ops0, List.mem_cons, List.not_mem_nil, or_false] at ho
    rcases ho with rfl | rfl | rfl | rfl <;> simp [Names, ks0, kindL1, kindL2]
  · unfold IsWeights; decide
  · unfold IsWeights; decide

/-- **C174** The value and the gradient in that case: 5·(3+4) + 4·½·(9+16+100), bias with L2 only. -/
theorem demo_reg : (((construct ks0).run ops0).bind fun r => (r.lossAddendum w0).map Prod.fst) = some 285 ∧
    (((construct ks0).run ops0).bind fun r => (r.apply w0 g0).map fun p => (entry p.2 0 0, entry p.2 0 1, entry p.2 0 2)) =
      some (17, -20, 41) := by
  constructor <;> decide +kernel

/-- **C173** Asking for a new scale by `L1(x)` also asks for leaving biases out again. -/
theorem setter_resets_mode : (((construct ks0).run [.set 0 2 false]).map fun r => r.flags 0) = some false ∧
    (((construct ks0).run [.set 0 2 false, .set 0 3 true]).map fun r => r.flags 0) = some true ∧
    (((construct ks0).run [.set 0 2 false, .scaleOf 0 3]).map fun r => r.flags 0) = some false := by
  refine ⟨?_, ?_, ?_⟩ <;> decide +kernel

/-- **C173** Two addendums of one type: the mode of biases set for the second one has no effect (and what is set for the first one has effect on both). -/
theorem same_type_shares_mode :
    let ks := [kindL2 0 false false, kindL2 0 false false]
    (((construct ks).run [.scaleAt 0 2, .scaleAt 1 4, .ignoreAt 1 false]).bind fun r => (r.lossAddendum w0).map fun p => (r.flags 1, p.1)) =
      some (false, 75) ∧
    (((construct ks).run [.scaleAt 0 2, .scaleAt 1 4, .ignoreAt 0 false]).bind fun r => (r.lossAddendum w0).map fun p => (r.flags 1, p.1)) =
      some (true, 375) ∧
    (construct ks).run [.scaleOf 0 2] = none := by
  refine ⟨?_, ?_, ?_⟩
  · decide +kernel
  · decide +kernel
  · rfl

/-! ### Penalties on activations -/

/-- Two samples, two neurons, biases. -/
def act0 : Mtx Rat := mk 2 3 true [1, -2, 3, 4, 1, 1]
/-- The same after dropout of the first neuron of the second sample. -/
def act1 : Mtx Rat := mk 2 3 true [2, 0, 6, 8, 1, 1]
def dL0 : Mtx Rat := mk 2 2 false [1, 0, 1, 1]
def batch0 : Batch := ⟨act0, act1, dL0⟩
/-- L2 in the forward pass, L1 in the backward pass. -/
def adds0 : List Add := [Add.fresh (kindL2 0 true false), Add.fresh (kindL1 1 false true)]
def steps0 : List Step := [.scale 0 3, .batch batch0, .scale 1 5]

example : (layerInit 2 2 adds0 []).2 = true ∧ Local adds0 ∧ (∀ s ∈ steps0, s.Ok 0 2 2 adds0.length) ∧ IsActs act0 2 2 ∧ IsActs act1 2 2 ∧
    IsGrad dL0 2 2 := by
  have h1 : IsActs act0 2 2 := by unfold IsActs; decide
  have h2 : IsActs act1 2 2 := by unfold IsActs; decide
  have h3 : IsGrad dL0 2 2 := by unfold IsGrad; decide
  refine ⟨rfl, local_L1_L2 _ ?_, ?_, h1, h2, h3⟩
  · intro a ha
    simp only [adds0, List.mem_cons, List.not_mem_nil, or_false] at ha
    rcases ha with rfl | rfl
    · exact .inr ⟨_, _, _, rfl⟩
    · exact .inl ⟨_, _, _, rfl⟩
  · intro s hs
    simp only [steps0, List.mem_cons, List.not_mem_nil, or_false] at hs
    rcases hs with rfl | rfl | rfl
    · show 0 < 2; omega
    · exact ⟨2, Nat.le_refl _, h1, h2, h3, fun h => absurd h (Nat.lt_irrefl 0)⟩
    · show 1 < 2; omega

/-- The four elements of a gradient. -/
def four (m : Mtx Rat) : Rat × Rat × Rat × Rat := (entry m 0 0, entry m 1 0, entry m 0 1, entry m 1 1)

/-- Runs events and a last backward pass. -/
def after (gate : Nat) (as : List Add) (es : List Ev) (act g : Mtx Rat) : Option (Rat × Rat × Rat × Rat) :=
  (run gate as es).bind fun as' => (bprop gate as' act g).map fun p => four p.2

/-- **C176** The batch of the example after the steps of the example: 3 times the activations of the forward pass, 5 times the sign of those of the backward
pass; the element of the dropped neuron was zero before the first addendum but not when the turn of the second one came, where the sign is 0. -/
theorem demo_batch : after 0 (layerInit 2 2 adds0 []).1 (steps0.flatMap Step.evs ++ [.fprop act0]) act1 dL0 = some (9, -6, 15, 18) := by
  decide +kernel

/-- **C175** Some allocation fails: the result is false, nothing is held, and all were tried. -/
theorem demo_init : (layerInit 2 2 adds0 [false]).2 = false ∧ ((layerInit 2 2 adds0 [false]).1.map fun a => a.mem.isSome) = [false, false] ∧
    (layerInit 2 2 adds0 [true, false]).2 = true ∧
    ((initAll 2 2 [Add.fresh (kindL2 0 true false), Add.fresh (kindL1 1 true true)] [false, true]).1.map fun a => a.mem.isSome) = [false, true] := by
  refine ⟨?_, ?_, ?_, ?_⟩ <;> decide +kernel

/-- **C176** An addendum calculated in the forward pass and switched on between the passes of a batch: before its first forward pass memory never written
is used; later the activations of another batch are used (here 9 instead of 1 at the first element), and if that batch had another size an
assertion fails. -/
theorem late_switch_on :
    let as := (layerInit 2 2 [Add.fresh (kindL2 0 true false)] []).1
    let old := mk 2 3 true [9, 9, 9, 9, 1, 1]
    let small := mk 1 3 true [9, 9, 1]
    after 0 as [.fprop act0, .scale 0 1] act0 dL0 = none ∧
    after 0 as [.scale 0 1, .fprop old, .scale 0 0, .fprop act0, .scale 0 1] act0 dL0 = some (10, 9, 10, 10) ∧
    after 0 as [.scale 0 1, .fprop act0] act0 dL0 = some (2, -2, 4, 5) ∧
    after 0 as [.scale 0 1, .fprop small, .scale 0 0, .fprop act0, .scale 0 1] act0 dL0 = none := by
  refine ⟨?_, ?_, ?_, ?_⟩ <;> decide +kernel

/-- **C176** The order of the tuple matters for addendums appended to non-zero elements only: behind another addendum such an addendum does change
elements that were zero, and elements another addendum has made zero are left out. -/
theorem order_matters :
    let l1 : Add := { kind := kindL1 0 false true, scale := 1, mem := none }
    let l2 : Add := { kind := kindL2 1 false false, scale := 1, mem := none }
    let act := mk 2 3 true [1, 5, -1, 4, 1, 1]
    let g := mk 2 2 false [0, 0, 1, -4]
    after 0 [l1, l2] [] act g = some (1, 5, -1, 1) ∧ after 0 [l2, l1] [] act g = some (2, 6, 0, 0) := by
  refine ⟨?_, ?_⟩ <;> decide +kernel

/-- **C176** In a gated pack the penalty that is reported depends on the neurons of the gate, the gradient does not. -/
theorem gate_in_value :
    let l2 : Add := { kind := kindL2 0 false false, scale := 2, mem := none }
    let a := mk 1 3 true [7, 3, 1]
    let b := mk 1 3 true [0, 3, 1]
    let g := mk 1 2 false [0, 0]
    ((loss [l2] a).map Prod.fst) = some 58 ∧ ((loss [l2] b).map Prod.fst) = some 9 ∧
    ((bprop 1 [l2] a g).map fun p => (entry p.2 0 0, entry p.2 0 1)) = some (0, 6) ∧
    ((bprop 1 [l2] b g).map fun p => (entry p.2 0 0, entry p.2 0 1)) = some (0, 6) := by
  refine ⟨?_, ?_, ?_, ?_⟩ <;> decide +kernel

end Nntl.LossAdd
