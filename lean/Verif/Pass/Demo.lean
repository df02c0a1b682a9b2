import Verif.Pass.Props
/-! The hypotheses of the theorems of this area are met: initial states exist for every tree, and a concrete network. -/
namespace Nntl.Pass
open Nntl.Layers Nntl.Kernel

section
variable {α : Type} [Zero α] [One α] [Add α]

mutual
/-- Every tree has a consistent initial state for every batch size and mode, if its elementary layers have. -/
theorem sem_state {I : Nat → Leaf → BS → Nat → Sem α} {b : Bool} (hI : ∀ id l inc n R, ∃ s, (I id l inc n).law.Inv b R s) (l : Layer) (inc : BS) (n R : Nat) :
    ∃ s, (sem I l inc n).law.Inv b R s := by
  match l with
  | .leaf id l => simp only [sem]; exact hI id l inc n R
  | .vert id f r => simp only [sem]; exact semStack_state hI r inc R _ (sem_state hI f inc n R)
  | .horiz id add fs =>
    obtain ⟨s, hs⟩ := semFields_state hI fs inc R
    simp only [sem]; exact ⟨s, hs⟩
  | .tile id k l =>
    obtain ⟨s, hs⟩ := sem_state hI l (inc.mul k) (n / k) (k * R)
    simp only [sem]
    exact ⟨(s, ⟨fun _ => 1, k * R⟩, ⟨fun _ => 1, k * R⟩), hs, rfl, fun _ _ => rfl⟩
theorem semStack_state {I : Nat → Leaf → BS → Nat → Sem α} {b : Bool} (hI : ∀ id l inc n R, ∃ s, (I id l inc n).law.Inv b R s) (r : Stack) (inc : BS)
    (R : Nat) (acc : Sem α) (h : ∃ s, acc.law.Inv b R s) : ∃ s, (semStack I r inc acc).law.Inv b R s := by
  match r with
  | .nil => exact h
  | .cons l r =>
    simp only [semStack]
    obtain ⟨s, hs⟩ := h
    obtain ⟨t, ht⟩ := sem_state hI l inc acc.obj.neurons R
    exact semStack_state hI r inc R _ ⟨(s, ⟨fun _ => 1, R⟩, t), hs, ht, rfl, fun _ _ => rfl⟩
theorem semFields_state {I : Nat → Leaf → BS → Nat → Sem α} {b : Bool} (hI : ∀ id l inc n R, ∃ s, (I id l inc n).law.Inv b R s) (fs : Fields) (inc : BS)
    (R : Nat) : ∃ s, fInv b R (semFields I fs inc).fs (semFields I fs inc).laws s := by
  match fs with
  | .nil => simp only [semFields]; exact ⟨(), trivial⟩
  | .cons ofs cnt l r =>
    obtain ⟨s, hs⟩ := sem_state hI l inc cnt R
    obtain ⟨t, ht⟩ := semFields_state hI r inc R
    simp only [semFields]
    exact ⟨(s, t), hs, ht⟩
end
end

/-- Integer arithmetic with products added up from the first one. -/
def intArith : Arith Int := ⟨fun n x y => ((List.range n).map fun i => x i * y i).sum, fun a b => a * b, fun _ => 1⟩

theorem intArith_ok : intArith.Ok := by
  intro n x y x' y' h h'
  simp only [intArith]
  congr 1
  refine List.map_congr_left fun i hi => ?_
  rw [h i (List.mem_range.1 hi), h' i (List.mem_range.1 hi)]

/-- Plain gradient descent. -/
def sgd : GradWorks Int := ⟨Unit, fun g w => (g, w), fun g w d => (g, fun c j => w c j - d c j, d)⟩

/-- A fully connected layer of `m` neurons in a tree: `layer_init`, `nntl/layer/fully_connected.h` 360–389. -/
def fcLeaf (m : Nat) : Leaf := ⟨m, fun _ _ => 0, fun _ _ => 0, fun b n => max (b.maxTrainBS * m) (m * (n + 1)), id⟩

def relu (x : Int) : Int := if 0 < x then x else 0
def drelu (x : Int) : Int := if 0 < x then 1 else 0

def fcI : Nat → Leaf → BS → Nat → Sem Int := fun _ l inc n =>
  ⟨fc intArith sgd relu drelu true inc.maxTrainBS n l.neurons, fcLaw intArith sgd relu drelu true inc.maxTrainBS n l.neurons⟩

theorem fcI_ok (m : Nat) : LeafOk fcI (fcLeaf m) where
  announces := fun _ _ => Nat.le_max_left _ _
  out := fun _ => rfl
  ok := fun _ _ _ _ => ⟨rfl, rfl, rfl, Nat.le_refl _, fc_lawful intArith_ok _ _ _ _ _ _ _ _⟩

/-- A horizontal pack with overlapping fields of 5 incoming neurons (a vertical pack of 7 and 4 neurons on neurons 0–2, a layer of 2 neurons
on 2–4) under a tile pack of 2 tiles. -/
def demoTree : Layer :=
  .vert 1 (.horiz 2 0 (.cons 0 3 (.vert 3 (.leaf 4 (fcLeaf 7)) (.cons (.leaf 5 (fcLeaf 4)) .nil)) (.cons 2 3 (.leaf 6 (fcLeaf 2)) .nil)))
    (.cons (.tile 7 2 (.leaf 8 (fcLeaf 3))) .nil)

/-- The hypotheses of `tree_passes_partial` and of `tree_leaves_lower_activations` for it: batches of up to 8 rows, 4 in training. -/
theorem demoTree_ok : (∃ d, layerInit true demoTree ⟨8, 4⟩ 5 = some d) ∧ demoTree.AllPacks FieldsInside Divisible 5 ∧
    demoTree.AllLeaves (LeafOk fcI) ∧ NoExtra demoTree ∧ ∃ s, (sem fcI demoTree ⟨8, 4⟩ 5).law.Inv true 4 s := by
  refine ⟨⟨⟨8, 72, 24, ⟨8, 4⟩⟩, by decide⟩, ?_, ?_, ?_,
    sem_state (I := fcI) (fun _ _ _ _ _ => ⟨(⟨fun _ _ => 0, (), true⟩ : FcS sgd), rfl⟩) _ _ _ _⟩
  · simp only [demoTree, Layer.AllPacks, Stack.AllPacks, Fields.AllPacks, FieldsInside, InRange, Divisible, Fields.coords, and_true, true_and]
    exact ⟨by decide, by decide⟩
  · simp only [demoTree, Layer.AllLeaves, Stack.AllLeaves, Fields.AllLeaves, fcI_ok, and_self]
  · simp only [demoTree, NoExtra, NoExtraS, NoExtraF, and_self]

/-- A network with it below an output layer of 1 neuron. -/
def demoNetwork : Net Int := ⟨(sem fcI demoTree ⟨8, 4⟩ 5).obj, outLayer intArith sgd (fun z => z) (fun a y => a - y) true 6 1⟩

/-- The hypotheses of `training_step_spec` for it. -/
theorem demoNetwork_ok : Trains 8 4 demoNetwork.body (sem fcI demoTree ⟨8, 4⟩ 5).law ∧
    OutLawful 8 4 demoNetwork.out (outLaw intArith sgd (fun z => z) (fun a y => a - y) true 6 1) ∧
    demoNetwork.out.inc = demoNetwork.body.neurons ∧
    ∃ s : NetS demoNetwork, NetInv (sem fcI demoTree ⟨8, 4⟩ 5).law (outLaw intArith sgd (fun z => z) (fun a y => a - y) true 6 1) s := by
  obtain ⟨⟨d, hd⟩, h2, h3, h4, s, hs⟩ := demoTree_ok
  obtain ⟨_, _, o3, _, _, o6⟩ := sem_ok demoTree ⟨8, 4⟩ 5 d hd (by decide) h2 h3 h4
  refine ⟨o6.trains, outLayer_lawful intArith_ok _ _ _ _ _ _ _ _ (fun _ _ h i hi => h i hi), ?_, ?_⟩
  · rw [show demoNetwork.body.neurons = demoTree.neurons from o3]; decide
  · exact ⟨⟨true, 4, s, ⟨fun _ => 1, 4⟩, ⟨fun _ _ => 0, (), true⟩, fun _ => 0, fun _ => 0, fun _ => 0, fun _ => 0⟩, hs, rfl, rfl, fun _ _ => rfl⟩

/-- A pack with two overlapping fields, for `horizontal_output_layout` and `horizontal_gradient_is_sum`. -/
def demoFields : List (Fld Int) := [⟨0, 3, fc intArith sgd relu drelu true 4 3 2⟩, ⟨2, 3, identity 3⟩]
def demoLaws : Laws demoFields := .cons (fcLaw intArith sgd relu drelu true 4 3 2) (.cons (identityLaw 3) .nil)

example : FieldsOk 8 4 5 12 (fTmp demoFields) demoFields demoLaws :=
  ⟨⟨rfl, by decide, by decide, by decide, by decide, by decide, fc_lawful intArith_ok _ _ _ _ _ _ _ _⟩,
   ⟨rfl, by decide, by decide, by decide, by decide, by decide, identity_lawful _ _ _⟩, trivial⟩

example : ∃ s, fInv true 4 demoFields demoLaws s := ⟨(⟨fun _ _ => 0, (), true⟩, (), ()), rfl, trivial, trivial⟩

/-- Neuron 2 belongs to both fields: its gradient is the sum of both. -/
example : ((horiz 5 8 12 20 demoFields).bprop 1 true (⟨fun _ _ => 1, (), true⟩, (), ()) (fun _ => 1) (fun _ => 0) (fun _ => 4) (fun _ => 10)
    (fun _ => 77)).P 2 = 2 * 10 + 10 ∧
    ((horiz 5 8 12 20 demoFields).bprop 1 true (⟨fun _ _ => 1, (), true⟩, (), ()) (fun _ => 1) (fun _ => 0) (fun _ => 4) (fun _ => 10)
    (fun _ => 77)).P 4 = 10 := by
  refine ⟨by decide, by decide⟩

/-- Fields of an optional pack: the gate on neuron 0, two layers on 1–2 and 3–4. -/
def demoGate : Fld Int := ⟨0, 2, idGate (fun x => if 0 < x then 1 else 0) 2⟩
def demoGated : List (Fld Int) := [⟨2, 2, fc intArith sgd relu drelu true 4 2 2⟩, ⟨4, 1, identity 1⟩]
def demoGatedLaws : Laws demoGated := .cons (fcLaw intArith sgd relu drelu true 4 2 2) (.cons (identityLaw 1) .nil)

/-- The hypotheses of `gated_rows` and of `gated_rows_rowwise`. -/
example : demoGate.obj.inc = demoGate.cnt ∧ demoGate.obj.neurons = demoGated.length ∧
    FieldsOk 8 4 5 12 (fTmp demoGated) demoGated demoGatedLaws ∧
    (∀ j < 5, (demoGate.ofs ≤ j ∧ j < demoGate.ofs + demoGate.cnt) ∨ OCov demoGated j) := by
  refine ⟨rfl, rfl, ⟨⟨rfl, by decide, by decide, by decide, by decide, by decide, fc_lawful intArith_ok _ _ _ _ _ _ _ _⟩,
   ⟨rfl, by decide, by decide, by decide, by decide, by decide, identity_lawful _ _ _⟩, trivial⟩, fun j hj => ?_⟩
  simp only [demoGate, OCov, demoGated, List.mem_cons, List.not_mem_nil, or_false, exists_eq_or_imp, exists_eq_left]
  omega

example (s : OState demoGated) : RowWise demoGated demoGatedLaws s
    [fun x c => relu (intArith.dot 3 (withOnes 2 (fun _ => x) 0) (s.1.1.w c)), fun x c => x c] :=
  ⟨_, _, rfl, fun _ _ _ _ _ _ => rfl, _, _, rfl, fun _ _ _ _ _ _ => rfl, rfl⟩

/-- Layers that deliver their gradients: one in place, one in the other matrix. -/
example : ∃ a b : BLayer Int, a.Delivers 2 ∧ b.Delivers 2 ∧ Stacked [a, b] ∧ (∀ D P, (a.step D P).1 = false) ∧ ∀ D P, (b.step D P).1 = true :=
  ⟨⟨3, 3, fun D P => (false, D, P), fun G => G⟩, ⟨3, 3, fun D _ => (true, fun _ => 0, fun p => D p + 1), fun G r c => G r c + 1⟩,
    fun _ _ _ h => h, fun _ _ _ h r hr c hc => by simp [h r hr c hc], by simp [Stacked], fun _ _ => rfl, fun _ _ => rfl⟩

end Nntl.Pass
