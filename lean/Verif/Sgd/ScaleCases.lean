import Verif.Sgd.ScaleProps
import Verif.Sgd.UnseenCases

/-! C211: the hypotheses are met. -/
namespace Nntl.Sgd

open Nntl.Layers Nntl.Pass Nntl.Backprop Nntl.Grad Nntl.Matrix Nntl.Kernel
open Finset

/-- RProp, or plain gradient descent. -/
def ofSign (b : Bool) : GradType := if b then .rprop else .classicalConstant

/-- The settings of `restOpt` (momentum, gains, dropping of learning rates) with learning rates divided by `q` for plain gradient descent. -/
noncomputable def slowOpt (q : ℝ) (b : Bool) : Opt :=
  { restOpt (ofSign b) with app := fun t => match b with
    | true => (restOpt (ofSign b)).app t
    | false => { (restOpt (ofSign b)).app t with cfg := { ((restOpt (ofSign b)).app t).cfg with lr := ((restOpt (ofSign b)).app t).cfg.lr / q } } }

theorem slowOpt_stays (q : ℝ) (b : Bool) : Stays (slowOpt q b) (ofSign b) (9 / 10) (99 / 100) := by
  cases b <;> exact ⟨fun _ => rfl, fun _ => rfl, fun _ => rfl⟩

theorem slowOpt_balanced (q : ℝ) (b : Bool) : Balanced q (ofSign b) (restOpt (ofSign b)) (slowOpt q b) := by
  cases b
  · exact ⟨fun _ => ⟨rfl, rfl⟩, rfl, .inr ⟨rfl, rfl⟩⟩
  · exact ⟨fun _ => ⟨rfl, rfl⟩, rfl, .inl ⟨rfl, rfl⟩⟩

theorem scaled_ok (q : ℝ) (o : ℕ → Opt) (oo : Opt) : ((deepPlan.times q).using o oo).Ok := by
  refine ⟨⟨_, show layerInit true deepTree ⟨8, 4⟩ 5 = some ⟨_, _, _, _⟩ from rfl⟩, show 4 ≤ 8 by decide, ?_, ?_, ?_, fun id => (demo_smooth id).1, (demoPlan_ok 1).last,
    fun a a' y h => congrArg (q * ·) ((demoPlan_ok 1).loss a a' y h)⟩
  · show deepTree.AllPacks FieldsInside Divisible 5
    simp only [deepTree, Layer.AllPacks, Stack.AllPacks, and_self]
  · show deepTree.AllLeaves _
    have h := fcLayers_leaf ((deepPlan.times q).using o oo).gw ((deepPlan.times q).using o oo).act
    exact ⟨h 7, h 4, h 3, trivial⟩
  · show NoExtra deepTree
    simp only [deepTree, NoExtra, NoExtraS, and_self]

theorem unscaled_ok (o : ℕ → Opt) (oo : Opt) : (deepPlan.using o oo).Ok := by
  refine ⟨⟨_, show layerInit true deepTree ⟨8, 4⟩ 5 = some ⟨_, _, _, _⟩ from rfl⟩, show 4 ≤ 8 by decide, ?_, ?_, ?_, fun id => (demo_smooth id).1, (demoPlan_ok 1).last, (demoPlan_ok 1).loss⟩
  · show deepTree.AllPacks FieldsInside Divisible 5
    simp only [deepTree, Layer.AllPacks, Stack.AllPacks, and_self]
  · show deepTree.AllLeaves _
    have h := fcLayers_leaf (deepPlan.using o oo).gw (deepPlan.using o oo).act
    exact ⟨h 7, h 4, h 3, trivial⟩
  · show NoExtra deepTree
    simp only [deepTree, NoExtra, NoExtraS, and_self]

theorem new_state {P : Plan} {o : ℕ → Opt} {oo : Opt} (ho : (P.using o oo).Ok) (ty : ℕ → GradType) (tyo : GradType) : ∃ s : NetS (P.using o oo).net, (P.using o oo).Inv s ∧
    (P.using o oo).Stores (fun id m k => stands m k (ty id) (9 / 10) (99 / 100) 0) (stands P.outputs (P.tree.neurons + 1) tyo (9 / 10) (99 / 100) 0)
      ((P.using o oo).cells s) twinStock := by
  obtain ⟨s, hi, h1, h2⟩ := state_with ho (fun _ _ _ => demoGw) (fun _ _ _ => twinW) demoGw twinW
  refine ⟨s, hi, fun i m hm => ⟨demoGw, twinW, (h1 i m hm).trans ?_, fun _ _ _ _ => rfl, new_works_stand _ _ _ _ _ _ _ rfl fun _ => rfl⟩,
    demoGw, twinW, h2, fun _ _ _ _ => rfl, new_works_stand _ _ _ _ _ _ _ rfl fun _ => rfl⟩
  show (match (mats (P.using o oo).tree (P.using o oo).inputs)[i]? with
        | some m => (⟨(P.using o oo).gw m.id m.rows m.cols, demoGw, twinW⟩ : Cell)
        | none => ⟨bare, (), fun _ _ => 0⟩) = _
  rw [hm]

/-- C211 for the example: in every one of three layers and in the output layer RProp or plain gradient descent, any uses. -/
theorem slow_same {q : ℝ} (hq : 0 < q) (b : ℕ → Bool) (bo : Bool) (us : List (Use ℝ))
    (hus : ∀ u ∈ us, (deepPlan.using (fun id => restOpt (ofSign (b id))) (restOpt (ofSign bo))).Fits u) :
    ∃ (s : NetS (deepPlan.using (fun id => restOpt (ofSign (b id))) (restOpt (ofSign bo))).net)
      (t : NetS ((deepPlan.times q).using (fun id => slowOpt q (b id)) (slowOpt q bo)).net),
      (deepPlan.using (fun id => restOpt (ofSign (b id))) (restOpt (ofSign bo))).Inv s ∧ ((deepPlan.times q).using (fun id => slowOpt q (b id)) (slowOpt q bo)).Inv t ∧
      deepPlan.shape.Same
        (((deepPlan.times q).using (fun id => slowOpt q (b id)) (slowOpt q bo)).weights (((deepPlan.times q).using (fun id => slowOpt q (b id)) (slowOpt q bo)).net.run t us))
        ((deepPlan.using (fun id => restOpt (ofSign (b id))) (restOpt (ofSign bo))).weights
          ((deepPlan.using (fun id => restOpt (ofSign (b id))) (restOpt (ofSign bo))).net.run s us)) := by
  obtain ⟨s, hi, hh⟩ := new_state (unscaled_ok (fun id => restOpt (ofSign (b id))) (restOpt (ofSign bo))) (fun id => ofSign (b id)) (ofSign bo)
  obtain ⟨t, hit, hht⟩ := new_state (scaled_ok q (fun id => slowOpt q (b id)) (slowOpt q bo)) (fun id => ofSign (b id)) (ofSign bo)
  exact ⟨s, t, hi, hit, scale_of_the_loss hq (fun id => restOpt (ofSign (b id))) (fun id => slowOpt q (b id)) (restOpt (ofSign bo)) (slowOpt q bo)
    (fun id => ofSign (b id)) (fun _ => 9 / 10) (fun _ => 99 / 100) (fun _ => 0) (ofSign bo) (9 / 10) (99 / 100) 0
    (fun id => slowOpt_balanced q (b id)) (slowOpt_balanced q bo) (unscaled_ok _ _) (scaled_ok q _ _) (fun id => restOpt_stays _) (restOpt_stays _)
    (fun id => slowOpt_stays q (b id)) (slowOpt_stays q bo) us s t hi hit hus (fun _ _ _ _ _ _ => deepPlan_regular _ _ _ _) (fun _ _ _ _ _ _ => deepPlan_regular _ _ _ _)
    twinStock hh hht⟩

/-- Two steps with an evaluation between them are such uses. -/
example (o : ℕ → Opt) (oo : Opt) : ∀ u ∈ [Use.train 2 twoZ twoY, .eval 2 twoX, .train 2 twoZ twoY], (deepPlan.using o oo).Fits u := by
  intro u hu
  simp only [List.mem_cons, List.not_mem_nil, or_false] at hu
  rcases hu with rfl | rfl | rfl
  exacts [⟨by decide, show 2 ≤ 4 by decide, two_ones_z⟩, ⟨by decide, show 2 ≤ 8 by decide, two_ones.1⟩, ⟨by decide, show 2 ≤ 4 by decide, two_ones_z⟩]

end Nntl.Sgd
