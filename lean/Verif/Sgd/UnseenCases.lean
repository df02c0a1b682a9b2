import Verif.Sgd.UnseenMore
import Verif.Sgd.PermCases

/-! C210: the hypotheses are met. -/
namespace Nntl.Sgd

open Nntl.Layers Nntl.Pass Nntl.Backprop Nntl.Grad Nntl.Matrix Nntl.Kernel
open Finset

/-- Two samples of five features whose fourth feature is 0. -/
noncomputable def twoZ : Mem ℝ := fun p => if p / 2 = 5 then 1 else if p / 2 = 3 then 0 else (p : ℝ) / 10

theorem two_ones_z : Ones 2 5 twoZ := fun r hr => by
  have h : (r + 2 * 5) / 2 = 5 := by omega
  simp only [twoZ, h, if_true]

theorem two_unseen : Unseen 3 (2, matOf 2 twoZ, matOf 2 twoY) := fun r hr => by
  have hr : r < 2 := hr
  have h : (r + 2 * 3) / 2 = 3 := by omega
  show twoZ (r + 2 * 3) = 0
  simp [twoZ, h]

/-- The settings of `deepOpt` without penalties and limits, and with dropping of learning rates. -/
noncomputable def restOpt (ty : GradType) : Opt :=
  let c := fun t : ℕ => ({ demoCfg (1 / ((t : ℝ) + 1)) with
    type := ty, beta1 := 9 / 10, beta2 := 99 / 100, eps := 1 / 1000, useMom := true, nesterov := true, mom := 1 / 2, useILR := true, ilrToMom := true, decr := 1 / 2,
    incr := 11 / 10, capLow := 1 / 100, capHigh := 100, lrDrop := 1 / 2 } : Cfg)
  ⟨c 0, fun t => ⟨c t, decide (t = 5), fun i => (i : ℝ) / 10⟩, fun t => ⟨c t, decide (t = 5), fun i => (i : ℝ) / 10⟩⟩

theorem restOpt_stays (ty : GradType) : Stays (restOpt ty) ty (9 / 10) (99 / 100) := ⟨fun _ => rfl, fun _ => rfl, fun _ => rfl⟩
theorem restOpt_unpushed (ty : GradType) : Unpushed (restOpt ty) := fun _ => ⟨rfl, rfl, rfl, rfl⟩

/-- The lowest layer without penalties and limits, the others with them. -/
noncomputable def restOf (ty : ℕ → GradType) (id : ℕ) : Opt := if id = 4 then restOpt (ty id) else deepOpt (ty id)

theorem restOf_stays (ty : ℕ → GradType) (id : ℕ) : Stays (restOf ty id) (ty id) (9 / 10) (99 / 100) := by
  unfold restOf
  split
  · exact restOpt_stays _
  · exact deepOpt_stays _

noncomputable def restWith (ty : ℕ → GradType) (tyo : GradType) : Plan := deepPlan.using (restOf ty) (deepOpt tyo)

theorem restWith_ok (ty : ℕ → GradType) (tyo : GradType) : (restWith ty tyo).Ok := by
  refine ⟨⟨_, show layerInit true deepTree ⟨8, 4⟩ 5 = some ⟨_, _, _, _⟩ from rfl⟩, show 4 ≤ 8 by decide, ?_, ?_, ?_, fun id => (demo_smooth id).1, (demoPlan_ok 1).last, (demoPlan_ok 1).loss⟩
  · show deepTree.AllPacks FieldsInside Divisible 5
    simp only [deepTree, Layer.AllPacks, Stack.AllPacks, and_self]
  · show deepTree.AllLeaves _
    have h := fcLayers_leaf (restWith ty tyo).gw (restWith ty tyo).act
    exact ⟨h 7, h 4, h 3, trivial⟩
  · show NoExtra deepTree
    simp only [deepTree, NoExtra, NoExtraS, and_self]

/-- The weights of the fourth feature are `v`. -/
theorem restWith_state (ty : ℕ → GradType) (tyo : GradType) (v : ℕ → ℝ) : ∃ s : NetS (restWith ty tyo).net, (restWith ty tyo).Inv s ∧
    (restWith ty tyo).Stores (fun id m k => stands m k (ty id) (9 / 10) (99 / 100) 0) (stands 2 (deepTree.neurons + 1) tyo (9 / 10) (99 / 100) 0)
      ((restWith ty tyo).cells s) ⟨twinStock.W.withFeature 3 v, twinStock.body, twinStock.out⟩ := by
  obtain ⟨s, hi, h1, h2⟩ := state_with (restWith_ok ty tyo) (fun _ _ _ => demoGw) (fun id _ _ => if id = 4 then fun c l => if l = 3 then v c else twinW c l else twinW) demoGw twinW
  refine ⟨s, hi, fun i m hm => ⟨demoGw, if m.id = 4 then fun c l => if l = 3 then v c else twinW c l else twinW, (h1 i m hm).trans ?_, fun c _ j _ => ?_,
    new_works_stand _ _ _ _ _ _ _ rfl fun _ => rfl⟩, demoGw, twinW, h2, fun _ _ _ _ => rfl, new_works_stand _ _ _ _ _ _ _ rfl fun _ => rfl⟩
  · show (match (mats (restWith ty tyo).tree (restWith ty tyo).inputs)[i]? with
        | some m => (⟨(restWith ty tyo).gw m.id m.rows m.cols, demoGw, if m.id = 4 then fun c l => if l = 3 then v c else twinW c l else twinW⟩ : Cell)
        | none => ⟨bare, (), fun _ _ => 0⟩) = _
    rw [hm]
  · have e : mats (restWith ty tyo).tree (restWith ty tyo).inputs = [⟨4, 7, 6, 1⟩, ⟨5, 4, 8, 1⟩, ⟨6, 3, 5, 1⟩] := rfl
    rw [e] at hm
    match i, hm with
    | 0, hm => obtain rfl := Option.some.inj hm; rfl
    | 1, hm => obtain rfl := Option.some.inj hm; rfl
    | 2, hm => obtain rfl := Option.some.inj hm; rfl
    | _ + 3, hm => simp at hm

theorem rest_fits (ty : ℕ → GradType) (tyo : GradType) : ∀ u ∈ [Use.train 2 twoZ twoY, .eval 2 twoX, .train 2 twoZ twoY], (restWith ty tyo).Fits u := by
  intro u hu
  simp only [List.mem_cons, List.not_mem_nil, or_false] at hu
  rcases hu with rfl | rfl | rfl
  exacts [⟨by decide, show 2 ≤ 4 by decide, two_ones_z⟩, ⟨by decide, show 2 ≤ 8 by decide, two_ones.1⟩, ⟨by decide, show 2 ≤ 4 by decide, two_ones_z⟩]

theorem rest_unseen : ∀ b ∈ batches [Use.train 2 twoZ twoY, .eval 2 twoX, .train 2 twoZ twoY], Unseen 3 b := by
  intro b hb
  have hb : b ∈ [((2, matOf 2 twoZ, matOf 2 twoY) : ℕ × Mat ℝ × Mat ℝ), (2, matOf 2 twoZ, matOf 2 twoY)] := hb
  simp only [List.mem_cons, List.not_mem_nil, or_false, or_self] at hb
  subst hb
  exact two_unseen

theorem deep_first : asStack deepPlan.tree = .cons (.leaf 4 (fcLeaf 7)) (.cons (.leaf 5 (fcLeaf 4)) (.cons (.leaf 6 (fcLeaf 3)) .nil)) := rfl

/-- C210 for the example: any methods in three layers, momentum, gains and dropping of learning rates; the weights of the fourth feature stay as they were. -/
theorem rest_keeps (ty : ℕ → GradType) (tyo : GradType) (v : ℕ → ℝ) (us : List (Use ℝ)) (s : NetS (restWith ty tyo).net) (hi : (restWith ty tyo).Inv s)
    (hh : (restWith ty tyo).Stores (fun id m k => stands m k (ty id) (9 / 10) (99 / 100) 0) (stands 2 (deepTree.neurons + 1) tyo (9 / 10) (99 / 100) 0)
      ((restWith ty tyo).cells s) ⟨twinStock.W.withFeature 3 v, twinStock.body, twinStock.out⟩) (hus : ∀ u ∈ us, (restWith ty tyo).Fits u)
    (hu : ∀ b ∈ batches us, Unseen 3 b) (c : ℕ) (hc : c < 7) :
    ((restWith ty tyo).weights ((restWith ty tyo).net.run s us)).body 0 c 3 = ((restWith ty tyo).weights s).body 0 c 3 :=
  unseen_features_keep_their_weights (P := deepPlan) (restOf ty) (deepOpt tyo) ty (fun _ => 9 / 10) (fun _ => 99 / 100) (fun _ => 0) tyo (9 / 10) (99 / 100) 0
    (restWith_ok ty tyo) (restOf_stays ty) (deepOpt_stays _) us s hi hus (fun _ _ _ _ _ _ => deepPlan_regular _ _ _ _)
    ⟨twinStock.W.withFeature 3 v, twinStock.body, twinStock.out⟩ hh deep_first (c := c) (j := 3) hc
    (show 3 < 5 by decide) hu ⟨rfl, rfl⟩ (.inl (restOpt_unpushed (ty 4)))

example (ty : ℕ → GradType) (tyo : GradType) (v : ℕ → ℝ) : ∃ s : NetS (restWith ty tyo).net, (restWith ty tyo).Inv s ∧
    ∃ us : List (Use ℝ), (∀ u ∈ us, (restWith ty tyo).Fits u) ∧ (batches us).length = 2 ∧ ∀ c < 7,
    ((restWith ty tyo).weights ((restWith ty tyo).net.run s us)).body 0 c 3 = ((restWith ty tyo).weights s).body 0 c 3 := by
  obtain ⟨s, hi, hh⟩ := restWith_state ty tyo v
  have key := fun us h1 h2 => rest_keeps ty tyo v us s hi hh h1 h2
  exact ⟨s, hi, [.train 2 twoZ twoY, .eval 2 twoX, .train 2 twoZ twoY], rest_fits ty tyo, rfl, key _ (rest_fits ty tyo) rest_unseen⟩

/-- C210 for the example: two such networks that differ by the weights of the fourth feature. -/
example (ty : ℕ → GradType) (tyo : GradType) (v : ℕ → ℝ) : ∃ s t : NetS (restWith ty tyo).net, (restWith ty tyo).Inv s ∧ (restWith ty tyo).Inv t ∧
    deepPlan.shape.Same ((restWith ty tyo).weights ((restWith ty tyo).net.run t [.train 2 twoZ twoY, .eval 2 twoX, .train 2 twoZ twoY]))
      (((restWith ty tyo).weights ((restWith ty tyo).net.run s [.train 2 twoZ twoY, .eval 2 twoX, .train 2 twoZ twoY])).withFeature 3 v) := by
  obtain ⟨s, hi, hh⟩ := restWith_state ty tyo fun _ => 0
  obtain ⟨t, hit, hht⟩ := restWith_state ty tyo v
  have e : (twinStock.W.withFeature 3 fun _ => 0).withFeature 3 v = twinStock.W.withFeature 3 v := by
    unfold Weights.withFeature
    congr 1
    funext k
    by_cases hk : k = 0
    · simp only [hk, if_true]
      funext c l
      by_cases hl : l = 3
      · simp only [hl, if_true]
      · simp only [hl, if_false]
    · simp only [hk, if_false]
  rw [← e] at hht
  refine ⟨s, t, hi, hit, ?_⟩
  exact unseen_features_have_no_influence (P := deepPlan) (restOf ty) (deepOpt tyo) ty (fun _ => 9 / 10) (fun _ => 99 / 100) (fun _ => 0) tyo (9 / 10) (99 / 100) 0
    (restWith_ok ty tyo) (restOf_stays ty) (deepOpt_stays _) _ s t hi hit (rest_fits ty tyo) (fun _ _ _ _ _ _ => deepPlan_regular _ _ _ _)
    (fun _ _ _ _ _ _ => deepPlan_regular _ _ _ _) deep_first (show 3 < 5 by decide) rest_unseen (restOpt_unpushed _) v
    ⟨twinStock.W.withFeature 3 fun _ => 0, twinStock.body, twinStock.out⟩ (fun _ _ => ⟨rfl, rfl⟩) hh hht

/-- Plain gradient descent with an L2 penalty. -/
noncomputable def decayOpt : Opt :=
  ⟨{ demoCfg 1 with l2 := 1 / 4 }, fun _ => ⟨{ demoCfg 1 with l2 := 1 / 4 }, false, fun _ => 0⟩, fun _ => ⟨{ demoCfg 1 with l2 := 1 / 4 }, false, fun _ => 0⟩⟩

/-- C210. Penalties are what moves weights of unseen features: without any derivative of the loss, a weight of 1 becomes 3/4 and a weight of 0 stays. -/
theorem penalties_move_unseen_weights :
    ((ruleOf decayOpt .classicalConstant 0 0 0 1 3).after ⟨0, 0, fun _ _ => ⟨0, 0, 0, 0, 1, 0⟩⟩ (fun _ j => if j = 0 then 1 else 0) fun _ _ => 0).2 0 0 = 3 / 4 ∧
    ((ruleOf decayOpt .classicalConstant 0 0 0 1 3).after ⟨0, 0, fun _ _ => ⟨0, 0, 0, 0, 1, 0⟩⟩ (fun _ j => if j = 0 then 1 else 0) fun _ _ => 0).2 0 1 = 0 := by
  refine ⟨?_, (rule_after_rest _ _ _ _ _ _ _ (c := 0) (j := 1) ⟨rfl, rfl⟩ rfl (.inr rfl)).2⟩
  simp [ruleOf, MatRule.scheduled, afterOf, decayOpt, demoCfg, limitOf, After.go, After.cell, limited, method, penaltySlope]
  norm_num

end Nntl.Sgd
