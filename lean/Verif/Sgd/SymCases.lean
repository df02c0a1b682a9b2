import Verif.Sgd.SymNets
import Verif.Sgd.MatCases

/-! C208: the hypotheses are met. -/
namespace Nntl.Sgd

open Nntl.Layers Nntl.Pass Nntl.Backprop Nntl.Grad Nntl.Matrix Nntl.Kernel
open Finset

/-- Three fully connected layers of 7, 4 and 3 neurons. -/
def deepTree : Layer := .vert 1 (.leaf 4 (fcLeaf 7)) (.cons (.leaf 5 (fcLeaf 4)) (.cons (.leaf 6 (fcLeaf 3)) .nil))

/-- The settings of `demoEvery` without dropping of learning rates. -/
noncomputable def deepOpt (ty : GradType) : Opt :=
  let c := fun t : ℕ => ({ demoCfg (1 / ((t : ℝ) + 1)) with
    type := ty, beta1 := 9 / 10, beta2 := 99 / 100, eps := 1 / 1000, useMom := true, nesterov := true, mom := 1 / 2, useILR := true, ilrToMom := true, decr := 1 / 2,
    incr := 11 / 10, capLow := 1 / 100, capHigh := 100, l1 := 1 / 10, useMaxNorm := true, maxNorm2 := 7 / 4, normInclBias := true } : Cfg)
  ⟨c 0, fun t => ⟨c t, decide (t = 5), fun _ => 0⟩, fun t => ⟨c t, decide (t = 5), fun _ => 0⟩⟩

theorem deepOpt_stays (ty : GradType) : Stays (deepOpt ty) ty (9 / 10) (99 / 100) := ⟨fun _ => rfl, fun _ => rfl, fun _ => rfl⟩
theorem deepOpt_undropped (ty : GradType) : Undropped (deepOpt ty) := fun _ => ⟨le_refl (1 : ℝ), le_refl (1 : ℝ)⟩

noncomputable def deepPlan : Plan := { demoPlan 1 with tree := deepTree, go := gradWorks (demoOpt 1) 2 (deepTree.neurons + 1) }

noncomputable def deepWith (ty : ℕ → GradType) (tyo : GradType) : Plan := deepPlan.using (fun id => deepOpt (ty id)) (deepOpt tyo)

theorem deepWith_ok (ty : ℕ → GradType) (tyo : GradType) : (deepWith ty tyo).Ok := by
  refine ⟨⟨_, show layerInit true deepTree ⟨8, 4⟩ 5 = some ⟨_, _, _, _⟩ from rfl⟩, show 4 ≤ 8 by decide, ?_, ?_, ?_, fun id => (demo_smooth id).1, (demoPlan_ok 1).last, (demoPlan_ok 1).loss⟩
  · show deepTree.AllPacks FieldsInside Divisible 5
    simp only [deepTree, Layer.AllPacks, Stack.AllPacks, and_self]
  · show deepTree.AllLeaves _
    have h := fcLayers_leaf (deepWith ty tyo).gw (deepWith ty tyo).act
    exact ⟨h 7, h 4, h 3, trivial⟩
  · show NoExtra deepTree
    simp only [deepTree, NoExtra, NoExtraS, and_self]

theorem deepPlan_regular (R : ℕ) (X Y : Mat ℝ) (W : Weights) : deepPlan.shape.Regular deepPlan.dz R X Y W := by
  have ha : Act.Out.sigmXent.Args := by simp [Act.Out.Args, Act.Out.act, Act.Act.Args]
  exact regular_elementwise .sigmXent ha (fun y z => Act.act_regular _ ha z (.inl rfl) y) (fun id z => (demo_smooth id).2 z) rfl rfl R X Y W

/-- In every matrix the first two rows are the same, and the first two columns; all other weights are different. -/
noncomputable def twinW : Mat ℝ := fun c j => (max c 1 : ℕ) + 10 * (max j 1 : ℕ)

noncomputable def twinStock : Stock LayerMemo :=
  ⟨⟨fun _ => twinW, twinW⟩, fun _ => ⟨0, 0, fun _ _ => ⟨0, 0, 0, 0, 1, 0⟩⟩, ⟨0, 0, fun _ _ => ⟨0, 0, 0, 0, 1, 0⟩⟩⟩

theorem deepWith_state (ty : ℕ → GradType) (tyo : GradType) : ∃ s : NetS (deepWith ty tyo).net, (deepWith ty tyo).Inv s ∧
    (deepWith ty tyo).Stores (fun id m k => stands m k (ty id) (9 / 10) (99 / 100) 0) (stands 2 (deepTree.neurons + 1) tyo (9 / 10) (99 / 100) 0)
      ((deepWith ty tyo).cells s) twinStock := by
  obtain ⟨s, hi, h1, h2⟩ := state_with (deepWith_ok ty tyo) (fun _ _ _ => demoGw) (fun _ _ _ => twinW) demoGw twinW
  refine ⟨s, hi, fun i m hm => ⟨demoGw, twinW, (h1 i m hm).trans ?_, fun _ _ _ _ => rfl, new_works_stand _ _ _ _ _ _ _ rfl fun _ => rfl⟩,
    demoGw, twinW, h2, fun _ _ _ _ => rfl, new_works_stand _ _ _ _ _ _ _ rfl fun _ => rfl⟩
  show (match (mats (deepWith ty tyo).tree (deepWith ty tyo).inputs)[i]? with
        | some m => (⟨(deepWith ty tyo).gw m.id m.rows m.cols, demoGw, twinW⟩ : Cell)
        | none => ⟨bare, (), fun _ _ => 0⟩) = _
  rw [hm]

theorem deep_adjacent : Adjacent (asStack deepPlan.tree) deepPlan.inputs 0 7 ∧ Adjacent (asStack deepPlan.tree) deepPlan.inputs 1 4 :=
  ⟨.here 4 5 (fcLeaf 7) (fcLeaf 4) _ 5, .there (l := .leaf 4 (fcLeaf 7)) (n := 5) (.here 5 6 (fcLeaf 4) (fcLeaf 3) _ 7)⟩

theorem deep_topmost : Topmost (asStack deepPlan.tree) deepPlan.inputs 2 3 :=
  .there (l := .leaf 4 (fcLeaf 7)) (n := 5) (.there (l := .leaf 5 (fcLeaf 4)) (n := 7) (.here 6 (fcLeaf 3) 4))

theorem twin_inner (i : ℕ) : InnerTwins deepPlan.shape i 0 1 twinStock.W.body ∧ InnerTwins deepPlan.shape i 0 1 fun k => (twinStock.body k).cell :=
  ⟨⟨fun _ _ _ _ => rfl, fun _ _ _ _ => rfl⟩, fun _ _ _ _ => rfl, fun _ _ _ _ => rfl⟩

theorem twin_top (i : ℕ) : TopTwins deepPlan.shape i 0 1 twinStock.W.body twinStock.W.out ∧ TopTwins deepPlan.shape i 0 1 (fun k => (twinStock.body k).cell) twinStock.out.cell :=
  ⟨⟨fun _ _ _ _ => rfl, fun _ _ => rfl⟩, fun _ _ _ _ => rfl, fun _ _ => rfl⟩

/-- C208 for the example: three layers with any methods, after any history the first two neurons of each layer are the same. -/
example (ty : ℕ → GradType) (tyo : GradType) (us : List (Use ℝ)) (hus : ∀ u ∈ us, (deepWith ty tyo).Fits u) : ∃ s : NetS (deepWith ty tyo).net, (deepWith ty tyo).Inv s ∧
    InnerTwins deepPlan.shape 0 0 1 ((deepWith ty tyo).weights ((deepWith ty tyo).net.run s us)).body ∧
    InnerTwins deepPlan.shape 1 0 1 ((deepWith ty tyo).weights ((deepWith ty tyo).net.run s us)).body ∧
    TopTwins deepPlan.shape 2 0 1 ((deepWith ty tyo).weights ((deepWith ty tyo).net.run s us)).body ((deepWith ty tyo).weights ((deepWith ty tyo).net.run s us)).out := by
  obtain ⟨s, hi, hh⟩ := deepWith_state ty tyo
  have key := fun (i m : ℕ) (h : Adjacent (asStack deepPlan.tree) deepPlan.inputs i m) (h1 : 1 < m) =>
    twins_stay_twins (P := deepPlan) (fun id => deepOpt (ty id)) (deepOpt tyo) ty (fun _ => 9 / 10) (fun _ => 99 / 100) (fun _ => 0) tyo (9 / 10) (99 / 100) 0
      (deepWith_ok ty tyo) (fun id => deepOpt_stays _) (deepOpt_stays _) (fun id => deepOpt_undropped _) (deepOpt_undropped _) h (Nat.lt_trans Nat.zero_lt_one h1) h1 us s hi hus
      (fun _ _ _ _ _ _ => deepPlan_regular _ _ _ _) _ hh (twin_inner i).1 (twin_inner i).2
  exact ⟨s, hi, key 0 7 deep_adjacent.1 (by decide), key 1 4 deep_adjacent.2 (by decide),
    top_twins_stay_twins (P := deepPlan) (fun id => deepOpt (ty id)) (deepOpt tyo) ty (fun _ => 9 / 10) (fun _ => 99 / 100) (fun _ => 0) tyo (9 / 10) (99 / 100) 0
      (deepWith_ok ty tyo) (fun id => deepOpt_stays _) (deepOpt_stays _) (fun id => deepOpt_undropped _) (deepOpt_undropped _) deep_topmost (by decide) (by decide) us s hi hus
      (fun _ _ _ _ _ _ => deepPlan_regular _ _ _ _) _ hh (twin_top 2).1 (twin_top 2).2⟩

/-- C208 for the example: two epochs of `train()`. -/
example (ty : ℕ → GradType) (tyo : GradType) : ∃ (tr : List Train.Ev) (cd' : Train.CD) (w w' : World (deepWith ty tyo)),
    Train.train (Train.demoOpts [true, true] 0) (Train.demoEnv (fun _ => some 1) fun _ => true) ⟨7, 3, 0, false⟩ = some (cd', tr, .success) ∧
    Plays (deepWith ty tyo) 1000 tr w w' ∧
    InnerTwins deepPlan.shape 0 0 1 ((deepWith ty tyo).weights w'.net).body ∧
    TopTwins deepPlan.shape 2 0 1 ((deepWith ty tyo).weights w'.net).body ((deepWith ty tyo).weights w'.net).out := by
  obtain ⟨t, ht1, ht2⟩ := demoReal_prepared
  obtain ⟨s, hs, hh⟩ := deepWith_state ty tyo
  obtain ⟨q1, q2, q3, q4, q5, q6⟩ := demoReal_suits 1 7 (by decide)
  have hrun : ∃ r, Train.train (Train.demoOpts [true, true] 0) (Train.demoEnv (fun _ => some 1) fun _ => true) ⟨7, 3, 0, false⟩ = some r ∧ r.2.2 = .success :=
    ⟨_, rfl, by decide⟩
  obtain ⟨⟨cd', tr, err⟩, hrun, herr⟩ := hrun
  obtain rfl : err = .success := herr
  let w : World (deepWith ty tyo) := ⟨t, s, 0, 0, fun _ => 0⟩
  obtain ⟨w', hw'⟩ := whole_training_exists (P := deepWith ty tyo) q1 (Train.demo_starts _ _) hrun (by decide) (fun _ _ _ => rfl) (w := w) rfl ht1 ht2
  refine ⟨tr, cd', w, w', hrun, hw', ?_, ?_⟩
  · exact twins_stay_twins_in_whole_training (P := deepPlan) (fun id => deepOpt (ty id)) (deepOpt tyo) ty (fun _ => 9 / 10) (fun _ => 99 / 100) (fun _ => 0) tyo
      (9 / 10) (99 / 100) 0 (deepWith_ok ty tyo) (fun id => deepOpt_stays _) (deepOpt_stays _) (fun id => deepOpt_undropped _) (deepOpt_undropped _) deep_adjacent.1 (by decide)
      (by decide) (demoPlan_looks 1) ⟨q1, q2, q3, q4, q5, q6⟩ (Train.demo_starts _ _) hrun (show 3 ≤ 4 by decide) (w := w) rfl ht1 hs _ hh
      (fun bs h L _ _ _ k _ => deepPlan_regular 1 (fun _ => feature _ k) (fun _ => label _ k) L 0 (by decide)) hw' (twin_inner 0).1 (twin_inner 0).2
  · exact top_twins_stay_twins_in_whole_training (P := deepPlan) (fun id => deepOpt (ty id)) (deepOpt tyo) ty (fun _ => 9 / 10) (fun _ => 99 / 100) (fun _ => 0) tyo
      (9 / 10) (99 / 100) 0 (deepWith_ok ty tyo) (fun id => deepOpt_stays _) (deepOpt_stays _) (fun id => deepOpt_undropped _) (deepOpt_undropped _) deep_topmost (by decide)
      (by decide) (demoPlan_looks 1) ⟨q1, q2, q3, q4, q5, q6⟩ (Train.demo_starts _ _) hrun (show 3 ≤ 4 by decide) (w := w) rfl ht1 hs _ hh
      (fun bs h L _ _ _ k _ => deepPlan_regular 1 (fun _ => feature _ k) (fun _ => label _ k) L 0 (by decide)) hw' (twin_top 2).1 (twin_top 2).2

/-- Plain gradient descent that drops the learning rate of every second weight. -/
noncomputable def dropOpt : Opt :=
  ⟨{ demoCfg 1 with lrDrop := 1 / 2 }, fun _ => ⟨{ demoCfg 1 with lrDrop := 1 / 2 }, false, fun i => if i % 2 = 0 then 0 else 1⟩,
    fun _ => ⟨{ demoCfg 1 with lrDrop := 1 / 2 }, false, fun i => if i % 2 = 0 then 0 else 1⟩⟩

/-- C208. Dropping of learning rates is what can tell twins apart: from two neurons with the same weights, memories and derivatives one moves and the other does not. -/
theorem dropping_separates_twins :
    ((ruleOf dropOpt .classicalConstant 0 0 0 2 1).after ⟨0, 0, fun _ _ => ⟨0, 0, 0, 0, 1, 0⟩⟩ (fun _ _ => 0) fun _ _ => 1).2 0 0 = -1 ∧
    ((ruleOf dropOpt .classicalConstant 0 0 0 2 1).after ⟨0, 0, fun _ _ => ⟨0, 0, 0, 0, 1, 0⟩⟩ (fun _ _ => 0) fun _ _ => 1).2 1 0 = 0 := by
  have h : (1 / 2 : ℝ) < 1 := by norm_num
  have h' : ¬(1 : ℝ) < 1 / 2 := by norm_num
  constructor
  · simp [ruleOf, MatRule.scheduled, afterOf, dropOpt, demoCfg, limitOf, After.go, After.cell, limited, method, penaltySlope]
  · simp [ruleOf, MatRule.scheduled, afterOf, dropOpt, demoCfg, limitOf, After.go, limited]
    norm_num

end Nntl.Sgd
