import Verif.Sgd.MatProps
import Verif.Sgd.AllCases

/-! C196, C197: the hypotheses are met; a layer that is not trained and is shrunk. -/
namespace Nntl.Sgd

open Nntl.Layers Nntl.Pass Nntl.Backprop Nntl.Grad Nntl.Matrix Nntl.Kernel
open Finset

/-- Settings with a given type: as in `demoFull`, with a dropout of every second learning rate and a limit of lengths; learning is blocked in the steps `b`. -/
noncomputable def demoEvery (ty : GradType) (b : ℕ → Bool := fun t => decide (t = 5)) : Opt :=
  let c := fun t : ℕ => ({ demoCfg (1 / ((t : ℝ) + 1)) with
    type := ty, beta1 := 9 / 10, beta2 := 99 / 100, eps := 1 / 1000, useMom := true, nesterov := true, mom := 1 / 2, useILR := true, ilrToMom := true, decr := 1 / 2,
    incr := 11 / 10, capLow := 1 / 100, capHigh := 100, l1 := 1 / 10, lrDrop := 1 / 2, lrDropNesterov := true, useMaxNorm := true, maxNorm2 := 7 / 4,
    normInclBias := true } : Cfg)
  ⟨c 0, fun t => ⟨c t, b t, fun i => if i % 2 = 0 then 0 else 1⟩, fun t => ⟨c t, b t, fun i => if i % 2 = 0 then 0 else 1⟩⟩

theorem demoEvery_stays (ty : GradType) (b : ℕ → Bool) : Stays (demoEvery ty b) ty (9 / 10) (99 / 100) := ⟨fun _ => rfl, fun _ => rfl, fun _ => rfl⟩

/-- The network of `demoPlan` without training of the output layer. -/
noncomputable def demoPart : Plan := { demoPlan 1 with uo := false }

noncomputable def demoWith (ty : ℕ → GradType) (tyo : GradType) (b : ℕ → Bool := fun t => decide (t = 5)) : Plan :=
  demoPart.using (fun id => demoEvery (ty id) b) (demoEvery tyo b)

theorem demoWith_ok (ty : ℕ → GradType) (tyo : GradType) (b : ℕ → Bool) : (demoWith ty tyo b).Ok := by
  obtain ⟨h1, h2, _, h4, _⟩ := demoTree_ok
  refine ⟨h1, show 4 ≤ 8 by decide, h2, ?_, h4, fun id => (demo_smooth id).1, (demoPlan_ok 1).last, (demoPlan_ok 1).loss⟩
  show demoTree.AllLeaves _
  have h := fcLayers_leaf (demoWith ty tyo b).gw (demoWith ty tyo b).act
  exact ⟨⟨⟨h 7, h 4, trivial⟩, h 2, trivial⟩, h 3, trivial⟩

noncomputable def demoStock : Stock LayerMemo := ⟨⟨fun _ _ _ => 1, fun _ _ => 1⟩, fun _ => ⟨0, 0, fun _ _ => ⟨0, 0, 0, 0, 1, 0⟩⟩, ⟨0, 0, fun _ _ => ⟨0, 0, 0, 0, 1, 0⟩⟩⟩

/-- A new network: all weights are `1`. -/
theorem demoWith_state (ty : ℕ → GradType) (tyo : GradType) (b : ℕ → Bool) : ∃ s : NetS (demoWith ty tyo b).net, (demoWith ty tyo b).Inv s ∧
    (demoWith ty tyo b).Stores (fun id m k => stands m k (ty id) (9 / 10) (99 / 100) 0) (stands 2 (demoTree.neurons + 1) tyo (9 / 10) (99 / 100) 0)
      ((demoWith ty tyo b).cells s) demoStock := by
  obtain ⟨s, hi, h1, h2⟩ := state_with (demoWith_ok ty tyo b) (fun _ _ _ => demoGw) (fun _ _ _ _ _ => 1) demoGw fun _ _ => 1
  refine ⟨s, hi, fun i m hm => ⟨demoGw, fun _ _ => 1, (h1 i m hm).trans ?_, fun _ _ _ _ => rfl, new_works_stand _ _ _ _ _ _ _ rfl fun _ => rfl⟩,
    demoGw, fun _ _ => 1, h2, fun _ _ _ _ => rfl, new_works_stand _ _ _ _ _ _ _ rfl fun _ => rfl⟩
  show (match (mats (demoWith ty tyo b).tree (demoWith ty tyo b).inputs)[i]? with
        | some m => (⟨(demoWith ty tyo b).gw m.id m.rows m.cols, demoGw, fun _ _ => 1⟩ : Cell)
        | none => ⟨bare, (), fun _ _ => 0⟩) = _
  rw [hm]

/-- C196 for the example: any types in the layers, two epochs of two batches of three out of seven samples. There is such a training, and it follows the rules. -/
example (ty : ℕ → GradType) (tyo : GradType) :
    ∃ (tr : List Train.Ev) (cd' : Train.CD) (w w' : World (demoWith ty tyo)) (ords : List (ℕ → ℕ)) (h' : Stock LayerMemo),
    Train.train (Train.demoOpts [true, true] 0) (Train.demoEnv (fun _ => some 1) fun _ => true) ⟨7, 3, 0, false⟩ = some (cd', tr, .success) ∧
    Plays (demoWith ty tyo) 1000 tr w w' ∧ ords.length = 2 ∧ (∀ ord ∈ ords, Shuffled 7 3 ord) ∧
    demoPart.shape.MatPath demoPart.upd false (fun id => ruleOf (demoEvery (ty id)) (ty id) (9 / 10) (99 / 100) 0)
      (ruleOf (demoEvery tyo) tyo (9 / 10) (99 / 100) 0 2 (demoTree.neurons + 1)) (ords.flatMap (epochBatches (demoReal 7) 3)) demoStock h' ∧
    demoPart.shape.Same h'.W ((demoWith ty tyo).weights w'.net) := by
  obtain ⟨t, ht1, ht2⟩ := demoReal_prepared
  obtain ⟨s, hs, hh⟩ := demoWith_state ty tyo _
  obtain ⟨q1, q2, q3, q4, q5, q6⟩ := demoReal_suits 1 7 (by decide)
  have hrun : ∃ r, Train.train (Train.demoOpts [true, true] 0) (Train.demoEnv (fun _ => some 1) fun _ => true) ⟨7, 3, 0, false⟩ = some r ∧ r.2.2 = .success :=
    ⟨_, rfl, by decide⟩
  obtain ⟨⟨cd', tr, err⟩, hrun, herr⟩ := hrun
  obtain rfl : err = .success := herr
  let w : World (demoWith ty tyo) := ⟨t, s, 0, 0, fun _ => 0⟩
  obtain ⟨w', hw'⟩ := whole_training_exists (P := demoWith ty tyo) q1 (Train.demo_starts _ _) hrun (by decide) (fun _ _ _ => rfl) (w := w) rfl ht1 ht2
  obtain ⟨ords, h1, h2, h3, h', h4, h5⟩ := whole_training_with_every_setting (P := demoPart) (fun id => demoEvery (ty id)) (demoEvery tyo) ty (fun _ => 9 / 10)
    (fun _ => 99 / 100) (fun _ => 0) tyo (9 / 10) (99 / 100) 0 (demoWith_ok ty tyo _) (fun id => demoEvery_stays _ _) (demoEvery_stays _ _)
    (demoPlan_looks 1) ⟨q1, q2, q3, q4, q5, q6⟩ (Train.demo_starts _ _) hrun (show 3 ≤ 4 by decide) (w := w) rfl ht1 hs _ hh
    (fun bs h L _ _ _ k _ => demoPlan_regular 1 1 (fun _ => feature _ k) (fun _ => label _ k) L 0 (by decide)) hw'
  exact ⟨tr, cd', w, w', ords, h', hrun, hw', h2 rfl fun _ => rfl, h3, h4, h5⟩

theorem demoEvery_shrinks : ((ruleOf (demoEvery .adam) .adam (9 / 10) (99 / 100) 0 2 7).before ⟨0, 0, fun _ _ => ⟨0, 0, 0, 0, 1, 0⟩⟩ fun _ _ => 1).2 0 0 = 1 / 2 := by
  have h : (7 : ℝ) / 4 / 7 = (1 / 2) ^ 2 := by norm_num
  have e : Real.sqrt (7 / 4 / 7) = 1 / 2 := by rw [h]; exact Real.sqrt_sq (by norm_num)
  have l : limited 7 (some ⟨7 / 4, true⟩) (fun _ _ => (1 : ℝ)) 0 0 = 1 / 2 := by
    have : (∑ i ∈ range 7, (1 : ℝ) ^ 2) = 7 := by norm_num
    simp only [limited, Limit.shrink, if_true, this, e]
    norm_num
  rw [← l]
  simp [ruleOf, MatRule.scheduled, beforeOf, demoEvery, limitOf, Ahead.go]

/-- C197. A layer that is not trained need not keep its weights: Nesterov's momentum applies the limit of lengths before forward passes even if the velocity is 0. In the
example one training step turns the weights `1` of the output layer, which is not trained, into `1 / 2`. -/
theorem frozen_layers_may_shrink : ∃ (s : NetS (demoWith (fun _ => .adam) .adam).net) (R : ℕ) (X Y : Mem ℝ), (demoWith (fun _ => .adam) .adam).Inv s ∧
    (demoWith (fun _ => .adam) .adam).Fits (.train R X Y) ∧ (demoWith (fun _ => .adam) .adam).uo = false ∧
    ((demoWith (fun _ => .adam) .adam).weights s).out 0 0 = 1 ∧
    ((demoWith (fun _ => .adam) .adam).weights ((demoWith (fun _ => .adam) .adam).net.run s [.train R X Y])).out 0 0 = 1 / 2 := by
  obtain ⟨s, hs, hh⟩ := demoWith_state (fun _ => .adam) .adam _
  have hf : (demoWith (fun _ => .adam) .adam).Fits (.train 1 (fun _ => 1) fun _ => 1) := ⟨Nat.one_pos, show 1 ≤ 4 by decide, fun _ _ => rfl⟩
  obtain ⟨h', ⟨h1, ⟨L, _, _, _, k1⟩, k2⟩, k3⟩ := training_with_every_setting (P := demoPart) (fun _ => demoEvery .adam) (demoEvery .adam) (fun _ => .adam)
    (fun _ => 9 / 10) (fun _ => 99 / 100) (fun _ => 0) .adam (9 / 10) (99 / 100) 0 (demoWith_ok _ _ _) (fun _ => demoEvery_stays _ _) (demoEvery_stays _ _)
    [.train 1 (fun _ => 1) fun _ => 1] s hs
    (fun u hu => by obtain rfl := List.mem_singleton.1 hu; exact hf) (fun _ _ _ _ _ _ => demoPlan_regular 1 _ _ _ _) _ hh
  · have h7 : (0 : ℕ) < demoPart.shape.tree.neurons + 1 := Nat.succ_pos _
    refine ⟨s, 1, _, _, hs, hf, rfl, ?_, ?_⟩
    · have h0 := hh.weights.symm.trans (cells_weights (demoWith_ok (fun _ => .adam) .adam _) s)
      exact (h0.2 0 (show 0 < 2 by decide) 0 h7).symm
    · refine (k3.2 0 (show 0 < 2 by decide) 0 h7).trans ?_
      refine (k2.1.2 0 (show 0 < 2 by decide) 0 h7).symm.trans ?_
      exact (k1 0 (show 0 < 2 by decide) 0 h7).trans demoEvery_shrinks

/-- C197 for the example: without blocked steps the limit holds after a training step in the layer `4`, with seven neurons of four weights; with all steps blocked nothing
moves. -/
example (ty : ℕ → GradType) (tyo : GradType) (b : ℕ → Bool) :
    ∃ (s : NetS (demoPart.using (fun id => demoEvery (ty id) b) (demoEvery tyo b)).net) (R : ℕ) (X Y : Mem ℝ),
    (demoPart.using (fun id => demoEvery (ty id) b) (demoEvery tyo b)).Inv s ∧
    (demoPart.using (fun id => demoEvery (ty id) b) (demoEvery tyo b)).Fits (.train R X Y) ∧
    ((∀ t, b t = false) → ∀ c < 7, ∑ j ∈ range 4,
      ((demoPart.using (fun id => demoEvery (ty id) b) (demoEvery tyo b)).weights
        ((demoPart.using (fun id => demoEvery (ty id) b) (demoEvery tyo b)).net.run s [.train R X Y])).body 0 c j ^ 2 ≤ 7 / 4) ∧
    ((∀ t, b t = true) → demoPart.shape.Same ((demoPart.using (fun id => demoEvery (ty id) b) (demoEvery tyo b)).weights s)
      ((demoPart.using (fun id => demoEvery (ty id) b) (demoEvery tyo b)).weights
        ((demoPart.using (fun id => demoEvery (ty id) b) (demoEvery tyo b)).net.run s [.train R X Y]))) := by
  obtain ⟨s, hs, hh⟩ := demoWith_state ty tyo b
  have hf :
      (demoPart.using (fun id => demoEvery (ty id) b) (demoEvery tyo b)).Fits (.train 1 (fun _ => 1) fun _ => 1) := ⟨Nat.one_pos, show 1 ≤ 4 by decide, fun _ _ => rfl⟩
  have hm : (mats demoPart.tree demoPart.inputs)[0]? = some ⟨4, 7, 4, 1⟩ := rfl
  refine ⟨s, 1, fun _ => 1, fun _ => 1, hs, hf, fun hb => ?_, fun hb => ?_⟩
  · have q := (lengths_stay_within_limits (P := demoPart) (fun id => demoEvery (ty id) b) (demoEvery tyo b) ty (fun _ => 9 / 10) (fun _ => 99 / 100) (fun _ => 0) tyo (9 / 10)
      (99 / 100) 0 (demoWith_ok _ _ _) (fun _ => demoEvery_stays _ _) (demoEvery_stays _ _) [.train 1 (fun _ => 1) fun _ => 1] s hs
      (fun u hu => by obtain rfl := List.mem_singleton.1 hu; exact hf) (fun _ _ _ _ _ _ => demoPlan_regular 1 _ _ _ _) _ hh ⟨_, _, _, List.mem_singleton.2 rfl⟩
      (7 / 4) (by norm_num) true).1 0 _ hm rfl fun t => ⟨hb t, rfl, rfl, rfl⟩
    rw [if_pos rfl] at q
    intro c hc
    exact q c hc
  · refine (blocked_learning_keeps_weights (P := demoPart) (fun id => demoEvery (ty id) b) (demoEvery tyo b) ty (fun _ => 9 / 10) (fun _ => 99 / 100) (fun _ => 0) tyo (9 / 10)
      (99 / 100) 0 (demoWith_ok _ _ _) (fun _ => demoEvery_stays _ _) (demoEvery_stays _ _) [.train 1 (fun _ => 1) fun _ => 1] s hs
      (fun u hu => by obtain rfl := List.mem_singleton.1 hu; exact hf) (fun _ _ _ _ _ _ => demoPlan_regular 1 _ _ _ _) _ hh (fun _ t => ⟨hb t, hb t⟩) fun t => ⟨hb t, hb t⟩).symm

end Nntl.Sgd
