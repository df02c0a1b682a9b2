import Verif.Sgd.PermCases

/-! C209: the hypotheses for whole trainings are met. -/
namespace Nntl.Sgd

open Nntl.Layers Nntl.Pass Nntl.Backprop Nntl.Grad Nntl.Matrix Nntl.Kernel
open Finset

/-- The training set of `demoReal 4` with features and expected answers in other orders. -/
noncomputable def demoTurned (π σ : Equiv.Perm ℕ) : TrainData.Data ℝ ℝ where
  X := fun s => match s with
    | .train => { (demoReal 4).X .train with data := fun k => ((demoReal 4).X .train).data (k % 4 + 4 * π (k / 4)) }
    | .test => (demoReal 4).X .test
  Y := fun s => match s with
    | .train => { (demoReal 4).Y .train with data := fun k => ((demoReal 4).Y .train).data (k % 4 + 4 * σ (k / 4)) }
    | .test => (demoReal 4).Y .test

theorem demoTurned_suits (π σ : Equiv.Perm ℕ) (hπ : π 5 = 5) : Suits (demoTurned π σ) (demoPlan 1) where
  ok := {
    birX := by intro s; cases s <;> rfl
    birY := by intro s; cases s <;> rfl
    widthX := by intro s; cases s <;> rfl
    widthY := by intro s; cases s <;> rfl
    posX := Nat.succ_pos 4
    posY := Nat.succ_pos 1
    count := by intro s; cases s; exacts [Nat.succ_pos 3, Nat.succ_pos 1]
    same := by intro s; cases s <;> rfl
    emulX := by intro s; cases s <;> rfl
    emulY := by intro s; cases s <;> rfl
    storX := by intro s; cases s <;> exact Nat.le_refl _
    storY := by intro s; cases s <;> exact Nat.le_refl _ }
  rowsX := rfl
  rowsY := rfl
  ones := by
    intro _ r c hr hc hb
    have hr : r < 4 := hr
    have hc : c < 6 := hc
    obtain ⟨_, hb⟩ := hb
    have hb : c + 1 = 6 := hb
    obtain rfl : c = 5 := by omega
    unfold Mtx.get
    rw [if_pos ⟨hr, hc⟩]
    show some (if (r + 4 * 5) % 4 + 4 * π ((r + 4 * 5) / 4) < 4 * 5 then _ else _) = _
    rw [show (r + 4 * 5) / 4 = 5 from by omega, hπ, if_neg (by omega)]
  inputs := rfl
  outputs := rfl

theorem demoTurned_feature (π σ : Equiv.Perm ℕ) (hπ : ∀ c, 5 ≤ c → π c = c) (r j : ℕ) (hr : r < 4) (hj : j < 5) : feature (demoTurned π σ) r j = feature (demoReal 4) r (π j) := by
  have hp : π j < 5 := perm_inside hπ j hj
  have h1 : feature (demoTurned π σ) r j = ((demoReal 4).X .train).data ((r + 4 * j) % 4 + 4 * π ((r + 4 * j) / 4)) := by
    show (Option.getD (if r < 4 ∧ j < 6 then some _ else none) 0) = _
    rw [if_pos ⟨hr, by omega⟩]
    rfl
  have h2 : feature (demoReal 4) r (π j) = ((demoReal 4).X .train).data (r + 4 * π j) := by
    show (Option.getD (if r < 4 ∧ π j < 6 then some _ else none) 0) = _
    rw [if_pos ⟨hr, by omega⟩]
    rfl
  rw [h1, h2, show (r + 4 * j) % 4 = r from by omega, show (r + 4 * j) / 4 = j from by omega]

theorem demoTurned_label (π σ : Equiv.Perm ℕ) (hσ : ∀ c, 2 ≤ c → σ c = c) (r c : ℕ) (hr : r < 4) (hc : c < 2) : label (demoTurned π σ) r c = label (demoReal 4) r (σ c) := by
  have hp : σ c < 2 := perm_inside hσ c hc
  have h1 : label (demoTurned π σ) r c = ((demoReal 4).Y .train).data ((r + 4 * c) % 4 + 4 * σ ((r + 4 * c) / 4)) := by
    show (Option.getD (if r < 4 ∧ c < 2 then some _ else none) 0) = _
    rw [if_pos ⟨hr, hc⟩]
    rfl
  have h2 : label (demoReal 4) r (σ c) = ((demoReal 4).Y .train).data (r + 4 * σ c) := by
    show (Option.getD (if r < 4 ∧ σ c < 2 then some _ else none) 0) = _
    rw [if_pos ⟨hr, hp⟩]
    rfl
  rw [h1, h2, show (r + 4 * c) % 4 = r from by omega, show (r + 4 * c) / 4 = c from by omega]

theorem demoTurned_prepared (π σ : Equiv.Perm ℕ) : ∃ t, TrainData.Reach 1000 (demoTurned π σ) t ∧ Prepared (demoTurned π σ) 4 t := by
  have h : (TrainData.init4train 1000 (TrainData.fresh (demoTurned π σ) (fun _ => 0) fun _ => 0) 0 4 ⟨fun _ => 0, fun _ => 0, true, true, true⟩).map
      (fun r => r.t.maxTrain) = some 4 := by rfl
  cases hi : TrainData.init4train 1000 (TrainData.fresh (demoTurned π σ) (fun _ => 0) fun _ => 0) 0 4 ⟨fun _ => 0, fun _ => 0, true, true, true⟩ with
  | none => rw [hi] at h; simp at h
  | some r =>
    rw [hi] at h
    simp only [Option.map_some, Option.some.injEq] at h
    exact ⟨r.t, (TrainData.Reach.fresh _ _).step (.train _ _ _ _ _ hi), by rw [h], fun _ => rfl⟩

/-- C209 for the example: two epochs of `train()` on four samples as one batch, and three configured epochs, stopped after the second one, on the samples with the second and the
third feature in each other's place. -/
example (ty : ℕ → GradType) (tyo : GradType) :
    ∃ (tr tr' : List Train.Ev) (cd cd' : Train.CD) (w w1 w' w1' : World (deepWith ty tyo)),
    Train.train (Train.demoOpts [true, true] 0) (demoEnv1 fun _ => true) ⟨4, 4, 0, false⟩ = some (cd, tr, .success) ∧
    Train.train (Train.demoOpts [true, false, true] 0) (demoEnv1 fun e => e != 1) ⟨4, 4, 0, false⟩ = some (cd', tr', .success) ∧
    TrainData.Reach 1000 (demoReal 4) w.td ∧ TrainData.Reach 1000 (demoTurned (Equiv.swap 1 2) 1) w'.td ∧
    Plays (deepWith ty tyo) 1000 tr w w1 ∧ Plays (deepWith ty tyo) 1000 tr' w' w1' ∧
    ∀ x, ∀ c < 2, deepPlan.shape.answer ((deepWith ty tyo).weights w1'.net) (fun j => x (Equiv.swap 1 2 j)) c = deepPlan.shape.answer ((deepWith ty tyo).weights w1.net) x c := by
  obtain ⟨⟨t, ht1, ht2⟩, -⟩ := demoFull_prepared
  obtain ⟨t', ht1', ht2'⟩ := demoTurned_prepared (Equiv.swap 1 2) 1
  obtain ⟨s, hs, hh⟩ := deepWith_state ty tyo
  obtain ⟨s', hs', hh'⟩ := deepWith_moved ty tyo (Equiv.swap 1 2) 1
  obtain ⟨q1, q2, q3, q4, q5, q6⟩ := demoReal_suits 1 4 (by decide)
  obtain ⟨p1, p2, p3, p4, p5, p6⟩ := demoTurned_suits (Equiv.swap 1 2) 1 (by decide)
  have hrun : ∃ r, Train.train (Train.demoOpts [true, true] 0) (demoEnv1 fun _ => true) ⟨4, 4, 0, false⟩ = some r ∧ r.2.2 = .success ∧ (Train.begunOf r.2.1).length = 2 :=
    ⟨_, rfl, by decide, by decide⟩
  obtain ⟨⟨cd, tr, err⟩, hrun, herr, hlen⟩ := hrun
  obtain rfl : err = .success := herr
  have hrun' : ∃ r, Train.train (Train.demoOpts [true, false, true] 0) (demoEnv1 fun e => e != 1) ⟨4, 4, 0, false⟩ = some r ∧ r.2.2 = .success ∧
      (Train.begunOf r.2.1).length = 2 := ⟨_, rfl, by decide, by decide⟩
  obtain ⟨⟨cd', tr', err'⟩, hrun', herr', hlen'⟩ := hrun'
  obtain rfl : err' = .success := herr'
  have hv : ∀ cb, Train.Starts (demoEnv1 cb) := fun _ => ⟨rfl, rfl, rfl, rfl, rfl, rfl⟩
  let w : World (deepWith ty tyo) := ⟨t, s, 0, 0, fun _ => 0⟩
  let w' : World (deepWith ty tyo) := ⟨t', s', 0, 0, fun _ => 0⟩
  obtain ⟨w1, hw1⟩ := whole_training_exists (P := deepWith ty tyo) q1 (hv _) hrun (by decide) (fun _ _ _ => rfl) (w := w) rfl ht1 ht2
  obtain ⟨w1', hw1'⟩ := whole_training_exists (P := deepWith ty tyo) p1 (hv _) hrun' (by decide) (fun _ _ _ => rfl) (w := w') rfl ht1' ht2'
  refine ⟨tr, tr', cd, cd', w, w1, w', w1', hrun, hrun', ht1, ht1', hw1, hw1', ?_⟩
  exact (order_of_features_in_whole_training (P := deepPlan) (fun id => deepOpt (ty id)) (deepOpt tyo) ty (fun _ => 9 / 10)
    (fun _ => 99 / 100) (fun _ => 0) tyo (9 / 10) (99 / 100) 0 (deepWith_ok ty tyo) (fun id => deepOpt_stays _) (deepOpt_stays _) (fun id => deepOpt_undropped _)
    (deepOpt_undropped _) deep_lowest (Equiv.swap 1 2) (swap_above (n := 5) (by decide) (by decide))
    (demoPlan_looks 1) ⟨q1, q2, q3, q4, q5, q6⟩ ⟨p1, p2, p3, p4, p5, p6⟩ ⟨rfl, fun r hr => ⟨fun j hj => demoTurned_feature _ _ (swap_above (n := 5) (by decide) (by decide)) r j hr hj,
      fun c hc => demoTurned_label _ _ (fun _ _ => rfl) r c hr hc⟩⟩ (hv _) (hv _) hrun hrun' rfl rfl
    (show 4 ≤ 4 by decide) (hlen.trans hlen'.symm) (w := w) (w' := w') rfl rfl ht1 ht1' hs hs' _ hh hh'
    (fun bs h L _ _ _ k _ => deepPlan_regular 1 (fun _ => feature _ k) (fun _ => label _ k) L 0 (by decide))
    (fun bs h L _ _ _ k _ => deepPlan_regular 1 (fun _ => feature _ k) (fun _ => label _ k) L 0 (by decide)) hw1 hw1').2

/-- C209 for the example: the same with the two classes in each other's place. -/
example (ty : ℕ → GradType) (tyo : GradType) :
    ∃ (tr tr' : List Train.Ev) (cd cd' : Train.CD) (w w1 w' w1' : World (deepWith ty tyo)),
    Train.train (Train.demoOpts [true, true] 0) (demoEnv1 fun _ => true) ⟨4, 4, 0, false⟩ = some (cd, tr, .success) ∧
    Train.train (Train.demoOpts [true, false, true] 0) (demoEnv1 fun e => e != 1) ⟨4, 4, 0, false⟩ = some (cd', tr', .success) ∧
    TrainData.Reach 1000 (demoReal 4) w.td ∧ TrainData.Reach 1000 (demoTurned 1 (Equiv.swap 0 1)) w'.td ∧
    Plays (deepWith ty tyo) 1000 tr w w1 ∧ Plays (deepWith ty tyo) 1000 tr' w' w1' ∧
    ∀ x, ∀ c < 2, deepPlan.shape.answer ((deepWith ty tyo).weights w1'.net) x c = deepPlan.shape.answer ((deepWith ty tyo).weights w1.net) x (Equiv.swap 0 1 c) := by
  obtain ⟨⟨t, ht1, ht2⟩, -⟩ := demoFull_prepared
  obtain ⟨t', ht1', ht2'⟩ := demoTurned_prepared 1 (Equiv.swap 0 1)
  obtain ⟨s, hs, hh⟩ := deepWith_state ty tyo
  obtain ⟨s', hs', hh'⟩ := deepWith_moved ty tyo 1 (Equiv.swap 0 1)
  rw [show (⟨fun _ => 1, fun k => if k = 0 then 1 else 1, Equiv.swap 0 1, 1⟩ : Relabel) = Relabel.outputs (Equiv.swap 0 1) from by
    unfold Relabel.outputs
    congr 1
    funext k
    exact ite_self _] at hh'
  obtain ⟨q1, q2, q3, q4, q5, q6⟩ := demoReal_suits 1 4 (by decide)
  obtain ⟨p1, p2, p3, p4, p5, p6⟩ := demoTurned_suits 1 (Equiv.swap 0 1) (by decide)
  have hrun : ∃ r, Train.train (Train.demoOpts [true, true] 0) (demoEnv1 fun _ => true) ⟨4, 4, 0, false⟩ = some r ∧ r.2.2 = .success ∧ (Train.begunOf r.2.1).length = 2 :=
    ⟨_, rfl, by decide, by decide⟩
  obtain ⟨⟨cd, tr, err⟩, hrun, herr, hlen⟩ := hrun
  obtain rfl : err = .success := herr
  have hrun' : ∃ r, Train.train (Train.demoOpts [true, false, true] 0) (demoEnv1 fun e => e != 1) ⟨4, 4, 0, false⟩ = some r ∧ r.2.2 = .success ∧
      (Train.begunOf r.2.1).length = 2 := ⟨_, rfl, by decide, by decide⟩
  obtain ⟨⟨cd', tr', err'⟩, hrun', herr', hlen'⟩ := hrun'
  obtain rfl : err' = .success := herr'
  have hv : ∀ cb, Train.Starts (demoEnv1 cb) := fun _ => ⟨rfl, rfl, rfl, rfl, rfl, rfl⟩
  let w : World (deepWith ty tyo) := ⟨t, s, 0, 0, fun _ => 0⟩
  let w' : World (deepWith ty tyo) := ⟨t', s', 0, 0, fun _ => 0⟩
  obtain ⟨w1, hw1⟩ := whole_training_exists (P := deepWith ty tyo) q1 (hv _) hrun (by decide) (fun _ _ _ => rfl) (w := w) rfl ht1 ht2
  obtain ⟨w1', hw1'⟩ := whole_training_exists (P := deepWith ty tyo) p1 (hv _) hrun' (by decide) (fun _ _ _ => rfl) (w := w') rfl ht1' ht2'
  refine ⟨tr, tr', cd, cd', w, w1, w', w1', hrun, hrun', ht1, ht1', hw1, hw1', ?_⟩
  exact (order_of_outputs_in_whole_training (P := deepPlan) (fun id => deepOpt (ty id)) (deepOpt tyo) ty (fun _ => 9 / 10)
    (fun _ => 99 / 100) (fun _ => 0) tyo (9 / 10) (99 / 100) 0 (deepWith_ok ty tyo) (fun id => deepOpt_stays _) (deepOpt_stays _) (fun id => deepOpt_undropped _)
    (deepOpt_undropped _) deep_fair (Equiv.swap 0 1) (swap_above (n := 2) (by decide) (by decide))
    (demoPlan_looks 1) ⟨q1, q2, q3, q4, q5, q6⟩ ⟨p1, p2, p3, p4, p5, p6⟩ ⟨rfl, fun r hr => ⟨fun j hj => demoTurned_feature _ _ (fun _ _ => rfl) r j hr hj,
      fun c hc => demoTurned_label _ _ (swap_above (n := 2) (by decide) (by decide)) r c hr hc⟩⟩ (hv _) (hv _) hrun hrun' rfl rfl
    (show 4 ≤ 4 by decide) (hlen.trans hlen'.symm) (w := w) (w' := w') rfl rfl ht1 ht1' hs hs' _ hh hh'
    (fun bs h L _ _ _ k _ => deepPlan_regular 1 (fun _ => feature _ k) (fun _ => label _ k) L 0 (by decide))
    (fun bs h L _ _ _ k _ => deepPlan_regular 1 (fun _ => feature _ k) (fun _ => label _ k) L 0 (by decide)) hw1 hw1').2

end Nntl.Sgd
