import Verif.Sgd.UnseenCases

/-! C210: the hypotheses for whole trainings are met. -/
namespace Nntl.Sgd

open Nntl.Layers Nntl.Pass Nntl.Backprop Nntl.Grad Nntl.Matrix Nntl.Kernel
open Finset

/-- The training set of `demoReal 4` with zeros as the fourth feature. -/
noncomputable def demoZero : TrainData.Data ℝ ℝ where
  X := fun s => match s with
    | .train => { (demoReal 4).X .train with data := fun k => if k / 4 = 3 then 0 else ((demoReal 4).X .train).data k }
    | .test => (demoReal 4).X .test
  Y := (demoReal 4).Y

theorem demoZero_suits : Suits demoZero (demoPlan 1) where
  ok := {
    birX := by intro s; cases s <;> rfl
    birY := by intro s; cases s <;> rfl
    widthX := by intro s; cases s <;> rfl
    widthY := by intro s; cases s <;> rfl
    posX := Nat.succ_pos 4
    posY := Nat.succ_pos 1
    count := by intro s; cases s; exacts [Nat.succ_pos 3, Nat.succ_pos 1]
    same := by intro s; cases s <;> rfl
    emulX := by intro s; cases s <;> rfl
    emulY := by intro s; cases s <;> rfl
    storX := by intro s; cases s <;> exact Nat.le_refl _
    storY := by intro s; cases s <;> exact Nat.le_refl _ }
  rowsX := rfl
  rowsY := rfl
  ones := by
    intro _ r c hr hc hb
    have hr : r < 4 := hr
    have hc : c < 6 := hc
    obtain ⟨_, hb⟩ := hb
    have hb : c + 1 = 6 := hb
    obtain rfl : c = 5 := by omega
    unfold Mtx.get
    rw [if_pos ⟨hr, hc⟩]
    show some (if (r + 4 * 5) / 4 = 3 then (0 : ℝ) else if r + 4 * 5 < 4 * 5 then ((r + 4 * 5 : ℕ) : ℝ) / 10 else 1) = some 1
    rw [if_neg (by omega), if_neg (by omega)]
  inputs := rfl
  outputs := rfl

theorem demoZero_feature (r : ℕ) (hr : r < 4) : feature demoZero r 3 = 0 := by
  have h1 : ∀ j < 6, feature demoZero r j = (demoZero.X .train).data (r + 4 * j) := fun j hj => by
    have h : (if r < 4 ∧ j < 6 then some ((demoZero.X .train).data (r + 4 * j)) else none) = some ((demoZero.X .train).data (r + 4 * j)) := if_pos ⟨hr, hj⟩
    exact congrArg (fun o => Option.getD o 0) h
  rw [h1 3 (by decide)]
  exact if_pos (show (r + 4 * 3) / 4 = 3 by omega)

theorem demoZero_prepared : ∃ t, TrainData.Reach 1000 demoZero t ∧ Prepared demoZero 4 t := by
  have h : (TrainData.init4train 1000 (TrainData.fresh demoZero (fun _ => 0) fun _ => 0) 0 4 ⟨fun _ => 0, fun _ => 0, true, true, true⟩).map
      (fun r => r.t.maxTrain) = some 4 := by rfl
  cases hi : TrainData.init4train 1000 (TrainData.fresh demoZero (fun _ => 0) fun _ => 0) 0 4 ⟨fun _ => 0, fun _ => 0, true, true, true⟩ with
  | none => rw [hi] at h; simp at h
  | some r =>
    rw [hi] at h
    simp only [Option.map_some, Option.some.injEq] at h
    exact ⟨r.t, (TrainData.Reach.fresh _ _).step (.train _ _ _ _ _ hi), by rw [h], fun _ => rfl⟩

/-- C210 for the example: whole calls of `train()`. -/
theorem rest_keeps_in_training (ty : ℕ → GradType) (tyo : GradType) (v : ℕ → ℝ) (tr : List Train.Ev) (cd cd' : Train.CD) (opts : Train.Opts (Option ℤ)) (en : Train.Env (Option ℤ))
    (hv : Train.Starts en) (hrun : Train.train opts en cd = some (cd', tr, .success)) (hbs : cd.trainBs ≤ 4) (w w' : World (restWith ty tyo)) (hcu : w.cur = cd.cur)
    (ht : TrainData.Reach 1000 demoZero w.td) (hi : (restWith ty tyo).Inv w.net)
    (hh : (restWith ty tyo).Stores (fun id m k => stands m k (ty id) (9 / 10) (99 / 100) 0) (stands 2 (deepTree.neurons + 1) tyo (9 / 10) (99 / 100) 0)
      ((restWith ty tyo).cells w.net) ⟨twinStock.W.withFeature 3 v, twinStock.body, twinStock.out⟩)
    (hP : Plays (restWith ty tyo) 1000 tr w w') (c : ℕ) (hc : c < 7) :
    ((restWith ty tyo).weights w'.net).body 0 c 3 = ((restWith ty tyo).weights w.net).body 0 c 3 := by
  obtain ⟨p1, p2, p3, p4, p5, p6⟩ := demoZero_suits
  exact unseen_features_in_whole_training (P := deepPlan) (restOf ty) (deepOpt tyo) ty (fun _ => 9 / 10) (fun _ => 99 / 100) (fun _ => 0) tyo (9 / 10) (99 / 100) 0
    (restWith_ok ty tyo) (restOf_stays ty) (deepOpt_stays _) (demoPlan_looks 1) ⟨p1, p2, p3, p4, p5, p6⟩ hv hrun hbs hcu ht hi
    ⟨twinStock.W.withFeature 3 v, twinStock.body, twinStock.out⟩ hh
    (fun bs h L _ _ _ k _ => deepPlan_regular 1 (fun _ => feature _ k) (fun _ => label _ k) L 0 (by decide)) hP deep_first (c := c) (j := 3) hc
    (show 3 < 5 by decide) (fun k hk => demoZero_feature k hk) ⟨rfl, rfl⟩ (.inl (restOpt_unpushed (ty 4)))

example (ty : ℕ → GradType) (tyo : GradType) (v : ℕ → ℝ) : ∃ (tr : List Train.Ev) (cd : Train.CD) (w w' : World (restWith ty tyo)),
    Train.train (Train.demoOpts [true, true] 0) (demoEnv1 fun _ => true) ⟨4, 4, 0, false⟩ = some (cd, tr, .success) ∧ Plays (restWith ty tyo) 1000 tr w w' ∧ ∀ c < 7,
    ((restWith ty tyo).weights w'.net).body 0 c 3 = ((restWith ty tyo).weights w.net).body 0 c 3 := by
  obtain ⟨t, ht1, ht2⟩ := demoZero_prepared
  obtain ⟨s, hs, hh⟩ := restWith_state ty tyo v
  have hrun : ∃ r, Train.train (Train.demoOpts [true, true] 0) (demoEnv1 fun _ => true) ⟨4, 4, 0, false⟩ = some r ∧ r.2.2 = .success := ⟨_, rfl, by decide⟩
  obtain ⟨⟨cd, tr, err⟩, hrun, herr⟩ := hrun
  obtain rfl : err = .success := herr
  have hv : Train.Starts (demoEnv1 fun _ => true) := ⟨rfl, rfl, rfl, rfl, rfl, rfl⟩
  obtain ⟨w', hw'⟩ := whole_training_exists (P := restWith ty tyo) demoZero_suits.ok hv hrun (by decide) (fun _ _ _ => rfl) (w := ⟨t, s, 0, 0, fun _ => 0⟩) rfl ht1 ht2
  exact ⟨tr, cd, _, w', hrun, hw', rest_keeps_in_training ty tyo v tr _ cd _ _ hv hrun (by decide) _ w' rfl ht1 hs hh hw'⟩

end Nntl.Sgd
