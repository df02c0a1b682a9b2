import Verif.Sgd.ShareProps
import Verif.Sgd.OrderCases

/-! C207: the hypotheses are met. -/
namespace Nntl.Sgd

open Nntl.Layers Nntl.Pass Nntl.Backprop Nntl.Grad Nntl.Matrix Nntl.Kernel
open Finset

/-- The two samples of `twoX`, each twice. -/
noncomputable def fourX : Mem ℝ := fun p => twoX (p % 4 % 2 + 2 * (p / 4))
noncomputable def fourY : Mem ℝ := fun p => twoY (p % 4 % 2 + 2 * (p / 4))

theorem even_odd : ∀ r < 2, ((range 4).filter fun q => q % 2 = r).card = 2 := by decide

theorem four_shares (S : Shape) : SameShares S (2, matOf 2 twoX, matOf 2 twoY) (4, matOf 4 fourX, matOf 4 fourY) := by
  refine repeated_shares (k := 2) (by decide) (by decide) rfl (f := fun q => q % 2) (fun r hr => ⟨Nat.mod_lt _ (by decide), fun j _ => ?_, fun c _ => ?_⟩) even_odd
  · have hr : r < 4 := hr
    show twoX ((r + 4 * j) % 4 % 2 + 2 * ((r + 4 * j) / 4)) = twoX (r % 2 + 2 * j)
    rw [show (r + 4 * j) % 4 = r from by omega, show (r + 4 * j) / 4 = j from by omega]
  · have hr : r < 4 := hr
    show twoY ((r + 4 * c) % 4 % 2 + 2 * ((r + 4 * c) / 4)) = twoY (r % 2 + 2 * c)
    rw [show (r + 4 * c) % 4 = r from by omega, show (r + 4 * c) / 4 = c from by omega]

theorem four_ones : Ones 4 5 fourX := fun r hr => by
  have h : ((r + 4 * 5) % 4 % 2 + 2 * ((r + 4 * 5) / 4)) / 2 = 5 := by omega
  simp only [fourX, twoX, h, if_true]

/-- C207 for the example: two training steps on two samples, and on the same samples, each twice, with any methods in the layers. -/
example (ty : ℕ → GradType) (tyo : GradType) : ∃ s : NetS (demoWith ty tyo).net, (demoWith ty tyo).Inv s ∧
    demoPart.shape.Same
      ((demoWith ty tyo).weights ((demoWith ty tyo).net.run s [.train 2 twoX twoY, .eval 2 twoX, .train 2 twoX twoY]))
      ((demoWith ty tyo).weights ((demoWith ty tyo).net.run s [.train 4 fourX fourY, .train 4 fourX fourY])) := by
  obtain ⟨s, hi, hh⟩ := demoWith_state ty tyo fun t => decide (t = 5)
  have f1 : (demoWith ty tyo).Fits (.train 2 twoX twoY) := ⟨by decide, show 2 ≤ 4 by decide, two_ones.1⟩
  have f2 : (demoWith ty tyo).Fits (.train 4 fourX fourY) := ⟨by decide, show 4 ≤ 4 by decide, four_ones⟩
  have f3 : (demoWith ty tyo).Fits (.eval 2 twoX) := ⟨by decide, show 2 ≤ 8 by decide, two_ones.1⟩
  have r0 := four_shares demoPart.shape
  refine ⟨s, hi, only_shares_in_batches_matter (P := demoPart) (fun id => demoEvery (ty id)) (demoEvery tyo) ty (fun _ => 9 / 10)
    (fun _ => 99 / 100) (fun _ => 0) tyo (9 / 10) (99 / 100) 0 (demoWith_ok ty tyo _) (fun id => demoEvery_stays _ _) (demoEvery_stays _ _) (demoPlan_looks 1)
    [.train 2 twoX twoY, .eval 2 twoX, .train 2 twoX twoY] [.train 4 fourX fourY, .train 4 fourX fourY]
    (.cons r0 (.cons r0 .nil)) s s hi hi ?_ ?_
    (fun _ _ _ _ _ _ => demoPlan_regular 1 _ _ _ _) (fun _ _ _ _ _ _ => demoPlan_regular 1 _ _ _ _) _ hh hh⟩
  · intro u hu
    simp only [List.mem_cons, List.not_mem_nil, or_false] at hu
    rcases hu with rfl | rfl | rfl
    exacts [f1, f3, f1]
  · intro u hu
    simp only [List.mem_cons, List.not_mem_nil, or_false] at hu
    rcases hu with rfl | rfl
    exacts [f2, f2]

/-- The training set of `demoReal 2` with each sample twice. -/
noncomputable def demoTwice : TrainData.Data ℝ ℝ where
  X := fun s => match s with
    | .train => { (demoReal 2).X .train with data := fun k => ((demoReal 2).X .train).data (k % 4 % 2 + 2 * (k / 4)), cap := 24, rows := 4, maxSize := 24 }
    | .test => (demoReal 2).X .test
  Y := fun s => match s with
    | .train => { (demoReal 2).Y .train with data := fun k => ((demoReal 2).Y .train).data (k % 4 % 2 + 2 * (k / 4)), cap := 8, rows := 4, maxSize := 8 }
    | .test => (demoReal 2).Y .test

theorem demoTwice_suits (lr : ℝ) : Suits demoTwice (demoPlan lr) where
  ok := {
    birX := by intro s; cases s <;> rfl
    birY := by intro s; cases s <;> rfl
    widthX := by intro s; cases s <;> rfl
    widthY := by intro s; cases s <;> rfl
    posX := Nat.succ_pos 4
    posY := Nat.succ_pos 1
    count := by intro s; cases s; exacts [Nat.succ_pos 3, Nat.succ_pos 1]
    same := by intro s; cases s <;> rfl
    emulX := by intro s; cases s <;> rfl
    emulY := by intro s; cases s <;> rfl
    storX := by intro s; cases s <;> exact Nat.le_refl _
    storY := by intro s; cases s <;> exact Nat.le_refl _ }
  rowsX := rfl
  rowsY := rfl
  ones := by
    intro _ r c hr hc hb
    have hr : r < 4 := hr
    have hc : c < 6 := hc
    obtain ⟨_, hb⟩ := hb
    have hb : c + 1 = 6 := hb
    obtain rfl : c = 5 := by omega
    unfold Mtx.get
    rw [if_pos ⟨hr, hc⟩]
    show some (if (r + 4 * 5) % 4 % 2 + 2 * ((r + 4 * 5) / 4) < 2 * 5 then _ else _) = _
    rw [if_neg (by omega)]
  inputs := rfl
  outputs := rfl

theorem demoTwice_shares (lr : ℝ) : SameShares (demoPlan lr).shape (2, feature (demoReal 2), label (demoReal 2)) (4, feature demoTwice, label demoTwice) := by
  refine repeated_shares (k := 2) (by decide) (by decide) rfl (f := fun q => q % 2) (fun r hr => ⟨Nat.mod_lt _ (by decide), fun j hj => ?_, fun c hc => ?_⟩) even_odd
  · have hr : r < 4 := hr
    have hj : j < 5 := hj
    have h1 : feature demoTwice r j = ((demoReal 2).X .train).data ((r + 4 * j) % 4 % 2 + 2 * ((r + 4 * j) / 4)) := by
      show (Option.getD (if r < 4 ∧ j < 6 then some _ else none) 0) = _
      rw [if_pos ⟨hr, by omega⟩]
      rfl
    have h2 : feature (demoReal 2) (r % 2) j = ((demoReal 2).X .train).data (r % 2 + 2 * j) := by
      show (Option.getD (if r % 2 < 2 ∧ j < 6 then some _ else none) 0) = _
      rw [if_pos ⟨by omega, by omega⟩]
      rfl
    show feature demoTwice r j = feature (demoReal 2) (r % 2) j
    rw [h1, h2, show (r + 4 * j) % 4 = r from by omega, show (r + 4 * j) / 4 = j from by omega]
  · have hr : r < 4 := hr
    have hc : c < 2 := hc
    have h1 : label demoTwice r c = ((demoReal 2).Y .train).data ((r + 4 * c) % 4 % 2 + 2 * ((r + 4 * c) / 4)) := by
      show (Option.getD (if r < 4 ∧ c < 2 then some _ else none) 0) = _
      rw [if_pos ⟨hr, hc⟩]
      rfl
    have h2 : label (demoReal 2) (r % 2) c = ((demoReal 2).Y .train).data (r % 2 + 2 * c) := by
      show (Option.getD (if r % 2 < 2 ∧ c < 2 then some _ else none) 0) = _
      rw [if_pos ⟨by omega, hc⟩]
      rfl
    show label demoTwice r c = label (demoReal 2) (r % 2) c
    rw [h1, h2, show (r + 4 * c) % 4 = r from by omega, show (r + 4 * c) / 4 = c from by omega]

/-- The data objects after `init4train` for batches of all samples. -/
theorem demoTwice_prepared : (∃ t, TrainData.Reach 1000 (demoReal 2) t ∧ Prepared (demoReal 2) 2 t) ∧ ∃ t, TrainData.Reach 1000 demoTwice t ∧ Prepared demoTwice 4 t := by
  refine ⟨?_, ?_⟩
  · have h : (TrainData.init4train 1000 (TrainData.fresh (demoReal 2) (fun _ => 0) fun _ => 0) 0 2 ⟨fun _ => 0, fun _ => 0, true, true, true⟩).map
        (fun r => r.t.maxTrain) = some 2 := by rfl
    cases hi : TrainData.init4train 1000 (TrainData.fresh (demoReal 2) (fun _ => 0) fun _ => 0) 0 2 ⟨fun _ => 0, fun _ => 0, true, true, true⟩ with
    | none => rw [hi] at h; simp at h
    | some r =>
      rw [hi] at h
      simp only [Option.map_some, Option.some.injEq] at h
      exact ⟨r.t, (TrainData.Reach.fresh _ _).step (.train _ _ _ _ _ hi), by rw [h], fun _ => rfl⟩
  · have h : (TrainData.init4train 1000 (TrainData.fresh demoTwice (fun _ => 0) fun _ => 0) 0 4 ⟨fun _ => 0, fun _ => 0, true, true, true⟩).map
        (fun r => r.t.maxTrain) = some 4 := by rfl
    cases hi : TrainData.init4train 1000 (TrainData.fresh demoTwice (fun _ => 0) fun _ => 0) 0 4 ⟨fun _ => 0, fun _ => 0, true, true, true⟩ with
    | none => rw [hi] at h; simp at h
    | some r =>
      rw [hi] at h
      simp only [Option.map_some, Option.some.injEq] at h
      exact ⟨r.t, (TrainData.Reach.fresh _ _).step (.train _ _ _ _ _ hi), by rw [h], fun _ => rfl⟩

/-- C207 for the example: two epochs on two samples as one batch, and three configured epochs on the samples repeated twice, where the callback stops training
after the second one. There are such trainings, and the weights at the end are the same. -/
example (ty : ℕ → GradType) (tyo : GradType) :
    ∃ (tr tr' : List Train.Ev) (cd cd' : Train.CD) (w w1 w' w1' : World (demoWith ty tyo)),
    Train.train (Train.demoOpts [true, true] 0) (demoEnv1 fun _ => true) ⟨2, 2, 0, false⟩ = some (cd, tr, .success) ∧
    Train.train (Train.demoOpts [true, false, true] 0) (demoEnv1 fun e => e != 1) ⟨4, 4, 0, false⟩ = some (cd', tr', .success) ∧
    TrainData.Reach 1000 (demoReal 2) w.td ∧ TrainData.Reach 1000 demoTwice w'.td ∧
    Plays (demoWith ty tyo) 1000 tr w w1 ∧ Plays (demoWith ty tyo) 1000 tr' w' w1' ∧
    demoPart.shape.Same ((demoWith ty tyo).weights w1.net) ((demoWith ty tyo).weights w1'.net) := by
  obtain ⟨⟨t, ht1, ht2⟩, t', ht1', ht2'⟩ := demoTwice_prepared
  obtain ⟨s, hs, hh⟩ := demoWith_state ty tyo fun t => decide (t = 5)
  obtain ⟨q1, q2, q3, q4, q5, q6⟩ := demoReal_suits 1 2 (by decide)
  obtain ⟨p1, p2, p3, p4, p5, p6⟩ := demoTwice_suits 1
  have hrun : ∃ r, Train.train (Train.demoOpts [true, true] 0) (demoEnv1 fun _ => true) ⟨2, 2, 0, false⟩ = some r ∧ r.2.2 = .success ∧ (Train.begunOf r.2.1).length = 2 :=
    ⟨_, rfl, by decide, by decide⟩
  obtain ⟨⟨cd, tr, err⟩, hrun, herr, hlen⟩ := hrun
  obtain rfl : err = .success := herr
  have hrun' : ∃ r, Train.train (Train.demoOpts [true, false, true] 0) (demoEnv1 fun e => e != 1) ⟨4, 4, 0, false⟩ = some r ∧ r.2.2 = .success ∧
      (Train.begunOf r.2.1).length = 2 := ⟨_, rfl, by decide, by decide⟩
  obtain ⟨⟨cd', tr', err'⟩, hrun', herr', hlen'⟩ := hrun'
  obtain rfl : err' = .success := herr'
  have hv : ∀ cb, Train.Starts (demoEnv1 cb) := fun _ => ⟨rfl, rfl, rfl, rfl, rfl, rfl⟩
  let w : World (demoWith ty tyo) := ⟨t, s, 0, 0, fun _ => 0⟩
  let w' : World (demoWith ty tyo) := ⟨t', s, 0, 0, fun _ => 0⟩
  obtain ⟨w1, hw1⟩ := whole_training_exists (P := demoWith ty tyo) q1 (hv _) hrun (by decide) (fun _ _ _ => rfl) (w := w) rfl ht1 ht2
  obtain ⟨w1', hw1'⟩ := whole_training_exists (P := demoWith ty tyo) p1 (hv _) hrun' (by decide) (fun _ _ _ => rfl) (w := w') rfl ht1' ht2'
  refine ⟨tr, tr', cd, cd', w, w1, w', w1', hrun, hrun', ht1, ht1', hw1, hw1', ?_⟩
  exact (full_batch_training_sees_shares_only (P := demoPart) (fun id => demoEvery (ty id)) (demoEvery tyo) ty (fun _ => 9 / 10)
    (fun _ => 99 / 100) (fun _ => 0) tyo (9 / 10) (99 / 100) 0 (demoWith_ok ty tyo _) (fun id => demoEvery_stays _ _) (demoEvery_stays _ _)
    (demoPlan_looks 1) ⟨q1, q2, q3, q4, q5, q6⟩ ⟨p1, p2, p3, p4, p5, p6⟩ (demoTwice_shares 1) (hv _) (hv _) hrun hrun' rfl rfl (show 2 ≤ 4 by decide) (show 4 ≤ 4 by decide)
    (hlen.trans hlen'.symm) (w := w) (w' := w') rfl rfl ht1 ht1' hs hs _ hh hh
    (fun bs h L _ _ _ k _ => demoPlan_regular 1 1 (fun _ => feature _ k) (fun _ => label _ k) L 0 (by decide))
    (fun bs h L _ _ _ k _ => demoPlan_regular 1 1 (fun _ => feature _ k) (fun _ => label _ k) L 0 (by decide)) hw1 hw1').1

end Nntl.Sgd
