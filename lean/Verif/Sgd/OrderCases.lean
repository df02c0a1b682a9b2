import Verif.Sgd.OrderProps
import Verif.Sgd.MatCases

/-! C203, C204: the hypotheses are met. -/
namespace Nntl.Sgd

open Nntl.Layers Nntl.Pass Nntl.Backprop Nntl.Grad Nntl.Matrix Nntl.Kernel
open Finset

/-- Two samples of five features, with the bias column; the same in the other order; expected answers. -/
noncomputable def twoX : Mem ℝ := fun p => if p / 2 = 5 then 1 else (p : ℝ) / 10
noncomputable def twoX' : Mem ℝ := fun p => if p / 2 = 5 then 1 else if p % 2 = 0 then ((p + 1 : ℕ) : ℝ) / 10 else ((p - 1 : ℕ) : ℝ) / 10
noncomputable def twoY : Mem ℝ := fun p => if p = 0 then 1 else 0
noncomputable def twoY' : Mem ℝ := fun p => if p = 1 then 1 else 0

theorem two_reordered (S : Shape) (hi : S.inputs = 5) (ho : S.outputs = 2) : Reordered S (2, matOf 2 twoX, matOf 2 twoY) (2, matOf 2 twoX', matOf 2 twoY') := by
  refine ⟨rfl, fun r => 1 - r, fun r hr => ?_, fun r hr q hq e => ?_, fun r hr => ⟨fun j hj => ?_, fun c hc => ?_⟩⟩
  · show 1 - r < 2
    omega
  · have hr : r < 2 := hr
    have hq : q < 2 := hq
    have e : 1 - r = 1 - q := e
    omega
  · have hr : r < 2 := hr
    rw [hi] at hj
    show twoX' (r + 2 * j) = twoX (1 - r + 2 * j)
    unfold twoX twoX'
    have h1 : ¬(r + 2 * j) / 2 = 5 := by omega
    have h2 : ¬(1 - r + 2 * j) / 2 = 5 := by omega
    rw [if_neg h1, if_neg h2]
    obtain rfl | rfl : r = 0 ∨ r = 1 := by omega
    · have h3 : (0 + 2 * j) % 2 = 0 := by omega
      rw [if_pos h3, show 0 + 2 * j + 1 = 1 - 0 + 2 * j from by omega]
    · have h3 : ¬(1 + 2 * j) % 2 = 0 := by omega
      rw [if_neg h3, show 1 + 2 * j - 1 = 1 - 1 + 2 * j from by omega]
  · have hr : r < 2 := hr
    rw [ho] at hc
    show twoY' (r + 2 * c) = twoY (1 - r + 2 * c)
    unfold twoY twoY'
    by_cases h : r + 2 * c = 1
    · rw [if_pos h, if_pos (by omega)]
    · rw [if_neg h, if_neg (by omega)]

theorem two_ones : Ones 2 5 twoX ∧ Ones 2 5 twoX' := by
  refine ⟨fun r hr => ?_, fun r hr => ?_⟩ <;>
  · have h : (r + 2 * 5) / 2 = 5 := by omega
    simp only [twoX, twoX', h, if_true]

/-- C203 for the example: three training steps, with samples in one order and in the other, with any methods in the layers; one of the networks is evaluated in between. -/
example (ty : ℕ → GradType) (tyo : GradType) : ∃ s : NetS (demoWith ty tyo).net, (demoWith ty tyo).Inv s ∧
    demoPart.shape.Same
      ((demoWith ty tyo).weights ((demoWith ty tyo).net.run s [.train 2 twoX twoY, .eval 2 twoX, .train 2 twoX twoY, .train 2 twoX' twoY']))
      ((demoWith ty tyo).weights ((demoWith ty tyo).net.run s [.train 2 twoX' twoY', .train 2 twoX' twoY', .train 2 twoX' twoY'])) := by
  obtain ⟨s, hi, hh⟩ := demoWith_state ty tyo fun t => decide (t = 5)
  have f1 : ∀ Y, (demoWith ty tyo).Fits (.train 2 twoX Y) := fun _ => ⟨by decide, show 2 ≤ 4 by decide, two_ones.1⟩
  have f2 : ∀ Y, (demoWith ty tyo).Fits (.train 2 twoX' Y) := fun _ => ⟨by decide, show 2 ≤ 4 by decide, two_ones.2⟩
  have f3 : (demoWith ty tyo).Fits (.eval 2 twoX) := ⟨by decide, show 2 ≤ 8 by decide, two_ones.1⟩
  have r0 := two_reordered demoPart.shape rfl rfl
  refine ⟨s, hi, order_in_batches_is_irrelevant (P := demoPart) (fun id => demoEvery (ty id)) (demoEvery tyo) ty (fun _ => 9 / 10)
    (fun _ => 99 / 100) (fun _ => 0) tyo (9 / 10) (99 / 100) 0 (demoWith_ok ty tyo _) (fun id => demoEvery_stays _ _) (demoEvery_stays _ _) (demoPlan_looks 1)
    [.train 2 twoX twoY, .eval 2 twoX, .train 2 twoX twoY, .train 2 twoX' twoY'] [.train 2 twoX' twoY', .train 2 twoX' twoY', .train 2 twoX' twoY']
    (.cons r0 (.cons r0 (.cons ⟨rfl, id, fun _ h => h, fun _ _ _ _ h => h, fun _ _ => ⟨fun _ _ => rfl, fun _ _ => rfl⟩⟩ .nil))) s s hi hi ?_ ?_
    (fun _ _ _ _ _ _ => demoPlan_regular 1 _ _ _ _) (fun _ _ _ _ _ _ => demoPlan_regular 1 _ _ _ _) _ hh hh⟩
  · intro u hu
    simp only [List.mem_cons, List.not_mem_nil, or_false] at hu
    rcases hu with rfl | rfl | rfl | rfl
    exacts [f1 _, f3, f1 _, f2 _]
  · intro u hu
    simp only [List.mem_cons, List.not_mem_nil, or_false] at hu
    rcases hu with rfl | rfl | rfl
    exacts [f2 _, f2 _, f2 _]

/-- C204 for the example: a step on two samples is the mean of two steps on one sample. -/
example (lr : ℝ) : ∃ s : NetS (demoPlan lr).net, (demoPlan lr).Inv s ∧ ∀ c < 2, ∀ j < demoTree.neurons + 1,
    ((demoPlan lr).weights ((demoPlan lr).net.run s [.train 2 twoX twoY])).out c j =
      (∑ r ∈ range 2, ((demoPlan lr).weights ((demoPlan lr).net.run s [.train 1 (fun j => twoX (r + 2 * j)) fun c => twoY (r + 2 * c)])).out c j) / (2 : ℕ) := by
  obtain ⟨s, hi⟩ := demoPlan_state lr
  refine ⟨s, hi, (batch_step_is_mean_of_single_steps (demoPlan_ok lr) (demoPlan_plain lr) (demoPlan_looks lr) s hi 2 twoX twoY
    ⟨by decide, show 2 ≤ 4 by decide, two_ones.1⟩ (demoPlan_regular lr _ _ _ _) (fun r j => twoX (r + 2 * j)) (fun r c => twoY (r + 2 * c))
    (fun r hr => ⟨by decide, show 1 ≤ 4 by decide, fun q hq => ?_⟩) (fun r _ j _ => ?_) fun r _ c _ => ?_).2⟩
  · obtain rfl : q = 0 := by omega
    have := two_ones.1 r hr
    show twoX (r + 2 * (0 + 1 * 5)) = 1
    rw [show r + 2 * (0 + 1 * 5) = r + 2 * 5 from rfl]
    exact this
  · show twoX (r + 2 * (0 + 1 * j)) = twoX (r + 2 * j)
    rw [zero_add, one_mul]
  · show twoY (r + 2 * (0 + 1 * c)) = twoY (r + 2 * c)
    rw [zero_add, one_mul]

/-- The training set of `demoReal 4` with the samples in the opposite order. -/
noncomputable def demoBack : TrainData.Data ℝ ℝ where
  X := fun s => match s with
    | .train => { (demoReal 4).X .train with data := fun k => ((demoReal 4).X .train).data (3 - k % 4 + 4 * (k / 4)) }
    | .test => (demoReal 4).X .test
  Y := fun s => match s with
    | .train => { (demoReal 4).Y .train with data := fun k => ((demoReal 4).Y .train).data (3 - k % 4 + 4 * (k / 4)) }
    | .test => (demoReal 4).Y .test

theorem demoBack_suits (lr : ℝ) : Suits demoBack (demoPlan lr) where
  ok := {
    birX := by intro s; cases s <;> rfl
    birY := by intro s; cases s <;> rfl
    widthX := by intro s; cases s <;> rfl
    widthY := by intro s; cases s <;> rfl
    posX := Nat.succ_pos 4
    posY := Nat.succ_pos 1
    count := by intro s; cases s; exacts [Nat.succ_pos 3, Nat.succ_pos 1]
    same := by intro s; cases s <;> rfl
    emulX := by intro s; cases s <;> rfl
    emulY := by intro s; cases s <;> rfl
    storX := by intro s; cases s <;> exact Nat.le_refl _
    storY := by intro s; cases s <;> exact Nat.le_refl _ }
  rowsX := rfl
  rowsY := rfl
  ones := by
    intro _ r c hr hc hb
    have hr : r < 4 := hr
    have hc : c < 6 := hc
    obtain ⟨_, hb⟩ := hb
    have hb : c + 1 = 6 := hb
    obtain rfl : c = 5 := by omega
    unfold Mtx.get
    rw [if_pos ⟨hr, hc⟩]
    show some (if 3 - (r + 4 * 5) % 4 + 4 * ((r + 4 * 5) / 4) < 4 * 5 then _ else _) = _
    rw [if_neg (by omega)]
  inputs := rfl
  outputs := rfl

theorem demoBack_reordered (lr : ℝ) : Reordered (demoPlan lr).shape (4, feature (demoReal 4), label (demoReal 4)) (4, feature demoBack, label demoBack) := by
  refine ⟨rfl, fun r => 3 - r, fun r hr => ?_, fun r hr q hq e => ?_, fun r hr => ⟨fun j hj => ?_, fun c hc => ?_⟩⟩
  · show 3 - r < 4
    omega
  · have hr : r < 4 := hr
    have hq : q < 4 := hq
    have e : 3 - r = 3 - q := e
    omega
  · have hr : r < 4 := hr
    have hj : j < 5 := hj
    have h1 : feature demoBack r j = ((demoReal 4).X .train).data (3 - (r + 4 * j) % 4 + 4 * ((r + 4 * j) / 4)) := by
      show (Option.getD (if r < 4 ∧ j < 6 then some _ else none) 0) = _
      rw [if_pos ⟨hr, by omega⟩]
      rfl
    have h2 : feature (demoReal 4) (3 - r) j = ((demoReal 4).X .train).data (3 - r + 4 * j) := by
      show (Option.getD (if 3 - r < 4 ∧ j < 6 then some _ else none) 0) = _
      rw [if_pos ⟨by omega, by omega⟩]
      rfl
    show feature demoBack r j = feature (demoReal 4) (3 - r) j
    rw [h1, h2, show 3 - (r + 4 * j) % 4 + 4 * ((r + 4 * j) / 4) = 3 - r + 4 * j from by omega]
  · have hr : r < 4 := hr
    have hc : c < 2 := hc
    have h1 : label demoBack r c = ((demoReal 4).Y .train).data (3 - (r + 4 * c) % 4 + 4 * ((r + 4 * c) / 4)) := by
      show (Option.getD (if r < 4 ∧ c < 2 then some _ else none) 0) = _
      rw [if_pos ⟨hr, hc⟩]
      rfl
    have h2 : label (demoReal 4) (3 - r) c = ((demoReal 4).Y .train).data (3 - r + 4 * c) := by
      show (Option.getD (if 3 - r < 4 ∧ c < 2 then some _ else none) 0) = _
      rw [if_pos ⟨by omega, hc⟩]
      rfl
    show label demoBack r c = label (demoReal 4) (3 - r) c
    rw [h1, h2, show 3 - (r + 4 * c) % 4 + 4 * ((r + 4 * c) / 4) = 3 - r + 4 * c from by omega]

/-- The data objects after `init4train` for batches of all samples. -/
theorem demoFull_prepared : (∃ t, TrainData.Reach 1000 (demoReal 4) t ∧ Prepared (demoReal 4) 4 t) ∧ ∃ t, TrainData.Reach 1000 demoBack t ∧ Prepared demoBack 4 t := by
  refine ⟨?_, ?_⟩
  · have h : (TrainData.init4train 1000 (TrainData.fresh (demoReal 4) (fun _ => 0) fun _ => 0) 0 4 ⟨fun _ => 0, fun _ => 0, true, true, true⟩).map
        (fun r => r.t.maxTrain) = some 4 := by rfl
    cases hi : TrainData.init4train 1000 (TrainData.fresh (demoReal 4) (fun _ => 0) fun _ => 0) 0 4 ⟨fun _ => 0, fun _ => 0, true, true, true⟩ with
    | none => rw [hi] at h; simp at h
    | some r =>
      rw [hi] at h
      simp only [Option.map_some, Option.some.injEq] at h
      exact ⟨r.t, (TrainData.Reach.fresh _ _).step (.train _ _ _ _ _ hi), by rw [h], fun _ => rfl⟩
  · have h : (TrainData.init4train 1000 (TrainData.fresh demoBack (fun _ => 0) fun _ => 0) 0 4 ⟨fun _ => 0, fun _ => 0, true, true, true⟩).map
        (fun r => r.t.maxTrain) = some 4 := by rfl
    cases hi : TrainData.init4train 1000 (TrainData.fresh demoBack (fun _ => 0) fun _ => 0) 0 4 ⟨fun _ => 0, fun _ => 0, true, true, true⟩ with
    | none => rw [hi] at h; simp at h
    | some r =>
      rw [hi] at h
      simp only [Option.map_some, Option.some.injEq] at h
      exact ⟨r.t, (TrainData.Reach.fresh _ _).step (.train _ _ _ _ _ hi), by rw [h], fun _ => rfl⟩

/-- One batch in an epoch. -/
def demoEnv1 (cb : ℕ → Bool) : Train.Env (Option ℤ) := { Train.demoEnv (fun _ => some 1) cb with batches := fun _ _ => 1 }

/-- C203 for the example: two epochs on four samples as one batch, and three configured epochs on the samples in the opposite order, where the callback stops training
after the second one. There are such trainings, and the weights at the end are the same. -/
example (ty : ℕ → GradType) (tyo : GradType) :
    ∃ (tr tr' : List Train.Ev) (cd cd' : Train.CD) (w w1 w' w1' : World (demoWith ty tyo)),
    Train.train (Train.demoOpts [true, true] 0) (demoEnv1 fun _ => true) ⟨4, 4, 0, false⟩ = some (cd, tr, .success) ∧
    Train.train (Train.demoOpts [true, false, true] 0) (demoEnv1 fun e => e != 1) ⟨4, 4, 0, false⟩ = some (cd', tr', .success) ∧
    TrainData.Reach 1000 (demoReal 4) w.td ∧ TrainData.Reach 1000 demoBack w'.td ∧
    Plays (demoWith ty tyo) 1000 tr w w1 ∧ Plays (demoWith ty tyo) 1000 tr' w' w1' ∧
    demoPart.shape.Same ((demoWith ty tyo).weights w1.net) ((demoWith ty tyo).weights w1'.net) := by
  obtain ⟨⟨t, ht1, ht2⟩, t', ht1', ht2'⟩ := demoFull_prepared
  obtain ⟨s, hs, hh⟩ := demoWith_state ty tyo fun t => decide (t = 5)
  obtain ⟨q1, q2, q3, q4, q5, q6⟩ := demoReal_suits 1 4 (by decide)
  obtain ⟨p1, p2, p3, p4, p5, p6⟩ := demoBack_suits 1
  have hrun : ∃ r, Train.train (Train.demoOpts [true, true] 0) (demoEnv1 fun _ => true) ⟨4, 4, 0, false⟩ = some r ∧ r.2.2 = .success ∧ (Train.begunOf r.2.1).length = 2 :=
    ⟨_, rfl, by decide, by decide⟩
  obtain ⟨⟨cd, tr, err⟩, hrun, herr, hlen⟩ := hrun
  obtain rfl : err = .success := herr
  have hrun' : ∃ r, Train.train (Train.demoOpts [true, false, true] 0) (demoEnv1 fun e => e != 1) ⟨4, 4, 0, false⟩ = some r ∧ r.2.2 = .success ∧
      (Train.begunOf r.2.1).length = 2 := ⟨_, rfl, by decide, by decide⟩
  obtain ⟨⟨cd', tr', err'⟩, hrun', herr', hlen'⟩ := hrun'
  obtain rfl : err' = .success := herr'
  have hv : ∀ cb, Train.Starts (demoEnv1 cb) := fun _ => ⟨rfl, rfl, rfl, rfl, rfl, rfl⟩
  let w : World (demoWith ty tyo) := ⟨t, s, 0, 0, fun _ => 0⟩
  let w' : World (demoWith ty tyo) := ⟨t', s, 0, 0, fun _ => 0⟩
  obtain ⟨w1, hw1⟩ := whole_training_exists (P := demoWith ty tyo) q1 (hv _) hrun (by decide) (fun _ _ _ => rfl) (w := w) rfl ht1 ht2
  obtain ⟨w1', hw1'⟩ := whole_training_exists (P := demoWith ty tyo) p1 (hv _) hrun' (by decide) (fun _ _ _ => rfl) (w := w') rfl ht1' ht2'
  refine ⟨tr, tr', cd, cd', w, w1, w', w1', hrun, hrun', ht1, ht1', hw1, hw1', ?_⟩
  exact (full_batch_training_ignores_the_order (P := demoPart) (fun id => demoEvery (ty id)) (demoEvery tyo) ty (fun _ => 9 / 10)
    (fun _ => 99 / 100) (fun _ => 0) tyo (9 / 10) (99 / 100) 0 (demoWith_ok ty tyo _) (fun id => demoEvery_stays _ _) (demoEvery_stays _ _)
    (demoPlan_looks 1) ⟨q1, q2, q3, q4, q5, q6⟩ ⟨p1, p2, p3, p4, p5, p6⟩ (demoBack_reordered 1) (hv _) (hv _) hrun hrun' rfl rfl (show 4 ≤ 4 by decide)
    (hlen.trans hlen'.symm) (w := w) (w' := w') rfl rfl ht1 ht1' hs hs _ hh hh
    (fun bs h L _ _ _ k _ => demoPlan_regular 1 1 (fun _ => feature _ k) (fun _ => label _ k) L 0 (by decide))
    (fun bs h L _ _ _ k _ => demoPlan_regular 1 1 (fun _ => feature _ k) (fun _ => label _ k) L 0 (by decide)) hw1 hw1').1

end Nntl.Sgd
