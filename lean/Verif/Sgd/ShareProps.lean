import Verif.Sgd.OrderProps

/-! C207: of the samples in a batch only their shares matter. Property theorems. -/
namespace Nntl.Sgd

open Nntl.Layers Nntl.Pass Nntl.Backprop Nntl.Grad Nntl.Matrix Nntl.Kernel
open Finset

/-! ### Specification -/

/-- Every row `r` of the batch `b` shows the sample `f r` out of `N` samples with the features `x` and the expected answers `y`. -/
def Shows (S : Shape) (N : ℕ) (x y : ℕ → ℕ → ℝ) (f : ℕ → ℕ) (b : ℕ × Mat ℝ × Mat ℝ) : Prop :=
  ∀ r < b.1, f r < N ∧ (∀ j < S.inputs, b.2.1 r j = x (f r) j) ∧ ∀ c < S.outputs, b.2.2 r c = y (f r) c

/-- Both batches show the same samples, each sample with the same share of the rows. -/
def SameShares (S : Shape) (b b' : ℕ × Mat ℝ × Mat ℝ) : Prop :=
  0 < b.1 ∧ 0 < b'.1 ∧ ∃ (N : ℕ) (x y : ℕ → ℕ → ℝ) (f f' : ℕ → ℕ), Shows S N x y f b ∧ Shows S N x y f' b' ∧
    ∀ k < N, (((range b.1).filter fun r => f r = k).card : ℝ) / b.1 = (((range b'.1).filter fun r => f' r = k).card : ℝ) / b'.1

/-! ### Losses -/

variable {S : Shape} {act : ℕ → Act.Act}

theorem shows_loss (h : S.Ok act) (hl : LossLooks S) {N : ℕ} {x y : ℕ → ℕ → ℝ} {f : ℕ → ℕ} {b : ℕ × Mat ℝ × Mat ℝ} (hs : Shows S N x y f b) (W : Weights) :
    S.meanLoss b.1 b.2.1 b.2.2 W = ∑ k ∈ range N, (((range b.1).filter fun r => f r = k).card : ℝ) / b.1 * S.loss (S.answer W (x k)) (y k) := by
  rw [h.meanLoss_like hl (b := b) (b' := (b.1, fun r => x (f r), fun r => y (f r))) ⟨rfl, fun r hr => (hs r hr).2⟩ W]
  unfold Shape.meanLoss
  rw [← sum_fiberwise_of_maps_to (s := range b.1) (t := range N) (g := f) (fun r hr => mem_range.2 (hs r (mem_range.1 hr)).1)]
  rw [sum_div]
  refine sum_congr rfl fun k _ => ?_
  rw [sum_congr (g := fun _ => S.loss (S.answer W (x k)) (y k)) rfl fun r hr => by dsimp only; rw [(mem_filter.1 hr).2], sum_const, nsmul_eq_mul]
  ring

/-- C207. Batches with the same shares of samples have the same mean loss. -/
theorem shares_same_loss (h : S.Ok act) (hl : LossLooks S) {b b' : ℕ × Mat ℝ × Mat ℝ} (hb : SameShares S b b') (W : Weights) :
    S.meanLoss b'.1 b'.2.1 b'.2.2 W = S.meanLoss b.1 b.2.1 b.2.2 W := by
  obtain ⟨_, _, N, x, y, f, f', h1, h2, h3⟩ := hb
  rw [shows_loss h hl h1, shows_loss h hl h2]
  exact sum_congr rfl fun k hk => by rw [h3 k (mem_range.1 hk)]

/-- Every batch has the shares of itself repeated: `k` copies of all rows, in any arrangement. -/
theorem repeated_shares {b b' : ℕ × Mat ℝ × Mat ℝ} {k : ℕ} (h0 : 0 < b.1) (hk : 0 < k) (e : b'.1 = k * b.1) {f : ℕ → ℕ} (hf : Shows S b.1 b.2.1 b.2.2 f b')
    (hc : ∀ r < b.1, ((range b'.1).filter fun q => f q = r).card = k) : SameShares S b b' := by
  refine ⟨h0, by rw [e]; exact Nat.mul_pos hk h0, b.1, b.2.1, b.2.2, id, f, fun r hr => ⟨hr, fun _ _ => rfl, fun _ _ => rfl⟩, hf, fun r hr => ?_⟩
  rw [hc r hr, e]
  have : (range b.1).filter (fun q => id q = r) = {r} := by
    ext q
    simp only [id, mem_filter, mem_range, mem_singleton]
    exact ⟨fun h => h.2, fun h => ⟨h ▸ hr, h⟩⟩
  rw [this, card_singleton, Nat.cast_mul]
  have h1 : (b.1 : ℝ) ≠ 0 := Nat.cast_ne_zero.2 h0.ne'
  have h2 : (k : ℝ) ≠ 0 := Nat.cast_ne_zero.2 hk.ne'
  field_simp
  simp

/-- Samples in another order have the same shares. -/
theorem Reordered.shares {b b' : ℕ × Mat ℝ × Mat ℝ} (h0 : 0 < b.1) (h : Reordered S b b') : SameShares S b b' := by
  obtain ⟨e, π, h1, h2, h3⟩ := h
  refine repeated_shares h0 one_pos (by rw [e, one_mul]) (f := π) (fun r hr => ⟨h1 r (e ▸ hr), h3 r (e ▸ hr)⟩) fun r hr => ?_
  rw [e]
  obtain ⟨q, hq, rfl⟩ : ∃ q ∈ range b.1, π q = r :=
    surjOn_of_injOn_of_card_le (s := range b.1) (t := range b.1) π (fun q hq => mem_coe.2 (mem_range.2 (h1 q (mem_range.1 hq))))
      (fun q hq r hr => h2 q (mem_range.1 hq) r (mem_range.1 hr)) le_rfl (mem_coe.2 (mem_range.2 hr))
  refine card_eq_one.2 ⟨q, ?_⟩
  ext i
  simp only [mem_filter, mem_singleton]
  exact ⟨fun h => h2 i (mem_range.1 h.1) q (mem_range.1 hq) h.2, by rintro rfl; exact ⟨hq, rfl⟩⟩

/-! ### Property theorems -/

variable {P : Plan} {L L' : Type}

/-- C207. Two histories of a network whose layers use any methods with any settings, on batches with the same shares of samples, but possibly of different sizes: the weights at
the end are the same. -/
theorem only_shares_in_batches_matter (o : ℕ → Opt) (oo : Opt) (ty : ℕ → GradType) (β1 β2 γ : ℕ → ℝ) (tyo : GradType) (β1o β2o γo : ℝ)
    (ho : (P.using o oo).Ok) (hb : ∀ id, Stays (o id) (ty id) (β1 id) (β2 id)) (hout : Stays oo tyo β1o β2o) (hl : LossLooks P.shape)
    (us vs : List (Use ℝ)) (hre : List.Forall₂ (SameShares P.shape) (batches us) (batches vs))
    (s t : NetS (P.using o oo).net) (hi : (P.using o oo).Inv s) (hit : (P.using o oo).Inv t)
    (hus : ∀ u ∈ us, (P.using o oo).Fits u) (hvs : ∀ u ∈ vs, (P.using o oo).Fits u)
    (hr : ∀ pre R X Y post, us = pre ++ Use.train R X Y :: post →
      P.shape.Regular P.dz R (matOf R X) (matOf R Y) ((P.using o oo).cells ((P.using o oo).net.run s pre)).pre.weights)
    (hrv : ∀ pre R X Y post, vs = pre ++ Use.train R X Y :: post →
      P.shape.Regular P.dz R (matOf R X) (matOf R Y) ((P.using o oo).cells ((P.using o oo).net.run t pre)).pre.weights)
    (h : Stock LayerMemo)
    (hh : (P.using o oo).Stores (fun id m k => stands m k (ty id) (β1 id) (β2 id) (γ id)) (stands P.outputs (P.tree.neurons + 1) tyo β1o β2o γo)
      ((P.using o oo).cells s) h)
    (hht : (P.using o oo).Stores (fun id m k => stands m k (ty id) (β1 id) (β2 id) (γ id)) (stands P.outputs (P.tree.neurons + 1) tyo β1o β2o γo)
      ((P.using o oo).cells t) h) :
    P.shape.Same ((P.using o oo).weights ((P.using o oo).net.run s us)) ((P.using o oo).weights ((P.using o oo).net.run t vs)) := by
  obtain ⟨g, k1, k2⟩ := training_with_every_setting o oo ty β1 β2 γ tyo β1o β2o γo ho hb hout us s hi hus hr h hh
  obtain ⟨g', l1, l2⟩ := training_with_every_setting o oo ty β1 β2 γ tyo β1o β2o γo ho hb hout vs t hit hvs hrv h hht
  have hS : P.shape.Ok P.act := ho.shape
  have := hS.mat_path_unique (hre.imp fun _ _ h1 => (funext (shares_same_loss hS hl h1)).symm) ⟨Shape.Same.refl _ _, fun _ _ _ => MemoLike.refl _ _ _, MemoLike.refl _ _ _⟩ k1 l1
  exact k2.trans (this.1.trans l2.symm)

/-- C207. Training with the whole training set as one batch: two calls of `train()` on training sets of any sizes with the same shares of samples, from the same weights and
memories of the optimisers, that begin the same number of epochs, end with the same weights, and the networks give the same answers. -/
theorem full_batch_training_sees_shares_only (o : ℕ → Opt) (oo : Opt) (ty : ℕ → GradType) (β1 β2 γ : ℕ → ℝ) (tyo : GradType) (β1o β2o γo : ℝ)
    (ho : (P.using o oo).Ok) (hb : ∀ id, Stays (o id) (ty id) (β1 id) (β2 id)) (hout : Stays oo tyo β1o β2o)
    (hl : LossLooks P.shape) {d d' : TrainData.Data ℝ ℝ} (hs : Suits d P) (hs' : Suits d' P)
    (hd : SameShares P.shape (d.count .train, feature d, label d) (d'.count .train, feature d', label d'))
    {opts : Train.Opts L} {v : Train.Env L} {opts' : Train.Opts L'} {v' : Train.Env L'} (hv : Train.Starts v) (hv' : Train.Starts v')
    {cd cd1 cd' cd1' : Train.CD} {tr tr' : List Train.Ev} {err err' : Train.Err}
    (ht : Train.train opts v cd = some (cd1, tr, err)) (ht' : Train.train opts' v' cd' = some (cd1', tr', err'))
    (hfull : cd.trainBs = d.count .train) (hfull' : cd'.trainBs = d'.count .train) (hbs : d.count .train ≤ P.bs.maxTrainBS) (hbs' : d'.count .train ≤ P.bs.maxTrainBS)
    (hep : (Train.begunOf tr).length = (Train.begunOf tr').length) {vmax vmax' : ℕ}
    {w w1 w' w1' : World (P.using o oo)} (hc : w.cur = cd.cur) (hc' : w'.cur = cd'.cur) (hr : TrainData.Reach vmax d w.td) (hr' : TrainData.Reach vmax' d' w'.td)
    (hi : (P.using o oo).Inv w.net) (hi' : (P.using o oo).Inv w'.net) (h : Stock LayerMemo)
    (hh : (P.using o oo).Stores (fun id m k => stands m k (ty id) (β1 id) (β2 id) (γ id)) (stands P.outputs (P.tree.neurons + 1) tyo β1o β2o γo)
      ((P.using o oo).cells w.net) h)
    (hh' : (P.using o oo).Stores (fun id m k => stands m k (ty id) (β1 id) (β2 id) (γ id)) (stands P.outputs (P.tree.neurons + 1) tyo β1o β2o γo)
      ((P.using o oo).cells w'.net) h)
    (hg : GoesWellIn P d (fun id => ruleOf (o id) (ty id) (β1 id) (β2 id) (γ id)) (ruleOf oo tyo β1o β2o γo P.outputs (P.tree.neurons + 1)) h)
    (hg' : GoesWellIn P d' (fun id => ruleOf (o id) (ty id) (β1 id) (β2 id) (γ id)) (ruleOf oo tyo β1o β2o γo P.outputs (P.tree.neurons + 1)) h)
    (hP : Plays (P.using o oo) vmax tr w w1) (hP' : Plays (P.using o oo) vmax' tr' w' w1') :
    P.shape.Same ((P.using o oo).weights w1.net) ((P.using o oo).weights w1'.net) ∧
    ∀ x, ∀ c < P.outputs, P.shape.answer ((P.using o oo).weights w1.net) x c = P.shape.answer ((P.using o oo).weights w1'.net) x c := by
  obtain ⟨ords, k1, _, k2, g, k3, k4⟩ := whole_training_with_every_setting o oo ty β1 β2 γ tyo β1o β2o γo ho hb hout hl hs hv ht (by rw [hfull]; exact hbs) hc hr hi h hh hg hP
  obtain ⟨ords', l1, _, l2, g', l3, l4⟩ :=
    whole_training_with_every_setting o oo ty β1 β2 γ tyo β1o β2o γo ho hb hout hl hs' hv' ht' (by rw [hfull']; exact hbs') hc' hr' hi' h hh' hg' hP'
  have hS : P.shape.Ok P.act := ho.shape
  rw [hfull] at k2 k3
  rw [hfull'] at l2 l3
  have := hS.mat_path_unique (full_same (hs.ok.count .train) (hs'.ok.count .train) (funext (shares_same_loss hS hl hd)).symm (k1.trans (hep.trans l1.symm)) k2 l2)
    ⟨Shape.Same.refl _ _, fun _ _ _ => MemoLike.refl _ _ _, MemoLike.refl _ _ _⟩ k3 l3
  have e := k4.symm.trans (this.1.trans l4)
  exact ⟨e, hS.answer_congr e⟩

end Nntl.Sgd
