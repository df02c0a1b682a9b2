import Verif.Sgd.MatProps
import Verif.Sgd.WholeProps

/-! C203, C204: the order of samples in a batch, whole training sets as one batch, and batches against single samples. Property theorems. -/
namespace Nntl.Sgd

open Nntl.Layers Nntl.Pass Nntl.Backprop Nntl.Grad Nntl.Matrix Nntl.Kernel
open Finset

/-! ### Specification -/

/-- The batch `b'` has the samples of the batch `b` in another order (features and expected answers are reordered together). -/
def Reordered (S : Shape) (b b' : ℕ × Mat ℝ × Mat ℝ) : Prop :=
  b'.1 = b.1 ∧ ∃ π : ℕ → ℕ, (∀ r < b.1, π r < b.1) ∧ (∀ r < b.1, ∀ q < b.1, π r = π q → r = q) ∧
    ∀ r < b.1, (∀ j < S.inputs, b'.2.1 r j = b.2.1 (π r) j) ∧ ∀ c < S.outputs, b'.2.2 r c = b.2.2 (π r) c

/-! ### Losses of reordered batches -/

variable {S : Shape} {act : ℕ → Act.Act}

/-- Two batches have the same mean loss, whatever the weights are. -/
def SameLoss (S : Shape) (b b' : ℕ × Mat ℝ × Mat ℝ) : Prop := S.meanLoss b.1 b.2.1 b.2.2 = S.meanLoss b'.1 b'.2.1 b'.2.2

theorem SameLoss.dBody {b b' : ℕ × Mat ℝ × Mat ℝ} (h : SameLoss S b b') (W : Weights) (i c j : ℕ) :
    S.dBody b.1 b.2.1 b.2.2 W i c j = S.dBody b'.1 b'.2.1 b'.2.2 W i c j := by
  unfold Shape.dBody
  rw [show S.meanLoss b.1 b.2.1 b.2.2 = _ from h]

theorem SameLoss.dOut {b b' : ℕ × Mat ℝ × Mat ℝ} (h : SameLoss S b b') (W : Weights) (c j : ℕ) :
    S.dOut b.1 b.2.1 b.2.2 W c j = S.dOut b'.1 b'.2.1 b'.2.2 W c j := by
  unfold Shape.dOut
  rw [show S.meanLoss b.1 b.2.1 b.2.2 = _ from h]

theorem sum_permuted {R : ℕ} {π : ℕ → ℕ} (h1 : ∀ r < R, π r < R) (h2 : ∀ r < R, ∀ q < R, π r = π q → r = q) (f : ℕ → ℝ) :
    ∑ r ∈ range R, f (π r) = ∑ r ∈ range R, f r := by
  have hi : Set.InjOn π (range R : Finset ℕ) := fun a ha b hb e => h2 a (mem_range.1 (mem_coe.1 ha)) b (mem_range.1 (mem_coe.1 hb)) e
  have hm : (range R).image π = range R := by
    refine eq_of_subset_of_card_le (fun x hx => ?_) ?_
    · obtain ⟨r, hr, rfl⟩ := mem_image.1 hx
      exact mem_range.2 (h1 r (mem_range.1 hr))
    · rw [card_image_of_injOn hi]
  calc ∑ r ∈ range R, f (π r) = ∑ r ∈ (range R).image π, f r := (sum_image hi).symm
    _ = _ := by rw [hm]

/-- C203. Reordered batches have the same mean loss. -/
theorem reordered_same_loss (h : S.Ok act) (hl : LossLooks S) {b b' : ℕ × Mat ℝ × Mat ℝ} (hb : Reordered S b b') (W : Weights) :
    S.meanLoss b'.1 b'.2.1 b'.2.2 W = S.meanLoss b.1 b.2.1 b.2.2 W := by
  obtain ⟨e, π, h1, h2, h3⟩ := hb
  have k1 := h.meanLoss_like hl (b := b') (b' := (b.1, fun r => b.2.1 (π r), fun r => b.2.2 (π r))) ⟨e, fun r hr => h3 r (e ▸ hr)⟩ W
  refine k1.trans ?_
  unfold Shape.meanLoss
  congr 1
  exact sum_permuted h1 h2 fun r => S.loss (S.answer W (b.2.1 r)) (b.2.2 r)

/-! ### Rules have one result only -/

/-- The same memory, as far as it belongs to weights. -/
def MemoLike (m k : ℕ) (s s' : LayerMemo) : Prop := s.p = s'.p ∧ s.t = s'.t ∧ ∀ c < m, ∀ j < k, s.cell c j = s'.cell c j

def StockLike (S : Shape) (h h' : Stock LayerMemo) : Prop :=
  S.Same h.W h'.W ∧ (∀ i m, (mats S.tree S.inputs)[i]? = some m → MemoLike m.rows m.cols (h.body i) (h'.body i)) ∧
    MemoLike S.outputs (S.tree.neurons + 1) h.out h'.out

theorem MemoLike.refl (m k : ℕ) (s : LayerMemo) : MemoLike m k s s := ⟨rfl, rfl, fun _ _ _ _ => rfl⟩

theorem before_like {m k : ℕ} (before : ℕ → Option Ahead) (after : ℕ → Option After) {s s' : LayerMemo} {w w' : Mat ℝ} (hs : MemoLike m k s s') (hw : Agree m k w w') :
    MemoLike m k ((MatRule.scheduled k before after).before s w).1 ((MatRule.scheduled k before after).before s' w').1 ∧
    Agree m k ((MatRule.scheduled k before after).before s w).2 ((MatRule.scheduled k before after).before s' w').2 := by
  obtain ⟨p, t, cell⟩ := s
  obtain ⟨p', t', cell'⟩ := s'
  obtain ⟨h1, h2, h3⟩ := hs
  dsimp only at h1 h2 h3
  subst h1 h2
  unfold MatRule.scheduled
  dsimp only
  cases before p with
  | none => exact ⟨⟨rfl, rfl, h3⟩, hw⟩
  | some a =>
    refine ⟨⟨rfl, rfl, fun c hc j hj => ?_⟩, limited_congr a.limit fun c hc j hj => ?_⟩
    · simp only [Ahead.go, h3 c hc j hj]
    · simp only [h3 c hc j hj, hw c hc j hj]

theorem after_like {m k : ℕ} (before : ℕ → Option Ahead) (after : ℕ → Option After) {s s' : LayerMemo} {w w' d d' : Mat ℝ} (hs : MemoLike m k s s')
    (hw : Agree m k w w') (hd : Agree m k d d') :
    MemoLike m k ((MatRule.scheduled k before after).after s w d).1 ((MatRule.scheduled k before after).after s' w' d').1 ∧
    Agree m k ((MatRule.scheduled k before after).after s w d).2 ((MatRule.scheduled k before after).after s' w' d').2 := by
  obtain ⟨p, t, cell⟩ := s
  obtain ⟨p', t', cell'⟩ := s'
  obtain ⟨h1, h2, h3⟩ := hs
  dsimp only at h1 h2 h3
  subst h1 h2
  unfold MatRule.scheduled
  dsimp only
  cases after t with
  | none => exact ⟨⟨rfl, rfl, h3⟩, hw⟩
  | some a =>
    refine ⟨⟨rfl, rfl, fun c hc j hj => ?_⟩, limited_congr a.limit fun c hc j hj => ?_⟩
    · simp only [After.go, h3 c hc j hj, hw c hc j hj, hd c hc j hj]
    · simp only [h3 c hc j hj, hw c hc j hj, hd c hc j hj]

section
variable {upd : ℕ → Bool} {uo : Bool} {before : ℕ → ℕ → ℕ → ℕ → Option Ahead} {after : ℕ → ℕ → ℕ → ℕ → Option After}
  {bo : ℕ → Option Ahead} {ao : ℕ → Option After}

theorem Shape.Ok.mat_step_unique (hS : S.Ok act) {b b' : ℕ × Mat ℝ × Mat ℝ} (hb : SameLoss S b b') {h h' g g' : Stock LayerMemo} (hh : StockLike S h h')
    (h1 : S.MatStep upd uo (fun id m k => .scheduled k (before id m k) (after id m k)) (.scheduled (S.tree.neurons + 1) bo ao) b.1 b.2.1 b.2.2 h g)
    (h2 : S.MatStep upd uo (fun id m k => .scheduled k (before id m k) (after id m k)) (.scheduled (S.tree.neurons + 1) bo ao) b'.1 b'.2.1 b'.2.2 h' g') :
    StockLike S g g' := by
  obtain ⟨L, k1, k2, k3, k4⟩ := h1
  obtain ⟨L', l1, l2, l3, l4⟩ := h2
  have hbody := fun i m hm => before_like (before m.id m.rows m.cols) (after m.id m.rows m.cols) (hh.2.1 i m hm) (hh.1.1 i m hm)
  have hout := before_like bo ao hh.2.2 hh.1.2
  have hL : S.Same L L' := ⟨fun i m hm c hc j hj => by
      rw [(k1 i m hm).1 c hc j hj, (l1 i m hm).1 c hc j hj]
      exact (hbody i m hm).2 c hc j hj, fun c hc j hj => by
      rw [k2 c hc j hj, l2 c hc j hj]
      exact hout.2 c hc j hj⟩
  refine ⟨⟨fun i m hm => ?_, ?_⟩, fun i m hm => ?_, ?_⟩
  · obtain ⟨_, _, e⟩ := k1 i m hm
    obtain ⟨_, _, e'⟩ := l1 i m hm
    intro c hc j hj
    rw [e c hc j hj, e' c hc j hj]
    split
    · refine (after_like _ _ (hbody i m hm).1 (hbody i m hm).2 fun c hc j hj => ?_).2 c hc j hj
      rw [hS.dBody_congr hL, hb.dBody]
    · exact (hbody i m hm).2 c hc j hj
  · intro c hc j hj
    rw [k4 c hc j hj, l4 c hc j hj]
    split
    · refine (after_like _ _ hout.1 hout.2 fun c hc j hj => ?_).2 c hc j hj
      rw [hS.dOut_congr hL, hb.dOut]
    · exact hout.2 c hc j hj
  · obtain ⟨_, e, _⟩ := k1 i m hm
    obtain ⟨_, e', _⟩ := l1 i m hm
    rw [e, e']
    split
    · refine (after_like _ _ (hbody i m hm).1 (hbody i m hm).2 fun c hc j hj => ?_).1
      rw [hS.dBody_congr hL, hb.dBody]
    · exact (hbody i m hm).1
  · rw [k3, l3]
    split
    · refine (after_like _ _ hout.1 hout.2 fun c hc j hj => ?_).1
      rw [hS.dOut_congr hL, hb.dOut]
    · exact hout.1

theorem Shape.Ok.mat_path_unique (hS : S.Ok act) : ∀ {bs bs' : List (ℕ × Mat ℝ × Mat ℝ)}, List.Forall₂ (SameLoss S) bs bs' → ∀ {h h' g g' : Stock LayerMemo},
    StockLike S h h' →
    S.MatPath upd uo (fun id m k => .scheduled k (before id m k) (after id m k)) (.scheduled (S.tree.neurons + 1) bo ao) bs h g →
    S.MatPath upd uo (fun id m k => .scheduled k (before id m k) (after id m k)) (.scheduled (S.tree.neurons + 1) bo ao) bs' h' g' → StockLike S g g'
  | _, _, .nil, h, h', g, g', hh, ⟨h1, h2, h3⟩, ⟨l1, l2, l3⟩ => by
    refine ⟨h1.symm.trans (hh.1.trans l1), fun i m hm => ?_, ?_⟩
    · rw [h2 i m hm, l2 i m hm]
      exact hh.2.1 i m hm
    · rw [h3, l3]
      exact hh.2.2
  | _, _, .cons hb hbs, h, h', g, g', hh, ⟨_, h1, h2⟩, ⟨_, l1, l2⟩ => mat_path_unique hS hbs (hS.mat_step_unique hb hh h1 l1) h2 l2

end

/-! ### Property theorems -/

variable {P : Plan} {vmax : ℕ} {d : TrainData.Data ℝ ℝ} {L L' : Type} {η : Rates}

theorem forall₂_sameLoss (h : S.Ok act) (hl : LossLooks S) {bs bs' : List (ℕ × Mat ℝ × Mat ℝ)} (hb : List.Forall₂ (Reordered S) bs bs') :
    List.Forall₂ (SameLoss S) bs bs' := hb.imp fun _ _ h1 => (funext (reordered_same_loss h hl h1)).symm

/-- C203. Two histories of a network whose layers use any methods with any settings, on batches that differ in the order of their samples only: the weights at the end are
the same, whatever was evaluated in between. -/
theorem order_in_batches_is_irrelevant (o : ℕ → Opt) (oo : Opt) (ty : ℕ → GradType) (β1 β2 γ : ℕ → ℝ) (tyo : GradType) (β1o β2o γo : ℝ)
    (ho : (P.using o oo).Ok) (hb : ∀ id, Stays (o id) (ty id) (β1 id) (β2 id)) (hout : Stays oo tyo β1o β2o) (hl : LossLooks P.shape)
    (us vs : List (Use ℝ)) (hre : List.Forall₂ (Reordered P.shape) (batches us) (batches vs))
    (s t : NetS (P.using o oo).net) (hi : (P.using o oo).Inv s) (hit : (P.using o oo).Inv t)
    (hus : ∀ u ∈ us, (P.using o oo).Fits u) (hvs : ∀ u ∈ vs, (P.using o oo).Fits u)
    (hr : ∀ pre R X Y post, us = pre ++ Use.train R X Y :: post →
      P.shape.Regular P.dz R (matOf R X) (matOf R Y) ((P.using o oo).cells ((P.using o oo).net.run s pre)).pre.weights)
    (hrv : ∀ pre R X Y post, vs = pre ++ Use.train R X Y :: post →
      P.shape.Regular P.dz R (matOf R X) (matOf R Y) ((P.using o oo).cells ((P.using o oo).net.run t pre)).pre.weights)
    (h : Stock LayerMemo)
    (hh : (P.using o oo).Stores (fun id m k => stands m k (ty id) (β1 id) (β2 id) (γ id)) (stands P.outputs (P.tree.neurons + 1) tyo β1o β2o γo)
      ((P.using o oo).cells s) h)
    (hht : (P.using o oo).Stores (fun id m k => stands m k (ty id) (β1 id) (β2 id) (γ id)) (stands P.outputs (P.tree.neurons + 1) tyo β1o β2o γo)
      ((P.using o oo).cells t) h) :
    P.shape.Same ((P.using o oo).weights ((P.using o oo).net.run s us)) ((P.using o oo).weights ((P.using o oo).net.run t vs)) := by
  obtain ⟨g, k1, k2⟩ := training_with_every_setting o oo ty β1 β2 γ tyo β1o β2o γo ho hb hout us s hi hus hr h hh
  obtain ⟨g', l1, l2⟩ := training_with_every_setting o oo ty β1 β2 γ tyo β1o β2o γo ho hb hout vs t hit hvs hrv h hht
  have hS : P.shape.Ok P.act := ho.shape
  have := hS.mat_path_unique (forall₂_sameLoss hS hl hre) ⟨Shape.Same.refl _ _, fun _ _ _ => MemoLike.refl _ _ _, MemoLike.refl _ _ _⟩ k1 l1
  exact k2.trans (this.1.trans l2.symm)

/-- An epoch, when the training set is one batch. -/
theorem full_epoch_same {ord : ℕ → ℕ} (h : Shuffled (d.count .train) (d.count .train) ord) (h0 : 0 < d.count .train) :
    ∃ b, epochBatches d (d.count .train) ord = [b] ∧ SameLoss S b (d.count .train, feature d, label d) := by
  obtain ⟨h1, h2, _⟩ := h
  unfold epochBatches
  rw [Nat.div_self h0, one_mul] at *
  refine ⟨_, rfl, funext fun W => ?_⟩
  simp only [zero_mul, zero_add]
  unfold Shape.meanLoss
  congr 1
  exact sum_permuted h1 h2 fun r => S.loss (S.answer W (feature d r)) (label d r)

theorem full_same {d d' : TrainData.Data ℝ ℝ} (h0 : 0 < d.count .train) (h0' : 0 < d'.count .train)
    (hd : SameLoss S (d.count .train, feature d, label d) (d'.count .train, feature d', label d')) : ∀ {ords ords' : List (ℕ → ℕ)}, ords.length = ords'.length →
    (∀ ord ∈ ords, Shuffled (d.count .train) (d.count .train) ord) → (∀ ord ∈ ords', Shuffled (d'.count .train) (d'.count .train) ord) →
    List.Forall₂ (SameLoss S) (ords.flatMap (epochBatches d (d.count .train))) (ords'.flatMap (epochBatches d' (d'.count .train)))
  | [], [], _, _, _ => .nil
  | [], _ :: _, h, _, _ => by simp at h
  | _ :: _, [], h, _, _ => by simp at h
  | a :: as, c :: cs, h, h1, h2 => by
    obtain ⟨b, e1, e2⟩ := full_epoch_same (S := S) (h1 a List.mem_cons_self) h0
    obtain ⟨b', e1', e2'⟩ := full_epoch_same (S := S) (h2 c List.mem_cons_self) h0'
    rw [List.flatMap_cons, List.flatMap_cons, e1, e1']
    exact .cons (e2.trans (hd.trans e2'.symm))
      (full_same h0 h0' hd (by simpa using h) (fun o ho => h1 o (List.mem_cons_of_mem _ ho)) fun o ho => h2 o (List.mem_cons_of_mem _ ho))

/-- C203. Training with the whole training set as one batch depends neither on the order of the samples in the training set nor on shuffles: two calls of `train()` on
training sets with the same samples in any orders, from the same weights and memories of the optimisers, that begin the same number of epochs, end with the same weights, and
the networks give the same answers. Options, callbacks, reports, the states of the training data and all random numbers for the order of samples may differ. -/
theorem full_batch_training_ignores_the_order (o : ℕ → Opt) (oo : Opt) (ty : ℕ → GradType) (β1 β2 γ : ℕ → ℝ) (tyo : GradType) (β1o β2o γo : ℝ)
    (ho : (P.using o oo).Ok) (hb : ∀ id, Stays (o id) (ty id) (β1 id) (β2 id)) (hout : Stays oo tyo β1o β2o)
    (hl : LossLooks P.shape) {d d' : TrainData.Data ℝ ℝ} (hs : Suits d P) (hs' : Suits d' P)
    (hd : Reordered P.shape (d.count .train, feature d, label d) (d'.count .train, feature d', label d'))
    {opts : Train.Opts L} {v : Train.Env L} {opts' : Train.Opts L'} {v' : Train.Env L'} (hv : Train.Starts v) (hv' : Train.Starts v')
    {cd cd1 cd' cd1' : Train.CD} {tr tr' : List Train.Ev} {err err' : Train.Err}
    (ht : Train.train opts v cd = some (cd1, tr, err)) (ht' : Train.train opts' v' cd' = some (cd1', tr', err'))
    (hfull : cd.trainBs = d.count .train) (hfull' : cd'.trainBs = d'.count .train) (hbs : d.count .train ≤ P.bs.maxTrainBS)
    (hep : (Train.begunOf tr).length = (Train.begunOf tr').length) {vmax vmax' : ℕ}
    {w w1 w' w1' : World (P.using o oo)} (hc : w.cur = cd.cur) (hc' : w'.cur = cd'.cur) (hr : TrainData.Reach vmax d w.td) (hr' : TrainData.Reach vmax' d' w'.td)
    (hi : (P.using o oo).Inv w.net) (hi' : (P.using o oo).Inv w'.net) (h : Stock LayerMemo)
    (hh : (P.using o oo).Stores (fun id m k => stands m k (ty id) (β1 id) (β2 id) (γ id)) (stands P.outputs (P.tree.neurons + 1) tyo β1o β2o γo)
      ((P.using o oo).cells w.net) h)
    (hh' : (P.using o oo).Stores (fun id m k => stands m k (ty id) (β1 id) (β2 id) (γ id)) (stands P.outputs (P.tree.neurons + 1) tyo β1o β2o γo)
      ((P.using o oo).cells w'.net) h)
    (hg : GoesWellIn P d (fun id => ruleOf (o id) (ty id) (β1 id) (β2 id) (γ id)) (ruleOf oo tyo β1o β2o γo P.outputs (P.tree.neurons + 1)) h)
    (hg' : GoesWellIn P d' (fun id => ruleOf (o id) (ty id) (β1 id) (β2 id) (γ id)) (ruleOf oo tyo β1o β2o γo P.outputs (P.tree.neurons + 1)) h)
    (hP : Plays (P.using o oo) vmax tr w w1) (hP' : Plays (P.using o oo) vmax' tr' w' w1') :
    P.shape.Same ((P.using o oo).weights w1.net) ((P.using o oo).weights w1'.net) ∧
    ∀ x, ∀ c < P.outputs, P.shape.answer ((P.using o oo).weights w1.net) x c = P.shape.answer ((P.using o oo).weights w1'.net) x c := by
  have hN : d'.count .train = d.count .train := hd.1
  obtain ⟨ords, k1, _, k2, g, k3, k4⟩ := whole_training_with_every_setting o oo ty β1 β2 γ tyo β1o β2o γo ho hb hout hl hs hv ht (by rw [hfull]; exact hbs) hc hr hi h hh hg hP
  obtain ⟨ords', l1, _, l2, g', l3, l4⟩ :=
    whole_training_with_every_setting o oo ty β1 β2 γ tyo β1o β2o γo ho hb hout hl hs' hv' ht' (by rw [hfull', hN]; exact hbs) hc' hr' hi' h hh' hg' hP'
  have hS : P.shape.Ok P.act := ho.shape
  rw [hfull] at k2 k3
  rw [hfull'] at l2 l3
  have := hS.mat_path_unique (full_same (hs.ok.count .train) (hs'.ok.count .train) (funext (reordered_same_loss hS hl hd)).symm (k1.trans (hep.trans l1.symm)) k2 l2)
    ⟨Shape.Same.refl _ _, fun _ _ _ => MemoLike.refl _ _ _, MemoLike.refl _ _ _⟩ k3 l3
  have e := k4.symm.trans (this.1.trans l4)
  exact ⟨e, hS.answer_congr e⟩

/-- C204. With plain gradient descent, a step on a batch is the mean of the steps on its samples: the weights after a training step on `R` samples are the means of the weights
after steps on each of the samples alone, from the same weights. -/
theorem batch_step_is_mean_of_single_steps (ho : P.Ok) (hp : P.Plain η) (hl : LossLooks P.shape) (s : NetS P.net) (hi : P.Inv s) (R : ℕ) (X Y : Mem ℝ)
    (hu : P.Fits (.train R X Y)) (hr : P.shape.Regular P.dz R (matOf R X) (matOf R Y) (P.weights s))
    (Xs Ys : ℕ → Mem ℝ) (hus : ∀ r < R, P.Fits (.train 1 (Xs r) (Ys r)))
    (hX : ∀ r < R, ∀ j < P.inputs, matOf 1 (Xs r) 0 j = matOf R X r j) (hY : ∀ r < R, ∀ c < P.outputs, matOf 1 (Ys r) 0 c = matOf R Y r c) :
    (∀ i m, (mats P.tree P.inputs)[i]? = some m → ∀ c < m.rows, ∀ j < m.cols,
      (P.weights (P.net.run s [.train R X Y])).body i c j = (∑ r ∈ range R, (P.weights (P.net.run s [.train 1 (Xs r) (Ys r)])).body i c j) / R) ∧
    ∀ c < P.outputs, ∀ j < P.tree.neurons + 1,
      (P.weights (P.net.run s [.train R X Y])).out c j = (∑ r ∈ range R, (P.weights (P.net.run s [.train 1 (Xs r) (Ys r)])).out c j) / R := by
  have hS : P.shape.Ok P.act := ho.shape
  have hR : 0 < R := hu.1
  have hR' : (R : ℝ) ≠ 0 := Nat.cast_ne_zero.2 hR.ne'
  have hr1 : ∀ r < R, P.shape.Regular P.dz 1 (matOf 1 (Xs r)) (matOf 1 (Ys r)) (P.weights s) := fun r hrR q hq => by
    obtain rfl : q = 0 := by omega
    exact hS.regular_like hl (fun j hj => (hX r hrR j hj).symm) (fun c hc => (hY r hrR c hc).symm) (hr r hrR)
  have one := fun r (hrR : r < R) => training_step_is_descent ho hp s hi [] (fun _ h => by cases h) 1 (Xs r) (Ys r) (hus r hrR) (hr1 r hrR)
  have all := training_step_is_descent ho hp s hi [] (fun _ h => by cases h) R X Y hu hr
  have hm : ∀ W, P.shape.meanLoss R (matOf R X) (matOf R Y) W = (∑ r ∈ range R, P.shape.meanLoss 1 (matOf 1 (Xs r)) (matOf 1 (Ys r)) W) / R := by
    intro W
    unfold Shape.meanLoss
    congr 1
    refine sum_congr rfl fun r hr => ?_
    have hrR := mem_range.1 hr
    have := hS.meanLoss_like hl (b := (1, matOf 1 (Xs r), matOf 1 (Ys r))) (b' := (1, fun _ => matOf R X r, fun _ => matOf R Y r))
      ⟨rfl, fun q hq => by
        obtain rfl : q = 0 := by simpa using hq
        exact ⟨hX r hrR, hY r hrR⟩⟩ W
    simp only [Shape.meanLoss, sum_range_one, Nat.cast_one, div_one] at this ⊢
    exact this.symm
  have comb : ∀ (F : ℝ → Weights) (_ : ∀ r < R, DifferentiableAt ℝ (fun t => P.shape.meanLoss 1 (matOf 1 (Xs r)) (matOf 1 (Ys r)) (F t)) 0),
      deriv (fun t => P.shape.meanLoss R (matOf R X) (matOf R Y) (F t)) 0 =
        (∑ r ∈ range R, deriv (fun t => P.shape.meanLoss 1 (matOf 1 (Xs r)) (matOf 1 (Ys r)) (F t)) 0) / R := by
    intro F hF
    simp only [hm]
    exact ((HasDerivAt.fun_sum fun r hr => (hF r (mem_range.1 hr)).hasDerivAt).div_const _).deriv
  have avg : ∀ (a η : ℝ) (f : ℕ → ℝ), a - η * ((∑ r ∈ range R, f r) / R) = (∑ r ∈ range R, (a - η * f r)) / R := by
    intro a η f
    rw [sum_sub_distrib, sum_const, card_range, nsmul_eq_mul, ← mul_sum]
    field_simp
  refine ⟨fun i m hm c hc j hj => ?_, fun c hc j hj => ?_⟩
  · have e : (∑ r ∈ range R, (P.weights (P.net.run s [.train 1 (Xs r) (Ys r)])).body i c j) = ∑ r ∈ range R,
        ((P.weights s).body i c j - η.body m.id * (P.shape.dBody 1 (matOf 1 (Xs r)) (matOf 1 (Ys r)) (P.weights s) i c j / m.tiles)) :=
      sum_congr rfl fun r hr => (one r (mem_range.1 hr)).1.1 i m hm c hc j hj
    rw [e, ← avg]
    refine (all.1.1 i m hm c hc j hj).trans ?_
    have := comb (fun t => (P.weights s).bumpBody i c j t) fun r hr => (one r hr).2.1 i m hm c hc j hj
    rw [← sum_div, div_right_comm]
    unfold Shape.dBody
    exact congrArg (fun z => (P.weights s).body i c j - η.body m.id * (z / m.tiles)) this
  · have e : (∑ r ∈ range R, (P.weights (P.net.run s [.train 1 (Xs r) (Ys r)])).out c j) = ∑ r ∈ range R,
        ((P.weights s).out c j - η.out * P.shape.dOut 1 (matOf 1 (Xs r)) (matOf 1 (Ys r)) (P.weights s) c j) :=
      sum_congr rfl fun r hr => (one r (mem_range.1 hr)).1.2 c hc j hj
    rw [e, ← avg]
    refine (all.1.2 c hc j hj).trans ?_
    have := comb (fun t => (P.weights s).bumpOut c j t) fun r hr => (one r hr).2.2 c hc j hj
    unfold Shape.dOut
    exact congrArg (fun z => (P.weights s).out c j - η.out * z) this

end Nntl.Sgd
