import Verif.Sgd.OrderProps

/-! C211: losses multiplied by a positive number. Property theorems. -/
namespace Nntl.Sgd

open Nntl.Layers Nntl.Pass Nntl.Backprop Nntl.Grad Nntl.Matrix Nntl.Kernel
open Finset

/-! ### Specification -/

/-- The network with its loss, and the derivative of the loss its output layer uses, multiplied by `q`. -/
noncomputable def Plan.times (P : Plan) (q : ℝ) : Plan := { P with loss := fun a y => q * P.loss a y, dz := fun a y => q * P.dz a y }

/-- Settings without penalties of weights for two optimisers: both are RProp with the same settings; or both are plain gradient descent and the learning rates of the second one
are those of the first one divided by `q`, all other settings being the same. -/
def Balanced (q : ℝ) (ty : GradType) (o o' : Opt) : Prop :=
  (∀ t, (o.app t).cfg.l1 = 0 ∧ (o.app t).cfg.l2 = 0) ∧ o'.pre = o.pre ∧
    (ty = .rprop ∧ o'.app = o.app ∨
      ty = .classicalConstant ∧ o'.app = fun t => { o.app t with cfg := { (o.app t).cfg with lr := (o.app t).cfg.lr / q } })

/-! ### Rules -/

theorem balanced_before {q : ℝ} {ty : GradType} {o o' : Opt} (h : Balanced q ty o o') (m : ℕ) : beforeOf o' m = beforeOf o m := by
  unfold beforeOf
  rw [h.2.1]

theorem After.go_cells {a a' : After} (hk : a'.keep = a.keep) (hl : a'.limit = a.limit) (k : ℕ) (st : ℕ → ℕ → Memo) (w d d' : Mat ℝ)
    (h : ∀ c j, a'.cell (decide (j + 1 = k)) (st c j) (w c j) (d' c j) = a.cell (decide (j + 1 = k)) (st c j) (w c j) (d c j)) : a'.go k st w d' = a.go k st w d := by
  unfold After.go
  rw [hk, hl]
  simp only [h]

theorem balanced_after {q : ℝ} (hq : 0 < q) {ty : GradType} {o o' : Opt} (h : Balanced q ty o o') (β1 β2 γ : ℝ) (m k : ℕ) (s : LayerMemo) (w d : Mat ℝ) :
    (ruleOf o' ty β1 β2 γ m k).after s w (fun c j => q * d c j) = (ruleOf o ty β1 β2 γ m k).after s w d := by
  obtain ⟨hp, -, ⟨rfl, e⟩ | ⟨rfl, e⟩⟩ := h
  · unfold ruleOf MatRule.scheduled afterOf
    dsimp only
    rw [e]
    cases hb : (o.app s.t).blocked with
    | true => simp only [if_true]
    | false =>
      simp only [Bool.false_eq_true, if_false]
      rw [After.go_cells rfl rfl k s.cell w d _ fun c j => ?_]
      have h1 : ∀ b x, penaltySlope (o.app s.t).cfg.l1 (o.app s.t).cfg.l2 (o.app s.t).cfg.l1IgnBias (o.app s.t).cfg.l2IgnBias b x = 0 := fun b x => by
        simp [penaltySlope, (hp s.t).1, (hp s.t).2]
      have h2 : (0 < q * d c j) = (0 < d c j) := propext (mul_pos_iff_of_pos_left hq)
      have h3 : (q * d c j < 0) = (d c j < 0) := propext ⟨fun h => by nlinarith, fun h => by nlinarith⟩
      simp only [After.cell, method, h1, add_zero, h2, h3]
  · unfold ruleOf MatRule.scheduled afterOf
    dsimp only
    rw [e]
    dsimp only
    cases hb : (o.app s.t).blocked with
    | true => simp only [if_true]
    | false =>
      simp only [Bool.false_eq_true, if_false]
      refine congrArg (fun z : (ℕ → ℕ → Memo) × Mat ℝ => ((⟨s.p, s.t + 1, z.1⟩ : LayerMemo), z.2)) (After.go_cells ?_ ?_ k s.cell w d _ fun c j => ?_)
      · rfl
      · rfl
      have h1 : ∀ b x, penaltySlope (o.app s.t).cfg.l1 (o.app s.t).cfg.l2 (o.app s.t).cfg.l1IgnBias (o.app s.t).cfg.l2IgnBias b x = 0 := fun b x => by
          simp [penaltySlope, (hp s.t).1, (hp s.t).2]
      have h2 : (o.app s.t).cfg.lr / q * (q * d c j) = (o.app s.t).cfg.lr * d c j := by field_simp
      simp only [After.cell, method, h1, add_zero, h2]

/-! ### Paths -/

variable {P : Plan}

theorem times_meanLoss (q : ℝ) (R : ℕ) (X Y : Mat ℝ) (W : Weights) : (P.times q).shape.meanLoss R X Y W = q * P.shape.meanLoss R X Y W := by
  show (∑ r ∈ range R, q * P.loss (P.shape.answer W (X r)) (Y r)) / R = q * ((∑ r ∈ range R, P.loss (P.shape.answer W (X r)) (Y r)) / R)
  rw [← mul_sum, mul_div_assoc]

theorem times_dBody (q : ℝ) (R : ℕ) (X Y : Mat ℝ) (W : Weights) (i c j : ℕ) : (P.times q).shape.dBody R X Y W i c j = q * P.shape.dBody R X Y W i c j := by
  unfold Shape.dBody
  simp only [times_meanLoss]
  exact deriv_const_mul_field _

theorem times_dOut (q : ℝ) (R : ℕ) (X Y : Mat ℝ) (W : Weights) : (P.times q).shape.dOut R X Y W = fun c j => q * P.shape.dOut R X Y W c j := by
  funext c j
  unfold Shape.dOut
  simp only [times_meanLoss]
  exact deriv_const_mul_field _

section
variable {q : ℝ} {o o' : ℕ → Opt} {oo oo' : Opt} {ty : ℕ → GradType} {β1 β2 γ : ℕ → ℝ} {tyo : GradType} {β1o β2o γo : ℝ} {upd : ℕ → Bool} {uo : Bool} {M K : ℕ}

theorem times_step (hq : 0 < q) (hb : ∀ id, Balanced q (ty id) (o id) (o' id)) (hbo : Balanced q tyo oo oo') {b : ℕ × Mat ℝ × Mat ℝ} {h g : Stock LayerMemo}
    (hp : P.shape.MatStep upd uo (fun id => ruleOf (o id) (ty id) (β1 id) (β2 id) (γ id)) (ruleOf oo tyo β1o β2o γo M K) b.1 b.2.1 b.2.2 h g) :
    (P.times q).shape.MatStep upd uo (fun id => ruleOf (o' id) (ty id) (β1 id) (β2 id) (γ id)) (ruleOf oo' tyo β1o β2o γo M K) b.1 b.2.1 b.2.2 h g := by
  have eb : ∀ {ty : GradType} {o o' : Opt} (β1 β2 γ : ℝ) (m k : ℕ), Balanced q ty o o' → (ruleOf o' ty β1 β2 γ m k).before = (ruleOf o ty β1 β2 γ m k).before :=
    fun β1 β2 γ m k hb => by
      unfold ruleOf MatRule.scheduled
      rw [balanced_before hb]
  obtain ⟨L, k1, k2, k3⟩ := hp
  refine ⟨L, fun i m hm => ?_, ?_⟩
  · have := k1 i m hm
    have ed : (fun c j => (P.times q).shape.dBody b.1 b.2.1 b.2.2 L i c j / (m.tiles : ℝ)) = fun c j => q * (P.shape.dBody b.1 b.2.1 b.2.2 L i c j / m.tiles) := by
      funext c j
      rw [times_dBody, mul_div_assoc]
    dsimp only at this ⊢
    rw [eb _ _ _ _ _ (hb m.id), ed, balanced_after hq (hb m.id)]
    exact this
  · dsimp only at k2 k3 ⊢
    rw [eb _ _ _ _ _ hbo, times_dOut, balanced_after hq hbo]
    exact ⟨k2, k3⟩

theorem times_path (hq : 0 < q) (hb : ∀ id, Balanced q (ty id) (o id) (o' id)) (hbo : Balanced q tyo oo oo') : ∀ {bs : List (ℕ × Mat ℝ × Mat ℝ)} {h g : Stock LayerMemo},
    P.shape.MatPath upd uo (fun id => ruleOf (o id) (ty id) (β1 id) (β2 id) (γ id)) (ruleOf oo tyo β1o β2o γo M K) bs h g →
    (P.times q).shape.MatPath upd uo (fun id => ruleOf (o' id) (ty id) (β1 id) (β2 id) (γ id)) (ruleOf oo' tyo β1o β2o γo M K) bs h g
  | [], _, _, h => h
  | _ :: _, _, _, ⟨_, l1, l2⟩ => ⟨_, times_step hq hb hbo l1, times_path hq hb hbo l2⟩

end

theorem times_lossGrad {n : ℕ} {last : (ℕ → ℝ) → ℕ → ℝ} {loss : (ℕ → ℝ) → (ℕ → ℝ) → ℝ} {dz : ℝ → ℝ → ℝ} {z y : ℕ → ℝ} (q : ℝ) (h : Backprop.LossGrad n last loss dz z y) :
    Backprop.LossGrad n last (fun a y => q * loss a y) (fun a y => q * dz a y) z y := by
  intro f f' h0 h1
  have := (h f f' h0 h1).const_mul q
  rw [mul_sum] at this
  simpa only [mul_assoc] using this

/-! ### Property theorems -/

/-- C211. Two networks that differ by a positive factor of the loss, with the same weights and memories at first: after the same uses their weights are the same if the optimisers
are RProp, or plain gradient descent with learning rates divided by the factor, without penalties of weights. -/
theorem scale_of_the_loss {q : ℝ} (hq : 0 < q) (o o' : ℕ → Opt) (oo oo' : Opt) (ty : ℕ → GradType) (β1 β2 γ : ℕ → ℝ) (tyo : GradType) (β1o β2o γo : ℝ)
    (hs : ∀ id, Balanced q (ty id) (o id) (o' id)) (hso : Balanced q tyo oo oo')
    (ho : (P.using o oo).Ok) (ho' : ((P.times q).using o' oo').Ok) (hb : ∀ id, Stays (o id) (ty id) (β1 id) (β2 id)) (hout : Stays oo tyo β1o β2o)
    (hb' : ∀ id, Stays (o' id) (ty id) (β1 id) (β2 id)) (hout' : Stays oo' tyo β1o β2o)
    (us : List (Use ℝ)) (s : NetS (P.using o oo).net) (t : NetS ((P.times q).using o' oo').net) (hi : (P.using o oo).Inv s) (hit : ((P.times q).using o' oo').Inv t)
    (hus : ∀ u ∈ us, (P.using o oo).Fits u)
    (hr : ∀ pre R X Y post, us = pre ++ Use.train R X Y :: post →
      P.shape.Regular P.dz R (matOf R X) (matOf R Y) ((P.using o oo).cells ((P.using o oo).net.run s pre)).pre.weights)
    (hrt : ∀ pre R X Y post, us = pre ++ Use.train R X Y :: post →
      P.shape.Regular P.dz R (matOf R X) (matOf R Y) (((P.times q).using o' oo').cells (((P.times q).using o' oo').net.run t pre)).pre.weights)
    (h : Stock LayerMemo)
    (hh : (P.using o oo).Stores (fun id m k => stands m k (ty id) (β1 id) (β2 id) (γ id)) (stands P.outputs (P.tree.neurons + 1) tyo β1o β2o γo)
      ((P.using o oo).cells s) h)
    (hht : ((P.times q).using o' oo').Stores (fun id m k => stands m k (ty id) (β1 id) (β2 id) (γ id)) (stands P.outputs (P.tree.neurons + 1) tyo β1o β2o γo)
      (((P.times q).using o' oo').cells t) h) :
    P.shape.Same (((P.times q).using o' oo').weights (((P.times q).using o' oo').net.run t us)) ((P.using o oo).weights ((P.using o oo).net.run s us)) := by
  obtain ⟨g, k1, k2⟩ := training_with_every_setting o oo ty β1 β2 γ tyo β1o β2o γo ho hb hout us s hi hus hr h hh
  obtain ⟨g', l1, l2⟩ := training_with_every_setting (P := P.times q) o' oo' ty β1 β2 γ tyo β1o β2o γo ho' hb' hout' us t hit hus
    (fun pre R X Y post e r hr => ⟨(hrt pre R X Y post e r hr).1, times_lossGrad q (hrt pre R X Y post e r hr).2⟩) h hht
  have hS : (P.times q).shape.Ok (P.times q).act := ho'.shape
  have k3 := times_path hq hs hso k1
  have := hS.mat_path_unique (List.forall₂_same.2 fun _ _ => rfl) ⟨Shape.Same.refl _ _, fun _ _ _ => MemoLike.refl _ _ _, MemoLike.refl _ _ _⟩ l1 k3
  exact l2.trans (this.1.trans k2.symm)

/-- C211. A whole call of `train()`: the weights it ends with are those the balanced optimisers make of the same shuffled batches for the multiplied loss. -/
theorem scale_of_the_loss_in_whole_training {L : Type} {q : ℝ} (hq : 0 < q) (o o' : ℕ → Opt) (oo oo' : Opt) (ty : ℕ → GradType) (β1 β2 γ : ℕ → ℝ) (tyo : GradType) (β1o β2o γo : ℝ)
    (hbal : ∀ id, Balanced q (ty id) (o id) (o' id)) (hbalo : Balanced q tyo oo oo')
    (ho : (P.using o oo).Ok) (hb : ∀ id, Stays (o id) (ty id) (β1 id) (β2 id)) (hout : Stays oo tyo β1o β2o)
    (hl : LossLooks P.shape) {d : TrainData.Data ℝ ℝ} (hs : Suits d P) {opts : Train.Opts L} {v : Train.Env L} (hv : Train.Starts v)
    {cd cd' : Train.CD} {tr : List Train.Ev} {err : Train.Err} (ht : Train.train opts v cd = some (cd', tr, err)) (hbs : cd.trainBs ≤ P.bs.maxTrainBS) {vmax : ℕ}
    {w w' : World (P.using o oo)} (hc : w.cur = cd.cur) (hr : TrainData.Reach vmax d w.td) (hi : (P.using o oo).Inv w.net) (h : Stock LayerMemo)
    (hh : (P.using o oo).Stores (fun id m k => stands m k (ty id) (β1 id) (β2 id) (γ id)) (stands P.outputs (P.tree.neurons + 1) tyo β1o β2o γo)
      ((P.using o oo).cells w.net) h)
    (hg : GoesWellIn P d (fun id => ruleOf (o id) (ty id) (β1 id) (β2 id) (γ id)) (ruleOf oo tyo β1o β2o γo P.outputs (P.tree.neurons + 1)) h)
    (hP : Plays (P.using o oo) vmax tr w w') :
    ∃ ords : List (ℕ → ℕ), ords.length = (Train.begunOf tr).length ∧ (∀ ord ∈ ords, Shuffled (d.count .train) cd.trainBs ord) ∧
      ∃ h', (P.times q).shape.MatPath P.upd P.uo (fun id => ruleOf (o' id) (ty id) (β1 id) (β2 id) (γ id)) (ruleOf oo' tyo β1o β2o γo P.outputs (P.tree.neurons + 1))
        (ords.flatMap (epochBatches d cd.trainBs)) h h' ∧ P.shape.Same h'.W ((P.using o oo).weights w'.net) := by
  obtain ⟨ords, k1, _, k2, g, k3, k4⟩ := whole_training_with_every_setting o oo ty β1 β2 γ tyo β1o β2o γo ho hb hout hl hs hv ht hbs hc hr hi h hh hg hP
  exact ⟨ords, k1, k2, g, times_path hq hbal hbalo k3, k4⟩

end Nntl.Sgd
