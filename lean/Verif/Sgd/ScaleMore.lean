import Verif.Sgd.ScaleProps

/-! C212: losses multiplied by a positive number, and the methods of the Adam family. Property theorems. -/
namespace Nntl.Sgd

open Nntl.Layers Nntl.Pass Nntl.Backprop Nntl.Grad Nntl.Matrix Nntl.Kernel
open Finset

/-! ### Specification -/

/-- As `Balanced`; or both optimisers are the same one of Adam, AdaMax, Nadam, RAdam, without penalties of weights, and the small constants of the second one are those of the first
one multiplied by `q`, all other settings being the same. -/
def Evened (q : ℝ) (ty : GradType) (o o' : Opt) : Prop :=
  Balanced q ty o o' ∨
    (∀ t, (o.app t).cfg.l1 = 0 ∧ (o.app t).cfg.l2 = 0) ∧ o'.pre = o.pre ∧ (ty = .adam ∨ ty = .adamax ∨ ty = .nadam ∨ ty = .radam) ∧
      o'.app = fun t => { o.app t with cfg := { (o.app t).cfg with eps := q * (o.app t).cfg.eps } }

/-- What an optimiser remembers of derivatives multiplied by `q`: running means of derivatives are multiplied by `q`, and so is the running maximum of AdaMax; running means of
squares by `q ^ 2`. -/
noncomputable def Memo.times (q : ℝ) (ty : GradType) (s : Memo) : Memo :=
  match ty with
  | .adam | .nadam | .radam => { s with a := q * s.a, b := q ^ 2 * s.b }
  | .adamax => { s with a := q * s.a, b := q * s.b }
  | _ => s

noncomputable def LayerMemo.times (q : ℝ) (ty : GradType) (s : LayerMemo) : LayerMemo := { s with cell := fun c j => (s.cell c j).times q ty }

/-- The same weights; for every matrix the memory is that of multiplied derivatives. -/
noncomputable def Stock.times (S : Shape) (q : ℝ) (ty : ℕ → GradType) (tyo : GradType) (h : Stock LayerMemo) : Stock LayerMemo :=
  ⟨h.W, fun i => match (mats S.tree S.inputs)[i]? with
    | some m => (h.body i).times q (ty m.id)
    | none => h.body i, h.out.times q tyo⟩

/-! ### Methods -/

theorem ratio_times {q : ℝ} (hq : 0 < q) (A B ε : ℝ) : q * A / (Real.sqrt (q ^ 2 * B) + q * ε) = A / (Real.sqrt B + ε) := by
  rw [Real.sqrt_mul (sq_nonneg q), Real.sqrt_sq hq.le, ← mul_add, mul_div_mul_left _ _ hq.ne']

theorem adam_times {q : ℝ} (hq : 0 < q) (η β1 β2 ε γ : ℝ) (n : ℕ) (a b g : ℝ) :
    method .adam ⟨η, β1, β2, q * ε, γ⟩ n (q * a) (q ^ 2 * b) (q * g) =
      ((q * (method .adam ⟨η, β1, β2, ε, γ⟩ n a b g).1.1, q ^ 2 * (method .adam ⟨η, β1, β2, ε, γ⟩ n a b g).1.2), (method .adam ⟨η, β1, β2, ε, γ⟩ n a b g).2) := by
  have e1 : β1 * (q * a) + (1 - β1) * (q * g) = q * (β1 * a + (1 - β1) * g) := by ring
  have e2 : β2 * (q ^ 2 * b) + (1 - β2) * (q * g) ^ 2 = q ^ 2 * (β2 * b + (1 - β2) * g ^ 2) := by ring
  simp only [method, e1, e2]
  rw [mul_div_assoc, ratio_times hq, ← mul_div_assoc]

theorem adamax_times {q : ℝ} (hq : 0 < q) (η β1 β2 ε γ : ℝ) (n : ℕ) (a b g : ℝ) :
    method .adamax ⟨η, β1, β2, q * ε, γ⟩ n (q * a) (q * b) (q * g) =
      ((q * (method .adamax ⟨η, β1, β2, ε, γ⟩ n a b g).1.1, q * (method .adamax ⟨η, β1, β2, ε, γ⟩ n a b g).1.2), (method .adamax ⟨η, β1, β2, ε, γ⟩ n a b g).2) := by
  have e1 : β1 * (q * a) + (1 - β1) * (q * g) = q * (β1 * a + (1 - β1) * g) := by ring
  have e2 : max (β2 * (q * b)) |q * g| = q * max (β2 * b) |g| := by
    rw [abs_mul, abs_of_pos hq, mul_left_comm, mul_max_of_nonneg _ _ hq.le]
  simp only [method, e1, e2]
  rw [mul_div_assoc, ← mul_add, mul_div_mul_left _ _ hq.ne', ← mul_div_assoc]

theorem nadam_times {q : ℝ} (hq : 0 < q) (η β1 β2 ε γ : ℝ) (n : ℕ) (a b g γ' : ℝ) :
    method.nadam ⟨η, β1, β2, q * ε, γ⟩ n (q * a) (q ^ 2 * b) (q * g) γ' =
      ((q * (method.nadam ⟨η, β1, β2, ε, γ⟩ n a b g γ').1.1, q ^ 2 * (method.nadam ⟨η, β1, β2, ε, γ⟩ n a b g γ').1.2), (method.nadam ⟨η, β1, β2, ε, γ⟩ n a b g γ').2) := by
  have e1 : ∀ c : ℝ, c * (q * a) + (1 - c) * (q * g) = q * (c * a + (1 - c) * g) := fun c => by ring
  have e2 : ∀ e : ℝ, e * (q ^ 2 * b) + (1 - e) * (q * g) ^ 2 = q ^ 2 * (e * b + (1 - e) * g ^ 2) := fun e => by ring
  have e3 : ∀ u v w A : ℝ, (if γ' = 0 then u * (q * A) + v * (q * g) else (1 - γ') * (q * A) + γ' * (q * g)) =
      q * (if γ' = 0 then u * A + v * g else (1 - γ') * A + γ' * g) := fun u v w A => by
    split <;> ring
  simp only [method.nadam, e1, e2, e3 _ _ 0]
  rw [ratio_times hq]

theorem cell_times {q : ℝ} (hq : 0 < q) {ty : GradType} (hty : ty = .adam ∨ ty = .adamax ∨ ty = .nadam ∨ ty = .radam) (η β1 β2 ε γ : ℝ) (push : Push) (gains : Option Gains)
    (pen : Bool → ℝ → ℝ) (keep : ℕ → ℕ → Bool) (limit : Option Limit) (hp : ∀ b x, pen b x = 0) (bias : Bool) (s : Memo) (w d : ℝ) :
    (⟨ty, ⟨η, β1, β2, q * ε, γ⟩, push, gains, pen, keep, limit⟩ : After).cell bias (s.times q ty) w (q * d) =
      (((⟨ty, ⟨η, β1, β2, ε, γ⟩, push, gains, pen, keep, limit⟩ : After).cell bias s w d).1.times q ty,
        ((⟨ty, ⟨η, β1, β2, ε, γ⟩, push, gains, pen, keep, limit⟩ : After).cell bias s w d).2) := by
  rcases hty with rfl | rfl | rfl | rfl
  · simp only [After.cell, Memo.times, hp, add_zero, adam_times hq]
  · simp only [After.cell, Memo.times, hp, add_zero, adamax_times hq]
  · simp only [After.cell, Memo.times, hp, add_zero, method, nadam_times hq]
  · simp only [After.cell, Memo.times, hp, add_zero, method, nadam_times hq]

/-! ### Rules -/

theorem evened_before {q : ℝ} {ty : GradType} {o o' : Opt} (h : Evened q ty o o') (β1 β2 γ : ℝ) (m k : ℕ) (s : LayerMemo) (w : Mat ℝ) :
    (ruleOf o' ty β1 β2 γ m k).before (s.times q ty) w = (((ruleOf o ty β1 β2 γ m k).before s w).1.times q ty, ((ruleOf o ty β1 β2 γ m k).before s w).2) := by
  have e : beforeOf o' m = beforeOf o m := by
    unfold beforeOf
    rw [show o'.pre = o.pre from h.elim (fun h => h.2.1) fun h => h.2.1]
  have hn : (s.times q ty).p = s.p := rfl
  have hv : ∀ c j, ((s.times q ty).cell c j).v = (s.cell c j).v := fun c j => by cases ty <;> rfl
  unfold ruleOf MatRule.scheduled
  dsimp only
  rw [e, hn]
  cases beforeOf o m s.p with
  | none => rfl
  | some a =>
    dsimp only
    unfold Ahead.go
    simp only [hv]
    refine Prod.ext ?_ rfl
    show LayerMemo.mk _ _ _ = LayerMemo.mk _ _ _
    congr 1
    funext c j
    cases ty <;> rfl

theorem evened_after {q : ℝ} (hq : 0 < q) {ty : GradType} {o o' : Opt} (h : Evened q ty o o') (β1 β2 γ : ℝ) (m k : ℕ) (s : LayerMemo) (w d : Mat ℝ) :
    (ruleOf o' ty β1 β2 γ m k).after (s.times q ty) w (fun c j => q * d c j) =
      (((ruleOf o ty β1 β2 γ m k).after s w d).1.times q ty, ((ruleOf o ty β1 β2 γ m k).after s w d).2) := by
  rcases h with h | ⟨hp, -, hty, e⟩
  · have hid : ∀ s : LayerMemo, s.times q ty = s := fun s => by rcases h.2.2 with ⟨rfl, -⟩ | ⟨rfl, -⟩ <;> rfl
    rw [hid, hid, balanced_after hq h]
  · have hn : (s.times q ty).t = s.t := rfl
    unfold ruleOf MatRule.scheduled afterOf
    dsimp only
    rw [e, hn]
    dsimp only
    cases hb : (o.app s.t).blocked with
    | true => simp only [if_true]; rfl
    | false =>
      simp only [Bool.false_eq_true, if_false]
      have h1 : ∀ b x, penaltySlope (o.app s.t).cfg.l1 (o.app s.t).cfg.l2 (o.app s.t).cfg.l1IgnBias (o.app s.t).cfg.l2IgnBias b x = 0 := fun b x => by
        simp [penaltySlope, (hp s.t).1, (hp s.t).2]
      have h2 : ∀ c j, (s.times q ty).cell c j = (s.cell c j).times q ty := fun _ _ => rfl
      unfold After.go
      simp only [h2, cell_times hq hty _ _ _ _ _ _ _ _ _ _ h1]
      rfl

/-! ### Paths -/

variable {P : Plan}

theorem Stock.times_body {S : Shape} {q : ℝ} {ty : ℕ → GradType} {tyo : GradType} {h : Stock LayerMemo} {i : ℕ} {m : MatInfo} (hm : (mats S.tree S.inputs)[i]? = some m) :
    (h.times S q ty tyo).body i = (h.body i).times q (ty m.id) := by
  unfold Stock.times
  dsimp only
  rw [hm]

section
variable {q : ℝ} {o o' : ℕ → Opt} {oo oo' : Opt} {ty : ℕ → GradType} {β1 β2 γ : ℕ → ℝ} {tyo : GradType} {β1o β2o γo : ℝ} {upd : ℕ → Bool} {uo : Bool} {M K : ℕ}

theorem evened_step (hq : 0 < q) (hb : ∀ id, Evened q (ty id) (o id) (o' id)) (hbo : Evened q tyo oo oo') {b : ℕ × Mat ℝ × Mat ℝ} {h g : Stock LayerMemo}
    (hp : P.shape.MatStep upd uo (fun id => ruleOf (o id) (ty id) (β1 id) (β2 id) (γ id)) (ruleOf oo tyo β1o β2o γo M K) b.1 b.2.1 b.2.2 h g) :
    (P.times q).shape.MatStep upd uo (fun id => ruleOf (o' id) (ty id) (β1 id) (β2 id) (γ id)) (ruleOf oo' tyo β1o β2o γo M K) b.1 b.2.1 b.2.2
      (h.times P.shape q ty tyo) (g.times P.shape q ty tyo) := by
  obtain ⟨L, k1, k2, k3, k4⟩ := hp
  refine ⟨L, fun i m hm => ?_, ?_⟩
  · obtain ⟨j1, j2, j3⟩ := k1 i m hm
    have ed : (fun c j => (P.times q).shape.dBody b.1 b.2.1 b.2.2 L i c j / (m.tiles : ℝ)) = fun c j => q * (P.shape.dBody b.1 b.2.1 b.2.2 L i c j / m.tiles) := by
      funext c j
      rw [times_dBody, mul_div_assoc]
    have hm' : (mats P.shape.tree P.shape.inputs)[i]? = some m := hm
    have hW : (h.times P.shape q ty tyo).W = h.W := rfl
    have hW' : (g.times P.shape q ty tyo).W = g.W := rfl
    dsimp only at j1 j2 j3 ⊢
    rw [Stock.times_body hm', Stock.times_body hm', hW, hW', evened_before (hb m.id), ed]
    dsimp only
    rw [evened_after hq (hb m.id)]
    refine ⟨j1, ?_, ?_⟩
    · rw [j2]
      split <;> rfl
    · cases hu : upd m.id <;> simpa [hu] using j3
  · have hW : (h.times P.shape q ty tyo).W = h.W := rfl
    have hW' : (g.times P.shape q ty tyo).W = g.W := rfl
    have hO : (h.times P.shape q ty tyo).out = h.out.times q tyo := rfl
    have hO' : (g.times P.shape q ty tyo).out = g.out.times q tyo := rfl
    dsimp only at k2 k3 k4 ⊢
    rw [hW, hW', hO, hO', evened_before hbo, times_dOut]
    dsimp only
    rw [evened_after hq hbo]
    refine ⟨k2, ?_, ?_⟩
    · rw [k3]
      split <;> rfl
    · show Agree P.shape.outputs (P.shape.tree.neurons + 1) _ _
      cases hu : uo <;> simpa [hu] using k4

theorem evened_path (hq : 0 < q) (hb : ∀ id, Evened q (ty id) (o id) (o' id)) (hbo : Evened q tyo oo oo') : ∀ {bs : List (ℕ × Mat ℝ × Mat ℝ)} {h g : Stock LayerMemo},
    P.shape.MatPath upd uo (fun id => ruleOf (o id) (ty id) (β1 id) (β2 id) (γ id)) (ruleOf oo tyo β1o β2o γo M K) bs h g →
    (P.times q).shape.MatPath upd uo (fun id => ruleOf (o' id) (ty id) (β1 id) (β2 id) (γ id)) (ruleOf oo' tyo β1o β2o γo M K) bs
      (h.times P.shape q ty tyo) (g.times P.shape q ty tyo)
  | [], h, g, ⟨h1, h2, h3⟩ => by
    refine ⟨h1, fun i m hm => ?_, ?_⟩
    · have hm' : (mats P.shape.tree P.shape.inputs)[i]? = some m := hm
      rw [Stock.times_body hm', Stock.times_body hm', h2 i m hm']
    · show g.out.times q tyo = h.out.times q tyo
      rw [h3]
  | _ :: _, _, _, ⟨_, l1, l2⟩ => ⟨_, evened_step hq hb hbo l1, evened_path hq hb hbo l2⟩

end

/-! ### Property theorems -/

/-- C212. As `scale_of_the_loss`, where layers may use methods of the Adam family too, with small constants multiplied by the factor; at first the second network has the same weights, and
its optimisers remember multiplied derivatives (new ones remember none: both are the same then). -/
theorem scale_of_the_loss_for_adam {q : ℝ} (hq : 0 < q) (o o' : ℕ → Opt) (oo oo' : Opt) (ty : ℕ → GradType) (β1 β2 γ : ℕ → ℝ) (tyo : GradType) (β1o β2o γo : ℝ)
    (hs : ∀ id, Evened q (ty id) (o id) (o' id)) (hso : Evened q tyo oo oo')
    (ho : (P.using o oo).Ok) (ho' : ((P.times q).using o' oo').Ok) (hb : ∀ id, Stays (o id) (ty id) (β1 id) (β2 id)) (hout : Stays oo tyo β1o β2o)
    (hb' : ∀ id, Stays (o' id) (ty id) (β1 id) (β2 id)) (hout' : Stays oo' tyo β1o β2o)
    (us : List (Use ℝ)) (s : NetS (P.using o oo).net) (t : NetS ((P.times q).using o' oo').net) (hi : (P.using o oo).Inv s) (hit : ((P.times q).using o' oo').Inv t)
    (hus : ∀ u ∈ us, (P.using o oo).Fits u)
    (hr : ∀ pre R X Y post, us = pre ++ Use.train R X Y :: post →
      P.shape.Regular P.dz R (matOf R X) (matOf R Y) ((P.using o oo).cells ((P.using o oo).net.run s pre)).pre.weights)
    (hrt : ∀ pre R X Y post, us = pre ++ Use.train R X Y :: post →
      P.shape.Regular P.dz R (matOf R X) (matOf R Y) (((P.times q).using o' oo').cells (((P.times q).using o' oo').net.run t pre)).pre.weights)
    (h : Stock LayerMemo)
    (hh : (P.using o oo).Stores (fun id m k => stands m k (ty id) (β1 id) (β2 id) (γ id)) (stands P.outputs (P.tree.neurons + 1) tyo β1o β2o γo)
      ((P.using o oo).cells s) h)
    (hht : ((P.times q).using o' oo').Stores (fun id m k => stands m k (ty id) (β1 id) (β2 id) (γ id)) (stands P.outputs (P.tree.neurons + 1) tyo β1o β2o γo)
      (((P.times q).using o' oo').cells t) (h.times P.shape q ty tyo)) :
    P.shape.Same (((P.times q).using o' oo').weights (((P.times q).using o' oo').net.run t us)) ((P.using o oo).weights ((P.using o oo).net.run s us)) := by
  obtain ⟨g, k1, k2⟩ := training_with_every_setting o oo ty β1 β2 γ tyo β1o β2o γo ho hb hout us s hi hus hr h hh
  obtain ⟨g', l1, l2⟩ := training_with_every_setting (P := P.times q) o' oo' ty β1 β2 γ tyo β1o β2o γo ho' hb' hout' us t hit hus
    (fun pre R X Y post e r hr => ⟨(hrt pre R X Y post e r hr).1, times_lossGrad q (hrt pre R X Y post e r hr).2⟩) _ hht
  have hS : (P.times q).shape.Ok (P.times q).act := ho'.shape
  have k3 := evened_path hq hs hso k1
  have := hS.mat_path_unique (List.forall₂_same.2 fun _ _ => rfl) ⟨Shape.Same.refl _ _, fun _ _ _ => MemoLike.refl _ _ _, MemoLike.refl _ _ _⟩ l1 k3
  exact l2.trans (this.1.trans k2.symm)

/-- C212. A whole call of `train()`: the weights it ends with are those the evened optimisers make of the same shuffled batches for the multiplied loss. -/
theorem scale_of_the_loss_for_adam_in_whole_training {L : Type} {q : ℝ} (hq : 0 < q) (o o' : ℕ → Opt) (oo oo' : Opt) (ty : ℕ → GradType) (β1 β2 γ : ℕ → ℝ) (tyo : GradType)
    (β1o β2o γo : ℝ) (hbal : ∀ id, Evened q (ty id) (o id) (o' id)) (hbalo : Evened q tyo oo oo')
    (ho : (P.using o oo).Ok) (hb : ∀ id, Stays (o id) (ty id) (β1 id) (β2 id)) (hout : Stays oo tyo β1o β2o)
    (hl : LossLooks P.shape) {d : TrainData.Data ℝ ℝ} (hs : Suits d P) {opts : Train.Opts L} {v : Train.Env L} (hv : Train.Starts v)
    {cd cd' : Train.CD} {tr : List Train.Ev} {err : Train.Err} (ht : Train.train opts v cd = some (cd', tr, err)) (hbs : cd.trainBs ≤ P.bs.maxTrainBS) {vmax : ℕ}
    {w w' : World (P.using o oo)} (hc : w.cur = cd.cur) (hr : TrainData.Reach vmax d w.td) (hi : (P.using o oo).Inv w.net) (h : Stock LayerMemo)
    (hh : (P.using o oo).Stores (fun id m k => stands m k (ty id) (β1 id) (β2 id) (γ id)) (stands P.outputs (P.tree.neurons + 1) tyo β1o β2o γo)
      ((P.using o oo).cells w.net) h)
    (hg : GoesWellIn P d (fun id => ruleOf (o id) (ty id) (β1 id) (β2 id) (γ id)) (ruleOf oo tyo β1o β2o γo P.outputs (P.tree.neurons + 1)) h)
    (hP : Plays (P.using o oo) vmax tr w w') :
    ∃ ords : List (ℕ → ℕ), ords.length = (Train.begunOf tr).length ∧ (∀ ord ∈ ords, Shuffled (d.count .train) cd.trainBs ord) ∧
      ∃ h', (P.times q).shape.MatPath P.upd P.uo (fun id => ruleOf (o' id) (ty id) (β1 id) (β2 id) (γ id)) (ruleOf oo' tyo β1o β2o γo P.outputs (P.tree.neurons + 1))
        (ords.flatMap (epochBatches d cd.trainBs)) (h.times P.shape q ty tyo) h' ∧ P.shape.Same h'.W ((P.using o oo).weights w'.net) := by
  obtain ⟨ords, k1, _, k2, g, k3, k4⟩ := whole_training_with_every_setting o oo ty β1 β2 γ tyo β1o β2o γo ho hb hout hl hs hv ht hbs hc hr hi h hh hg hP
  exact ⟨ords, k1, k2, _, evened_path hq hbal hbalo k3, k4⟩

end Nntl.Sgd
