import Verif.Sgd.PenWhole

/-! C206: with L1 penalties training is subgradient descent with the least subgradients, also where weights are 0. Property theorems. -/
namespace Nntl.Sgd

open Nntl.Layers Nntl.Pass Nntl.Backprop Nntl.Matrix Nntl.Kernel
open Finset

/-! ### Specification -/

/-- `ξ` is a subgradient of the penalty at `w`: a line with this slope through its value at `w` is below it everywhere. -/
def Penalty.Sub (p : Penalty) (bias : Bool) (w ξ : ℝ) : Prop := ∀ v, p.cost bias w + ξ * (v - w) ≤ p.cost bias v

/-- The subgradient with the least absolute value. -/
def Penalty.Least (p : Penalty) (bias : Bool) (w ξ : ℝ) : Prop := p.Sub bias w ξ ∧ ∀ ξ', p.Sub bias w ξ' → |ξ| ≤ |ξ'|

/-- Penalties are not rewards. -/
def Penalties.Real (p : Penalties) : Prop := (∀ id, 0 ≤ (p.body id).l1 ∧ 0 ≤ (p.body id).l2) ∧ 0 ≤ p.out.l1 ∧ 0 ≤ p.out.l2

/-- One step of subgradient descent: the derivatives of the mean loss exist; of the penalties the least subgradients are taken. -/
def Shape.SubStep (S : Shape) (η : Rates) (p : Penalties) (R : ℕ) (X Y : Mat ℝ) (W W' : Weights) : Prop :=
  (∀ i m, (mats S.tree S.inputs)[i]? = some m → ∀ c < m.rows, ∀ j < m.cols, DifferentiableAt ℝ (fun t => S.meanLoss R X Y (W.bumpBody i c j t)) 0 ∧
    ∃ ξ, (p.body m.id).Least (decide (j + 1 = m.cols)) (W.body i c j) ξ ∧
      W'.body i c j = W.body i c j - η.body m.id * (deriv (fun t => S.meanLoss R X Y (W.bumpBody i c j t)) 0 / m.tiles + ξ)) ∧
  ∀ c < S.outputs, ∀ j < S.tree.neurons + 1, DifferentiableAt ℝ (fun t => S.meanLoss R X Y (W.bumpOut c j t)) 0 ∧
    ∃ ξ, p.out.Least (decide (j + 1 = S.tree.neurons + 1)) (W.out c j) ξ ∧
      W'.out c j = W.out c j - η.out * (deriv (fun t => S.meanLoss R X Y (W.bumpOut c j t)) 0 + ξ)

def Shape.SubPath (S : Shape) (η : Rates) (p : Penalties) : List (ℕ × Mat ℝ × Mat ℝ) → Weights → Weights → Prop
  | [], W, W' => S.Same W W'
  | b :: bs, W, W' => ∃ W1, S.SubStep η p b.1 b.2.1 b.2.2 W W1 ∧ S.SubPath η p bs W1 W'

/-- Training on the samples goes well: wherever subgradient descent on batches of training samples leads from `W0`, the loss of every sample has derivatives. -/
def SubGoesWell (P : Plan) (η : Rates) (p : Penalties) (d : TrainData.Data ℝ ℝ) (W0 : Weights) : Prop :=
  ∀ bs W, (∀ b ∈ bs, Drawn d b) → P.shape.SubPath η p bs W0 W → ∀ k < d.count .train, P.shape.RegularAt P.dz (feature d k) (label d k) W

/-! ### Subgradients -/

theorem Penalty.slope_sub {p : Penalty} (h1 : 0 ≤ p.l1) (h2 : 0 ≤ p.l2) (bias : Bool) (w : ℝ) : p.Sub bias w (p.slope bias w) := by
  intro v
  unfold Penalty.cost Penalty.slope penaltySlope
  have a : (if p.ign1 && bias then (0 : ℝ) else p.l1 * |w|) +
      (if p.ign1 && bias then 0 else p.l1 * ((if 0 < w then 1 else 0) - if w < 0 then 1 else 0)) * (v - w) ≤ if p.ign1 && bias then 0 else p.l1 * |v| := by
    split
    · simp
    · have : |w| + ((if 0 < w then (1 : ℝ) else 0) - if w < 0 then 1 else 0) * (v - w) ≤ |v| := by
        rcases lt_trichotomy w 0 with h | h | h
        · rw [if_neg (not_lt.2 h.le), if_pos h, abs_of_neg h]
          linarith [neg_abs_le v]
        · subst h
          simp
        · rw [if_pos h, if_neg (not_lt.2 h.le), abs_of_pos h]
          linarith [le_abs_self v]
      nlinarith [mul_le_mul_of_nonneg_left this h1]
  have b : (if p.ign2 && bias then (0 : ℝ) else p.l2 * w ^ 2 / 2) + (if p.ign2 && bias then 0 else p.l2 * w) * (v - w) ≤
      if p.ign2 && bias then 0 else p.l2 * v ^ 2 / 2 := by
    split
    · simp
    · nlinarith [mul_nonneg h2 (sq_nonneg (v - w))]
  linarith

theorem Penalty.sub_unique {p : Penalty} {bias : Bool} {w ξ : ℝ} (h : p.Smooth bias w) (hs : p.Sub bias w ξ) : ξ = p.slope bias w := by
  have h1 := (Penalty.cost_slope h).fun_sub ((hasDerivAt_id (0 : ℝ)).const_mul ξ)
  have h2 : IsLocalMin (fun t => p.cost bias (w + t) - ξ * id t) 0 := by
    refine Filter.Eventually.of_forall fun t => ?_
    have := hs (w + t)
    simp only [id, add_zero, mul_zero, sub_zero]
    rw [add_sub_cancel_left] at this
    linarith
  have := h2.hasDerivAt_eq_zero h1
  linarith

theorem Penalty.slope_least {p : Penalty} (h1 : 0 ≤ p.l1) (h2 : 0 ≤ p.l2) (bias : Bool) (w : ℝ) : p.Least bias w (p.slope bias w) := by
  refine ⟨Penalty.slope_sub h1 h2 bias w, fun ξ' hs => ?_⟩
  by_cases hw : w = 0
  · have : p.slope bias w = 0 := by
      subst hw
      simp [Penalty.slope, penaltySlope]
    rw [this, abs_zero]
    exact abs_nonneg _
  · rw [Penalty.sub_unique (.inr (.inr hw)) hs]

/-- There is one least subgradient only. -/
theorem Penalty.Least.unique {p : Penalty} {bias : Bool} {w ξ ξ' : ℝ} (h : p.Least bias w ξ) (h' : p.Least bias w ξ') : ξ = ξ' := by
  have e : |ξ| = |ξ'| := le_antisymm (h.2 _ h'.1) (h'.2 _ h.1)
  rcases abs_eq_abs.1 e with e | e
  · exact e
  · have h0 : p.Sub bias w 0 := fun v => by
      have a := h.1 v
      have b := h'.1 v
      rw [e] at a
      linarith
    have := h.2 0 h0
    rw [abs_zero] at this
    have z := abs_nonpos_iff.1 this
    rw [z] at e
    linarith

/-! ### Paths -/

section
variable {S : Shape} {act : ℕ → Act.Act} {η : Rates} {p : Penalties}

theorem Shape.Ok.subStep_congr (h : S.Ok act) {R : ℕ} {X Y : Mat ℝ} {W W' V : Weights} (hw : S.Same W W') (hd : S.SubStep η p R X Y W V) : S.SubStep η p R X Y W' V := by
  refine ⟨fun i m hm c hc j hj => ?_, fun c hc j hj => ?_⟩
  · have e : (fun t => S.meanLoss R X Y (W'.bumpBody i c j t)) = fun t => S.meanLoss R X Y (W.bumpBody i c j t) :=
      funext fun t => (h.meanLoss_congr (same_bumpBody hw i c j t) R X Y).symm
    rw [e, ← hw.1 i m hm c hc j hj]
    exact hd.1 i m hm c hc j hj
  · have e : (fun t => S.meanLoss R X Y (W'.bumpOut c j t)) = fun t => S.meanLoss R X Y (W.bumpOut c j t) :=
      funext fun t => (h.meanLoss_congr (same_bumpOut hw c j t) R X Y).symm
    rw [e, ← hw.2 c hc j hj]
    exact hd.2 c hc j hj

theorem Shape.Ok.subPath_congr (h : S.Ok act) : ∀ (bs : List (ℕ × Mat ℝ × Mat ℝ)) {W W' V : Weights}, S.Same W W' → S.SubPath η p bs W V → S.SubPath η p bs W' V
  | [], _, _, _, hw, hp => hw.symm.trans hp
  | _ :: _, _, _, _, hw, ⟨W1, h1, h2⟩ => ⟨W1, h.subStep_congr hw h1, h2⟩

/-- C206. Subgradient descent has one result only. -/
theorem Shape.Ok.subPath_unique (h : S.Ok act) : ∀ (bs : List (ℕ × Mat ℝ × Mat ℝ)) {W W' V V' : Weights}, S.Same W W' → S.SubPath η p bs W V →
    S.SubPath η p bs W' V' → S.Same V V'
  | [], _, _, _, _, hw, hp, hp' => hp.symm.trans (hw.trans hp')
  | _ :: bs, _, _, _, _, hw, ⟨_, h1, h2⟩, ⟨_, h1', h2'⟩ => by
    have h1' := h.subStep_congr hw.symm h1'
    refine subPath_unique h bs ⟨fun i m hm c hc j hj => ?_, fun c hc j hj => ?_⟩ h2 h2'
    · obtain ⟨_, ξ, l1, e1⟩ := h1.1 i m hm c hc j hj
      obtain ⟨_, ξ', l2, e2⟩ := h1'.1 i m hm c hc j hj
      rw [e1, e2, l1.unique l2]
    · obtain ⟨_, ξ, l1, e1⟩ := h1.2 c hc j hj
      obtain ⟨_, ξ', l2, e2⟩ := h1'.2 c hc j hj
      rw [e1, e2, l1.unique l2]

theorem Shape.Ok.subStep_like (h : S.Ok act) (hl : LossLooks S) {b b' : ℕ × Mat ℝ × Mat ℝ} (hb : Like S b b') {W W' : Weights}
    (hd : S.SubStep η p b.1 b.2.1 b.2.2 W W') : S.SubStep η p b'.1 b'.2.1 b'.2.2 W W' := by
  unfold Shape.SubStep at hd ⊢
  simp only [h.meanLoss_like hl hb] at hd
  exact hd

theorem Shape.Ok.subPath_append (h : S.Ok act) : ∀ (as bs : List (ℕ × Mat ℝ × Mat ℝ)) {U V W : Weights}, S.SubPath η p as U V → S.SubPath η p bs V W →
    S.SubPath η p (as ++ bs) U W
  | [], bs, _, _, _, h1, h2 => h.subPath_congr bs h1.symm h2
  | _ :: as, bs, _, _, _, ⟨W1, h1, h2⟩, h3 => ⟨W1, h1, subPath_append h as bs h2 h3⟩

theorem Shape.SubPath.same : ∀ (bs : List (ℕ × Mat ℝ × Mat ℝ)) {U V W : Weights}, S.SubPath η p bs U V → S.Same V W → S.SubPath η p bs U W
  | [], _, _, _, h1, h2 => h1.trans h2
  | _ :: bs, _, _, _, ⟨W1, h1, h2⟩, h3 => ⟨W1, h1, same bs h2 h3⟩

end

variable {P : Plan} {η : Rates} {p : Penalties} {vmax : ℕ} {d : TrainData.Data ℝ ℝ} {L : Type}

/-! ### Property theorems -/

/-- C206. One training step after any history, at any weights where the loss has derivatives, is a step of subgradient descent. -/
theorem penalised_step_is_subgradient_descent (ho : P.Ok) (hp : P.Decaying η p) (hq : p.Real) (s0 : NetS P.net) (hi : P.Inv s0) (us : List (Use ℝ))
    (hus : ∀ u ∈ us, P.Fits u) (R : ℕ) (X Y : Mem ℝ) (hu : P.Fits (.train R X Y))
    (hr : P.shape.Regular P.dz R (matOf R X) (matOf R Y) (P.weights (P.net.run s0 us))) :
    P.shape.SubStep η p R (matOf R X) (matOf R Y) (P.weights (P.net.run s0 us)) (P.weights (P.net.step (P.net.run s0 us) (.train R X Y)).1) := by
  obtain ⟨h1, h2⟩ := penalised_step ho hp s0 hi us hus R X Y hu hr
  refine ⟨fun i m hm c hc j hj => ?_, fun c hc j hj => ?_⟩
  · obtain ⟨hd, e⟩ := h1 i m hm c hc j hj
    exact ⟨hd, _, Penalty.slope_least (hq.1 m.id).1 (hq.1 m.id).2 _ _, e⟩
  · obtain ⟨hd, e⟩ := h2 c hc j hj
    exact ⟨hd, _, Penalty.slope_least hq.2.1 hq.2.2 _ _, e⟩

theorem uses_subPath (ho : P.Ok) (hp : P.Decaying η p) (hq : p.Real) (hl : LossLooks P.shape) {s0 : NetS P.net} (hi : P.Inv s0)
    (hg : SubGoesWell P η p d (P.weights s0)) (us : List (Use ℝ)) : (∀ u ∈ us, P.Fits u) → ∀ bs, List.Forall₂ (Like P.shape) (batches us) bs →
    (∀ b ∈ bs, Drawn d b) → P.shape.SubPath η p bs (P.weights s0) (P.weights (P.net.run s0 us)) := by
  induction us using List.reverseRecOn with
  | nil =>
    intro _ bs hf _
    cases hf
    exact Shape.Same.refl _ _
  | append_singleton us u ih =>
    intro hus bs hf hd
    have hus1 : ∀ v ∈ us, P.Fits v := fun v hv => hus v (List.mem_append_left _ hv)
    have hu := hus u (List.mem_append_right _ List.mem_cons_self)
    have er : P.net.run s0 (us ++ [u]) = (P.net.step (P.net.run s0 us) u).1 := by unfold Net.run; rw [List.foldl_append]; rfl
    rw [er]
    rw [batches_append] at hf
    cases u with
    | eval R X =>
      rw [show batches [Use.eval R X] = [] from rfl, List.append_nil] at hf
      have h1 := SameCells.weights (evaluation_keeps_cells ho _ (run_inv ho.trains ho.outLawful ho.net_ok ho.sizes us s0 hi fun u hu => (hus1 u hu).ok ho) R X hu)
      exact (ih hus1 bs hf hd).same _ ((cells_weights ho _).symm.trans (h1.symm.trans (cells_weights ho _)))
    | train R X Y =>
      rw [show batches [Use.train R X Y] = [(R, matOf R X, matOf R Y)] from rfl] at hf
      obtain ⟨as, cs, h1, h2, rfl⟩ := forall₂_split hf
      have h2 : List.Forall₂ (Like P.shape) [(R, matOf R X, matOf R Y)] cs := h2
      cases h2 with
      | cons hb h3 =>
        cases h3
        rename_i b
        have ih := ih hus1 as h1 fun c hc => hd c (List.mem_append_left _ hc)
        have hb' := hd b (List.mem_append_right _ List.mem_cons_self)
        refine ho.shape.subPath_append _ _ ih ⟨_, ho.shape.subStep_like hl hb
          (penalised_step_is_subgradient_descent ho hp hq s0 hi us hus1 R X Y hu fun r hr => ?_), Shape.Same.refl _ _⟩
        obtain ⟨k, hk, e1, e2⟩ := hb' r (hb.1 ▸ hr)
        obtain ⟨q1, q2⟩ := hb.2 r hr
        exact ho.shape.regular_like hl (fun j hj => (congrFun e1 j).symm.trans (q1 j hj).symm) (fun j hj => (congrFun e2 j).symm.trans (q2 j hj).symm)
          (hg as _ (fun c hc => hd c (List.mem_append_left _ hc)) ih k hk)

/-- C206. Any history of evaluations and training steps. -/
theorem penalised_training_is_subgradient_descent (ho : P.Ok) (hp : P.Decaying η p) (hq : p.Real) : ∀ (us : List (Use ℝ)) (s0 : NetS P.net), P.Inv s0 →
    (∀ u ∈ us, P.Fits u) →
    (∀ pre R X Y post, us = pre ++ Use.train R X Y :: post → P.shape.Regular P.dz R (matOf R X) (matOf R Y) (P.weights (P.net.run s0 pre))) →
    P.shape.SubPath η p (batches us) (P.weights s0) (P.weights (P.net.run s0 us))
  | [], s0, _, _, _ => Shape.Same.refl _ _
  | u :: us, s0, hi, hus, hr => by
    have hi1 : P.Inv (P.net.step s0 u).1 := run_inv ho.trains ho.outLawful ho.net_ok ho.sizes [u] s0 hi fun v hv => by
      obtain rfl := List.mem_singleton.1 hv
      exact (hus v List.mem_cons_self).ok ho
    have ih := penalised_training_is_subgradient_descent ho hp hq us (P.net.step s0 u).1 hi1 (fun v hv => hus v (List.mem_cons_of_mem _ hv))
      fun pre R X Y post e => hr (u :: pre) R X Y post (by rw [e]; rfl)
    have e : P.net.run s0 (u :: us) = P.net.run (P.net.step s0 u).1 us := rfl
    rw [e]
    cases u with
    | eval R X =>
      have h1 := SameCells.weights (evaluation_keeps_cells ho s0 hi R X (hus _ List.mem_cons_self))
      exact ho.shape.subPath_congr _ ((cells_weights ho _).symm.trans (h1.trans (cells_weights ho _))) ih
    | train R X Y =>
      exact ⟨_, penalised_step_is_subgradient_descent ho hp hq s0 hi [] (fun _ h => by cases h) R X Y (hus _ List.mem_cons_self) (hr [] R X Y us rfl), ih⟩

/-- C206. A training that starts: there is an order of the training samples for every epoch that was begun, such that the weights at the end are those of subgradient
descent over the batches of these epochs; a training that ends with success, without callbacks that stop it, has as many epochs as were asked for. -/
theorem whole_penalised_training_is_subgradient_descent (ho : P.Ok) (hp : P.Decaying η p) (hq : p.Real) (hl : LossLooks P.shape) (hs : Suits d P)
    {o : Train.Opts L} {v : Train.Env L} (hv : Train.Starts v)
    {cd cd' : Train.CD} {tr : List Train.Ev} {err : Train.Err} (ht : Train.train o v cd = some (cd', tr, err)) (hb : cd.trainBs ≤ P.bs.maxTrainBS)
    {w w' : World P} (hc : w.cur = cd.cur) (hr : TrainData.Reach vmax d w.td) (hi : P.Inv w.net) (hg : SubGoesWell P η p d (P.weights w.net))
    (hP : Plays P vmax tr w w') :
    ∃ ords : List (ℕ → ℕ), ords.length = (Train.begunOf tr).length ∧ (err = .success → (∀ e, v.cb e = true) → ords.length = o.flags.length) ∧
      (∀ ord ∈ ords, Shuffled (d.count .train) cd.trainBs ord) ∧
      P.shape.SubPath η p (ords.flatMap (epochBatches d cd.trainBs)) (P.weights w.net) (P.weights w'.net) := by
  obtain ⟨ords, h1, h2, h3, us, k1, k2, k3⟩ := whole_training_past hs hv ht hb hc hr hP
  refine ⟨ords, h1, fun he hcb => ?_, h2, ?_⟩
  · subst he
    obtain ⟨k, _, hk, _, hbg, _⟩ := Train.train_runs_epochs_partial hv ht
    rw [h1, hbg, List.length_range]
    rcases hk with hk | ⟨_, hk⟩
    · exact hk
    · rw [hcb] at hk; exact absurd hk (by decide)
  · rw [k3]
    exact uses_subPath ho hp hq hl hi hg us k1 _ k2 h3

end Nntl.Sgd
