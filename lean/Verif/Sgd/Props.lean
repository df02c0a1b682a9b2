import Verif.Sgd.Net

/-! C187–C190: what a network of fully connected layers calculates as a function of its weights, and plain gradient descent. Property theorems. -/
namespace Nntl.Sgd

open Nntl.Layers Nntl.Pass Nntl.Backprop
open Finset

variable {P : Plan} {η : Rates}

theorem Plan.Ok.net_ok (ho : P.Ok) : P.net.out.inc = P.net.body.neurons := ho.diff.2.2.symm

theorem Plan.Fits.ok (ho : P.Ok) {u : Use ℝ} (h : P.Fits u) : u.Ok P.bs.maxBS P.bs.maxTrainBS P.net.body.inc := by
  have e : P.net.body.inc = P.inputs := ho.diff.2.1
  rw [e]; exact h

/-- C187. Whatever happened to a network before, what it shows for a batch (in evaluation and in training) is, row by row, a function of the sample in the row
and of the weights: the composition of its layers. It does not depend on the other samples of the batch, on the size of the batch, on the mode or on anything
else that the network remembers. -/
theorem answers_are_a_function (ho : P.Ok) (hp : P.Plain η) (s0 : NetS P.net) (hi : P.Inv s0) (us : List (Use ℝ)) (hus : ∀ u ∈ us, P.Fits u) (b : Bool) (R : ℕ)
    (X : Mem ℝ) (h0 : 0 < R) (hR : R ≤ P.bs.maxBS) (hX : Ones R P.inputs X) :
    Shows R P.outputs (P.net.fprop (P.net.to b R (P.net.run s0 us)) X).1.ao fun r => P.shape.answer (P.weights (P.net.run s0 us)) (matOf R X r) := by
  have hi := run_inv ho.trains ho.outLawful ho.net_ok ho.sizes us s0 hi fun u hu => (hus u hu).ok ho
  generalize P.net.run s0 us = s at *
  obtain ⟨h1, h2, h3⟩ := to_inv ho.trains ho.outLawful b hR hi
  have hs := Plan.fprop_same ho hp b R s X
  have ei : P.net.body.inc = P.inputs := ho.diff.2.1
  generalize P.net.to b R s = t at *
  obtain ⟨_, hr, _, _, hready, _⟩ := net_fprop ho.trains ho.outLawful ho.net_ok h1 (by omega) (by omega) (A := X) (X := matOf R X)
    (by rw [h2]; exact fun _ _ _ _ => rfl) (by rw [h2, ei]; exact hX)
  obtain ⟨_, _, _, h7⟩ := hready
  rw [hr, h2] at h7
  intro r hr' c hc
  rw [h7 r hr' c hc]
  exact (congrArg (fun z => P.last z c) (shown ho.isNet ho.diff.2.2 h0 _ _ (matOf R X) hr')).trans (ho.shape.answer_congr hs (matOf R X r) c hc)

/-- C187. Evaluating a network does not change its weights. -/
theorem evaluation_keeps_weights (ho : P.Ok) (hp : P.Plain η) (s : NetS P.net) (R : ℕ) (X : Mem ℝ) :
    P.shape.Same (P.weights (P.net.step s (.eval R X)).1) (P.weights s) := Plan.fprop_same ho hp false R s X

mutual
theorem tiles_pos (l : Layer) (n : ℕ) (hp : l.AllPacks FieldsInside Divisible n) : ∀ m ∈ mats l n, 0 < m.tiles := by
  match l with
  | .leaf id l => intro m hm; simp only [mats, List.mem_singleton] at hm; subst hm; exact Nat.one_pos
  | .vert _ f r =>
    intro m hm
    simp only [mats, List.mem_append] at hm
    rcases hm with hm | hm
    · exact tiles_pos f n hp.1 m hm
    · exact tilesS_pos r _ hp.2 m hm
  | .horiz _ add fs =>
    simp only [Layer.AllPacks] at hp
    exact tilesF_pos fs hp.2
  | .tile id k l =>
    obtain ⟨⟨hk, _⟩, hp⟩ := hp
    intro m hm
    simp only [mats, List.mem_map] at hm
    obtain ⟨m0, h0, rfl⟩ := hm
    exact Nat.mul_pos hk (tiles_pos l _ hp m0 h0)
theorem tilesS_pos (r : Stack) (n : ℕ) (hp : r.AllPacks FieldsInside Divisible n) : ∀ m ∈ matsS r n, 0 < m.tiles := by
  match r with
  | .nil => intro m hm; simp only [matsS, List.not_mem_nil] at hm
  | .cons l r =>
    intro m hm
    simp only [matsS, List.mem_append] at hm
    rcases hm with hm | hm
    · exact tiles_pos l n hp.1 m hm
    · exact tilesS_pos r _ hp.2 m hm
theorem tilesF_pos (fs : Fields) (hp : fs.AllPacks FieldsInside Divisible) : ∀ m ∈ matsF fs, 0 < m.tiles := by
  match fs with
  | .nil => intro m hm; simp only [matsF, List.not_mem_nil] at hm
  | .cons ofs cnt l r =>
    intro m hm
    simp only [matsF, List.mem_append] at hm
    rcases hm with hm | hm
    · exact tiles_pos l cnt hp.1 m hm
    · exact tilesF_pos r hp.2 m hm
end

theorem tiles_ne {l : Layer} {n : ℕ} (hp : l.AllPacks FieldsInside Divisible n) {i : ℕ} {m : MatInfo} (hi : (mats l n)[i]? = some m) : (m.tiles : ℝ) ≠ 0 :=
  Nat.cast_ne_zero.2 (Nat.pos_iff_ne_zero.1 (tiles_pos l n hp m (List.mem_of_getElem? hi)))

/-- C188. One training step after any history is one step of gradient descent on the mean loss of the batch, as a function of all weights of the network: from
every weight of every layer, at any depth of vertical, horizontal and tile packs, its learning rate times the derivative of the mean loss is subtracted. (In tile
packs the derivative is divided by the number of tiles.) The weights before the step count. The derivatives exist. -/
theorem training_step_is_descent (ho : P.Ok) (hp : P.Plain η) (s0 : NetS P.net) (hi : P.Inv s0) (us : List (Use ℝ)) (hus : ∀ u ∈ us, P.Fits u) (R : ℕ)
    (X Y : Mem ℝ) (hu : P.Fits (.train R X Y)) (hr : P.shape.Regular P.dz R (matOf R X) (matOf R Y) (P.weights (P.net.run s0 us))) :
    P.shape.Descent η R (matOf R X) (matOf R Y) (P.weights (P.net.run s0 us)) (P.weights (P.net.step (P.net.run s0 us) (.train R X Y)).1) ∧
    (∀ i m, (mats P.tree P.inputs)[i]? = some m → ∀ c < m.rows, ∀ j < m.cols,
      DifferentiableAt ℝ (fun t => P.shape.meanLoss R (matOf R X) (matOf R Y) ((P.weights (P.net.run s0 us)).bumpBody i c j t)) 0) ∧
    ∀ c < P.outputs, ∀ j < P.tree.neurons + 1,
      DifferentiableAt ℝ (fun t => P.shape.meanLoss R (matOf R X) (matOf R Y) ((P.weights (P.net.run s0 us)).bumpOut c j t)) 0 := by
  obtain ⟨_, _, _, h4, h5⟩ := training_step_spec (w := P.net) ho.trains ho.outLawful ho.net_ok ho.sizes s0 hi us (fun u hu => (hus u hu).ok ho) R X Y (hu.ok ho)
  have hs := Plan.fprop_same ho hp true R (P.net.run s0 us) X
  have hn := ho.isNet
  obtain ⟨ρb, hgb, hρb⟩ := hp.body
  obtain ⟨hD, _, hneu⟩ := ho.diff
  obtain ⟨ρ, hg, hρ⟩ := hp.out
  generalize hs1 : (P.net.fprop (P.net.to true R (P.net.run s0 us)) X).1 = s1 at *
  generalize hs2 : (P.net.step (P.net.run s0 us) (.train R X Y)).1 = s2 at *
  generalize P.net.run s0 us = s at *
  obtain ⟨hsm, hsl⟩ := slopes_of_state ho.shape hD hn hneu (fun R s X => fcDiffs_pen P.tree P.bs P.inputs R s X) hu.1 P.uo s1.body s1.out (matOf R X)
    (matOf R Y) (ho.shape.regular_congr hs.symm hr)
  have hstep := hn.reads.stepped hgb (hn.step _ _ _ (hD.upd _ _ _ _ _ hsm h5))
  have hout := updated_plain hg h4
  obtain ⟨k1, k2⟩ := (hsl.congr ho.shape hs).single ho.shape
  refine ⟨⟨fun i m hm c hc j hj => ?_, fun c hc j hj => ?_⟩, fun i m hm c hc j hj => (k1 i m hm c hc j hj).differentiableAt,
    fun c hc j hj => (k2 c hc j hj).differentiableAt⟩
  · have e := (k1 i m hm c hc j hj).deriv
    have e1 := hstep i m hm c hc j hj
    have e2 := hs.1 i m hm c hc j hj
    show (P.weights s2).body i c j = (P.weights s).body i c j - η.body m.id * (deriv _ 0 / m.tiles)
    rw [e, mul_div_cancel_left₀ _ (tiles_ne ho.packs hm), ← e2, hρb]
    exact e1
  · have e := (k2 c hc j hj).deriv
    have e1 := hout c hc j hj
    have e2 := hs.2 c hc j hj
    show (P.weights s2).out c j = (P.weights s).out c j - η.out * deriv _ 0
    rw [e, ← e2, hρ]
    exact e1

/-! ### Paths -/

section
variable {S : Shape} {act : ℕ → Act.Act}

theorem Shape.Ok.descent_congr (h : S.Ok act) {R : ℕ} {X Y : Mat ℝ} {W W' V V' : Weights} (hw : S.Same W W') (hv : S.Same V V') (hd : S.Descent η R X Y W V) :
    S.Descent η R X Y W' V' := by
  refine ⟨fun i m hm c hc j hj => ?_, fun c hc j hj => ?_⟩
  · rw [← hv.1 i m hm c hc j hj, ← hw.1 i m hm c hc j hj, ← h.dBody_congr hw]
    exact hd.1 i m hm c hc j hj
  · rw [← hv.2 c hc j hj, ← hw.2 c hc j hj, ← h.dOut_congr hw]
    exact hd.2 c hc j hj

theorem Shape.Ok.path_congr (h : S.Ok act) : ∀ (bs : List (ℕ × Mat ℝ × Mat ℝ)) {W W' V : Weights}, S.Same W W' → S.Path η bs W V → S.Path η bs W' V
  | [], _, _, _, hw, hp => hw.symm.trans hp
  | _ :: _, _, _, _, hw, ⟨W1, h1, h2⟩ => ⟨W1, h.descent_congr hw (Shape.Same.refl _ _) h1, h2⟩

theorem Shape.Ok.descent_unique (h : S.Ok act) {R : ℕ} {X Y : Mat ℝ} {W W' V V' : Weights} (hw : S.Same W W') (hd : S.Descent η R X Y W V)
    (hd' : S.Descent η R X Y W' V') : S.Same V V' := by
  have hd' := h.descent_congr hw.symm (Shape.Same.refl _ _) hd'
  exact ⟨fun i m hm c hc j hj => (hd.1 i m hm c hc j hj).trans (hd'.1 i m hm c hc j hj).symm,
    fun c hc j hj => (hd.2 c hc j hj).trans (hd'.2 c hc j hj).symm⟩

/-- Gradient descent has one result only. -/
theorem Shape.Ok.path_unique (h : S.Ok act) : ∀ (bs : List (ℕ × Mat ℝ × Mat ℝ)) {W W' V V' : Weights}, S.Same W W' → S.Path η bs W V → S.Path η bs W' V' →
    S.Same V V'
  | [], _, _, _, _, hw, hp, hp' => hp.symm.trans (hw.trans hp')
  | _ :: bs, _, _, _, _, hw, ⟨_, h1, h2⟩, ⟨_, h1', h2'⟩ => path_unique h bs (h.descent_unique hw h1 h1') h2 h2'

end

/-- C189. Training is gradient descent: after any history of uses the weights are those that gradient descent over the batches of the training steps reaches
from the first weights; evaluations in between, of batches of any sizes, make no difference. -/
theorem training_is_gradient_descent (ho : P.Ok) (hp : P.Plain η) : ∀ (us : List (Use ℝ)) (s0 : NetS P.net), P.Inv s0 → (∀ u ∈ us, P.Fits u) →
    (∀ pre R X Y post, us = pre ++ Use.train R X Y :: post → P.shape.Regular P.dz R (matOf R X) (matOf R Y) (P.weights (P.net.run s0 pre))) →
    P.shape.Path η (batches us) (P.weights s0) (P.weights (P.net.run s0 us))
  | [], s0, _, _, _ => Shape.Same.refl _ _
  | u :: us, s0, hi, hus, hr => by
    have hi1 : P.Inv (P.net.step s0 u).1 := run_inv ho.trains ho.outLawful ho.net_ok ho.sizes [u] s0 hi fun v hv => by
      obtain rfl := List.mem_singleton.1 hv
      exact (hus v List.mem_cons_self).ok ho
    have ih := training_is_gradient_descent ho hp us (P.net.step s0 u).1 hi1 (fun v hv => hus v (List.mem_cons_of_mem _ hv))
      fun pre R X Y post e => hr (u :: pre) R X Y post (by rw [e]; rfl)
    have e : P.net.run s0 (u :: us) = P.net.run (P.net.step s0 u).1 us := rfl
    rw [e]
    cases u with
    | eval R X => exact ho.shape.path_congr _ (evaluation_keeps_weights ho hp s0 R X) ih
    | train R X Y =>
      exact ⟨_, (training_step_is_descent ho hp s0 hi [] (fun _ h => by cases h) R X Y (hus _ List.mem_cons_self) (hr [] R X Y us rfl)).1, ih⟩

/-- C189. Two networks that calculate the same function, with the same learning rates and the same first weights, trained on the same batches, have the same
weights, whatever else they were used for, whatever batch sizes they were prepared for and however their optimisers and states are made; so they give the same answers. -/
theorem same_training_same_weights {P Q : Plan} (ho : P.Ok) (hoQ : Q.Ok) (hp : P.Plain η) (hpQ : Q.Plain η) (hS : P.shape = Q.shape) (s : NetS P.net)
    (t : NetS Q.net) (hs : P.Inv s) (ht : Q.Inv t) (us vs : List (Use ℝ)) (hus : ∀ u ∈ us, P.Fits u) (hvs : ∀ u ∈ vs, Q.Fits u)
    (hb : batches us = batches vs) (hw : P.shape.Same (P.weights s) (Q.weights t))
    (hr : ∀ pre R X Y post, us = pre ++ Use.train R X Y :: post → P.shape.Regular P.dz R (matOf R X) (matOf R Y) (P.weights (P.net.run s pre)))
    (hrQ : ∀ pre R X Y post, vs = pre ++ Use.train R X Y :: post → Q.shape.Regular Q.dz R (matOf R X) (matOf R Y) (Q.weights (Q.net.run t pre))) :
    P.shape.Same (P.weights (P.net.run s us)) (Q.weights (Q.net.run t vs)) ∧
    ∀ x, ∀ c < P.outputs, P.shape.answer (P.weights (P.net.run s us)) x c = P.shape.answer (Q.weights (Q.net.run t vs)) x c := by
  have h1 := training_is_gradient_descent ho hp us s hs hus hr
  have h2 := training_is_gradient_descent hoQ hpQ vs t ht hvs hrQ
  rw [← hS, ← hb] at h2
  have h3 := ho.shape.path_unique _ hw h1 h2
  exact ⟨h3, ho.shape.answer_congr h3⟩

/-! ### Small steps -/

theorem lower_near {φ : ℝ → ℝ} {d : ℝ} (h : HasDerivAt φ d 0) (hd : d < 0) : ∃ ε0 > 0, ∀ ε, 0 < ε → ε < ε0 → φ ε < φ 0 := by
  have h1 := (hasDerivAt_iff_tendsto_slope.1 h).eventually (Iio_mem_nhds hd)
  rw [eventually_nhdsWithin_iff, Metric.eventually_nhds_iff] at h1
  obtain ⟨ε0, h0, h2⟩ := h1
  refine ⟨ε0, h0, fun ε hε hlt => ?_⟩
  have : slope φ 0 ε < 0 := h2 (y := ε) (by rw [Real.dist_eq, sub_zero, abs_of_pos hε]; exact hlt) (by simp only [Set.mem_compl_iff, Set.mem_singleton_iff]; exact hε.ne')
  rw [slope_def_field, sub_zero, div_lt_iff₀ hε, zero_mul] at this
  linarith

/-- C190. With learning rates that are small enough, a step of gradient descent lowers the mean loss of the batch, unless all derivatives with respect to
weights that are trained are 0. -/
theorem small_descent_lowers {S : Shape} {act : ℕ → Act.Act} (hS : S.Ok act) {dz : ℝ → ℝ → ℝ} {R : ℕ} (h0 : 0 < R) {X Y : Mat ℝ} {W : Weights}
    (hr : S.Regular dz R X Y W) (hη : (∀ id, 0 ≤ η.body id) ∧ 0 ≤ η.out) (hs : S.Slope η R X Y W) :
    ∃ ε0 > 0, ∀ ε, 0 < ε → ε < ε0 → ∀ W', S.Descent (η.times ε) R X Y W W' → S.meanLoss R X Y W' < S.meanLoss R X Y W := by
  obtain ⟨g, h, hsl⟩ := hS.slopes h0 hr
  obtain ⟨k1, k2⟩ := hsl.single hS
  let V : Weights := ⟨fun i c j => -(η.body (((mats S.tree S.inputs)[i]?.map MatInfo.id).getD 0) * g i c j), fun c j => -(η.out * h c j)⟩
  have hV := hsl.all V
  have hdB : ∀ i m, (mats S.tree S.inputs)[i]? = some m → ∀ c < m.rows, ∀ j < m.cols, S.dBody R X Y W i c j / m.tiles = g i c j := fun i m hm c hc j hj => by
    unfold Shape.dBody
    rw [(k1 i m hm c hc j hj).deriv, mul_div_cancel_left₀ _ (tiles_ne hS.packs hm)]
  have hdO : ∀ c < S.outputs, ∀ j < S.tree.neurons + 1, S.dOut R X Y W c j = h c j := fun c hc j hj => (k2 c hc j hj).deriv
  have bt : ∀ i, ∀ c j : ℕ, g i c j * V.body i c j ≤ 0 := fun i c j => by
    show g i c j * -(_ * g i c j) ≤ 0
    nlinarith [mul_nonneg (hη.1 (((mats S.tree S.inputs)[i]?.map MatInfo.id).getD 0)) (mul_self_nonneg (g i c j))]
  have ot : ∀ c j : ℕ, h c j * V.out c j ≤ 0 := fun c j => by
    show h c j * -(_ * h c j) ≤ 0
    nlinarith [mul_nonneg hη.2 (mul_self_nonneg (h c j))]
  have bi : ∀ i a b, inner a b (g i) (V.body i) ≤ 0 := fun i a b => sum_nonpos fun c _ => sum_nonpos fun j _ => bt i c j
  have bs : pairing ((mats S.tree S.inputs).map toWt) g V.body ≤ 0 := by
    rw [pairing_eq_sum]
    exact sum_nonpos fun i _ => mul_nonpos_of_nonneg_of_nonpos (Nat.cast_nonneg _) (bi _ _ _)
  have os : ∑ c ∈ range S.outputs, ∑ j ∈ range (S.tree.neurons + 1), h c j * V.out c j ≤ 0 := sum_nonpos fun c _ => sum_nonpos fun j _ => ot c j
  have neg : pairing ((mats S.tree S.inputs).map toWt) g V.body + ∑ c ∈ range S.outputs, ∑ j ∈ range (S.tree.neurons + 1), h c j * V.out c j < 0 := by
    rcases hs with ⟨i, m, c, j, hm, hc, hj, hpos, hne⟩ | ⟨c, j, hc, hj, hpos, hne⟩
    · have hg : g i c j ≠ 0 := fun e => hne (by
        have := hdB i m hm c hc j hj
        rw [e, div_eq_zero_iff] at this
        exact this.resolve_right (tiles_ne hS.packs hm))
      have : pairing ((mats S.tree S.inputs).map toWt) g V.body < 0 := by
        rw [pairing_eq_sum]
        have hget : ((mats S.tree S.inputs).map toWt).getD i ⟨0, 0, 0⟩ = toWt m := by
          rw [List.getD_eq_getElem?_getD, List.getElem?_map, hm]; rfl
        refine sum_neg' (fun i _ => mul_nonpos_of_nonneg_of_nonpos (Nat.cast_nonneg _) (bi _ _ _)) ⟨i, mem_range.2 ?_, ?_⟩
        · rw [List.length_map]; exact lt_of_getElem? hm
        · rw [hget]
          have ht : (0 : ℝ) < m.tiles := Nat.cast_pos.2 (tiles_pos _ _ hS.packs m (List.mem_of_getElem? hm))
          refine mul_neg_of_pos_of_neg ht (sum_neg' (fun c _ => sum_nonpos fun j _ => bt i c j) ⟨c, mem_range.2 hc,
            sum_neg' (fun j _ => bt i c j) ⟨j, mem_range.2 hj, ?_⟩⟩)
          show g i c j * -(η.body (((mats S.tree S.inputs)[i]?.map MatInfo.id).getD 0) * g i c j) < 0
          rw [hm]
          show g i c j * -(η.body m.id * g i c j) < 0
          nlinarith [mul_pos hpos (mul_self_pos.2 hg)]
      linarith
    · have hh : h c j ≠ 0 := fun e => hne (by rw [hdO c hc j hj, e])
      have : ∑ c ∈ range S.outputs, ∑ j ∈ range (S.tree.neurons + 1), h c j * V.out c j < 0 := by
        refine sum_neg' (fun c _ => sum_nonpos fun j _ => ot c j) ⟨c, mem_range.2 hc, sum_neg' (fun j _ => ot c j) ⟨j, mem_range.2 hj, ?_⟩⟩
        show h c j * -(η.out * h c j) < 0
        nlinarith [mul_pos hpos (mul_self_pos.2 hh)]
      linarith
  obtain ⟨ε0, hε0, hlow⟩ := lower_near hV neg
  refine ⟨ε0, hε0, fun ε hε hlt W' hd => ?_⟩
  have e0 : S.Same (W.move V 0) W := ⟨fun _ _ _ _ _ _ _ => by simp only [Weights.move, zero_mul, add_zero], fun _ _ _ _ => by
    simp only [Weights.move, zero_mul, add_zero]⟩
  have e1 : S.Same W' (W.move V ε) := by
    refine ⟨fun i m hm c hc j hj => ?_, fun c hc j hj => ?_⟩
    · rw [hd.1 i m hm c hc j hj, hdB i m hm c hc j hj]
      show _ = W.body i c j + ε * -(η.body (((mats S.tree S.inputs)[i]?.map MatInfo.id).getD 0) * g i c j)
      rw [hm]
      show W.body i c j - ε * η.body m.id * g i c j = W.body i c j + ε * -(η.body m.id * g i c j)
      ring
    · rw [hd.2 c hc j hj, hdO c hc j hj]
      show W.out c j - ε * η.out * h c j = W.out c j + ε * -(η.out * h c j)
      ring
  rw [hS.meanLoss_congr e1, ← hS.meanLoss_congr e0]
  exact hlow ε hε hlt

/-- C190. The same for networks: there is a bound such that every network with this shape and these weights, whose learning rates are below the bound, has a lower
mean loss of the batch after it has been trained on the batch once. -/
theorem small_rates_lower_the_loss {S : Shape} {act : ℕ → Act.Act} (hS : S.Ok act) {dz : ℝ → ℝ → ℝ} {R : ℕ} {X Y : Mem ℝ} {W : Weights} (h0 : 0 < R)
    (hr : S.Regular dz R (matOf R X) (matOf R Y) W) (hη : (∀ id, 0 ≤ η.body id) ∧ 0 ≤ η.out) (hs : S.Slope η R (matOf R X) (matOf R Y) W) :
    ∃ ε0 > 0, ∀ ε, 0 < ε → ε < ε0 → ∀ P : Plan, P.Ok → P.Plain (η.times ε) → P.shape = S → P.dz = dz → ∀ s0 : NetS P.net, P.Inv s0 →
      ∀ us : List (Use ℝ), (∀ u ∈ us, P.Fits u) → P.Fits (.train R X Y) → S.Same (P.weights (P.net.run s0 us)) W →
      S.meanLoss R (matOf R X) (matOf R Y) (P.weights (P.net.step (P.net.run s0 us) (.train R X Y)).1) < S.meanLoss R (matOf R X) (matOf R Y) W := by
  obtain ⟨ε0, hε0, h⟩ := small_descent_lowers hS h0 hr hη hs
  refine ⟨ε0, hε0, fun ε hε hlt P ho hp hPS hdz s0 hi us hus hu hw => h ε hε hlt _ ?_⟩
  subst hPS hdz
  exact ho.shape.descent_congr hw (Shape.Same.refl _ _) (training_step_is_descent ho hp s0 hi us hus R X Y hu (ho.shape.regular_congr hw.symm hr)).1

end Nntl.Sgd
