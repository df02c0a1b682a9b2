import Verif.Sgd.ExtNet

/-! C198: training with dropout and with penalties on activations. Property theorems. -/
namespace Nntl.Sgd

open Nntl.Layers Nntl.Pass Nntl.Backprop
open Finset

variable {Q : XPlan}

/-- The weights of a network are those that its optimisers hold. -/
theorem XPlan.cells_weights (ho : Q.Ok) (s : NetS Q.net) : Q.shape.Same (Q.cells s).weights (Q.weights s) :=
  ⟨fun i m hi c _ j _ => (congrFun (congrFun (ho.isNet.reads.wts s.body i m hi) c) j).symm, fun _ _ _ _ => rfl⟩

/-- A forward pass in the mode `b`. -/
theorem XPlan.fprop_cells (ho : Q.Ok) (b : Bool) (R : ℕ) (hR : R ≤ Q.bs.maxBS) (s : NetS Q.net) (hi : Q.Inv s) (X : Mem ℝ) :
    Q.shape.SameCells (if b then (Q.cells s).pre else Q.cells s) (Q.cells (Q.net.fprop (Q.net.to b R s) X).1) := by
  have hn := ho.isNet
  obtain ⟨h1, _, h3⟩ := to_inv ho.trains ho.outLawful b hR hi
  have k1 : Q.shape.SameCells (Q.cells s) (Q.cells (Q.net.to b R s)) := by
    unfold Net.to
    split
    · exact ⟨fun _ _ _ => rfl, rfl⟩
    · exact ⟨fun i m hm => (hn.resize R _ i m hm).trans (hn.mode b _ i m hm), rfl⟩
  generalize Q.net.to b R s = t at *
  have k2 : Q.shape.SameCells (if b then (Q.cells t).pre else Q.cells t) (Q.cells (Q.net.fprop t X).1) := by
    refine ⟨fun i m hm => ?_, ?_⟩
    · obtain ⟨b', e1, e2⟩ := hn.fprop t.R t.body X t.T t.ab.m i m hm
      rw [e2 b ⟨t.R, h3 ▸ h1.1⟩] at e1
      refine Eq.trans e1 ?_
      cases b <;> rfl
    · have ht : FcS.training (gw := Q.go) t.out = b := h3 ▸ h1.2.1
      have key : ∀ s : FcS Q.go, (fcReader Q.go).cells (if s.training then (⟨(Q.go.pre s.g s.w).2, (Q.go.pre s.g s.w).1, true⟩ : FcS Q.go) else s) 0 =
          if s.training then ((fcReader Q.go).cells s 0).pre else (fcReader Q.go).cells s 0 := by
        intro s
        split <;> rfl
      have := key t.out
      rw [ht] at this
      refine Eq.trans ?_ (this.trans ?_)
      · show _ = (fcReader Q.go).cells (if b then _ else _) 0
        rw [← ht]
        rfl
      · cases b <;> rfl
  refine ⟨fun i m hm => (k2.1 i m hm).trans ?_, k2.2.trans ?_⟩
  · have := k1.1 i m hm
    cases b
    · exact this
    · exact congrArg Cell.pre this
  · cases b
    · exact k1.2
    · exact congrArg Cell.pre k1.2

theorem XPlan.fprop_weights (ho : Q.Ok) (b : Bool) (R : ℕ) (hR : R ≤ Q.bs.maxBS) (s : NetS Q.net) (hi : Q.Inv s) (X : Mem ℝ) :
    Q.shape.Same (Q.weights (Q.net.fprop (Q.net.to b R s) X).1) (if b then (Q.cells s).pre else Q.cells s).weights :=
  (XPlan.cells_weights ho _).symm.trans (SameCells.weights (XPlan.fprop_cells ho b R hR s hi X))

theorem XPlan.run_inv (ho : Q.Ok) (s0 : NetS Q.net) (hi : Q.Inv s0) (us : List (Use ℝ)) (hus : ∀ u ∈ us, Q.Fits u) : Q.Inv (Q.net.run s0 us) :=
  Pass.run_inv ho.trains ho.outLawful ho.net_ok ho.sizes us s0 hi fun u hu => (hus u hu).ok ho

/-- C198. Evaluation leaves all weights and all states of optimisers as they are, and draws nothing. -/
theorem evaluation_draws_nothing (ho : Q.Ok) (s : NetS Q.net) (hi : Q.Inv s) (k : ℕ) (hk : Q.Drawn k s) (R : ℕ) (X : Mem ℝ) (hu : Q.Fits (.eval R X)) :
    Q.shape.SameCells (Q.cells s) (Q.cells (Q.net.step s (.eval R X)).1) ∧ Q.Drawn k (Q.net.step s (.eval R X)).1 :=
  ⟨XPlan.fprop_cells ho false R hu.2.1 s hi X, (XPlan.fprop_drawn ho false R k hu.2.1 s hi hk X).1⟩

/-- What is shown after a forward pass. -/
theorem XPlan.shows (ho : Q.Ok) (s : NetS Q.net) (hi : Q.Inv s) (k : ℕ) (hk : Q.Drawn k s) (b : Bool) (R : ℕ) (X : Mem ℝ) (h0 : 0 < R) (hR : R ≤ Q.bs.maxBS)
    (hX : Ones R Q.inputs X) :
    Shows R Q.outputs (Q.net.fprop (Q.net.to b R s) X).1.ao fun r =>
      Q.shape.answerOn Q.ext (if b then some k else none) (if b then (Q.cells s).pre.weights else Q.weights s) R (matOf R X) r := by
  obtain ⟨h1, h2, h3⟩ := to_inv ho.trains ho.outLawful b hR hi
  obtain ⟨hd, htr⟩ := XPlan.fprop_drawn ho b R k hR s hi hk X
  have hs : Q.shape.Same (Q.weights (Q.net.fprop (Q.net.to b R s) X).1) (if b then (Q.cells s).pre.weights else Q.weights s) := by
    refine (XPlan.fprop_weights ho b R hR s hi X).trans ?_
    cases b
    · exact XPlan.cells_weights ho s
    · exact Shape.Same.refl _ _
  have ei : Q.net.body.inc = Q.inputs := ho.diff.2.1
  generalize Q.net.to b R s = t at *
  obtain ⟨_, hr, _, _, hready, _⟩ := net_fprop ho.trains ho.outLawful ho.net_ok h1 (by omega) (by omega) (A := X) (X := matOf R X)
    (by rw [h2]; exact fun _ _ _ _ => rfl) (by rw [h2, ei]; exact hX)
  obtain ⟨_, _, _, h7⟩ := hready
  rw [hr, h2] at h7
  unfold XPlan.Drawn at hd
  rw [htr] at hd
  have el : lastDraw b (if b then k + 1 else k) = if b then some k else none := by cases b <;> rfl
  intro r hr' c hc
  rw [h7 r hr' c hc]
  have := shownB ho.isNet ho.diff.2.2 h0 _ hd (FcS.w (gw := Q.go) (Q.net.fprop t X).1.out) (matOf R X) hr'
  rw [el] at this
  exact (congrArg (fun z => Q.last z c) this).trans (ho.shape.answerOn_congr ho.exts hs _ (matOf R X) hr' c hc)

/-- One use: training draws once for every dropout, evaluation does not. -/
theorem XPlan.step_drawn (ho : Q.Ok) (s : NetS Q.net) (hi : Q.Inv s) (k : ℕ) (hk : Q.Drawn k s) (u : Use ℝ) (hu : Q.Fits u) :
    Q.Drawn (k + (batches [u]).length) (Q.net.step s u).1 := by
  cases u with
  | eval R X => exact (XPlan.fprop_drawn ho false R k hu.2.1 s hi hk X).1
  | train R X Y =>
    have := (XPlan.fprop_drawn ho true R k (Nat.le_trans hu.2.1 ho.sizes) s hi hk X).1
    exact ho.isNet.bpropN _ _ _ false _ _ _ _ _ _ this

/-- C198. Random numbers are drawn once for every dropout in every training step, and never in evaluation: after any history from a state where `k` draws were made,
the number of draws is `k` and the number of training steps. -/
theorem one_draw_per_training_step (ho : Q.Ok) : ∀ (us : List (Use ℝ)) (s0 : NetS Q.net), Q.Inv s0 → (∀ u ∈ us, Q.Fits u) → ∀ k, Q.Drawn k s0 →
    Q.Drawn (k + (batches us).length) (Q.net.run s0 us)
  | [], _, _, _, _, hk => hk
  | u :: us, s0, hi, hus, k, hk => by
    have h1 := XPlan.step_drawn ho s0 hi k hk u (hus u List.mem_cons_self)
    have hi1 : Q.Inv (Q.net.step s0 u).1 := XPlan.run_inv ho s0 hi [u] fun v hv => by
      obtain rfl := List.mem_singleton.1 hv
      exact hus v List.mem_cons_self
    have := one_draw_per_training_step ho us _ hi1 (fun v hv => hus v (List.mem_cons_of_mem _ hv)) _ h1
    have e : k + (batches [u]).length + (batches us).length = k + (batches (u :: us)).length := by
      cases u with
      | eval R X => rfl
      | train R X Y => exact Nat.add_right_comm k 1 (batches us).length
    rw [e] at this
    exact this

/-- C198. What a network with dropout and penalties shows in evaluation, after any history, is for each sample alone the function of the whole network: nothing is
dropped, nothing is scaled, and the other samples of the batch make no difference. -/
theorem evaluation_uses_the_whole_network (ho : Q.Ok) (s0 : NetS Q.net) (hi : Q.Inv s0) (k : ℕ) (hk : Q.Drawn k s0) (us : List (Use ℝ)) (hus : ∀ u ∈ us, Q.Fits u)
    (R : ℕ) (X : Mem ℝ) (h0 : 0 < R) (hR : R ≤ Q.bs.maxBS) (hX : Ones R Q.inputs X) :
    Shows R Q.outputs (Q.net.fprop (Q.net.to false R (Q.net.run s0 us)) X).1.ao fun r => Q.shape.answer (Q.weights (Q.net.run s0 us)) (matOf R X r) := by
  have := XPlan.shows ho _ (XPlan.run_inv ho s0 hi us hus) _ (one_draw_per_training_step ho us s0 hi hus k hk) false R X h0 hR hX
  intro r hr c hc
  rw [this r hr c hc]
  exact ho.last _ _ (fun i hi => neuron_congr (m := Q.outputs) (fun _ _ _ _ => rfl)
    (batchFn_none _ _ Q.tree Q.inputs ho.packs ho.noExtra _ R (matOf R X) (matOf R X r) r hr fun _ _ => rfl) hi) c hc

/-- C198. In a training step after any history the network shows, row by row, what the thinned network answers: the random numbers are those of the next draw, the
weights are where the optimisers have put them before the forward pass. -/
theorem training_shows_the_thinned_network (ho : Q.Ok) (s0 : NetS Q.net) (hi : Q.Inv s0) (k : ℕ) (hk : Q.Drawn k s0) (us : List (Use ℝ)) (hus : ∀ u ∈ us, Q.Fits u)
    (R : ℕ) (X : Mem ℝ) (h0 : 0 < R) (hR : R ≤ Q.bs.maxBS) (hX : Ones R Q.inputs X) :
    Shows R Q.outputs (Q.net.fprop (Q.net.to true R (Q.net.run s0 us)) X).1.ao fun r =>
      Q.shape.answerOn Q.ext (some (k + (batches us).length)) (Q.cells (Q.net.run s0 us)).pre.weights R (matOf R X) r :=
  XPlan.shows ho _ (XPlan.run_inv ho s0 hi us hus) _ (one_draw_per_training_step ho us s0 hi hus k hk) true R X h0 hR hX

/-- C198. In one training step after any history, every optimiser of a trained layer is given exactly the partial derivatives, with respect to its weights (in tile
packs, divided by the number of tiles), of the mean loss of the network thinned with the random numbers of this step, plus the penalties on activations divided by the
size of the batch. They are taken at the weights where the optimisers have put them before the forward pass, once; nothing else moves any weight. The derivatives
exist. -/
theorem optimisers_get_derivatives_of_the_thinned_loss (ho : Q.Ok) (s0 : NetS Q.net) (hi : Q.Inv s0) (k0 : ℕ) (hk : Q.Drawn k0 s0) (us : List (Use ℝ))
    (hus : ∀ u ∈ us, Q.Fits u) (R : ℕ) (X Y : Mem ℝ) (hu : Q.Fits (.train R X Y))
    (hr : Q.shape.RegularOn Q.ext Q.dz (k0 + (batches us).length) R (matOf R X) (matOf R Y) (Q.cells (Q.net.run s0 us)).pre.weights) :
    Q.shape.TrainedOn Q.upd Q.uo (Q.shape.thinLoss Q.ext (k0 + (batches us).length) R (matOf R X) (matOf R Y)) (Q.cells (Q.net.run s0 us))
      (Q.cells (Q.net.step (Q.net.run s0 us) (.train R X Y)).1) ∧
    (∀ i m, (mats Q.tree Q.inputs)[i]? = some m → ∀ c < m.rows, ∀ j < m.cols,
      DifferentiableAt ℝ (fun t => Q.shape.thinLoss Q.ext (k0 + (batches us).length) R (matOf R X) (matOf R Y) ((Q.cells (Q.net.run s0 us)).pre.weights.bumpBody i c j t)) 0) ∧
    ∀ c < Q.outputs, ∀ j < Q.tree.neurons + 1,
      DifferentiableAt ℝ (fun t => Q.shape.thinLoss Q.ext (k0 + (batches us).length) R (matOf R X) (matOf R Y) ((Q.cells (Q.net.run s0 us)).pre.weights.bumpOut c j t)) 0 := by
  obtain ⟨_, _, _, h4, h5⟩ := training_step_spec (w := Q.net) ho.trains ho.outLawful ho.net_ok ho.sizes s0 hi us (fun u hu => (hus u hu).ok ho) R X Y (hu.ok ho)
  have hd := one_draw_per_training_step ho us s0 hi hus k0 hk
  have hi := XPlan.run_inv ho s0 hi us hus
  have hRN := Nat.le_trans hu.2.1 ho.sizes
  have hc := XPlan.fprop_cells ho true R hRN (Q.net.run s0 us) hi X
  have hs := XPlan.fprop_weights ho true R hRN (Q.net.run s0 us) hi X
  obtain ⟨hkd, htr⟩ := XPlan.fprop_drawn ho true R _ hRN (Q.net.run s0 us) hi hd X
  have hn := ho.isNet
  obtain ⟨hD, _, hneu⟩ := ho.diff
  generalize hs1 : (Q.net.fprop (Q.net.to true R (Q.net.run s0 us)) X).1 = s1 at *
  generalize hs2 : (Q.net.step (Q.net.run s0 us) (.train R X Y)).1 = s2 at *
  generalize hkk : k0 + (batches us).length = k at *
  generalize Q.net.run s0 us = s at *
  simp only [if_true] at hc hs hkd
  unfold XPlan.Drawn at hkd
  rw [htr] at hkd
  have hJ : Respects Q.shape (Q.shape.thinLoss Q.ext k R (matOf R X) (matOf R Y)) := ho.shape.thinLoss_respects ho.exts k hu.1 _ _
  obtain ⟨hsm, hsl⟩ := slopesOn_of_state ho.shape ho.exts hD hn hneu hu.1 Q.uo k s1.body hkd s1.out (matOf R X) (matOf R Y)
    (ho.shape.regularOn_congr ho.exts hu.1 hs.symm hr)
  have hstep := hn.step _ _ _ (hD.upd _ _ _ _ _ hsm h5)
  obtain ⟨k1, k2⟩ := (hsl.congr hJ hs).single hJ
  refine ⟨⟨fun i m hm => ?_, ?_⟩, fun i m hm c hc j hj => (k1 i m hm c hc j hj).differentiableAt, fun c hc j hj => (k2 c hc j hj).differentiableAt⟩
  · have h1 := hstep i m hm
    have e : (treeGetB Q.gw Q.act Q.upd Q.ext Q.tree Q.bs Q.inputs).cells s1.body i = ((Q.cells s).body i).pre := hc.1 i m hm
    unfold Moved at h1
    rw [e] at h1
    by_cases hup : Q.upd m.id = true
    · rw [if_pos hup] at h1 ⊢
      obtain ⟨d, hd, e2⟩ := h1
      refine ⟨d, fun c hc j hj => ?_, e2⟩
      rw [hd c hc j hj]
      unfold partBody
      rw [(k1 i m hm c hc j hj).deriv, mul_div_cancel_left₀ _ (tiles_ne ho.packs hm)]
      rfl
    · rw [if_neg hup] at h1 ⊢
      exact h1
  · have e : (⟨Q.go, FcS.g (gw := Q.go) s1.out, FcS.w (gw := Q.go) s1.out⟩ : Cell) = (Q.cells s).out.pre := hc.2
    have h4 : Updated Q.uo Q.outputs (Q.tree.neurons + 1) s1.out _ s2.out := h4
    unfold Updated at h4
    by_cases hup : Q.uo = true
    · rw [if_pos hup] at h4 ⊢
      obtain ⟨d, hd, e2⟩ := h4
      refine ⟨d, fun c hc j hj => ?_, ?_⟩
      · rw [hd c hc j hj]
        exact (k2 c hc j hj).deriv.symm
      · rw [← e]
        show (⟨Q.go, FcS.g (gw := Q.go) s2.out, FcS.w (gw := Q.go) s2.out⟩ : Cell) = _
        rw [e2]
        rfl
    · rw [if_neg hup] at h4 ⊢
      rw [← e]
      show (⟨Q.go, FcS.g (gw := Q.go) s2.out, FcS.w (gw := Q.go) s2.out⟩ : Cell) = _
      rw [h4]

/-! ### Histories -/

theorem Respects.trained_congr {S : Shape} {J : Weights → ℝ} (h : Respects S J) {upd : ℕ → Bool} {uo : Bool} {C C' D : Cells} (hc : S.SameCells C C')
    (ht : S.TrainedOn upd uo J C' D) : S.TrainedOn upd uo J C D := by
  have hw := SameCells.weights (SameCells.pre hc)
  obtain ⟨h1, h2⟩ := ht
  refine ⟨fun i m hm => ?_, ?_⟩
  · have := h1 i m hm
    rw [hc.1 i m hm] at this
    simp only [h.partBody hw] at this
    exact this
  · rw [hc.2] at h2
    simp only [h.partOut hw] at h2
    exact h2

theorem courseOn_congr {S : Shape} {upd : ℕ → Bool} {uo : Bool} : ∀ (Js : List (Weights → ℝ)) {C C' D : Cells}, (∀ J ∈ Js, Respects S J) → S.SameCells C C' →
    S.CourseOn upd uo Js C' D → S.CourseOn upd uo Js C D
  | [], _, _, _, _, hc, hp => ⟨fun i m hm => (hp.1 i m hm).trans (hc.1 i m hm), hp.2.trans hc.2⟩
  | J :: _, _, _, _, h, hc, ⟨C1, h1, h2⟩ => ⟨C1, (h J List.mem_cons_self).trained_congr hc h1, h2⟩

theorem objectives_respect {S : Shape} {act : ℕ → Act.Act} {e : ℕ → Ext} (h : S.Ok act) (he : ExtsOk act e) : ∀ (bs : List (ℕ × Mat ℝ × Mat ℝ)) (k : ℕ),
    (∀ b ∈ bs, 0 < b.1) → ∀ J ∈ S.objectives e k bs, Respects S J
  | [], _, _, _, hJ => nomatch hJ
  | b :: bs, k, h0, J, hJ => by
    rcases List.mem_cons.1 hJ with rfl | hJ
    · exact h.thinLoss_respects he k (h0 b List.mem_cons_self) _ _
    · exact objectives_respect h he bs (k + 1) (fun b hb => h0 b (List.mem_cons_of_mem _ hb)) J hJ

theorem batches_pos : ∀ (us : List (Use ℝ)), (∀ u ∈ us, Q.Fits u) → ∀ b ∈ batches us, 0 < b.1
  | [], _, _, hb => nomatch hb
  | .eval _ _ :: us, hus, b, hb => batches_pos us (fun v hv => hus v (List.mem_cons_of_mem _ hv)) b hb
  | .train R X Y :: us, hus, b, hb => by
    rcases List.mem_cons.1 hb with rfl | hb
    · exact (hus (.train R X Y) List.mem_cons_self).1
    · exact batches_pos us (fun v hv => hus v (List.mem_cons_of_mem _ hv)) b hb

/-- C198. Training with dropout and penalties: after any history of uses, the weights and the states of the optimisers are those that the optimisers reach from the
first ones when each is given, batch after batch, the partial derivatives of the penalised mean loss of the network thinned with the random numbers drawn for that
batch; evaluations in between make no difference, also not to the random numbers that later batches get. -/
theorem training_descends_on_thinned_losses (ho : Q.Ok) : ∀ (us : List (Use ℝ)) (s0 : NetS Q.net) (k : ℕ), Q.Inv s0 → Q.Drawn k s0 → (∀ u ∈ us, Q.Fits u) →
    (∀ pre R X Y post, us = pre ++ Use.train R X Y :: post →
      Q.shape.RegularOn Q.ext Q.dz (k + (batches pre).length) R (matOf R X) (matOf R Y) (Q.cells (Q.net.run s0 pre)).pre.weights) →
    Q.shape.CourseOn Q.upd Q.uo (Q.shape.objectives Q.ext k (batches us)) (Q.cells s0) (Q.cells (Q.net.run s0 us))
  | [], s0, _, _, _, _, _ => ⟨fun _ _ _ => rfl, rfl⟩
  | u :: us, s0, k, hi, hk, hus, hr => by
    have hi1 : Q.Inv (Q.net.step s0 u).1 := XPlan.run_inv ho s0 hi [u] fun v hv => by
      obtain rfl := List.mem_singleton.1 hv
      exact hus v List.mem_cons_self
    have hk1 := XPlan.step_drawn ho s0 hi k hk u (hus u List.mem_cons_self)
    have hus' : ∀ v ∈ us, Q.Fits v := fun v hv => hus v (List.mem_cons_of_mem _ hv)
    have ih := training_descends_on_thinned_losses ho us (Q.net.step s0 u).1 _ hi1 hk1 hus' fun pre R X Y post e => by
      have := hr (u :: pre) R X Y post (by rw [e]; rfl)
      have e : k + (batches [u]).length + (batches pre).length = k + (batches (u :: pre)).length := by
        cases u with
        | eval R X => rfl
        | train R X Y => exact Nat.add_right_comm k 1 (batches pre).length
      rw [e]
      exact this
    have e : Q.net.run s0 (u :: us) = Q.net.run (Q.net.step s0 u).1 us := rfl
    rw [e]
    cases u with
    | eval R X =>
      exact courseOn_congr _ (objectives_respect ho.shape ho.exts _ _ (batches_pos us hus'))
        (evaluation_draws_nothing ho s0 hi k hk R X (hus _ List.mem_cons_self)).1 ih
    | train R X Y =>
      exact ⟨_, (optimisers_get_derivatives_of_the_thinned_loss ho s0 hi k hk [] (fun _ h => by cases h) R X Y (hus _ List.mem_cons_self) (hr [] R X Y us rfl)).1, ih⟩

end Nntl.Sgd
