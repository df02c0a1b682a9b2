import Verif.Sgd.Props
import Verif.Sgd.AnySpec

/-! C192, C193: training with any optimisers. Property theorems. -/
namespace Nntl.Sgd

open Nntl.Layers Nntl.Pass Nntl.Backprop
open Finset

variable {P : Plan}

/-- C192. The weights of a network are those that its optimisers hold. -/
theorem cells_weights (ho : P.Ok) (s : NetS P.net) : P.shape.Same (P.cells s).weights (P.weights s) :=
  ⟨fun i m hi c _ j _ => (congrFun (congrFun (ho.isNet.reads.wts s.body i m hi) c) j).symm, fun _ _ _ _ => rfl⟩

/-- A forward pass in the mode `b`. -/
theorem fprop_cells (ho : P.Ok) (b : Bool) (R : ℕ) (hR : R ≤ P.bs.maxBS) (s : NetS P.net) (hi : P.Inv s) (X : Mem ℝ) :
    P.shape.SameCells (if b then (P.cells s).pre else P.cells s) (P.cells (P.net.fprop (P.net.to b R s) X).1) := by
  have hn := ho.isNet
  obtain ⟨h1, _, h3⟩ := to_inv ho.trains ho.outLawful b hR hi
  have k1 : P.shape.SameCells (P.cells s) (P.cells (P.net.to b R s)) := by
    unfold Net.to
    split
    · exact ⟨fun _ _ _ => rfl, rfl⟩
    · exact ⟨fun i m hm => (hn.resize R _ i m hm).trans (hn.mode b _ i m hm), rfl⟩
  generalize P.net.to b R s = t at *
  have k2 : P.shape.SameCells (if b then (P.cells t).pre else P.cells t) (P.cells (P.net.fprop t X).1) := by
    refine ⟨fun i m hm => ?_, ?_⟩
    · obtain ⟨b', e1, e2⟩ := hn.fprop t.R t.body X t.T t.ab.m i m hm
      rw [e2 b ⟨t.R, h3 ▸ h1.1⟩] at e1
      refine Eq.trans e1 ?_
      cases b <;> rfl
    · have ht : FcS.training (gw := P.go) t.out = b := h3 ▸ h1.2.1
      have key : ∀ s : FcS P.go, (fcReader P.go).cells (if s.training then (⟨(P.go.pre s.g s.w).2, (P.go.pre s.g s.w).1, true⟩ : FcS P.go) else s) 0 =
          if s.training then ((fcReader P.go).cells s 0).pre else (fcReader P.go).cells s 0 := by
        intro s
        split <;> rfl
      have := key t.out
      rw [ht] at this
      refine Eq.trans ?_ (this.trans ?_)
      · show _ = (fcReader P.go).cells (if b then _ else _) 0
        rw [← ht]
        rfl
      · cases b <;> rfl
  refine ⟨fun i m hm => (k2.1 i m hm).trans ?_, k2.2.trans ?_⟩
  · have := k1.1 i m hm
    cases b
    · exact this
    · exact congrArg Cell.pre this
  · cases b
    · exact k1.2
    · exact congrArg Cell.pre k1.2

/-- C192. Evaluation leaves all weights and all states of optimisers as they are. -/
theorem evaluation_keeps_cells (ho : P.Ok) (s : NetS P.net) (hi : P.Inv s) (R : ℕ) (X : Mem ℝ) (hu : P.Fits (.eval R X)) :
    P.shape.SameCells (P.cells s) (P.cells (P.net.step s (.eval R X)).1) := by
  have := fprop_cells ho false R hu.2.1 s hi X
  exact this

theorem SameCells.weights {S : Shape} {C C' : Cells} (h : S.SameCells C C') : S.Same C'.weights C.weights :=
  ⟨fun i m hm c _ j _ => congrArg (fun x : Cell => x.w c j) (h.1 i m hm), fun c _ j _ => congrArg (fun x : Cell => x.w c j) h.2⟩

theorem fprop_weights (ho : P.Ok) (b : Bool) (R : ℕ) (hR : R ≤ P.bs.maxBS) (s : NetS P.net) (hi : P.Inv s) (X : Mem ℝ) :
    P.shape.Same (P.weights (P.net.fprop (P.net.to b R s) X).1) (if b then (P.cells s).pre else P.cells s).weights :=
  (cells_weights ho _).symm.trans (SameCells.weights (fprop_cells ho b R hR s hi X))

/-- C192. With any optimisers, what a network shows in evaluation after any history is, row by row, the function of the sample and of the weights; in training, of the
weights where the optimisers have put them before the forward pass. -/
theorem answers_with_any_optimisers (ho : P.Ok) (s0 : NetS P.net) (hi : P.Inv s0) (us : List (Use ℝ)) (hus : ∀ u ∈ us, P.Fits u) (b : Bool) (R : ℕ)
    (X : Mem ℝ) (h0 : 0 < R) (hR : R ≤ P.bs.maxBS) (hX : Ones R P.inputs X) :
    Shows R P.outputs (P.net.fprop (P.net.to b R (P.net.run s0 us)) X).1.ao fun r =>
      P.shape.answer (if b then (P.cells (P.net.run s0 us)).pre.weights else P.weights (P.net.run s0 us)) (matOf R X r) := by
  have hi := run_inv ho.trains ho.outLawful ho.net_ok ho.sizes us s0 hi fun u hu => (hus u hu).ok ho
  generalize P.net.run s0 us = s at *
  obtain ⟨h1, h2, h3⟩ := to_inv ho.trains ho.outLawful b hR hi
  have hs : P.shape.Same (P.weights (P.net.fprop (P.net.to b R s) X).1) (if b then (P.cells s).pre.weights else P.weights s) := by
    refine (fprop_weights ho b R hR s hi X).trans ?_
    cases b
    · exact cells_weights ho s
    · exact Shape.Same.refl _ _
  have ei : P.net.body.inc = P.inputs := ho.diff.2.1
  generalize P.net.to b R s = t at *
  obtain ⟨_, hr, _, _, hready, _⟩ := net_fprop ho.trains ho.outLawful ho.net_ok h1 (by omega) (by omega) (A := X) (X := matOf R X)
    (by rw [h2]; exact fun _ _ _ _ => rfl) (by rw [h2, ei]; exact hX)
  obtain ⟨_, _, _, h7⟩ := hready
  rw [hr, h2] at h7
  intro r hr' c hc
  rw [h7 r hr' c hc]
  exact (congrArg (fun z => P.last z c) (shown ho.isNet ho.diff.2.2 h0 _ _ (matOf R X) hr')).trans (ho.shape.answer_congr hs (matOf R X r) c hc)

/-- C192. In one training step after any history, every optimiser of a trained layer is given exactly the partial derivatives of the mean loss of the batch with
respect to its weights (in tile packs, divided by the number of tiles), taken at the weights where the optimisers have put them before the forward pass, once; and
nothing else moves any weight. The derivatives exist. -/
theorem every_optimiser_gets_the_derivatives (ho : P.Ok) (s0 : NetS P.net) (hi : P.Inv s0) (us : List (Use ℝ)) (hus : ∀ u ∈ us, P.Fits u) (R : ℕ)
    (X Y : Mem ℝ) (hu : P.Fits (.train R X Y)) (hr : P.shape.Regular P.dz R (matOf R X) (matOf R Y) (P.cells (P.net.run s0 us)).pre.weights) :
    P.shape.Trained P.upd P.uo R (matOf R X) (matOf R Y) (P.cells (P.net.run s0 us)) (P.cells (P.net.step (P.net.run s0 us) (.train R X Y)).1) ∧
    (∀ i m, (mats P.tree P.inputs)[i]? = some m → ∀ c < m.rows, ∀ j < m.cols,
      DifferentiableAt ℝ (fun t => P.shape.meanLoss R (matOf R X) (matOf R Y) ((P.cells (P.net.run s0 us)).pre.weights.bumpBody i c j t)) 0) ∧
    ∀ c < P.outputs, ∀ j < P.tree.neurons + 1,
      DifferentiableAt ℝ (fun t => P.shape.meanLoss R (matOf R X) (matOf R Y) ((P.cells (P.net.run s0 us)).pre.weights.bumpOut c j t)) 0 := by
  obtain ⟨_, _, _, h4, h5⟩ := training_step_spec (w := P.net) ho.trains ho.outLawful ho.net_ok ho.sizes s0 hi us (fun u hu => (hus u hu).ok ho) R X Y (hu.ok ho)
  have hi := run_inv ho.trains ho.outLawful ho.net_ok ho.sizes us s0 hi fun u hu => (hus u hu).ok ho
  have hc := fprop_cells ho true R (Nat.le_trans hu.2.1 ho.sizes) (P.net.run s0 us) hi X
  have hs := fprop_weights ho true R (Nat.le_trans hu.2.1 ho.sizes) (P.net.run s0 us) hi X
  have hn := ho.isNet
  obtain ⟨hD, _, hneu⟩ := ho.diff
  generalize hs1 : (P.net.fprop (P.net.to true R (P.net.run s0 us)) X).1 = s1 at *
  generalize hs2 : (P.net.step (P.net.run s0 us) (.train R X Y)).1 = s2 at *
  generalize P.net.run s0 us = s at *
  simp only [if_true] at hc hs
  obtain ⟨hsm, hsl⟩ := slopes_of_state ho.shape hD hn hneu (fun R s X => fcDiffs_pen P.tree P.bs P.inputs R s X) hu.1 P.uo s1.body s1.out (matOf R X)
    (matOf R Y) (ho.shape.regular_congr hs.symm hr)
  have hstep := hn.step _ _ _ (hD.upd _ _ _ _ _ hsm h5)
  obtain ⟨k1, k2⟩ := (hsl.congr ho.shape hs).single ho.shape
  refine ⟨⟨fun i m hm => ?_, ?_⟩, fun i m hm c hc j hj => (k1 i m hm c hc j hj).differentiableAt, fun c hc j hj => (k2 c hc j hj).differentiableAt⟩
  · have h1 := hstep i m hm
    have e : (treeGet P.gw P.act P.upd P.tree P.bs P.inputs).cells s1.body i = ((P.cells s).body i).pre := hc.1 i m hm
    unfold Moved at h1
    rw [e] at h1
    by_cases hup : P.upd m.id = true
    · rw [if_pos hup] at h1 ⊢
      obtain ⟨d, hd, e2⟩ := h1
      refine ⟨d, fun c hc j hj => ?_, e2⟩
      rw [hd c hc j hj]
      unfold Shape.dBody
      rw [(k1 i m hm c hc j hj).deriv, mul_div_cancel_left₀ _ (tiles_ne ho.packs hm)]
      rfl
    · rw [if_neg hup] at h1 ⊢
      exact h1
  · have e : (⟨P.go, FcS.g (gw := P.go) s1.out, FcS.w (gw := P.go) s1.out⟩ : Cell) = (P.cells s).out.pre := hc.2
    have h4 : Updated P.uo P.outputs (P.tree.neurons + 1) s1.out _ s2.out := h4
    unfold Updated at h4
    by_cases hup : P.uo = true
    · rw [if_pos hup] at h4 ⊢
      obtain ⟨d, hd, e2⟩ := h4
      refine ⟨d, fun c hc j hj => ?_, ?_⟩
      · rw [hd c hc j hj]
        exact (k2 c hc j hj).deriv.symm
      · rw [← e]
        show (⟨P.go, FcS.g (gw := P.go) s2.out, FcS.w (gw := P.go) s2.out⟩ : Cell) = _
        rw [e2]
        rfl
    · rw [if_neg hup] at h4 ⊢
      rw [← e]
      show (⟨P.go, FcS.g (gw := P.go) s2.out, FcS.w (gw := P.go) s2.out⟩ : Cell) = _
      rw [h4]

/-! ### Histories -/

section
variable {S : Shape} {act : ℕ → Act.Act}

theorem SameCells.pre {C C' : Cells} (h : S.SameCells C C') : S.SameCells C.pre C'.pre :=
  ⟨fun i m hm => congrArg Cell.pre (h.1 i m hm), congrArg Cell.pre h.2⟩

theorem Shape.Ok.trained_congr (h : S.Ok act) {upd : ℕ → Bool} {uo : Bool} {R : ℕ} {X Y : Mat ℝ} {C C' D : Cells} (hc : S.SameCells C C')
    (ht : S.Trained upd uo R X Y C' D) : S.Trained upd uo R X Y C D := by
  have hw := SameCells.weights (SameCells.pre hc)
  obtain ⟨h1, h2⟩ := ht
  refine ⟨fun i m hm => ?_, ?_⟩
  · have := h1 i m hm
    rw [hc.1 i m hm] at this
    simp only [h.dBody_congr hw] at this
    exact this
  · rw [hc.2] at h2
    simp only [h.dOut_congr hw] at h2
    exact h2

theorem Shape.Ok.course_congr (h : S.Ok act) {upd : ℕ → Bool} {uo : Bool} : ∀ (bs : List (ℕ × Mat ℝ × Mat ℝ)) {C C' D : Cells}, S.SameCells C C' →
    S.Course upd uo bs C' D → S.Course upd uo bs C D
  | [], _, _, _, hc, hp => ⟨fun i m hm => (hp.1 i m hm).trans (hc.1 i m hm), hp.2.trans hc.2⟩
  | _ :: _, _, _, _, hc, ⟨C1, h1, h2⟩ => ⟨C1, h.trained_congr hc h1, h2⟩

end

/-- C192. Training with any optimisers: after any history of uses, the weights and the states of the optimisers are those that the optimisers reach from the first
ones when each is given, batch after batch, the partial derivatives of the mean loss; evaluations in between make no difference. -/
theorem training_follows_the_optimisers (ho : P.Ok) : ∀ (us : List (Use ℝ)) (s0 : NetS P.net), P.Inv s0 → (∀ u ∈ us, P.Fits u) →
    (∀ pre R X Y post, us = pre ++ Use.train R X Y :: post → P.shape.Regular P.dz R (matOf R X) (matOf R Y) (P.cells (P.net.run s0 pre)).pre.weights) →
    P.shape.Course P.upd P.uo (batches us) (P.cells s0) (P.cells (P.net.run s0 us))
  | [], s0, _, _, _ => ⟨fun _ _ _ => rfl, rfl⟩
  | u :: us, s0, hi, hus, hr => by
    have hi1 : P.Inv (P.net.step s0 u).1 := run_inv ho.trains ho.outLawful ho.net_ok ho.sizes [u] s0 hi fun v hv => by
      obtain rfl := List.mem_singleton.1 hv
      exact (hus v List.mem_cons_self).ok ho
    have ih := training_follows_the_optimisers ho us (P.net.step s0 u).1 hi1 (fun v hv => hus v (List.mem_cons_of_mem _ hv))
      fun pre R X Y post e => hr (u :: pre) R X Y post (by rw [e]; rfl)
    have e : P.net.run s0 (u :: us) = P.net.run (P.net.step s0 u).1 us := rfl
    rw [e]
    cases u with
    | eval R X => exact ho.shape.course_congr _ (evaluation_keeps_cells ho s0 hi R X (hus _ List.mem_cons_self)) ih
    | train R X Y =>
      exact ⟨_, (every_optimiser_gets_the_derivatives ho s0 hi [] (fun _ h => by cases h) R X Y (hus _ List.mem_cons_self) (hr [] R X Y us rfl)).1, ih⟩

end Nntl.Sgd
