import Verif.Sgd.AnyProps

/-! C193: networks whose optimisers follow rules. Property theorems. -/
namespace Nntl.Sgd

open Nntl.Layers Nntl.Pass Nntl.Backprop
open Finset

variable {P : Plan} {σ : Type} {rep : ∀ id m k, (P.gw id m k).G → (ℕ → ℕ → σ) → Prop} {repo : P.go.G → (ℕ → ℕ → σ) → Prop}

theorem decide_bias (j n : ℕ) : decide (j + 1 = n + 1) = decide (j = n) := by
  by_cases h : j = n
  · rw [decide_eq_true h, decide_eq_true (by omega)]
  · rw [decide_eq_false h, decide_eq_false (by omega)]

theorem Plan.Holds.same {C C' : Cells} {h : Held σ} (hs : P.shape.SameCells C C') (hh : P.Holds rep repo C h) : P.Holds rep repo C' h := by
  refine ⟨fun i m hm => ?_, ?_⟩
  · rw [hs.1 i m hm]
    exact hh.1 i m hm
  · rw [hs.2]
    exact hh.2

/-- The optimisers do one step of their rules. -/
theorem rule_step {ρ : ℕ → Bool → Rule σ} {ρo : Bool → Rule σ} (hb : ∀ id m k, Follows (P.gw id m k) m k (ρ id) (rep id m k))
    (hout : Follows P.go P.outputs (P.tree.neurons + 1) ρo repo) {upd : ℕ → Bool} {uo : Bool} (hu : ∀ id, upd id = true) (huo : uo = true) {R : ℕ} {X Y : Mat ℝ}
    {C C' : Cells} {h : Held σ} (hh : P.Holds rep repo C h) (ht : P.shape.Trained upd uo R X Y C C') :
    ∃ h', P.Holds rep repo C' h' ∧ P.shape.RuleStep ρ ρo R X Y h h' := by
  obtain ⟨t1, t2⟩ := ht
  rw [if_pos huo] at t2
  obtain ⟨h1, h2⟩ := hh
  let mv := fun (i : ℕ) (m : MatInfo) (c j : ℕ) => (ρ m.id (decide (j + 1 = m.cols))).move (h.body i c j) (h.W.body i c j)
    (P.shape.dBody R X Y C.pre.weights i c j / m.tiles)
  let mo := fun (c j : ℕ) => (ρo (decide (j = P.tree.neurons))).move (h.out c j) (h.W.out c j) (P.shape.dOut R X Y C.pre.weights c j)
  let h' : Held σ :=
    ⟨⟨fun i c j => match (mats P.tree P.inputs)[i]? with
        | some m => (mv i m c j).2
        | none => 0, fun c j => (mo c j).2⟩,
      fun i c j => match (mats P.tree P.inputs)[i]? with
        | some m => (mv i m c j).1
        | none => h.body i c j, fun c j => (mo c j).1⟩
  have eW : ∀ i m c j, (mats P.tree P.inputs)[i]? = some m → h'.W.body i c j = (mv i m c j).2 := fun i m c j hm => by
    show (match (mats P.tree P.inputs)[i]? with | some m => (mv i m c j).2 | none => 0) = _
    rw [hm]
  have eB : ∀ i m c j, (mats P.tree P.inputs)[i]? = some m → h'.body i c j = (mv i m c j).1 := fun i m c j hm => by
    show (match (mats P.tree P.inputs)[i]? with | some m => (mv i m c j).1 | none => h.body i c j) = _
    rw [hm]
  refine ⟨h', ⟨fun i m hm => ?_, ?_⟩, C.pre.weights, fun i m hm c hc j hj => ⟨?_, ?_⟩, fun c hc j hj => ⟨?_, rfl⟩⟩
  · obtain ⟨g, w, e, hw, hr⟩ := h1 i m hm
    have := t1 i m hm
    rw [if_pos (hu _)] at this
    obtain ⟨d, hd, e'⟩ := this
    rw [e] at e'
    obtain ⟨m1, m2⟩ := (hb m.id m.rows m.cols).move g (h.body i) w d hr
    refine ⟨_, _, e', fun c hc j hj => ?_, (hb m.id m.rows m.cols).inside _ _ _ m2 fun c hc j hj => ?_⟩
    · rw [eW i m c j hm]
      refine (m1 c hc j hj).trans ?_
      rw [hw c hc j hj, hd c hc j hj]
    · rw [eB i m c j hm]
      show _ = ((ρ m.id _).move (h.body i c j) (w c j) (d c j)).1
      rw [hw c hc j hj, hd c hc j hj]
  · obtain ⟨g, w, e, hw, hr⟩ := h2
    obtain ⟨d, hd, e'⟩ := t2
    rw [e] at e'
    obtain ⟨m1, m2⟩ := hout.move g h.out w d hr
    refine ⟨_, _, e', fun c hc j hj => ?_, hout.inside _ _ _ m2 fun c hc j hj => ?_⟩
    · refine (m1 c hc j hj).trans ?_
      rw [hw c hc j hj, hd c hc j hj, decide_bias]
    · show (mo c j).1 = ((ρo _).move (h.out c j) (w c j) (d c j)).1
      rw [hw c hc j hj, hd c hc j hj, decide_bias]
  · obtain ⟨g, w, e, hw, hr⟩ := h1 i m hm
    show ((C.body i).pre).w c j = _
    rw [e]
    refine ((hb m.id m.rows m.cols).look g (h.body i) w hr c hc j hj).trans ?_
    rw [hw c hc j hj]
  · rw [eW i m c j hm, eB i m c j hm]
  · obtain ⟨g, w, e, hw, hr⟩ := h2
    show (C.out.pre).w c j = _
    rw [e]
    refine (hout.look g h.out w hr c hc j hj).trans ?_
    rw [hw c hc j hj, decide_bias]
    rfl

theorem rule_path {ρ : ℕ → Bool → Rule σ} {ρo : Bool → Rule σ} (hb : ∀ id m k, Follows (P.gw id m k) m k (ρ id) (rep id m k))
    (hout : Follows P.go P.outputs (P.tree.neurons + 1) ρo repo) {upd : ℕ → Bool} {uo : Bool} (hu : ∀ id, upd id = true) (huo : uo = true) :
    ∀ (bs : List (ℕ × Mat ℝ × Mat ℝ)) {C C' : Cells} {h : Held σ}, P.Holds rep repo C h → P.shape.Course upd uo bs C C' →
      ∃ h', P.Holds rep repo C' h' ∧ P.shape.RulePath ρ ρo bs h h'
  | [], _, _, h, hh, hc => ⟨h, hh.same hc, Shape.Same.refl _ _, fun _ _ _ _ _ _ _ => rfl, fun _ _ _ _ => rfl⟩
  | _ :: bs, _, _, _, hh, ⟨_, hc1, hc2⟩ => by
    obtain ⟨h1, k1, k2⟩ := rule_step hb hout hu huo hh hc1
    obtain ⟨h2, k3, k4⟩ := rule_path hb hout hu huo bs k1 hc2
    exact ⟨h2, k3, h1, k2, k4⟩

/-- C193. If the optimisers of all layers follow rules, then training follows these rules on the mean losses: after any history of uses the weights of the network,
and the states of its optimisers, are those that the rules give, weight by weight, batch after batch, each with the partial derivative of the mean loss of the batch. -/
theorem training_follows_the_rules (ho : P.Ok) {ρ : ℕ → Bool → Rule σ} {ρo : Bool → Rule σ} (hb : ∀ id m k, Follows (P.gw id m k) m k (ρ id) (rep id m k))
    (hout : Follows P.go P.outputs (P.tree.neurons + 1) ρo repo) (hu : ∀ id, P.upd id = true) (huo : P.uo = true) (us : List (Use ℝ)) (s0 : NetS P.net)
    (hi : P.Inv s0) (hus : ∀ u ∈ us, P.Fits u)
    (hr : ∀ pre R X Y post, us = pre ++ Use.train R X Y :: post → P.shape.Regular P.dz R (matOf R X) (matOf R Y) (P.cells (P.net.run s0 pre)).pre.weights)
    (h : Held σ) (hh : P.Holds rep repo (P.cells s0) h) :
    ∃ h' : Held σ, P.shape.RulePath ρ ρo (batches us) h h' ∧ P.shape.Same (P.weights (P.net.run s0 us)) h'.W ∧
      P.Holds rep repo (P.cells (P.net.run s0 us)) h' := by
  obtain ⟨h', k1, k2⟩ := rule_path hb hout hu huo (batches us) hh (training_follows_the_optimisers ho us s0 hi hus hr)
  refine ⟨h', k2, (cells_weights ho _).symm.trans ⟨fun i m hm c hc j hj => ?_, fun c hc j hj => ?_⟩, k1⟩
  · obtain ⟨g, w, e, hw, _⟩ := k1.1 i m hm
    show ((P.cells (P.net.run s0 us)).body i).w c j = _
    rw [e]
    exact hw c hc j hj
  · obtain ⟨g, w, e, hw, _⟩ := k1.2
    show ((P.cells (P.net.run s0 us)).out).w c j = _
    rw [e]
    exact hw c hc j hj

end Nntl.Sgd
