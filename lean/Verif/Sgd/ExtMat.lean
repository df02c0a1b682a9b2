import Verif.Sgd.ExtProps
import Verif.Sgd.ExtMatSpec
import Verif.Sgd.MatProps

/-! C199: optimisers that follow rules for matrices, with any objectives. -/
namespace Nntl.Sgd

open Nntl.Layers Nntl.Pass Nntl.Backprop
open Finset

section
variable {P : Plan} {σ : Type} {rep : ∀ id m k, (P.gw id m k).G → σ → Prop} {repo : P.go.G → σ → Prop}

/-- The optimisers do one step of their rules. -/
theorem mat_step_on {ρ : ℕ → ℕ → ℕ → MatRule σ} {ρo : MatRule σ} (hb : ∀ id m k, Obeys (P.gw id m k) m k (ρ id m k) (rep id m k))
    (hout : Obeys P.go P.outputs (P.tree.neurons + 1) ρo repo) {upd : ℕ → Bool} {uo : Bool} {J : Weights → ℝ}
    {C C' : Cells} {h : Stock σ} (hh : P.Stores rep repo C h) (ht : P.shape.TrainedOn upd uo J C C') :
    ∃ h', P.Stores rep repo C' h' ∧ P.shape.MatStepOn upd uo ρ ρo J h h' := by
  obtain ⟨l1, l2⟩ := stored_looks hb hout hh
  obtain ⟨t1, t2⟩ := ht
  obtain ⟨h1, h2⟩ := hh
  let bf := fun (i : ℕ) (m : MatInfo) => (ρ m.id m.rows m.cols).before (h.body i) (h.W.body i)
  let mv := fun (i : ℕ) (m : MatInfo) => if upd m.id then (ρ m.id m.rows m.cols).after (bf i m).1 (bf i m).2
    (fun c j => partBody J C.pre.weights i c j / m.tiles) else bf i m
  let bo := ρo.before h.out h.W.out
  let mo := if uo then ρo.after bo.1 bo.2 (partOut J C.pre.weights) else bo
  let h' : Stock σ :=
    ⟨⟨fun i => match (mats P.tree P.inputs)[i]? with
        | some m => (mv i m).2
        | none => h.W.body i, mo.2⟩,
      fun i => match (mats P.tree P.inputs)[i]? with
        | some m => (mv i m).1
        | none => h.body i, mo.1⟩
  have eW : ∀ i m, (mats P.tree P.inputs)[i]? = some m → h'.W.body i = (mv i m).2 := fun i m hm => by
    show (match (mats P.tree P.inputs)[i]? with | some m => (mv i m).2 | none => h.W.body i) = _
    rw [hm]
  have eB : ∀ i m, (mats P.tree P.inputs)[i]? = some m → h'.body i = (mv i m).1 := fun i m hm => by
    show (match (mats P.tree P.inputs)[i]? with | some m => (mv i m).1 | none => h.body i) = _
    rw [hm]
  refine ⟨h', ⟨fun i m hm => ?_, ?_⟩, C.pre.weights, fun i m hm => ⟨l1 i m hm, eB i m hm, ?_⟩, l2, rfl, Agree.refl _ _ _⟩
  · obtain ⟨g, w, e, hw, hr⟩ := h1 i m hm
    obtain ⟨b1, b2⟩ := (hb m.id m.rows m.cols).before g _ w _ hr hw
    have ht := t1 i m hm
    rw [eW i m hm, eB i m hm]
    by_cases hu : upd m.id = true
    · rw [if_pos hu] at ht
      obtain ⟨d, hd, e'⟩ := ht
      rw [e] at e'
      have em : mv i m = (ρ m.id m.rows m.cols).after (bf i m).1 (bf i m).2 (fun c j => partBody J C.pre.weights i c j / m.tiles) := if_pos hu
      rw [em]
      obtain ⟨a1, a2⟩ := (hb m.id m.rows m.cols).after _ _ _ _ d (fun c j => partBody J C.pre.weights i c j / m.tiles) b1 b2 hd
      exact ⟨_, _, e', a2, a1⟩
    · rw [if_neg hu] at ht
      rw [e] at ht
      have em : mv i m = bf i m := if_neg hu
      rw [em]
      exact ⟨_, _, ht, b2, b1⟩
  · obtain ⟨g, w, e, hw, hr⟩ := h2
    obtain ⟨b1, b2⟩ := hout.before g _ w _ hr hw
    show ∃ g w, C'.out = ⟨P.go, g, w⟩ ∧ Agree _ _ w mo.2 ∧ repo g mo.1
    by_cases hu : uo = true
    · rw [if_pos hu] at t2
      obtain ⟨d, hd, e'⟩ := t2
      rw [e] at e'
      have em : mo = ρo.after bo.1 bo.2 (partOut J C.pre.weights) := if_pos hu
      rw [em]
      obtain ⟨a1, a2⟩ := hout.after _ _ _ _ d (partOut J C.pre.weights) b1 b2 hd
      exact ⟨_, _, e', a2, a1⟩
    · rw [if_neg hu] at t2
      rw [e] at t2
      have em : mo = bo := if_neg hu
      rw [em]
      exact ⟨_, _, t2, b2, b1⟩
  · rw [eW i m hm]
    exact Agree.refl _ _ _

theorem mat_path_on {ρ : ℕ → ℕ → ℕ → MatRule σ} {ρo : MatRule σ} (hb : ∀ id m k, Obeys (P.gw id m k) m k (ρ id m k) (rep id m k))
    (hout : Obeys P.go P.outputs (P.tree.neurons + 1) ρo repo) {upd : ℕ → Bool} {uo : Bool} :
    ∀ (Js : List (Weights → ℝ)) {C C' : Cells} {h : Stock σ}, P.Stores rep repo C h → P.shape.CourseOn upd uo Js C C' →
      ∃ h', P.Stores rep repo C' h' ∧ P.shape.MatPathOn upd uo ρ ρo Js h h'
  | [], _, _, h, hh, hc => ⟨h, hh.same hc, Shape.Same.refl _ _, fun _ _ _ => rfl, rfl⟩
  | _ :: Js, _, _, _, hh, ⟨_, hc1, hc2⟩ => by
    obtain ⟨h1, k1, k2⟩ := mat_step_on hb hout hh hc1
    obtain ⟨h2, k3, k4⟩ := mat_path_on hb hout Js k1 hc2
    exact ⟨h2, k3, h1, k2, k4⟩

end

/-- The last step of a path. -/
theorem mat_path_on_last {σ : Type} {S : Shape} {upd : ℕ → Bool} {uo : Bool} {ρ : ℕ → ℕ → ℕ → MatRule σ} {ρo : MatRule σ} :
    ∀ {Js : List (Weights → ℝ)} {h h' : Stock σ}, Js ≠ [] → S.MatPathOn upd uo ρ ρo Js h h' → ∃ (b : Weights → ℝ) (g g' : Stock σ),
      S.MatStepOn upd uo ρ ρo b g g' ∧ S.MatPathOn upd uo ρ ρo [] g' h'
  | [], _, _, hn, _ => absurd rfl hn
  | [b], h, _, _, ⟨h1, k1, k2⟩ => ⟨b, h, h1, k1, k2⟩
  | _ :: _ :: _, _, _, _, ⟨_, _, k2⟩ => mat_path_on_last (List.cons_ne_nil _ _) k2

section
variable {S : Shape} {upd : ℕ → Bool} {uo : Bool} {before : ℕ → ℕ → ℕ → ℕ → Option Ahead} {after : ℕ → ℕ → ℕ → ℕ → Option After}
  {bo : ℕ → Option Ahead} {ao : ℕ → Option After}

/-- C199. After any training of at least one batch by these rules, the weight vectors of all neurons of a trained layer are within the limit that is set for it. -/
theorem limits_hold_after_paths_on {Js : List (Weights → ℝ)} (hJs : Js ≠ []) {h h' : Stock LayerMemo}
    (hp : S.MatPathOn upd uo (fun id m k => .scheduled k (before id m k) (after id m k)) (.scheduled (S.tree.neurons + 1) bo ao) Js h h') (l : Limit) (hl : 0 ≤ l.bound) :
    (∀ i m, (mats S.tree S.inputs)[i]? = some m → upd m.id = true → (∀ t, ∃ a, after m.id m.rows m.cols t = some a ∧ a.limit = some l) →
      ∀ c < m.rows, ∑ j ∈ range (if l.bias then m.cols else m.cols - 1), (h'.W.body i c j) ^ 2 ≤ l.bound) ∧
    (uo = true → (∀ t, ∃ a, ao t = some a ∧ a.limit = some l) → ∀ c < S.outputs,
      ∑ j ∈ range (if l.bias then S.tree.neurons + 1 else S.tree.neurons), (h'.W.out c j) ^ 2 ≤ l.bound) := by
  obtain ⟨b, g, g', ⟨L, k1, _, k2, k3⟩, k4, _⟩ := mat_path_on_last hJs hp
  refine ⟨fun i m hm hu ha => ?_, fun hu ha => ?_⟩
  · obtain ⟨_, _, e⟩ := k1 i m hm
    rw [if_pos hu] at e
    exact after_within hl (ha _) fun c hc j hj => (k4.1 i m hm c hc j hj).symm.trans (e c hc j hj)
  · rw [if_pos hu] at k3
    exact after_within (k := S.tree.neurons + 1) hl (ha _) fun c hc j hj => (k4.2 c hc j hj).symm.trans (k3 c hc j hj)

/-- C199. A layer that is not trained and has no velocity keeps its weights, if no limits of lengths are applied before forward passes. -/
theorem frozen_rests_on : ∀ (Js : List (Weights → ℝ)) {h h' : Stock LayerMemo},
    S.MatPathOn upd uo (fun id m k => .scheduled k (before id m k) (after id m k)) (.scheduled (S.tree.neurons + 1) bo ao) Js h h' →
    (∀ i m, (mats S.tree S.inputs)[i]? = some m → upd m.id = false → (∀ t a, before m.id m.rows m.cols t = some a → a.limit = none) →
      (∀ c < m.rows, ∀ j < m.cols, ((h.body i).cell c j).v = 0) → Agree m.rows m.cols (h'.W.body i) (h.W.body i)) ∧
    (uo = false → (∀ t a, bo t = some a → a.limit = none) → (∀ c < S.outputs, ∀ j < S.tree.neurons + 1, (h.out.cell c j).v = 0) →
      Agree S.outputs (S.tree.neurons + 1) h'.W.out h.W.out)
  | [], _, _, hp => ⟨fun i m hm _ _ _ c hc j hj => (hp.1.1 i m hm c hc j hj).symm, fun _ _ _ c hc j hj => (hp.1.2 c hc j hj).symm⟩
  | b :: Js, h, h', ⟨h1, ⟨L, k1, _, k2, k3⟩, k4⟩ => by
    obtain ⟨j1, j2⟩ := frozen_rests_on Js k4
    refine ⟨fun i m hm hu hn hv => ?_, fun hu hn hv => ?_⟩
    · obtain ⟨_, e1, e2⟩ := k1 i m hm
      rw [if_neg (by rw [hu]; decide)] at e1 e2
      obtain ⟨r1, r2⟩ := before_rests (after := after m.id m.rows m.cols) (w := h.W.body i) hn hv
      exact fun c hc j hj => (j1 i m hm hu hn (by rw [e1]; exact r1) c hc j hj).trans ((e2 c hc j hj).trans (r2 c hc j hj))
    · rw [if_neg (by rw [hu]; decide)] at k2 k3
      obtain ⟨r1, r2⟩ := before_rests (k := S.tree.neurons + 1) (after := ao) (w := h.W.out) hn hv
      exact fun c hc j hj => (j2 hu hn (by rw [k2]; exact r1) c hc j hj).trans ((k3 c hc j hj).trans (r2 c hc j hj))

/-- While nothing is done in any call, no weight moves. -/
theorem idle_rests_on : ∀ (Js : List (Weights → ℝ)) {h h' : Stock LayerMemo}, (∀ id m k t, before id m k t = none ∧ after id m k t = none) →
    (∀ t, bo t = none ∧ ao t = none) →
    S.MatPathOn upd uo (fun id m k => .scheduled k (before id m k) (after id m k)) (.scheduled (S.tree.neurons + 1) bo ao) Js h h' → S.Same h.W h'.W
  | [], _, _, _, _, hp => hp.1
  | b :: Js, h, h', hb, ho, ⟨h1, ⟨L, k1, _, _, k3⟩, k4⟩ => by
    have key : ∀ (k : ℕ) (be : ℕ → Option Ahead) (af : ℕ → Option After), (∀ t, be t = none ∧ af t = none) → ∀ (u : Bool) (st : LayerMemo) (w d : Mat ℝ),
        (if u then (MatRule.scheduled k be af).after ((MatRule.scheduled k be af).before st w).1 ((MatRule.scheduled k be af).before st w).2 d
          else (MatRule.scheduled k be af).before st w).2 = w := by
      intro k be af hn u st w d
      obtain rfl : be = fun _ => none := funext fun t => (hn t).1
      obtain rfl : af = fun _ => none := funext fun t => (hn t).2
      cases u <;> rfl
    refine Shape.Same.trans ⟨fun i m hm c hc j hj => ?_, fun c hc j hj => ?_⟩ (idle_rests_on Js hb ho k4)
    · rw [(k1 i m hm).2.2 c hc j hj]
      exact (congrFun (congrFun (key m.cols _ _ (hb _ _ _) (upd m.id) _ _ _) c) j).symm
    · rw [k3 c hc j hj]
      exact (congrFun (congrFun (key (S.tree.neurons + 1) _ _ ho uo _ _ _) c) j).symm

end


end Nntl.Sgd
