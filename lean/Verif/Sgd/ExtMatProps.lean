import Verif.Sgd.ExtMat

/-! C199: every setting of the optimisers together with dropout and penalties on activations. Property theorems. -/
namespace Nntl.Sgd

open Nntl.Layers Nntl.Pass Nntl.Backprop Nntl.Grad Nntl.Matrix Nntl.Kernel
open Finset

/-- The network with the library's gradient works: settings `o` in the layers, `oo` in the output layer. -/
noncomputable def XPlan.using (Q : XPlan) (o : ℕ → Opt) (oo : Opt) : XPlan := ⟨Q.toPlan.using o oo, Q.ext⟩

section
variable {Q : XPlan} {σ : Type} {rep : ∀ id m k, (Q.gw id m k).G → σ → Prop} {repo : Q.go.G → σ → Prop}

/-- C199. If the optimisers of all layers do what rules for matrices say, training with dropout and penalties follows these rules on the penalised losses of the thinned
networks. -/
theorem training_on_thinned_losses_follows_the_mat_rules (ho : Q.Ok) {ρ : ℕ → ℕ → ℕ → MatRule σ} {ρo : MatRule σ}
    (hb : ∀ id m k, Obeys (Q.gw id m k) m k (ρ id m k) (rep id m k)) (hout : Obeys Q.go Q.outputs (Q.tree.neurons + 1) ρo repo) (us : List (Use ℝ)) (s0 : NetS Q.net)
    (hi : Q.Inv s0) (k : ℕ) (hk : Q.Drawn k s0) (hus : ∀ u ∈ us, Q.Fits u)
    (hr : ∀ pre R X Y post, us = pre ++ Use.train R X Y :: post →
      Q.shape.RegularOn Q.ext Q.dz (k + (batches pre).length) R (matOf R X) (matOf R Y) (Q.cells (Q.net.run s0 pre)).pre.weights)
    (h : Stock σ) (hh : Q.toPlan.Stores rep repo (Q.cells s0) h) :
    ∃ h' : Stock σ, Q.shape.MatPathOn Q.upd Q.uo ρ ρo (Q.shape.objectives Q.ext k (batches us)) h h' ∧ Q.shape.Same (Q.weights (Q.net.run s0 us)) h'.W ∧
      Q.toPlan.Stores rep repo (Q.cells (Q.net.run s0 us)) h' := by
  obtain ⟨h', k1, k2⟩ := mat_path_on hb hout _ hh (training_descends_on_thinned_losses ho us s0 k hi hk hus hr)
  exact ⟨h', k2, (XPlan.cells_weights ho _).symm.trans k1.weights, k1⟩

end

section
variable {Q : XPlan} (o : ℕ → Opt) (oo : Opt) (ty : ℕ → GradType) (β1 β2 γ : ℕ → ℝ) (tyo : GradType) (β1o β2o γo : ℝ)

/-- C199. Any history of evaluations and training steps of a network with dropout and penalties on activations, whose layers use any of the nine methods with any settings
(momentum, gains, penalties on weights, dropout of learning rates, limits of lengths, blocked learning), some of them not trained: the weights at the end are those that
the rules of the methods reach from the first ones, batch after batch, with the derivatives of the penalised mean loss of the network thinned with the random numbers
that were drawn for the batch. -/
theorem dropout_training_with_every_setting
    (ho : (Q.using o oo).Ok) (hb : ∀ id, Stays (o id) (ty id) (β1 id) (β2 id)) (hout : Stays oo tyo β1o β2o)
    (us : List (Use ℝ)) (s0 : NetS (Q.using o oo).net) (hi : (Q.using o oo).Inv s0) (k : ℕ) (hk : (Q.using o oo).Drawn k s0) (hus : ∀ u ∈ us, (Q.using o oo).Fits u)
    (hr : ∀ pre R X Y post, us = pre ++ Use.train R X Y :: post →
      Q.shape.RegularOn Q.ext Q.dz (k + (batches pre).length) R (matOf R X) (matOf R Y) ((Q.using o oo).cells ((Q.using o oo).net.run s0 pre)).pre.weights)
    (h : Stock LayerMemo)
    (hh : (Q.using o oo).Stores (fun id m k => stands m k (ty id) (β1 id) (β2 id) (γ id)) (stands Q.outputs (Q.tree.neurons + 1) tyo β1o β2o γo)
      ((Q.using o oo).cells s0) h) :
    ∃ h', Q.shape.MatPathOn Q.upd Q.uo (fun id => ruleOf (o id) (ty id) (β1 id) (β2 id) (γ id)) (ruleOf oo tyo β1o β2o γo Q.outputs (Q.tree.neurons + 1))
        (Q.shape.objectives Q.ext k (batches us)) h h' ∧ Q.shape.Same ((Q.using o oo).weights ((Q.using o oo).net.run s0 us)) h'.W := by
  obtain ⟨h', k1, k2, _⟩ := training_on_thinned_losses_follows_the_mat_rules (Q := Q.using o oo) ho
    (fun id m k => gradWorks_obey (o id) m k (ty id) (β1 id) (β2 id) (γ id) fun t => ⟨(hb id).type t, (hb id).beta1 t, (hb id).beta2 t⟩)
    (gradWorks_obey oo _ _ tyo β1o β2o γo fun t => ⟨hout.type t, hout.beta1 t, hout.beta2 t⟩) us s0 hi k hk hus hr h hh
  exact ⟨h', k1, k2⟩

theorem objectives_ne {S : Shape} {e : ℕ → Ext} (k : ℕ) : ∀ {bs : List (ℕ × Mat ℝ × Mat ℝ)}, bs ≠ [] → S.objectives e k bs ≠ []
  | [], h => absurd rfl h
  | _ :: _, _ => List.cons_ne_nil _ _

/-- C199. Limits of lengths hold with dropout too: after any history with at least one training step, in every trained layer whose calls have the limit `B` (and are not
blocked) the squared length of the weight vector of every neuron is at most `B`. -/
theorem lengths_stay_within_limits_with_dropout
    (ho : (Q.using o oo).Ok) (hb : ∀ id, Stays (o id) (ty id) (β1 id) (β2 id)) (hout : Stays oo tyo β1o β2o)
    (us : List (Use ℝ)) (s0 : NetS (Q.using o oo).net) (hi : (Q.using o oo).Inv s0) (k : ℕ) (hk : (Q.using o oo).Drawn k s0) (hus : ∀ u ∈ us, (Q.using o oo).Fits u)
    (hr : ∀ pre R X Y post, us = pre ++ Use.train R X Y :: post →
      Q.shape.RegularOn Q.ext Q.dz (k + (batches pre).length) R (matOf R X) (matOf R Y) ((Q.using o oo).cells ((Q.using o oo).net.run s0 pre)).pre.weights)
    (h : Stock LayerMemo)
    (hh : (Q.using o oo).Stores (fun id m k => stands m k (ty id) (β1 id) (β2 id) (γ id)) (stands Q.outputs (Q.tree.neurons + 1) tyo β1o β2o γo)
      ((Q.using o oo).cells s0) h)
    (hne : ∃ R X Y, Use.train R X Y ∈ us) (B : ℝ) (hB : 0 ≤ B) (incl : Bool) :
    (∀ i m, (mats Q.tree Q.inputs)[i]? = some m → Q.upd m.id = true →
      (∀ t, ((o m.id).app t).blocked = false ∧ ((o m.id).app t).cfg.useMaxNorm = true ∧ ((o m.id).app t).cfg.maxNorm2 = B ∧
        ((o m.id).app t).cfg.normInclBias = incl) → ∀ c < m.rows,
      ∑ j ∈ range (if incl then m.cols else m.cols - 1), (((Q.using o oo).weights ((Q.using o oo).net.run s0 us)).body i c j) ^ 2 ≤ B) ∧
    (Q.uo = true → (∀ t, (oo.app t).blocked = false ∧ (oo.app t).cfg.useMaxNorm = true ∧ (oo.app t).cfg.maxNorm2 = B ∧ (oo.app t).cfg.normInclBias = incl) →
      ∀ c < Q.outputs, ∑ j ∈ range (if incl then Q.tree.neurons + 1 else Q.tree.neurons),
        (((Q.using o oo).weights ((Q.using o oo).net.run s0 us)).out c j) ^ 2 ≤ B) := by
  obtain ⟨h', k1, k2⟩ := dropout_training_with_every_setting o oo ty β1 β2 γ tyo β1o β2o γo ho hb hout us s0 hi k hk hus hr h hh
  have hne : batches us ≠ [] := by
    obtain ⟨R, X, Y, hm⟩ := hne
    exact batches_ne us hm
  have hset : ∀ (q : Opt) (m : ℕ) (ty : GradType) (β1 β2 γ : ℝ), (∀ t, (q.app t).blocked = false ∧ (q.app t).cfg.useMaxNorm = true ∧ (q.app t).cfg.maxNorm2 = B ∧
      (q.app t).cfg.normInclBias = incl) → ∀ t, ∃ a, afterOf q m ty β1 β2 γ t = some a ∧ a.limit = some ⟨B, incl⟩ := by
    intro q m ty β1 β2 γ hq t
    obtain ⟨q1, q2, q3, q4⟩ := hq t
    refine ⟨_, by unfold afterOf; rw [q1, if_neg Bool.false_ne_true], ?_⟩
    unfold limitOf
    rw [q2, if_pos rfl, q3, q4]
  obtain ⟨l1, l2⟩ := limits_hold_after_paths_on (objectives_ne k hne) k1 ⟨B, incl⟩ hB
  refine ⟨fun i m hm hu hq c hc => ?_, fun hu hq c hc => ?_⟩
  · refine le_trans (le_of_eq (Finset.sum_congr rfl fun j hj => ?_)) (l1 i m hm hu (hset _ _ _ _ _ _ hq) c hc)
    rw [k2.1 i m hm c hc j (by have := Finset.mem_range.1 hj; split at this <;> omega)]
  · refine le_trans (le_of_eq (Finset.sum_congr rfl fun j hj => ?_)) (l2 hu (hset _ _ _ _ _ _ hq) c hc)
    rw [k2.2 c hc j (by have := Finset.mem_range.1 hj; show j < Q.tree.neurons + 1; split at this <;> omega)]

/-- C199. While learning is blocked, no history changes any weight of a network with dropout. -/
theorem blocked_learning_keeps_weights_with_dropout
    (ho : (Q.using o oo).Ok) (hb : ∀ id, Stays (o id) (ty id) (β1 id) (β2 id)) (hout : Stays oo tyo β1o β2o)
    (us : List (Use ℝ)) (s0 : NetS (Q.using o oo).net) (hi : (Q.using o oo).Inv s0) (k : ℕ) (hk : (Q.using o oo).Drawn k s0) (hus : ∀ u ∈ us, (Q.using o oo).Fits u)
    (hr : ∀ pre R X Y post, us = pre ++ Use.train R X Y :: post →
      Q.shape.RegularOn Q.ext Q.dz (k + (batches pre).length) R (matOf R X) (matOf R Y) ((Q.using o oo).cells ((Q.using o oo).net.run s0 pre)).pre.weights)
    (h : Stock LayerMemo)
    (hh : (Q.using o oo).Stores (fun id m k => stands m k (ty id) (β1 id) (β2 id) (γ id)) (stands Q.outputs (Q.tree.neurons + 1) tyo β1o β2o γo)
      ((Q.using o oo).cells s0) h)
    (hq : ∀ id t, ((o id).pre t).blocked = true ∧ ((o id).app t).blocked = true) (hqo : ∀ t, (oo.pre t).blocked = true ∧ (oo.app t).blocked = true) :
    Q.shape.Same ((Q.using o oo).weights ((Q.using o oo).net.run s0 us)) ((Q.using o oo).weights s0) := by
  obtain ⟨h', k1, k2⟩ := dropout_training_with_every_setting o oo ty β1 β2 γ tyo β1o β2o γo ho hb hout us s0 hi k hk hus hr h hh
  have h0 : Q.shape.Same h.W ((Q.using o oo).weights s0) := hh.weights.symm.trans (XPlan.cells_weights ho s0)
  have hset : ∀ (q : Opt) (m : ℕ) (ty : GradType) (β1 β2 γ : ℝ), (∀ t, (q.pre t).blocked = true ∧ (q.app t).blocked = true) →
      ∀ t, beforeOf q m t = none ∧ afterOf q m ty β1 β2 γ t = none := by
    intro q m ty β1 β2 γ hq t
    refine ⟨?_, ?_⟩
    · unfold beforeOf
      rw [(hq t).1, if_neg (by simp)]
    · unfold afterOf
      rw [(hq t).2, if_pos rfl]
  exact k2.trans ((idle_rests_on _ (fun id m _ t => hset (o id) m _ _ _ _ (hq id) t) (fun t => hset oo _ _ _ _ _ hqo t) k1).symm.trans h0)

end

end Nntl.Sgd
