import Verif.Sgd.FreeLemmas

/-! C201: limits of lengths, layers that are not trained and blocked learning, where derivatives need not exist. Property theorems. -/
namespace Nntl.Sgd

open Nntl.Layers Nntl.Pass Nntl.Matrix Nntl.Kernel Nntl.Backprop Nntl.Grad
open Finset

/-! ### Specification -/

/-- In every trained layer whose gradient works are never blocked and always have the limit `B` for squared lengths (of weight vectors with the bias weight if `incl`), the
weight vectors of all neurons are within this limit. -/
def WithinLimits (S : Shape) (upd : ℕ → Bool) (uo : Bool) (o : ℕ → Opt) (oo : Opt) (B : ℝ) (incl : Bool) (W : Weights) : Prop :=
  (∀ i m, (mats S.tree S.inputs)[i]? = some m → upd m.id = true →
    (∀ t, ((o m.id).app t).blocked = false ∧ ((o m.id).app t).cfg.useMaxNorm = true ∧ ((o m.id).app t).cfg.maxNorm2 = B ∧
      ((o m.id).app t).cfg.normInclBias = incl) → ∀ c < m.rows, ∑ j ∈ range (if incl then m.cols else m.cols - 1), (W.body i c j) ^ 2 ≤ B) ∧
  (uo = true → (∀ t, (oo.app t).blocked = false ∧ (oo.app t).cfg.useMaxNorm = true ∧ (oo.app t).cfg.maxNorm2 = B ∧ (oo.app t).cfg.normInclBias = incl) →
    ∀ c < S.outputs, ∑ j ∈ range (if incl then S.tree.neurons + 1 else S.tree.neurons), (W.out c j) ^ 2 ≤ B)

/-- Layers that are not trained, have no velocity, and do not use Nesterov momentum together with a limit of lengths have the same weights in `W` and `W'`. -/
def FrozenKept (S : Shape) (upd : ℕ → Bool) (uo : Bool) (o : ℕ → Opt) (oo : Opt) (h : Stock LayerMemo) (W W' : Weights) : Prop :=
  (∀ i m, (mats S.tree S.inputs)[i]? = some m → upd m.id = false →
    (∀ t, ((o m.id).pre t).cfg.useMom = true → ((o m.id).pre t).cfg.nesterov = true → ((o m.id).pre t).cfg.useMaxNorm = false) →
    (∀ c < m.rows, ∀ j < m.cols, ((h.body i).cell c j).v = 0) → ∀ c < m.rows, ∀ j < m.cols, W'.body i c j = W.body i c j) ∧
  (uo = false → (∀ t, (oo.pre t).cfg.useMom = true → (oo.pre t).cfg.nesterov = true → (oo.pre t).cfg.useMaxNorm = false) →
    (∀ c < S.outputs, ∀ j < S.tree.neurons + 1, (h.out.cell c j).v = 0) → ∀ c < S.outputs, ∀ j < S.tree.neurons + 1, W'.out c j = W.out c j)

/-- Learning is blocked in every call of every gradient works. -/
def AllBlocked (o : ℕ → Opt) (oo : Opt) : Prop :=
  (∀ id t, ((o id).pre t).blocked = true ∧ ((o id).app t).blocked = true) ∧ ∀ t, (oo.pre t).blocked = true ∧ (oo.app t).blocked = true

/-! ### Property theorems -/

section
variable {Q : XPlan} (o : ℕ → Opt) (oo : Opt) (ty : ℕ → GradType) (β1 β2 γ : ℕ → ℝ) (tyo : GradType) (β1o β2o γo : ℝ)

theorem free_path (ho : (Q.using o oo).Ok) (hb : ∀ id, Stays (o id) (ty id) (β1 id) (β2 id)) (hout : Stays oo tyo β1o β2o)
    (us : List (Use ℝ)) (s0 : NetS (Q.using o oo).net) (hi : (Q.using o oo).Inv s0) (hus : ∀ u ∈ us, (Q.using o oo).Fits u) (h : Stock LayerMemo)
    (hh : (Q.using o oo).Stores (fun id m k => stands m k (ty id) (β1 id) (β2 id) (γ id)) (stands Q.outputs (Q.tree.neurons + 1) tyo β1o β2o γo)
      ((Q.using o oo).cells s0) h) :
    ∃ Js h', Js.length = (batches us).length ∧
      Q.shape.MatPathOn Q.upd Q.uo (fun id => ruleOf (o id) (ty id) (β1 id) (β2 id) (γ id)) (ruleOf oo tyo β1o β2o γo Q.outputs (Q.tree.neurons + 1)) Js h h' ∧
      Q.shape.Same ((Q.using o oo).weights ((Q.using o oo).net.run s0 us)) h'.W := by
  obtain ⟨Js, h1, _, h3⟩ := course_on_some_objectives ho us s0 hi hus
  obtain ⟨h', k1, k2⟩ := mat_path_on (P := (Q.using o oo).toPlan)
    (fun id m k => gradWorks_obey (o id) m k (ty id) (β1 id) (β2 id) (γ id) fun t => ⟨(hb id).type t, (hb id).beta1 t, (hb id).beta2 t⟩)
    (gradWorks_obey oo _ _ tyo β1o β2o γo fun t => ⟨hout.type t, hout.beta1 t, hout.beta2 t⟩) Js hh h3
  exact ⟨Js, h', h1, k2, (XPlan.cells_weights ho _).symm.trans k1.weights⟩

/-- C201. After any history with at least one training step, the weight vectors of trained layers are within the limits that are set for them: for any activation
functions, also at points where they have no derivative, any loss, any batches, with and without dropout and penalties on activations. -/
theorem lengths_stay_within_limits_always
    (ho : (Q.using o oo).Ok) (hb : ∀ id, Stays (o id) (ty id) (β1 id) (β2 id)) (hout : Stays oo tyo β1o β2o)
    (us : List (Use ℝ)) (s0 : NetS (Q.using o oo).net) (hi : (Q.using o oo).Inv s0) (hus : ∀ u ∈ us, (Q.using o oo).Fits u) (h : Stock LayerMemo)
    (hh : (Q.using o oo).Stores (fun id m k => stands m k (ty id) (β1 id) (β2 id) (γ id)) (stands Q.outputs (Q.tree.neurons + 1) tyo β1o β2o γo)
      ((Q.using o oo).cells s0) h)
    (hne : ∃ R X Y, Use.train R X Y ∈ us) (B : ℝ) (hB : 0 ≤ B) (incl : Bool) :
    WithinLimits Q.shape Q.upd Q.uo o oo B incl ((Q.using o oo).weights ((Q.using o oo).net.run s0 us)) := by
  obtain ⟨Js, h', hJ, k1, k2⟩ := free_path o oo ty β1 β2 γ tyo β1o β2o γo ho hb hout us s0 hi hus h hh
  have hne : Js ≠ [] := by
    obtain ⟨R, X, Y, hm⟩ := hne
    have := List.length_pos_iff.2 (batches_ne us hm)
    exact List.length_pos_iff.1 (by omega)
  have hset : ∀ (q : Opt) (m : ℕ) (ty : GradType) (β1 β2 γ : ℝ), (∀ t, (q.app t).blocked = false ∧ (q.app t).cfg.useMaxNorm = true ∧ (q.app t).cfg.maxNorm2 = B ∧
      (q.app t).cfg.normInclBias = incl) → ∀ t, ∃ a, afterOf q m ty β1 β2 γ t = some a ∧ a.limit = some ⟨B, incl⟩ := by
    intro q m ty β1 β2 γ hq t
    obtain ⟨q1, q2, q3, q4⟩ := hq t
    refine ⟨_, by unfold afterOf; rw [q1, if_neg Bool.false_ne_true], ?_⟩
    unfold limitOf
    rw [q2, if_pos rfl, q3, q4]
  obtain ⟨l1, l2⟩ := limits_hold_after_paths_on hne k1 ⟨B, incl⟩ hB
  refine ⟨fun i m hm hu hq c hc => ?_, fun hu hq c hc => ?_⟩
  · refine le_trans (le_of_eq (Finset.sum_congr rfl fun j hj => ?_)) (l1 i m hm hu (hset _ _ _ _ _ _ hq) c hc)
    rw [k2.1 i m hm c hc j (by have := Finset.mem_range.1 hj; split at this <;> omega)]
  · refine le_trans (le_of_eq (Finset.sum_congr rfl fun j hj => ?_)) (l2 hu (hset _ _ _ _ _ _ hq) c hc)
    rw [k2.2 c hc j (by have := Finset.mem_range.1 hj; show j < Q.shape.tree.neurons + 1; split at this <;> omega)]

/-- C201. Any history leaves the weights of a layer that is not trained as they are, under the conditions of `FrozenKept`. Without the condition on Nesterov momentum this
fails: `frozen_layers_may_shrink`. -/
theorem frozen_layers_keep_their_weights_always_partial
    (ho : (Q.using o oo).Ok) (hb : ∀ id, Stays (o id) (ty id) (β1 id) (β2 id)) (hout : Stays oo tyo β1o β2o)
    (us : List (Use ℝ)) (s0 : NetS (Q.using o oo).net) (hi : (Q.using o oo).Inv s0) (hus : ∀ u ∈ us, (Q.using o oo).Fits u) (h : Stock LayerMemo)
    (hh : (Q.using o oo).Stores (fun id m k => stands m k (ty id) (β1 id) (β2 id) (γ id)) (stands Q.outputs (Q.tree.neurons + 1) tyo β1o β2o γo)
      ((Q.using o oo).cells s0) h) :
    FrozenKept Q.shape Q.upd Q.uo o oo h ((Q.using o oo).weights s0) ((Q.using o oo).weights ((Q.using o oo).net.run s0 us)) := by
  obtain ⟨Js, h', hJ, k1, k2⟩ := free_path o oo ty β1 β2 γ tyo β1o β2o γo ho hb hout us s0 hi hus h hh
  have h0 : Q.shape.Same h.W ((Q.using o oo).weights s0) := hh.weights.symm.trans (XPlan.cells_weights ho s0)
  have hset : ∀ (q : Opt) (m : ℕ), (∀ t, (q.pre t).cfg.useMom = true → (q.pre t).cfg.nesterov = true → (q.pre t).cfg.useMaxNorm = false) →
      ∀ t a, beforeOf q m t = some a → a.limit = none := by
    intro q m hq t a ha
    unfold beforeOf at ha
    split at ha
    next hc =>
      cases ha
      show limitOf _ = none
      unfold limitOf
      rw [hq t hc.2.1 hc.2.2, if_neg Bool.false_ne_true]
    next => cases ha
  obtain ⟨l1, l2⟩ := frozen_rests_on _ k1
  refine ⟨fun i m hm hu hq hv c hc j hj => ?_, fun hu hq hv c hc j hj => ?_⟩
  · rw [k2.1 i m hm c hc j hj, l1 i m hm hu (hset _ _ hq) hv c hc j hj, h0.1 i m hm c hc j hj]
  · rw [k2.2 c hc j hj, l2 hu (hset _ _ hq) hv c hc j hj, h0.2 c hc j hj]

/-- C201. While learning is blocked, no history changes any weight. -/
theorem blocked_learning_keeps_weights_always
    (ho : (Q.using o oo).Ok) (hb : ∀ id, Stays (o id) (ty id) (β1 id) (β2 id)) (hout : Stays oo tyo β1o β2o)
    (us : List (Use ℝ)) (s0 : NetS (Q.using o oo).net) (hi : (Q.using o oo).Inv s0) (hus : ∀ u ∈ us, (Q.using o oo).Fits u) (h : Stock LayerMemo)
    (hh : (Q.using o oo).Stores (fun id m k => stands m k (ty id) (β1 id) (β2 id) (γ id)) (stands Q.outputs (Q.tree.neurons + 1) tyo β1o β2o γo)
      ((Q.using o oo).cells s0) h)
    (hq : AllBlocked o oo) : Q.shape.Same ((Q.using o oo).weights ((Q.using o oo).net.run s0 us)) ((Q.using o oo).weights s0) := by
  obtain ⟨Js, h', hJ, k1, k2⟩ := free_path o oo ty β1 β2 γ tyo β1o β2o γo ho hb hout us s0 hi hus h hh
  have h0 : Q.shape.Same h.W ((Q.using o oo).weights s0) := hh.weights.symm.trans (XPlan.cells_weights ho s0)
  have hset : ∀ (q : Opt) (m : ℕ) (ty : GradType) (β1 β2 γ : ℝ), (∀ t, (q.pre t).blocked = true ∧ (q.app t).blocked = true) →
      ∀ t, beforeOf q m t = none ∧ afterOf q m ty β1 β2 γ t = none := by
    intro q m ty β1 β2 γ hq t
    refine ⟨?_, ?_⟩
    · unfold beforeOf
      rw [(hq t).1, if_neg (by simp)]
    · unfold afterOf
      rw [(hq t).2, if_pos rfl]
  exact k2.trans ((idle_rests_on _ (fun id m _ t => hset (o id) m _ _ _ _ (hq.1 id) t) (fun t => hset oo _ _ _ _ _ hq.2 t) k1).symm.trans h0)

end

namespace Thin

variable {Q : XPlan} {vmax : ℕ} {d : TrainData.Data ℝ ℝ} {L : Type} (o : ℕ → Opt) (oo : Opt) (ty : ℕ → GradType) (β1 β2 γ : ℕ → ℝ) (tyo : GradType) (β1o β2o γo : ℝ)

theorem batches_of_ne : ∀ (us : List (Use ℝ)), batches us ≠ [] → ∃ R X Y, Use.train R X Y ∈ us
  | [], h => absurd rfl h
  | .eval _ _ :: us, h => by
    obtain ⟨R, X, Y, hm⟩ := batches_of_ne us h
    exact ⟨R, X, Y, List.mem_cons_of_mem _ hm⟩
  | .train R X Y :: _, _ => ⟨R, X, Y, List.mem_cons_self⟩

/-- C201. A call of `train()` that begins at least one epoch, with a batch size not beyond the number of training samples, leaves the weight vectors of trained layers
within the limits that are set for them, whether it ends with success or with an error, and whether derivatives exist or not. -/
theorem whole_training_ends_within_limits
    (ho : (Q.using o oo).Ok) (hb : ∀ id, Stays (o id) (ty id) (β1 id) (β2 id)) (hout : Stays oo tyo β1o β2o)
    (hs : Suits d Q.toPlan) {opts : Train.Opts L} {v : Train.Env L} (hv : Train.Starts v)
    {cd cd' : Train.CD} {tr : List Train.Ev} {err : Train.Err} (ht : Train.train opts v cd = some (cd', tr, err)) (hbs : cd.trainBs ≤ Q.bs.maxTrainBS)
    {w w' : World (Q.using o oo)} (hc : w.cur = cd.cur) (hr : TrainData.Reach vmax d w.td) (hi : (Q.using o oo).Inv w.net)
    (h : Stock LayerMemo)
    (hh : (Q.using o oo).Stores (fun id m k => stands m k (ty id) (β1 id) (β2 id) (γ id)) (stands Q.outputs (Q.tree.neurons + 1) tyo β1o β2o γo)
      ((Q.using o oo).cells w.net) h)
    (hP : Plays (Q.using o oo) vmax tr w w')
    (hbeg : Train.begunOf tr ≠ []) (h0 : 0 < cd.trainBs) (hcnt : cd.trainBs ≤ d.count .train) (B : ℝ) (hB : 0 ≤ B) (incl : Bool) :
    WithinLimits Q.shape Q.upd Q.uo o oo B incl ((Q.using o oo).weights w'.net) := by
  obtain ⟨ords, h1, -, -, us, k1, k2, k3⟩ := whole_training_past (P := Q.using o oo) ⟨hs.ok, hs.rowsX, hs.rowsY, hs.ones, hs.inputs, hs.outputs⟩ hv ht hbs hc hr hP
  rw [k3]
  refine lengths_stay_within_limits_always o oo ty β1 β2 γ tyo β1o β2o γo ho hb hout us w.net hi k1 h hh (batches_of_ne us fun hn => ?_) B hB incl
  rw [hn] at k2
  have k4 := k2.length_eq
  have k5 := List.length_pos_iff.2 hbeg
  have k6 : 0 < d.count .train / cd.trainBs := Nat.div_pos hcnt h0
  cases ords with
  | nil => rw [← h1] at k5; exact absurd k5 (Nat.lt_irrefl _)
  | cons a as =>
    rw [List.flatMap_cons, List.length_append] at k4
    unfold epochBatches at k4
    rw [List.length_map, List.length_range] at k4
    simp only [List.length_nil] at k4
    omega

/-- C201. No call of `train()` changes the weights of a layer that is not trained, under the conditions of `FrozenKept`. -/
theorem whole_training_keeps_frozen_layers_partial
    (ho : (Q.using o oo).Ok) (hb : ∀ id, Stays (o id) (ty id) (β1 id) (β2 id)) (hout : Stays oo tyo β1o β2o)
    (hs : Suits d Q.toPlan) {opts : Train.Opts L} {v : Train.Env L} (hv : Train.Starts v)
    {cd cd' : Train.CD} {tr : List Train.Ev} {err : Train.Err} (ht : Train.train opts v cd = some (cd', tr, err)) (hbs : cd.trainBs ≤ Q.bs.maxTrainBS)
    {w w' : World (Q.using o oo)} (hc : w.cur = cd.cur) (hr : TrainData.Reach vmax d w.td) (hi : (Q.using o oo).Inv w.net)
    (h : Stock LayerMemo)
    (hh : (Q.using o oo).Stores (fun id m k => stands m k (ty id) (β1 id) (β2 id) (γ id)) (stands Q.outputs (Q.tree.neurons + 1) tyo β1o β2o γo)
      ((Q.using o oo).cells w.net) h)
    (hP : Plays (Q.using o oo) vmax tr w w') :
    FrozenKept Q.shape Q.upd Q.uo o oo h ((Q.using o oo).weights w.net) ((Q.using o oo).weights w'.net) := by
  obtain ⟨_, _, -, -, us, k1, -, k3⟩ := whole_training_past (P := Q.using o oo) ⟨hs.ok, hs.rowsX, hs.rowsY, hs.ones, hs.inputs, hs.outputs⟩ hv ht hbs hc hr hP
  rw [k3]
  exact frozen_layers_keep_their_weights_always_partial o oo ty β1 β2 γ tyo β1o β2o γo ho hb hout us w.net hi k1 h hh

/-- C201. A call of `train()` while learning is blocked changes no weight. -/
theorem whole_training_with_blocked_learning_keeps_weights
    (ho : (Q.using o oo).Ok) (hb : ∀ id, Stays (o id) (ty id) (β1 id) (β2 id)) (hout : Stays oo tyo β1o β2o)
    (hs : Suits d Q.toPlan) {opts : Train.Opts L} {v : Train.Env L} (hv : Train.Starts v)
    {cd cd' : Train.CD} {tr : List Train.Ev} {err : Train.Err} (ht : Train.train opts v cd = some (cd', tr, err)) (hbs : cd.trainBs ≤ Q.bs.maxTrainBS)
    {w w' : World (Q.using o oo)} (hc : w.cur = cd.cur) (hr : TrainData.Reach vmax d w.td) (hi : (Q.using o oo).Inv w.net)
    (h : Stock LayerMemo)
    (hh : (Q.using o oo).Stores (fun id m k => stands m k (ty id) (β1 id) (β2 id) (γ id)) (stands Q.outputs (Q.tree.neurons + 1) tyo β1o β2o γo)
      ((Q.using o oo).cells w.net) h)
    (hP : Plays (Q.using o oo) vmax tr w w') (hq : AllBlocked o oo) :
    Q.shape.Same ((Q.using o oo).weights w'.net) ((Q.using o oo).weights w.net) := by
  obtain ⟨_, _, -, -, us, k1, -, k3⟩ := whole_training_past (P := Q.using o oo) ⟨hs.ok, hs.rowsX, hs.rowsY, hs.ones, hs.inputs, hs.outputs⟩ hv ht hbs hc hr hP
  rw [k3]
  exact blocked_learning_keeps_weights_always o oo ty β1 β2 γ tyo β1o β2o γo ho hb hout us w.net hi k1 h hh hq

end Thin

end Nntl.Sgd
