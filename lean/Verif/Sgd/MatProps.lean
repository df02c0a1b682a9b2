import Verif.Sgd.MatOpts

/-! C196, C197: networks whose layers use any of the nine methods with every setting. Property theorems. -/
namespace Nntl.Sgd

open Nntl.Layers Nntl.Pass Nntl.Backprop Nntl.Grad Nntl.Matrix Nntl.Kernel
open Finset

/-- The type and the decays of the gradient works of a layer stay; everything else may change from call to call. -/
structure Stays (o : Opt) (ty : GradType) (β1 β2 : ℝ) : Prop where
  type : ∀ t, (o.app t).cfg.type = ty
  beta1 : ∀ t, (o.app t).cfg.beta1 = β1
  beta2 : ∀ t, (o.app t).cfg.beta2 = β2

/-- The rule of a layer with `m` neurons of `k` weights as its settings tell, call after call. -/
noncomputable def ruleOf (o : Opt) (ty : GradType) (β1 β2 γ : ℝ) (m k : ℕ) : MatRule LayerMemo := .scheduled k (beforeOf o m) (afterOf o m ty β1 β2 γ)

/-- C196. Gradient works before their first use. -/
theorem new_works_stand (m k : ℕ) (ty : GradType) (β1 β2 γ : ℝ) (g : GwS) (hf : g.s.firstRun = true) (hg : ty = .radam → g.s.gamma = γ) :
    stands m k ty β1 β2 γ g ⟨g.p, g.t, fun c j => ⟨0, 0, 0, g.s.V (c + m * j), g.s.gain (c + m * j), g.s.prev (c + m * j)⟩⟩ :=
  ⟨rfl, rfl, hg, fun _ _ _ _ => ⟨rfl, rfl, rfl, .inl ⟨hf, rfl, rfl, rfl⟩⟩⟩

variable {P : Plan} {vmax : ℕ} {d : TrainData.Data ℝ ℝ} {L : Type}

/-- C196. Any history of evaluations and training steps of a network whose layers use any of the nine methods with any settings (momentum, gains, penalties, dropout of
learning rates, limits of lengths, blocked learning), some of them not trained: the weights at the end are those that the rules reach from the first ones. -/
theorem training_with_every_setting (o : ℕ → Opt) (oo : Opt) (ty : ℕ → GradType) (β1 β2 γ : ℕ → ℝ) (tyo : GradType) (β1o β2o γo : ℝ)
    (ho : (P.using o oo).Ok) (hb : ∀ id, Stays (o id) (ty id) (β1 id) (β2 id)) (hout : Stays oo tyo β1o β2o)
    (us : List (Use ℝ)) (s0 : NetS (P.using o oo).net) (hi : (P.using o oo).Inv s0) (hus : ∀ u ∈ us, (P.using o oo).Fits u)
    (hr : ∀ pre R X Y post, us = pre ++ Use.train R X Y :: post →
      P.shape.Regular P.dz R (matOf R X) (matOf R Y) ((P.using o oo).cells ((P.using o oo).net.run s0 pre)).pre.weights)
    (h : Stock LayerMemo)
    (hh : (P.using o oo).Stores (fun id m k => stands m k (ty id) (β1 id) (β2 id) (γ id)) (stands P.outputs (P.tree.neurons + 1) tyo β1o β2o γo)
      ((P.using o oo).cells s0) h) :
    ∃ h', P.shape.MatPath P.upd P.uo (fun id => ruleOf (o id) (ty id) (β1 id) (β2 id) (γ id)) (ruleOf oo tyo β1o β2o γo P.outputs (P.tree.neurons + 1))
        (batches us) h h' ∧ P.shape.Same ((P.using o oo).weights ((P.using o oo).net.run s0 us)) h'.W := by
  obtain ⟨h', k1, k2, _⟩ := training_follows_the_mat_rules (P := P.using o oo) ho
    (fun id m k => gradWorks_obey (o id) m k (ty id) (β1 id) (β2 id) (γ id) fun t => ⟨(hb id).type t, (hb id).beta1 t, (hb id).beta2 t⟩)
    (gradWorks_obey oo _ _ tyo β1o β2o γo fun t => ⟨hout.type t, hout.beta1 t, hout.beta2 t⟩) us s0 hi hus hr h hh
  exact ⟨h', k1, k2⟩

/-- C196. The same for a whole call of `train()`: the batches are those of shuffled epochs. -/
theorem whole_training_with_every_setting (o : ℕ → Opt) (oo : Opt) (ty : ℕ → GradType) (β1 β2 γ : ℕ → ℝ) (tyo : GradType) (β1o β2o γo : ℝ)
    (ho : (P.using o oo).Ok) (hb : ∀ id, Stays (o id) (ty id) (β1 id) (β2 id)) (hout : Stays oo tyo β1o β2o)
    (hl : LossLooks P.shape) (hs : Suits d P) {opts : Train.Opts L} {v : Train.Env L} (hv : Train.Starts v)
    {cd cd' : Train.CD} {tr : List Train.Ev} {err : Train.Err} (ht : Train.train opts v cd = some (cd', tr, err)) (hbs : cd.trainBs ≤ P.bs.maxTrainBS)
    {w w' : World (P.using o oo)} (hc : w.cur = cd.cur) (hr : TrainData.Reach vmax d w.td) (hi : (P.using o oo).Inv w.net) (h : Stock LayerMemo)
    (hh : (P.using o oo).Stores (fun id m k => stands m k (ty id) (β1 id) (β2 id) (γ id)) (stands P.outputs (P.tree.neurons + 1) tyo β1o β2o γo)
      ((P.using o oo).cells w.net) h)
    (hg : GoesWellIn P d (fun id => ruleOf (o id) (ty id) (β1 id) (β2 id) (γ id)) (ruleOf oo tyo β1o β2o γo P.outputs (P.tree.neurons + 1)) h)
    (hP : Plays (P.using o oo) vmax tr w w') :
    ∃ ords : List (ℕ → ℕ), ords.length = (Train.begunOf tr).length ∧ (err = .success → (∀ e, v.cb e = true) → ords.length = opts.flags.length) ∧
      (∀ ord ∈ ords, Shuffled (d.count .train) cd.trainBs ord) ∧
      ∃ h', P.shape.MatPath P.upd P.uo (fun id => ruleOf (o id) (ty id) (β1 id) (β2 id) (γ id)) (ruleOf oo tyo β1o β2o γo P.outputs (P.tree.neurons + 1))
        (ords.flatMap (epochBatches d cd.trainBs)) h h' ∧ P.shape.Same h'.W ((P.using o oo).weights w'.net) :=
  whole_training_follows_the_mat_rules (P := P.using o oo) ho hl ⟨hs.ok, hs.rowsX, hs.rowsY, hs.ones, hs.inputs, hs.outputs⟩
    (fun id m k => gradWorks_obey (o id) m k (ty id) (β1 id) (β2 id) (γ id) fun t => ⟨(hb id).type t, (hb id).beta1 t, (hb id).beta2 t⟩)
    (gradWorks_obey oo _ _ tyo β1o β2o γo fun t => ⟨hout.type t, hout.beta1 t, hout.beta2 t⟩) hv ht hbs hc hr hi h hh hg hP

/-! ### What follows for the weights -/

/-- C197. After a limit was applied no neuron is above it. -/
theorem shrink_within (l : Limit) (hl : 0 ≤ l.bound) (k : ℕ) (w : Mat ℝ) (c : ℕ) :
    ∑ i ∈ range (if l.bias then k else k - 1), (l.shrink k w c i) ^ 2 ≤ l.bound := by
  unfold Limit.shrink
  simp only
  by_cases h : l.bound < ∑ i ∈ range (if l.bias = true then k else k - 1), w c i ^ 2
  · simp only [h, if_true, mul_pow, ← Finset.mul_sum]
    have h0 : 0 < ∑ i ∈ range (if l.bias = true then k else k - 1), w c i ^ 2 := lt_of_le_of_lt hl h
    rw [Real.sq_sqrt (div_nonneg hl h0.le), div_mul_cancel₀ _ h0.ne']
  · simp only [h, if_false]
    exact not_lt.1 h

/-- The last step of a path. -/
theorem mat_path_last {σ : Type} {S : Shape} {upd : ℕ → Bool} {uo : Bool} {ρ : ℕ → ℕ → ℕ → MatRule σ} {ρo : MatRule σ} :
    ∀ {bs : List (ℕ × Mat ℝ × Mat ℝ)} {h h' : Stock σ}, bs ≠ [] → S.MatPath upd uo ρ ρo bs h h' → ∃ (b : ℕ × Mat ℝ × Mat ℝ) (g g' : Stock σ),
      S.MatStep upd uo ρ ρo b.1 b.2.1 b.2.2 g g' ∧ S.MatPath upd uo ρ ρo [] g' h'
  | [], _, _, hn, _ => absurd rfl hn
  | [b], h, _, _, ⟨h1, k1, k2⟩ => ⟨b, h, h1, k1, k2⟩
  | _ :: _ :: _, _, _, _, ⟨_, _, k2⟩ => mat_path_last (List.cons_ne_nil _ _) k2

/-- After derivatives were applied with a limit. -/
theorem after_within {m k : ℕ} {before : ℕ → Option Ahead} {after : ℕ → Option After} {st : LayerMemo} {w d w' : Mat ℝ} {l : Limit} (hl : 0 ≤ l.bound)
    (ha : ∃ a, after st.t = some a ∧ a.limit = some l) (e : Agree m k w' ((MatRule.scheduled k before after).after st w d).2) :
    ∀ c < m, ∑ j ∈ range (if l.bias then k else k - 1), (w' c j) ^ 2 ≤ l.bound := by
  intro c hc
  obtain ⟨a, ha1, ha2⟩ := ha
  obtain ⟨u, key⟩ : ∃ u : Mat ℝ, ((MatRule.scheduled k before after).after st w d).2 = l.shrink k u := by
    refine ⟨fun c j => if a.keep c j then w c j - (a.cell (decide (j + 1 = k)) (st.cell c j) (w c j) (d c j)).2 else w c j, ?_⟩
    show (match after st.t with
      | none => ((⟨st.p, st.t + 1, st.cell⟩, w) : LayerMemo × Mat ℝ)
      | some a => (⟨st.p, st.t + 1, (a.go k st.cell w d).1⟩, (a.go k st.cell w d).2)).2 = _
    rw [ha1]
    simp only [After.go, limited, ha2]
  refine le_trans (le_of_eq (Finset.sum_congr rfl fun j hj => ?_)) (shrink_within l hl k u c)
  rw [e c hc j (by have := Finset.mem_range.1 hj; split at this <;> omega), key]

/-- Before a forward pass, without velocity and without limits. -/
theorem before_rests {m k : ℕ} {before : ℕ → Option Ahead} {after : ℕ → Option After} {st : LayerMemo} {w : Mat ℝ}
    (hn : ∀ t a, before t = some a → a.limit = none) (hv : ∀ c < m, ∀ j < k, (st.cell c j).v = 0) :
    (∀ c < m, ∀ j < k, (((MatRule.scheduled k before after).before st w).1.cell c j).v = 0) ∧
    Agree m k ((MatRule.scheduled k before after).before st w).2 w := by
  have key : ∀ c < m, ∀ j < k, (((MatRule.scheduled k before after).before st w).1.cell c j).v = 0 ∧ ((MatRule.scheduled k before after).before st w).2 c j = w c j := by
    intro c hc j hj
    show (((match before st.p with
      | none => ((⟨st.p + 1, st.t, st.cell⟩, w) : LayerMemo × Mat ℝ)
      | some a => (⟨st.p + 1, st.t, (a.go k st.cell w).1⟩, (a.go k st.cell w).2)).1.cell c j).v = 0) ∧
      (match before st.p with
      | none => ((⟨st.p + 1, st.t, st.cell⟩, w) : LayerMemo × Mat ℝ)
      | some a => (⟨st.p + 1, st.t, (a.go k st.cell w).1⟩, (a.go k st.cell w).2)).2 c j = _
    cases hb : before st.p with
    | none => exact ⟨hv c hc j hj, rfl⟩
    | some a => simp only [Ahead.go, limited, hn _ a hb, hv c hc j hj, mul_zero, sub_zero, ite_self, and_self]
  exact ⟨fun c hc j hj => (key c hc j hj).1, fun c hc j hj => (key c hc j hj).2⟩

section
variable {S : Shape} {upd : ℕ → Bool} {uo : Bool} {before : ℕ → ℕ → ℕ → ℕ → Option Ahead} {after : ℕ → ℕ → ℕ → ℕ → Option After}
  {bo : ℕ → Option Ahead} {ao : ℕ → Option After}

/-- C197. After any training of at least one batch by these rules, the weight vectors of all neurons of a trained layer are within the limit that is set for it. -/
theorem limits_hold_after_paths {bs : List (ℕ × Mat ℝ × Mat ℝ)} (hbs : bs ≠ []) {h h' : Stock LayerMemo}
    (hp : S.MatPath upd uo (fun id m k => .scheduled k (before id m k) (after id m k)) (.scheduled (S.tree.neurons + 1) bo ao) bs h h') (l : Limit) (hl : 0 ≤ l.bound) :
    (∀ i m, (mats S.tree S.inputs)[i]? = some m → upd m.id = true → (∀ t, ∃ a, after m.id m.rows m.cols t = some a ∧ a.limit = some l) →
      ∀ c < m.rows, ∑ j ∈ range (if l.bias then m.cols else m.cols - 1), (h'.W.body i c j) ^ 2 ≤ l.bound) ∧
    (uo = true → (∀ t, ∃ a, ao t = some a ∧ a.limit = some l) → ∀ c < S.outputs,
      ∑ j ∈ range (if l.bias then S.tree.neurons + 1 else S.tree.neurons), (h'.W.out c j) ^ 2 ≤ l.bound) := by
  obtain ⟨b, g, g', ⟨L, k1, _, k2, k3⟩, k4, _⟩ := mat_path_last hbs hp
  refine ⟨fun i m hm hu ha => ?_, fun hu ha => ?_⟩
  · obtain ⟨_, _, e⟩ := k1 i m hm
    rw [if_pos hu] at e
    exact after_within hl (ha _) fun c hc j hj => (k4.1 i m hm c hc j hj).symm.trans (e c hc j hj)
  · rw [if_pos hu] at k3
    exact after_within (k := S.tree.neurons + 1) hl (ha _) fun c hc j hj => (k4.2 c hc j hj).symm.trans (k3 c hc j hj)

/-- C197. A layer that is not trained and has no velocity keeps its weights, if no limits of lengths are applied before forward passes. -/
theorem frozen_rests : ∀ (bs : List (ℕ × Mat ℝ × Mat ℝ)) {h h' : Stock LayerMemo},
    S.MatPath upd uo (fun id m k => .scheduled k (before id m k) (after id m k)) (.scheduled (S.tree.neurons + 1) bo ao) bs h h' →
    (∀ i m, (mats S.tree S.inputs)[i]? = some m → upd m.id = false → (∀ t a, before m.id m.rows m.cols t = some a → a.limit = none) →
      (∀ c < m.rows, ∀ j < m.cols, ((h.body i).cell c j).v = 0) → Agree m.rows m.cols (h'.W.body i) (h.W.body i)) ∧
    (uo = false → (∀ t a, bo t = some a → a.limit = none) → (∀ c < S.outputs, ∀ j < S.tree.neurons + 1, (h.out.cell c j).v = 0) →
      Agree S.outputs (S.tree.neurons + 1) h'.W.out h.W.out)
  | [], _, _, hp => ⟨fun i m hm _ _ _ c hc j hj => (hp.1.1 i m hm c hc j hj).symm, fun _ _ _ c hc j hj => (hp.1.2 c hc j hj).symm⟩
  | b :: bs, h, h', ⟨h1, ⟨L, k1, _, k2, k3⟩, k4⟩ => by
    obtain ⟨j1, j2⟩ := frozen_rests bs k4
    refine ⟨fun i m hm hu hn hv => ?_, fun hu hn hv => ?_⟩
    · obtain ⟨_, e1, e2⟩ := k1 i m hm
      rw [if_neg (by rw [hu]; decide)] at e1 e2
      obtain ⟨r1, r2⟩ := before_rests (after := after m.id m.rows m.cols) (w := h.W.body i) hn hv
      exact fun c hc j hj => (j1 i m hm hu hn (by rw [e1]; exact r1) c hc j hj).trans ((e2 c hc j hj).trans (r2 c hc j hj))
    · rw [if_neg (by rw [hu]; decide)] at k2 k3
      obtain ⟨r1, r2⟩ := before_rests (k := S.tree.neurons + 1) (after := ao) (w := h.W.out) hn hv
      exact fun c hc j hj => (j2 hu hn (by rw [k2]; exact r1) c hc j hj).trans ((k3 c hc j hj).trans (r2 c hc j hj))

/-- While nothing is done in any call, no weight moves. -/
theorem idle_rests : ∀ (bs : List (ℕ × Mat ℝ × Mat ℝ)) {h h' : Stock LayerMemo}, (∀ id m k t, before id m k t = none ∧ after id m k t = none) →
    (∀ t, bo t = none ∧ ao t = none) →
    S.MatPath upd uo (fun id m k => .scheduled k (before id m k) (after id m k)) (.scheduled (S.tree.neurons + 1) bo ao) bs h h' → S.Same h.W h'.W
  | [], _, _, _, _, hp => hp.1
  | b :: bs, h, h', hb, ho, ⟨h1, ⟨L, k1, _, _, k3⟩, k4⟩ => by
    have key : ∀ (k : ℕ) (be : ℕ → Option Ahead) (af : ℕ → Option After), (∀ t, be t = none ∧ af t = none) → ∀ (u : Bool) (st : LayerMemo) (w d : Mat ℝ),
        (if u then (MatRule.scheduled k be af).after ((MatRule.scheduled k be af).before st w).1 ((MatRule.scheduled k be af).before st w).2 d
          else (MatRule.scheduled k be af).before st w).2 = w := by
      intro k be af hn u st w d
      obtain rfl : be = fun _ => none := funext fun t => (hn t).1
      obtain rfl : af = fun _ => none := funext fun t => (hn t).2
      cases u <;> rfl
    refine Shape.Same.trans ⟨fun i m hm c hc j hj => ?_, fun c hc j hj => ?_⟩ (idle_rests bs hb ho k4)
    · rw [(k1 i m hm).2.2 c hc j hj]
      exact (congrFun (congrFun (key m.cols _ _ (hb _ _ _) (upd m.id) _ _ _) c) j).symm
    · rw [k3 c hc j hj]
      exact (congrFun (congrFun (key (S.tree.neurons + 1) _ _ ho uo _ _ _) c) j).symm

end

theorem batches_ne {R : ℕ} {X Y : Mem ℝ} : ∀ us : List (Use ℝ), Use.train R X Y ∈ us → batches us ≠ []
  | .eval _ _ :: us, h => batches_ne us (by
    rcases List.mem_cons.1 h with h | h
    · cases h
    · exact h)
  | .train _ _ _ :: _, _ => List.cons_ne_nil _ _

section
variable (o : ℕ → Opt) (oo : Opt) (ty : ℕ → GradType) (β1 β2 γ : ℕ → ℝ) (tyo : GradType) (β1o β2o γo : ℝ)

/-- C197. After any history with at least one training step, in every trained layer whose calls have the limit `B` (and are not blocked) the squared length of the weight
vector of every neuron is at most `B`. -/
theorem lengths_stay_within_limits
    (ho : (P.using o oo).Ok) (hb : ∀ id, Stays (o id) (ty id) (β1 id) (β2 id)) (hout : Stays oo tyo β1o β2o)
    (us : List (Use ℝ)) (s0 : NetS (P.using o oo).net) (hi : (P.using o oo).Inv s0) (hus : ∀ u ∈ us, (P.using o oo).Fits u)
    (hr : ∀ pre R X Y post, us = pre ++ Use.train R X Y :: post →
      P.shape.Regular P.dz R (matOf R X) (matOf R Y) ((P.using o oo).cells ((P.using o oo).net.run s0 pre)).pre.weights)
    (h : Stock LayerMemo)
    (hh : (P.using o oo).Stores (fun id m k => stands m k (ty id) (β1 id) (β2 id) (γ id)) (stands P.outputs (P.tree.neurons + 1) tyo β1o β2o γo)
      ((P.using o oo).cells s0) h)
    (hne : ∃ R X Y, Use.train R X Y ∈ us) (B : ℝ) (hB : 0 ≤ B) (incl : Bool) :
    (∀ i m, (mats P.tree P.inputs)[i]? = some m → P.upd m.id = true →
      (∀ t, ((o m.id).app t).blocked = false ∧ ((o m.id).app t).cfg.useMaxNorm = true ∧ ((o m.id).app t).cfg.maxNorm2 = B ∧
        ((o m.id).app t).cfg.normInclBias = incl) → ∀ c < m.rows,
      ∑ j ∈ range (if incl then m.cols else m.cols - 1), (((P.using o oo).weights ((P.using o oo).net.run s0 us)).body i c j) ^ 2 ≤ B) ∧
    (P.uo = true → (∀ t, (oo.app t).blocked = false ∧ (oo.app t).cfg.useMaxNorm = true ∧ (oo.app t).cfg.maxNorm2 = B ∧ (oo.app t).cfg.normInclBias = incl) →
      ∀ c < P.outputs, ∑ j ∈ range (if incl then P.tree.neurons + 1 else P.tree.neurons),
        (((P.using o oo).weights ((P.using o oo).net.run s0 us)).out c j) ^ 2 ≤ B) := by
  obtain ⟨h', k1, k2⟩ := training_with_every_setting o oo ty β1 β2 γ tyo β1o β2o γo ho hb hout us s0 hi hus hr h hh
  have hne : batches us ≠ [] := by
    obtain ⟨R, X, Y, hm⟩ := hne
    exact batches_ne us hm
  have hset : ∀ (q : Opt) (m : ℕ) (ty : GradType) (β1 β2 γ : ℝ), (∀ t, (q.app t).blocked = false ∧ (q.app t).cfg.useMaxNorm = true ∧ (q.app t).cfg.maxNorm2 = B ∧
      (q.app t).cfg.normInclBias = incl) → ∀ t, ∃ a, afterOf q m ty β1 β2 γ t = some a ∧ a.limit = some ⟨B, incl⟩ := by
    intro q m ty β1 β2 γ hq t
    obtain ⟨q1, q2, q3, q4⟩ := hq t
    refine ⟨_, by unfold afterOf; rw [q1, if_neg Bool.false_ne_true], ?_⟩
    unfold limitOf
    rw [q2, if_pos rfl, q3, q4]
  obtain ⟨l1, l2⟩ := limits_hold_after_paths hne k1 ⟨B, incl⟩ hB
  refine ⟨fun i m hm hu hq c hc => ?_, fun hu hq c hc => ?_⟩
  · refine le_trans (le_of_eq (Finset.sum_congr rfl fun j hj => ?_)) (l1 i m hm hu (hset _ _ _ _ _ _ hq) c hc)
    rw [k2.1 i m hm c hc j (by have := Finset.mem_range.1 hj; split at this <;> omega)]
  · refine le_trans (le_of_eq (Finset.sum_congr rfl fun j hj => ?_)) (l2 hu (hset _ _ _ _ _ _ hq) c hc)
    rw [k2.2 c hc j (by have := Finset.mem_range.1 hj; show j < P.tree.neurons + 1; split at this <;> omega)]

/-- C197. Any history leaves the weights of a layer that is not trained as they are, if it has no velocity (as it is after initialisation) and its Nesterov momentum is
not used together with a limit of lengths. Without the last condition this fails: `frozen_layers_may_shrink`. -/
theorem frozen_layers_keep_their_weights_partial
    (ho : (P.using o oo).Ok) (hb : ∀ id, Stays (o id) (ty id) (β1 id) (β2 id)) (hout : Stays oo tyo β1o β2o)
    (us : List (Use ℝ)) (s0 : NetS (P.using o oo).net) (hi : (P.using o oo).Inv s0) (hus : ∀ u ∈ us, (P.using o oo).Fits u)
    (hr : ∀ pre R X Y post, us = pre ++ Use.train R X Y :: post →
      P.shape.Regular P.dz R (matOf R X) (matOf R Y) ((P.using o oo).cells ((P.using o oo).net.run s0 pre)).pre.weights)
    (h : Stock LayerMemo)
    (hh : (P.using o oo).Stores (fun id m k => stands m k (ty id) (β1 id) (β2 id) (γ id)) (stands P.outputs (P.tree.neurons + 1) tyo β1o β2o γo)
      ((P.using o oo).cells s0) h) :
    (∀ i m, (mats P.tree P.inputs)[i]? = some m → P.upd m.id = false →
      (∀ t, ((o m.id).pre t).cfg.useMom = true → ((o m.id).pre t).cfg.nesterov = true → ((o m.id).pre t).cfg.useMaxNorm = false) →
      (∀ c < m.rows, ∀ j < m.cols, ((h.body i).cell c j).v = 0) → ∀ c < m.rows, ∀ j < m.cols,
      ((P.using o oo).weights ((P.using o oo).net.run s0 us)).body i c j = ((P.using o oo).weights s0).body i c j) ∧
    (P.uo = false → (∀ t, (oo.pre t).cfg.useMom = true → (oo.pre t).cfg.nesterov = true → (oo.pre t).cfg.useMaxNorm = false) →
      (∀ c < P.outputs, ∀ j < P.tree.neurons + 1, (h.out.cell c j).v = 0) → ∀ c < P.outputs, ∀ j < P.tree.neurons + 1,
      ((P.using o oo).weights ((P.using o oo).net.run s0 us)).out c j = ((P.using o oo).weights s0).out c j) := by
  obtain ⟨h', k1, k2⟩ := training_with_every_setting o oo ty β1 β2 γ tyo β1o β2o γo ho hb hout us s0 hi hus hr h hh
  have h0 : P.shape.Same h.W ((P.using o oo).weights s0) := hh.weights.symm.trans (cells_weights ho s0)
  have hset : ∀ (q : Opt) (m : ℕ), (∀ t, (q.pre t).cfg.useMom = true → (q.pre t).cfg.nesterov = true → (q.pre t).cfg.useMaxNorm = false) →
      ∀ t a, beforeOf q m t = some a → a.limit = none := by
    intro q m hq t a ha
    unfold beforeOf at ha
    split at ha
    next hc =>
      cases ha
      show limitOf _ = none
      unfold limitOf
      rw [hq t hc.2.1 hc.2.2, if_neg Bool.false_ne_true]
    next => cases ha
  obtain ⟨l1, l2⟩ := frozen_rests _ k1
  refine ⟨fun i m hm hu hq hv c hc j hj => ?_, fun hu hq hv c hc j hj => ?_⟩
  · rw [k2.1 i m hm c hc j hj, l1 i m hm hu (hset _ _ hq) hv c hc j hj, h0.1 i m hm c hc j hj]
  · rw [k2.2 c hc j hj, l2 hu (hset _ _ hq) hv c hc j hj, h0.2 c hc j hj]

/-- C197. While learning is blocked, no history changes any weight. -/
theorem blocked_learning_keeps_weights
    (ho : (P.using o oo).Ok) (hb : ∀ id, Stays (o id) (ty id) (β1 id) (β2 id)) (hout : Stays oo tyo β1o β2o)
    (us : List (Use ℝ)) (s0 : NetS (P.using o oo).net) (hi : (P.using o oo).Inv s0) (hus : ∀ u ∈ us, (P.using o oo).Fits u)
    (hr : ∀ pre R X Y post, us = pre ++ Use.train R X Y :: post →
      P.shape.Regular P.dz R (matOf R X) (matOf R Y) ((P.using o oo).cells ((P.using o oo).net.run s0 pre)).pre.weights)
    (h : Stock LayerMemo)
    (hh : (P.using o oo).Stores (fun id m k => stands m k (ty id) (β1 id) (β2 id) (γ id)) (stands P.outputs (P.tree.neurons + 1) tyo β1o β2o γo)
      ((P.using o oo).cells s0) h)
    (hq : ∀ id t, ((o id).pre t).blocked = true ∧ ((o id).app t).blocked = true) (hqo : ∀ t, (oo.pre t).blocked = true ∧ (oo.app t).blocked = true) :
    P.shape.Same ((P.using o oo).weights ((P.using o oo).net.run s0 us)) ((P.using o oo).weights s0) := by
  obtain ⟨h', k1, k2⟩ := training_with_every_setting o oo ty β1 β2 γ tyo β1o β2o γo ho hb hout us s0 hi hus hr h hh
  have h0 : P.shape.Same h.W ((P.using o oo).weights s0) := hh.weights.symm.trans (cells_weights ho s0)
  have hset : ∀ (q : Opt) (m : ℕ) (ty : GradType) (β1 β2 γ : ℝ), (∀ t, (q.pre t).blocked = true ∧ (q.app t).blocked = true) →
      ∀ t, beforeOf q m t = none ∧ afterOf q m ty β1 β2 γ t = none := by
    intro q m ty β1 β2 γ hq t
    refine ⟨?_, ?_⟩
    · unfold beforeOf
      rw [(hq t).1, if_neg (by simp)]
    · unfold afterOf
      rw [(hq t).2, if_pos rfl]
  exact k2.trans ((idle_rests _ (fun id m _ t => hset (o id) m _ _ _ _ (hq id) t) (fun t => hset oo _ _ _ _ _ hqo t) k1).symm.trans h0)

end

end Nntl.Sgd
