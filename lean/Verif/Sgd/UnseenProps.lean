import Verif.Sgd.PermProps

/-! C210: weights that the training data never uses. Property theorems. -/
namespace Nntl.Sgd

open Nntl.Layers Nntl.Pass Nntl.Backprop Nntl.Grad Nntl.Matrix Nntl.Kernel
open Finset

/-! ### Specification -/

/-- No running mean of derivatives and no velocity, as before the first step. -/
def AtRest (s : Memo) : Prop := s.a = 0 ∧ s.v = 0

/-- No penalties of weights and no limits of lengths. -/
def Unpushed (o : Opt) : Prop :=
  ∀ t, (o.pre t).cfg.useMaxNorm = false ∧ (o.app t).cfg.useMaxNorm = false ∧ (o.app t).cfg.l1 = 0 ∧ (o.app t).cfg.l2 = 0

/-- The feature `j` is 0 in all samples of the batch. -/
def Unseen (j : ℕ) (b : ℕ × Mat ℝ × Mat ℝ) : Prop := ∀ r < b.1, b.2.1 r j = 0

/-! ### One weight -/

theorem method_rest (ty : GradType) (q : Numbers) (n : ℕ) (b : ℝ) : (method ty q n 0 b 0).1.1 = 0 ∧ (method ty q n 0 b 0).2 = 0 := by
  cases ty <;> simp only [method, method.nadam, lt_self_iff_false, if_false] <;> (try split_ifs) <;> simp

theorem After.cell_rest (a : After) (bias : Bool) {s : Memo} (hs : AtRest s) {w : ℝ} (hw : a.pen bias w = 0) : AtRest (a.cell bias s w 0).1 ∧ (a.cell bias s w 0).2 = 0 := by
  obtain ⟨n, a0, b, v, gain, prev⟩ := s
  obtain ⟨rfl, rfl⟩ : a0 = 0 ∧ v = 0 := hs
  have e := method_rest a.type a.q n b
  unfold After.cell AtRest
  simp only [hw, add_zero, e.1, e.2]
  cases a.push <;> cases a.gains <;> simp

theorem limited_rest (k : ℕ) (l : Option Limit) (w : Mat ℝ) (c j : ℕ) (h : l = none ∨ w c j = 0) : limited k l w c j = w c j := by
  cases l with
  | none => rfl
  | some l =>
    have h : w c j = 0 := h.resolve_left (by simp)
    simp only [limited, Limit.shrink, h, mul_zero, ite_self]

theorem Ahead.rest (a : Ahead) (k : ℕ) {st : ℕ → ℕ → Memo} {w : Mat ℝ} {c j : ℕ} (hs : AtRest (st c j)) (h : a.limit = none ∨ w c j = 0) :
    AtRest ((a.go k st w).1 c j) ∧ (a.go k st w).2 c j = w c j := by
  unfold Ahead.go
  refine ⟨⟨hs.1, by show a.μ * (st c j).v = 0; rw [hs.2, mul_zero]⟩, ?_⟩
  have e : (if a.keep c j then w c j - a.μ * (st c j).v else w c j) = w c j := by rw [hs.2, mul_zero, sub_zero, ite_self]
  exact (limited_rest k a.limit _ c j (h.imp_right fun h => e.trans h)).trans e

theorem After.rest (a : After) (k : ℕ) {st : ℕ → ℕ → Memo} {w d : Mat ℝ} {c j : ℕ} (hs : AtRest (st c j)) (hd : d c j = 0)
    (hp : ∀ bias, a.pen bias (w c j) = 0) (h : a.limit = none ∨ w c j = 0) :
    AtRest ((a.go k st w d).1 c j) ∧ (a.go k st w d).2 c j = w c j := by
  unfold After.go
  have k1 := a.cell_rest (decide (j + 1 = k)) hs (hp _)
  dsimp only
  rw [hd]
  refine ⟨k1.1, ?_⟩
  have e : (if a.keep c j then w c j - (a.cell (decide (j + 1 = k)) (st c j) (w c j) (d c j)).2 else w c j) = w c j := by rw [hd, k1.2, sub_zero, ite_self]
  exact (limited_rest k a.limit _ c j (h.imp_right fun h => e.trans h)).trans e

theorem rule_before_rest (o : Opt) (ty : GradType) (β1 β2 γ : ℝ) (m k : ℕ) {s : LayerMemo} {w : Mat ℝ} {c j : ℕ} (hs : AtRest (s.cell c j)) (h : Unpushed o ∨ w c j = 0) :
    AtRest (((ruleOf o ty β1 β2 γ m k).before s w).1.cell c j) ∧ ((ruleOf o ty β1 β2 γ m k).before s w).2 c j = w c j := by
  unfold ruleOf MatRule.scheduled
  dsimp only
  cases e : beforeOf o m s.p with
  | none => exact ⟨hs, rfl⟩
  | some a =>
    refine a.rest k hs (h.imp_left fun h => ?_)
    unfold beforeOf at e
    split at e
    · cases e
      simp [limitOf, (h s.p).1]
    · cases e

theorem rule_after_rest (o : Opt) (ty : GradType) (β1 β2 γ : ℝ) (m k : ℕ) {s : LayerMemo} {w d : Mat ℝ} {c j : ℕ} (hs : AtRest (s.cell c j)) (hd : d c j = 0)
    (h : Unpushed o ∨ w c j = 0) :
    AtRest (((ruleOf o ty β1 β2 γ m k).after s w d).1.cell c j) ∧ ((ruleOf o ty β1 β2 γ m k).after s w d).2 c j = w c j := by
  unfold ruleOf MatRule.scheduled
  dsimp only
  cases e : afterOf o m ty β1 β2 γ s.t with
  | none => exact ⟨hs, rfl⟩
  | some a =>
    unfold afterOf at e
    split at e
    · cases e
    · cases e
      refine After.rest _ k hs hd (fun bias => ?_) (h.imp_left fun h => ?_)
      · rcases h with h | h
        · simp [penaltySlope, (h s.t).2.2.1, (h s.t).2.2.2]
        · simp [penaltySlope, h]
      · simp [limitOf, (h s.t).2.1]

/-! ### Paths -/

variable {S : Shape}

section
variable {upd : ℕ → Bool} {uo : Bool} {o : ℕ → Opt} {ty : ℕ → GradType} {β1 β2 γ : ℕ → ℝ} {ρo : MatRule LayerMemo}

theorem step_rest {i : ℕ} {m : MatInfo} (hm : (mats S.tree S.inputs)[i]? = some m) {c j : ℕ} (hc : c < m.rows) (hj : j < m.cols) {b : ℕ × Mat ℝ × Mat ℝ}
    (hd : ∀ L, S.dBody b.1 b.2.1 b.2.2 L i c j = 0) {h g : Stock LayerMemo}
    (hp : S.MatStep upd uo (fun id => ruleOf (o id) (ty id) (β1 id) (β2 id) (γ id)) ρo b.1 b.2.1 b.2.2 h g)
    (hs : AtRest ((h.body i).cell c j)) (hw : Unpushed (o m.id) ∨ h.W.body i c j = 0) : AtRest ((g.body i).cell c j) ∧ g.W.body i c j = h.W.body i c j := by
  obtain ⟨L, k1, -⟩ := hp
  obtain ⟨-, k2, k3⟩ := k1 i m hm
  have e1 := rule_before_rest (o m.id) (ty m.id) (β1 m.id) (β2 m.id) (γ m.id) m.rows m.cols hs hw
  have k3 := k3 c hc j hj
  rw [k2, k3]
  dsimp only
  split
  · have e2 := rule_after_rest (o m.id) (ty m.id) (β1 m.id) (β2 m.id) (γ m.id) m.rows m.cols
      (d := fun c j => S.dBody b.1 b.2.1 b.2.2 L i c j / m.tiles) e1.1 (by rw [hd, zero_div]) (hw.imp_right fun h => e1.2.trans h)
    exact ⟨e2.1, e2.2.trans e1.2⟩
  · exact e1

theorem path_rest {i : ℕ} {m : MatInfo} (hm : (mats S.tree S.inputs)[i]? = some m) {c j : ℕ} (hc : c < m.rows) (hj : j < m.cols) :
    ∀ {bs : List (ℕ × Mat ℝ × Mat ℝ)}, (∀ b ∈ bs, ∀ L, S.dBody b.1 b.2.1 b.2.2 L i c j = 0) → ∀ {h g : Stock LayerMemo},
    S.MatPath upd uo (fun id => ruleOf (o id) (ty id) (β1 id) (β2 id) (γ id)) ρo bs h g →
    AtRest ((h.body i).cell c j) → (Unpushed (o m.id) ∨ h.W.body i c j = 0) → g.W.body i c j = h.W.body i c j
  | [], _, _, _, ⟨l1, _, _⟩, _, _ => (l1.1 i m hm c hc j hj).symm
  | b :: bs, hd, _, _, ⟨h1, l1, l2⟩, hs, hw => by
    have e := step_rest hm hc hj (hd b List.mem_cons_self) l1 hs hw
    exact (path_rest hm hc hj (fun b hb => hd b (List.mem_cons_of_mem _ hb)) l2 e.1 (hw.imp_right fun h => e.2.trans h)).trans e.2

end

/-- The loss does not depend on weights of features that are 0. -/
theorem unseen_derivative {id : ℕ} {f : Leaf} {r : Stack} (e : asStack S.tree = .cons (.leaf id f) r) {b : ℕ × Mat ℝ × Mat ℝ} {j : ℕ} (hj : j < S.inputs) (hb : Unseen j b)
    (W : Weights) (c : ℕ) : S.dBody b.1 b.2.1 b.2.2 W 0 c j = 0 := by
  unfold Shape.dBody
  have k : ∀ t, S.meanLoss b.1 b.2.1 b.2.2 (W.bumpBody 0 c j t) = S.meanLoss b.1 b.2.1 b.2.2 W := fun t => by
    unfold Shape.meanLoss
    congr 1
    refine sum_congr rfl fun q hq => ?_
    have hq := hb q (mem_range.1 hq)
    unfold Shape.answer Shape.raw
    rw [asStack_fn, asStack_fn, e]
    have e1 : netFn S.act (.leaf id f) S.inputs (W.bumpBody 0 c j t).body (b.2.1 q) = netFn S.act (.leaf id f) S.inputs W.body (b.2.1 q) := by
      show (fun a => S.act id (neuron S.inputs (bump c j t (W.body 0)) (b.2.1 q) a)) = fun a => S.act id (neuron S.inputs (W.body 0) (b.2.1 q) a)
      funext a
      congr 1
      unfold neuron bump
      rw [if_neg (fun h => by omega)]
      congr 1
      refine sum_congr rfl fun l _ => ?_
      by_cases h : a = c ∧ l = j
      · rw [h.2, hq, mul_zero, mul_zero]
      · rw [if_neg h]
    simp only [stackFn]
    rw [e1, stackFn_only S.act r (Layer.leaf id f).neurons (after (mats (.leaf id f) S.inputs).length (W.bumpBody 0 c j t).body)
      (after (mats (.leaf id f) S.inputs).length W.body)]
    · rfl
    · intro k _
      show (if 1 + k = 0 then bump c j t (W.body (1 + k)) else W.body (1 + k)) = W.body (1 + k)
      rw [if_neg (by omega)]
  rw [show (fun t => S.meanLoss b.1 b.2.1 b.2.2 (W.bumpBody 0 c j t)) = fun _ => S.meanLoss b.1 b.2.1 b.2.2 W from funext k, deriv_const]

/-! ### Property theorems -/

variable {P : Plan} {L : Type}

/-- C210. A weight on which the mean loss of no batch depends: with any method it is never changed, if there are no penalties and limits in its layer, or if it is 0. -/
theorem weights_without_derivatives_stay (o : ℕ → Opt) (oo : Opt) (ty : ℕ → GradType) (β1 β2 γ : ℕ → ℝ) (tyo : GradType) (β1o β2o γo : ℝ)
    (ho : (P.using o oo).Ok) (hb : ∀ id, Stays (o id) (ty id) (β1 id) (β2 id)) (hout : Stays oo tyo β1o β2o)
    (us : List (Use ℝ)) (s : NetS (P.using o oo).net) (hi : (P.using o oo).Inv s) (hus : ∀ u ∈ us, (P.using o oo).Fits u)
    (hr : ∀ pre R X Y post, us = pre ++ Use.train R X Y :: post →
      P.shape.Regular P.dz R (matOf R X) (matOf R Y) ((P.using o oo).cells ((P.using o oo).net.run s pre)).pre.weights)
    (h : Stock LayerMemo)
    (hh : (P.using o oo).Stores (fun id m k => stands m k (ty id) (β1 id) (β2 id) (γ id)) (stands P.outputs (P.tree.neurons + 1) tyo β1o β2o γo)
      ((P.using o oo).cells s) h)
    {i : ℕ} {m : MatInfo} (hm : (mats P.tree P.inputs)[i]? = some m) {c j : ℕ} (hc : c < m.rows) (hj : j < m.cols)
    (hd : ∀ b ∈ batches us, ∀ W, P.shape.dBody b.1 b.2.1 b.2.2 W i c j = 0) (hq : AtRest ((h.body i).cell c j))
    (hw : Unpushed (o m.id) ∨ ((P.using o oo).weights s).body i c j = 0) :
    ((P.using o oo).weights ((P.using o oo).net.run s us)).body i c j = ((P.using o oo).weights s).body i c j := by
  obtain ⟨g, k1, k2⟩ := training_with_every_setting o oo ty β1 β2 γ tyo β1o β2o γo ho hb hout us s hi hus hr h hh
  obtain ⟨h', l1, l2⟩ := training_with_every_setting o oo ty β1 β2 γ tyo β1o β2o γo ho hb hout [] s hi (fun _ h => by cases h)
    (fun pre _ _ _ _ e => by simp at e) h hh
  have e : ((P.using o oo).weights s).body i c j = h.W.body i c j := (l2.1 i m hm c hc j hj).trans (l1.1.1 i m hm c hc j hj).symm
  rw [e] at hw ⊢
  exact (k2.1 i m hm c hc j hj).trans (path_rest hm hc hj hd k1 hq hw)

/-- C210. A feature that is 0 in all samples of all batches: with any method its weights are never changed, if there are no penalties and limits in the lowest layer, and those
that are 0 are never changed at all. -/
theorem unseen_features_keep_their_weights (o : ℕ → Opt) (oo : Opt) (ty : ℕ → GradType) (β1 β2 γ : ℕ → ℝ) (tyo : GradType) (β1o β2o γo : ℝ)
    (ho : (P.using o oo).Ok) (hb : ∀ id, Stays (o id) (ty id) (β1 id) (β2 id)) (hout : Stays oo tyo β1o β2o)
    (us : List (Use ℝ)) (s : NetS (P.using o oo).net) (hi : (P.using o oo).Inv s) (hus : ∀ u ∈ us, (P.using o oo).Fits u)
    (hr : ∀ pre R X Y post, us = pre ++ Use.train R X Y :: post →
      P.shape.Regular P.dz R (matOf R X) (matOf R Y) ((P.using o oo).cells ((P.using o oo).net.run s pre)).pre.weights)
    (h : Stock LayerMemo)
    (hh : (P.using o oo).Stores (fun id m k => stands m k (ty id) (β1 id) (β2 id) (γ id)) (stands P.outputs (P.tree.neurons + 1) tyo β1o β2o γo)
      ((P.using o oo).cells s) h)
    {id : ℕ} {f : Leaf} {r : Stack} (hf : asStack P.tree = .cons (.leaf id f) r) {c j : ℕ} (hc : c < f.neurons) (hj : j < P.inputs)
    (hu : ∀ b ∈ batches us, Unseen j b) (hq : AtRest ((h.body 0).cell c j)) (hw : Unpushed (o id) ∨ ((P.using o oo).weights s).body 0 c j = 0) :
    ((P.using o oo).weights ((P.using o oo).net.run s us)).body 0 c j = ((P.using o oo).weights s).body 0 c j :=
  weights_without_derivatives_stay o oo ty β1 β2 γ tyo β1o β2o γo ho hb hout us s hi hus hr h hh (m := ⟨id, f.neurons, P.inputs + 1, 1⟩)
    (by rw [asStack_mats, hf]; rfl) hc (Nat.lt_succ_of_lt hj) (fun b hb W => unseen_derivative (S := P.shape) hf hj (hu b hb) W c) hq hw

/-- C210. The same for a whole call of `train()`, if the feature is 0 in all training samples. -/
theorem unseen_features_in_whole_training (o : ℕ → Opt) (oo : Opt) (ty : ℕ → GradType) (β1 β2 γ : ℕ → ℝ) (tyo : GradType) (β1o β2o γo : ℝ)
    (ho : (P.using o oo).Ok) (hb : ∀ id, Stays (o id) (ty id) (β1 id) (β2 id)) (hout : Stays oo tyo β1o β2o)
    (hl : LossLooks P.shape) {d : TrainData.Data ℝ ℝ} (hs : Suits d P) {opts : Train.Opts L} {v : Train.Env L} (hv : Train.Starts v)
    {cd cd' : Train.CD} {tr : List Train.Ev} {err : Train.Err} (ht : Train.train opts v cd = some (cd', tr, err)) (hbs : cd.trainBs ≤ P.bs.maxTrainBS) {vmax : ℕ}
    {w w' : World (P.using o oo)} (hcu : w.cur = cd.cur) (hr : TrainData.Reach vmax d w.td) (hi : (P.using o oo).Inv w.net) (h : Stock LayerMemo)
    (hh : (P.using o oo).Stores (fun id m k => stands m k (ty id) (β1 id) (β2 id) (γ id)) (stands P.outputs (P.tree.neurons + 1) tyo β1o β2o γo)
      ((P.using o oo).cells w.net) h)
    (hg : GoesWellIn P d (fun id => ruleOf (o id) (ty id) (β1 id) (β2 id) (γ id)) (ruleOf oo tyo β1o β2o γo P.outputs (P.tree.neurons + 1)) h)
    (hP : Plays (P.using o oo) vmax tr w w')
    {id : ℕ} {f : Leaf} {r : Stack} (hf : asStack P.tree = .cons (.leaf id f) r) {c j : ℕ} (hc : c < f.neurons) (hj : j < P.inputs)
    (hu : ∀ k < d.count .train, feature d k j = 0) (hq : AtRest ((h.body 0).cell c j)) (hw : Unpushed (o id) ∨ ((P.using o oo).weights w.net).body 0 c j = 0) :
    ((P.using o oo).weights w'.net).body 0 c j = ((P.using o oo).weights w.net).body 0 c j := by
  obtain ⟨ords, k1, _, k2, g, k3, k4⟩ := whole_training_with_every_setting o oo ty β1 β2 γ tyo β1o β2o γo ho hb hout hl hs hv ht hbs hcu hr hi h hh hg hP
  obtain ⟨h', l1, l2⟩ := training_with_every_setting o oo ty β1 β2 γ tyo β1o β2o γo ho hb hout [] w.net hi (fun _ h => by cases h)
    (fun pre _ _ _ _ e => by simp at e) h hh
  have hm : (mats P.tree P.inputs)[0]? = some (⟨id, f.neurons, P.inputs + 1, 1⟩ : MatInfo) := by rw [asStack_mats, hf]; rfl
  have hj' : j < P.inputs + 1 := Nat.lt_succ_of_lt hj
  have e : ((P.using o oo).weights w.net).body 0 c j = h.W.body 0 c j := (l2.1 0 _ hm c hc j hj').trans (l1.1.1 0 _ hm c hc j hj').symm
  rw [e] at hw ⊢
  refine (k4.1 0 _ hm c hc j hj').symm.trans (path_rest (S := P.shape) hm hc hj' (fun b hb W => unseen_derivative (S := P.shape) hf hj ?_ W c) k3 hq hw)
  obtain ⟨ord, ho1, ho2⟩ := List.mem_flatMap.1 hb
  obtain ⟨i, hi1, rfl⟩ := List.mem_map.1 ho2
  intro q hq
  have hi1 := List.mem_range.1 hi1
  have hq : q < cd.trainBs := hq
  refine hu _ ((k2 ord ho1).1 _ ?_)
  calc i * cd.trainBs + q < i * cd.trainBs + cd.trainBs := by omega
    _ = (i + 1) * cd.trainBs := by ring
    _ ≤ _ := Nat.mul_le_mul_right _ hi1

end Nntl.Sgd
