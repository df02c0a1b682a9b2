import Verif.Sgd.UnseenProps

/-! C210: weights that the training data never uses have no influence on others. Property theorems. -/
namespace Nntl.Sgd

open Nntl.Layers Nntl.Pass Nntl.Backprop Nntl.Grad Nntl.Matrix Nntl.Kernel
open Finset

/-! ### Specification -/

/-- Other weights for the feature `j`. -/
def Weights.withFeature (j : ℕ) (v : ℕ → ℝ) (W : Weights) : Weights :=
  { W with body := fun k => if k = 0 then fun c l => if l = j then v c else W.body k c l else W.body k }

/-! ### One matrix -/

theorem rule_before_apart {o : Opt} (h : Unpushed o) (ty : GradType) (β1 β2 γ : ℝ) (m k : ℕ) (s : LayerMemo) (w w' : Mat ℝ) :
    ((ruleOf o ty β1 β2 γ m k).before s w).1 = ((ruleOf o ty β1 β2 γ m k).before s w').1 ∧
    ∀ c l, w c l = w' c l → ((ruleOf o ty β1 β2 γ m k).before s w).2 c l = ((ruleOf o ty β1 β2 γ m k).before s w').2 c l := by
  unfold ruleOf MatRule.scheduled
  dsimp only
  cases e : beforeOf o m s.p with
  | none => exact ⟨rfl, fun _ _ h => h⟩
  | some a =>
    have hl : a.limit = none := by
      unfold beforeOf at e
      split at e
      · cases e
        simp [limitOf, (h s.p).1]
      · cases e
    refine ⟨rfl, fun c l hw => ?_⟩
    simp only [Ahead.go, hl, limited, hw]

theorem rule_after_apart {o : Opt} (h : Unpushed o) (ty : GradType) (β1 β2 γ : ℝ) (m k : ℕ) (s : LayerMemo) (w w' d : Mat ℝ) :
    ((ruleOf o ty β1 β2 γ m k).after s w d).1 = ((ruleOf o ty β1 β2 γ m k).after s w' d).1 ∧
    ∀ c l, w c l = w' c l → ((ruleOf o ty β1 β2 γ m k).after s w d).2 c l = ((ruleOf o ty β1 β2 γ m k).after s w' d).2 c l := by
  unfold ruleOf MatRule.scheduled
  dsimp only
  cases e : afterOf o m ty β1 β2 γ s.t with
  | none => exact ⟨rfl, fun _ _ h => h⟩
  | some a =>
    have hl : a.limit = none ∧ ∀ b x, a.pen b x = 0 := by
      unfold afterOf at e
      split at e
      · cases e
      · cases e
        exact ⟨by simp [limitOf, (h s.t).2.1], fun b x => by simp [penaltySlope, (h s.t).2.2.1, (h s.t).2.2.2]⟩
    refine ⟨?_, fun c l hw => ?_⟩
    · simp only [After.go, After.cell, hl.2]
    · simp only [After.go, hl.1, limited, hw]

/-! ### Derivatives -/

variable {S : Shape} {act : ℕ → Act.Act}

theorem withFeature_loss {id : ℕ} {f : Leaf} {r : Stack} (e : asStack S.tree = .cons (.leaf id f) r) {b : ℕ × Mat ℝ × Mat ℝ} {j : ℕ} (hj : j < S.inputs) (hb : Unseen j b)
    (v : ℕ → ℝ) (W : Weights) : S.meanLoss b.1 b.2.1 b.2.2 (W.withFeature j v) = S.meanLoss b.1 b.2.1 b.2.2 W := by
  unfold Shape.meanLoss
  congr 1
  refine sum_congr rfl fun q hq => ?_
  have hq := hb q (mem_range.1 hq)
  unfold Shape.answer Shape.raw
  rw [asStack_fn, asStack_fn, e]
  have e1 : netFn S.act (.leaf id f) S.inputs (W.withFeature j v).body (b.2.1 q) = netFn S.act (.leaf id f) S.inputs W.body (b.2.1 q) := by
    show (fun a => S.act id (neuron S.inputs (fun c l => if l = j then v c else W.body 0 c l) (b.2.1 q) a)) = fun a => S.act id (neuron S.inputs (W.body 0) (b.2.1 q) a)
    funext a
    congr 1
    unfold neuron
    dsimp only
    rw [if_neg (show ¬S.inputs = j by omega)]
    congr 1
    refine sum_congr rfl fun l _ => ?_
    by_cases h : l = j
    · rw [h, hq, mul_zero, mul_zero]
    · rw [if_neg h]
  simp only [stackFn]
  rw [e1, stackFn_only S.act r (Layer.leaf id f).neurons (after (mats (.leaf id f) S.inputs).length (W.withFeature j v).body)
    (after (mats (.leaf id f) S.inputs).length W.body)]
  · rfl
  · intro k _
    show (if 1 + k = 0 then _ else W.body (1 + k)) = W.body (1 + k)
    rw [if_neg (by omega)]

theorem withFeature_dBody {id : ℕ} {f : Leaf} {r : Stack} (e : asStack S.tree = .cons (.leaf id f) r) {b : ℕ × Mat ℝ × Mat ℝ} {j : ℕ} (hj : j < S.inputs) (hb : Unseen j b)
    (v : ℕ → ℝ) (W : Weights) (i : ℕ) : S.dBody b.1 b.2.1 b.2.2 (W.withFeature j v) i = S.dBody b.1 b.2.1 b.2.2 W i := by
  funext c l
  by_cases h : i = 0 ∧ l = j
  · obtain ⟨rfl, rfl⟩ := h
    rw [unseen_derivative e hj hb, unseen_derivative e hj hb]
  · unfold Shape.dBody
    congr 1
    funext t
    rw [← withFeature_loss e hj hb v (W.bumpBody i c l t)]
    congr 1
    unfold Weights.bumpBody Weights.withFeature
    congr 1
    funext k
    by_cases hk : k = 0
    · subst hk
      by_cases hi : 0 = i
      · subst hi
        simp only [if_true]
        funext a x
        unfold bump
        by_cases hx : x = j
        · have : ¬(a = c ∧ x = l) := fun h' => h ⟨rfl, h'.2.symm.trans hx⟩
          rw [if_neg this, if_pos hx]
          exact if_pos hx
        · simp only [hx, if_false]
      · simp only [hi, if_false]
    · simp only [hk, if_false]

theorem withFeature_dOut {id : ℕ} {f : Leaf} {r : Stack} (e : asStack S.tree = .cons (.leaf id f) r) {b : ℕ × Mat ℝ × Mat ℝ} {j : ℕ} (hj : j < S.inputs) (hb : Unseen j b)
    (v : ℕ → ℝ) (W : Weights) : S.dOut b.1 b.2.1 b.2.2 (W.withFeature j v) = S.dOut b.1 b.2.1 b.2.2 W := by
  funext c l
  unfold Shape.dOut
  congr 1
  funext t
  exact withFeature_loss e hj hb v (W.bumpOut c l t)

/-! ### Paths -/

section
variable {upd : ℕ → Bool} {uo : Bool} {o : ℕ → Opt} {ty : ℕ → GradType} {β1 β2 γ : ℕ → ℝ} {ρo : MatRule LayerMemo}

theorem step_apart {id : ℕ} {f : Leaf} {r : Stack} (e : asStack S.tree = .cons (.leaf id f) r) {j : ℕ} (hj : j < S.inputs) (hu : Unpushed (o id)) (v : ℕ → ℝ)
    {b : ℕ × Mat ℝ × Mat ℝ} (hb : Unseen j b) {h g : Stock LayerMemo}
    (hp : S.MatStep upd uo (fun id => ruleOf (o id) (ty id) (β1 id) (β2 id) (γ id)) ρo b.1 b.2.1 b.2.2 h g) (hs : ∀ c < f.neurons, AtRest ((h.body 0).cell c j)) :
    S.MatStep upd uo (fun id => ruleOf (o id) (ty id) (β1 id) (β2 id) (γ id)) ρo b.1 b.2.1 b.2.2 ⟨h.W.withFeature j v, h.body, h.out⟩ ⟨g.W.withFeature j v, g.body, g.out⟩ := by
  obtain ⟨L, k1, k2⟩ := hp
  refine ⟨L.withFeature j v, fun i m hm => ?_, ?_⟩
  · obtain ⟨l1, l2, l3⟩ := k1 i m hm
    by_cases hi : i = 0
    · subst hi
      obtain rfl := Option.some.inj (show some (⟨id, f.neurons, S.inputs + 1, 1⟩ : MatInfo) = some m by rw [← hm, asStack_mats, e]; rfl)
      dsimp only at l1 l2 l3 ⊢
      rw [withFeature_dBody e hj hb v]
      generalize hwv : (h.W.withFeature j v).body 0 = wv
      have hwj : ∀ c, wv c j = v c := fun c => by rw [← hwv]; simp [Weights.withFeature]
      have hwl : ∀ c l, l ≠ j → h.W.body 0 c l = wv c l := fun c l hl => by rw [← hwv]; simp [Weights.withFeature, hl]
      have hL : ∀ (U : Weights) c l, (U.withFeature j v).body 0 c l = if l = j then v c else U.body 0 c l := fun U c l => by simp [Weights.withFeature]
      have a1 := rule_before_apart hu (ty id) (β1 id) (β2 id) (γ id) f.neurons (S.inputs + 1) (h.body 0) (h.W.body 0) wv
      have a2 := fun c (hc : c < f.neurons) => rule_before_rest (o id) (ty id) (β1 id) (β2 id) (γ id) f.neurons (S.inputs + 1) (w := wv) (hs c hc) (.inl hu)
      have a3 := rule_after_apart hu (ty id) (β1 id) (β2 id) (γ id) f.neurons (S.inputs + 1)
        ((ruleOf (o id) (ty id) (β1 id) (β2 id) (γ id) f.neurons (S.inputs + 1)).before (h.body 0) wv).1
        ((ruleOf (o id) (ty id) (β1 id) (β2 id) (γ id) f.neurons (S.inputs + 1)).before (h.body 0) (h.W.body 0)).2
        ((ruleOf (o id) (ty id) (β1 id) (β2 id) (γ id) f.neurons (S.inputs + 1)).before (h.body 0) wv).2
        fun c l => S.dBody b.1 b.2.1 b.2.2 L 0 c l / (1 : ℕ)
      have a4 := fun c (hc : c < f.neurons) => rule_after_rest (o id) (ty id) (β1 id) (β2 id) (γ id) f.neurons (S.inputs + 1)
        (w := ((ruleOf (o id) (ty id) (β1 id) (β2 id) (γ id) f.neurons (S.inputs + 1)).before (h.body 0) wv).2) (d := fun c l => S.dBody b.1 b.2.1 b.2.2 L 0 c l / (1 : ℕ))
        (a2 c hc).1 (by rw [unseen_derivative e hj hb, zero_div]) (.inl hu)
      rw [a1.1] at l2 l3
      refine ⟨fun c hc l hl => ?_, ?_, fun c hc l hl => ?_⟩
      · rw [hL]
        by_cases hlj : l = j
        · subst hlj
          rw [if_pos rfl]
          exact ((a2 c hc).2.trans (hwj c)).symm
        · rw [if_neg hlj]
          exact (l1 c hc l hl).trans (a1.2 c l (hwl c l hlj))
      · rw [l2]
        split
        · exact a3.1
        · exact a1.1
      · rw [hL]
        by_cases hlj : l = j
        · subst hlj
          rw [if_pos rfl]
          split
          · exact ((a4 c hc).2.trans ((a2 c hc).2.trans (hwj c))).symm
          · exact ((a2 c hc).2.trans (hwj c)).symm
        · rw [if_neg hlj, l3 c hc l hl]
          split
          · exact a3.2 c l (a1.2 c l (hwl c l hlj))
          · exact a1.2 c l (hwl c l hlj)
    · have hL : ∀ U : Weights, (U.withFeature j v).body i = U.body i := fun U => if_neg hi
      dsimp only at l1 l2 l3 ⊢
      rw [withFeature_dBody e hj hb v, hL, hL, hL]
      exact ⟨l1, l2, l3⟩
  · dsimp only at k2 ⊢
    rw [withFeature_dOut e hj hb v]
    exact k2

theorem path_apart {id : ℕ} {f : Leaf} {r : Stack} (e : asStack S.tree = .cons (.leaf id f) r) {j : ℕ} (hj : j < S.inputs) (hu : Unpushed (o id)) (v : ℕ → ℝ) :
    ∀ {bs : List (ℕ × Mat ℝ × Mat ℝ)}, (∀ b ∈ bs, Unseen j b) → ∀ {h g : Stock LayerMemo},
    S.MatPath upd uo (fun id => ruleOf (o id) (ty id) (β1 id) (β2 id) (γ id)) ρo bs h g → (∀ c < f.neurons, AtRest ((h.body 0).cell c j)) →
    S.MatPath upd uo (fun id => ruleOf (o id) (ty id) (β1 id) (β2 id) (γ id)) ρo bs ⟨h.W.withFeature j v, h.body, h.out⟩ ⟨g.W.withFeature j v, g.body, g.out⟩
  | [], _, _, _, ⟨l1, l2, l3⟩, _ => by
    refine ⟨⟨fun i m hm c hc l hl => ?_, l1.2⟩, l2, l3⟩
    have := l1.1 i m hm c hc l hl
    show (if i = 0 then fun c l => if l = j then v c else _ else _) c l = (if i = 0 then fun c l => if l = j then v c else _ else _) c l
    split
    · dsimp only
      split
      · rfl
      · exact this
    · exact this
  | b :: bs, hd, _, _, ⟨h1, l1, l2⟩, hs => by
    refine ⟨_, step_apart e hj hu v (hd b List.mem_cons_self) l1 hs, path_apart e hj hu v (fun b hb => hd b (List.mem_cons_of_mem _ hb)) l2 fun c hc => ?_⟩
    exact (step_rest (m := ⟨id, f.neurons, S.inputs + 1, 1⟩) (by rw [asStack_mats, e]; rfl) hc (Nat.lt_succ_of_lt hj)
      (fun W => unseen_derivative e hj (hd b List.mem_cons_self) W c) l1 (hs c hc) (.inl hu)).1

end

/-! ### Property theorem -/

variable {P : Plan} {L L' : Type}

/-- C210. Two networks that differ by the weights of a feature that is 0 in all samples of all batches only: after the training they differ by these weights only. -/
theorem unseen_features_have_no_influence (o : ℕ → Opt) (oo : Opt) (ty : ℕ → GradType) (β1 β2 γ : ℕ → ℝ) (tyo : GradType) (β1o β2o γo : ℝ)
    (ho : (P.using o oo).Ok) (hb : ∀ id, Stays (o id) (ty id) (β1 id) (β2 id)) (hout : Stays oo tyo β1o β2o)
    (us : List (Use ℝ)) (s t : NetS (P.using o oo).net) (hi : (P.using o oo).Inv s) (hit : (P.using o oo).Inv t) (hus : ∀ u ∈ us, (P.using o oo).Fits u)
    (hr : ∀ pre R X Y post, us = pre ++ Use.train R X Y :: post →
      P.shape.Regular P.dz R (matOf R X) (matOf R Y) ((P.using o oo).cells ((P.using o oo).net.run s pre)).pre.weights)
    (hrt : ∀ pre R X Y post, us = pre ++ Use.train R X Y :: post →
      P.shape.Regular P.dz R (matOf R X) (matOf R Y) ((P.using o oo).cells ((P.using o oo).net.run t pre)).pre.weights)
    {id : ℕ} {f : Leaf} {r : Stack} (hf : asStack P.tree = .cons (.leaf id f) r) {j : ℕ} (hj : j < P.inputs) (hu : ∀ b ∈ batches us, Unseen j b) (hp : Unpushed (o id))
    (v : ℕ → ℝ) (h : Stock LayerMemo) (hq : ∀ c < f.neurons, AtRest ((h.body 0).cell c j))
    (hh : (P.using o oo).Stores (fun id m k => stands m k (ty id) (β1 id) (β2 id) (γ id)) (stands P.outputs (P.tree.neurons + 1) tyo β1o β2o γo)
      ((P.using o oo).cells s) h)
    (hht : (P.using o oo).Stores (fun id m k => stands m k (ty id) (β1 id) (β2 id) (γ id)) (stands P.outputs (P.tree.neurons + 1) tyo β1o β2o γo)
      ((P.using o oo).cells t) ⟨h.W.withFeature j v, h.body, h.out⟩) :
    P.shape.Same ((P.using o oo).weights ((P.using o oo).net.run t us)) (((P.using o oo).weights ((P.using o oo).net.run s us)).withFeature j v) := by
  obtain ⟨g, k1, k2⟩ := training_with_every_setting o oo ty β1 β2 γ tyo β1o β2o γo ho hb hout us s hi hus hr h hh
  obtain ⟨g', l1, l2⟩ := training_with_every_setting o oo ty β1 β2 γ tyo β1o β2o γo ho hb hout us t hit hus hrt _ hht
  have hS : P.shape.Ok P.act := ho.shape
  have k3 := path_apart (S := P.shape) hf hj hp v hu k1 hq
  have := hS.mat_path_unique (List.forall₂_same.2 fun _ _ => rfl) ⟨Shape.Same.refl _ _, fun _ _ _ => MemoLike.refl _ _ _, MemoLike.refl _ _ _⟩ l1 k3
  refine l2.trans (this.1.trans ⟨fun i m hm c hc l hl => ?_, k2.symm.2⟩)
  have := k2.symm.1 i m hm c hc l hl
  show (if i = 0 then fun c l => if l = j then v c else _ else _) c l = (if i = 0 then fun c l => if l = j then v c else _ else _) c l
  split
  · dsimp only
    split
    · rfl
    · exact this
  · exact this

end Nntl.Sgd
