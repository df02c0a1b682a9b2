import Verif.Sgd.OrderProps

/-! C208: training keeps the symmetries of a network. Property theorems. -/
namespace Nntl.Sgd

open Nntl.Layers Nntl.Pass Nntl.Backprop Nntl.Grad Nntl.Matrix Nntl.Kernel
open Finset

/-! ### Specification -/

/-- Other places for the weights: in each matrix the rows (neurons) and the columns (inputs) change places. -/
structure Relabel where
  row : ℕ → Equiv.Perm ℕ
  col : ℕ → Equiv.Perm ℕ
  orow : Equiv.Perm ℕ
  ocol : Equiv.Perm ℕ

/-- A matrix with its rows and columns in other places. -/
def moved {α : Type} (ρ κ : Equiv.Perm ℕ) (w : ℕ → ℕ → α) : ℕ → ℕ → α := fun c j => w (ρ c) (κ j)

def Relabel.on (τ : Relabel) (W : Weights) : Weights := ⟨fun i => moved (τ.row i) (τ.col i) (W.body i), moved τ.orow τ.ocol W.out⟩

/-- Places of a matrix with `m` rows and `k` columns stay places of it, and biases (the last column) stay biases. -/
def Inside (m k : ℕ) (ρ κ : Equiv.Perm ℕ) : Prop := (∀ c < m, ρ c < m) ∧ (∀ j < k, κ j < k) ∧ ∀ j, κ j + 1 = k ↔ j + 1 = k

/-- A symmetry of a network: whatever the weights are, the network answers the same to every sample if its weights are in other places. -/
structure Relabel.Symmetry (τ : Relabel) (S : Shape) : Prop where
  body : ∀ i m, (mats S.tree S.inputs)[i]? = some m → Inside m.rows m.cols (τ.row i) (τ.col i)
  out : Inside S.outputs (S.tree.neurons + 1) τ.orow τ.ocol
  same : ∀ W x, ∀ c < S.outputs, S.answer (τ.on W) x c = S.answer W x c

/-- What optimisers remember, in the other places. -/
def LayerMemo.moved (ρ κ : Equiv.Perm ℕ) (s : LayerMemo) : LayerMemo := ⟨s.p, s.t, Sgd.moved ρ κ s.cell⟩

def Relabel.stock (τ : Relabel) (h : Stock LayerMemo) : Stock LayerMemo :=
  ⟨τ.on h.W, fun i => (h.body i).moved (τ.row i) (τ.col i), h.out.moved τ.orow τ.ocol⟩

/-- Learning rates are not dropped at random. -/
def Undropped (o : Opt) : Prop := ∀ t, 1 ≤ (o.pre t).cfg.lrDrop ∧ 1 ≤ (o.app t).cfg.lrDrop

/-! ### Rules do the same in other places -/

variable {S : Shape} {act : ℕ → Act.Act}

theorem limited_moved {m k : ℕ} {ρ κ : Equiv.Perm ℕ} (hi : Inside m k ρ κ) (l : Option Limit) (w : Mat ℝ) : limited k l (moved ρ κ w) = moved ρ κ (limited k l w) := by
  cases l with
  | none => rfl
  | some l =>
    have e : ∀ c, ∑ i ∈ range (if l.bias then k else k - 1), moved ρ κ w c i ^ 2 = ∑ i ∈ range (if l.bias then k else k - 1), w (ρ c) i ^ 2 := by
      intro c
      refine sum_permuted (fun r hr => ?_) (fun r _ q _ e => κ.injective e) fun i => w (ρ c) i ^ 2
      split at hr
      · rename_i hb
        rw [if_pos hb]
        exact hi.2.1 r hr
      · rename_i hb
        rw [if_neg hb]
        have h1 := hi.2.1 r (by omega)
        have h2 := (hi.2.2 r).1
        omega
    funext c j
    simp only [limited, Limit.shrink, e c]
    rfl

theorem before_moved {m k : ℕ} {ρ κ : Equiv.Perm ℕ} (hi : Inside m k ρ κ) (before : ℕ → Option Ahead) (after : ℕ → Option After)
    (hk : ∀ t a, before t = some a → ∀ c j, a.keep c j = true) (s : LayerMemo) (w : Mat ℝ) :
    (MatRule.scheduled k before after).before (s.moved ρ κ) (moved ρ κ w) =
      (((MatRule.scheduled k before after).before s w).1.moved ρ κ, moved ρ κ ((MatRule.scheduled k before after).before s w).2) := by
  unfold MatRule.scheduled
  have e : (s.moved ρ κ).p = s.p := rfl
  dsimp only
  rw [e]
  cases hb : before s.p with
  | none => rfl
  | some a =>
    dsimp only [Ahead.go]
    refine Prod.ext rfl ?_
    dsimp only
    rw [← limited_moved hi]
    congr 1
    funext c j
    simp only [moved, LayerMemo.moved, hk _ a hb, if_true]

theorem after_moved {m k : ℕ} {ρ κ : Equiv.Perm ℕ} (hi : Inside m k ρ κ) (before : ℕ → Option Ahead) (after : ℕ → Option After)
    (hk : ∀ t a, after t = some a → ∀ c j, a.keep c j = true) (s : LayerMemo) (w d : Mat ℝ) :
    (MatRule.scheduled k before after).after (s.moved ρ κ) (moved ρ κ w) (moved ρ κ d) =
      (((MatRule.scheduled k before after).after s w d).1.moved ρ κ, moved ρ κ ((MatRule.scheduled k before after).after s w d).2) := by
  have hd : ∀ j, decide (κ j + 1 = k) = decide (j + 1 = k) := fun j => by simp only [hi.2.2 j]
  unfold MatRule.scheduled
  have e : (s.moved ρ κ).t = s.t := rfl
  dsimp only
  rw [e]
  cases hb : after s.t with
  | none => rfl
  | some a =>
    dsimp only [After.go]
    refine Prod.ext ?_ ?_
    · dsimp only [LayerMemo.moved]
      congr 1
      funext c j
      simp only [moved, hd]
    · dsimp only
      rw [← limited_moved hi]
      congr 1
      funext c j
      simp only [moved, LayerMemo.moved, hk _ a hb, if_true, hd]

/-! ### Losses and derivatives -/

theorem Relabel.Symmetry.meanLoss {τ : Relabel} (hS : S.Ok act) (hτ : τ.Symmetry S) (R : ℕ) (X Y : Mat ℝ) (W : Weights) :
    S.meanLoss R X Y (τ.on W) = S.meanLoss R X Y W := by
  unfold Shape.meanLoss
  congr 1
  exact sum_congr rfl fun r _ => hS.loss _ _ _ (hτ.same W (X r))

theorem bump_moved (ρ κ : Equiv.Perm ℕ) (c j : ℕ) (t : ℝ) (M : Mat ℝ) : bump c j t (moved ρ κ M) = moved ρ κ (bump (ρ c) (κ j) t M) := by
  funext a b
  simp only [bump, moved, ρ.injective.eq_iff, κ.injective.eq_iff]

theorem Relabel.Symmetry.dBody {τ : Relabel} (hS : S.Ok act) (hτ : τ.Symmetry S) (R : ℕ) (X Y : Mat ℝ) (W : Weights) (i : ℕ) :
    S.dBody R X Y (τ.on W) i = moved (τ.row i) (τ.col i) (S.dBody R X Y W i) := by
  funext c j
  unfold moved Shape.dBody
  congr 1
  funext t
  rw [← hτ.meanLoss hS R X Y (W.bumpBody i _ _ t)]
  congr 1
  unfold Weights.bumpBody Relabel.on
  congr 1
  funext k
  by_cases h : k = i
  · subst h
    simp only [if_true]
    exact bump_moved _ _ c j t _
  · simp only [h, if_false]

theorem Relabel.Symmetry.dOut {τ : Relabel} (hS : S.Ok act) (hτ : τ.Symmetry S) (R : ℕ) (X Y : Mat ℝ) (W : Weights) :
    S.dOut R X Y (τ.on W) = moved τ.orow τ.ocol (S.dOut R X Y W) := by
  funext c j
  unfold moved Shape.dOut
  congr 1
  funext t
  rw [← hτ.meanLoss hS R X Y (W.bumpOut _ _ t)]
  congr 1
  unfold Weights.bumpOut Relabel.on
  congr 1
  exact bump_moved _ _ c j t _

/-! ### Paths -/

theorem Relabel.Symmetry.sameOn {τ : Relabel} (hτ : τ.Symmetry S) {W W' : Weights} (h : S.Same W W') : S.Same (τ.on W) (τ.on W') :=
  ⟨fun i m hm c hc j hj => h.1 i m hm _ ((hτ.body i m hm).1 c hc) _ ((hτ.body i m hm).2.1 j hj), fun c hc j hj => h.2 _ (hτ.out.1 c hc) _ (hτ.out.2.1 j hj)⟩

section
variable {upd : ℕ → Bool} {uo : Bool} {before : ℕ → ℕ → ℕ → ℕ → Option Ahead} {after : ℕ → ℕ → ℕ → ℕ → Option After}
  {bo : ℕ → Option Ahead} {ao : ℕ → Option After}

theorem Relabel.Symmetry.step {τ : Relabel} (hS : S.Ok act) (hτ : τ.Symmetry S) (h1 : ∀ id m k t a, before id m k t = some a → ∀ c j, a.keep c j = true)
    (h2 : ∀ id m k t a, after id m k t = some a → ∀ c j, a.keep c j = true) (h3 : ∀ t a, bo t = some a → ∀ c j, a.keep c j = true)
    (h4 : ∀ t a, ao t = some a → ∀ c j, a.keep c j = true) {R : ℕ} {X Y : Mat ℝ} {h g : Stock LayerMemo}
    (hp : S.MatStep upd uo (fun id m k => .scheduled k (before id m k) (after id m k)) (.scheduled (S.tree.neurons + 1) bo ao) R X Y h g) :
    S.MatStep upd uo (fun id m k => .scheduled k (before id m k) (after id m k)) (.scheduled (S.tree.neurons + 1) bo ao) R X Y (τ.stock h) (τ.stock g) := by
  obtain ⟨L, k1, k2, k3, k4⟩ := hp
  refine ⟨τ.on L, fun i m hm => ?_, ?_⟩
  · obtain ⟨l1, l2, l3⟩ := k1 i m hm
    have hi := hτ.body i m hm
    have e := before_moved hi (before m.id m.rows m.cols) (after m.id m.rows m.cols) (h1 _ _ _) (h.body i) (h.W.body i)
    dsimp only [Relabel.stock]
    have e' : (τ.on h.W).body i = moved (τ.row i) (τ.col i) (h.W.body i) := rfl
    rw [e', e]
    refine ⟨fun c hc j hj => l1 _ (hi.1 c hc) _ (hi.2.1 j hj), ?_⟩
    have ed : (fun c j => S.dBody R X Y (τ.on L) i c j / (m.tiles : ℝ)) = moved (τ.row i) (τ.col i) fun c j => S.dBody R X Y L i c j / m.tiles := by
      rw [hτ.dBody hS]
      rfl
    rw [ed]
    dsimp only at l2 l3 ⊢
    cases hu : upd m.id with
    | false =>
      rw [hu] at l2 l3
      simp only [Bool.false_eq_true, if_false] at l2 l3 ⊢
      exact ⟨by rw [l2], fun c hc j hj => l3 _ (hi.1 c hc) _ (hi.2.1 j hj)⟩
    | true =>
      rw [hu] at l2 l3
      simp only [if_true] at l2 l3 ⊢
      rw [after_moved hi _ _ (h2 _ _ _)]
      exact ⟨by rw [l2], fun c hc j hj => l3 _ (hi.1 c hc) _ (hi.2.1 j hj)⟩
  · have hi := hτ.out
    have e := before_moved hi bo ao h3 h.out h.W.out
    dsimp only [Relabel.stock]
    have e' : (τ.on h.W).out = moved τ.orow τ.ocol h.W.out := rfl
    rw [e', e]
    refine ⟨fun c hc j hj => k2 _ (hi.1 c hc) _ (hi.2.1 j hj), ?_⟩
    rw [hτ.dOut hS]
    cases uo with
    | false =>
      simp only [Bool.false_eq_true, if_false] at k3 k4 ⊢
      exact ⟨by rw [k3], fun c hc j hj => k4 _ (hi.1 c hc) _ (hi.2.1 j hj)⟩
    | true =>
      simp only [if_true] at k3 k4 ⊢
      rw [after_moved hi _ _ h4]
      exact ⟨by rw [k3], fun c hc j hj => k4 _ (hi.1 c hc) _ (hi.2.1 j hj)⟩

theorem Relabel.Symmetry.path {τ : Relabel} (hS : S.Ok act) (hτ : τ.Symmetry S) (h1 : ∀ id m k t a, before id m k t = some a → ∀ c j, a.keep c j = true)
    (h2 : ∀ id m k t a, after id m k t = some a → ∀ c j, a.keep c j = true) (h3 : ∀ t a, bo t = some a → ∀ c j, a.keep c j = true)
    (h4 : ∀ t a, ao t = some a → ∀ c j, a.keep c j = true) : ∀ {bs : List (ℕ × Mat ℝ × Mat ℝ)} {h g : Stock LayerMemo},
    S.MatPath upd uo (fun id m k => .scheduled k (before id m k) (after id m k)) (.scheduled (S.tree.neurons + 1) bo ao) bs h g →
    S.MatPath upd uo (fun id m k => .scheduled k (before id m k) (after id m k)) (.scheduled (S.tree.neurons + 1) bo ao) bs (τ.stock h) (τ.stock g)
  | [], _, _, ⟨l1, l2, l3⟩ => ⟨hτ.sameOn l1, fun i m hm => by dsimp only [Relabel.stock]; rw [l2 i m hm], by dsimp only [Relabel.stock]; rw [l3]⟩
  | _ :: _, _, _, ⟨_, l1, l2⟩ => ⟨_, hτ.step hS h1 h2 h3 h4 l1, hτ.path hS h1 h2 h3 h4 l2⟩

end

theorem Undropped.before {o : Opt} (h : Undropped o) (m t : ℕ) (a : Ahead) (ha : beforeOf o m t = some a) (c j : ℕ) : a.keep c j = true := by
  unfold beforeOf at ha
  split at ha
  · cases ha
    simp [(h t).1]
  · cases ha

theorem Undropped.after {o : Opt} (h : Undropped o) (m : ℕ) (ty : GradType) (β1 β2 γ : ℝ) (t : ℕ) (a : After) (ha : afterOf o m ty β1 β2 γ t = some a) (c j : ℕ) :
    a.keep c j = true := by
  unfold afterOf at ha
  split at ha
  · cases ha
  · cases ha
    simp [(h t).2]

/-! ### Property theorems -/

variable {P : Plan} {L : Type}

/-- C208. Two networks, one of which has the weights of the other, and what its optimisers remember, in other places according to a symmetry; with any methods in the layers
and any settings but random dropping of learning rates, the same training steps (and any evaluations) keep it so, and the networks give the same answers. -/
theorem relabelled_networks_train_alike (o : ℕ → Opt) (oo : Opt) (ty : ℕ → GradType) (β1 β2 γ : ℕ → ℝ) (tyo : GradType) (β1o β2o γo : ℝ)
    (ho : (P.using o oo).Ok) (hb : ∀ id, Stays (o id) (ty id) (β1 id) (β2 id)) (hout : Stays oo tyo β1o β2o) (hd : ∀ id, Undropped (o id)) (hdo : Undropped oo)
    (τ : Relabel) (hτ : τ.Symmetry P.shape) (us vs : List (Use ℝ)) (hre : batches us = batches vs)
    (s t : NetS (P.using o oo).net) (hi : (P.using o oo).Inv s) (hit : (P.using o oo).Inv t)
    (hus : ∀ u ∈ us, (P.using o oo).Fits u) (hvs : ∀ u ∈ vs, (P.using o oo).Fits u)
    (hr : ∀ pre R X Y post, us = pre ++ Use.train R X Y :: post →
      P.shape.Regular P.dz R (matOf R X) (matOf R Y) ((P.using o oo).cells ((P.using o oo).net.run s pre)).pre.weights)
    (hrv : ∀ pre R X Y post, vs = pre ++ Use.train R X Y :: post →
      P.shape.Regular P.dz R (matOf R X) (matOf R Y) ((P.using o oo).cells ((P.using o oo).net.run t pre)).pre.weights)
    (h : Stock LayerMemo)
    (hh : (P.using o oo).Stores (fun id m k => stands m k (ty id) (β1 id) (β2 id) (γ id)) (stands P.outputs (P.tree.neurons + 1) tyo β1o β2o γo)
      ((P.using o oo).cells s) h)
    (hht : (P.using o oo).Stores (fun id m k => stands m k (ty id) (β1 id) (β2 id) (γ id)) (stands P.outputs (P.tree.neurons + 1) tyo β1o β2o γo)
      ((P.using o oo).cells t) (τ.stock h)) :
    P.shape.Same ((P.using o oo).weights ((P.using o oo).net.run t vs)) (τ.on ((P.using o oo).weights ((P.using o oo).net.run s us))) ∧
    ∀ x, ∀ c < P.outputs, P.shape.answer ((P.using o oo).weights ((P.using o oo).net.run t vs)) x c =
      P.shape.answer ((P.using o oo).weights ((P.using o oo).net.run s us)) x c := by
  obtain ⟨g, k1, k2⟩ := training_with_every_setting o oo ty β1 β2 γ tyo β1o β2o γo ho hb hout us s hi hus hr h hh
  obtain ⟨g', l1, l2⟩ := training_with_every_setting o oo ty β1 β2 γ tyo β1o β2o γo ho hb hout vs t hit hvs hrv _ hht
  have hS : P.shape.Ok P.act := ho.shape
  have k3 := hτ.path hS (fun id m _ => (hd id).before m) (fun id m _ => (hd id).after m (ty id) (β1 id) (β2 id) (γ id)) (hdo.before _)
    (hdo.after _ tyo β1o β2o γo) k1
  rw [hre] at k3
  have := hS.mat_path_unique (List.forall₂_same.2 fun _ _ => rfl) ⟨Shape.Same.refl _ _, fun _ _ _ => MemoLike.refl _ _ _, MemoLike.refl _ _ _⟩ l1 k3
  have e := l2.trans (this.1.trans (hτ.sameOn k2.symm))
  exact ⟨e, fun x c hc => (hS.answer_congr e x c hc).trans (hτ.same _ x c hc)⟩

/-- C208. A symmetry of the weights, and of what the optimisers remember, stays for ever: with any methods in the layers and any settings but random dropping of learning rates,
after any history the weights are still symmetric. -/
theorem symmetry_stays (o : ℕ → Opt) (oo : Opt) (ty : ℕ → GradType) (β1 β2 γ : ℕ → ℝ) (tyo : GradType) (β1o β2o γo : ℝ)
    (ho : (P.using o oo).Ok) (hb : ∀ id, Stays (o id) (ty id) (β1 id) (β2 id)) (hout : Stays oo tyo β1o β2o) (hd : ∀ id, Undropped (o id)) (hdo : Undropped oo)
    (τ : Relabel) (hτ : τ.Symmetry P.shape) (us : List (Use ℝ)) (s : NetS (P.using o oo).net) (hi : (P.using o oo).Inv s)
    (hus : ∀ u ∈ us, (P.using o oo).Fits u)
    (hr : ∀ pre R X Y post, us = pre ++ Use.train R X Y :: post →
      P.shape.Regular P.dz R (matOf R X) (matOf R Y) ((P.using o oo).cells ((P.using o oo).net.run s pre)).pre.weights)
    (h : Stock LayerMemo)
    (hh : (P.using o oo).Stores (fun id m k => stands m k (ty id) (β1 id) (β2 id) (γ id)) (stands P.outputs (P.tree.neurons + 1) tyo β1o β2o γo)
      ((P.using o oo).cells s) h) (hsym : StockLike P.shape h (τ.stock h)) :
    P.shape.Same ((P.using o oo).weights ((P.using o oo).net.run s us)) (τ.on ((P.using o oo).weights ((P.using o oo).net.run s us))) := by
  obtain ⟨g, k1, k2⟩ := training_with_every_setting o oo ty β1 β2 γ tyo β1o β2o γo ho hb hout us s hi hus hr h hh
  have hS : P.shape.Ok P.act := ho.shape
  have k3 := hτ.path hS (fun id m _ => (hd id).before m) (fun id m _ => (hd id).after m (ty id) (β1 id) (β2 id) (γ id)) (hdo.before _)
    (hdo.after _ tyo β1o β2o γo) k1
  have := hS.mat_path_unique (List.forall₂_same.2 fun _ _ => rfl) hsym k1 k3
  exact k2.trans (this.1.trans (hτ.sameOn k2.symm))

/-- C208. The same for a whole call of `train()`. -/
theorem whole_training_keeps_symmetry (o : ℕ → Opt) (oo : Opt) (ty : ℕ → GradType) (β1 β2 γ : ℕ → ℝ) (tyo : GradType) (β1o β2o γo : ℝ)
    (ho : (P.using o oo).Ok) (hb : ∀ id, Stays (o id) (ty id) (β1 id) (β2 id)) (hout : Stays oo tyo β1o β2o) (hd : ∀ id, Undropped (o id)) (hdo : Undropped oo)
    (τ : Relabel) (hτ : τ.Symmetry P.shape) {d : TrainData.Data ℝ ℝ} {vmax : ℕ}
    (hl : LossLooks P.shape) (hs : Suits d P) {opts : Train.Opts L} {v : Train.Env L} (hv : Train.Starts v)
    {cd cd' : Train.CD} {tr : List Train.Ev} {err : Train.Err} (ht : Train.train opts v cd = some (cd', tr, err)) (hbs : cd.trainBs ≤ P.bs.maxTrainBS)
    {w w' : World (P.using o oo)} (hc : w.cur = cd.cur) (hr : TrainData.Reach vmax d w.td) (hi : (P.using o oo).Inv w.net) (h : Stock LayerMemo)
    (hh : (P.using o oo).Stores (fun id m k => stands m k (ty id) (β1 id) (β2 id) (γ id)) (stands P.outputs (P.tree.neurons + 1) tyo β1o β2o γo)
      ((P.using o oo).cells w.net) h)
    (hg : GoesWellIn P d (fun id => ruleOf (o id) (ty id) (β1 id) (β2 id) (γ id)) (ruleOf oo tyo β1o β2o γo P.outputs (P.tree.neurons + 1)) h)
    (hP : Plays (P.using o oo) vmax tr w w') (hsym : StockLike P.shape h (τ.stock h)) :
    P.shape.Same ((P.using o oo).weights w'.net) (τ.on ((P.using o oo).weights w'.net)) := by
  obtain ⟨ords, _, _, _, g, k1, k2⟩ := whole_training_with_every_setting o oo ty β1 β2 γ tyo β1o β2o γo ho hb hout hl hs hv ht hbs hc hr hi h hh hg hP
  have hS : P.shape.Ok P.act := ho.shape
  have k3 := hτ.path hS (fun id m _ => (hd id).before m) (fun id m _ => (hd id).after m (ty id) (β1 id) (β2 id) (γ id)) (hdo.before _)
    (hdo.after _ tyo β1o β2o γo) k1
  have := hS.mat_path_unique (List.forall₂_same.2 fun _ _ => rfl) hsym k1 k3
  exact k2.symm.trans (this.1.trans (hτ.sameOn k2))

end Nntl.Sgd
