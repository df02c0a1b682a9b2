import Verif.Sgd.SymNets

/-! C209: the orders of features and of outputs. Property theorems. -/
namespace Nntl.Sgd

open Nntl.Layers Nntl.Pass Nntl.Backprop Nntl.Grad Nntl.Matrix Nntl.Kernel
open Finset

/-! ### Specification -/

/-- The places of a network stay places of it, and biases stay biases. -/
structure Relabel.Keeps (τ : Relabel) (S : Shape) : Prop where
  body : ∀ i m, (mats S.tree S.inputs)[i]? = some m → Inside m.rows m.cols (τ.row i) (τ.col i)
  out : Inside S.outputs (S.tree.neurons + 1) τ.orow τ.ocol

/-- With its weights in other places the network has the same mean loss on the second batch as on the first one before. -/
def Carries (τ : Relabel) (S : Shape) (b b' : ℕ × Mat ℝ × Mat ℝ) : Prop := ∀ W, S.meanLoss b'.1 b'.2.1 b'.2.2 (τ.on W) = S.meanLoss b.1 b.2.1 b.2.2 W

/-- The second batch is the first one with its features in another order. -/
def OtherFeatures (S : Shape) (π : Equiv.Perm ℕ) (b b' : ℕ × Mat ℝ × Mat ℝ) : Prop :=
  b'.1 = b.1 ∧ ∀ r < b.1, (∀ j < S.inputs, b'.2.1 r j = b.2.1 r (π j)) ∧ ∀ c < S.outputs, b'.2.2 r c = b.2.2 r c

/-- The second batch is the first one with the expected answers in another order. -/
def OtherOutputs (S : Shape) (π : Equiv.Perm ℕ) (b b' : ℕ × Mat ℝ × Mat ℝ) : Prop :=
  b'.1 = b.1 ∧ ∀ r < b.1, (∀ j < S.inputs, b'.2.1 r j = b.2.1 r j) ∧ ∀ c < S.outputs, b'.2.2 r c = b.2.2 r (π c)

/-- The lowest layer is a fully connected one. -/
def LowestFull (l : Layer) : Prop := ∃ id f r, asStack l = .cons (.leaf id f) r

/-- The columns of the first matrix change places. -/
def Relabel.features (π : Equiv.Perm ℕ) : Relabel := ⟨fun _ => 1, fun k => if k = 0 then π else 1, 1, 1⟩

/-- The rows of the output layer change places. -/
def Relabel.outputs (π : Equiv.Perm ℕ) : Relabel := ⟨fun _ => 1, fun _ => 1, π, 1⟩

/-- The output layer and the loss treat all outputs alike. -/
structure Fair (S : Shape) : Prop where
  last : ∀ (π : Equiv.Perm ℕ), (∀ c, S.outputs ≤ c → π c = c) → ∀ z, ∀ c < S.outputs, S.last (fun c => z (π c)) c = S.last z (π c)
  loss : ∀ (π : Equiv.Perm ℕ), (∀ c, S.outputs ≤ c → π c = c) → ∀ a y, S.loss (fun c => a (π c)) (fun c => y (π c)) = S.loss a y

/-! ### Paths -/

variable {S : Shape} {act : ℕ → Act.Act}

theorem Carries.dBody {τ : Relabel} {b b' : ℕ × Mat ℝ × Mat ℝ} (hb : Carries τ S b b') (W : Weights) (i : ℕ) :
    S.dBody b'.1 b'.2.1 b'.2.2 (τ.on W) i = moved (τ.row i) (τ.col i) (S.dBody b.1 b.2.1 b.2.2 W i) := by
  funext c j
  unfold moved Shape.dBody
  congr 1
  funext t
  rw [← hb (W.bumpBody i _ _ t)]
  congr 1
  unfold Weights.bumpBody Relabel.on
  congr 1
  funext k
  by_cases h : k = i
  · subst h
    simp only [if_true]
    exact bump_moved _ _ c j t _
  · simp only [h, if_false]

theorem Carries.dOut {τ : Relabel} {b b' : ℕ × Mat ℝ × Mat ℝ} (hb : Carries τ S b b') (W : Weights) :
    S.dOut b'.1 b'.2.1 b'.2.2 (τ.on W) = moved τ.orow τ.ocol (S.dOut b.1 b.2.1 b.2.2 W) := by
  funext c j
  unfold moved Shape.dOut
  congr 1
  funext t
  rw [← hb (W.bumpOut _ _ t)]
  congr 1
  unfold Weights.bumpOut Relabel.on
  congr 1
  exact bump_moved _ _ c j t _

theorem Relabel.Keeps.sameOn {τ : Relabel} (hτ : τ.Keeps S) {W W' : Weights} (h : S.Same W W') : S.Same (τ.on W) (τ.on W') :=
  ⟨fun i m hm c hc j hj => h.1 i m hm _ ((hτ.body i m hm).1 c hc) _ ((hτ.body i m hm).2.1 j hj), fun c hc j hj => h.2 _ (hτ.out.1 c hc) _ (hτ.out.2.1 j hj)⟩

section
variable {upd : ℕ → Bool} {uo : Bool} {before : ℕ → ℕ → ℕ → ℕ → Option Ahead} {after : ℕ → ℕ → ℕ → ℕ → Option After}
  {bo : ℕ → Option Ahead} {ao : ℕ → Option After}

theorem Relabel.Keeps.step {τ : Relabel} (hτ : τ.Keeps S) (h1 : ∀ id m k t a, before id m k t = some a → ∀ c j, a.keep c j = true)
    (h2 : ∀ id m k t a, after id m k t = some a → ∀ c j, a.keep c j = true) (h3 : ∀ t a, bo t = some a → ∀ c j, a.keep c j = true)
    (h4 : ∀ t a, ao t = some a → ∀ c j, a.keep c j = true) {b b' : ℕ × Mat ℝ × Mat ℝ} (hb : Carries τ S b b') {h g : Stock LayerMemo}
    (hp : S.MatStep upd uo (fun id m k => .scheduled k (before id m k) (after id m k)) (.scheduled (S.tree.neurons + 1) bo ao) b.1 b.2.1 b.2.2 h g) :
    S.MatStep upd uo (fun id m k => .scheduled k (before id m k) (after id m k)) (.scheduled (S.tree.neurons + 1) bo ao) b'.1 b'.2.1 b'.2.2 (τ.stock h) (τ.stock g) := by
  obtain ⟨L, k1, k2, k3, k4⟩ := hp
  refine ⟨τ.on L, fun i m hm => ?_, ?_⟩
  · obtain ⟨l1, l2, l3⟩ := k1 i m hm
    have hi := hτ.body i m hm
    have e := before_moved hi (before m.id m.rows m.cols) (after m.id m.rows m.cols) (h1 _ _ _) (h.body i) (h.W.body i)
    dsimp only [Relabel.stock]
    have e' : (τ.on h.W).body i = moved (τ.row i) (τ.col i) (h.W.body i) := rfl
    rw [e', e]
    refine ⟨fun c hc j hj => l1 _ (hi.1 c hc) _ (hi.2.1 j hj), ?_⟩
    have ed : (fun c j => S.dBody b'.1 b'.2.1 b'.2.2 (τ.on L) i c j / (m.tiles : ℝ)) = moved (τ.row i) (τ.col i) fun c j => S.dBody b.1 b.2.1 b.2.2 L i c j / m.tiles := by
      rw [hb.dBody]
      rfl
    rw [ed]
    dsimp only at l2 l3 ⊢
    cases hu : upd m.id with
    | false =>
      rw [hu] at l2 l3
      simp only [Bool.false_eq_true, if_false] at l2 l3 ⊢
      exact ⟨by rw [l2], fun c hc j hj => l3 _ (hi.1 c hc) _ (hi.2.1 j hj)⟩
    | true =>
      rw [hu] at l2 l3
      simp only [if_true] at l2 l3 ⊢
      rw [after_moved hi _ _ (h2 _ _ _)]
      exact ⟨by rw [l2], fun c hc j hj => l3 _ (hi.1 c hc) _ (hi.2.1 j hj)⟩
  · have hi := hτ.out
    have e := before_moved hi bo ao h3 h.out h.W.out
    dsimp only [Relabel.stock]
    have e' : (τ.on h.W).out = moved τ.orow τ.ocol h.W.out := rfl
    rw [e', e]
    refine ⟨fun c hc j hj => k2 _ (hi.1 c hc) _ (hi.2.1 j hj), ?_⟩
    rw [hb.dOut]
    cases uo with
    | false =>
      simp only [Bool.false_eq_true, if_false] at k3 k4 ⊢
      exact ⟨by rw [k3], fun c hc j hj => k4 _ (hi.1 c hc) _ (hi.2.1 j hj)⟩
    | true =>
      simp only [if_true] at k3 k4 ⊢
      rw [after_moved hi _ _ h4]
      exact ⟨by rw [k3], fun c hc j hj => k4 _ (hi.1 c hc) _ (hi.2.1 j hj)⟩

theorem Relabel.Keeps.path {τ : Relabel} (hτ : τ.Keeps S) (h1 : ∀ id m k t a, before id m k t = some a → ∀ c j, a.keep c j = true)
    (h2 : ∀ id m k t a, after id m k t = some a → ∀ c j, a.keep c j = true) (h3 : ∀ t a, bo t = some a → ∀ c j, a.keep c j = true)
    (h4 : ∀ t a, ao t = some a → ∀ c j, a.keep c j = true) : ∀ {bs bs' : List (ℕ × Mat ℝ × Mat ℝ)}, List.Forall₂ (Carries τ S) bs bs' → ∀ {h g : Stock LayerMemo},
    S.MatPath upd uo (fun id m k => .scheduled k (before id m k) (after id m k)) (.scheduled (S.tree.neurons + 1) bo ao) bs h g →
    S.MatPath upd uo (fun id m k => .scheduled k (before id m k) (after id m k)) (.scheduled (S.tree.neurons + 1) bo ao) bs' (τ.stock h) (τ.stock g)
  | _, _, .nil, _, _, ⟨l1, l2, l3⟩ => ⟨hτ.sameOn l1, fun i m hm => by dsimp only [Relabel.stock]; rw [l2 i m hm], by dsimp only [Relabel.stock]; rw [l3]⟩
  | _, _, .cons hb hbs, _, _, ⟨_, l1, l2⟩ => ⟨_, hτ.step h1 h2 h3 h4 hb l1, hτ.path h1 h2 h3 h4 hbs l2⟩

end

/-! ### Features and outputs -/

theorem features_keep (hl : LowestFull S.tree) {π : Equiv.Perm ℕ} (hπ : ∀ c, S.inputs ≤ c → π c = c) : (Relabel.features π).Keeps S where
  body := fun k q hq => by
    obtain ⟨id, f, r, e⟩ := hl
    rw [asStack_mats, e] at hq
    unfold Relabel.features
    dsimp only
    by_cases h : k = 0
    · subst h
      rw [if_pos rfl]
      obtain rfl := Option.some.inj (show some (⟨id, f.neurons, S.inputs + 1, 1⟩ : MatInfo) = some q from hq)
      exact inside_col hπ fun _ h => h
    · rw [if_neg h]
      exact inside_one _ _
  out := inside_one _ _

theorem features_answer (hl : LowestFull S.tree) {π : Equiv.Perm ℕ} (hπ : ∀ c, S.inputs ≤ c → π c = c) (W : Weights) (x : ℕ → ℝ) :
    S.answer ((Relabel.features π).on W) (fun j => x (π j)) = S.answer W x := by
  obtain ⟨id, f, r, e⟩ := hl
  unfold Shape.answer Shape.raw
  rw [asStack_fn, asStack_fn, e]
  have e1 : netFn S.act (.leaf id f) S.inputs ((Relabel.features π).on W).body (fun j => x (π j)) = netFn S.act (.leaf id f) S.inputs W.body x := by
    show (fun c => S.act id (neuron S.inputs (moved 1 π (W.body 0)) (fun j => x (π j)) c)) = fun c => S.act id (neuron S.inputs (W.body 0) x c)
    rw [neuron_moved hπ]
  simp only [stackFn]
  rw [e1, stackFn_only S.act r (Layer.leaf id f).neurons (after (mats (.leaf id f) S.inputs).length ((Relabel.features π).on W).body)
    (after (mats (.leaf id f) S.inputs).length W.body)]
  · rfl
  · intro k _
    show moved 1 (if 1 + k = 0 then π else 1) (W.body (1 + k)) = W.body (1 + k)
    rw [if_neg (by omega)]
    rfl

theorem OtherFeatures.carries (h : S.Ok act) (hl : LossLooks S) (hf : LowestFull S.tree) {π : Equiv.Perm ℕ} (hπ : ∀ c, S.inputs ≤ c → π c = c)
    {b b' : ℕ × Mat ℝ × Mat ℝ} (hb : OtherFeatures S π b b') : Carries (Relabel.features π) S b b' := fun W => by
  rw [h.meanLoss_like hl (b := b') (b' := (b.1, fun r j => b.2.1 r (π j), b.2.2)) ⟨hb.1, fun r hr => hb.2 r (hb.1 ▸ hr)⟩]
  unfold Shape.meanLoss
  dsimp only
  congr 1
  exact sum_congr rfl fun r _ => by rw [features_answer hf hπ]

theorem outputs_keep {π : Equiv.Perm ℕ} (hπ : ∀ c, S.outputs ≤ c → π c = c) : (Relabel.outputs π).Keeps S :=
  ⟨fun _ _ _ => inside_one _ _, perm_inside hπ, fun _ h => h, fun _ => Iff.rfl⟩

theorem outputs_answer (hf : Fair S) {π : Equiv.Perm ℕ} (hπ : ∀ c, S.outputs ≤ c → π c = c) (W : Weights) (x : ℕ → ℝ) :
    ∀ c < S.outputs, S.answer ((Relabel.outputs π).on W) x c = S.answer W x (π c) := fun c hc => hf.last π hπ (S.raw W x) c hc

theorem OtherOutputs.carries (h : S.Ok act) (hl : LossLooks S) (hf : Fair S) {π : Equiv.Perm ℕ} (hπ : ∀ c, S.outputs ≤ c → π c = c)
    {b b' : ℕ × Mat ℝ × Mat ℝ} (hb : OtherOutputs S π b b') : Carries (Relabel.outputs π) S b b' := fun W => by
  rw [h.meanLoss_like hl (b := b') (b' := (b.1, b.2.1, fun r c => b.2.2 r (π c))) ⟨hb.1, fun r hr => hb.2 r (hb.1 ▸ hr)⟩]
  unfold Shape.meanLoss
  dsimp only
  congr 1
  refine sum_congr rfl fun r _ => ?_
  rw [h.loss _ (fun c => S.answer W (b.2.1 r) (π c)) _ (outputs_answer hf hπ W _)]
  exact hf.loss π hπ _ _

/-- Output layers with an activation function for each neuron and losses that are sums over the outputs are fair. -/
theorem fair_elementwise {f : ℝ → ℝ} {g : ℝ → ℝ → ℝ} (h1 : S.last = fun z c => f (z c)) (h2 : S.loss = fun a y => ∑ c ∈ range S.outputs, g (y c) (a c)) : Fair S := by
  refine ⟨fun π hπ z c hc => by rw [h1], fun π hπ a y => ?_⟩
  rw [h2]
  exact sum_permuted (perm_inside hπ) (fun _ _ _ _ e => π.injective e) fun c => g (y c) (a c)

/-- So are softmax layers with cross entropy. -/
theorem fair_softmax (h1 : S.last = fun z c => Num.softmaxOf z S.outputs c) (h2 : S.loss = fun a y => -∑ c ∈ range S.outputs, y c * Real.log (a c)) : Fair S := by
  have e : ∀ (n : ℕ) (f : ℕ → ℝ), ((List.range n).map f).sum = ∑ i ∈ range n, f i := fun n f => rfl
  refine ⟨fun π hπ z c hc => ?_, fun π hπ a y => ?_⟩
  · rw [h1]
    simp only [Num.softmaxOf, e]
    rw [sum_permuted (perm_inside hπ) (fun _ _ _ _ e => π.injective e) fun c => Real.exp (z c)]
  · rw [h2]
    exact congrArg Neg.neg (sum_permuted (perm_inside hπ) (fun _ _ _ _ e => π.injective e) fun c => y c * Real.log (a c))

/-! ### Property theorems -/

variable {P : Plan} {L L' : Type}

/-- C209. Two networks and two histories of training steps: if the second network has the weights and memories of the first one in other places, and if this makes the mean loss on
each of its batches that of the first network on its batch, then it is so at the end, with any methods in the layers and any settings but random dropping of learning rates. -/
theorem carried_training (o : ℕ → Opt) (oo : Opt) (ty : ℕ → GradType) (β1 β2 γ : ℕ → ℝ) (tyo : GradType) (β1o β2o γo : ℝ)
    (ho : (P.using o oo).Ok) (hb : ∀ id, Stays (o id) (ty id) (β1 id) (β2 id)) (hout : Stays oo tyo β1o β2o) (hd : ∀ id, Undropped (o id)) (hdo : Undropped oo)
    (τ : Relabel) (hτ : τ.Keeps P.shape) (us vs : List (Use ℝ)) (hre : List.Forall₂ (Carries τ P.shape) (batches us) (batches vs))
    (s t : NetS (P.using o oo).net) (hi : (P.using o oo).Inv s) (hit : (P.using o oo).Inv t)
    (hus : ∀ u ∈ us, (P.using o oo).Fits u) (hvs : ∀ u ∈ vs, (P.using o oo).Fits u)
    (hr : ∀ pre R X Y post, us = pre ++ Use.train R X Y :: post →
      P.shape.Regular P.dz R (matOf R X) (matOf R Y) ((P.using o oo).cells ((P.using o oo).net.run s pre)).pre.weights)
    (hrv : ∀ pre R X Y post, vs = pre ++ Use.train R X Y :: post →
      P.shape.Regular P.dz R (matOf R X) (matOf R Y) ((P.using o oo).cells ((P.using o oo).net.run t pre)).pre.weights)
    (h : Stock LayerMemo)
    (hh : (P.using o oo).Stores (fun id m k => stands m k (ty id) (β1 id) (β2 id) (γ id)) (stands P.outputs (P.tree.neurons + 1) tyo β1o β2o γo)
      ((P.using o oo).cells s) h)
    (hht : (P.using o oo).Stores (fun id m k => stands m k (ty id) (β1 id) (β2 id) (γ id)) (stands P.outputs (P.tree.neurons + 1) tyo β1o β2o γo)
      ((P.using o oo).cells t) (τ.stock h)) :
    P.shape.Same ((P.using o oo).weights ((P.using o oo).net.run t vs)) (τ.on ((P.using o oo).weights ((P.using o oo).net.run s us))) := by
  obtain ⟨g, k1, k2⟩ := training_with_every_setting o oo ty β1 β2 γ tyo β1o β2o γo ho hb hout us s hi hus hr h hh
  obtain ⟨g', l1, l2⟩ := training_with_every_setting o oo ty β1 β2 γ tyo β1o β2o γo ho hb hout vs t hit hvs hrv _ hht
  have hS : P.shape.Ok P.act := ho.shape
  have k3 := hτ.path (fun id m _ => (hd id).before m) (fun id m _ => (hd id).after m (ty id) (β1 id) (β2 id) (γ id)) (hdo.before _)
    (hdo.after _ tyo β1o β2o γo) hre k1
  have := hS.mat_path_unique (List.forall₂_same.2 fun _ _ => rfl) ⟨Shape.Same.refl _ _, fun _ _ _ => MemoLike.refl _ _ _, MemoLike.refl _ _ _⟩ l1 k3
  exact l2.trans (this.1.trans (hτ.sameOn k2.symm))

/-- C209. The order of the features does not matter: if all samples have their features in another order, and the weights of the lowest layer too, training ends with the same
weights in this order, and the network answers to samples in this order what it would have answered. -/
theorem order_of_features_is_irrelevant (o : ℕ → Opt) (oo : Opt) (ty : ℕ → GradType) (β1 β2 γ : ℕ → ℝ) (tyo : GradType) (β1o β2o γo : ℝ)
    (ho : (P.using o oo).Ok) (hb : ∀ id, Stays (o id) (ty id) (β1 id) (β2 id)) (hout : Stays oo tyo β1o β2o) (hd : ∀ id, Undropped (o id)) (hdo : Undropped oo)
    (hl : LossLooks P.shape) (hf : LowestFull P.tree) (π : Equiv.Perm ℕ) (hπ : ∀ c, P.inputs ≤ c → π c = c)
    (us vs : List (Use ℝ)) (hre : List.Forall₂ (OtherFeatures P.shape π) (batches us) (batches vs))
    (s t : NetS (P.using o oo).net) (hi : (P.using o oo).Inv s) (hit : (P.using o oo).Inv t)
    (hus : ∀ u ∈ us, (P.using o oo).Fits u) (hvs : ∀ u ∈ vs, (P.using o oo).Fits u)
    (hr : ∀ pre R X Y post, us = pre ++ Use.train R X Y :: post →
      P.shape.Regular P.dz R (matOf R X) (matOf R Y) ((P.using o oo).cells ((P.using o oo).net.run s pre)).pre.weights)
    (hrv : ∀ pre R X Y post, vs = pre ++ Use.train R X Y :: post →
      P.shape.Regular P.dz R (matOf R X) (matOf R Y) ((P.using o oo).cells ((P.using o oo).net.run t pre)).pre.weights)
    (h : Stock LayerMemo)
    (hh : (P.using o oo).Stores (fun id m k => stands m k (ty id) (β1 id) (β2 id) (γ id)) (stands P.outputs (P.tree.neurons + 1) tyo β1o β2o γo)
      ((P.using o oo).cells s) h)
    (hht : (P.using o oo).Stores (fun id m k => stands m k (ty id) (β1 id) (β2 id) (γ id)) (stands P.outputs (P.tree.neurons + 1) tyo β1o β2o γo)
      ((P.using o oo).cells t) ((Relabel.features π).stock h)) :
    P.shape.Same ((P.using o oo).weights ((P.using o oo).net.run t vs)) ((Relabel.features π).on ((P.using o oo).weights ((P.using o oo).net.run s us))) ∧
    ∀ x, ∀ c < P.outputs, P.shape.answer ((P.using o oo).weights ((P.using o oo).net.run t vs)) (fun j => x (π j)) c = P.shape.answer ((P.using o oo).weights ((P.using o oo).net.run s us)) x c := by
  have hS : P.shape.Ok P.act := ho.shape
  have e := carried_training o oo ty β1 β2 γ tyo β1o β2o γo ho hb hout hd hdo _ (features_keep (S := P.shape) hf hπ) us vs
    (hre.imp fun _ _ h => h.carries hS hl hf hπ) s t hi hit hus hvs hr hrv h hh hht
  exact ⟨e, fun x c hc => (hS.answer_congr e _ c hc).trans (congrFun (features_answer (S := P.shape) hf hπ _ x) c)⟩

/-- C209. The order of the outputs (of the classes) does not matter: if the expected answers are in another order, and the weights of the output layer too, training ends with the same
weights in this order, and so are the answers of the network. -/
theorem order_of_outputs_is_irrelevant (o : ℕ → Opt) (oo : Opt) (ty : ℕ → GradType) (β1 β2 γ : ℕ → ℝ) (tyo : GradType) (β1o β2o γo : ℝ)
    (ho : (P.using o oo).Ok) (hb : ∀ id, Stays (o id) (ty id) (β1 id) (β2 id)) (hout : Stays oo tyo β1o β2o) (hd : ∀ id, Undropped (o id)) (hdo : Undropped oo)
    (hl : LossLooks P.shape) (hf : Fair P.shape) (π : Equiv.Perm ℕ) (hπ : ∀ c, P.outputs ≤ c → π c = c)
    (us vs : List (Use ℝ)) (hre : List.Forall₂ (OtherOutputs P.shape π) (batches us) (batches vs))
    (s t : NetS (P.using o oo).net) (hi : (P.using o oo).Inv s) (hit : (P.using o oo).Inv t)
    (hus : ∀ u ∈ us, (P.using o oo).Fits u) (hvs : ∀ u ∈ vs, (P.using o oo).Fits u)
    (hr : ∀ pre R X Y post, us = pre ++ Use.train R X Y :: post →
      P.shape.Regular P.dz R (matOf R X) (matOf R Y) ((P.using o oo).cells ((P.using o oo).net.run s pre)).pre.weights)
    (hrv : ∀ pre R X Y post, vs = pre ++ Use.train R X Y :: post →
      P.shape.Regular P.dz R (matOf R X) (matOf R Y) ((P.using o oo).cells ((P.using o oo).net.run t pre)).pre.weights)
    (h : Stock LayerMemo)
    (hh : (P.using o oo).Stores (fun id m k => stands m k (ty id) (β1 id) (β2 id) (γ id)) (stands P.outputs (P.tree.neurons + 1) tyo β1o β2o γo)
      ((P.using o oo).cells s) h)
    (hht : (P.using o oo).Stores (fun id m k => stands m k (ty id) (β1 id) (β2 id) (γ id)) (stands P.outputs (P.tree.neurons + 1) tyo β1o β2o γo)
      ((P.using o oo).cells t) ((Relabel.outputs π).stock h)) :
    P.shape.Same ((P.using o oo).weights ((P.using o oo).net.run t vs)) ((Relabel.outputs π).on ((P.using o oo).weights ((P.using o oo).net.run s us))) ∧
    ∀ x, ∀ c < P.outputs, P.shape.answer ((P.using o oo).weights ((P.using o oo).net.run t vs)) x c = P.shape.answer ((P.using o oo).weights ((P.using o oo).net.run s us)) x (π c) := by
  have hS : P.shape.Ok P.act := ho.shape
  have e := carried_training o oo ty β1 β2 γ tyo β1o β2o γo ho hb hout hd hdo _ (outputs_keep (S := P.shape) hπ) us vs
    (hre.imp fun _ _ h => h.carries hS hl hf hπ) s t hi hit hus hvs hr hrv h hh hht
  exact ⟨e, fun x c hc => (hS.answer_congr e x c hc).trans (outputs_answer hf hπ _ x c hc)⟩

theorem full_carries {τ : Relabel} {d d' : TrainData.Data ℝ ℝ} (h0 : 0 < d.count .train) (h0' : 0 < d'.count .train)
    (hd : Carries τ S (d.count .train, feature d, label d) (d'.count .train, feature d', label d')) : ∀ {ords ords' : List (ℕ → ℕ)}, ords.length = ords'.length →
    (∀ ord ∈ ords, Shuffled (d.count .train) (d.count .train) ord) → (∀ ord ∈ ords', Shuffled (d'.count .train) (d'.count .train) ord) →
    List.Forall₂ (Carries τ S) (ords.flatMap (epochBatches d (d.count .train))) (ords'.flatMap (epochBatches d' (d'.count .train)))
  | [], [], _, _, _ => .nil
  | [], _ :: _, h, _, _ => by simp at h
  | _ :: _, [], h, _, _ => by simp at h
  | a :: as, c :: cs, h, h1, h2 => by
    obtain ⟨b, e1, e2⟩ := full_epoch_same (S := S) (h1 a List.mem_cons_self) h0
    obtain ⟨b', e1', e2'⟩ := full_epoch_same (S := S) (h2 c List.mem_cons_self) h0'
    rw [List.flatMap_cons, List.flatMap_cons, e1, e1']
    exact .cons (fun W => (congrFun e2' (τ.on W)).trans ((hd W).trans (congrFun e2 W).symm))
      (full_carries h0 h0' hd (by simpa using h) (fun o ho => h1 o (List.mem_cons_of_mem _ ho)) fun o ho => h2 o (List.mem_cons_of_mem _ ho))

/-- C209. The same for two calls of `train()` with whole training sets as batches that begin the same number of epochs. -/
theorem carried_full_training (o : ℕ → Opt) (oo : Opt) (ty : ℕ → GradType) (β1 β2 γ : ℕ → ℝ) (tyo : GradType) (β1o β2o γo : ℝ)
    (ho : (P.using o oo).Ok) (hb : ∀ id, Stays (o id) (ty id) (β1 id) (β2 id)) (hout : Stays oo tyo β1o β2o) (hdr : ∀ id, Undropped (o id)) (hdo : Undropped oo)
    (τ : Relabel) (hτ : τ.Keeps P.shape)
    (hl : LossLooks P.shape) {d d' : TrainData.Data ℝ ℝ} (hs : Suits d P) (hs' : Suits d' P)
    (hd : Carries τ P.shape (d.count .train, feature d, label d) (d'.count .train, feature d', label d'))
    {opts : Train.Opts L} {v : Train.Env L} {opts' : Train.Opts L'} {v' : Train.Env L'} (hv : Train.Starts v) (hv' : Train.Starts v')
    {cd cd1 cd' cd1' : Train.CD} {tr tr' : List Train.Ev} {err err' : Train.Err}
    (ht : Train.train opts v cd = some (cd1, tr, err)) (ht' : Train.train opts' v' cd' = some (cd1', tr', err'))
    (hfull : cd.trainBs = d.count .train) (hfull' : cd'.trainBs = d'.count .train) (hbs : d.count .train ≤ P.bs.maxTrainBS) (hbs' : d'.count .train ≤ P.bs.maxTrainBS)
    (hep : (Train.begunOf tr).length = (Train.begunOf tr').length) {vmax vmax' : ℕ}
    {w w1 w' w1' : World (P.using o oo)} (hc : w.cur = cd.cur) (hc' : w'.cur = cd'.cur) (hr : TrainData.Reach vmax d w.td) (hr' : TrainData.Reach vmax' d' w'.td)
    (hi : (P.using o oo).Inv w.net) (hi' : (P.using o oo).Inv w'.net) (h : Stock LayerMemo)
    (hh : (P.using o oo).Stores (fun id m k => stands m k (ty id) (β1 id) (β2 id) (γ id)) (stands P.outputs (P.tree.neurons + 1) tyo β1o β2o γo)
      ((P.using o oo).cells w.net) h)
    (hh' : (P.using o oo).Stores (fun id m k => stands m k (ty id) (β1 id) (β2 id) (γ id)) (stands P.outputs (P.tree.neurons + 1) tyo β1o β2o γo)
      ((P.using o oo).cells w'.net) (τ.stock h))
    (hg : GoesWellIn P d (fun id => ruleOf (o id) (ty id) (β1 id) (β2 id) (γ id)) (ruleOf oo tyo β1o β2o γo P.outputs (P.tree.neurons + 1)) h)
    (hg' : GoesWellIn P d' (fun id => ruleOf (o id) (ty id) (β1 id) (β2 id) (γ id)) (ruleOf oo tyo β1o β2o γo P.outputs (P.tree.neurons + 1)) (τ.stock h))
    (hP : Plays (P.using o oo) vmax tr w w1) (hP' : Plays (P.using o oo) vmax' tr' w' w1') :
    P.shape.Same ((P.using o oo).weights w1'.net) (τ.on ((P.using o oo).weights w1.net)) := by
  obtain ⟨ords, k1, _, k2, g, k3, k4⟩ := whole_training_with_every_setting o oo ty β1 β2 γ tyo β1o β2o γo ho hb hout hl hs hv ht (by rw [hfull]; exact hbs) hc hr hi h hh hg hP
  obtain ⟨ords', l1, _, l2, g', l3, l4⟩ :=
    whole_training_with_every_setting o oo ty β1 β2 γ tyo β1o β2o γo ho hb hout hl hs' hv' ht' (by rw [hfull']; exact hbs') hc' hr' hi' _ hh' hg' hP'
  have hS : P.shape.Ok P.act := ho.shape
  rw [hfull] at k2 k3
  rw [hfull'] at l2 l3
  have k5 := hτ.path (fun id m _ => (hdr id).before m) (fun id m _ => (hdr id).after m (ty id) (β1 id) (β2 id) (γ id)) (hdo.before _)
    (hdo.after _ tyo β1o β2o γo) (full_carries (hs.ok.count .train) (hs'.ok.count .train) hd (k1.trans (hep.trans l1.symm)) k2 l2) k3
  have := hS.mat_path_unique (List.forall₂_same.2 fun _ _ => rfl) ⟨Shape.Same.refl _ _, fun _ _ _ => MemoLike.refl _ _ _, MemoLike.refl _ _ _⟩ l3 k5
  exact l4.symm.trans (this.1.trans (hτ.sameOn k4))

/-- C209. The orders of the features and of the samples do not matter when `train()` is called with the whole training set as one batch. -/
theorem order_of_features_in_whole_training (o : ℕ → Opt) (oo : Opt) (ty : ℕ → GradType) (β1 β2 γ : ℕ → ℝ) (tyo : GradType) (β1o β2o γo : ℝ)
    (ho : (P.using o oo).Ok) (hb : ∀ id, Stays (o id) (ty id) (β1 id) (β2 id)) (hout : Stays oo tyo β1o β2o) (hdr : ∀ id, Undropped (o id)) (hdo : Undropped oo)
    (hf : LowestFull P.tree) (π : Equiv.Perm ℕ) (hπ : ∀ c, P.inputs ≤ c → π c = c)
    (hl : LossLooks P.shape) {d d' : TrainData.Data ℝ ℝ} (hs : Suits d P) (hs' : Suits d' P)
    (hd : OtherFeatures P.shape π (d.count .train, feature d, label d) (d'.count .train, feature d', label d'))
    {opts : Train.Opts L} {v : Train.Env L} {opts' : Train.Opts L'} {v' : Train.Env L'} (hv : Train.Starts v) (hv' : Train.Starts v')
    {cd cd1 cd' cd1' : Train.CD} {tr tr' : List Train.Ev} {err err' : Train.Err}
    (ht : Train.train opts v cd = some (cd1, tr, err)) (ht' : Train.train opts' v' cd' = some (cd1', tr', err'))
    (hfull : cd.trainBs = d.count .train) (hfull' : cd'.trainBs = d'.count .train) (hbs : d.count .train ≤ P.bs.maxTrainBS)
    (hep : (Train.begunOf tr).length = (Train.begunOf tr').length) {vmax vmax' : ℕ}
    {w w1 w' w1' : World (P.using o oo)} (hc : w.cur = cd.cur) (hc' : w'.cur = cd'.cur) (hr : TrainData.Reach vmax d w.td) (hr' : TrainData.Reach vmax' d' w'.td)
    (hi : (P.using o oo).Inv w.net) (hi' : (P.using o oo).Inv w'.net) (h : Stock LayerMemo)
    (hh : (P.using o oo).Stores (fun id m k => stands m k (ty id) (β1 id) (β2 id) (γ id)) (stands P.outputs (P.tree.neurons + 1) tyo β1o β2o γo)
      ((P.using o oo).cells w.net) h)
    (hh' : (P.using o oo).Stores (fun id m k => stands m k (ty id) (β1 id) (β2 id) (γ id)) (stands P.outputs (P.tree.neurons + 1) tyo β1o β2o γo)
      ((P.using o oo).cells w'.net) ((Relabel.features π).stock h))
    (hg : GoesWellIn P d (fun id => ruleOf (o id) (ty id) (β1 id) (β2 id) (γ id)) (ruleOf oo tyo β1o β2o γo P.outputs (P.tree.neurons + 1)) h)
    (hg' : GoesWellIn P d' (fun id => ruleOf (o id) (ty id) (β1 id) (β2 id) (γ id)) (ruleOf oo tyo β1o β2o γo P.outputs (P.tree.neurons + 1)) ((Relabel.features π).stock h))
    (hP : Plays (P.using o oo) vmax tr w w1) (hP' : Plays (P.using o oo) vmax' tr' w' w1') :
    P.shape.Same ((P.using o oo).weights w1'.net) ((Relabel.features π).on ((P.using o oo).weights w1.net)) ∧
    ∀ x, ∀ c < P.outputs, P.shape.answer ((P.using o oo).weights w1'.net) (fun j => x (π j)) c = P.shape.answer ((P.using o oo).weights w1.net) x c := by
  have hS : P.shape.Ok P.act := ho.shape
  have e := carried_full_training o oo ty β1 β2 γ tyo β1o β2o γo ho hb hout hdr hdo _ (features_keep (S := P.shape) hf hπ) hl hs hs' (hd.carries hS hl hf hπ) hv hv' ht ht'
    hfull hfull' hbs (le_of_eq_of_le hd.1 hbs) hep hc hc' hr hr' hi hi' h hh hh' hg hg' hP hP'
  exact ⟨e, fun x c hc => (hS.answer_congr e _ c hc).trans (congrFun (features_answer (S := P.shape) hf hπ _ x) c)⟩

/-- C209. The orders of the outputs and of the samples do not matter when `train()` is called with the whole training set as one batch. -/
theorem order_of_outputs_in_whole_training (o : ℕ → Opt) (oo : Opt) (ty : ℕ → GradType) (β1 β2 γ : ℕ → ℝ) (tyo : GradType) (β1o β2o γo : ℝ)
    (ho : (P.using o oo).Ok) (hb : ∀ id, Stays (o id) (ty id) (β1 id) (β2 id)) (hout : Stays oo tyo β1o β2o) (hdr : ∀ id, Undropped (o id)) (hdo : Undropped oo)
    (hf : Fair P.shape) (π : Equiv.Perm ℕ) (hπ : ∀ c, P.outputs ≤ c → π c = c)
    (hl : LossLooks P.shape) {d d' : TrainData.Data ℝ ℝ} (hs : Suits d P) (hs' : Suits d' P)
    (hd : OtherOutputs P.shape π (d.count .train, feature d, label d) (d'.count .train, feature d', label d'))
    {opts : Train.Opts L} {v : Train.Env L} {opts' : Train.Opts L'} {v' : Train.Env L'} (hv : Train.Starts v) (hv' : Train.Starts v')
    {cd cd1 cd' cd1' : Train.CD} {tr tr' : List Train.Ev} {err err' : Train.Err}
    (ht : Train.train opts v cd = some (cd1, tr, err)) (ht' : Train.train opts' v' cd' = some (cd1', tr', err'))
    (hfull : cd.trainBs = d.count .train) (hfull' : cd'.trainBs = d'.count .train) (hbs : d.count .train ≤ P.bs.maxTrainBS)
    (hep : (Train.begunOf tr).length = (Train.begunOf tr').length) {vmax vmax' : ℕ}
    {w w1 w' w1' : World (P.using o oo)} (hc : w.cur = cd.cur) (hc' : w'.cur = cd'.cur) (hr : TrainData.Reach vmax d w.td) (hr' : TrainData.Reach vmax' d' w'.td)
    (hi : (P.using o oo).Inv w.net) (hi' : (P.using o oo).Inv w'.net) (h : Stock LayerMemo)
    (hh : (P.using o oo).Stores (fun id m k => stands m k (ty id) (β1 id) (β2 id) (γ id)) (stands P.outputs (P.tree.neurons + 1) tyo β1o β2o γo)
      ((P.using o oo).cells w.net) h)
    (hh' : (P.using o oo).Stores (fun id m k => stands m k (ty id) (β1 id) (β2 id) (γ id)) (stands P.outputs (P.tree.neurons + 1) tyo β1o β2o γo)
      ((P.using o oo).cells w'.net) ((Relabel.outputs π).stock h))
    (hg : GoesWellIn P d (fun id => ruleOf (o id) (ty id) (β1 id) (β2 id) (γ id)) (ruleOf oo tyo β1o β2o γo P.outputs (P.tree.neurons + 1)) h)
    (hg' : GoesWellIn P d' (fun id => ruleOf (o id) (ty id) (β1 id) (β2 id) (γ id)) (ruleOf oo tyo β1o β2o γo P.outputs (P.tree.neurons + 1)) ((Relabel.outputs π).stock h))
    (hP : Plays (P.using o oo) vmax tr w w1) (hP' : Plays (P.using o oo) vmax' tr' w' w1') :
    P.shape.Same ((P.using o oo).weights w1'.net) ((Relabel.outputs π).on ((P.using o oo).weights w1.net)) ∧
    ∀ x, ∀ c < P.outputs, P.shape.answer ((P.using o oo).weights w1'.net) x c = P.shape.answer ((P.using o oo).weights w1.net) x (π c) := by
  have hS : P.shape.Ok P.act := ho.shape
  have e := carried_full_training o oo ty β1 β2 γ tyo β1o β2o γo ho hb hout hdr hdo _ (outputs_keep (S := P.shape) hπ) hl hs hs' (hd.carries hS hl hf hπ) hv hv' ht ht'
    hfull hfull' hbs (le_of_eq_of_le hd.1 hbs) hep hc hc' hr hr' hi hi' h hh hh' hg hg' hP hP'
  exact ⟨e, fun x c hc => (hS.answer_congr e x c hc).trans (outputs_answer hf hπ _ x c hc)⟩

end Nntl.Sgd
