import Verif.Sgd.SymProps

/-! C208: neurons of a layer can change places. Property theorems. -/
namespace Nntl.Sgd

open Nntl.Layers Nntl.Pass Nntl.Backprop Nntl.Grad Nntl.Matrix Nntl.Kernel
open Finset

/-! ### Specification -/

/-- The layers of a network from the lowest one to the highest one; a vertical pack is taken apart. -/
def asStack : Layer → Stack
  | .vert _ f r => .cons f r
  | l => .cons l .nil

/-- The matrix `i` belongs to a fully connected layer with `m` neurons that is directly below another one (layers on `n` inputs). -/
inductive Adjacent : Stack → ℕ → ℕ → ℕ → Prop
  | here (a b : ℕ) (la lb : Leaf) (r : Stack) (n : ℕ) : Adjacent (.cons (.leaf a la) (.cons (.leaf b lb) r)) n 0 la.neurons
  | there {l : Layer} {r : Stack} {n i m : ℕ} (h : Adjacent r l.neurons i m) : Adjacent (.cons l r) n ((mats l n).length + i) m

/-- The matrix `i` belongs to a fully connected layer with `m` neurons that is the highest one. -/
inductive Topmost : Stack → ℕ → ℕ → ℕ → Prop
  | here (a : ℕ) (la : Leaf) (n : ℕ) : Topmost (.cons (.leaf a la) .nil) n 0 la.neurons
  | there {l : Layer} {r : Stack} {n i m : ℕ} (h : Topmost r l.neurons i m) : Topmost (.cons l r) n ((mats l n).length + i) m

/-- The neurons of the matrix `i` change places, with their weights and with the weights that the next layer has for them. -/
def Relabel.inner (i : ℕ) (π : Equiv.Perm ℕ) : Relabel := ⟨fun k => if k = i then π else 1, fun k => if k = i + 1 then π else 1, 1, 1⟩

/-- The same below the output layer. -/
def Relabel.top (i : ℕ) (π : Equiv.Perm ℕ) : Relabel := ⟨fun k => if k = i then π else 1, fun _ => 1, 1, π⟩

/-- In the matrix `i` the rows `a` and `b` are the same, and in the next one the columns `a` and `b`. -/
def InnerTwins {α : Type} (S : Shape) (i a b : ℕ) (F : ℕ → ℕ → ℕ → α) : Prop :=
  (∀ q, (mats S.tree S.inputs)[i]? = some q → ∀ j < q.cols, F i a j = F i b j) ∧ ∀ q, (mats S.tree S.inputs)[i + 1]? = some q → ∀ c < q.rows, F (i + 1) c a = F (i + 1) c b

/-- In the matrix `i` the rows `a` and `b` are the same, and in the output layer the columns `a` and `b`. -/
def TopTwins {α : Type} (S : Shape) (i a b : ℕ) (F : ℕ → ℕ → ℕ → α) (G : ℕ → ℕ → α) : Prop :=
  (∀ q, (mats S.tree S.inputs)[i]? = some q → ∀ j < q.cols, F i a j = F i b j) ∧ ∀ c < S.outputs, G c a = G c b

/-! ### Functions of weights -/

mutual
theorem netFn_only (act : ℕ → ℝ → ℝ) (l : Layer) (n : ℕ) (W W' : ℕ → Mat ℝ) (h : ∀ i < (mats l n).length, W i = W' i) (x : ℕ → ℝ) :
    netFn act l n W x = netFn act l n W' x := by
  match l with
  | .leaf id _ =>
    show (fun c => act id (neuron n (W 0) x c)) = fun c => act id (neuron n (W' 0) x c)
    rw [h 0 (by simp [mats])]
  | .vert _ f r =>
    simp only [mats, List.length_append] at h
    simp only [netFn]
    rw [netFn_only act f n W W' (fun i hi => h i (by omega)) x]
    exact stackFn_only act r f.neurons _ _ (fun i hi => h _ (by omega)) _
  | .horiz _ _ fs =>
    simp only [mats] at h
    simp only [netFn]
    exact fieldsFn_only act fs W W' h x
  | .tile _ k l =>
    simp only [mats, List.length_map] at h
    simp only [netFn]
    funext c
    rw [netFn_only act l (n / k) W W' h]
theorem stackFn_only (act : ℕ → ℝ → ℝ) (r : Stack) (n : ℕ) (W W' : ℕ → Mat ℝ) (h : ∀ i < (matsS r n).length, W i = W' i) (x : ℕ → ℝ) :
    stackFn act r n W x = stackFn act r n W' x := by
  match r with
  | .nil => rfl
  | .cons l r =>
    simp only [matsS, List.length_append] at h
    simp only [stackFn]
    rw [netFn_only act l n W W' (fun i hi => h i (by omega)) x]
    exact stackFn_only act r l.neurons _ _ (fun i hi => h _ (by omega)) _
theorem fieldsFn_only (act : ℕ → ℝ → ℝ) (fs : Fields) (W W' : ℕ → Mat ℝ) (h : ∀ i < (matsF fs).length, W i = W' i) (x : ℕ → ℝ) :
    fieldsFn act fs W x = fieldsFn act fs W' x := by
  match fs with
  | .nil => rfl
  | .cons ofs cnt l r =>
    simp only [matsF, List.length_append] at h
    simp only [fieldsFn]
    funext c
    rw [netFn_only act l cnt W W' (fun i hi => h i (by omega)), fieldsFn_only act r (after (mats l cnt).length W) (after (mats l cnt).length W') (fun i hi => h _ (by omega)) x]
end

theorem perm_inside {m : ℕ} {π : Equiv.Perm ℕ} (hπ : ∀ c, m ≤ c → π c = c) : ∀ c < m, π c < m := by
  intro c hc
  by_contra h
  have := π.injective (hπ (π c) (by omega))
  omega

theorem neuron_moved {n : ℕ} {π : Equiv.Perm ℕ} (hπ : ∀ c, n ≤ c → π c = c) (M : Mat ℝ) (y : ℕ → ℝ) : neuron n (moved 1 π M) (fun j => y (π j)) = neuron n M y := by
  funext c
  unfold neuron moved
  rw [hπ n le_rfl]
  congr 1
  exact sum_permuted (perm_inside hπ) (fun _ _ _ _ e => π.injective e) fun j => M c j * y j

theorem Adjacent.fn {act : ℕ → ℝ → ℝ} {r : Stack} {n i m : ℕ} (h : Adjacent r n i m) {π : Equiv.Perm ℕ} (hπ : ∀ c, m ≤ c → π c = c) :
    ∀ {W W' : ℕ → Mat ℝ}, W' i = moved π 1 (W i) → W' (i + 1) = moved 1 π (W (i + 1)) → (∀ k, k ≠ i → k ≠ i + 1 → W' k = W k) →
    ∀ x, stackFn act r n W' x = stackFn act r n W x := by
  induction h with
  | here a b la lb r n =>
    intro W W' h1 h2 h3 x
    have e1 : netFn act (.leaf a la) n W' x = fun c => netFn act (.leaf a la) n W x (π c) := by
      show (fun c => act a (neuron n (W' 0) x c)) = fun c => act a (neuron n (W 0) x (π c))
      rw [h1]
      rfl
    have e2 : netFn act (.leaf b lb) la.neurons (after 1 W') (netFn act (.leaf a la) n W' x) =
        netFn act (.leaf b lb) la.neurons (after 1 W) (netFn act (.leaf a la) n W x) := by
      rw [e1]
      show (fun c => act b (neuron la.neurons (W' 1) _ c)) = fun c => act b (neuron la.neurons (W 1) _ c)
      rw [h2, neuron_moved hπ]
    show stackFn act r lb.neurons (after 1 (after 1 W')) (netFn act (.leaf b lb) la.neurons (after 1 W') (netFn act (.leaf a la) n W' x)) = _
    rw [e2]
    exact stackFn_only act r lb.neurons _ _ (fun k _ => h3 (1 + (1 + k)) (by omega) (by omega)) _
  | there _ ih =>
    rename_i l r n i m _
    intro W W' h1 h2 h3 x
    simp only [stackFn]
    rw [netFn_only act l n W' W (fun k hk => h3 k (by omega) (by omega)) x]
    exact ih hπ h1 (by simpa only [after, Nat.add_assoc] using h2) (fun k hk hk' => h3 _ (by omega) (by omega)) _

theorem Topmost.fn {act : ℕ → ℝ → ℝ} {r : Stack} {n i m : ℕ} (h : Topmost r n i m) (π : Equiv.Perm ℕ) :
    ∀ {W W' : ℕ → Mat ℝ}, W' i = moved π 1 (W i) → (∀ k, k ≠ i → W' k = W k) → ∀ x, stackFn act r n W' x = fun c => stackFn act r n W x (π c) := by
  induction h with
  | here a la n =>
    intro W W' h1 _ x
    show (fun c => act a (neuron n (W' 0) x c)) = fun c => act a (neuron n (W 0) x (π c))
    rw [h1]
    rfl
  | there _ ih =>
    rename_i l r n i m _
    intro W W' h1 h3 x
    simp only [stackFn]
    rw [netFn_only act l n W' W (fun k hk => h3 k (by omega)) x]
    exact ih h1 (fun k hk => h3 _ (by omega)) _

theorem Adjacent.mats {r : Stack} {n i m : ℕ} (h : Adjacent r n i m) :
    (∀ q, (matsS r n)[i]? = some q → q.rows = m) ∧ ∀ q, (matsS r n)[i + 1]? = some q → q.cols = m + 1 := by
  induction h with
  | here a b la lb r n =>
    refine ⟨fun q hq => ?_, fun q hq => ?_⟩
    · obtain rfl := Option.some.inj (show some (⟨a, la.neurons, n + 1, 1⟩ : MatInfo) = some q from hq)
      rfl
    · obtain rfl := Option.some.inj (show some (⟨b, lb.neurons, la.neurons + 1, 1⟩ : MatInfo) = some q from hq)
      rfl
  | there _ ih =>
    rename_i l r n i m _
    simp only [matsS]
    refine ⟨fun q hq => ih.1 q ?_, fun q hq => ih.2 q ?_⟩
    · rwa [List.getElem?_append_right (by omega), show (Sgd.mats l n).length + i - (Sgd.mats l n).length = i by omega] at hq
    · rwa [List.getElem?_append_right (by omega), show (Sgd.mats l n).length + i + 1 - (Sgd.mats l n).length = i + 1 by omega] at hq

theorem Topmost.mats {r : Stack} {n i m : ℕ} (h : Topmost r n i m) : (∀ q, (matsS r n)[i]? = some q → q.rows = m) ∧ ∀ d, Stack.top d r = m := by
  induction h with
  | here a la n =>
    refine ⟨fun q hq => ?_, fun _ => rfl⟩
    obtain rfl := Option.some.inj (show some (⟨a, la.neurons, n + 1, 1⟩ : MatInfo) = some q from hq)
    rfl
  | there _ ih =>
    rename_i l r n i m _
    simp only [matsS]
    refine ⟨fun q hq => ih.1 q ?_, fun d => ih.2 _⟩
    rwa [List.getElem?_append_right (by omega), show (Sgd.mats l n).length + i - (Sgd.mats l n).length = i by omega] at hq

theorem asStack_mats (l : Layer) (n : ℕ) : mats l n = matsS (asStack l) n := by
  cases l <;> simp [asStack, matsS, mats]

theorem asStack_fn (act : ℕ → ℝ → ℝ) (l : Layer) (n : ℕ) (W : ℕ → Mat ℝ) (x : ℕ → ℝ) : netFn act l n W x = stackFn act (asStack l) n W x := by
  cases l <;> rfl

theorem asStack_neurons (l : Layer) : l.neurons = Stack.top 0 (asStack l) := by
  cases l <;> rfl

theorem inside_one (m k : ℕ) : Inside m k 1 1 := ⟨fun _ h => h, fun _ h => h, fun _ => Iff.rfl⟩

theorem inside_col {m k : ℕ} {π : Equiv.Perm ℕ} (hπ : ∀ c, k ≤ c → π c = c) {ρ : Equiv.Perm ℕ} (hρ : ∀ c < m, ρ c < m) : Inside m (k + 1) ρ π := by
  refine ⟨hρ, fun j hj => ?_, fun j => ?_⟩
  · by_cases h : j < k
    · have := perm_inside hπ j h
      omega
    · rw [hπ j (by omega)]
      exact hj
  · by_cases h : j < k
    · have := perm_inside hπ j h
      omega
    · rw [hπ j (by omega)]

/-! ### Property theorems -/

variable {S : Shape} {act : ℕ → Act.Act}

/-- C208. In every network the neurons of a fully connected layer below another one can change places. -/
theorem inner_neurons_can_change_places {i m : ℕ} (h : Adjacent (asStack S.tree) S.inputs i m) (π : Equiv.Perm ℕ) (hπ : ∀ c, m ≤ c → π c = c) :
    (Relabel.inner i π).Symmetry S where
  body := fun k q hq => by
    rw [asStack_mats] at hq
    have hm := h.mats
    unfold Relabel.inner
    dsimp only
    by_cases h1 : k = i
    · subst h1
      rw [if_pos rfl, if_neg (by omega)]
      refine ⟨?_, fun _ h => h, fun _ => Iff.rfl⟩
      rw [hm.1 q hq]
      exact perm_inside hπ
    · rw [if_neg h1]
      by_cases h2 : k = i + 1
      · subst h2
        rw [if_pos rfl, hm.2 q hq]
        exact inside_col hπ fun _ h => h
      · rw [if_neg h2]
        exact inside_one _ _
  out := inside_one _ _
  same := fun W x c _ => by
    unfold Shape.answer Shape.raw
    rw [asStack_fn, asStack_fn, h.fn hπ (W := W.body)]
    · rfl
    · simp [Relabel.on, Relabel.inner]
    · simp [Relabel.on, Relabel.inner]
    · intro k h1 h2
      simp only [Relabel.on, Relabel.inner, if_neg h1, if_neg h2]
      rfl

/-- C208. So can those of a fully connected layer below the output layer. -/
theorem top_neurons_can_change_places {i m : ℕ} (h : Topmost (asStack S.tree) S.inputs i m) (π : Equiv.Perm ℕ) (hπ : ∀ c, m ≤ c → π c = c) :
    (Relabel.top i π).Symmetry S := by
  have hn : S.tree.neurons = m := by rw [asStack_neurons]; exact h.mats.2 0
  refine ⟨fun k q hq => ?_, ?_, fun W x c _ => ?_⟩
  · rw [asStack_mats] at hq
    unfold Relabel.top
    dsimp only
    by_cases h1 : k = i
    · subst h1
      rw [if_pos rfl]
      refine ⟨?_, fun _ h => h, fun _ => Iff.rfl⟩
      rw [h.mats.1 q hq]
      exact perm_inside hπ
    · rw [if_neg h1]
      exact inside_one _ _
  · rw [hn]
    exact inside_col hπ fun _ h => h
  · unfold Shape.answer Shape.raw
    rw [asStack_fn, asStack_fn, h.fn π (W := W.body)]
    · rw [hn]
      show S.last (neuron m (moved 1 π W.out) fun c => stackFn S.act (asStack S.tree) S.inputs W.body x (π c)) c = _
      rw [neuron_moved hπ]
    · simp [Relabel.on, Relabel.top]
    · intro k h1
      simp only [Relabel.on, Relabel.top, if_neg h1]
      rfl

theorem swap_fixes {m a b : ℕ} (ha : a < m) (hb : b < m) : ∀ c, m ≤ c → Equiv.swap a b c = c := fun _ _ => Equiv.swap_apply_of_ne_of_ne (by omega) (by omega)

theorem swapped {α : Type} {a b : ℕ} {f : ℕ → α} (h : f a = f b) (c : ℕ) : f c = f (Equiv.swap a b c) := by
  by_cases h1 : c = a
  · subst h1
    rw [Equiv.swap_apply_left, h]
  · by_cases h2 : c = b
    · subst h2
      rw [Equiv.swap_apply_right, h]
    · rw [Equiv.swap_apply_of_ne_of_ne h1 h2]

theorem InnerTwins.moved {α : Type} {i a b : ℕ} {F : ℕ → ℕ → ℕ → α} (h : InnerTwins S i a b F) :
    ∀ k q, (mats S.tree S.inputs)[k]? = some q → ∀ c < q.rows, ∀ j < q.cols, F k c j = Sgd.moved ((Relabel.inner i (Equiv.swap a b)).row k) ((Relabel.inner i (Equiv.swap a b)).col k) (F k) c j := by
  intro k q hq c hc j hj
  unfold Sgd.moved Relabel.inner
  dsimp only
  by_cases h1 : k = i
  · subst h1
    rw [if_pos rfl, if_neg (by omega)]
    exact swapped (f := fun c => F k c j) (h.1 q hq j hj) c
  · rw [if_neg h1]
    by_cases h2 : k = i + 1
    · subst h2
      rw [if_pos rfl]
      exact swapped (f := fun j => F (i + 1) c j) (h.2 q hq c hc) j
    · rw [if_neg h2]
      rfl

theorem InnerTwins.of_moved {α : Type} {i a b m : ℕ} (ht : Adjacent (asStack S.tree) S.inputs i m) (ha : a < m) (hb : b < m) {F : ℕ → ℕ → ℕ → α}
    (h : ∀ k q, (mats S.tree S.inputs)[k]? = some q → ∀ c < q.rows, ∀ j < q.cols, F k c j = Sgd.moved ((Relabel.inner i (Equiv.swap a b)).row k) ((Relabel.inner i (Equiv.swap a b)).col k) (F k) c j) :
    InnerTwins S i a b F := by
  have hm := ht.mats
  rw [← asStack_mats] at hm
  refine ⟨fun q hq j hj => ?_, fun q hq c hc => ?_⟩
  · have := h i q hq a (by rw [hm.1 q hq]; exact ha) j hj
    simpa [Sgd.moved, Relabel.inner] using this
  · have := h (i + 1) q hq c hc a (by rw [hm.2 q hq]; omega)
    simpa [Sgd.moved, Relabel.inner] using this

theorem TopTwins.moved {α : Type} {i a b : ℕ} {F : ℕ → ℕ → ℕ → α} {G : ℕ → ℕ → α} (h : TopTwins S i a b F G) :
    (∀ k q, (mats S.tree S.inputs)[k]? = some q → ∀ c < q.rows, ∀ j < q.cols, F k c j = Sgd.moved ((Relabel.top i (Equiv.swap a b)).row k) ((Relabel.top i (Equiv.swap a b)).col k) (F k) c j) ∧
    ∀ c < S.outputs, ∀ j < S.tree.neurons + 1, G c j = Sgd.moved (Relabel.top i (Equiv.swap a b)).orow (Relabel.top i (Equiv.swap a b)).ocol G c j := by
  refine ⟨fun k q hq c hc j hj => ?_, fun c hc j _ => swapped (f := fun j => G c j) (h.2 c hc) j⟩
  unfold Sgd.moved Relabel.top
  dsimp only
  by_cases h1 : k = i
  · subst h1
    rw [if_pos rfl]
    exact swapped (f := fun c => F k c j) (h.1 q hq j hj) c
  · rw [if_neg h1]
    rfl

theorem TopTwins.of_moved {α : Type} {i a b m : ℕ} (ht : Topmost (asStack S.tree) S.inputs i m) (ha : a < m) (hb : b < m) {F : ℕ → ℕ → ℕ → α} {G : ℕ → ℕ → α}
    (h : ∀ k q, (mats S.tree S.inputs)[k]? = some q → ∀ c < q.rows, ∀ j < q.cols, F k c j = Sgd.moved ((Relabel.top i (Equiv.swap a b)).row k) ((Relabel.top i (Equiv.swap a b)).col k) (F k) c j)
    (h' : ∀ c < S.outputs, ∀ j < S.tree.neurons + 1, G c j = Sgd.moved (Relabel.top i (Equiv.swap a b)).orow (Relabel.top i (Equiv.swap a b)).ocol G c j) :
    TopTwins S i a b F G := by
  have hm := ht.mats
  rw [← asStack_mats] at hm
  have hn : S.tree.neurons = m := by rw [asStack_neurons]; exact ht.mats.2 0
  refine ⟨fun q hq j hj => ?_, fun c hc => ?_⟩
  · have := h i q hq a (by rw [hm.1 q hq]; exact ha) j hj
    simpa [Sgd.moved, Relabel.top] using this
  · have := h' c hc a (by omega)
    simpa [Sgd.moved, Relabel.top] using this

theorem inner_stockLike {i a b : ℕ} {h : Stock LayerMemo} (h1 : InnerTwins S i a b h.W.body) (h2 : InnerTwins S i a b fun k => (h.body k).cell) :
    StockLike S h ((Relabel.inner i (Equiv.swap a b)).stock h) :=
  ⟨⟨h1.moved, fun _ _ _ _ => rfl⟩, fun k q hq => ⟨rfl, rfl, h2.moved k q hq⟩, rfl, rfl, fun _ _ _ _ => rfl⟩

theorem top_stockLike {i a b : ℕ} {h : Stock LayerMemo} (h1 : TopTwins S i a b h.W.body h.W.out) (h2 : TopTwins S i a b (fun k => (h.body k).cell) h.out.cell) :
    StockLike S h ((Relabel.top i (Equiv.swap a b)).stock h) :=
  ⟨⟨h1.moved.1, h1.moved.2⟩, fun k q hq => ⟨rfl, rfl, h2.moved.1 k q hq⟩, rfl, rfl, h2.moved.2⟩

variable {P : Plan} {L : Type}

/-- C208. Twins stay twins: two neurons of a fully connected layer below another one with the same weights, the same weights for them in the next layer, and the same memories of
the optimisers have the same weights after any history of training steps and evaluations. -/
theorem twins_stay_twins (o : ℕ → Opt) (oo : Opt) (ty : ℕ → GradType) (β1 β2 γ : ℕ → ℝ) (tyo : GradType) (β1o β2o γo : ℝ)
    (ho : (P.using o oo).Ok) (hb : ∀ id, Stays (o id) (ty id) (β1 id) (β2 id)) (hout : Stays oo tyo β1o β2o) (hd : ∀ id, Undropped (o id)) (hdo : Undropped oo)
    {i m a b : ℕ} (hP : Adjacent (asStack P.tree) P.inputs i m) (ha : a < m) (hb' : b < m) (us : List (Use ℝ)) (s : NetS (P.using o oo).net) (hi : (P.using o oo).Inv s)
    (hus : ∀ u ∈ us, (P.using o oo).Fits u)
    (hr : ∀ pre R X Y post, us = pre ++ Use.train R X Y :: post →
      P.shape.Regular P.dz R (matOf R X) (matOf R Y) ((P.using o oo).cells ((P.using o oo).net.run s pre)).pre.weights)
    (h : Stock LayerMemo)
    (hh : (P.using o oo).Stores (fun id m k => stands m k (ty id) (β1 id) (β2 id) (γ id)) (stands P.outputs (P.tree.neurons + 1) tyo β1o β2o γo)
      ((P.using o oo).cells s) h)
    (h1 : InnerTwins P.shape i a b h.W.body) (h2 : InnerTwins P.shape i a b fun k => (h.body k).cell) :
    InnerTwins P.shape i a b ((P.using o oo).weights ((P.using o oo).net.run s us)).body :=
  .of_moved (S := P.shape) hP ha hb' (symmetry_stays o oo ty β1 β2 γ tyo β1o β2o γo ho hb hout hd hdo _
    (inner_neurons_can_change_places (S := P.shape) hP _ (swap_fixes ha hb')) us s hi hus hr h hh (inner_stockLike h1 h2)).1

/-- C208. The same for a whole call of `train()`. -/
theorem twins_stay_twins_in_whole_training (o : ℕ → Opt) (oo : Opt) (ty : ℕ → GradType) (β1 β2 γ : ℕ → ℝ) (tyo : GradType) (β1o β2o γo : ℝ)
    (ho : (P.using o oo).Ok) (hb : ∀ id, Stays (o id) (ty id) (β1 id) (β2 id)) (hout : Stays oo tyo β1o β2o) (hd : ∀ id, Undropped (o id)) (hdo : Undropped oo)
    {i m a b : ℕ} (hT : Adjacent (asStack P.tree) P.inputs i m) (ha : a < m) (hb' : b < m) {d : TrainData.Data ℝ ℝ} {vmax : ℕ}
    (hl : LossLooks P.shape) (hs : Suits d P) {opts : Train.Opts L} {v : Train.Env L} (hv : Train.Starts v)
    {cd cd' : Train.CD} {tr : List Train.Ev} {err : Train.Err} (ht : Train.train opts v cd = some (cd', tr, err)) (hbs : cd.trainBs ≤ P.bs.maxTrainBS)
    {w w' : World (P.using o oo)} (hc : w.cur = cd.cur) (hr : TrainData.Reach vmax d w.td) (hi : (P.using o oo).Inv w.net) (h : Stock LayerMemo)
    (hh : (P.using o oo).Stores (fun id m k => stands m k (ty id) (β1 id) (β2 id) (γ id)) (stands P.outputs (P.tree.neurons + 1) tyo β1o β2o γo)
      ((P.using o oo).cells w.net) h)
    (hg : GoesWellIn P d (fun id => ruleOf (o id) (ty id) (β1 id) (β2 id) (γ id)) (ruleOf oo tyo β1o β2o γo P.outputs (P.tree.neurons + 1)) h)
    (hP : Plays (P.using o oo) vmax tr w w')
    (h1 : InnerTwins P.shape i a b h.W.body) (h2 : InnerTwins P.shape i a b fun k => (h.body k).cell) :
    InnerTwins P.shape i a b ((P.using o oo).weights w'.net).body :=
  .of_moved (S := P.shape) hT ha hb' (whole_training_keeps_symmetry o oo ty β1 β2 γ tyo β1o β2o γo ho hb hout hd hdo _
    (inner_neurons_can_change_places (S := P.shape) hT _ (swap_fixes ha hb')) hl hs hv ht hbs hc hr hi h hh hg hP (inner_stockLike h1 h2)).1

/-- C208. Twins in a layer below the output layer. -/
theorem top_twins_stay_twins (o : ℕ → Opt) (oo : Opt) (ty : ℕ → GradType) (β1 β2 γ : ℕ → ℝ) (tyo : GradType) (β1o β2o γo : ℝ)
    (ho : (P.using o oo).Ok) (hb : ∀ id, Stays (o id) (ty id) (β1 id) (β2 id)) (hout : Stays oo tyo β1o β2o) (hd : ∀ id, Undropped (o id)) (hdo : Undropped oo)
    {i m a b : ℕ} (hP : Topmost (asStack P.tree) P.inputs i m) (ha : a < m) (hb' : b < m) (us : List (Use ℝ)) (s : NetS (P.using o oo).net) (hi : (P.using o oo).Inv s)
    (hus : ∀ u ∈ us, (P.using o oo).Fits u)
    (hr : ∀ pre R X Y post, us = pre ++ Use.train R X Y :: post →
      P.shape.Regular P.dz R (matOf R X) (matOf R Y) ((P.using o oo).cells ((P.using o oo).net.run s pre)).pre.weights)
    (h : Stock LayerMemo)
    (hh : (P.using o oo).Stores (fun id m k => stands m k (ty id) (β1 id) (β2 id) (γ id)) (stands P.outputs (P.tree.neurons + 1) tyo β1o β2o γo)
      ((P.using o oo).cells s) h)
    (h1 : TopTwins P.shape i a b h.W.body h.W.out) (h2 : TopTwins P.shape i a b (fun k => (h.body k).cell) h.out.cell) :
    TopTwins P.shape i a b ((P.using o oo).weights ((P.using o oo).net.run s us)).body ((P.using o oo).weights ((P.using o oo).net.run s us)).out :=
  have k := symmetry_stays o oo ty β1 β2 γ tyo β1o β2o γo ho hb hout hd hdo _
    (top_neurons_can_change_places (S := P.shape) hP _ (swap_fixes ha hb')) us s hi hus hr h hh (top_stockLike h1 h2)
  .of_moved (S := P.shape) hP ha hb' k.1 k.2

/-- C208. Twins in a layer below the output layer, in a whole call of `train()`. -/
theorem top_twins_stay_twins_in_whole_training (o : ℕ → Opt) (oo : Opt) (ty : ℕ → GradType) (β1 β2 γ : ℕ → ℝ) (tyo : GradType) (β1o β2o γo : ℝ)
    (ho : (P.using o oo).Ok) (hb : ∀ id, Stays (o id) (ty id) (β1 id) (β2 id)) (hout : Stays oo tyo β1o β2o) (hd : ∀ id, Undropped (o id)) (hdo : Undropped oo)
    {i m a b : ℕ} (hT : Topmost (asStack P.tree) P.inputs i m) (ha : a < m) (hb' : b < m) {d : TrainData.Data ℝ ℝ} {vmax : ℕ}
    (hl : LossLooks P.shape) (hs : Suits d P) {opts : Train.Opts L} {v : Train.Env L} (hv : Train.Starts v)
    {cd cd' : Train.CD} {tr : List Train.Ev} {err : Train.Err} (ht : Train.train opts v cd = some (cd', tr, err)) (hbs : cd.trainBs ≤ P.bs.maxTrainBS)
    {w w' : World (P.using o oo)} (hc : w.cur = cd.cur) (hr : TrainData.Reach vmax d w.td) (hi : (P.using o oo).Inv w.net) (h : Stock LayerMemo)
    (hh : (P.using o oo).Stores (fun id m k => stands m k (ty id) (β1 id) (β2 id) (γ id)) (stands P.outputs (P.tree.neurons + 1) tyo β1o β2o γo)
      ((P.using o oo).cells w.net) h)
    (hg : GoesWellIn P d (fun id => ruleOf (o id) (ty id) (β1 id) (β2 id) (γ id)) (ruleOf oo tyo β1o β2o γo P.outputs (P.tree.neurons + 1)) h)
    (hP : Plays (P.using o oo) vmax tr w w')
    (h1 : TopTwins P.shape i a b h.W.body h.W.out) (h2 : TopTwins P.shape i a b (fun k => (h.body k).cell) h.out.cell) :
    TopTwins P.shape i a b ((P.using o oo).weights w'.net).body ((P.using o oo).weights w'.net).out :=
  have k := whole_training_keeps_symmetry o oo ty β1 β2 γ tyo β1o β2o γo ho hb hout hd hdo _
    (top_neurons_can_change_places (S := P.shape) hT _ (swap_fixes ha hb')) hl hs hv ht hbs hc hr hi h hh hg hP (top_stockLike h1 h2)
  .of_moved (S := P.shape) hT ha hb' k.1 k.2

end Nntl.Sgd
