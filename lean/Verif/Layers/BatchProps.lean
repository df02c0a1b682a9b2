import Verif.Layers.Spec
/-! C33: the batch sizes every layer of a tree is initialised for. -/
namespace Nntl.Layers

/-- `b` times `m` rows. -/
private theorem mul_mul (b : BS) (m k : Nat) : (b.mul m).mul k = b.mul (m * k) := by
  simp [BS.mul, Nat.mul_assoc]

private theorem mul_div (b : BS) (k : Nat) (h : 0 < k) : (b.mul k).div k = b := by
  simp [BS.mul, BS.div, Nat.mul_div_cancel _ h]

mutual
theorem layerInit_keeps (tp : Bool) : ∀ (l : Layer) (inc : BS) (n j : Nat) (d : Lid), l.AllLeaves Leaf.KeepsRows →
    l.AllPacks (fun _ _ => True) (fun _ k => 0 < k) j → layerInit tp l inc n = some d → d.outg = inc
  | .leaf _ l, inc, n, j, d, hl, _, h => by
    simp only [layerInit, Option.some.injEq] at h
    subst h
    exact hl inc
  | .vert _ f r, inc, n, j, d, hl, hp, h => by
    simp only [layerInit, Option.bind_eq_some_iff] at h
    obtain ⟨df, h1, h2⟩ := h
    have e := layerInit_keeps tp f inc n j df hl.1 hp.1 h1
    refine (initStack_keeps tp r df.outg _ _ _ d hl.2 hp.2 ?_ h2).trans e
    rfl
  | .horiz _ add fs, inc, n, j, d, hl, hp, h => by
    simp only [layerInit, Option.map_eq_some_iff] at h
    obtain ⟨g, h1, h2⟩ := h
    have e := initFields_keeps tp fs inc none _ g hl hp.2 (by intro c hc; cases hc) h1
    subst h2
    cases tp <;> exact e
  | .tile _ k l, inc, n, j, d, hl, hp, h => by
    simp only [layerInit, Option.map_eq_some_iff] at h
    obtain ⟨g, h1, h2⟩ := h
    have e := layerInit_keeps tp l (inc.mul k) (n / k) _ g hl hp.2 h1
    subst h2
    show g.outg.div k = inc
    rw [e]; exact mul_div inc k hp.1
theorem initStack_keeps (tp : Bool) : ∀ (r : Stack) (inc : BS) (n j : Nat) (acc d : Lid), r.AllLeaves Leaf.KeepsRows →
    r.AllPacks (fun _ _ => True) (fun _ k => 0 < k) j → acc.outg = inc → initStack tp r inc n acc = some d → d.outg = inc
  | .nil, inc, n, j, acc, d, _, _, ha, h => by
    simp only [initStack, Option.some.injEq] at h
    subst h; exact ha
  | .cons l r, inc, n, j, acc, d, hl, hp, ha, h => by
    simp only [initStack, Option.bind_eq_some_iff] at h
    obtain ⟨dl, h1, h2⟩ := h
    have e := layerInit_keeps tp l inc n j dl hl.1 hp.1 h1
    refine (initStack_keeps tp r dl.outg _ _ _ d hl.2 hp.2 ?_ h2).trans e
    rfl
theorem initFields_keeps (tp : Bool) : ∀ (fs : Fields) (inc : BS) (com : Option BS) (acc d : Lid), fs.AllLeaves Leaf.KeepsRows →
    fs.AllPacks (fun _ _ => True) (fun _ k => 0 < k) → (∀ c, com = some c → c = inc) → initFields tp fs inc com acc = some d → d.outg = inc
  | .nil, inc, com, acc, d, _, _, hc, h => by
    simp only [initFields, Option.map_eq_some_iff] at h
    obtain ⟨c, h1, h2⟩ := h
    subst h2; exact hc c h1
  | .cons _ cnt l r, inc, com, acc, d, hl, hp, hc, h => by
    simp only [initFields, Option.bind_eq_some_iff] at h
    obtain ⟨dl, h1, h2⟩ := h
    have e := layerInit_keeps tp l inc cnt _ dl hl.1 hp.1 h1
    cases com with
    | none =>
      simp only at h2
      exact initFields_keeps tp r inc _ _ d hl.2 hp.2 (by intro c hc'; cases hc'; exact e) h2
    | some c =>
      simp only at h2
      by_cases hcc : c = dl.outg
      · rw [if_pos hcc] at h2
        exact initFields_keeps tp r inc _ _ d hl.2 hp.2 hc h2
      · rw [if_neg hcc] at h2; cases h2
end

mutual
theorem initMem_rows (tp : Bool) (b : BS) : ∀ (l : Layer) (m n j ptr cnt : Nat) (gs : List Grant), l.AllLeaves Leaf.KeepsRows →
    l.AllPacks (fun _ _ => True) (fun _ k => 0 < k) j → initMem tp l (b.mul m) n ptr cnt = some gs →
    gs.map (fun g => (g.id, g.announced.outg)) = (l.rowsListing m).map fun x => (x.1, (⟨b.maxBS * x.2, b.maxTrainBS * x.2⟩ : BS))
  | .leaf id l, m, n, j, ptr, cnt, gs, hl, hp, h => by
    simp only [initMem, Option.map_eq_some_iff] at h
    obtain ⟨d, h1, h2⟩ := h
    have e := layerInit_keeps tp (.leaf id l) _ _ j d hl hp h1
    subst h2
    simp [Layer.rowsListing, e, BS.mul]
  | .vert id f r, m, n, j, ptr, cnt, gs, hl, hp, h => by
    simp only [initMem, Option.bind_eq_some_iff, Option.map_eq_some_iff] at h
    obtain ⟨d, h1, df, h2, g, h3, g', h4, h5⟩ := h
    have e := layerInit_keeps tp (.vert id f r) _ _ j d hl hp h1
    have e2 := layerInit_keeps tp f _ _ j df hl.1 hp.1 h2
    rw [e2] at h4
    have i1 := initMem_rows tp b f m n j ptr cnt g hl.1 hp.1 h3
    have i2 := initMemStack_rows tp b r m _ _ ptr cnt g' hl.2 hp.2 h4
    subst h5
    simp only [List.map_cons, List.map_append, i1, i2, e, Layer.rowsListing, BS.mul]
  | .horiz id add fs, m, n, j, ptr, cnt, gs, hl, hp, h => by
    simp only [initMem, Option.bind_eq_some_iff, Option.map_eq_some_iff] at h
    obtain ⟨d, h1, g, h2, g', h4, h5⟩ := h
    have e := layerInit_keeps tp (.horiz id add fs) _ _ j d hl hp h1
    have i2 := initMemFields_rows tp b fs m _ _ g' hl hp.2 h4
    subst h5
    simp only [List.map_cons, i2, e, Layer.rowsListing, BS.mul]
  | .tile id k l, m, n, j, ptr, cnt, gs, hl, hp, h => by
    simp only [initMem, Option.bind_eq_some_iff, Option.map_eq_some_iff] at h
    obtain ⟨d, h1, g', h4, h5⟩ := h
    have e := layerInit_keeps tp (.tile id k l) _ _ j d hl hp h1
    rw [mul_mul] at h4
    have i2 := initMem_rows tp b l (m * k) _ _ _ _ g' hl hp.2 h4
    subst h5
    simp only [List.map_cons, i2, e, Layer.rowsListing, BS.mul]
theorem initMemStack_rows (tp : Bool) (b : BS) : ∀ (r : Stack) (m n j ptr cnt : Nat) (gs : List Grant), r.AllLeaves Leaf.KeepsRows →
    r.AllPacks (fun _ _ => True) (fun _ k => 0 < k) j → initMemStack tp r (b.mul m) n ptr cnt = some gs →
    gs.map (fun g => (g.id, g.announced.outg)) = (r.rowsListing m).map fun x => (x.1, (⟨b.maxBS * x.2, b.maxTrainBS * x.2⟩ : BS))
  | .nil, m, n, j, ptr, cnt, gs, _, _, h => by
    simp only [initMemStack, Option.some.injEq] at h
    subst h; rfl
  | .cons l r, m, n, j, ptr, cnt, gs, hl, hp, h => by
    simp only [initMemStack, Option.bind_eq_some_iff, Option.map_eq_some_iff] at h
    obtain ⟨d, h1, g, h3, g', h4, h5⟩ := h
    have e := layerInit_keeps tp l _ _ j d hl.1 hp.1 h1
    rw [e] at h4
    have i1 := initMem_rows tp b l m n j ptr cnt g hl.1 hp.1 h3
    have i2 := initMemStack_rows tp b r m _ _ ptr cnt g' hl.2 hp.2 h4
    subst h5
    simp only [List.map_append, i1, i2, Stack.rowsListing]
theorem initMemFields_rows (tp : Bool) (b : BS) : ∀ (fs : Fields) (m ptr cnt : Nat) (gs : List Grant), fs.AllLeaves Leaf.KeepsRows →
    fs.AllPacks (fun _ _ => True) (fun _ k => 0 < k) → initMemFields tp fs (b.mul m) ptr cnt = some gs →
    gs.map (fun g => (g.id, g.announced.outg)) = (fs.rowsListing m).map fun x => (x.1, (⟨b.maxBS * x.2, b.maxTrainBS * x.2⟩ : BS))
  | .nil, m, ptr, cnt, gs, _, _, h => by
    simp only [initMemFields, Option.some.injEq] at h
    subst h; rfl
  | .cons _ c l r, m, ptr, cnt, gs, hl, hp, h => by
    simp only [initMemFields, Option.bind_eq_some_iff, Option.map_eq_some_iff] at h
    obtain ⟨g, h3, g', h4, h5⟩ := h
    have i1 := initMem_rows tp b l m c _ ptr cnt g hl.1 hp.1 h3
    have i2 := initMemFields_rows tp b r m ptr cnt g' hl.2 hp.2 h4
    subst h5
    simp only [List.map_append, i1, i2, Fields.rowsListing]
end

/-- C33: in a network of layers that keep the number of rows, every layer, at any depth, is initialised for the batch sizes of the network
times the number of rows it sees for one row of the data: the factors of the tile packs it is in, multiplied. -/
theorem layers_initialised_for_their_rows (tp : Bool) (st : Stack) (b : BS) (q : Lmr) (mats : List (Nat × Nat)) (gs : List Grant)
    (hl : st.AllLeaves Leaf.KeepsRows) (hp : st.AllPacks (fun _ _ => True) (fun _ k => 0 < k) 0) (hm : 0 < q.maxMemTraining)
    (h : processTmp tp st b 0 q = some (mats, gs)) :
    gs.map (fun g => (g.id, g.announced.outg)) = (st.rowsListing 1).map fun x => (x.1, (⟨b.maxBS * x.2, b.maxTrainBS * x.2⟩ : BS)) := by
  simp only [processTmp, if_pos hm, Option.map_eq_some_iff] at h
  obtain ⟨g, h1, h2⟩ := h
  cases h2
  have e : b = b.mul 1 := by simp [BS.mul]
  rw [e] at h1
  exact initMemStack_rows tp b st 1 0 0 _ _ gs hl hp h1

/-- A layer of `n` neurons that needs a row of memory per sample. -/
private def row (n : Nat) : Leaf := ⟨n, fun b _ => b.maxBS, fun b _ => b.maxTrainBS, fun b i => b.maxTrainBS * i, id⟩

/-- An input of 6 neurons, above it 3 tiles of a horizontal pack that has 2 tiles inside. -/
private def tiled : Stack :=
  .cons (.leaf 0 (row 6)) (.cons (.tile 1 3 (.horiz 2 0 (.cons 0 2 (.tile 3 2 (.leaf 4 (row 1))) (.cons 1 1 (.leaf 5 (row 1)) .nil))))
    (.cons (.leaf 6 (row 1)) .nil))

example : tiled.AllLeaves Leaf.KeepsRows ∧ tiled.AllPacks (fun _ _ => True) (fun _ k => 0 < k) 0 := by
  refine ⟨⟨fun _ => rfl, ⟨fun _ => rfl, fun _ => rfl, trivial⟩, fun _ => rfl, trivial⟩, ?_⟩
  simp [tiled, Stack.AllPacks, Layer.AllPacks, Fields.AllPacks]

example : ((initLayers true tiled ⟨10, 5⟩ 0 ⟨0, 0, 0⟩).bind fun q => processTmp true tiled ⟨10, 5⟩ 0 q).map
    (fun x => x.2.map fun g => (g.id, g.announced.outg)) =
    some [(0, ⟨10, 5⟩), (1, ⟨10, 5⟩), (2, ⟨30, 15⟩), (3, ⟨30, 15⟩), (4, ⟨60, 30⟩), (5, ⟨30, 15⟩), (6, ⟨10, 5⟩)] := by decide +kernel

end Nntl.Layers
