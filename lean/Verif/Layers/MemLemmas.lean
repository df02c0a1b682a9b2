import Verif.Layers.Spec
/-! Lemmas about the announcement and the distribution of temporary memory. -/
namespace Nntl.Layers

/-- Everything gathered is at least what was gathered before. -/
def Le (a b : Lid) : Prop := a.memF ≤ b.memF ∧ a.memB ≤ b.memB ∧ a.dLdA ≤ b.dLdA

theorem Le.refl (a : Lid) : Le a a := ⟨Nat.le_refl _, Nat.le_refl _, Nat.le_refl _⟩
theorem Le.trans {a b c : Lid} (h : Le a b) (h' : Le b c) : Le a c :=
  ⟨Nat.le_trans h.1 h'.1, Nat.le_trans h.2.1 h'.2.1, Nat.le_trans h.2.2 h'.2.2⟩

theorem Le.need {a b : Lid} (h : Le a b) (tp : Bool) : a.need tp ≤ b.need tp := by
  unfold Lid.need; split
  · exact h.2.1
  · exact h.1

theorem initStack_le (tp : Bool) (r : Stack) (inc : BS) (n : Nat) (acc d : Lid) (h : initStack tp r inc n acc = some d) : Le acc d := by
  match r with
  | .nil =>
    simp only [initStack, Option.some.injEq] at h; subst h; exact Le.refl _
  | .cons l r =>
    simp only [initStack, Option.bind_eq_some_iff] at h
    obtain ⟨e, _, h⟩ := h
    refine Le.trans ?_ (initStack_le tp r _ _ _ _ h)
    exact ⟨Nat.le_max_left _ _, Nat.le_max_left _ _, Nat.le_max_left _ _⟩

theorem initFields_le (tp : Bool) (fs : Fields) (inc : BS) (com : Option BS) (acc d : Lid)
    (h : initFields tp fs inc com acc = some d) : Le acc d := by
  match fs with
  | .nil =>
    simp only [initFields, Option.map_eq_some_iff] at h
    obtain ⟨c, _, rfl⟩ := h
    exact Le.refl _
  | .cons ofs cnt l r =>
    simp only [initFields, Option.bind_eq_some_iff] at h
    obtain ⟨e, _, h⟩ := h
    have hle : Le acc (acc.agg e) := ⟨Nat.le_max_left _ _, Nat.le_max_left _ _, Nat.le_max_left _ _⟩
    split at h
    · split at h
      · exact hle.trans (initFields_le tp r _ _ _ _ h)
      · cases h
    · exact hle.trans (initFields_le tp r _ _ _ _ h)

/-- One step of `initFields`, whatever the common batch size is. -/
theorem initFields_cons {tp : Bool} {ofs cnt : Nat} {l : Layer} {r : Fields} {inc : BS} {com : Option BS} {acc g : Lid}
    (h : initFields tp (.cons ofs cnt l r) inc com acc = some g) :
    ∃ d com', layerInit tp l inc cnt = some d ∧ initFields tp r inc com' (acc.agg d) = some g := by
  simp only [initFields, Option.bind_eq_some_iff] at h
  obtain ⟨d, hd, h⟩ := h
  split at h
  · split at h
    · exact ⟨d, _, hd, h⟩
    · cases h
  · exact ⟨d, _, hd, h⟩

theorem agg_le_right (a b : Lid) : Le b (a.agg b) := ⟨Nat.le_max_right _ _, Nat.le_max_right _ _, Nat.le_max_right _ _⟩

theorem horiz_lid {tp : Bool} {id add : Nat} {fs : Fields} {inc : BS} {n : Nat} {d : Lid}
    (h : layerInit tp (.horiz id add fs) inc n = some d) : ∃ g, initFields tp fs inc none Lid.zero = some g ∧
      d = if tp then ⟨g.memF + inc.biggest, g.memB + (2 * innerBuf fs inc g + inc.biggest),
        g.outg.maxTrainBS * (fs.neurons + add), g.outg⟩
      else ⟨g.memF + inc.biggest, g.memB, g.dLdA, g.outg⟩ := by
  simp only [layerInit, Option.map_eq_some_iff] at h
  obtain ⟨g, hg, rfl⟩ := h
  exact ⟨g, hg, rfl⟩

theorem vert_lid {tp : Bool} {id : Nat} {f : Layer} {r : Stack} {inc : BS} {n : Nat} {d : Lid}
    (h : layerInit tp (.vert id f r) inc n = some d) : ∃ df, layerInit tp f inc n = some df ∧ Le df d ∧
      initStack tp r df.outg f.neurons ⟨max 0 df.memF, max 0 df.memB, max 0 df.dLdA, df.outg⟩ = some d := by
  simp only [layerInit, Option.bind_eq_some_iff] at h
  obtain ⟨df, hdf, h⟩ := h
  refine ⟨df, hdf, Le.trans ?_ (initStack_le _ _ _ _ _ _ h), h⟩
  exact ⟨Nat.le_max_right _ _, Nat.le_max_right _ _, Nat.le_max_right _ _⟩

theorem tile_lid {tp : Bool} {id k : Nat} {l : Layer} {inc : BS} {n : Nat} {d : Lid}
    (h : layerInit tp (.tile id k l) inc n = some d) : ∃ di, layerInit tp l (inc.mul k) (n / k) = some di ∧ Le di d ∧
      (tp = true → (inc.mul k).maxTrainBS * (n / k) ≤ d.dLdA ∧ d.outg.maxTrainBS * (k * l.neurons) ≤ d.dLdA) ∧
      d.memF = max 0 di.memF ∧ d.memB = max 0 di.memB := by
  simp only [layerInit, Option.map_eq_some_iff] at h
  obtain ⟨di, hdi, rfl⟩ := h
  refine ⟨di, hdi, agg_le_right _ _, fun htp => ?_, rfl, rfl⟩
  subst htp
  simp only [Lid.agg, if_true]
  exact ⟨Nat.le_trans (Nat.le_max_right _ _) (Nat.le_max_left _ _), Nat.le_trans (Nat.le_max_left _ _) (Nat.le_max_left _ _)⟩

mutual
/-- If no elementary layer needs more to run forward than for training, no layer does. -/
theorem layerInit_modest (l : Layer) (inc : BS) (n : Nat) (d : Lid) (h : layerInit true l inc n = some d)
    (hl : l.AllLeaves fun l => ¬ l.FpropHungry) : d.memF ≤ d.memB := by
  match l with
  | .leaf id l =>
    simp only [layerInit, Option.some.injEq] at h
    subst h
    simp only [Layer.AllLeaves, Leaf.FpropHungry, not_exists, Nat.not_lt] at hl
    exact hl inc n
  | .vert id f r =>
    obtain ⟨df, hdf, _, hr⟩ := vert_lid h
    simp only [Layer.AllLeaves] at hl
    have := layerInit_modest f inc n df hdf hl.1
    exact initStack_modest r _ _ _ d hr hl.2 (by simp only; omega)
  | .horiz id add fs =>
    obtain ⟨g, hg, rfl⟩ := horiz_lid h
    simp only [Layer.AllLeaves] at hl
    have := initFields_modest fs inc none Lid.zero g hg hl (Nat.le_refl _)
    simp only [if_true]; omega
  | .tile id k l =>
    obtain ⟨di, hdi, _, _, e1, e2⟩ := tile_lid h
    simp only [Layer.AllLeaves] at hl
    have := layerInit_modest l _ _ di hdi hl
    omega
theorem initStack_modest (r : Stack) (inc : BS) (n : Nat) (acc d : Lid) (h : initStack true r inc n acc = some d)
    (hl : r.AllLeaves fun l => ¬ l.FpropHungry) (ha : acc.memF ≤ acc.memB) : d.memF ≤ d.memB := by
  match r with
  | .nil => simp only [initStack, Option.some.injEq] at h; subst h; exact ha
  | .cons l r =>
    simp only [initStack, Option.bind_eq_some_iff] at h
    obtain ⟨dl, hdl, h⟩ := h
    simp only [Stack.AllLeaves] at hl
    have := layerInit_modest l inc n dl hdl hl.1
    exact initStack_modest r _ _ _ d h hl.2 (by simp only; omega)
theorem initFields_modest (fs : Fields) (inc : BS) (com : Option BS) (acc d : Lid) (h : initFields true fs inc com acc = some d)
    (hl : fs.AllLeaves fun l => ¬ l.FpropHungry) (ha : acc.memF ≤ acc.memB) : d.memF ≤ d.memB := by
  match fs with
  | .nil =>
    simp only [initFields, Option.map_eq_some_iff] at h
    obtain ⟨c, _, rfl⟩ := h
    exact ha
  | .cons ofs c l r =>
    obtain ⟨dl, com', hdl, h⟩ := initFields_cons h
    simp only [Fields.AllLeaves] at hl
    have := layerInit_modest l inc c dl hdl hl.1
    exact initFields_modest r _ _ _ d h hl.2 (by simp only [Lid.agg]; omega)
end

/-- What is required of a list of grants. -/
def Enough (M : Prop) (tp : Bool) (ptr cnt : Nat) (gs : List Grant) : Prop :=
  ∀ g ∈ gs, (g.announced.need tp ≤ g.cnt ∧ (M → tp = true → g.announced.memF ≤ g.announced.memB)) ∧
    ptr ≤ g.ptr ∧ g.ptr + g.cnt ≤ ptr + cnt ∧
    (∀ s ∈ g.own, Inside s g.ptr (g.ptr + g.cnt)) ∧ g.own.Pairwise Apart

theorem enough_append {M : Prop} {tp : Bool} {ptr cnt : Nat} {a b : List Grant} (ha : Enough M tp ptr cnt a) (hb : Enough M tp ptr cnt b) :
    Enough M tp ptr cnt (a ++ b) := by
  intro g hg
  rcases List.mem_append.1 hg with h | h
  · exact ha g h
  · exact hb g h

theorem enough_cons {M : Prop} {tp : Bool} {ptr cnt : Nat} {id : Nat} {d : Lid} {own} {b : List Grant} (hd : d.need tp ≤ cnt)
    (hm : M → tp = true → d.memF ≤ d.memB) (ho : ∀ s ∈ own, Inside s ptr (ptr + cnt)) (hp : own.Pairwise Apart) (hb : Enough M tp ptr cnt b) :
    Enough M tp ptr cnt (⟨id, d, ptr, cnt, own⟩ :: b) := by
  intro g hg
  rcases List.mem_cons.1 hg with h | h
  · subst h; exact ⟨⟨hd, hm⟩, Nat.le_refl _, Nat.le_refl _, ho, hp⟩
  · exact hb g h

mutual
theorem initMem_enough (M : Prop) (tp : Bool) (l : Layer) (hm : M → l.AllLeaves fun l => ¬ l.FpropHungry)
    (inc : BS) (n ptr cnt : Nat) (d : Lid) (hd : layerInit tp l inc n = some d)
    (hc : d.need tp ≤ cnt) : ∃ gs, initMem tp l inc n ptr cnt = some gs ∧ Enough M tp ptr cnt gs ∧
      gs.map Grant.id = (l.listing n).map Prod.fst := by
  have hmod : M → tp = true → d.memF ≤ d.memB := fun h e => by
    subst e; exact layerInit_modest l inc n d hd (hm h)
  match l with
  | .leaf id l =>
    refine ⟨[⟨id, d, ptr, cnt, [(ptr, cnt)]⟩], by simp only [initMem, hd, Option.map_some], ?_, rfl⟩
    refine enough_cons hc hmod ?_ (List.pairwise_singleton _ _) (by intro g hg; cases hg)
    intro s hs; rw [List.mem_singleton.1 hs]; exact ⟨Nat.le_refl _, Nat.le_refl _⟩
  | .vert id f r =>
    obtain ⟨df, hdf, hle, hr⟩ := vert_lid hd
    obtain ⟨g, hg, hge, hgi⟩ := initMem_enough M tp f (fun h => (hm h).1) inc n ptr cnt df hdf (Nat.le_trans (hle.need tp) hc)
    obtain ⟨g', hg', hge', hgi'⟩ := initMemStack_enough M tp r (fun h => (hm h).2) df.outg f.neurons ptr cnt _ d hr hc
    refine ⟨⟨id, d, ptr, cnt, []⟩ :: (g ++ g'), ?_, ?_, ?_⟩
    · simp only [initMem, hd, hdf, hg, hg', Option.bind_some, Option.map_some]
    · exact enough_cons hc hmod (by intro s hs; cases hs) List.Pairwise.nil (enough_append hge hge')
    · simp [hgi, hgi', Layer.listing]
  | .horiz id add fs =>
    obtain ⟨g, hg, hdd⟩ := horiz_lid hd
    have key : ∀ used, used ≤ cnt → (initFields tp fs inc none Lid.zero = some g → g.need tp ≤ cnt - used) →
        ∃ gs, initMemFields tp fs inc (ptr + used) (cnt - used) = some gs ∧ Enough M tp ptr cnt gs ∧
          gs.map Grant.id = fs.listing.map Prod.fst := by
      intro used hu hn
      obtain ⟨gs, h1, h2, h3⟩ := initMemFields_enough M tp fs (fun h => hm h) inc (ptr + used) (cnt - used) none Lid.zero g hg (hn hg)
      refine ⟨gs, h1, fun x hx => ?_, h3⟩
      obtain ⟨a, b, c, e⟩ := h2 x hx
      exact ⟨a, by omega, by omega, e⟩
    cases tp with
    | true =>
      simp only [if_true] at hdd
      subst hdd
      simp only [Lid.need, if_true] at hc
      obtain ⟨gs, h1, h2, h3⟩ := key (inc.biggest + 2 * innerBuf fs inc g) (by omega) (fun _ => by
        simp only [Lid.need, if_true]; omega)
      refine ⟨⟨id, _, ptr, cnt, [(ptr, inc.biggest), (ptr + inc.biggest, innerBuf fs inc g),
        (ptr + inc.biggest + innerBuf fs inc g, innerBuf fs inc g)]⟩ :: gs, ?_,
        enough_cons (id := id) (by simp only [Lid.need, if_true]; exact hc) hmod ?_ ?_ h2, ?_⟩
      rotate_left
      · simp only [List.mem_cons, List.not_mem_nil, or_false, Inside]
        rintro s (rfl | rfl | rfl) <;> simp <;> omega
      · simp only [List.pairwise_cons, List.mem_cons, List.not_mem_nil, or_false, Apart]
        refine ⟨?_, ?_, ?_⟩
        · rintro a (rfl | rfl) k <;> dsimp only <;> omega
        · rintro a rfl k; dsimp only; omega
        · simp
      · simp [h3, Layer.listing]
      · simp only [initMem, hd, hg, Option.bind_some, if_true, h1, Option.map_some]
    | false =>
      simp only [Bool.false_eq_true, if_false] at hdd
      subst hdd
      simp only [Lid.need, Bool.false_eq_true, if_false] at hc
      obtain ⟨gs, h1, h2, h3⟩ := key inc.biggest (by omega) (fun _ => by
        simp only [Lid.need, Bool.false_eq_true, if_false]; omega)
      refine ⟨⟨id, _, ptr, cnt, [(ptr, inc.biggest)]⟩ :: gs, ?_,
        enough_cons (id := id) (by simp only [Lid.need, Bool.false_eq_true, if_false]; exact hc) hmod ?_ ?_ h2, ?_⟩
      rotate_left
      · simp only [List.mem_cons, List.not_mem_nil, or_false, Inside]
        rintro s rfl; simp; omega
      · simp
      · simp [h3, Layer.listing]
      · simp only [initMem, hd, hg, Option.bind_some, Bool.false_eq_true, if_false, h1, Option.map_some]
  | .tile id k l =>
    obtain ⟨di, hdi, hle, _⟩ := tile_lid hd
    obtain ⟨g, hg, hge, hgi⟩ := initMem_enough M tp l (fun h => hm h) _ _ ptr cnt di hdi (Nat.le_trans (hle.need tp) hc)
    refine ⟨⟨id, d, ptr, cnt, []⟩ :: g, ?_, enough_cons hc hmod (by intro s hs; cases hs) List.Pairwise.nil hge, ?_⟩
    · simp only [initMem, hd, hg, Option.bind_some, Option.map_some]
    · simp [hgi, Layer.listing]
theorem initMemStack_enough (M : Prop) (tp : Bool) (r : Stack) (hm : M → r.AllLeaves fun l => ¬ l.FpropHungry) (inc : BS) (n ptr cnt : Nat) (acc d : Lid)
    (hd : initStack tp r inc n acc = some d) (hc : d.need tp ≤ cnt) :
    ∃ gs, initMemStack tp r inc n ptr cnt = some gs ∧ Enough M tp ptr cnt gs ∧
      gs.map Grant.id = (r.listing n).map Prod.fst := by
  match r with
  | .nil => exact ⟨[], rfl, (by intro g hg; cases hg), rfl⟩
  | .cons l r =>
    simp only [initStack, Option.bind_eq_some_iff] at hd
    obtain ⟨dl, hdl, hd⟩ := hd
    have hle : Le dl d := Le.trans ⟨Nat.le_max_right _ _, Nat.le_max_right _ _, Nat.le_max_right _ _⟩ (initStack_le _ _ _ _ _ _ hd)
    obtain ⟨g, hg, hge, hgi⟩ := initMem_enough M tp l (fun h => (hm h).1) inc n ptr cnt dl hdl (Nat.le_trans (hle.need tp) hc)
    obtain ⟨g', hg', hge', hgi'⟩ := initMemStack_enough M tp r (fun h => (hm h).2) _ _ ptr cnt _ d hd hc
    exact ⟨g ++ g', by simp only [initMemStack, hdl, hg, hg', Option.bind_some, Option.map_some], enough_append hge hge',
      by simp [hgi, hgi', Stack.listing]⟩
theorem initMemFields_enough (M : Prop) (tp : Bool) (fs : Fields) (hm : M → fs.AllLeaves fun l => ¬ l.FpropHungry)
    (inc : BS) (ptr cnt : Nat) (com : Option BS) (acc d : Lid)
    (hd : initFields tp fs inc com acc = some d) (hc : d.need tp ≤ cnt) :
    ∃ gs, initMemFields tp fs inc ptr cnt = some gs ∧ Enough M tp ptr cnt gs ∧
      gs.map Grant.id = fs.listing.map Prod.fst := by
  match fs with
  | .nil => exact ⟨[], rfl, (by intro g hg; cases hg), rfl⟩
  | .cons ofs c l r =>
    obtain ⟨dl, com', hdl, hd⟩ := initFields_cons hd
    have hle : Le dl d := Le.trans (agg_le_right _ _) (initFields_le _ _ _ _ _ _ hd)
    obtain ⟨g, hg, hge, hgi⟩ := initMem_enough M tp l (fun h => (hm h).1) inc c ptr cnt dl hdl (Nat.le_trans (hle.need tp) hc)
    obtain ⟨g', hg', hge', hgi'⟩ := initMemFields_enough M tp r (fun h => (hm h).2) _ ptr cnt _ _ d hd hc
    exact ⟨g ++ g', by simp only [initMemFields, hg, hg', Option.bind_some, Option.map_some], enough_append hge hge',
      by simp [hgi, hgi', Fields.listing]⟩
end

/-! ### Gradient matrices -/

def Roomy (us : List BufUse) : Prop := ∀ u ∈ us, u.announced ≤ u.cap ∧ u.lower ≤ u.cap

theorem roomy_append {a b : List BufUse} (ha : Roomy a) (hb : Roomy b) : Roomy (a ++ b) := by
  intro g hg
  rcases List.mem_append.1 hg with h | h
  · exact ha g h
  · exact hb g h

theorem roomy_cons {u : BufUse} {b : List BufUse} (h : u.announced ≤ u.cap ∧ u.lower ≤ u.cap) (hb : Roomy b) : Roomy (u :: b) := by
  intro g hg
  rcases List.mem_cons.1 hg with e | e
  · subst e; exact h
  · exact hb g e

mutual
/-- Every layer announces at least the size of the gradient with respect to its activations if its elementary layers do. -/
theorem layerInit_announces (l : Layer) (inc : BS) (n : Nat) (d : Lid) (h : layerInit true l inc n = some d)
    (hl : l.AllLeaves Leaf.AnnouncesGradient) : d.outg.maxTrainBS * l.neurons ≤ d.dLdA := by
  match l with
  | .leaf id l =>
    simp only [layerInit, Option.some.injEq] at h
    subst h
    exact hl inc n
  | .vert id f r =>
    obtain ⟨df, hdf, _, hr⟩ := vert_lid h
    have := layerInit_announces f inc n df hdf hl.1
    exact initStack_announces r _ _ _ f.neurons d hr hl.2 (by simp only; omega)
  | .horiz id add fs =>
    obtain ⟨g, hg, rfl⟩ := horiz_lid h
    simp only [if_true, Layer.neurons]; exact Nat.le_refl _
  | .tile id k l =>
    obtain ⟨di, hdi, _, h2, _⟩ := tile_lid h
    exact (h2 rfl).2
theorem initStack_announces (r : Stack) (inc : BS) (n : Nat) (acc : Lid) (top : Nat) (d : Lid)
    (h : initStack true r inc n acc = some d) (hl : r.AllLeaves Leaf.AnnouncesGradient)
    (ha : acc.outg.maxTrainBS * top ≤ acc.dLdA) : d.outg.maxTrainBS * r.top top ≤ d.dLdA := by
  match r with
  | .nil => simp only [initStack, Option.some.injEq] at h; subst h; exact ha
  | .cons l r =>
    simp only [initStack, Option.bind_eq_some_iff] at h
    obtain ⟨dl, hdl, h⟩ := h
    have := layerInit_announces l inc n dl hdl hl.1
    exact initStack_announces r _ _ _ l.neurons d h hl.2 (by simp only; omega)
end

theorem maxInc_le (fs : Fields) : ∀ c ∈ fs.coords, c.2 ≤ fs.maxInc := by
  match fs with
  | .nil => intro c hc; cases hc
  | .cons ofs cnt l r =>
    intro c hc
    simp only [Fields.coords, List.mem_cons] at hc
    simp only [Fields.maxInc]
    rcases hc with rfl | hc
    · exact Nat.le_max_left _ _
    · exact Nat.le_trans (maxInc_le r c hc) (Nat.le_max_right _ _)

mutual
theorem gradBufs_roomy (l : Layer) (inc : BS) (n cap : Nat) (d : Lid) (hd : layerInit true l inc n = some d)
    (hl : l.AllLeaves Leaf.AnnouncesGradient ∨ ∃ id x, l = .leaf id x) (h1 : d.dLdA ≤ cap) (h2 : inc.maxTrainBS * n ≤ cap) :
    ∃ us, gradBufs true l inc n cap = some us ∧ Roomy us ∧ us.map BufUse.id = (l.listing n).map Prod.fst := by
  match l with
  | .leaf id x =>
    exact ⟨_, by simp only [gradBufs, hd, Option.map_some]; rfl, roomy_cons ⟨h1, h2⟩ (by intro u hu; cases hu), rfl⟩
  | .vert id f r =>
    replace hl : (Layer.vert id f r).AllLeaves Leaf.AnnouncesGradient := hl.elim _root_.id (by rintro ⟨_, _, h⟩; cases h)
    obtain ⟨df, hdf, hle, hr⟩ := vert_lid hd
    obtain ⟨u, hu, hru, hi⟩ := gradBufs_roomy f inc n cap df hdf (.inl hl.1) (Nat.le_trans hle.2.2 h1) h2
    obtain ⟨u', hu', hru', hi'⟩ := gradBufsStack_roomy r df.outg f.neurons cap _ d hr hl.2 h1
      (Nat.le_trans (Nat.le_trans (layerInit_announces f inc n df hdf hl.1) hle.2.2) h1)
    refine ⟨_, by simp only [gradBufs, hd, hdf, hu, hu', Option.bind_some, Option.map_some]; rfl,
      roomy_cons ⟨h1, h2⟩ (roomy_append hru hru'), by simp [hi, hi', Layer.listing]⟩
  | .horiz id add fs =>
    replace hl : (Layer.horiz id add fs).AllLeaves Leaf.AnnouncesGradient := hl.elim _root_.id (by rintro ⟨_, _, h⟩; cases h)
    obtain ⟨g, hg, hdd⟩ := horiz_lid hd
    obtain ⟨u, hu, hru, hi⟩ := gradBufsFields_roomy fs inc (innerBuf fs inc g) none Lid.zero g hg hl (Nat.le_max_left _ _)
      (fun c hc => Nat.le_trans (Nat.mul_le_mul_left _ (maxInc_le fs c hc)) (Nat.le_max_right _ _))
    exact ⟨_, by simp only [gradBufs, hd, hg, hu, Option.bind_some, Option.map_some]; rfl, roomy_cons ⟨h1, h2⟩ hru,
      by simp [hi, Layer.listing]⟩
  | .tile id k l =>
    replace hl : (Layer.tile id k l).AllLeaves Leaf.AnnouncesGradient := hl.elim _root_.id (by rintro ⟨_, _, h⟩; cases h)
    obtain ⟨di, hdi, hle, h3, _⟩ := tile_lid hd
    obtain ⟨u, hu, hru, hi⟩ := gradBufs_roomy l _ _ cap di hdi (.inl hl) (Nat.le_trans hle.2.2 h1) (Nat.le_trans (h3 rfl).1 h1)
    exact ⟨_, by simp only [gradBufs, hd, hu, Option.bind_some, Option.map_some]; rfl, roomy_cons ⟨h1, h2⟩ hru,
      by simp [hi, Layer.listing]⟩
theorem gradBufsStack_roomy (r : Stack) (inc : BS) (n cap : Nat) (acc d : Lid)
    (hd : initStack true r inc n acc = some d) (hl : r.AllLeaves Leaf.AnnouncesGradient)
    (h1 : d.dLdA ≤ cap) (h2 : inc.maxTrainBS * n ≤ cap) :
    ∃ us, gradBufsStack true r inc n cap = some us ∧ Roomy us ∧ us.map BufUse.id = (r.listing n).map Prod.fst := by
  match r with
  | .nil => exact ⟨[], rfl, (by intro g hg; cases hg), rfl⟩
  | .cons l r =>
    simp only [initStack, Option.bind_eq_some_iff] at hd
    obtain ⟨dl, hdl, hd⟩ := hd
    have hle : Le dl d := Le.trans ⟨Nat.le_max_right _ _, Nat.le_max_right _ _, Nat.le_max_right _ _⟩ (initStack_le _ _ _ _ _ _ hd)
    obtain ⟨u, hu, hru, hi⟩ := gradBufs_roomy l inc n cap dl hdl (.inl hl.1) (Nat.le_trans hle.2.2 h1) h2
    obtain ⟨u', hu', hru', hi'⟩ := gradBufsStack_roomy r _ _ cap _ d hd hl.2 h1
      (Nat.le_trans (Nat.le_trans (layerInit_announces l inc n dl hdl hl.1) hle.2.2) h1)
    exact ⟨u ++ u', by simp only [gradBufsStack, hdl, hu, hu', Option.bind_some, Option.map_some], roomy_append hru hru',
      by simp [hi, hi', Stack.listing]⟩
theorem gradBufsFields_roomy (fs : Fields) (inc : BS) (cap : Nat) (com : Option BS) (acc d : Lid)
    (hd : initFields true fs inc com acc = some d) (hl : fs.AllLeaves Leaf.AnnouncesGradient)
    (h1 : d.dLdA ≤ cap) (h2 : ∀ c ∈ fs.coords, inc.maxTrainBS * c.2 ≤ cap) :
    ∃ us, gradBufsFields true fs inc cap = some us ∧ Roomy us ∧ us.map BufUse.id = fs.listing.map Prod.fst := by
  match fs with
  | .nil => exact ⟨[], rfl, (by intro g hg; cases hg), rfl⟩
  | .cons ofs c l r =>
    obtain ⟨dl, com', hdl, hd⟩ := initFields_cons hd
    have hle : Le dl d := Le.trans (agg_le_right _ _) (initFields_le _ _ _ _ _ _ hd)
    obtain ⟨u, hu, hru, hi⟩ := gradBufs_roomy l inc c cap dl hdl (.inl hl.1) (Nat.le_trans hle.2.2 h1)
      (h2 (ofs, c) (List.mem_cons_self ..))
    obtain ⟨u', hu', hru', hi'⟩ := gradBufsFields_roomy r inc cap _ _ d hd hl.2 h1 (fun x hx => h2 x (List.mem_cons_of_mem _ hx))
    exact ⟨u ++ u', by simp only [gradBufsFields, hu, hu', Option.bind_some, Option.map_some], roomy_append hru hru',
      by simp [hi, hi', Fields.listing]⟩
end

/-! ### The whole stack -/

def Lmr.Le (a b : Lmr) : Prop := a.maxMemTraining ≤ b.maxMemTraining ∧ a.maxMemFProp ≤ b.maxMemFProp ∧ a.maxSingledLdA ≤ b.maxSingledLdA

theorem Lmr.le_update (q : Lmr) (d : Lid) : q.Le (q.update d) := ⟨Nat.le_max_left _ _, Nat.le_max_left _ _, Nat.le_max_left _ _⟩

theorem Lmr.update_need (q : Lmr) (d : Lid) (tp : Bool) :
    d.need tp ≤ (q.update d).maxMemTraining ∧ d.dLdA ≤ (q.update d).maxSingledLdA := by
  refine ⟨Nat.le_trans ?_ (Nat.le_max_right _ _), Nat.le_max_right _ _⟩
  unfold Lid.need; split
  · exact Nat.le_max_right _ _
  · exact Nat.le_max_left _ _

theorem Lmr.Le.trans {a b c : Lmr} (h : a.Le b) (h' : b.Le c) : a.Le c :=
  ⟨Nat.le_trans h.1 h'.1, Nat.le_trans h.2.1 h'.2.1, Nat.le_trans h.2.2 h'.2.2⟩

theorem initLayers_le (tp : Bool) (r : Stack) (inc : BS) (n : Nat) (q q' : Lmr) (h : initLayers tp r inc n q = some q') : q.Le q' := by
  match r with
  | .nil => simp only [initLayers, Option.some.injEq] at h; subst h; exact ⟨Nat.le_refl _, Nat.le_refl _, Nat.le_refl _⟩
  | .cons l r =>
    simp only [initLayers, Option.bind_eq_some_iff] at h
    obtain ⟨d, _, h⟩ := h
    exact (q.le_update d).trans (initLayers_le tp r _ _ _ _ h)

theorem stack_enough (M : Prop) (tp : Bool) (r : Stack) (hm : M → r.AllLeaves fun l => ¬ l.FpropHungry) (inc : BS) (n ptr cnt : Nat)
    (q q' : Lmr) (h : initLayers tp r inc n q = some q') (hc : q'.maxMemTraining ≤ cnt) :
    ∃ gs, initMemStack tp r inc n ptr cnt = some gs ∧ Enough M tp ptr cnt gs ∧ gs.map Grant.id = (r.listing n).map Prod.fst := by
  match r with
  | .nil => exact ⟨[], rfl, (by intro g hg; cases hg), rfl⟩
  | .cons l r =>
    simp only [initLayers, Option.bind_eq_some_iff] at h
    obtain ⟨d, hd, h⟩ := h
    have hle := initLayers_le tp r _ _ _ _ h
    obtain ⟨g, hg, hge, hgi⟩ := initMem_enough M tp l (fun h => (hm h).1) inc n ptr cnt d hd
      (Nat.le_trans (Nat.le_trans (q.update_need d tp).1 hle.1) hc)
    obtain ⟨g', hg', hge', hgi'⟩ := stack_enough M tp r (fun h => (hm h).2) _ _ ptr cnt _ q' h hc
    exact ⟨g ++ g', by simp only [initMemStack, hd, hg, hg', Option.bind_some, Option.map_some], enough_append hge hge',
      by simp [hgi, hgi', Stack.listing]⟩

theorem stack_roomy (l : Layer) (r : Stack) (inc : BS) (n : Nat) (q q' : Lmr) (cap : Nat)
    (h : initLayers true (.cons l r) inc n q = some q') (hc : q'.maxSingledLdA ≤ cap)
    (hl : Stack.LeavesBelowTop Leaf.AnnouncesGradient l r) (h2 : inc.maxTrainBS * n ≤ cap) :
    ∃ us, gradBufsStack true (.cons l r) inc n cap = some us ∧ Roomy us ∧
      us.map BufUse.id = ((Stack.cons l r).listing n).map Prod.fst := by
  rw [initLayers, Option.bind_eq_some_iff] at h
  obtain ⟨d, hd, h⟩ := h
  have hle := initLayers_le true r _ _ _ _ h
  have hcap : d.dLdA ≤ cap := Nat.le_trans (Nat.le_trans (q.update_need d true).2 hle.2.2) hc
  match r with
  | .nil =>
    obtain ⟨u, hu, hru, hi⟩ := gradBufs_roomy l inc n cap d hd (.inr hl) hcap h2
    exact ⟨u ++ [], by simp only [gradBufsStack, hd, hu, Option.bind_some, Option.map_some],
      roomy_append hru (by intro g hg; cases hg), by simp [hi, Stack.listing]⟩
  | .cons l' r =>
    obtain ⟨u, hu, hru, hi⟩ := gradBufs_roomy l inc n cap d hd (.inl hl.1) hcap h2
    obtain ⟨u', hu', hru', hi'⟩ := stack_roomy l' r _ _ _ q' cap h hc hl.2
      (Nat.le_trans (layerInit_announces l inc n d hd hl.1) hcap)
    refine ⟨u ++ u', ?_, roomy_append hru hru', by rw [List.map_append, hi, hi', ← List.map_append]; rfl⟩
    rw [gradBufsStack]
    simp only [hd, hu, hu', Option.bind_some, Option.map_some]

end Nntl.Layers
