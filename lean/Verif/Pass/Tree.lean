import Verif.Pass.Opt
import Verif.Pass.Fc
import Verif.Layers.MemLemmas
/-! Trees of layers, as constructed and initialised (C31–C33, C69), with the passes of this area: every accepted tree is lawful. -/
namespace Nntl.Pass
open Nntl.Layers

/-- A layer and what it is meant to do. -/
structure Sem (α : Type) where
  obj : Obj α
  law : Law obj

/-- Inner layers of a pack with what they are meant to do. -/
structure FSem (α : Type) where
  fs : List (Fld α)
  laws : Laws fs

variable {α : Type} [Zero α] [One α] [Add α]

mutual
/-- The passes of a tree initialised for training with incoming batch sizes `inc` and `n` incoming neurons; `I` gives the elementary layers.
Packs as in `over` (`nntl/layer/pack_vertical.h`), `horiz` (`nntl/layer/pack_horizontal.h`), `tile` (`nntl/layer/pack_tile.h`); sizes of the
buffers are those set by `layer_init` (`nntl/layer/_lph_base.h` 327–335). -/
def sem (I : Nat → Leaf → BS → Nat → Sem α) : Layer → BS → Nat → Sem α
  | .leaf id l, inc, n => I id l inc n
  | .vert _ f r, inc, n => semStack I r inc (sem I f inc n)
  | .horiz _ _ fs, inc, n =>
    ⟨horiz n inc.biggest (innerBuf fs inc ((initFields true fs inc none Lid.zero).getD Lid.zero)) (inc.maxTrainBS * fs.neurons)
      (semFields I fs inc).fs, horizLaw _ _ _ _ (semFields I fs inc).laws⟩
  | .tile id k l, inc, n =>
    ⟨tile k ((layerInit true (.tile id k l) inc n).getD Lid.zero).dLdA (sem I l (inc.mul k) (n / k)).obj,
      tileLaw k _ (sem I l (inc.mul k) (n / k)).law⟩
def semStack (I : Nat → Leaf → BS → Nat → Sem α) : Stack → BS → Sem α → Sem α
  | .nil, _, acc => acc
  | .cons l r, inc, acc => semStack I r inc
    ⟨over acc.obj (sem I l inc acc.obj.neurons).obj, overLaw acc.law (sem I l inc acc.obj.neurons).law⟩
def semFields (I : Nat → Leaf → BS → Nat → Sem α) : Fields → BS → FSem α
  | .nil, _ => ⟨[], .nil⟩
  | .cons ofs cnt l r, inc => ⟨⟨ofs, cnt, (sem I l inc cnt).obj⟩ :: (semFields I r inc).fs,
      .cons (f := ⟨ofs, cnt, (sem I l inc cnt).obj⟩) (sem I l inc cnt).law (semFields I r inc).laws⟩
end

mutual
/-- No pack adds columns of its own: there is no `LPHO<true>` among the packs of the tree (an optional pack may still be one of the elementary
layers, see `optional_lawful`). -/
def NoExtra : Layer → Prop
  | .leaf _ _ => True
  | .vert _ f r => NoExtra f ∧ NoExtraS r
  | .horiz _ add fs => add = 0 ∧ NoExtraF fs
  | .tile _ _ l => NoExtra l
def NoExtraS : Stack → Prop
  | .nil => True
  | .cons l r => NoExtra l ∧ NoExtraS r
def NoExtraF : Fields → Prop
  | .nil => True
  | .cons _ _ l r => NoExtra l ∧ NoExtraF r
end

/-- The elementary layer as given by `I` has the number of neurons of `l`, announces what it needs, keeps the batch size and is lawful. -/
structure LeafOk (I : Nat → Leaf → BS → Nat → Sem α) (l : Leaf) : Prop where
  announces : l.AnnouncesGradient
  out : ∀ inc, l.out inc = inc
  ok : ∀ id inc n, inc.maxTrainBS ≤ inc.maxBS → (I id l inc n).obj.inc = n ∧ (I id l inc n).obj.neurons = l.neurons ∧
    (I id l inc n).obj.cap = l.dLdA inc n ∧ (I id l inc n).obj.tmp ≤ l.memB inc n ∧
    Lawful inc.maxBS inc.maxTrainBS (I id l inc n).obj (I id l inc n).law

/-- The receptive fields are inside of the input. -/
def FieldsInside (inc : Nat) (cs : List (Nat × Nat)) : Prop := InRange inc cs
/-- The input can be divided among the tiles. -/
def Divisible (inc k : Nat) : Prop := 0 < k ∧ inc % k = 0

/-- What is proved about one tree. -/
def SemOk (o : Sem α) (inc : BS) (n m : Nat) (d : Lid) : Prop :=
  d.outg = inc ∧ o.obj.inc = n ∧ o.obj.neurons = m ∧ o.obj.cap = d.dLdA ∧ o.obj.tmp ≤ d.memB ∧
  Lawful inc.maxBS inc.maxTrainBS o.obj o.law

theorem allLeaves_announces {I : Nat → Leaf → BS → Nat → Sem α} : (l : Layer) → l.AllLeaves (LeafOk I) → l.AllLeaves Leaf.AnnouncesGradient
  := by
  suffices h : (∀ l : Layer, l.AllLeaves (LeafOk I) → l.AllLeaves Leaf.AnnouncesGradient) from h
  exact fun l => go l
where
  go : (l : Layer) → l.AllLeaves (LeafOk I) → l.AllLeaves Leaf.AnnouncesGradient
  | .leaf _ _, h => h.announces
  | .vert _ f r, h => ⟨go f h.1, goS r h.2⟩
  | .horiz _ _ fs, h => goF fs h
  | .tile _ _ l, h => go l h
  goS : (l : Stack) → l.AllLeaves (LeafOk I) → l.AllLeaves Leaf.AnnouncesGradient
  | .nil, _ => trivial
  | .cons l r, h => ⟨go l h.1, goS r h.2⟩
  goF : (l : Fields) → l.AllLeaves (LeafOk I) → l.AllLeaves Leaf.AnnouncesGradient
  | .nil, _ => trivial
  | .cons _ _ l r, h => ⟨go l h.1, goF r h.2⟩

mutual
theorem sem_ok {I : Nat → Leaf → BS → Nat → Sem α} (l : Layer) (inc : BS) (n : Nat) (d : Lid) (h : layerInit true l inc n = some d)
    (hT : inc.maxTrainBS ≤ inc.maxBS) (hp : l.AllPacks FieldsInside Divisible n) (hl : l.AllLeaves (LeafOk I)) (hx : NoExtra l) :
    SemOk (sem I l inc n) inc n l.neurons d := by
  match l with
  | .leaf id l =>
    simp only [layerInit, Option.some.injEq] at h; subst h
    obtain ⟨a, b, c, e, f⟩ := hl.ok id inc n hT
    simp only [sem]
    exact ⟨hl.out inc, a, b, c, e, f⟩
  | .vert id f r =>
    obtain ⟨df, hdf, _, hr⟩ := vert_lid h
    have hf := sem_ok f inc n df hdf hT hp.1 hl.1 hx.1
    have ha := layerInit_announces f inc n df hdf (allLeaves_announces f hl.1)
    obtain ⟨h1, h2, h3, h4, h5, h6⟩ := hf
    rw [h1] at hr ha
    simp only [sem]
    exact semStack_ok r inc f.neurons _ d hr hT hp.2 hl.2 hx.2 (sem I f inc n) n rfl h2 h3 (by simp only; omega) (by simp only; omega)
      (by simp only; omega) h6
  | .horiz id add fs =>
    obtain ⟨g, hg, rfl⟩ := horiz_lid h
    obtain ⟨hadd, hx⟩ := hx
    subst hadd
    simp only [Layer.AllPacks] at hp
    obtain ⟨o1, o2, o3, o4⟩ := semFields_ok fs inc n none Lid.zero g hg hT hp.1 hp.2 hl hx (innerBuf fs inc g) (fTmp (semFields I fs inc).fs)
      (Nat.le_max_left _ _) (fun c hc => Nat.le_trans (Nat.mul_le_mul_left _ (maxInc_le fs c hc)) (Nat.le_max_right _ _))
      (Nat.le_refl _)
    have eg : (initFields true fs inc none Lid.zero).getD Lid.zero = g := by rw [hg]; rfl
    simp only [sem]
    rw [eg]
    have o1 : g.outg = inc := o1 (by simp)
    refine ⟨o1, rfl, o3, ?_, ?_, horiz_lawful o4 (Nat.le_refl _) hT⟩
    · simp only [horiz, if_true, o1, Nat.add_zero]
    · simp only [horiz, if_true]; omega
  | .tile id k l =>
    obtain ⟨di, hdi, hle, h2, h3, h4⟩ := tile_lid h
    obtain ⟨⟨hk, hm⟩, hp⟩ := hp
    have hT' : (inc.mul k).maxTrainBS ≤ (inc.mul k).maxBS := Nat.mul_le_mul_right _ hT
    obtain ⟨o1, o2, o3, o4, o5, o6⟩ := sem_ok l (inc.mul k) (n / k) di hdi hT' hp hl hx
    have ho : d.outg = inc := by
      simp only [layerInit, Option.map_eq_some_iff] at h
      obtain ⟨d', hd', rfl⟩ := h
      rw [hdi, Option.some.injEq] at hd'; subst hd'
      simp only [Lid.agg, o1, BS.mul, BS.div, Nat.mul_div_cancel _ hk]
    have hn : k * (n / k) = n := by
      have := Nat.div_add_mod n k; omega
    have ed : (layerInit true (.tile id k l) inc n).getD Lid.zero = d := by rw [h]; rfl
    simp only [sem]
    rw [ed]
    have h2 := h2 rfl
    rw [ho] at h2
    refine ⟨ho, by simp only [tile, o2, hn], by simp only [tile, o3, Layer.neurons], rfl, by simp only [tile]; omega, ?_⟩
    have e1 : (inc.mul k).maxBS = k * inc.maxBS := Nat.mul_comm _ _
    have e2 : (inc.mul k).maxTrainBS = k * inc.maxTrainBS := Nat.mul_comm _ _
    rw [e1, e2] at o6
    refine tile_lawful o6 hk (by rw [o4]; exact hle.2.2) ?_ ?_
    · have : k * inc.maxTrainBS * l.neurons = inc.maxTrainBS * (k * l.neurons) := by ring
      rw [o3, this]; exact h2.2
    · rw [o2, ← e2]; exact h2.1
theorem semStack_ok {I : Nat → Leaf → BS → Nat → Sem α} (r : Stack) (inc : BS) (m : Nat) (a d : Lid) (h : initStack true r inc m a = some d)
    (hT : inc.maxTrainBS ≤ inc.maxBS) (hp : r.AllPacks FieldsInside Divisible m) (hl : r.AllLeaves (LeafOk I)) (hx : NoExtraS r)
    (acc : Sem α) (n : Nat) (h1 : a.outg = inc) (h2 : acc.obj.inc = n) (h3 : acc.obj.neurons = m) (h4 : acc.obj.cap = a.dLdA)
    (h5 : acc.obj.tmp ≤ a.memB) (h7 : inc.maxTrainBS * m ≤ a.dLdA) (h6 : Lawful inc.maxBS inc.maxTrainBS acc.obj acc.law) :
    SemOk (semStack I r inc acc) inc n (r.top m) d := by
  match r with
  | .nil =>
    simp only [initStack, Option.some.injEq] at h; subst h
    exact ⟨h1, h2, h3, h4, h5, h6⟩
  | .cons l r =>
    simp only [initStack, Option.bind_eq_some_iff] at h
    obtain ⟨dl, hdl, h⟩ := h
    obtain ⟨o1, o2, o3, o4, o5, o6⟩ := sem_ok l inc m dl hdl hT hp.1 hl.1 hx.1
    have ha := layerInit_announces l inc m dl hdl (allLeaves_announces l hl.1)
    rw [o1] at h ha
    simp only [semStack, Stack.top]
    refine semStack_ok r inc l.neurons _ d h hT hp.2 hl.2 hx.2 _ n rfl h2 ?_ ?_ ?_ ?_ ?_
    · simp only [over, h3]; exact o3
    · simp only [over, h3]; omega
    · simp only [over, h3]; omega
    · simp only; omega
    · rw [h3]
      exact over_lawful h6 o6 (by rw [h3]; exact o2) (by rw [h3, h4]; exact h7)
theorem semFields_ok {I : Nat → Leaf → BS → Nat → Sem α} (fs : Fields) (inc : BS) (n : Nat) (com : Option BS) (a g : Lid)
    (h : initFields true fs inc com a = some g)
    (hT : inc.maxTrainBS ≤ inc.maxBS) (hr : FieldsInside n fs.coords) (hp : fs.AllPacks FieldsInside Divisible) (hl : fs.AllLeaves (LeafOk I))
    (hx : NoExtraF fs) (buf tmp : Nat) (hb : g.dLdA ≤ buf) (hc : ∀ c ∈ fs.coords, inc.maxTrainBS * c.2 ≤ buf)
    (ht : fTmp (semFields I fs inc).fs ≤ tmp) :
    ((∀ c, com = some c → c = inc) → g.outg = inc) ∧ fTmp (semFields I fs inc).fs ≤ g.memB ∧
    fNeurons (semFields I fs inc).fs = fs.neurons ∧
    FieldsOk inc.maxBS inc.maxTrainBS n buf tmp (semFields I fs inc).fs (semFields I fs inc).laws := by
  match fs with
  | .nil =>
    simp only [initFields, Option.map_eq_some_iff] at h
    obtain ⟨c, hc', rfl⟩ := h
    exact ⟨fun hcc => hcc c hc', Nat.zero_le _, rfl, trivial⟩
  | .cons ofs cnt l r =>
    have h0 := h
    obtain ⟨dl, com', hdl, h⟩ := initFields_cons h
    obtain ⟨o1, o2, o3, o4, o5, o6⟩ := sem_ok l inc cnt dl hdl hT hp.1 hl.1 hx.1
    have ha := layerInit_announces l inc cnt dl hdl (allLeaves_announces l hl.1)
    rw [o1] at ha
    have hle := Le.trans (agg_le_right a dl) (initFields_le _ _ _ _ _ _ h)
    simp only [semFields, fTmp] at ht ⊢
    obtain ⟨p1, p2, p3, p4⟩ := semFields_ok r inc n com' _ g h hT (fun c hc => hr c (List.mem_cons_of_mem _ hc)) hp.2 hl.2 hx.2 buf tmp hb
      (fun c h' => hc c (List.mem_cons_of_mem _ h')) (by omega)
    have hh := hr (ofs, cnt) List.mem_cons_self
    have hcc := hc (ofs, cnt) List.mem_cons_self
    simp only at hh hcc
    refine ⟨fun hcom => ?_, ?_, ?_, ⟨⟨o2, hh, ?_, hcc, ?_, ?_, o6⟩, p4⟩⟩
    · simp only [initFields, hdl, Option.bind_some] at h0
      cases com with
      | none => exact (semFields_ok r inc n (some dl.outg) _ g h0 hT (fun c hc => hr c (List.mem_cons_of_mem _ hc)) hp.2 hl.2 hx.2 buf tmp hb
          (fun c h' => hc c (List.mem_cons_of_mem _ h')) (by omega)).1 (fun c hc => by cases hc; exact o1)
      | some c =>
        simp only at h0
        split at h0
        · exact (semFields_ok r inc n (some c) _ g h0 hT (fun c hc => hr c (List.mem_cons_of_mem _ hc)) hp.2 hl.2 hx.2 buf tmp hb
            (fun c h' => hc c (List.mem_cons_of_mem _ h')) (by omega)).1 hcom
        · cases h0
    · have := hle.2.1; omega
    · simp only [fNeurons, Fields.neurons, p3, o3]
    · simp only [o4]; have := hle.2.2; omega
    · simp only [o3]; have := hle.2.2; omega
    · simp only; omega
end

end Nntl.Pass
