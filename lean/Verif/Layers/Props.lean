import Verif.Layers.Lemmas
import Verif.Layers.MemLemmas
import Mathlib.Data.List.Perm.Subperm
import Mathlib.Tactic.ByContra
/-! Properties C31 (layer indices), C32 (receptive fields), C33 and C69 (temporary memory). -/
namespace Nntl.Layers

/-! ### C31 -/

/-- The program survives the construction of a layer stack exactly if no layer object is used twice, every horizontal pack (at any
depth) covers all its incoming neurons with fields that stay inside of them (and, with assertions compiled in, are not empty), and every
tile pack has a positive number of tiles (with assertions: one that divides the number of incoming neurons). -/
theorem construct_succeeds_iff (dbg : Bool) (st : Stack) :
    (∃ s, construct dbg st = .ok s) ↔
      ((st.listing 0).map Prod.fst).Nodup ∧
      st.AllPacks (fun inc cs => (InRange inc cs ∧ (dbg = true → NonEmpty cs)) ∧ Covered inc cs)
        (fun inc k => 0 < k ∧ (dbg = true → inc % k = 0)) 0 := by
  have hg : Good ⟨0, []⟩ := rfl
  constructor
  · rintro ⟨s, h⟩
    obtain ⟨h1, h2, _⟩ := (preinitStack_iff dbg st 0 _ s hg).1 h
    exact ⟨h2.1, h1⟩
  · rintro ⟨h1, h2⟩
    exact ⟨_, (preinitStack_iff dbg st 0 _ _ hg).2 ⟨h2, ⟨h1, by simp⟩, rfl⟩⟩

/-- After the construction of a stack of at most 65535 layers the layers, taken depth first, have the indices 0, 1, 2, …, each knows the
number of neurons it is fed with, and `total_layers()` is the number of layers. -/
theorem layer_indices (dbg : Bool) (st : Stack) (s : PS) (h : construct dbg st = .ok s)
    (hn : (st.listing 0).length < 65536) :
    s.recs.map (fun r => (r.id, r.inc)) = st.listing 0 ∧
    s.recs.map Rec.idx = List.range (st.listing 0).length ∧
    s.next = (st.listing 0).length := by
  obtain ⟨_, _, rfl⟩ := (preinitStack_iff dbg st 0 ⟨0, []⟩ s rfl).1 h
  refine ⟨?_, ?_, ?_⟩
  · have : ∀ k (A : List (Nat × Nat)), (number k A).map (fun r => (r.id, r.inc)) = A := by
      intro k A
      induction A generalizing k with
      | nil => rfl
      | cons a A ih => simp [number, ih]
    simp [after, this]
  · simp only [after, List.length_nil, List.nil_append]
    rw [number_idx _ _ (by omega), List.range_eq_range']
  · simp only [after, List.length_nil, Nat.zero_add]
    exact Nat.mod_eq_of_lt hn

/-- Different layer objects have different indices. -/
theorem layer_indices_distinct (dbg : Bool) (st : Stack) (s : PS) (h : construct dbg st = .ok s)
    (hn : (st.listing 0).length < 65536) : (s.recs.map Rec.idx).Nodup ∧ (s.recs.map Rec.id).Nodup := by
  obtain ⟨h1, h2, _⟩ := layer_indices dbg st s h hn
  refine ⟨h2 ▸ List.nodup_range, ?_⟩
  have := ((construct_succeeds_iff dbg st).1 ⟨s, h⟩).1
  rw [← h1, List.map_map] at this
  exact this

/-- A layer that is used twice is always found: the construction does not succeed. -/
theorem layer_used_twice_refused (dbg : Bool) (st : Stack) (h : ¬ ((st.listing 0).map Prod.fst).Nodup) (s : PS) :
    construct dbg st ≠ .ok s := fun hs => h ((construct_succeeds_iff dbg st).1 ⟨s, hs⟩).1

/-- `n` elementary layers on top of each other. -/
def tower : Nat → Stack
  | 0 => .nil
  | n + 1 => .cons (.leaf n ⟨1, fun _ _ => 0, fun _ _ => 0, fun _ _ => 0, id⟩) (tower n)

theorem tower_ids (n : Nat) : ∀ inc, ((tower n).listing inc).map Prod.fst = (List.range n).reverse := by
  induction n with
  | zero => intro inc; rfl
  | succ n ih =>
    intro inc
    have := ih 1
    simp only [tower, Stack.listing, Layer.listing, Layer.neurons, List.cons_append, List.nil_append, List.map_cons, this,
      List.range_succ, List.reverse_append, List.reverse_cons, List.reverse_nil]

theorem tower_packs (P Q) (n : Nat) : ∀ inc, (tower n).AllPacks P Q inc := by
  induction n with
  | zero => intro inc; trivial
  | succ n ih => intro inc; exact ⟨trivial, ih _⟩

/-- Without assertions more than 65536 layers are accepted, but their indices are not unique (the counter has 16 bits). -/
theorem too_many_layers_share_indices (dbg : Bool) (n : Nat) (h : 65536 < n) :
    ∃ s, construct dbg (tower n) = .ok s ∧ ¬ (s.recs.map Rec.idx).Nodup := by
  have hlen : ((tower n).listing 0).length = n := by
    rw [← List.length_map (f := Prod.fst), tower_ids]; simp
  obtain ⟨s, hs⟩ := (construct_succeeds_iff dbg (tower n)).2
    ⟨by rw [tower_ids]; exact List.nodup_reverse.2 List.nodup_range, tower_packs _ _ n 0⟩
  refine ⟨s, hs, fun hnd => ?_⟩
  obtain ⟨_, _, rfl⟩ := (preinitStack_iff dbg _ 0 ⟨0, []⟩ s rfl).1 hs
  have hlt : ∀ k A, ∀ x ∈ (number k A).map Rec.idx, x < 65536 := by
    intro k A
    induction A generalizing k with
    | nil => intro x hx; cases hx
    | cons a A ih =>
      intro x hx
      simp only [number, List.map_cons, List.mem_cons] at hx
      rcases hx with rfl | hx
      · exact Nat.mod_lt _ (by omega)
      · exact ih _ x hx
  have hsub : ((after ⟨0, []⟩ ((tower n).listing 0)).recs.map Rec.idx) ⊆ List.range 65536 := by
    intro x hx
    simp only [after, List.length_nil, List.nil_append] at hx
    exact List.mem_range.2 (hlt _ _ x hx)
  have hle := (List.subperm_of_subset hnd hsub).length_le
  simp only [after, List.length_nil, List.nil_append, List.length_map, number_length, List.length_range, hlen] at hle
  omega

/-- An elementary layer with `n` neurons for the examples. -/
def plain (n : Nat) : Leaf := ⟨n, fun _ _ => 0, fun _ _ => 0, fun b _ => b.maxTrainBS * n, id⟩

/-- The running example: an input layer of 5 neurons, a horizontal pack of a vertical pack on neurons 0–2 and an elementary layer on
neurons 2–4, a tile pack with 2 tiles, an output layer. -/
def demoNet : Stack :=
  .cons (.leaf 10 (plain 5)) <| .cons
    (.horiz 11 0 (.cons 0 3 (.vert 12 (.leaf 13 (plain 7)) (.cons (.leaf 14 (plain 4)) .nil)) (.cons 2 3 (.leaf 15 (plain 2)) .nil))) <|
  .cons (.tile 16 2 (.leaf 17 (plain 3))) <| .cons (.leaf 18 (plain 1)) .nil

example : construct true demoNet = .ok ⟨9, [⟨10, 0, 0⟩, ⟨11, 1, 5⟩, ⟨12, 2, 3⟩, ⟨13, 3, 3⟩, ⟨14, 4, 7⟩, ⟨15, 5, 3⟩, ⟨16, 6, 6⟩,
    ⟨17, 7, 3⟩, ⟨18, 8, 6⟩]⟩ := by decide

/-! ### C32 -/

/-- With assertions compiled in, the construction of a horizontal pack of elementary layers (distinct objects) is refused exactly if some
incoming neuron is not covered, or a field is empty or reaches outside. -/
theorem horizontal_pack_refused_iff (id add inc : Nat) (fs : Fields) (hel : ∀ P Q, fs.AllPacks P Q)
    (hid : (((Layer.horiz id add fs).listing inc).map Prod.fst).Nodup) :
    preinit true (.horiz id add fs) inc ⟨0, []⟩ = .abort ↔
      ¬ Covered inc fs.coords ∨ ¬ NonEmpty fs.coords ∨ ¬ InRange inc fs.coords := by
  have hu : preinit true (.horiz id add fs) inc ⟨0, []⟩ ≠ .undef := preinit_defined _ _ _ _ (.inl rfl)
  have hiff := fun s' => preinit_iff true (.horiz id add fs) inc ⟨0, []⟩ s' rfl
  constructor
  · intro h
    by_contra hc
    simp only [not_or, Classical.not_not] at hc
    have := (hiff _).2 ⟨⟨⟨⟨hc.2.2, fun _ => hc.2.1⟩, hc.1⟩, hel _ _⟩, ⟨hid, by simp⟩, rfl⟩
    rw [h] at this; cases this
  · intro h
    match hr : preinit true (.horiz id add fs) inc ⟨0, []⟩ with
    | .abort => rfl
    | .undef => exact absurd hr hu
    | .ok s =>
      obtain ⟨⟨⟨⟨h1, h2⟩, h3⟩, _⟩, _⟩ := (hiff s).1 hr
      rcases h with h | h | h
      · exact absurd h3 h
      · exact absurd (h2 rfl) h
      · exact absurd h1 h

/-- Without assertions, and as long as no field reaches outside, it is refused exactly if some incoming neuron is not covered. Partial:
a field that reaches outside is not refused but written outside of the check array, see `field_outside_is_undefined`. -/
theorem horizontal_pack_refused_iff_release_partial (id add inc : Nat) (fs : Fields) (hel : ∀ P Q, fs.AllPacks P Q)
    (hid : (((Layer.horiz id add fs).listing inc).map Prod.fst).Nodup) (hr : InRange inc fs.coords) :
    preinit false (.horiz id add fs) inc ⟨0, []⟩ = .abort ↔ ¬ Covered inc fs.coords := by
  have hu : preinit false (.horiz id add fs) inc ⟨0, []⟩ ≠ .undef := preinit_defined _ _ _ _ (.inr ⟨hr, hel _ _⟩)
  have hiff := fun s' => preinit_iff false (.horiz id add fs) inc ⟨0, []⟩ s' rfl
  constructor
  · intro h hc
    have := (hiff _).2 ⟨⟨⟨⟨hr, fun h => by cases h⟩, hc⟩, hel _ _⟩, ⟨hid, by simp⟩, rfl⟩
    rw [h] at this; cases this
  · intro h
    match hx : preinit false (.horiz id add fs) inc ⟨0, []⟩ with
    | .abort => rfl
    | .undef => exact absurd hx hu
    | .ok s => exact absurd ((hiff s).1 hx).1.1.2 h

/-- Whatever the inner layers are and whether assertions are compiled in or not: if a stack is accepted, every horizontal pack at any
depth covers all of its incoming neurons and stays inside of them. -/
theorem accepted_packs_cover (dbg : Bool) (st : Stack) (s : PS) (h : construct dbg st = .ok s) :
    st.AllPacks (fun inc cs => (InRange inc cs ∧ (dbg = true → NonEmpty cs)) ∧ Covered inc cs)
      (fun inc k => 0 < k ∧ (dbg = true → inc % k = 0)) 0 := ((construct_succeeds_iff dbg st).1 ⟨s, h⟩).2

/-- A pack with one inner layer whose field reaches outside of its `inc` incoming neurons: undefined behaviour without assertions,
although some neuron may be uncovered. -/
theorem field_outside_is_undefined (inc ofs cnt : Nat) (h : inc < ofs + cnt) :
    preinit false (.horiz 0 0 (.cons ofs cnt (.leaf 1 (plain 1)) .nil)) inc ⟨0, []⟩ = .undef := by
  simp only [preinit, newIndex, preinitFields, markField, prepareCheck, List.length_replicate]
  simp [Res.bind, Nat.not_le.2 h]

example : preinit true (.horiz 0 0 (.cons 0 2 (.leaf 1 (plain 1)) (.cons 3 1 (.leaf 2 (plain 1)) .nil))) 4 ⟨0, []⟩ = .abort := by decide

/-- Sum of the sizes of the fields. -/
def widths (cs : List (Nat × Nat)) : Nat := (cs.map Prod.snd).sum

/-- In how many of the fields neuron `j` is. -/
def hits (cs : List (Nat × Nat)) (j : Nat) : Nat := cs.countP fun c => decide (c.1 ≤ j) && decide (j < c.1 + c.2)

theorem sum_indicator (a b : Nat) : ∀ n, a + b ≤ n →
    ((List.range n).map fun j => if a ≤ j ∧ j < a + b then 1 else 0).sum = b := by
  have gen : ∀ n, ((List.range n).map fun j => if a ≤ j ∧ j < a + b then 1 else 0).sum = min (n - a) b := by
    intro n
    induction n with
    | zero => simp
    | succ n ih =>
      rw [List.range_succ, List.map_append, List.sum_append, ih]
      simp only [List.map_cons, List.map_nil, List.sum_cons, List.sum_nil]
      split <;> omega
  intro n h
  rw [gen]; omega

theorem sum_add_map (f g : Nat → Nat) (l : List Nat) : (l.map fun j => f j + g j).sum = (l.map f).sum + (l.map g).sum := by
  induction l with
  | nil => rfl
  | cons a l ih => simp only [List.map_cons, List.sum_cons, ih]; omega

theorem sum_hits (inc : Nat) (cs : List (Nat × Nat)) (h : InRange inc cs) :
    ((List.range inc).map (hits cs)).sum = widths cs := by
  induction cs with
  | nil =>
    have : (hits []) = fun _ => 0 := by funext j; rfl
    rw [this]; simp [widths]
  | cons c cs ih =>
    have h1 : c.1 + c.2 ≤ inc := h c (List.mem_cons_self ..)
    have h2 : InRange inc cs := fun x hx => h x (List.mem_cons_of_mem _ hx)
    have e : hits (c :: cs) = fun j => hits cs j + (if c.1 ≤ j ∧ j < c.1 + c.2 then 1 else 0) := by
      funext j
      simp only [hits, List.countP_cons, Bool.and_eq_true, decide_eq_true_eq]
    rw [e, sum_add_map, ih h2, sum_indicator _ _ _ h1]
    simp only [widths, List.map_cons, List.sum_cons]; omega

theorem all_one (f : Nat → Nat) (l : List Nat) (h1 : ∀ j ∈ l, 1 ≤ f j) (hs : (l.map f).sum = l.length) : ∀ j ∈ l, f j = 1 := by
  induction l with
  | nil => intro j hj; cases hj
  | cons a l ih =>
    have ha := h1 a (List.mem_cons_self ..)
    have hl : l.length ≤ (l.map f).sum := by
      clear ih hs
      have h1' : ∀ j ∈ l, 1 ≤ f j := fun j hj => h1 j (List.mem_cons_of_mem _ hj)
      clear h1 ha
      induction l with
      | nil => simp
      | cons b l ih =>
        have := ih (fun j hj => h1' j (List.mem_cons_of_mem _ hj))
        have := h1' b (List.mem_cons_self ..)
        simp only [List.map_cons, List.sum_cons, List.length_cons]; omega
    simp only [List.map_cons, List.sum_cons, List.length_cons] at hs
    intro j hj
    rcases List.mem_cons.1 hj with rfl | hj
    · omega
    · exact ih (fun j hj => h1 j (List.mem_cons_of_mem _ hj)) (by omega) j hj

theorem hits_pos {cs : List (Nat × Nat)} {j : Nat} : 1 ≤ hits cs j ↔ ∃ c ∈ cs, Covers c j := by
  have : 0 < hits cs j ↔ ∃ c ∈ cs, Covers c j := by
    simp only [hits, List.countP_pos_iff, Bool.and_eq_true, decide_eq_true_eq, Covers]
  exact this

theorem separate_of_hits (cs : List (Nat × Nat)) (h : ∀ j, hits cs j ≤ 1) : Separate cs := by
  induction cs with
  | nil => exact List.Pairwise.nil
  | cons c cs ih =>
    have e : ∀ j, hits (c :: cs) j = hits cs j + (if c.1 ≤ j ∧ j < c.1 + c.2 then 1 else 0) := by
      intro j
      simp only [hits, List.countP_cons, Bool.and_eq_true, decide_eq_true_eq]
    refine List.Pairwise.cons (fun b hb j hj => ?_) (ih fun j => by have := h j; rw [e] at this; omega)
    have h1 := h j
    rw [e, if_pos (show c.1 ≤ j ∧ j < c.1 + c.2 from hj.1)] at h1
    have : 1 ≤ hits cs j := hits_pos.2 ⟨b, hb, hj.2⟩
    omega

theorem totalInc_eq (fs : Fields) : fs.totalInc = widths fs.coords := by
  match fs with
  | .nil => rfl
  | .cons ofs cnt l r =>
    have := totalInc_eq r
    simp only [Fields.totalInc, Fields.coords, widths, List.map_cons, List.sum_cons] at *
    omega

/-- The optional pack: if it was accepted at construction and by its own check at initialisation, its fields are pairwise disjoint. -/
theorem optional_pack_fields_separate (inc : Nat) (fs : Fields) (hc : Covered inc fs.coords) (hr : InRange inc fs.coords)
    (ho : optCheck inc fs = true) : Separate fs.coords := by
  have hw : widths fs.coords = inc := by
    rw [← totalInc_eq]; simpa [optCheck] using ho
  have h1 : ∀ j ∈ List.range inc, 1 ≤ hits fs.coords j := fun j hj => hits_pos.2 (hc j (List.mem_range.1 hj))
  have h2 := all_one _ _ h1 (by rw [sum_hits _ _ hr, hw, List.length_range])
  refine separate_of_hits _ fun j => ?_
  by_cases hj : j < inc
  · exact Nat.le_of_eq (h2 j (List.mem_range.2 hj))
  · by_contra hlt
    obtain ⟨c, hcm, hcv⟩ := hits_pos.1 (show 1 ≤ hits fs.coords j by omega)
    have := hr c hcm
    simp only [Covers] at hcv
    omega

/-- And conversely, if the fields cover the input without overlapping, the check lets the pack through. -/
theorem optional_pack_accepts (inc : Nat) (fs : Fields) (hc : Covered inc fs.coords) (hr : InRange inc fs.coords)
    (hs : Separate fs.coords) : optCheck inc fs = true := by
  have hle : ∀ cs : List (Nat × Nat), Separate cs → ∀ j, hits cs j ≤ 1 := by
    intro cs hcs j
    induction cs with
    | nil => simp [hits]
    | cons c cs ih =>
      have e : hits (c :: cs) j = hits cs j + (if c.1 ≤ j ∧ j < c.1 + c.2 then 1 else 0) := by
        simp only [hits, List.countP_cons, Bool.and_eq_true, decide_eq_true_eq]
      rw [e]
      obtain ⟨h1, h2⟩ := List.pairwise_cons.1 hcs
      have := ih h2
      split
      · rename_i hcov
        have : ¬ 1 ≤ hits cs j := fun h => by
          obtain ⟨b, hb, hbv⟩ := hits_pos.1 h
          exact h1 b hb j ⟨hcov, hbv⟩
        omega
      · omega
  have h1 : ∀ j ∈ List.range inc, hits fs.coords j = 1 := fun j hj =>
    Nat.le_antisymm (hle _ hs j) (hits_pos.2 (hc j (List.mem_range.1 hj)))
  have : ((List.range inc).map (hits fs.coords)).sum = inc := by
    rw [List.map_congr_left h1]
    simp
  simp [optCheck, totalInc_eq, ← sum_hits _ _ hr, this]

example : optCheck 5 (.cons 3 2 (.leaf 1 (plain 1)) (.cons 0 3 (.leaf 2 (plain 1)) .nil)) = true := by decide
example : optCheck 5 (.cons 2 3 (.leaf 1 (plain 1)) (.cons 0 3 (.leaf 2 (plain 1)) .nil)) = false := by decide

/-! ### C33 -/

/-- The memory announced by the layers is sufficient: it is distributed so that every layer of the stack, at any depth, receives at least
what it announced (for training if training is possible, otherwise for `fprop`), all grants are inside of the allocated storage and
disjoint from the two gradient matrices of the stack, and the slices a pack keeps for itself are inside of its grant and disjoint.
If no layer needs more to run forward than for training, every layer also receives what it needs to run forward while training is
possible. Partial: without this condition it may not, see `fprop_memory_may_be_short`. -/
theorem memory_sufficient_partial (tp : Bool) (st : Stack) (inc : BS) (n : Nat) (q : Lmr)
    (h : initLayers tp st inc n ⟨0, 0, 0⟩ = some q) (hq : 0 < q.maxMemTraining) :
    ∃ mats gs, processTmp tp st inc n q = some (mats, gs) ∧
      gs.map Grant.id = (st.listing n).map Prod.fst ∧
      (∀ g ∈ gs, g.announced.need tp ≤ g.cnt ∧ g.ptr + g.cnt ≤ totalMem tp q) ∧
      ((st.AllLeaves fun l => ¬ l.FpropHungry) → ∀ g ∈ gs, g.announced.memF ≤ g.cnt) ∧
      (∀ g ∈ gs, (∀ s ∈ g.own, Inside s g.ptr (g.ptr + g.cnt)) ∧ g.own.Pairwise Apart) ∧
      (∀ m ∈ mats, Inside m 0 (totalMem tp q) ∧ m.2 = q.maxSingledLdA ∧ ∀ g ∈ gs, Apart m (g.ptr, g.cnt)) ∧
      mats.length = (if tp then 2 else 0) ∧ mats.Pairwise Apart := by
  obtain ⟨gs, hg, he, hi⟩ := stack_enough (st.AllLeaves fun l => ¬ l.FpropHungry) tp st (fun h => h) inc n
    (if tp then 2 * q.maxSingledLdA else 0) q.maxMemTraining _ q h (Nat.le_refl _)
  refine ⟨_, gs, by simp only [processTmp, if_pos hq, hg, Option.map_some]; rfl, hi, ?_, ?_, ?_, ?_, ?_, ?_⟩
  · intro g hgm
    obtain ⟨⟨a, _⟩, b, c, _⟩ := he g hgm
    refine ⟨a, ?_⟩
    unfold totalMem; omega
  · intro hl g hgm
    obtain ⟨⟨a, a'⟩, b, c, _⟩ := he g hgm
    cases tp with
    | true => exact Nat.le_trans (a' hl rfl) (by simpa [Lid.need] using a)
    | false => simpa [Lid.need] using a
  · intro g hgm; exact (he g hgm).2.2.2
  · intro m hm
    cases tp with
    | false => simp at hm
    | true =>
      simp only [if_true, List.mem_cons, List.not_mem_nil, or_false] at hm
      refine ⟨?_, by rcases hm with rfl | rfl <;> rfl, fun g hgm k => ?_⟩
      · simp only [Inside, totalMem, if_true]
        rcases hm with rfl | rfl <;> dsimp only <;> omega
      · obtain ⟨_, b, c, _⟩ := he g hgm
        simp only [if_true] at b
        rcases hm with rfl | rfl <;> dsimp only <;> omega
  · cases tp <;> simp
  · cases tp
    · simp
    · simp only [if_true, List.pairwise_cons, List.mem_cons, List.not_mem_nil, or_false, Apart]
      refine ⟨?_, by simp⟩
      rintro a rfl k; dsimp only; omega

/-- If the layers are not given memory at all, none of them needs any. -/
theorem no_memory_needed (tp : Bool) (st : Stack) (inc : BS) (n : Nat) (q : Lmr)
    (h : initLayers tp st inc n ⟨0, 0, 0⟩ = some q) (hq : q.maxMemTraining = 0) :
    ∃ gs, initMemStack tp st inc n 0 0 = some gs ∧ gs.map Grant.id = (st.listing n).map Prod.fst ∧
      ∀ g ∈ gs, g.announced.need tp = 0 := by
  obtain ⟨gs, hg, he, hi⟩ := stack_enough False tp st (fun h => h.elim) inc n 0 0 _ q h (Nat.le_of_eq hq)
  refine ⟨gs, hg, hi, fun g hgm => ?_⟩
  obtain ⟨⟨a, _⟩, b, c, _⟩ := he g hgm
  omega

/-- The slices a horizontal pack keeps for itself (bias column and inner gradient matrices) are disjoint from everything given to the
layers inside of it, at any depth. -/
theorem pack_slices_apart_from_inner (tp : Bool) (id add : Nat) (fs : Fields) (inc : BS) (n ptr cnt : Nat) (d : Lid)
    (hd : layerInit tp (.horiz id add fs) inc n = some d) (hc : d.need tp ≤ cnt) :
    ∃ own gs, initMem tp (.horiz id add fs) inc n ptr cnt = some (⟨id, d, ptr, cnt, own⟩ :: gs) ∧
      own.length = (if tp then 3 else 1) ∧ (∀ s ∈ own, Inside s ptr (ptr + cnt)) ∧ own.Pairwise Apart ∧
      ∀ s ∈ own, ∀ g ∈ gs, Apart s (g.ptr, g.cnt) := by
  obtain ⟨g, hg, hdd⟩ := horiz_lid hd
  cases tp with
  | true =>
    simp only [if_true] at hdd
    rw [hdd] at hc
    simp only [Lid.need, if_true] at hc
    obtain ⟨gs, h1, h2, h3⟩ := initMemFields_enough False true fs (fun h => h.elim) inc
      (ptr + (inc.biggest + 2 * innerBuf fs inc g)) (cnt - (inc.biggest + 2 * innerBuf fs inc g)) none Lid.zero g hg
      (by simp only [Lid.need, if_true]; omega)
    refine ⟨[(ptr, inc.biggest), (ptr + inc.biggest, innerBuf fs inc g),
      (ptr + inc.biggest + innerBuf fs inc g, innerBuf fs inc g)], gs,
      by simp only [initMem, hd, hg, Option.bind_some, if_true, h1, Option.map_some], by simp, ?_, ?_, ?_⟩
    · simp only [List.mem_cons, List.not_mem_nil, or_false, Inside]
      rintro s (rfl | rfl | rfl) <;> dsimp only <;> omega
    · simp only [List.pairwise_cons, List.mem_cons, List.not_mem_nil, or_false, Apart]
      refine ⟨?_, ?_, by simp⟩
      · rintro a (rfl | rfl) k <;> dsimp only <;> omega
      · rintro a rfl k; dsimp only; omega
    simp only [List.mem_cons, List.not_mem_nil, or_false]
    rintro s hs x hx k
    obtain ⟨_, b, c, _⟩ := h2 x hx
    rcases hs with rfl | rfl | rfl <;> dsimp only <;> omega
  | false =>
    simp only [Bool.false_eq_true, if_false] at hdd
    rw [hdd] at hc
    simp only [Lid.need, Bool.false_eq_true, if_false] at hc
    obtain ⟨gs, h1, h2, h3⟩ := initMemFields_enough False false fs (fun h => h.elim) inc
      (ptr + inc.biggest) (cnt - inc.biggest) none Lid.zero g hg (by simp only [Lid.need, Bool.false_eq_true, if_false]; omega)
    refine ⟨[(ptr, inc.biggest)], gs,
      by simp only [initMem, hd, hg, Option.bind_some, Bool.false_eq_true, if_false, h1, Option.map_some], by simp, ?_, by simp, ?_⟩
    · simp only [List.mem_cons, List.not_mem_nil, or_false, Inside]
      rintro s rfl; dsimp only; omega
    simp only [List.mem_cons, List.not_mem_nil, or_false]
    rintro s rfl x hx k
    obtain ⟨_, b, c, _⟩ := h2 x hx
    dsimp only; omega

example : (initLayers true demoNet ⟨20, 4⟩ 0 ⟨0, 0, 0⟩).isSome = true := by decide
example : (initLayers true demoNet ⟨20, 4⟩ 0 ⟨0, 0, 0⟩) = some ⟨76, 20, 24⟩ := by decide
example : demoNet.AllLeaves fun l => ¬ l.FpropHungry := by
  simp [demoNet, Stack.AllLeaves, Layer.AllLeaves, Fields.AllLeaves, Leaf.FpropHungry, plain]

/-- An elementary layer that needs 10 elements to run forward and nothing for training. -/
def hungry : Leaf := ⟨2, fun _ _ => 10, fun _ _ => 0, fun b _ => b.maxTrainBS * 2, id⟩

/-- A horizontal pack around it. -/
def hungryNet : Stack :=
  .cons (.leaf 0 (plain 3)) <| .cons (.horiz 1 0 (.cons 0 3 (.leaf 2 hungry) .nil)) <| .cons (.leaf 3 (plain 1)) .nil

/-- While training is possible, an inner layer of a horizontal pack may receive less than it announced for running forward: the pack
subtracts the memory for the gradient matrices from what may have been allocated for `fprop`. -/
theorem fprop_memory_may_be_short :
    ∃ q mats gs g, initLayers true hungryNet ⟨1, 1⟩ 0 ⟨0, 0, 0⟩ = some q ∧ 0 < q.maxMemTraining ∧
      processTmp true hungryNet ⟨1, 1⟩ 0 q = some (mats, gs) ∧ g ∈ gs ∧ g.cnt < g.announced.memF := by
  refine ⟨⟨11, 11, 3⟩, [(0, 3), (3, 3)],
    [⟨0, ⟨0, 0, 3, ⟨1, 1⟩⟩, 6, 11, [(6, 11)]⟩, ⟨1, ⟨11, 7, 2, ⟨1, 1⟩⟩, 6, 11, [(6, 1), (7, 3), (10, 3)]⟩,
     ⟨2, ⟨10, 0, 2, ⟨1, 1⟩⟩, 13, 4, [(13, 4)]⟩, ⟨3, ⟨0, 0, 1, ⟨1, 1⟩⟩, 6, 11, [(6, 11)]⟩],
    ⟨2, ⟨10, 0, 2, ⟨1, 1⟩⟩, 13, 4, [(13, 4)]⟩, by decide, by decide, rfl, ?_, by decide⟩
  simp

/-! ### C69 -/

/-- While back-propagating, the two gradient matrices handed to every layer, at any depth, can hold as many elements as that layer
announced during initialisation and as many as the gradient it has to produce for the layer below, provided that every elementary
layer other than the output layer announces at least the size of its own gradient. -/
theorem gradient_matrices_big_enough (f l : Layer) (r : Stack) (inc : BS) (q : Lmr)
    (h : initLayers true (.cons f (.cons l r)) inc 0 ⟨0, 0, 0⟩ = some q)
    (hl : Stack.LeavesBelowTop Leaf.AnnouncesGradient f (.cons l r)) :
    ∃ us, bpropBufs true f (.cons l r) inc q = some us ∧
      us.map BufUse.id = ((Stack.cons l r).listing f.neurons).map Prod.fst ∧
      ∀ u ∈ us, u.announced ≤ u.cap ∧ u.lower ≤ u.cap := by
  rw [initLayers, Option.bind_eq_some_iff] at h
  obtain ⟨d, hd, h⟩ := h
  have hle := initLayers_le true _ _ _ _ _ h
  obtain ⟨us, h1, h2, h3⟩ := stack_roomy l r d.outg f.neurons _ q q.maxSingledLdA h (Nat.le_refl _) hl.2
    (Nat.le_trans (layerInit_announces f inc 0 d hd hl.1) (Nat.le_trans (Lmr.update_need _ d true).2 hle.2.2))
  exact ⟨us, by simp only [bpropBufs, hd, Option.bind_some, h1], h3, h2⟩

example : Stack.LeavesBelowTop Leaf.AnnouncesGradient (.leaf 10 (plain 5)) (.cons
    (.horiz 11 0 (.cons 0 3 (.leaf 13 (plain 7)) (.cons 2 3 (.leaf 15 (plain 2)) .nil))) (.cons (.leaf 18 (plain 1)) .nil)) := by
  simp [Stack.LeavesBelowTop, Layer.AllLeaves, Fields.AllLeaves, Leaf.AnnouncesGradient, plain]

end Nntl.Layers
