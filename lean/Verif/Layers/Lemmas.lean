import Verif.Layers.Spec
import Mathlib.Data.List.Nodup
/-! Lemmas about the construction of layer stacks. -/
namespace Nntl.Layers

theorem bind_ok {α β : Type} {x : Res α} {f : α → Res β} {b : β} : x.bind f = .ok b ↔ ∃ a, x = .ok a ∧ f a = .ok b := by
  cases x <;> simp [Res.bind]

theorem bind_undef {α β : Type} {x : Res α} {f : α → Res β} :
    x.bind f = .undef ↔ x = .undef ∨ ∃ a, x = .ok a ∧ f a = .undef := by
  cases x <;> simp [Res.bind]

/-- Records given to the listed layers, the first one getting index `k` (16 bits). -/
def number : Nat → List (Nat × Nat) → List Rec
  | _, [] => []
  | k, x :: xs => ⟨x.1, k % 65536, x.2⟩ :: number (k + 1) xs

theorem number_append (k : Nat) (A B : List (Nat × Nat)) : number k (A ++ B) = number k A ++ number (k + A.length) B := by
  induction A generalizing k with
  | nil => simp [number]
  | cons a A ih => simp [number, ih, Nat.add_assoc, Nat.add_comm 1]

theorem number_length (k : Nat) (A : List (Nat × Nat)) : (number k A).length = A.length := by
  induction A generalizing k with
  | nil => rfl
  | cons a A ih => simp [number, ih]

theorem number_ids (k : Nat) (A : List (Nat × Nat)) : (number k A).map Rec.id = A.map Prod.fst := by
  induction A generalizing k with
  | nil => rfl
  | cons a A ih => simp [number, ih]

theorem number_incs (k : Nat) (A : List (Nat × Nat)) : (number k A).map Rec.inc = A.map Prod.snd := by
  induction A generalizing k with
  | nil => rfl
  | cons a A ih => simp [number, ih]

theorem number_idx (k : Nat) (A : List (Nat × Nat)) (h : k + A.length ≤ 65536) :
    (number k A).map Rec.idx = List.range' k A.length := by
  induction A generalizing k with
  | nil => rfl
  | cons a A ih =>
    simp only [List.length_cons] at h
    simp only [number, List.map_cons, List.length_cons, List.range'_succ]
    rw [ih _ (by omega), Nat.mod_eq_of_lt (by omega)]

/-- The state after the listed layers were processed. -/
def after (s : PS) (L : List (Nat × Nat)) : PS :=
  ⟨(s.recs.length + L.length) % 65536, s.recs ++ number s.recs.length L⟩

def Good (s : PS) : Prop := s.next = s.recs.length % 65536

def Fresh (s : PS) (L : List (Nat × Nat)) : Prop := (L.map Prod.fst).Nodup ∧ ∀ x ∈ L, x.1 ∉ s.recs.map Rec.id

theorem after_good (s : PS) (L) : Good (after s L) := by
  simp [Good, after, number_length]

theorem after_append (s : PS) (A B) : after (after s A) B = after s (A ++ B) := by
  simp [after, number_append, number_length, Nat.add_assoc]

theorem after_nil {s : PS} (h : Good s) : after s [] = s := by
  cases s with | mk n r => simp [after, number, Good] at *; exact h.symm

theorem fresh_append (s : PS) (A B) : Fresh s (A ++ B) ↔ Fresh s A ∧ Fresh (after s A) B := by
  simp only [Fresh, List.map_append, List.nodup_append, after, number_ids, List.mem_append]
  constructor
  · rintro ⟨⟨a, b, c⟩, d⟩
    refine ⟨⟨a, fun x hx => d x (.inl hx)⟩, b, fun x hx => ?_⟩
    rintro (h | h)
    · exact d x (.inr hx) h
    · exact c _ h _ (List.mem_map_of_mem hx) rfl
  · rintro ⟨⟨a, b⟩, c, d⟩
    refine ⟨⟨a, c, fun x hx y hy e => ?_⟩, ?_⟩
    · obtain ⟨z, hz, rfl⟩ := List.mem_map.1 hy
      exact d z hz (.inr (e ▸ hx))
    · rintro x (h | h)
      · exact b x h
      · exact fun hh => d x h (.inl hh)

theorem newIndex_iff {s s' : PS} (hs : Good s) (id inc : Nat) :
    newIndex s id inc = .ok s' ↔ Fresh s [(id, inc)] ∧ s' = after s [(id, inc)] := by
  have e : after s [(id, inc)] = ⟨(s.next + 1) % 65536, s.recs ++ [⟨id, s.next, inc⟩]⟩ := by
    simp [after, number, Good] at *; rw [hs]; simp
  unfold newIndex
  split
  · rename_i h
    constructor
    · intro h'; cases h'
    · rintro ⟨⟨_, hf⟩, _⟩; exact absurd h (hf _ (List.mem_singleton.2 rfl))
  · rename_i h
    rw [e]
    constructor
    · intro h'
      refine ⟨⟨by simp, ?_⟩, ?_⟩
      · simpa using h
      · injection h' with h'; exact h'.symm
    · rintro ⟨_, rfl⟩; rfl

/-- The conditions checked (or asserted) by a horizontal pack. -/
def PackOk (dbg : Bool) (inc : Nat) (cs : List (Nat × Nat)) : Prop :=
  (InRange inc cs ∧ (dbg = true → NonEmpty cs)) ∧ Covered inc cs

/-- The conditions on a tile pack. -/
def TileOk (dbg : Bool) (inc k : Nat) : Prop := 0 < k ∧ (dbg = true → inc % k = 0)

theorem mark_get (chk : List Bool) (ofs cnt j : Nat) (h : ofs + cnt ≤ chk.length) :
    (chk.take ofs ++ List.replicate cnt true ++ chk.drop (ofs + cnt))[j]?
      = if ofs ≤ j ∧ j < ofs + cnt then some true else chk[j]? := by
  rw [List.append_assoc]
  by_cases h1 : j < ofs
  · rw [List.getElem?_append_left (by simp; omega), List.getElem?_take_of_lt h1, if_neg (by omega)]
  · rw [List.getElem?_append_right (by simp; omega)]
    have hl : (chk.take ofs).length = ofs := by simp; omega
    rw [hl]
    by_cases h2 : j < ofs + cnt
    · rw [List.getElem?_append_left (by simp; omega), if_pos ⟨by omega, h2⟩, List.getElem?_replicate, if_pos (by omega)]
    · rw [List.getElem?_append_right (by simp; omega), if_neg (by omega), List.getElem?_drop, List.length_replicate]
      congr 1; omega

theorem markField_iff (dbg : Bool) (chk chk' : List Bool) (ofs cnt : Nat) :
    markField dbg chk ofs cnt = .ok chk' ↔ (ofs + cnt ≤ chk.length ∧ (dbg = true → 0 < cnt)) ∧
      chk' = chk.take ofs ++ List.replicate cnt true ++ chk.drop (ofs + cnt) := by
  unfold markField
  cases dbg <;> simp
  · split
    · rename_i h
      simp [h]; exact eq_comm
    · rename_i h; simp [h]
  · split
    · rename_i h
      simp
      intros
      omega
    · rename_i h
      split
      · rename_i h2
        simp at h ⊢
        constructor
        · intro e; exact ⟨⟨h2, by omega⟩, e.symm⟩
        · rintro ⟨_, e⟩; exact e.symm
      · rename_i h2; simp [h2]

theorem all_iff (chk : List Bool) : chk.all id = true ↔ ∀ j < chk.length, chk[j]? = some true := by
  rw [List.all_eq_true]
  constructor
  · intro h j hj
    rw [List.getElem?_eq_getElem hj]
    congr 1; exact h _ (List.getElem_mem hj)
  · intro h x hx
    obtain ⟨j, hj, rfl⟩ := List.getElem_of_mem hx
    have := h j hj
    rw [List.getElem?_eq_getElem hj] at this
    simpa using this

/-- `chk` marks exactly the neurons of the fields `done`. -/
def Marks (inc : Nat) (chk : List Bool) (done : List (Nat × Nat)) : Prop :=
  chk.length = inc ∧ ∀ j < inc, (chk[j]? = some true ↔ ∃ c ∈ done, Covers c j)

theorem marks_nil (inc : Nat) : Marks inc (prepareCheck inc) [] := by
  refine ⟨by simp [prepareCheck], fun j hj => ?_⟩
  simp [prepareCheck, List.getElem?_replicate, hj]

theorem marks_step {inc : Nat} {chk : List Bool} {done} (h : Marks inc chk done) (ofs cnt : Nat) (hr : ofs + cnt ≤ inc) :
    Marks inc (chk.take ofs ++ List.replicate cnt true ++ chk.drop (ofs + cnt)) (done ++ [(ofs, cnt)]) := by
  obtain ⟨hl, hm⟩ := h
  refine ⟨by simp; omega, fun j hj => ?_⟩
  rw [mark_get _ _ _ _ (by omega)]
  simp only [List.mem_append, List.mem_singleton, or_and_right, exists_or, exists_eq_left]
  by_cases hc : ofs ≤ j ∧ j < ofs + cnt
  · rw [if_pos hc]; simp [Covers, hc]
  · rw [if_neg hc, hm j hj]; simp only [Covers, hc, or_false]

mutual
theorem preinit_iff (dbg : Bool) (l : Layer) (inc : Nat) (s s' : PS) (hs : Good s) :
    preinit dbg l inc s = .ok s' ↔
      l.AllPacks (PackOk dbg) (TileOk dbg) inc ∧ Fresh s (l.listing inc) ∧ s' = after s (l.listing inc) := by
  match l with
  | .leaf id _ => simpa [preinit, Layer.AllPacks, Layer.listing] using newIndex_iff hs id inc
  | .vert id f r =>
    have hcons : (Layer.vert id f r).listing inc = [(id, inc)] ++ (f.listing inc ++ r.listing f.neurons) := rfl
    simp only [preinit, bind_ok, Layer.AllPacks]
    rw [hcons, fresh_append, fresh_append, ← after_append, ← after_append]
    constructor
    · rintro ⟨s1, h1, s2, h2, h3⟩
      obtain ⟨f1, rfl⟩ := (newIndex_iff hs id inc).1 h1
      obtain ⟨p2, f2, rfl⟩ := (preinit_iff dbg f inc _ _ (after_good _ _)).1 h2
      obtain ⟨p3, f3, rfl⟩ := (preinitStack_iff dbg r f.neurons _ _ (after_good _ _)).1 h3
      exact ⟨⟨p2, p3⟩, ⟨f1, f2, f3⟩, rfl⟩
    · rintro ⟨⟨p2, p3⟩, ⟨f1, f2, f3⟩, rfl⟩
      exact ⟨_, (newIndex_iff hs id inc).2 ⟨f1, rfl⟩, _, (preinit_iff dbg f inc _ _ (after_good _ _)).2 ⟨p2, f2, rfl⟩,
        (preinitStack_iff dbg r f.neurons _ _ (after_good _ _)).2 ⟨p3, f3, rfl⟩⟩
  | .horiz id add fs =>
    have hcons : (Layer.horiz id add fs).listing inc = [(id, inc)] ++ fs.listing := rfl
    simp only [preinit, bind_ok, Layer.AllPacks]
    rw [hcons, fresh_append, ← after_append]
    constructor
    · rintro ⟨s1, h1, h2⟩
      obtain ⟨f1, rfl⟩ := (newIndex_iff hs id inc).1 h1
      obtain ⟨p2, p3, f2, rfl⟩ := (preinitFields_iff dbg fs inc _ [] _ _ (after_good _ _) (marks_nil inc)).1 h2
      exact ⟨⟨by simpa [PackOk] using p2, p3⟩, ⟨f1, f2⟩, rfl⟩
    · rintro ⟨⟨p2, p3⟩, ⟨f1, f2⟩, rfl⟩
      exact ⟨_, (newIndex_iff hs id inc).2 ⟨f1, rfl⟩,
        (preinitFields_iff dbg fs inc _ [] _ _ (after_good _ _) (marks_nil inc)).2 ⟨by simpa [PackOk] using p2, p3, f2, rfl⟩⟩
  | .tile id k l =>
    have hcons : (Layer.tile id k l).listing inc = [(id, inc)] ++ l.listing (inc / k) := rfl
    simp only [preinit, Layer.AllPacks, TileOk]
    by_cases hk : k = 0
    · subst hk; simp; cases dbg <;> simp
    · rw [if_neg hk]
      by_cases hd : dbg = true ∧ ¬ inc % k = 0
      · obtain ⟨h1, h2⟩ := hd
        simp [h1, h2]
      · rw [if_neg (by simpa using hd)]
        rw [bind_ok, hcons, fresh_append, ← after_append]
        have hq : 0 < k ∧ (dbg = true → inc % k = 0) := ⟨by omega, fun h => by
          by_cases h2 : inc % k = 0
          · exact h2
          · exact absurd ⟨h, h2⟩ hd⟩
        constructor
        · rintro ⟨s1, h1, h2⟩
          obtain ⟨f1, rfl⟩ := (newIndex_iff hs id inc).1 h1
          obtain ⟨p2, f2, rfl⟩ := (preinit_iff dbg l _ _ _ (after_good _ _)).1 h2
          exact ⟨⟨hq, p2⟩, ⟨f1, f2⟩, rfl⟩
        · rintro ⟨⟨_, p2⟩, ⟨f1, f2⟩, rfl⟩
          exact ⟨_, (newIndex_iff hs id inc).2 ⟨f1, rfl⟩, (preinit_iff dbg l _ _ _ (after_good _ _)).2 ⟨p2, f2, rfl⟩⟩
theorem preinitStack_iff (dbg : Bool) (st : Stack) (inc : Nat) (s s' : PS) (hs : Good s) :
    preinitStack dbg st inc s = .ok s' ↔
      st.AllPacks (PackOk dbg) (TileOk dbg) inc ∧ Fresh s (st.listing inc) ∧ s' = after s (st.listing inc) := by
  match st with
  | .nil =>
    simp only [preinitStack, Stack.AllPacks, Stack.listing, after_nil hs]
    simp [Fresh]; exact eq_comm
  | .cons l r =>
    have hcons : (Stack.cons l r).listing inc = l.listing inc ++ r.listing l.neurons := rfl
    simp only [preinitStack, bind_ok, Stack.AllPacks]
    rw [hcons, fresh_append, ← after_append]
    constructor
    · rintro ⟨s1, h1, h2⟩
      obtain ⟨p1, f1, rfl⟩ := (preinit_iff dbg l inc _ _ hs).1 h1
      obtain ⟨p2, f2, rfl⟩ := (preinitStack_iff dbg r _ _ _ (after_good _ _)).1 h2
      exact ⟨⟨p1, p2⟩, ⟨f1, f2⟩, rfl⟩
    · rintro ⟨⟨p1, p2⟩, ⟨f1, f2⟩, rfl⟩
      exact ⟨_, (preinit_iff dbg l inc _ _ hs).2 ⟨p1, f1, rfl⟩, (preinitStack_iff dbg r _ _ _ (after_good _ _)).2 ⟨p2, f2, rfl⟩⟩
theorem preinitFields_iff (dbg : Bool) (fs : Fields) (inc : Nat) (chk : List Bool) (done : List (Nat × Nat)) (s s' : PS)
    (hs : Good s) (hm : Marks inc chk done) :
    preinitFields dbg fs chk s = .ok s' ↔
      ((InRange inc fs.coords ∧ (dbg = true → NonEmpty fs.coords)) ∧ Covered inc (done ++ fs.coords)) ∧
      fs.AllPacks (PackOk dbg) (TileOk dbg) ∧ Fresh s fs.listing ∧ s' = after s fs.listing := by
  match fs with
  | .nil =>
    simp only [preinitFields, checkAll, Fields.coords, Fields.AllPacks, Fields.listing, after_nil hs, List.append_nil]
    have hc : chk.all id = true ↔ Covered inc done := by
      rw [all_iff, hm.1]
      exact forall₂_congr fun j hj => hm.2 j hj
    by_cases h : chk.all id = true
    · rw [if_pos h]
      simp only [hc.1 h, InRange, NonEmpty, Fresh]
      simp; exact eq_comm
    · rw [if_neg h]
      simp only [mt hc.2 h, and_false, false_and, iff_false]
      intro h'; cases h'
  | .cons ofs cnt l r =>
    have hcons : (Fields.cons ofs cnt l r).listing = l.listing cnt ++ r.listing := rfl
    have hco : (Fields.cons ofs cnt l r).coords = [(ofs, cnt)] ++ r.coords := rfl
    simp only [preinitFields, bind_ok, Fields.AllPacks]
    rw [hcons, hco, fresh_append, ← after_append, ← List.append_assoc]
    have e1 : InRange inc ([(ofs, cnt)] ++ r.coords) ↔ ofs + cnt ≤ inc ∧ InRange inc r.coords := by
      simp [InRange]
    have e2 : NonEmpty ([(ofs, cnt)] ++ r.coords) ↔ 0 < cnt ∧ NonEmpty r.coords := by
      simp [NonEmpty]
    rw [e1, e2]
    constructor
    · rintro ⟨chk1, h0, s1, h1, h2⟩
      obtain ⟨⟨hr, hd⟩, rfl⟩ := (markField_iff _ _ _ _ _).1 h0
      rw [hm.1] at hr
      obtain ⟨p1, f1, rfl⟩ := (preinit_iff dbg l cnt _ _ hs).1 h1
      obtain ⟨⟨⟨q1, q2⟩, q3⟩, p2, f2, rfl⟩ :=
        (preinitFields_iff dbg r inc _ _ _ _ (after_good _ _) (marks_step hm ofs cnt hr)).1 h2
      exact ⟨⟨⟨⟨hr, q1⟩, fun h => ⟨hd h, q2 h⟩⟩, q3⟩, ⟨p1, p2⟩, ⟨f1, f2⟩, rfl⟩
    · rintro ⟨⟨⟨⟨hr, q1⟩, q2⟩, q3⟩, ⟨p1, p2⟩, ⟨f1, f2⟩, rfl⟩
      exact ⟨_, (markField_iff _ _ _ _ _).2 ⟨⟨by rw [hm.1]; exact hr, fun h => (q2 h).1⟩, rfl⟩, _,
        (preinit_iff dbg l cnt _ _ hs).2 ⟨p1, f1, rfl⟩,
        (preinitFields_iff dbg r inc _ _ _ _ (after_good _ _) (marks_step hm ofs cnt hr)).2
          ⟨⟨⟨q1, fun h => (q2 h).2⟩, q3⟩, p2, f2, rfl⟩⟩
end

theorem newIndex_not_undef (s : PS) (id inc : Nat) : newIndex s id inc ≠ .undef := by
  unfold newIndex; split <;> simp

mutual
/-- No write outside of the check arrays if no field reaches outside, or if the assertions are compiled in. -/
theorem preinit_defined (dbg : Bool) (l : Layer) (inc : Nat) (s : PS)
    (h : dbg = true ∨ l.AllPacks InRange (fun _ k => 0 < k) inc) : preinit dbg l inc s ≠ .undef := by
  match l with
  | .leaf id _ => exact newIndex_not_undef _ _ _
  | .vert id f r =>
    simp only [preinit, Ne, bind_undef, not_or, not_exists, not_and]
    simp only [Layer.AllPacks] at h
    exact ⟨newIndex_not_undef _ _ _, fun s1 _ => ⟨preinit_defined dbg f inc s1 (h.imp_right And.left), fun s2 _ =>
      preinitStack_defined dbg r _ s2 (h.imp_right And.right)⟩⟩
  | .horiz id add fs =>
    simp only [preinit, Ne, bind_undef, not_or, not_exists, not_and]
    simp only [Layer.AllPacks] at h
    exact ⟨newIndex_not_undef _ _ _, fun s1 _ => preinitFields_defined dbg fs inc _ s1 (by simp [prepareCheck]) h⟩
  | .tile id k l =>
    simp only [preinit]
    simp only [Layer.AllPacks] at h
    by_cases hk : k = 0
    · rw [if_pos hk]
      rcases h with h | h
      · simp [h]
      · exact absurd h.1 (by omega)
    · rw [if_neg hk]
      split
      · simp
      · simp only [Ne, bind_undef, not_or, not_exists, not_and]
        exact ⟨newIndex_not_undef _ _ _, fun s1 _ => preinit_defined dbg l _ s1 (h.imp_right And.right)⟩
theorem preinitStack_defined (dbg : Bool) (st : Stack) (inc : Nat) (s : PS)
    (h : dbg = true ∨ st.AllPacks InRange (fun _ k => 0 < k) inc) : preinitStack dbg st inc s ≠ .undef := by
  match st with
  | .nil => simp [preinitStack]
  | .cons l r =>
    simp only [preinitStack, Ne, bind_undef, not_or, not_exists, not_and]
    simp only [Stack.AllPacks] at h
    exact ⟨preinit_defined dbg l inc s (h.imp_right And.left), fun s2 _ => preinitStack_defined dbg r _ s2 (h.imp_right And.right)⟩
theorem preinitFields_defined (dbg : Bool) (fs : Fields) (inc : Nat) (chk : List Bool) (s : PS) (hl : chk.length = inc)
    (h : dbg = true ∨ (InRange inc fs.coords ∧ fs.AllPacks InRange (fun _ k => 0 < k))) : preinitFields dbg fs chk s ≠ .undef := by
  match fs with
  | .nil => simp only [preinitFields, checkAll]; split <;> simp
  | .cons ofs cnt l r =>
    simp only [preinitFields, Ne, bind_undef, not_or, not_exists, not_and]
    simp only [Fields.AllPacks, Fields.coords, InRange, List.mem_cons, forall_eq_or_imp] at h
    refine ⟨?_, fun chk1 h1 => ⟨preinit_defined dbg l cnt s (h.imp_right fun h => h.2.1), fun s2 _ =>
      preinitFields_defined dbg r inc chk1 s2 ?_ (h.imp_right fun h => ⟨h.1.2, h.2.2⟩)⟩⟩
    · unfold markField
      rcases h with h | h
      · split
        · simp
        · rename_i h2
          rw [if_pos (by simp [h] at h2; omega)]; simp
      · split
        · simp
        · rw [if_pos (by omega)]; simp
    · obtain ⟨⟨hr, _⟩, rfl⟩ := (markField_iff _ _ _ _ _).1 h1
      simp; omega
end

end Nntl.Layers
