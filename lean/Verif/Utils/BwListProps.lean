import Verif.Utils.BwList
/-!
C55: decisions of the black/white list, for all histories of calls.

Specification: what the user asked for, read off the sequence of calls alone.
-/
namespace Nntl.Utils.Bw


/-- The mode a call asks for. -/
def Op.asks : Op → Option Bool
  | .mode w => some w
  | .type w _ => some w
  | .types w _ => some w
  | .idx w _ => some w
  | .idxs w _ => some w
  | _ => none

/-- The call names layer `i`, which is of type `t`. -/
def Op.names (i t : Nat) : Op → Prop
  | .type _ t' => t' = t
  | .types _ ts => t ∈ ts
  | .idx _ i' => i' = i
  | .idxs _ is => i ∈ is
  | _ => False

/-- The call forgets all names. -/
def Op.forgets : Op → Prop
  | .reset => True
  | .mode _ => True
  | _ => False

/-- The mode after a history that started in mode `d`: the last one asked for. -/
def modeAfter (d : Bool) (h : List Op) : Bool := ((h.filterMap Op.asks).getLast?).getD d

/-- Layer `i` of type `t` was named and the name was not forgotten by a later mode call or reset. -/
def Named (i t : Nat) (h : List Op) : Prop :=
  ∃ pre o post, h = pre ++ o :: post ∧ o.names i t ∧ ∀ p ∈ post, ¬ p.forgets

/-- The call only walks over the layers of the network, whose types are given by `ty`. -/
def Op.walks (n : Nat) (ty : Nat → Nat) : Op → Prop
  | .layer i t => i < n ∧ t = ty i
  | _ => False

theorem run_append {dbg : Bool} : ∀ (a b : List Op) (s : St), run dbg s (a ++ b) = (run dbg s a).bind fun s => run dbg s b
  | [], _, _ => rfl
  | o :: a, b, s => by
    show (step dbg s o).bind _ = ((step dbg s o).bind _).bind _
    cases step dbg s o with
    | ok s' => exact run_append a b s'
    | stop => rfl
    | ub => rfl

theorem modeAfter_snoc (d : Bool) (h : List Op) (o : Op) : modeAfter d (h ++ [o]) = (o.asks).getD (modeAfter d h) := by
  unfold modeAfter
  rw [List.filterMap_append]
  cases ho : o.asks with
  | none => simp [ho]
  | some w => simp [ho]

theorem named_snoc (i t : Nat) (h : List Op) (o : Op) : Named i t (h ++ [o]) ↔ o.names i t ∨ (¬ o.forgets ∧ Named i t h) := by
  constructor
  · rintro ⟨pre, p, post, he, hn, hf⟩
    rcases List.eq_nil_or_concat post with rfl | ⟨post', q, rfl⟩
    · have := List.append_inj' he (by simp)
      rw [List.cons.injEq] at this
      exact Or.inl (this.2.1 ▸ hn)
    · rw [List.concat_eq_append, ← List.cons_append, ← List.append_assoc] at he
      have := List.append_inj' he (by simp)
      simp only [List.cons.injEq, and_true] at this
      refine Or.inr ⟨this.2 ▸ hf q (by simp), pre, p, post', this.1, hn, fun x hx => hf x (by simp [hx])⟩
  · rintro (hn | ⟨hf, pre, p, post, rfl, hn, hp⟩)
    · exact ⟨h, o, [], rfl, hn, by simp⟩
    · refine ⟨pre, p, post ++ [o], by simp, hn, ?_⟩
      intro q hq
      rcases List.mem_append.1 hq with hq | hq
      · exact hp q hq
      · rw [List.mem_singleton.1 hq]; exact hf

/-- What the state means. -/
structure Means (d : Bool) (h : List Op) (s : St) : Prop where
  white : s.white = modeAfter d h
  named : ∀ i t, (t ∈ s.types ∨ i ∈ s.idxs) ↔ Named i t h

theorem checkSet_ok {s s' : St} {w : Bool} (h : s.checkSet true w = .ok s') : s'.white = w ∧ s'.types = s.types ∧ s'.idxs = s.idxs := by
  unfold St.checkSet at h
  split at h
  · next hw => cases h; exact ⟨hw, rfl, rfl⟩
  · split at h
    · cases h
    · next hc =>
      cases h
      simp only [Bool.true_and, Bool.or_eq_true, Bool.not_eq_true', not_or, Bool.not_eq_false, List.isEmpty_iff] at hc
      simp [St.setMode, St.reset, hc]

theorem Out.bind_ok {α β : Type} {x : Out α} {f : α → Out β} {b : β} (h : x.bind f = .ok b) : ∃ a, x = .ok a ∧ f a = .ok b := by
  cases x with
  | ok a => exact ⟨a, rfl, h⟩
  | stop => cases h
  | ub => cases h

theorem step_means {d : Bool} {h : List Op} {s s' : St} {o : Op} (hm : Means d h s) (hs : step true s o = .ok s') : Means d (h ++ [o]) s' := by
  constructor
  · rw [modeAfter_snoc]
    cases o with
    | reset => cases hs; exact hm.white
    | mode w => cases hs; rfl
    | type w t => obtain ⟨s1, h1, h2⟩ := Out.bind_ok hs; cases h2; exact (checkSet_ok h1).1
    | idx w t => obtain ⟨s1, h1, h2⟩ := Out.bind_ok hs; cases h2; exact (checkSet_ok h1).1
    | types w t =>
      obtain ⟨s1, h1, h2⟩ := Out.bind_ok hs
      unfold addTypes at h2
      split at h2
      · cases h2
      · cases h2; exact (checkSet_ok h1).1
    | idxs w t =>
      obtain ⟨s1, h1, h2⟩ := Out.bind_ok hs
      unfold addIdxs at h2
      split at h2
      · cases h2
      · cases h2; exact (checkSet_ok h1).1
    | init n => cases hs; exact hm.white
    | layer i t =>
      show _ = modeAfter d h
      rw [← hm.white]
      have hs : updateLayer true s i t = .ok s' := hs
      unfold updateLayer at hs
      split at hs
      · cases hs
      split at hs
      · split at hs
        · cases hs; rfl
        · cases hs
      · cases hs; rfl
  · intro i t
    rw [named_snoc, ← hm.named]
    cases o with
    | reset => cases hs; simp [St.reset, Op.names, Op.forgets]
    | mode w => cases hs; simp [St.setMode, St.reset, Op.names, Op.forgets]
    | type w t' =>
      obtain ⟨s1, h1, h2⟩ := Out.bind_ok hs; cases h2
      obtain ⟨-, e1, e2⟩ := checkSet_ok h1
      simp only [e1, e2, List.mem_append, List.mem_singleton, Op.names, Op.forgets, not_false_eq_true, true_and]
      constructor
      · rintro ((h | h) | h)
        · exact Or.inr (Or.inl h)
        · exact Or.inl h.symm
        · exact Or.inr (Or.inr h)
      · rintro (h | h | h)
        · exact Or.inl (Or.inr h.symm)
        · exact Or.inl (Or.inl h)
        · exact Or.inr h
    | idx w t' =>
      obtain ⟨s1, h1, h2⟩ := Out.bind_ok hs; cases h2
      obtain ⟨-, e1, e2⟩ := checkSet_ok h1
      simp only [e1, e2, List.mem_append, List.mem_singleton, Op.names, Op.forgets, not_false_eq_true, true_and]
      constructor
      · rintro (h | (h | h))
        · exact Or.inr (Or.inl h)
        · exact Or.inr (Or.inr h)
        · exact Or.inl h.symm
      · rintro (h | h | h)
        · exact Or.inr (Or.inr h.symm)
        · exact Or.inl h
        · exact Or.inr (Or.inl h)
    | types w ts =>
      obtain ⟨s1, h1, h2⟩ := Out.bind_ok hs
      obtain ⟨-, e1, e2⟩ := checkSet_ok h1
      unfold addTypes at h2
      split at h2
      · cases h2
      · next hc =>
        cases h2
        simp only [Bool.true_and, Bool.not_eq_true', Bool.not_eq_false, List.isEmpty_iff, e1] at hc
        simp [e2, Op.names, Op.forgets, hc]
    | idxs w ts =>
      obtain ⟨s1, h1, h2⟩ := Out.bind_ok hs
      obtain ⟨-, e1, e2⟩ := checkSet_ok h1
      unfold addIdxs at h2
      split at h2
      · cases h2
      · next hc =>
        cases h2
        simp only [Bool.true_and, Bool.not_eq_true', Bool.not_eq_false, List.isEmpty_iff, e2] at hc
        simp only [e1, Op.names, Op.forgets, hc, not_false_eq_true, true_and, List.not_mem_nil, or_false]
        exact Or.comm
    | init n => cases hs; simp [Op.names, Op.forgets]
    | layer i' t' =>
      have hs : updateLayer true s i' t' = .ok s' := hs
      have : s'.types = s.types ∧ s'.idxs = s.idxs := by
        unfold updateLayer at hs
        split at hs
        · cases hs
        split at hs
        · split at hs
          · cases hs; exact ⟨rfl, rfl⟩
          · cases hs
        · cases hs; exact ⟨rfl, rfl⟩
      simp [this, Op.names, Op.forgets]

theorem run_means (d : Bool) : ∀ (l h : List Op) (s s' : St), Means d h s → run true s l = .ok s' → Means d (h ++ l) s'
  | [], h, s, s', hm, hr => by cases hr; simpa using hm
  | o :: l, h, s, s', hm, hr => by
    obtain ⟨s1, h1, h2⟩ := Out.bind_ok hr
    have := run_means d l (h ++ [o]) s1 s' (step_means hm h1) h2
    simpa using this

open Classical in
/-- A walk keeps mode and names, and leaves the right flag for every layer it visits. -/
theorem walk_result (n : Nat) (ty : Nat → Nat) : ∀ (l : List Op) (s s' : St), s.cond.length = n → (∀ o ∈ l, o.walks n ty) → run true s l = .ok s' →
    s'.cond.length = n ∧ s'.white = s.white ∧ s'.types = s.types ∧ s'.idxs = s.idxs ∧
    ∀ i, i < n → s'.cond[i]? = if (∃ t, Op.layer i t ∈ l) ∧ (ty i ∈ s.types ∨ i ∈ s.idxs) then some s.white else s.cond[i]?
  | [], s, s', hn, _, hr => by cases hr; simp [hn]
  | o :: l, s, s', hn, hw, hr => by
    obtain ⟨s1, h1, h2⟩ := Out.bind_ok hr
    have hwo := hw o (by simp)
    cases o with
    | layer j t =>
      obtain ⟨hj, rfl⟩ := hwo
      have h1 : updateLayer true s j (ty j) = .ok s1 := h1
      unfold updateLayer at h1
      have hany : (s.types.any (fun e => e == ty j) || s.idxs.any (fun e => e == j)) = true ↔ (ty j ∈ s.types ∨ j ∈ s.idxs) := by
        simp [List.any_eq_true]
      split at h1
      · cases h1
      split at h1
      · next hin =>
        rw [hany] at hin
        rw [if_pos (hn ▸ hj)] at h1
        cases h1
        obtain ⟨e1, e2, e3, e4, e5⟩ := walk_result n ty l _ s' (by simpa using hn) (fun o ho => hw o (by simp [ho])) h2
        refine ⟨e1, e2, e3, e4, fun i hi => ?_⟩
        rw [e5 i hi]
        show (if (∃ t, Op.layer i t ∈ l) ∧ (ty i ∈ s.types ∨ i ∈ s.idxs) then some s.white else (s.cond.set j s.white)[i]?) = _
        by_cases hij : i = j
        · subst hij
          rw [List.getElem?_set_self (hn ▸ hj)]
          rw [if_pos (show (∃ t, Op.layer i t ∈ Op.layer i (ty i) :: l) ∧ _ from ⟨⟨_, List.mem_cons_self⟩, hin⟩)]
          split <;> rfl
        · rw [List.getElem?_set_ne (fun h => hij h.symm)]
          have : (∃ t, Op.layer i t ∈ Op.layer j (ty j) :: l) ↔ ∃ t, Op.layer i t ∈ l := by
            simp [hij]
          simp only [this]
      · next hin =>
        rw [hany] at hin
        cases h1
        obtain ⟨e1, e2, e3, e4, e5⟩ := walk_result n ty l s s' hn (fun o ho => hw o (by simp [ho])) h2
        refine ⟨e1, e2, e3, e4, fun i hi => ?_⟩
        rw [e5 i hi]
        by_cases hij : i = j
        · subst hij
          rw [if_neg (fun h => hin h.2), if_neg (fun h => hin h.2)]
        · have : (∃ t, Op.layer i t ∈ Op.layer j (ty j) :: l) ↔ ∃ t, Op.layer i t ∈ l := by
            simp [hij]
          simp only [this]
    | _ => exact hwo.elim

/-- **C55.** Any calls `h` that violate no assertion, then the initialisation for `n` layers and a walk that visits layer `i`
(possibly more than once, in any order): the layer is allowed exactly if the list is a whitelist and the layer was named, or the list is a
blacklist and the layer was not named. -/
theorem listed_iff (d : Bool) (h walk : List Op) (n : Nat) (ty : Nat → Nat) (s : St) (i t : Nat)
    (hw : ∀ o ∈ walk, o.walks n ty) (hi : Op.layer i t ∈ walk) (hr : run true (St.new d) (h ++ .init n :: walk) = .ok s) :
    ∃ b, allowed s i = .ok b ∧
      (b = true ↔ (modeAfter d h = true ∧ Named i (ty i) h) ∨ (modeAfter d h = false ∧ ¬ Named i (ty i) h)) := by
  rw [run_append] at hr
  obtain ⟨s1, h1, h2⟩ := Out.bind_ok hr
  obtain ⟨s2, h3, h4⟩ := Out.bind_ok h2
  cases h3
  have hm : Means d h s1 := run_means d h [] (St.new d) s1 ⟨rfl, fun i t => by simp [St.new, Named]⟩ h1
  obtain ⟨e1, e2, e3, e4, e5⟩ := walk_result n ty walk _ s (by simp) hw h4
  have hin := (hw _ hi).1
  have := e5 i hin
  unfold allowed
  rw [this]
  by_cases hN : Named i (ty i) h
  · rw [if_pos ⟨⟨t, hi⟩, (hm.named i (ty i)).2 hN⟩]
    refine ⟨_, rfl, ?_⟩
    show s1.white = true ↔ _
    rw [hm.white]
    simp [hN]
  · rw [if_neg (fun h => hN ((hm.named i (ty i)).1 h.2)), List.getElem?_replicate]
    simp only [hin, if_true]
    refine ⟨_, rfl, ?_⟩
    rw [hm.white]
    simp [hN]

/-- A layer of the walk's range that the walk does not visit keeps the default of the mode. -/
theorem unvisited_default (d : Bool) (h walk : List Op) (n : Nat) (ty : Nat → Nat) (s : St) (i : Nat) (hin : i < n)
    (hw : ∀ o ∈ walk, o.walks n ty) (hi : ∀ t, Op.layer i t ∉ walk) (hr : run true (St.new d) (h ++ .init n :: walk) = .ok s) :
    allowed s i = .ok (!modeAfter d h) := by
  rw [run_append] at hr
  obtain ⟨s1, h1, h2⟩ := Out.bind_ok hr
  obtain ⟨s2, h3, h4⟩ := Out.bind_ok h2
  cases h3
  have hm : Means d h s1 := run_means d h [] (St.new d) s1 ⟨rfl, fun i t => by simp [St.new, Named]⟩ h1
  obtain ⟨e1, e2, e3, e4, e5⟩ := walk_result n ty walk _ s (by simp) hw h4
  have := e5 i hin
  unfold allowed
  rw [this, if_neg (fun ⟨⟨t, ht⟩, _⟩ => hi t ht), List.getElem?_replicate]
  simp [hin, hm.white]

/-- Switching the mode empties the lists: right after it no layer is named, whatever was done before. -/
theorem switch_empties (d : Bool) (h : List Op) (w : Bool) (i t : Nat) (s : St) (hr : run true (St.new d) (h ++ [.mode w]) = .ok s) :
    s.types = [] ∧ s.idxs = [] ∧ s.white = w ∧ ¬ Named i t (h ++ [.mode w]) := by
  rw [run_append] at hr
  obtain ⟨s1, h1, h2⟩ := Out.bind_ok hr
  cases h2
  refine ⟨rfl, rfl, rfl, ?_⟩
  rw [named_snoc]
  simp [Op.names, Op.forgets]

/-- Without assertions naming a container after single names silently drops the single names: layer 1 was whitelisted but is refused. -/
theorem release_drops_names : ∃ s, run false (St.new false) [.idx true 1, .idxs true [2], .init 3, .layer 0 7, .layer 1 7, .layer 2 7] = .ok s ∧
    allowed s 1 = .ok false ∧ allowed s 2 = .ok true := ⟨_, rfl, rfl, rfl⟩

/-- Calls that violate no assertion do the same in a build without assertions, so `listed_iff` holds there too. -/
theorem release_same : ∀ (h : List Op) (s s' : St), run true s h = .ok s' → run false s h = .ok s'
  | [], _, _, hr => hr
  | o :: h, s, s', hr => by
    obtain ⟨s1, h1, h2⟩ := Out.bind_ok hr
    have hc : ∀ w x, s.checkSet true w = .ok x → s.checkSet false w = .ok x := by
      intro w x hx
      unfold St.checkSet at hx ⊢
      split at hx
      · next hw => rw [if_pos hw]; exact hx
      · next hw =>
        rw [if_neg hw]
        split at hx
        · cases hx
        · exact hx
    have hstep : step false s o = .ok s1 := by
      cases o with
      | reset => exact h1
      | mode w => exact h1
      | type w t => obtain ⟨x, e1, e2⟩ := Out.bind_ok h1; show (s.checkSet false w).bind _ = _; rw [hc w x e1]; exact e2
      | idx w t => obtain ⟨x, e1, e2⟩ := Out.bind_ok h1; show (s.checkSet false w).bind _ = _; rw [hc w x e1]; exact e2
      | types w t =>
        obtain ⟨x, e1, e2⟩ := Out.bind_ok h1; show (s.checkSet false w).bind _ = _; rw [hc w x e1]
        show addTypes false x t = _
        unfold addTypes at e2 ⊢
        split at e2
        · cases e2
        · exact e2
      | idxs w t =>
        obtain ⟨x, e1, e2⟩ := Out.bind_ok h1; show (s.checkSet false w).bind _ = _; rw [hc w x e1]
        show addIdxs false x t = _
        unfold addIdxs at e2 ⊢
        split at e2
        · cases e2
        · exact e2
      | init n => exact h1
      | layer i t =>
        have h1 : updateLayer true s i t = .ok s1 := h1
        show updateLayer false s i t = .ok s1
        unfold updateLayer at h1 ⊢
        split at h1
        · cases h1
        · exact h1
    show (step false s o).bind _ = _
    rw [hstep]
    exact release_same h s1 s' h2

/-- With assertions the same calls stop the program. -/
theorem debug_stops : run true (St.new false) [.idx true 1, .idxs true [2], .init 3] = .stop := rfl

/-- A mode call or a reset between the initialisation and the question leaves no flags: the question reads outside the vector. -/
theorem question_after_reset : ∃ s, run true (St.new false) [.init 3, .layer 0 7, .reset] = .ok s ∧ allowed s 0 = .ub := ⟨_, rfl, rfl⟩

/-- The hypotheses of `listed_iff` are met: whitelist by type and by index, with an implicit mode switch. -/
example : ∃ s, run true (St.new false) ([.idx true 0, .type true 5] ++ .init 3 :: [.layer 0 7, .layer 1 5, .layer 2 7]) = .ok s ∧
    allowed s 0 = .ok true ∧ allowed s 1 = .ok true ∧ allowed s 2 = .ok false := ⟨_, rfl, rfl, rfl, rfl⟩

end Nntl.Utils.Bw
