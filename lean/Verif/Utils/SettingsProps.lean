import Verif.Utils.Settings
import Mathlib.Data.List.Nodup
import Mathlib.Data.List.Perm.Basic
/-!
C57: the settings storage is a map with a default, for all histories.

Specification: read off the history of calls alone.
-/
namespace Nntl.Utils.Ls
variable {α : Type}

/-- The last default set in the history, or the initial one. -/
def lastDefault (d : α) : List (Op α) → α
  | [] => d
  | .setDefault v :: os => lastDefault v os
  | .add _ _ :: os => lastDefault d os

/-- The last settings added for the layer, if any. -/
def lastAdded (i : Nat) (cur : Option α) : List (Op α) → Option α
  | [] => cur
  | .add j v :: os => lastAdded i (if j = i then some v else cur) os
  | .setDefault _ :: os => lastAdded i cur os

/-- The state holds a default `d` and the function `f` from layers to settings. -/
structure Holds (s : St α) (d : α) (f : Nat → Option α) : Prop where
  front : ∃ n rest, s.keeper = (n, d) :: rest ∧ ∀ e ∈ s.map, e.2 ≠ n
  ids : (s.keeper.map (·.1)).Nodup
  old : ∀ e ∈ s.keeper, e.1 < s.fresh
  keys : (s.map.map (·.1)).Nodup
  vals : (s.map.map (·.2)).Perm (s.keeper.tail.map (·.1))
  sound : ∀ i, match mapAt s.map i with
    | none => f i = none
    | some it => ∃ v, (it, v) ∈ s.keeper ∧ f i = some v

theorem find_mem {l : List (Nat × α)} (h : (l.map (·.1)).Nodup) {it : Nat} {v : α} (hm : (it, v) ∈ l) : l.find? (fun e => e.1 == it) = some (it, v) := by
  induction l with
  | nil => cases hm
  | cons e l ih =>
    rw [List.map_cons, List.nodup_cons] at h
    rw [List.find?_cons]
    rcases List.mem_cons.1 hm with rfl | hm
    · simp
    · have : (e.1 == it) = false := by
        rw [beq_eq_false_iff_ne]
        rintro rfl
        exact h.1 (List.mem_map.2 ⟨_, hm, rfl⟩)
      rw [this]
      exact ih h.2 hm

theorem mapAt_set (m : List (Nat × Nat)) (k v i : Nat) : mapAt (mapSet m k v) i = if i = k then some v else mapAt m i := by
  unfold mapAt mapSet
  rw [List.find?_cons]
  by_cases h : i = k
  · subst h; simp
  · rw [show (k == i) = false from beq_eq_false_iff_ne.2 (Ne.symm h), if_neg h]
    dsimp only
    congr 1
    rw [List.find?_filter]
    congr 1
    funext e
    by_cases he : e.1 = i
    · simp [he, h]
    · simp [he]

theorem mapAt_mem {m : List (Nat × Nat)} {i it : Nat} (h : mapAt m i = some it) : (i, it) ∈ m := by
  unfold mapAt at h
  rw [Option.map_eq_some_iff] at h
  obtain ⟨e, he, rfl⟩ := h
  have h1 := List.mem_of_find?_eq_some he
  have h2 := List.find?_some he
  rw [beq_iff_eq] at h2
  subst h2
  exact h1

theorem mapAt_none {m : List (Nat × Nat)} {i : Nat} (h : mapAt m i = none) : ∀ e ∈ m, e.1 ≠ i := by
  unfold mapAt at h
  rw [Option.map_eq_none_iff, List.find?_eq_none] at h
  intro e he hi
  exact h e he (by simp [hi])

theorem filter_ne_of_not_mem {β : Type} {l : List (Nat × β)} {k : Nat} (h : ∀ e ∈ l, e.1 ≠ k) : l.filter (fun e => e.1 != k) = l := by
  rw [List.filter_eq_self]
  intro e he
  simpa using h e he

theorem new_holds (d : α) : Holds (St.new d) d (fun _ => none) where
  front := ⟨0, [], rfl, by simp [St.new]⟩
  ids := by simp [St.new]
  old := by simp [St.new]
  keys := by simp [St.new]
  vals := by simp [St.new]
  sound := fun i => by simp [St.new, mapAt]

theorem Holds.get {s : St α} {d : α} {f : Nat → Option α} (h : Holds s d f) (i : Nat) : s.get i = .ok ((f i).getD d) := by
  unfold St.get
  have := h.sound i
  cases hm : mapAt s.map i with
  | none =>
    rw [hm] at this
    dsimp only at this ⊢
    obtain ⟨n, rest, hk, -⟩ := h.front
    unfold St.getDefault
    rw [hk, this]
    rfl
  | some it =>
    rw [hm] at this
    obtain ⟨v, hv, hf⟩ := this
    dsimp only
    unfold deref
    rw [find_mem h.ids hv, hf]
    rfl

/-- Appending a fresh node for a layer that has no node. -/
theorem push_holds {s : St α} {d : α} {f : Nat → Option α} (h : Holds s d f) (i : Nat) (v : α) (hi : ∀ e ∈ s.map, e.1 ≠ i) :
    Holds ⟨s.keeper ++ [(s.fresh, v)], mapSet s.map i s.fresh, s.fresh + 1⟩ d (fun j => if j = i then some v else f j) := by
  obtain ⟨n, rest, hk, hn⟩ := h.front
  have hn' : n < s.fresh := h.old (n, d) (by rw [hk]; exact List.mem_cons_self)
  have hms : mapSet s.map i s.fresh = (i, s.fresh) :: s.map := by unfold mapSet; rw [filter_ne_of_not_mem hi]
  refine ⟨⟨n, rest ++ [(s.fresh, v)], by simp [hk], ?_⟩, ?_, ?_, ?_, ?_, ?_⟩
  · intro e he
    simp only [hms, List.mem_cons] at he
    rcases he with rfl | he
    · exact fun h => by dsimp only at h; omega
    · exact hn e he
  · simp only [List.map_append, List.map_cons, List.map_nil]
    rw [List.nodup_append]
    refine ⟨h.ids, by simp, ?_⟩
    intro a ha b hb
    rw [List.mem_singleton.1 hb]
    obtain ⟨e, he, rfl⟩ := List.mem_map.1 ha
    have := h.old e he
    omega
  · intro e he
    rcases List.mem_append.1 he with he | he
    · have := h.old e he; exact Nat.lt_succ_of_lt this
    · rw [List.mem_singleton.1 he]; exact Nat.lt_succ_self _
  · rw [hms, List.map_cons, List.nodup_cons]
    refine ⟨?_, h.keys⟩
    intro hmem
    obtain ⟨e, he, hei⟩ := List.mem_map.1 hmem
    exact hi e he hei
  · have hv := h.vals
    rw [hk, List.tail_cons] at hv
    simp only [hms, hk, List.map_cons, List.cons_append, List.tail_cons, List.map_append, List.map_nil]
    exact (List.Perm.cons _ hv).trans (List.perm_append_comm (l₁ := [s.fresh]))
  · intro j
    dsimp only
    rw [mapAt_set]
    by_cases hj : j = i
    · simp only [hj, if_true]
      exact ⟨v, by simp, rfl⟩
    · simp only [hj, if_false]
      have := h.sound j
      cases hm : mapAt s.map j with
      | none => rw [hm] at this; exact this
      | some it =>
        rw [hm] at this
        obtain ⟨w, hw, hf⟩ := this
        exact ⟨w, by simp [hw], hf⟩

/-- Removing the node of a layer together with its key. -/
theorem drop_holds {s : St α} {d : α} {f : Nat → Option α} (h : Holds s d f) {i it : Nat} (hi : mapAt s.map i = some it) :
    Holds ⟨s.keeper.filter fun e => e.1 != it, s.map.filter fun e => e.1 != i, s.fresh⟩ d (fun j => if j = i then none else f j) := by
  obtain ⟨n, rest, hk, hn⟩ := h.front
  have hmem := mapAt_mem hi
  have hne : n ≠ it := fun e => hn _ hmem e.symm
  have hvnd : (s.map.map (·.2)).Nodup := by
    have : (s.keeper.tail.map (·.1)).Nodup := by
      have := h.ids; rw [hk, List.map_cons, List.nodup_cons] at this; rw [hk]; exact this.2
    exact h.vals.nodup_iff.2 this
  refine ⟨⟨n, rest.filter fun e => e.1 != it, by simp [hk, hne], ?_⟩, ?_, ?_, ?_, ?_, ?_⟩
  · intro e he
    exact hn e (List.mem_filter.1 he).1
  · exact h.ids.sublist (List.filter_sublist.map _)
  · exact fun e he => h.old e (List.mem_filter.1 he).1
  · exact h.keys.sublist (List.filter_sublist.map _)
  · have hv := h.vals
    rw [hk, List.tail_cons] at hv
    simp only [hk, List.filter_cons, show ((n != it) = true) from by simpa using hne, if_true, List.tail_cons]
    have e1 : (s.map.filter fun e => e.1 != i) = s.map.filter fun e => e.2 != it := by
      apply List.filter_congr
      intro e he
      by_cases h1 : e.1 = i
      · have h2 : e.2 = it := by
          have := List.inj_on_of_nodup_map h.keys he hmem h1
          rw [this]
        simp [h1, h2]
      · have h2 : e.2 ≠ it := by
          intro h2
          have := List.inj_on_of_nodup_map hvnd he hmem h2
          rw [this] at h1
          exact h1 rfl
        rw [bne_iff_ne.2 h1, bne_iff_ne.2 h2]
    have e2 : (s.map.filter fun e => e.2 != it).map (·.2) = (s.map.map (·.2)).filter (fun x => x != it) := by
      rw [List.filter_map]; rfl
    have e3 : (rest.filter fun e => e.1 != it).map (·.1) = (rest.map (·.1)).filter (fun x => x != it) := by
      rw [List.filter_map]; rfl
    rw [e1, e2, e3]
    exact hv.filter _
  · intro j
    dsimp only
    have hat : mapAt (s.map.filter fun e => e.1 != i) j = if j = i then none else mapAt s.map j := by
      unfold mapAt
      rw [List.find?_filter]
      by_cases hj : j = i
      · rw [if_pos hj, Option.map_eq_none_iff, List.find?_eq_none]
        intro e _
        subst hj
        simp
      · rw [if_neg hj]
        congr 2
        funext e
        by_cases he : e.1 = j
        · simp [he, hj]
        · simp [he]
    rw [hat]
    by_cases hj : j = i
    · simp only [hj, if_true]
    · simp only [hj, if_false]
      have := h.sound j
      cases hm : mapAt s.map j with
      | none => rw [hm] at this; exact this
      | some it' =>
        rw [hm] at this
        obtain ⟨w, hw, hf⟩ := this
        refine ⟨w, List.mem_filter.2 ⟨hw, ?_⟩, hf⟩
        have : it' ≠ it := by
          rintro rfl
          have := List.inj_on_of_nodup_map hvnd (mapAt_mem hm) hmem rfl
          exact hj (congrArg Prod.fst this)
        simpa using this

theorem add_holds {s : St α} {d : α} {f : Nat → Option α} (h : Holds s d f) (i : Nat) (v : α) :
    ∃ s', s.add i v = .ok s' ∧ Holds s' d (fun j => if j = i then some v else f j) := by
  unfold St.add
  cases hm : mapAt s.map i with
  | none => exact ⟨_, rfl, push_holds h i v (mapAt_none hm)⟩
  | some it =>
    have hs := h.sound i
    rw [hm] at hs
    obtain ⟨w, hw, -⟩ := hs
    have : erase s.keeper it = .ok (s.keeper.filter fun e => e.1 != it) := by
      unfold erase
      rw [if_pos (List.any_eq_true.2 ⟨_, hw, by simp⟩)]
    dsimp only
    rw [this]
    have hd := drop_holds h hm
    have hp := push_holds hd i v (fun e he => by simpa using (List.mem_filter.1 he).2)
    refine ⟨_, rfl, ?_⟩
    have e1 : mapSet (s.map.filter fun e => e.1 != i) i s.fresh = mapSet s.map i s.fresh := by
      unfold mapSet; rw [List.filter_filter]; simp
    have e2 : (fun j => if j = i then some v else if j = i then none else f j) = fun j => if j = i then some v else f j := by
      funext j; split <;> rfl
    rw [← e1, ← e2]
    exact hp

theorem setDefault_holds {s : St α} {d : α} {f : Nat → Option α} (h : Holds s d f) (v : α) :
    ∃ s', s.setDefault true v = .ok s' ∧ Holds s' v f := by
  obtain ⟨n, rest, hk, hn⟩ := h.front
  have hids := h.ids
  rw [hk, List.map_cons, List.nodup_cons] at hids
  refine ⟨_, rfl, ⟨s.fresh, rest, by simp [hk], ?_⟩, ?_, ?_, h.keys, ?_, ?_⟩
  · intro e he hc
    have : e.2 ∈ s.keeper.tail.map (·.1) := h.vals.mem_iff.1 (List.mem_map.2 ⟨e, he, rfl⟩)
    obtain ⟨x, hx, hxe⟩ := List.mem_map.1 this
    have := h.old x (List.mem_of_mem_tail hx)
    omega
  · simp only [hk, List.tail_cons, List.map_cons, List.nodup_cons]
    refine ⟨?_, hids.2⟩
    intro hm
    obtain ⟨x, hx, hxe⟩ := List.mem_map.1 hm
    have := h.old x (by rw [hk]; exact List.mem_cons_of_mem _ hx)
    omega
  · intro e he
    rcases List.mem_cons.1 he with rfl | he
    · exact Nat.lt_succ_self _
    · exact Nat.lt_succ_of_lt (h.old e (List.mem_of_mem_tail he))
  · simpa using h.vals
  · intro j
    have := h.sound j
    dsimp only
    cases hm : mapAt s.map j with
    | none => rw [hm] at this; exact this
    | some it =>
      rw [hm] at this
      obtain ⟨w, hw, hf⟩ := this
      refine ⟨w, ?_, hf⟩
      rw [hk] at hw
      rcases List.mem_cons.1 hw with h1 | h1
      · cases h1
        exact absurd rfl (hn _ (mapAt_mem hm))
      · rw [hk]; exact List.mem_cons_of_mem _ h1

theorem run_holds : ∀ (os : List (Op α)) (s : St α) (d : α) (f : Nat → Option α), Holds s d f →
    ∃ s', s.run true os = .ok s' ∧ Holds s' (lastDefault d os) (fun i => lastAdded i (f i) os)
  | [], s, d, f, h => ⟨s, rfl, h⟩
  | .add i v :: os, s, d, f, h => by
    obtain ⟨s1, e1, h1⟩ := add_holds h i v
    obtain ⟨s2, e2, h2⟩ := run_holds os s1 d _ h1
    refine ⟨s2, ?_, ?_⟩
    · show (match s.add i v with | .ok s' => s'.run true os | .ub => .ub) = _
      rw [e1]
      exact e2
    · have : (fun j => lastAdded j (if j = i then some v else f j) os) = fun j => lastAdded j (f j) (.add i v :: os) := by
        funext j
        show _ = lastAdded j (if i = j then some v else f j) os
        simp only [eq_comm]
      rw [← this]
      exact h2
  | .setDefault v :: os, s, d, f, h => by
    obtain ⟨s1, e1, h1⟩ := setDefault_holds h v
    obtain ⟨s2, e2, h2⟩ := run_holds os s1 v _ h1
    refine ⟨s2, ?_, h2⟩
    show (match s.setDefault true v with | .ok s' => s'.run true os | .ub => .ub) = _
    rw [e1]
    exact e2

theorem run_cont {s : St α} : ∀ (os : List (Op α)), (∀ o ∈ os, ∃ i v, o = .add i v) → ∀ s : St α, s.run false os = s.run true os
  | [], _, _ => rfl
  | o :: os, h, s => by
    obtain ⟨i, v, rfl⟩ := h o List.mem_cons_self
    show (match s.add i v with | .ok s' => s'.run false os | .ub => .ub) = (match s.add i v with | .ok s' => s'.run true os | .ub => .ub)
    cases s.add i v with
    | ok s' => exact run_cont (s := s) os (fun o ho => h o (List.mem_cons_of_mem _ ho)) s'
    | ub => rfl

/-- **C57** (histories of `add`): no undefined behaviour, lookup returns the last settings added for that layer or the default given to the constructor. -/
theorem settings_map_partial (d : α) (os : List (Op α)) (ho : ∀ o ∈ os, ∃ i v, o = .add i v) :
    ∃ s, (St.new d).run false os = .ok s ∧ s.getDefault = .ok d ∧ ∀ i, s.get i = .ok ((lastAdded i none os).getD d) := by
  obtain ⟨s, e, h⟩ := run_holds os (St.new d) d _ (new_holds d)
  have hd : lastDefault d os = d := by
    clear e h
    induction os with
    | nil => rfl
    | cons o os ih =>
      obtain ⟨i, v, rfl⟩ := ho o List.mem_cons_self
      exact ih (fun o h => ho o (List.mem_cons_of_mem _ h))
  rw [hd] at h
  refine ⟨s, by rw [run_cont (s := s) os ho]; exact e, ?_, fun i => h.get i⟩
  obtain ⟨n, rest, hk, -⟩ := h.front
  unfold St.getDefault
  rw [hk]

/-- **C57** (all histories, if the code of `set_default` returns normally although it has no return statement): lookup returns the last settings added for that layer, or
the last default. -/
theorem settings_map_default_partial (d : α) (os : List (Op α)) :
    ∃ s, (St.new d).run true os = .ok s ∧ s.getDefault = .ok (lastDefault d os) ∧ ∀ i, s.get i = .ok ((lastAdded i none os).getD (lastDefault d os)) := by
  obtain ⟨s, e, h⟩ := run_holds os (St.new d) d _ (new_holds d)
  refine ⟨s, e, ?_, fun i => h.get i⟩
  obtain ⟨n, rest, hk, -⟩ := h.front
  unfold St.getDefault
  rw [hk]

/-- By the language rules every use of `set_default` is undefined behaviour (layers_settings.h 78–83 has no return statement). -/
theorem set_default_undefined (s : St α) (v : α) : s.step false (.setDefault v) = .ub := rfl

/-- `for_each` visits the default first and then the settings of every layer that has own settings exactly once (`is` lists those layers). -/
theorem for_each_visits (d : α) (os : List (Op α)) : ∃ (s : St α) (is : List Nat), (St.new d).run true os = .ok s ∧ is.Nodup ∧
    (∀ i, i ∈ is ↔ ∃ v, .add i v ∈ os) ∧ ∃ rest, s.forEach = lastDefault d os :: rest ∧ rest.Perm (is.filterMap fun i => lastAdded i none os) := by
  obtain ⟨s, e, h⟩ := run_holds os (St.new d) d _ (new_holds d)
  obtain ⟨n, rest, hk, hn⟩ := h.front
  have hadd : ∀ (os : List (Op α)) (i : Nat) (c : Option α), (∃ v, lastAdded i c os = some v) ↔ ((∃ v, Op.add i v ∈ os) ∨ ∃ v, c = some v) := by
    intro os
    induction os with
    | nil => intro i c; simp [lastAdded]
    | cons o os ih =>
      intro i c
      cases o with
      | add j v =>
        show (∃ w, lastAdded i (if j = i then some v else c) os = some w) ↔ _
        rw [ih]
        by_cases hj : j = i
        · subst hj
          simp only [if_true]
          constructor
          · intro _; exact Or.inl ⟨v, List.mem_cons_self⟩
          · intro _; exact Or.inr ⟨v, rfl⟩
        · simp only [hj, if_false]
          constructor
          · rintro (⟨w, hw⟩ | hw)
            · exact Or.inl ⟨w, List.mem_cons_of_mem _ hw⟩
            · exact Or.inr hw
          · rintro (⟨w, hw⟩ | hw)
            · rcases List.mem_cons.1 hw with h1 | h1
              · cases h1; exact absurd rfl hj
              · exact Or.inl ⟨w, h1⟩
            · exact Or.inr hw
      | setDefault v =>
        show (∃ w, lastAdded i c os = some w) ↔ _
        rw [ih]
        simp
  refine ⟨s, s.map.map (·.1), e, h.keys, ?_, rest.map (·.2), by simp [St.forEach, hk], ?_⟩
  · intro i
    have h1 := h.sound i
    have h2 := hadd os i none
    simp only [reduceCtorEq, exists_false, or_false] at h2
    rw [← h2]
    cases hm : mapAt s.map i with
    | none =>
      rw [hm] at h1
      dsimp only at h1
      simp only [h1, reduceCtorEq, exists_false, iff_false]
      intro hc
      obtain ⟨x, hx, rfl⟩ := List.mem_map.1 hc
      exact mapAt_none hm x hx rfl
    | some it =>
      rw [hm] at h1
      obtain ⟨v, hv, hf⟩ := h1
      exact ⟨fun _ => ⟨v, hf⟩, fun _ => List.mem_map.2 ⟨_, mapAt_mem hm, rfl⟩⟩
  · have hv := h.vals
    rw [hk, List.tail_cons] at hv
    have hids := h.ids
    have key : ∀ e ∈ s.map, ∃ v, (e.2, v) ∈ s.keeper ∧ lastAdded e.1 none os = some v := by
      intro e he
      have hat : mapAt s.map e.1 = some e.2 := by
        unfold mapAt
        rw [show (s.map.find? fun x => x.1 == e.1) = some e from find_mem (α := Nat) h.keys (it := e.1) (v := e.2) he]
        rfl
      have := h.sound e.1
      rw [hat] at this
      exact this
    let g : Nat → Option α := fun it => (s.keeper.find? fun e => e.1 == it).map (·.2)
    have e1 : (s.map.map (·.1)).filterMap (fun i => lastAdded i none os) = (s.map.map (·.2)).filterMap g := by
      rw [List.filterMap_map, List.filterMap_map]
      apply List.filterMap_congr
      intro x hx
      obtain ⟨v, hv, hl⟩ := key x hx
      show lastAdded x.1 none os = (s.keeper.find? fun e => e.1 == x.2).map (·.2)
      rw [find_mem hids hv, hl]
      rfl
    have e2 : (rest.map (·.1)).filterMap g = rest.map (·.2) := by
      rw [List.filterMap_map, ← List.filterMap_eq_map]
      apply List.filterMap_congr
      intro x hx
      show (s.keeper.find? fun e => e.1 == x.1).map (·.2) = some x.2
      rw [find_mem hids (it := x.1) (v := x.2) (by rw [hk]; exact List.mem_cons_of_mem _ hx)]
      rfl
    rw [e1, ← e2]
    exact (hv.filterMap g).symm

/-- A concrete history. -/
example : ∃ s, (St.new 7).run false [.add 3 1, .add 5 2, .add 3 4] = .ok s ∧ s.get 3 = .ok 4 ∧ s.get 5 = .ok 2 ∧ s.get 0 = .ok 7 ∧ s.forEach = [7, 2, 4] :=
  ⟨_, rfl, rfl, rfl, rfl, rfl⟩

end Nntl.Utils.Ls
