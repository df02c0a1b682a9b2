import Verif.NetFile.Spec
import Verif.MatFile.Props
/-! Helper lemmas for networks in files. -/
namespace Nntl.NetFile
open Nntl.Matrix Nntl.MatFile
set_option linter.unusedSimpArgs false

/-! ### Names -/

theorem append_sep {α : Type} {x : α} : ∀ {a b c d : List α}, x ∉ c → x ∉ d → a ++ x :: c = b ++ x :: d → a = b ∧ c = d
  | [], [], _, _, _, _, h => by simpa using h
  | [], y :: b, c, d, hc, _, h => by
    simp only [List.nil_append, List.cons_append, List.cons.injEq] at h
    exact absurd (h.2 ▸ (by simp)) hc
  | y :: a, [], c, d, _, hd, h => by
    simp only [List.nil_append, List.cons_append, List.cons.injEq] at h
    exact absurd (h.2 ▸ (by simp)) hd
  | y :: a, z :: b, c, d, hc, hd, h => by
    simp only [List.cons_append, List.cons.injEq] at h
    obtain ⟨h1, h2⟩ := append_sep hc hd h.2
    exact ⟨by rw [h.1, h1], h2⟩

theorem label_inj {b b' : String} {i i' : Nat} (h : label b i = label b' i') : b = b' ∧ i = i' := by
  have h1 : (label b i).toList = (label b' i').toList := by rw [h]
  simp only [label, String.toList_append, Nat.toList_repr] at h1
  have e : "_".toList = ['_'] := rfl
  rw [e, List.append_assoc, List.append_assoc] at h1
  obtain ⟨h2, h3⟩ := append_sep Nat.underscore_not_in_toDigits Nat.underscore_not_in_toDigits h1
  refine ⟨String.toList_injective h2, ?_⟩
  have := congrArg (fun l => Nat.ofDigitChars 10 l 0) h3
  simpa [Nat.ofDigitChars_ten_toDigits] using this

theorem label_not_tiles (b : String) (i : Nat) : label b i ≠ "m_tiles_count" := by
  intro h
  have h1 : (label b i).toList = "m_tiles_count".toList := by rw [h]
  simp only [label, String.toList_append, Nat.toList_repr] at h1
  have h2 := congrArg List.getLast? h1
  rw [List.getLast?_append, List.getLast?_eq_some_getLast Nat.toDigits_ne_nil] at h2
  have h3 : "m_tiles_count".toList.getLast? = some 't' := rfl
  rw [h3] at h2
  simp only [Option.some_or, Option.some.injEq] at h2
  have h4 : ('t').isDigit = true := Nat.isDigit_of_mem_toDigits (by omega) (by omega) (h2 ▸ List.getLast_mem Nat.toDigits_ne_nil)
  exact absurd h4 (by decide)

def Lyr.idx {T : Cls} : Lyr T → Nat
  | .plain _ i => i
  | .fc _ i _ _ _ _ => i
  | .pack _ i _ => i
  | .tile _ i _ _ => i
def Lyr.base {T : Cls} : Lyr T → String
  | .plain b _ => b
  | .fc b _ _ _ _ _ => b
  | .pack b _ _ => b
  | .tile b _ _ _ => b

theorem item_name {T : Cls} (l : Lyr T) : l.item.name = NetFile.label l.base l.idx := by cases l <;> simp [Lyr.item, Item.name, Lyr.base, Lyr.idx]

theorem idx_mem {T : Cls} (l : Lyr T) : l.idx ∈ l.indices := by cases l <;> simp [Lyr.idx, Lyr.indices]

theorem mem_items {T : Cls} : ∀ (ls : List (Lyr T)) (j : Item), j ∈ items ls → ∃ l ∈ ls, j = l.item
  | [], j, h => by simp [items] at h
  | l :: ls, j, h => by
    simp only [items, List.mem_cons] at h
    rcases h with rfl | h
    · exact ⟨l, List.mem_cons_self, rfl⟩
    · obtain ⟨l', h1, h2⟩ := mem_items ls j h
      exact ⟨l', List.mem_cons_of_mem _ h1, h2⟩

theorem indices_mem {T : Cls} : ∀ (ls : List (Lyr T)) (l : Lyr T), l ∈ ls → l.idx ∈ indices ls
  | [], l, h => by simp at h
  | l' :: ls, l, h => by
    simp only [indices, List.mem_append]
    rcases List.mem_cons.1 h with rfl | h
    · exact .inl (idx_mem l)
    · exact .inr (indices_mem ls l h)

mutual
theorem item_named {T : Cls} : ∀ (l : Lyr T), l.indices.Nodup → l.item.Named
  | .plain b i, _ => by simp [Lyr.item, Item.Named, AllNamed]
  | .fc b i n c w ini, _ => by simp [Lyr.item, Item.Named, AllNamed]
  | .pack b i l, h => by
    simp only [Lyr.item, Item.Named]
    simp only [Lyr.indices, List.nodup_cons] at h
    exact items_named l h.2
  | .tile b i k l, h => by
    simp only [Lyr.item, Item.Named, AllNamed, List.mem_cons, List.not_mem_nil, or_false, forall_eq, true_and]
    simp only [Lyr.indices, List.nodup_cons] at h
    refine ⟨?_, item_named l h.2, by simp⟩
    rw [item_name]
    exact label_not_tiles _ _
theorem items_named {T : Cls} : ∀ (ls : List (Lyr T)), (indices ls).Nodup → AllNamed (items ls)
  | [], _ => by simp [items, AllNamed]
  | l :: ls, h => by
    simp only [indices, List.nodup_append] at h
    simp only [items, AllNamed]
    refine ⟨item_named l h.1, ?_, items_named ls h.2.1⟩
    intro j hj e
    obtain ⟨l', h1, rfl⟩ := mem_items ls j hj
    rw [item_name, item_name] at e
    exact h.2.2 _ (idx_mem l) _ (indices_mem ls l' h1) (label_inj e).2.symm
end

/-! ### Loading anything -/

/-- The variables that are read at the moment. -/
def scope (s : St) : Vars :=
  match s.stack, s.file with
  | top :: _, _ => top
  | [], some f => f
  | [], none => []

theorem lookup_scope (s : St) (h : s.file.isSome = true) (n : String) : lookup s n = fget (scope s) n := by
  obtain ⟨f, hf⟩ := Option.isSome_iff_exists.1 h
  unfold lookup scope
  rw [hf]
  cases s.stack <;> rfl

theorem Kept.refl (s : St) : Kept s s := ⟨rfl, rfl⟩

theorem kept_scope {s s' : St} (h : Kept s s') : scope s' = scope s := by unfold scope; rw [h.1, h.2]

/-- Of the kind that was asked for, and not empty. -/
def Good (w : Bool) : Var → Prop
  | .num _ r c _ => w = false ∧ r ≠ 0 ∧ c ≠ 0
  | .strct r c _ => w = true ∧ r ≠ 0 ∧ c ≠ 0
  | .other => False

theorem loadVar_cases (E : Env) (s : St) (w : Bool) (n : String) (hc : s.cur = some n) (hf : s.file.isSome = true) :
    ∃ k, (∃ v, lookup s n = some v ∧ Good w v ∧ loadVar E s w = ({ s with tick := k }, some v)) ∨
      (∃ v e, e ≠ Err.success ∧ loadVar E s w = ({ s with tick := k, err := e }, v) ∧ ∀ x, v = some x → ¬ Good w x) := by
  obtain ⟨f, cur, st, e, t⟩ := s
  simp only at hc hf
  subst hc
  obtain ⟨f, rfl⟩ := Option.isSome_iff_exists.1 hf
  have key : ∀ (t' : Nat) (ret : Option Var), (∀ v, ret = some v → lookup ⟨some f, some n, st, e, t⟩ n = some v) →
      loadVar E ⟨some f, some n, st, e, t⟩ w = (match ret, w with
        | none, _ => (St.setErr ⟨some f, some n, st, e, t'⟩ .failedToTransferVariable, none)
        | some (.strct r c fs), true => (if r = 0 ∨ c = 0 then St.setErr ⟨some f, some n, st, e, t'⟩ .emptyVariable else ⟨some f, some n, st, e, t'⟩, some (.strct r c fs))
        | some (.num S r c d), false => (if r = 0 ∨ c = 0 then St.setErr ⟨some f, some n, st, e, t'⟩ .emptyVariable else ⟨some f, some n, st, e, t'⟩, some (.num S r c d))
        | some _, _ => (St.setErr ⟨some f, some n, st, e, t'⟩ .wrongVariableType, none)) → 
      ∃ k, (∃ v, lookup ⟨some f, some n, st, e, t⟩ n = some v ∧ Good w v ∧ loadVar E ⟨some f, some n, st, e, t⟩ w = (⟨some f, some n, st, e, k⟩, some v)) ∨
      (∃ v e', e' ≠ Err.success ∧ loadVar E ⟨some f, some n, st, e, t⟩ w = (⟨some f, some n, st, e', k⟩, v) ∧ ∀ x, v = some x → ¬ Good w x) := by
    intro t' ret hl h
    refine ⟨t', ?_⟩
    rw [h]
    cases ret with
    | none => exact .inr ⟨none, .failedToTransferVariable, nofun, rfl, nofun⟩
    | some v =>
      cases v with
      | other => exact .inr ⟨none, .wrongVariableType, nofun, by cases w <;> rfl, nofun⟩
      | num S r c d =>
        cases w with
        | true => exact .inr ⟨none, .wrongVariableType, nofun, rfl, nofun⟩
        | false =>
          simp only
          by_cases h0 : r = 0 ∨ c = 0
          · rw [if_pos h0]
            refine .inr ⟨_, .emptyVariable, nofun, rfl, ?_⟩
            rintro x ⟨rfl⟩
            simp only [Good, true_and]; omega
          · rw [if_neg h0]
            exact .inl ⟨_, hl _ rfl, by simp only [Good, true_and]; omega, rfl⟩
      | strct r c fs =>
        cases w with
        | false => exact .inr ⟨none, .wrongVariableType, nofun, rfl, nofun⟩
        | true =>
          simp only
          by_cases h0 : r = 0 ∨ c = 0
          · rw [if_pos h0]
            refine .inr ⟨_, .emptyVariable, nofun, rfl, ?_⟩
            rintro x ⟨rfl⟩
            simp only [Good, true_and]; omega
          · rw [if_neg h0]
            exact .inl ⟨_, hl _ rfl, by simp only [Good, true_and]; omega, rfl⟩
  cases st with
  | cons top rest => exact key t (fget top n) (fun v h => by simpa [lookup] using h) rfl
  | nil =>
    refine key (t + 1) (if E.ok t then fget f n else none) (fun v h => ?_) rfl
    split at h
    · simpa [lookup] using h
    · cases h

/-- A call to load an object as a struct: it fails and changes nothing, or the object is loaded from the struct of that name. -/
theorem inStruct_any {α : Type} (E : Env) (n : String) (x : α) (body : St → α × St) (s : St) (hf : s.file.isSome = true)
    (hb : ∀ s1, s1.file.isSome = true → Kept s1 (body s1).2) :
    Kept s (inStruct E n x body s).2 ∧
    (((inStruct E n x body s).1 = x ∧ (inStruct E n x body s).2.err ≠ .success) ∨
      ∃ fs k, s.err = .success ∧ s.cur = none ∧ fget (scope s) n = some (.strct 1 1 fs) ∧
        inStruct E n x body s = ((body ⟨s.file, none, fs :: s.stack, .success, k⟩).1,
          { (body ⟨s.file, none, fs :: s.stack, .success, k⟩).2 with
            stack := (body ⟨s.file, none, fs :: s.stack, .success, k⟩).2.stack.tail })) := by
  obtain ⟨f, cur, st, e0, t⟩ := s
  obtain ⟨f, rfl⟩ := Option.isSome_iff_exists.1 hf
  by_cases he : e0 = .success
  · subst he
    cases cur with
    | some m => exact ⟨⟨by simp [inStruct, St.setErr], by simp [inStruct, St.setErr]⟩, .inl ⟨by simp [inStruct], by simp [inStruct, St.setErr]⟩⟩
    | none =>
      have hstart : inStruct E n x body ⟨some f, none, st, .success, t⟩ =
          match loadVar E ⟨some f, some n, st, .success, t⟩ true with
          | (s, some (.strct r c fs)) =>
            if r = 1 ∧ c = 1 then
              ((body { s with cur := none, stack := fs :: s.stack }).1,
                { (body { s with cur := none, stack := fs :: s.stack }).2 with
                  stack := (body { s with cur := none, stack := fs :: s.stack }).2.stack.tail })
            else (x, { s with cur := none }.setErr .wrongVariableType)
          | (s, _) => (x, { s with cur := none }) := by
        simp only [inStruct, ne_eq, not_true_eq_false, if_false, Option.isSome_none, Bool.false_eq_true]
        rfl
      obtain ⟨k, ⟨v, h1, h2, h3⟩ | ⟨v, e, h1, h2, h3⟩⟩ := loadVar_cases E ⟨some f, some n, st, .success, t⟩ true n rfl rfl
      · rw [hstart, h3]
        cases v with
        | other => exact h2.elim
        | num => simp [Good] at h2
        | strct r c fs =>
          simp only
          by_cases hrc : r = 1 ∧ c = 1
          · obtain ⟨rfl, rfl⟩ := hrc
            simp only [and_self, if_true]
            have hl : fget (scope ⟨some f, none, st, .success, t⟩) n = some (.strct 1 1 fs) := by
              rw [← lookup_scope _ rfl]; exact h1
            have hb' := hb ⟨some f, none, fs :: st, .success, k⟩ rfl
            refine ⟨⟨hb'.1, ?_⟩, .inr ⟨fs, k, trivial, trivial, hl, rfl⟩⟩
            show List.tail _ = _
            rw [hb'.2]; rfl
          · rw [if_neg hrc]
            exact ⟨⟨rfl, rfl⟩, .inl ⟨rfl, nofun⟩⟩
      · rw [hstart, h2]
        cases v with
        | none => exact ⟨⟨rfl, rfl⟩, .inl ⟨rfl, h1⟩⟩
        | some v =>
          cases v with
          | other => exact ⟨⟨rfl, rfl⟩, .inl ⟨rfl, h1⟩⟩
          | num => exact ⟨⟨rfl, rfl⟩, .inl ⟨rfl, h1⟩⟩
          | strct r c fs =>
            simp only
            have := h3 _ rfl
            simp only [Good, true_and] at this
            rw [if_neg (by omega)]
            exact ⟨⟨rfl, rfl⟩, .inl ⟨rfl, nofun⟩⟩
  · exact ⟨⟨by simp [inStruct, he], by simp [inStruct, he]⟩, .inl ⟨by simp [inStruct, he], by simp [inStruct, he]⟩⟩

theorem asNvp_any {α : Type} (n : String) (x : α) (body : St → α × St) (s : St) (hf : s.file.isSome = true) :
    ((asNvp n x body s).1 = x ∧ (asNvp n x body s).2.err ≠ .success ∧ Kept s (asNvp n x body s).2) ∨
    (s.err = .success ∧ s.cur = none ∧ asNvp n x body s = body { s with cur := some n }) := by
  unfold asNvp
  obtain ⟨f, hf'⟩ := Option.isSome_iff_exists.1 hf
  by_cases he : s.err = .success
  · rw [if_neg (by simpa using he), hf']
    cases hc : s.cur with
    | none => exact .inr ⟨he, rfl, by simp [hf']⟩
    | some m => exact .inl ⟨by simp, by simp [St.setErr], by simp [Kept, St.setErr]⟩
  · rw [if_pos (by simpa using he)]
    exact .inl ⟨rfl, he, rfl, rfl⟩

theorem loadMtx_any (E : Env) (n : String) {T : Cls} (df : Bool) (m : Mtx (Elem T)) (s : St) (hc : s.cur = some n)
    (hf : s.file.isSome = true) (he : s.err = .success) (hx : ¬ XName n) :
    Kept s (loadMtx E n df m s).2 ∧
    ((loadMtx E n df m s).2.err = .success → (loadMtx E n df m s).2.cur = none ∧
      ∃ S R C d g, fget (scope s) n = some (.num S R C d) ∧ 0 < R ∧ 0 < C ∧ element E S T = some g ∧
        Filled n R C (fun k => g (d k)) (loadMtx E n df m s).1) := by
  have hxb : isX n = false := by
    cases h : isX n
    · rfl
    · exact absurd ((isX_iff n).1 h) hx
  obtain ⟨k, ⟨v, h1, h2, h3⟩ | ⟨v, e, h1, h2, h3⟩⟩ := loadVar_cases E s false n hc hf
  · cases v with
    | other => exact h2.elim
    | strct => simp [Good] at h2
    | num S R C d =>
      simp only [Good, true_and] at h2
      cases hg : element E S T with
      | some g =>
        obtain ⟨a, b, -⟩ := loadMtx_found E n df m s S R C d g hg hc hf he h1 (by omega) (by omega) (fun h => absurd h hx)
        refine ⟨a, fun h => ⟨(b h).1, S, R, C, d, g, ?_, by omega, by omega, hg, (b h).2⟩⟩
        rw [← lookup_scope s hf]; exact h1
      | none =>
        unfold loadMtx
        rw [h3]
        simp only [hxb, Bool.false_and, Bool.false_eq_true, if_false]
        obtain ⟨m1, hm1, -⟩ := resize_cleared m false R C (E.elems T k) (E.ok k) (by omega) (by omega)
        rw [hm1]
        cases E.ok k
        · exact ⟨⟨rfl, rfl⟩, nofun⟩
        · simp only [hg]
          exact ⟨⟨rfl, rfl⟩, nofun⟩
  · unfold loadMtx
    rw [h2]
    cases v with
    | none => exact ⟨⟨rfl, rfl⟩, fun h => absurd h h1⟩
    | some v =>
      cases v with
      | other => exact ⟨⟨rfl, rfl⟩, fun h => absurd h h1⟩
      | strct => exact ⟨⟨rfl, rfl⟩, fun h => absurd h h1⟩
      | num S R C d =>
        simp only [hxb, Bool.false_and, Bool.false_eq_true, if_false]
        split
        · split
          · split
            · exact ⟨⟨rfl, rfl⟩, fun h => absurd h h1⟩
            · exact ⟨⟨rfl, rfl⟩, fun h => absurd h h1⟩
          · exact ⟨⟨rfl, rfl⟩, nofun⟩
        · exact ⟨⟨rfl, rfl⟩, nofun⟩
        · exact ⟨⟨rfl, rfl⟩, fun h => absurd h h1⟩

theorem loadScalar_any (E : Env) (n : String) (T : Cls) (v : Nat) (s : St) (hc : s.cur = some n) (hf : s.file.isSome = true) :
    Kept s (loadScalar E T v s).2 ∧
    ((loadScalar E T v s).2.err = .success → (loadScalar E T v s).2.cur = none ∧
      ∃ d, fget (scope s) n = some (.num T 1 1 d) ∧ (loadScalar E T v s).1 = d 0) := by
  obtain ⟨k, ⟨x, h1, h2, h3⟩ | ⟨x, e, h1, h2, h3⟩⟩ := loadVar_cases E s false n hc hf
  · unfold loadScalar
    rw [h3]
    cases x with
    | other => exact h2.elim
    | strct => simp [Good] at h2
    | num S R C d =>
      simp only
      by_cases hq : R = 1 ∧ C = 1 ∧ S = T
      · obtain ⟨rfl, rfl, rfl⟩ := hq
        simp only [and_self, if_true]
        refine ⟨⟨rfl, rfl⟩, fun _ => ⟨trivial, d, ?_, rfl⟩⟩
        rw [← lookup_scope s hf]; exact h1
      · rw [if_neg hq]
        exact ⟨⟨rfl, rfl⟩, nofun⟩
  · unfold loadScalar
    rw [h2]
    cases x with
    | none => exact ⟨⟨rfl, rfl⟩, fun h => absurd h h1⟩
    | some x =>
      cases x with
      | other => exact ⟨⟨rfl, rfl⟩, fun h => absurd h h1⟩
      | strct => exact ⟨⟨rfl, rfl⟩, fun h => absurd h h1⟩
      | num S R C d =>
        simp only
        have := h3 _ rfl
        simp only [Good, true_and] at this
        rw [if_neg (by omega)]
        exact ⟨⟨rfl, rfl⟩, nofun⟩

end Nntl.NetFile
