import Verif.MatFile.ExModel
import Verif.MatFile.Props
/-! C120: structs that are begun and ended by hand (`save_struct_begin`, `save_struct_end`). -/
namespace Nntl.MatFile
open Nntl.Matrix
set_option linter.unusedSimpArgs false

/-! ### What a program is meant to write

`scopes`: the structs the program is inside of, innermost first, and the file's variables at the end. -/

/-- Puts a variable into the innermost scope. -/
def putIn (n : String) (v : Var) : List Vars → List Vars
  | [] => []
  | h :: t => fput h n v :: t

/-- The scopes a new struct is put into, and the ones to be restored after its end: not the current one, if it shall not be nested. -/
def target (dontNest : Bool) : List Vars → List Vars × List Vars
  | h :: h2 :: t => if dontNest then ([h], h2 :: t) else ([], h :: h2 :: t)
  | t => ([], t)

/-- The fields a struct begins with: if it shall be updated, the ones it has already. -/
def startOf (upd : Bool) (n : String) : List Vars → Vars
  | h :: _ => if upd then match fget h n with
      | some (.strct 1 1 fs) => fs
      | _ => [] else []
  | [] => []

mutual
def Act.den : Act → List Vars → List Vars
  | .item i, sc => putIn i.name i.var sc
  | .strct n u d b, sc =>
    match denAll b (startOf u n (target d sc).2 :: (target d sc).2) with
    | own :: outer => (target d sc).1 ++ putIn n (.strct 1 1 own) outer
    | [] => []
def denAll : List Act → List Vars → List Vars
  | [], sc => sc
  | a :: as, sc => denAll as (a.den sc)
end

mutual
/-- Programs that update structs of the file only (not structs inside of other structs) and save objects whose parts can be told apart.
`k`: inside of how many structs. -/
def Act.Fine : Nat → Act → Prop
  | _, .item i => i.Named
  | k, .strct _ u d b => (u = true → k = 0 ∨ (d = true ∧ k = 1)) ∧ FineAll (if d = true ∧ k ≠ 0 then k else k + 1) b
def FineAll : Nat → List Act → Prop
  | _, [] => True
  | k, a :: as => a.Fine k ∧ FineAll k as
end

/-- No variable of the file is an empty struct array. -/
def NoEmpty (f : Vars) : Prop := ∀ n r c fs, fget f n = some (.strct r c fs) → r ≠ 0 ∧ c ≠ 0

/-! ### Proof -/

/-- The archive's state for given scopes. -/
structure At (sc : List Vars) (nested : List NEntry) (s : ExSt) : Prop where
  err : s.base.err = .success
  cur : s.base.cur = none
  nested : s.nested = nested
  scopes : ∃ f, s.base.file = some f ∧ NoEmpty f ∧ sc = s.base.stack ++ [f]

theorem noEmpty_put {f : Vars} (h : NoEmpty f) (n : String) (v : Var) (hv : ∀ r c fs, v = .strct r c fs → r ≠ 0 ∧ c ≠ 0) : NoEmpty (fput f n v) := by
  intro k r c fs hk
  rw [fget_fput] at hk
  split at hk
  · exact hv r c fs (by simpa using hk)
  · exact h k r c fs hk

theorem Item.var_shape (i : Item) (r c : Nat) (fs : Vars) (h : i.var = .strct r c fs) : r ≠ 0 ∧ c ≠ 0 := by
  cases i with
  | nvp n v => cases v <;> simp [Item.var, Leaf.var] at h
  | nvpObj n b => simp [Item.var] at h
  | strct n b =>
    simp only [Item.var, Var.strct.injEq] at h
    omega

theorem wrote_scopes {s s' : St} {n : String} {v : Var} {f : Vars} (hf : s.file = some f) (he : NoEmpty f)
    (hv : ∀ r c fs, v = .strct r c fs → r ≠ 0 ∧ c ≠ 0) (w : Wrote s (fun g => fput g n v) s') :
    ∃ f', s'.file = some f' ∧ NoEmpty f' ∧ putIn n v (s.stack ++ [f]) = s'.stack ++ [f'] := by
  obtain ⟨f0, cur, st, e, t⟩ := s
  simp only at hf
  subst hf
  obtain ⟨-, w⟩ := w
  cases st with
  | cons top rest =>
    simp only at w ⊢
    exact ⟨f, w.2, he, by rw [w.1]; rfl⟩
  | nil =>
    simp only at w ⊢
    exact ⟨_, w.2, noEmpty_put he n v hv, by rw [w.1]; rfl⟩

theorem target_unhead (d : Bool) (st : List Vars) (f : Vars) :
    (target d (st ++ [f])).1 = (unhead d st).1.toList ∧ (target d (st ++ [f])).2 = (unhead d st).2 ++ [f] := by
  cases st with
  | nil => cases d <;> simp [target, unhead]
  | cons top rest =>
    cases rest with
    | nil => cases d <;> simp [target, unhead]
    | cons t2 rest => cases d <;> simp [target, unhead]

theorem unhead_length (d : Bool) (st : List Vars) (h : st.length = 0 ∨ (d = true ∧ st.length = 1)) : (unhead d st).2 = [] := by
  rcases st with _ | ⟨a, _ | ⟨b, c⟩⟩
  · cases d <;> simp [unhead]
  · rcases h with h | ⟨h, -⟩
    · simp at h
    · subst h; simp [unhead]
  · simp at h

theorem unhead_length2 (d : Bool) (st : List Vars) :
    (unhead d st).2.length + 1 = if d = true ∧ st.length ≠ 0 then st.length else st.length + 1 := by
  rcases st with _ | ⟨a, t⟩
  · cases d <;> simp [unhead]
  · cases d <;> simp [unhead]

theorem loadOld_file (E : Env) (hE : ∀ k, E.ok k = true) (n : String) (f : Vars) (hf : NoEmpty f) (t : Nat) :
    ∃ t' old, loadOld E n ⟨some f, none, [], .success, t⟩ = (⟨some f, none, [], .success, t'⟩, old) ∧
      old.getD [] = startOf true n [f] := by
  simp only [loadOld, loadVar, hE, if_true, St.next, startOf]
  cases hv : fget f n with
  | none => exact ⟨t + 1, none, by simp [St.setErr], rfl⟩
  | some v =>
    cases v with
    | num S r c d => exact ⟨t + 1, none, by simp [St.setErr], rfl⟩
    | other => exact ⟨t + 1, none, by simp [St.setErr], rfl⟩
    | strct r c fs =>
      have h0 := hf n r c fs hv
      have h1 : ¬ (r = 0 ∨ c = 0) := by omega
      simp only [h1, if_false]
      by_cases h2 : r ≠ 1 ∨ c ≠ 1
      · refine ⟨t + 1, none, by simp [h2], ?_⟩
        simp only [Option.getD_none]
        split
        · rename_i heq
          simp only [Option.some.injEq, Var.strct.injEq] at heq
          omega
        · rfl
      · have h3 : r = 1 ∧ c = 1 := by omega
        obtain ⟨rfl, rfl⟩ := h3
        exact ⟨t + 1, some fs, by simp, rfl⟩

/-- Beginning of a struct. -/
theorem begin_at (E : Env) (hE : ∀ k, E.ok k = true) (n : String) (u d : Bool) (sc : List Vars) (ne : List NEntry) (s : ExSt) (h : At sc ne s)
    (hu : u = true → sc.length = 1 ∨ (d = true ∧ sc.length = 2)) :
    ∃ oldHead, oldHead.toList = (target d sc).1 ∧
      At (startOf u n (target d sc).2 :: (target d sc).2) (⟨n, oldHead, false⟩ :: ne) (begin' E n u d s).1 ∧ (begin' E n u d s).2 = .success := by
  obtain ⟨⟨file, cur, stack, err, tick⟩, nested⟩ := s
  obtain ⟨h1, h2, h3, f, h4, h5, h6⟩ := h
  simp only at h1 h2 h3 h4 h6
  subst h1 h2 h3 h4 h6
  obtain ⟨ht1, ht2⟩ := target_unhead d stack f
  refine ⟨(unhead d stack).1, ht1.symm, ?_⟩
  rw [ht2]
  simp only [begin', ne_eq, not_true_eq_false, if_false, Option.isSome_none, Bool.false_eq_true]
  cases u with
  | false =>
    simp only [Bool.false_eq_true, if_false, hE, if_true, St.next]
    refine ⟨⟨rfl, rfl, rfl, f, rfl, h5, ?_⟩, trivial⟩
    simp only [List.cons_append, List.cons.injEq, and_true]
    cases (unhead d stack).2 <;> simp [startOf]
  | true =>
    have he : (unhead d stack).2 = [] := by
      apply unhead_length
      have := hu rfl
      simp only [List.length_append, List.length_cons, List.length_nil] at this
      rcases this with h | ⟨h, h'⟩
      · left; omega
      · right; exact ⟨h, by omega⟩
    simp only [he, if_true, List.nil_append]
    obtain ⟨t', old, hl, hs⟩ := loadOld_file E hE n f h5 tick
    rw [hl]
    cases old with
    | none =>
      simp only [hE, if_true, St.next]
      exact ⟨⟨rfl, rfl, rfl, f, rfl, h5, by rw [← hs]; rfl⟩, trivial⟩
    | some fs =>
      exact ⟨⟨rfl, rfl, rfl, f, rfl, h5, by rw [← hs]; rfl⟩, rfl⟩

/-- End of a struct. -/
theorem end_at (E : Env) (hE : ∀ k, E.ok k = true) (n : String) (old : Option Vars) (own : Vars) (outer : List Vars) (ne : List NEntry) (s : ExSt)
    (ho : outer ≠ []) (h : At (own :: outer) (⟨n, old, false⟩ :: ne) s) :
    ∃ s', end' E s = some (s', .success) ∧ At (old.toList ++ putIn n (.strct 1 1 own) outer) ne s' := by
  obtain ⟨⟨file, cur, stack, err, tick⟩, nested⟩ := s
  obtain ⟨h1, h2, h3, f, h4, h5, h6⟩ := h
  simp only at h1 h2 h3 h4 h6
  subst h1 h2 h3 h4
  cases stack with
  | nil =>
    simp only [List.nil_append, List.cons.injEq] at h6
    exact absurd h6.2 ho
  | cons top rest =>
    simp only [List.cons_append, List.cons.injEq] at h6
    obtain ⟨rfl, rfl⟩ := h6
    simp only [end', ne_eq, not_true_eq_false, if_false, Option.isSome_none, Bool.false_eq_true]
    have h := toFileOrStruct_total E hE ⟨some f, some n, rest, .success, tick⟩ (.strct 1 1 own) n f rfl rfl
    obtain ⟨w, he⟩ := toFileOrStruct_ok E ⟨some f, some n, rest, .success, tick⟩ (.strct 1 1 own) n f rfl rfl h
    have hs := wrote_scopes (f := f) rfl h5 (fun r c fs hh => by simp only [Var.strct.injEq] at hh; omega) w
    generalize toFileOrStruct E ⟨some f, some n, rest, .success, tick⟩ (.strct 1 1 own) = p at *
    obtain ⟨p1, p2⟩ := p
    simp only at h he hs w ⊢
    subst h
    obtain ⟨f', g1, g2, g3⟩ := hs
    refine ⟨_, rfl, ?_⟩
    simp only [if_true]
    exact ⟨he, w.1, rfl, f', g1, g2, by rw [g3]; simp⟩

theorem putIn_length (n : String) (v : Var) (sc : List Vars) : (putIn n v sc).length = sc.length := by
  cases sc <;> simp [putIn]

theorem target_length (d : Bool) (sc : List Vars) : (target d sc).1.length + (target d sc).2.length = sc.length := by
  rcases sc with _ | ⟨a, _ | ⟨b, t⟩⟩
  · rfl
  · rfl
  · cases d <;> simp [target]; omega

mutual
theorem run_at (E : Env) (hE : ∀ k, E.ok k = true) : ∀ (a : Act) (sc : List Vars) (ne : List NEntry) (s : ExSt), At sc ne s → a.Fine (sc.length - 1) →
    ∃ s', a.run E s = some s' ∧ At (a.den sc) ne s' ∧ (a.den sc).length = sc.length
  | .item i, sc, ne, s, h, hn => by
    simp only [Act.Fine] at hn
    obtain ⟨h1, h2, h3, f, h4, h5, h6⟩ := h
    have he := save_total E hE i s.base hn h2 (by simp [h4]) h1
    have w := (save_ok E i s.base hn h2 (by simp [h4]) he).1
    have hs := wrote_scopes h4 h5 (Item.var_shape i) w
    refine ⟨_, by rw [Act.run], ?_, by rw [Act.den, putIn_length]⟩
    rw [Act.den, h6]
    exact ⟨he, w.1, h3, hs⟩
  | .strct n u d b, sc, ne, s, h, hn => by
    simp only [Act.Fine] at hn
    obtain ⟨hn1, hn2⟩ := hn
    have hlen : 0 < sc.length := by
      obtain ⟨-, -, -, f, -, -, h6⟩ := h
      rw [h6]; simp
    obtain ⟨old, o1, o2, -⟩ := begin_at E hE n u d sc ne s h (fun hu => by
      rcases hn1 hu with h | ⟨h, h'⟩
      · left; omega
      · right; exact ⟨h, by omega⟩)
    have htl : (target d sc).2.length = if d = true ∧ sc.length - 1 ≠ 0 then sc.length - 1 else sc.length - 1 + 1 := by
      rcases sc with _ | ⟨a, _ | ⟨a2, t⟩⟩
      · simp at hlen
      · cases d <;> simp [target]
      · cases d <;> simp [target]
    have hin : FineAll ((startOf u n (target d sc).2 :: (target d sc).2).length - 1) b := by
      rw [List.length_cons, Nat.add_sub_cancel, htl]
      exact hn2
    obtain ⟨s1, r1, r2, r3⟩ := runAll_at E hE b _ _ _ o2 hin
    have hpos : 0 < (target d sc).2.length := by
      rw [htl]
      split <;> omega
    simp only [Act.run, Act.den]
    rw [r1]
    simp only [Option.bind_some]
    generalize denAll b (startOf u n (target d sc).2 :: (target d sc).2) = res at *
    rcases res with _ | ⟨own, outer⟩
    · simp at r3
    · simp only [List.length_cons] at r3
      have ho : outer ≠ [] := by
        intro h0
        rw [h0, List.length_nil] at r3
        omega
      obtain ⟨s2, e1, e2⟩ := end_at E hE n old own outer ne s1 ho r2
      refine ⟨s2, by rw [e1]; rfl, by rw [← o1]; exact e2, ?_⟩
      rw [List.length_append, putIn_length, ← target_length d sc]
      omega
theorem runAll_at (E : Env) (hE : ∀ k, E.ok k = true) : ∀ (as : List Act) (sc : List Vars) (ne : List NEntry) (s : ExSt), At sc ne s →
    FineAll (sc.length - 1) as → ∃ s', runAll E as s = some s' ∧ At (denAll as sc) ne s' ∧ (denAll as sc).length = sc.length
  | [], sc, ne, s, h, _ => ⟨s, by rw [runAll], by rw [denAll]; exact h, by rw [denAll]⟩
  | a :: as, sc, ne, s, h, hn => by
    simp only [FineAll] at hn
    obtain ⟨s1, r1, r2, r3⟩ := run_at E hE a sc ne s h hn.1
    obtain ⟨s2, q1, q2, q3⟩ := runAll_at E hE as _ ne s1 r2 (by rw [r3]; exact hn.2)
    exact ⟨s2, by rw [runAll, r1]; exact q1, by rw [denAll]; exact q2, by rw [denAll, q3, r3]⟩
end

/-! ### The property -/

/-- An archive of this kind that is not in the middle of something. -/
def ExIdle (f : Vars) (s : ExSt) : Prop := Idle f s.base ∧ s.nested = []

/-- **C120.** A program that saves objects and begins and ends structs, in any nesting, leaves the file with what it is meant to write: everything
that is saved between the beginning and the end of a struct is in this struct, a struct that shall not be nested is beside the one that was
begun before it, and a struct of the file that is updated keeps its former fields.
Partial: if no call of the library fails, for programs that update structs of the file only, and for files without empty struct arrays (the
theorems below show what happens otherwise). -/
theorem structs_written_as_meant_partial (E : Env) (hE : ∀ k, E.ok k = true) (prog : List Act) (hp : FineAll 0 prog) (old : Vars) (ho : NoEmpty old)
    (s : ExSt) (hs : ExIdle old s) :
    ∃ s' f, runAll E prog s = some s' ∧ ExIdle f s' ∧ denAll prog [old] = [f] := by
  obtain ⟨hi, hn⟩ := hs
  obtain ⟨s', h1, h2, h3⟩ := runAll_at E hE prog [old] [] s ⟨hi.ok, hi.cur, hn, old, hi.file, ho, by rw [hi.stack]; rfl⟩ hp
  obtain ⟨g1, g2, g3, f, g4, -, g6⟩ := h2
  rw [g6, List.length_append, List.length_cons, List.length_nil, List.length_cons, List.length_nil] at h3
  have hst : s'.base.stack = [] := List.eq_nil_of_length_eq_zero (by omega)
  exact ⟨s', f, h1, ⟨⟨g4, g2, hst, g1⟩, g3⟩, by rw [g6, hst]; rfl⟩

mutual
/-- The program that saves an object with structs begun and ended by hand. -/
def Item.byHand : Item → Act
  | .strct n b => .strct n false false (allByHand b)
  | i => .item i
def allByHand : List Item → List Act
  | [] => []
  | i :: is => i.byHand :: allByHand is
end

mutual
theorem byHand_den : ∀ (i : Item) (h : Vars) (t : List Vars), i.byHand.den (h :: t) = fput h i.name i.var :: t
  | .nvp n v, h, t => by simp [Item.byHand, Act.den, putIn]
  | .nvpObj n v, h, t => by simp [Item.byHand, Act.den, putIn]
  | .strct n b, h, t => by
    have ht : target false (h :: t) = ([], h :: t) := by cases t <;> rfl
    simp only [Item.byHand, Act.den, ht, startOf, Bool.false_eq_true, if_false, allByHand_den b, putIn, List.nil_append, Item.name, Item.var]
theorem allByHand_den : ∀ (is : List Item) (h : Vars) (t : List Vars), denAll (allByHand is) (h :: t) = putAll h is :: t
  | [], h, t => by simp [allByHand, denAll, putAll]
  | i :: is, h, t => by rw [allByHand, denAll, byHand_den, allByHand_den, putAll]
end

mutual
theorem byHand_fine : ∀ (i : Item) (k : Nat), i.Named → i.byHand.Fine k
  | .nvp n v, k, _ => by simp [Item.byHand, Act.Fine, Item.Named]
  | .nvpObj n v, k, h => by simp [Item.Named] at h
  | .strct n b, k, h => by
    simp only [Item.Named] at h
    simp only [Item.byHand, Act.Fine, Bool.false_eq_true, false_and, if_false]
    exact ⟨fun h => h.elim, allByHand_fine b _ h⟩
theorem allByHand_fine : ∀ (is : List Item) (k : Nat), AllNamed is → FineAll k (allByHand is)
  | [], k, _ => by simp [allByHand, FineAll]
  | i :: is, k, h => by
    simp only [AllNamed] at h
    simp only [allByHand, FineAll]
    exact ⟨byHand_fine i k h.1, allByHand_fine is k h.2.2⟩
end

/-- **C120.** Structs begun and ended by hand give the file that named structs give. -/
theorem by_hand_as_named_structs (E : Env) (hE : ∀ k, E.ok k = true) (obj : List Item) (hn : AllNamed obj) (old : Vars) (ho : NoEmpty old)
    (s : ExSt) (hs : ExIdle old s) :
    ∃ s', runAll E (allByHand obj) s = some s' ∧ s'.base.file = (saveAll E obj s.base).file ∧ s'.base.err = .success := by
  obtain ⟨s', f, h1, h2, h3⟩ := structs_written_as_meant_partial E hE _ (allByHand_fine obj 0 hn) old ho s hs
  refine ⟨s', h1, ?_, h2.1.ok⟩
  obtain ⟨hi, -⟩ := hs
  have he := saveAll_total E hE obj s.base hn hi.cur (by rw [hi.file]; rfl) hi.ok
  obtain ⟨-, w⟩ := (saveAll_ok E obj s.base hn hi.cur (by rw [hi.file]; rfl) he).1
  simp only [hi.stack, hi.file] at w
  rw [w.2, h2.1.file]
  rw [allByHand_den] at h3
  simp only [List.cons.injEq, and_true] at h3
  rw [h3]

/-- **C120 is false of the code** for updates inside of a struct: the field is destroyed and stored again. Whatever the field contains:
beginning and ending the update is undefined behaviour. -/
theorem nested_update_is_undefined (E : Env) (n : String) (top fs : Vars) (rest : List Vars) (f : Vars) (t : Nat) (ne : List NEntry)
    (h : fget top n = some (.strct 1 1 fs)) :
    (Act.strct n true false []).run E ⟨⟨some f, none, top :: rest, .success, t⟩, ne⟩ = none := by
  simp [Act.run, runAll, begin', unhead, loadOld, loadVar, h, end']

/-- A program that comes there: two epochs of saving a layer's data into a struct inside of another one. -/
theorem nested_update_reachable (E : Env) (hE : ∀ k, E.ok k = true) (v : Leaf) :
    runAll E [.strct "net" false false [.strct "layer" true false [.item (.nvp "a" v)], .strct "layer" true false [.item (.nvp "b" v)]]]
      ⟨⟨some [], none, [], .success, 0⟩, []⟩ = none := by
  simp [Act.run, runAll, begin', unhead, loadOld, loadVar, fget, end', hE, St.next, St.setErr, save, saveVar, toFileOrStruct, St.latch, fput]

/-- **C120 is false of the code** if the struct to be updated is an empty struct array: the beginning reports success, but the archive has got an
error and saves nothing any more. -/
theorem update_of_empty_kills_archive (E : Env) (hE : ∀ k, E.ok k = true) (n : String) (f fs : Vars) (h : fget f n = some (.strct 0 0 fs))
    (t : Nat) (is : List Item) :
    ∃ s', begin' E n true false ⟨⟨some f, none, [], .success, t⟩, []⟩ = (s', .success) ∧ s'.base.err = .emptyVariable ∧
      saveAll E is s'.base = s'.base ∧ end' E s' = some (s', .emptyVariable) := by
  simp only [begin', unhead, loadOld, loadVar, h, hE, St.next, St.setErr, ne_eq, not_true_eq_false, if_false, if_true, Option.isSome_none,
    Bool.false_eq_true, true_or, not_false_eq_true, Nat.zero_ne_one]
  refine ⟨_, rfl, rfl, saveAll_latched E is _ (by simp), by simp [end']⟩

/-- **C120 is false of the code** if reading the struct to be updated fails: this is taken for a struct that does not exist, and its former fields
are lost without any error. -/
theorem failed_read_loses_fields (E : Env) (n : String) (f fs : Vars) (h : fget f n = some (.strct 1 1 fs)) (t : Nat)
    (h0 : E.ok t = false) (h1 : ∀ k, t < k → E.ok k = true) :
    ∃ s', (Act.strct n true false []).run E ⟨⟨some f, none, [], .success, t⟩, []⟩ = some s' ∧ s'.base.err = .success ∧
      s'.base.file = some (fput f n (.strct 1 1 [])) := by
  have a1 := h1 (t + 1) (by omega)
  have a2 := h1 (t + 1 + 1) (by omega)
  simp [Act.run, runAll, begin', unhead, loadOld, loadVar, h, h0, a1, a2, end', toFileOrStruct, St.next, St.setErr]

/-- **C120.** Calls that do not match are refused: there is nothing to end, or a struct has not been ended when the file is closed. Nothing is
written then. -/
theorem unmatched_calls_refused (E : Env) (f : Vars) (s : ExSt) :
    (ExIdle f s → ∃ s', end' E s = some (s', .noStructToSave) ∧ s'.base.err = .noStructToSave ∧ s'.base.file = some f) ∧
    (s.nested ≠ [] → (s.close E).2 = .manualStructUnsaved ∧ (s.close E).1.base.err = .manualStructUnsaved ∧ (s.close E).1.nested = []) := by
  constructor
  · rintro ⟨hi, hn⟩
    simp only [end', hi.ok, hn, ne_eq, not_true_eq_false, if_false]
    exact ⟨_, rfl, rfl, hi.file⟩
  · intro h
    simp [ExSt.close, h, St.setErr]

/-- A program: a struct of the file is updated; another struct is begun while the first one is being filled, and put beside it. -/
def demoProg (v : Leaf) : List Act :=
  [.strct "a" true false [.item (.nvp "x" v), .strct "b" true true [.item (.nvp "y" v)], .item (.nvp "z" v)]]

example (E : Env) (hE : ∀ k, E.ok k = true) (v : Leaf) :
    ∃ s', runAll E (demoProg v) ⟨⟨some [("a", .strct 1 1 [("w", .other)]), ("q", .other)], none, [], .success, 0⟩, []⟩ = some s' ∧
      s'.base.file = some [("a", .strct 1 1 [("w", .other), ("x", v.var), ("z", v.var)]), ("q", .other), ("b", .strct 1 1 [("y", v.var)])] := by
  obtain ⟨s', f, h1, h2, h3⟩ := structs_written_as_meant_partial E hE (demoProg v) (by simp [demoProg, FineAll, Act.Fine, Item.Named])
    [("a", .strct 1 1 [("w", .other)]), ("q", .other)] (by
      intro n r c fs h
      simp only [fget] at h
      split at h
      · simp only [Option.some.injEq, Var.strct.injEq] at h; omega
      · split at h <;> simp at h)
    ⟨⟨some [("a", .strct 1 1 [("w", .other)]), ("q", .other)], none, [], .success, 0⟩, []⟩ ⟨⟨rfl, rfl, rfl, rfl⟩, rfl⟩
  refine ⟨s', h1, ?_⟩
  rw [h2.1.file]
  simp [demoProg, denAll, Act.den, target, startOf, fget, putIn, fput, Item.name, Item.var] at h3
  rw [← h3]

end Nntl.MatFile
