import Verif.MatFile.Spec
/-! Helper lemmas for the MATLAB archives. -/
namespace Nntl.MatFile
open Nntl.Matrix
set_option linter.unusedSimpArgs false

/-! ### Lists of variables -/

theorem fget_fput (fs : Vars) (n k : String) (v : Var) : fget (fput fs n v) k = if n = k then some v else fget fs k := by
  induction fs with
  | nil => simp [fput, fget]
  | cons p fs ih =>
    obtain ⟨a, w⟩ := p
    by_cases h : a = n
    · subst h
      simp only [fput, if_true, fget]
      split <;> rfl
    · simp only [fput, if_neg h, fget, ih]
      split
      · rename_i h2
        subst h2
        rw [if_neg (fun h3 => h h3.symm)]
      · rfl

mutual
/-- The variable an item is written as ... -/
def Item.var : Item → Var
  | .nvp _ v => v.var
  | .nvpObj _ _ => .other
  | .strct _ b => .strct 1 1 (putAll [] b)
/-- ... and a scope after the items of a list have been put there. -/
def putAll : Vars → List Item → Vars
  | fs, [] => fs
  | fs, i :: is => putAll (fput fs i.name i.var) is
end

theorem putAll_other (is : List Item) : ∀ (fs : Vars) (k : String), (∀ i ∈ is, i.name ≠ k) → fget (putAll fs is) k = fget fs k := by
  induction is with
  | nil => intro fs k _; simp [putAll]
  | cons i is ih =>
    intro fs k h
    rw [putAll, ih _ _ (fun j hj => h j (List.mem_cons_of_mem _ hj)), fget_fput, if_neg (h i List.mem_cons_self)]

theorem putAll_mem (is : List Item) : ∀ (fs : Vars), AllNamed is → ∀ i ∈ is, fget (putAll fs is) i.name = some i.var := by
  induction is with
  | nil => intro fs _ i hi; cases hi
  | cons j is ih =>
    intro fs hn i hi
    simp only [AllNamed] at hn
    rw [putAll]
    rcases List.mem_cons.1 hi with rfl | hi
    · rw [putAll_other _ _ _ hn.2.1, fget_fput, if_pos rfl]
    · exact ih _ hn.2.2 i hi

/-! ### Saving -/

theorem save_latched (E : Env) (i : Item) (s : St) (h : s.err ≠ .success) : save E i s = s := by
  cases i <;> simp [save, h]

theorem saveAll_latched (E : Env) (is : List Item) (s : St) (h : s.err ≠ .success) : saveAll E is s = s := by
  induction is with
  | nil => simp [saveAll]
  | cons i is ih => rw [saveAll, save_latched E i s h, ih]

/-- The scope things are written to at the moment, after `vs` has been put into it. -/
def Wrote (s : St) (g : Vars → Vars) (s' : St) : Prop :=
  s'.cur = none ∧
  match s.stack, s.file with
  | top :: rest, f => s'.stack = g top :: rest ∧ s'.file = f
  | [], some f => s'.stack = [] ∧ s'.file = some (g f)
  | [], none => False

theorem Wrote.trans {s s1 s2 : St} {g h : Vars → Vars} (a : Wrote s g s1) (b : Wrote s1 h s2) : Wrote s (fun v => h (g v)) s2 := by
  obtain ⟨f, cur, st, e, t⟩ := s
  obtain ⟨f1, cur1, st1, e1, t1⟩ := s1
  obtain ⟨a0, a⟩ := a
  obtain ⟨b0, b⟩ := b
  refine ⟨b0, ?_⟩
  cases st with
  | cons top rest =>
    simp only at a ⊢
    obtain ⟨a1, a2⟩ := a
    subst a1 a2
    simpa using b
  | nil =>
    cases f with
    | none => exact a.elim
    | some f =>
      simp only at a ⊢
      obtain ⟨a1, a2⟩ := a
      subst a1 a2
      simpa using b

theorem toFileOrStruct_ok (E : Env) (s : St) (v : Var) (n : String) (f : Vars) (hc : s.cur = some n) (hf : s.file = some f)
    (h : (toFileOrStruct E s v).2 = .success) :
    Wrote s (fun g => fput g n v) (toFileOrStruct E s v).1 ∧ (toFileOrStruct E s v).1.err = s.err := by
  obtain ⟨f0, cur, st, e, t⟩ := s
  simp only at hc hf
  subst hc hf
  cases st with
  | cons top rest =>
    simp only [toFileOrStruct] at h ⊢
    by_cases h1 : (fget top n).isSome = true
    · simp [h1, Wrote]
    · simp only [h1] at h ⊢
      by_cases h2 : E.ok t = true
      · simp [h2, Wrote, St.next]
      · simp [h2] at h
  | nil =>
    simp only [toFileOrStruct] at h ⊢
    by_cases h2 : E.ok t = true
    · simp [h2, Wrote, St.next]
    · simp [h2] at h

theorem latch_err (p : St × Err) (h : (St.latch p).err = .success) : p.2 = .success ∧ St.latch p = p.1 := by
  unfold St.latch at *
  by_cases hp : p.2 = .success
  · exact ⟨hp, by rw [if_pos hp]⟩
  · rw [if_neg hp] at h
    exact absurd h hp

theorem saveVar_ok (E : Env) (s : St) (v : Var) (n : String) (f : Vars) (hc : s.cur = some n) (hf : s.file = some f)
    (h : (saveVar E s v).err = .success) : Wrote s (fun g => fput g n v) (saveVar E s v) := by
  simp only [saveVar, hc, hf] at h ⊢
  by_cases hk : E.ok s.tick = true
  · rw [if_pos hk] at h ⊢
    obtain ⟨h1, h2⟩ := latch_err _ h
    rw [h2]
    have := (toFileOrStruct_ok E s.next v n f hc hf h1).1
    exact this
  · rw [if_neg hk] at h
    simp [St.setErr] at h

theorem Wrote.file {s s' : St} {g : Vars → Vars} (h : Wrote s g s') : s'.file.isSome = s.file.isSome := by
  obtain ⟨f, cur, st, e, t⟩ := s
  obtain ⟨-, h⟩ := h
  cases st with
  | cons top rest => simp only at h; rw [h.2]
  | nil => cases f with
    | none => exact h.elim
    | some f => simp only at h; rw [h.2]; rfl

theorem Wrote.refl {s : St} (hc : s.cur = none) (hf : s.file.isSome = true) : Wrote s (fun v => v) s := by
  obtain ⟨f, cur, st, e, t⟩ := s
  refine ⟨hc, ?_⟩
  cases st with
  | cons top rest => simp
  | nil => cases f with
    | none => simp at hf
    | some f => simp

/-- No pairs with objects. -/
def Item.plain : Item → Prop := Item.Each (fun _ _ => True)

mutual
theorem save_ok (E : Env) : ∀ (i : Item) (s : St), i.Named → s.cur = none → s.file.isSome = true → (save E i s).err = .success →
    Wrote s (fun g => fput g i.name i.var) (save E i s) ∧ s.err = .success
  | .nvp n v, s, _, hc, hf, h => by
    have he : s.err = .success := by
      by_cases he : s.err = .success
      · exact he
      · rw [save_latched E _ s he] at h; exact h
    refine ⟨?_, he⟩
    obtain ⟨f, hf⟩ := Option.isSome_iff_exists.1 hf
    simp only [save, he, hf, hc, ne_eq, not_true_eq_false, if_false, Option.isSome_none, Bool.false_eq_true] at h ⊢
    have := saveVar_ok E ⟨some f, some n, s.stack, .success, s.tick⟩ v.var n f rfl rfl h
    simpa [Wrote, hf, Item.name, Item.var] using this
  | .nvpObj n b, s, hn, _, _, _ => by
    simp [Item.Named] at hn
  | .strct n b, s, hn, hc, hf, h => by
    have he : s.err = .success := by
      by_cases he : s.err = .success
      · exact he
      · rw [save_latched E _ s he] at h; exact h
    refine ⟨?_, he⟩
    simp only [Item.Named] at hn
    obtain ⟨f, hf⟩ := Option.isSome_iff_exists.1 hf
    simp only [save, he, hf, hc, ne_eq, not_true_eq_false, if_false, Option.isSome_none, Bool.false_eq_true] at h ⊢
    by_cases hk : E.ok s.tick = true
    · rw [if_pos hk] at h ⊢
      have hin := saveAll_ok E b { s.next with stack := [] :: s.stack } hn hc (by simp [St.next, hf])
      generalize hs1 : saveAll E b { s.next with stack := [] :: s.stack } = s1 at *
      have key : s1.err = .success := by
        cases hst : s1.stack with
        | nil => simp only [hst] at h; exact h
        | cons top rest =>
          simp only [hst] at h
          obtain ⟨h1, h2⟩ := latch_err _ h
          rw [h2] at h
          by_cases hcur : s1.file.isSome = true
          · obtain ⟨f1, hf1⟩ := Option.isSome_iff_exists.1 hcur
            have := (toFileOrStruct_ok E { s1 with stack := rest, cur := some n } (.strct 1 1 top) n f1 rfl hf1 h1).2
            rw [this] at h
            exact h
          · have hf1 : s1.file = none := by simpa using hcur
            simp only [toFileOrStruct, hf1] at h
            exact h
      obtain ⟨w0, w⟩ := (hin key).1
      simp only [St.next] at w
      rw [w.1] at h ⊢
      simp only at h ⊢
      obtain ⟨h1, h2⟩ := latch_err _ h
      rw [h2]
      have := (toFileOrStruct_ok E { s1 with stack := s.stack, cur := some n } (.strct 1 1 (putAll [] b)) n f rfl (by simp [w.2, hf]) h1).1
      refine ⟨this.1, ?_⟩
      have t2 := this.2
      simp only [w.2, hf] at t2
      cases hst : s.stack with
      | cons top rest => simp only [hst, hf, w.2, Item.name, Item.var] at t2 ⊢; exact t2
      | nil => simp only [hst, hf, w.2, Item.name, Item.var] at t2 ⊢; exact t2
    · rw [if_neg hk] at h
      simp [St.setErr] at h
theorem saveAll_ok (E : Env) : ∀ (is : List Item) (s : St), AllNamed is → s.cur = none → s.file.isSome = true →
    (saveAll E is s).err = .success → Wrote s (fun g => putAll g is) (saveAll E is s) ∧ s.err = .success
  | [], s, _, hc, hf, h => by
    simp only [saveAll] at h ⊢
    exact ⟨by simpa [putAll] using Wrote.refl hc hf, h⟩
  | i :: is, s, hn, hc, hf, h => by
    simp only [AllNamed] at hn
    simp only [saveAll] at h ⊢
    by_cases he : (save E i s).err = .success
    · obtain ⟨w1, e1⟩ := save_ok E i s hn.1 hc hf he
      obtain ⟨w2, -⟩ := saveAll_ok E is (save E i s) hn.2.2 w1.1 (by rw [w1.file, hf]) h
      refine ⟨?_, e1⟩
      have := w1.trans w2
      simpa [putAll] using this
    · rw [saveAll_latched E is _ he] at h
      exact absurd h he
end

end Nntl.MatFile
