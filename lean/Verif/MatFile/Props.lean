import Verif.MatFile.LoadLemmas
/-! C115 (what is saved is loaded back), C116 (the name of a matrix decides about its last column), C117 (errors). -/
namespace Nntl.MatFile
open Nntl.Matrix
set_option linter.unusedSimpArgs false

/-! ### From `AsNamed` to `SameValue` -/

theorem asNamed_regular (n : String) (a b : Leaf) (h : AsNamed n a b) (hr : Regular n a) : SameValue a b := by
  cases h with
  | scalar T v => exact .scalar T v
  | mtx T df m m' rows cols emul bir get cap own =>
    simp only [Regular] at hr
    obtain ⟨h1, h2, h3, h4, h5, h6, h7⟩ := hr
    have hem : m'.emul = m.emul := by
      rw [Bool.eq_iff_iff]; exact emul.trans h4.symm
    refine .mtx T df m m' rows cols hem (by rw [bir, h5]) ?_ cap own
    intro r c
    by_cases hin : r < m.rows ∧ c < m.cols
    · rw [get r c hin.1 hin.2]
      split
      · rename_i hx
        exact (h7 (by omega) r c hin.1 hin.2 ⟨h4.2 hx.1, by simp [h5, hx.2]⟩).symm
      · rfl
    · have : ¬ (r < m'.rows ∧ c < m'.cols) := by rw [rows, cols]; exact hin
      simp only [Mtx.get, if_neg hin, if_neg this]

mutual
theorem rel_regular : ∀ (a b : Item), a.Rel AsNamed b → a.Each Regular → a.Rel (fun _ => SameValue) b
  | .nvp n v, .nvp n' v', h, hr => by
    simp only [Item.Rel, Item.Each] at *
    exact ⟨h.1, asNamed_regular n v v' h.2 hr⟩
  | .nvpObj n b, .nvpObj n' b', h, hr => by
    simp only [Item.Rel, Item.Each] at *
    exact ⟨h.1, relAll_regular b b' h.2 hr⟩
  | .strct n b, .strct n' b', h, hr => by
    simp only [Item.Rel, Item.Each] at *
    exact ⟨h.1, relAll_regular b b' h.2 hr⟩
  | .nvp _ _, .nvpObj _ _, h, _ => by simp [Item.Rel] at h
  | .nvp _ _, .strct _ _, h, _ => by simp [Item.Rel] at h
  | .nvpObj _ _, .nvp _ _, h, _ => by simp [Item.Rel] at h
  | .nvpObj _ _, .strct _ _, h, _ => by simp [Item.Rel] at h
  | .strct _ _, .nvp _ _, h, _ => by simp [Item.Rel] at h
  | .strct _ _, .nvpObj _ _, h, _ => by simp [Item.Rel] at h
theorem relAll_regular : ∀ (a b : List Item), RelAll AsNamed a b → EachAll Regular a → RelAll (fun _ => SameValue) a b
  | [], [], _, _ => by simp [RelAll]
  | i :: is, j :: js, h, hr => by
    simp only [RelAll, EachAll] at *
    exact ⟨rel_regular i j h.1 hr.1, relAll_regular is js h.2 hr.2⟩
  | [], _ :: _, h, _ => by simp [RelAll] at h
  | _ :: _, [], h, _ => by simp [RelAll] at h
end

mutual
theorem each_loadable : ∀ (a : Item), a.Each Regular → a.Each Loadable
  | .nvp n v, h => by
    simp only [Item.Each] at *
    cases v with
    | scalar => simp [Loadable]
    | mtx T df m => simp only [Regular, Loadable] at *; exact ⟨h.1, h.2.1, h.2.2.1⟩
  | .nvpObj n b, h => by simp only [Item.Each] at *; exact eachAll_loadable b h
  | .strct n b, h => by simp only [Item.Each] at *; exact eachAll_loadable b h
theorem eachAll_loadable : ∀ (a : List Item), EachAll Regular a → EachAll Loadable a
  | [], _ => by simp [EachAll]
  | i :: is, h => by simp only [EachAll] at *; exact ⟨each_loadable i h.1, eachAll_loadable is h.2⟩
end

/-! ### C115, C116 -/

/-- The archive after a successful save of `src`, and what can be loaded from the file. -/
theorem save_load (E : Env) (old : Vars) (s : St) (hs : Idle old s) (src : List Item) (hn : AllNamed src) (hl : EachAll Loadable src)
    (hok : (saveAll E src s).err = .success) :
    ∃ f, Idle f (saveAll E src s) ∧ (∀ k, (∀ i ∈ src, i.name ≠ k) → fget f k = fget old k) ∧
      ∀ (E' : Env) (dst : List Item) (s' : St), RelAll (fun _ => SameType) src dst → Idle f s' →
        ((loadAll E' dst s').2.err = .success → Idle f (loadAll E' dst s').2 ∧ RelAll AsNamed src (loadAll E' dst s').1) ∧
        ((∀ k, E'.ok k = true) → (loadAll E' dst s').2.err = .success) := by
  obtain ⟨⟨w0, w⟩, -⟩ := saveAll_ok E src s hn hs.cur (by rw [hs.file]; rfl) hok
  rw [hs.stack, hs.file] at w
  simp only at w
  refine ⟨putAll old src, ⟨w.2, w0, w.1, hok⟩, fun k hk => putAll_other src old k hk, ?_⟩
  intro E' dst s' hst hi
  obtain ⟨p, q, r⟩ := loadAll_found E' src dst s' hn hst hl hi.cur (by rw [hi.file]; rfl) hi.ok (fun i him => by
    simp only [lookup, hi.stack, hi.file]; exact putAll_mem src old hn i him)
  exact ⟨fun h => ⟨⟨p.1.trans hi.file, (q h).1, p.2.trans hi.stack, h⟩, (q h).2⟩, r⟩

/-- **C115.** An object is saved to an archive without an error. Then the archive is as it was before but for the contents of the file, variables
of other names in the file are untouched, and whenever the file is loaded into an object of the same structure and types (whatever its
contents), either an error is reported, which only happens if the library or the allocator fails, or the object has got the
values of the saved one: at any depth of nesting, in any environment. The object's names are distinct at each level and its matrices are of the kind
their names promise, which cannot be dropped (`same_name_twice_lost`, `loaded_as_its_name_says`). -/
theorem saved_loads_back (E : Env) (old : Vars) (s : St) (hs : Idle old s) (src : List Item) (hn : AllNamed src) (hr : EachAll Regular src)
    (hok : (saveAll E src s).err = .success) :
    ∃ f, Idle f (saveAll E src s) ∧ (∀ k, (∀ i ∈ src, i.name ≠ k) → fget f k = fget old k) ∧
      ∀ (E' : Env) (dst : List Item) (s' : St), RelAll (fun _ => SameType) src dst → Idle f s' →
        ((loadAll E' dst s').2.err = .success →
          Idle f (loadAll E' dst s').2 ∧ RelAll (fun _ => SameValue) src (loadAll E' dst s').1) ∧
        ((∀ k, E'.ok k = true) → (loadAll E' dst s').2.err = .success) := by
  obtain ⟨f, h1, h2, h3⟩ := save_load E old s hs src hn (eachAll_loadable src hr) hok
  refine ⟨f, h1, h2, fun E' dst s' a b => ?_⟩
  obtain ⟨q, r⟩ := h3 E' dst s' a b
  exact ⟨fun h => ⟨(q h).1, relAll_regular _ _ (q h).2 hr⟩, r⟩

theorem toFileOrStruct_total (E : Env) (hE : ∀ k, E.ok k = true) (s : St) (v : Var) (n : String) (f : Vars) (hc : s.cur = some n)
    (hf : s.file = some f) : (toFileOrStruct E s v).2 = .success := by
  obtain ⟨f0, cur, st, e, t⟩ := s
  simp only at hc hf
  subst hc hf
  cases st with
  | cons top rest =>
    simp only [toFileOrStruct, hE, if_true]
    split <;> rfl
  | nil => simp [toFileOrStruct, hE]

mutual
theorem save_total (E : Env) (hE : ∀ k, E.ok k = true) : ∀ (i : Item) (s : St), i.Named → s.cur = none → s.file.isSome = true →
    s.err = .success → (save E i s).err = .success
  | .nvp n v, s, _, hc, hf, he => by
    obtain ⟨f, hf⟩ := Option.isSome_iff_exists.1 hf
    simp only [save, he, hf, hc, ne_eq, not_true_eq_false, if_false, Option.isSome_none, Bool.false_eq_true, saveVar, hE, if_true]
    have h1 := toFileOrStruct_total E hE (St.next ⟨some f, some n, s.stack, .success, s.tick⟩) v.var n f rfl rfl
    have h2 := (toFileOrStruct_ok E (St.next ⟨some f, some n, s.stack, .success, s.tick⟩) v.var n f rfl rfl h1).2
    unfold St.latch
    rw [if_pos h1, h2]
    rfl
  | .nvpObj n b, s, hn, _, _, _ => by simp [Item.Named] at hn
  | .strct n b, s, hn, hc, hf, he => by
    simp only [Item.Named] at hn
    obtain ⟨f, hf⟩ := Option.isSome_iff_exists.1 hf
    simp only [save, he, hf, hc, ne_eq, not_true_eq_false, if_false, Option.isSome_none, Bool.false_eq_true, hE, if_true]
    have hin := saveAll_total E hE b { s.next with stack := [] :: s.stack } hn hc (by simp [St.next, hf]) he
    obtain ⟨⟨w0, w⟩, -⟩ := saveAll_ok E b { s.next with stack := [] :: s.stack } hn hc (by simp [St.next, hf]) hin
    simp only at w
    simp only [St.next, hf, hc, he] at hin w ⊢
    rw [w.1]
    simp only
    generalize saveAll E b ⟨some f, none, [] :: s.stack, .success, s.tick + 1⟩ = s1 at *
    have h1 := toFileOrStruct_total E hE ⟨s1.file, some n, s.stack, s1.err, s1.tick⟩ (.strct 1 1 (putAll [] b)) n f rfl w.2
    have h2 := (toFileOrStruct_ok E ⟨s1.file, some n, s.stack, s1.err, s1.tick⟩ (.strct 1 1 (putAll [] b)) n f rfl w.2 h1).2
    unfold St.latch
    rw [if_pos h1, h2]
    exact hin
theorem saveAll_total (E : Env) (hE : ∀ k, E.ok k = true) : ∀ (is : List Item) (s : St), AllNamed is → s.cur = none →
    s.file.isSome = true → s.err = .success → (saveAll E is s).err = .success
  | [], s, _, _, _, he => by simpa [saveAll] using he
  | i :: is, s, hn, hc, hf, he => by
    simp only [AllNamed] at hn
    simp only [saveAll]
    have h1 := save_total E hE i s hn.1 hc hf he
    obtain ⟨w, -⟩ := save_ok E i s hn.1 hc hf h1
    exact saveAll_total E hE is _ hn.2.2 w.1 (by rw [w.file, hf]) h1
end

/-- **C115.** Saving such an object fails only if the library or the allocator does. -/
theorem save_succeeds (E : Env) (hE : ∀ k, E.ok k = true) (old : Vars) (s : St) (hs : Idle old s) (src : List Item) (hn : AllNamed src) :
    (saveAll E src s).err = .success := saveAll_total E hE src s hn hs.cur (by rw [hs.file]; rfl) hs.ok

/-- **C115, why the names must be distinct.** Of two values of one name the first is lost, and no error is reported: both load as the second one. -/
theorem same_name_twice_lost (E : Env) (hE : ∀ k, E.ok k = true) (n : String) (T : Cls) (v w x y : Nat) (s : St) (hs : Idle [] s) :
    (saveAll E [.nvp n (.scalar T v), .nvp n (.scalar T w)] s).err = .success ∧
    ∃ s', loadAll E [.nvp n (.scalar T x), .nvp n (.scalar T y)] (saveAll E [.nvp n (.scalar T v), .nvp n (.scalar T w)] s) =
      ([.nvp n (.scalar T w), .nvp n (.scalar T w)], s') ∧ s'.err = .success := by
  obtain ⟨f, cur, st, e, t⟩ := s
  obtain ⟨h1, h2, h3, h4⟩ := hs
  simp only at h1 h2 h3 h4
  subst h1 h2 h3 h4
  simp [saveAll, save, saveVar, toFileOrStruct, St.latch, St.next, hE, fput, loadAll, load, loadLeaf, loadScalar, loadVar, fget, Leaf.var]

/-- **C116.** Whatever matrices an object has (not empty ones): they come back with their dimensions and elements, but those named `train_x` or
`test_x` with emulated biases and ones in the last column, and all others without emulated biases. -/
theorem loaded_as_its_name_says (E E' : Env) (hE : ∀ k, E.ok k = true) (hE' : ∀ k, E'.ok k = true) (old : Vars) (s : St) (hs : Idle old s)
    (src dst : List Item) (hn : AllNamed src) (hl : EachAll Loadable src) (hst : RelAll (fun _ => SameType) src dst) :
    (loadAll E' dst (saveAll E src s)).2.err = .success ∧ RelAll AsNamed src (loadAll E' dst (saveAll E src s)).1 := by
  have h0 := save_succeeds E hE old s hs src hn
  obtain ⟨f, h1, -, h3⟩ := save_load E old s hs src hn hl h0
  obtain ⟨q, r⟩ := h3 E' dst _ hst h1
  exact ⟨r hE', (q (r hE')).2⟩

/-- **C116, false of the code: a matrix does not always load as it was saved.** A matrix without emulated biases named `train_x` or `test_x`
comes back with ones instead of its last column, and without an error. -/
theorem samples_without_biases_lose_column (E E' : Env) (hE : ∀ k, E.ok k = true) (hE' : ∀ k, E'.ok k = true) (old : Vars) (s : St)
    (hs : Idle old s) (n : String) (hx : XName n) (T : Cls) (df : Bool) (m m0 : Mtx (Elem T)) (hr : 0 < m.rows) (hc : 2 ≤ m.cols)
    (hm : m.emul = false) (hd : ∃ r, r < m.rows ∧ m.get r (m.cols - 1) ≠ some 1) :
    ∃ m', (loadAll E' [.nvp n (.mtx T df m0)] (saveAll E [.nvp n (.mtx T df m)] s)).1 = [.nvp n (.mtx T df m')] ∧
      (loadAll E' [.nvp n (.mtx T df m0)] (saveAll E [.nvp n (.mtx T df m)] s)).2.err = .success ∧
      m'.emul ≠ m.emul ∧ ∃ r, r < m.rows ∧ m'.get r (m.cols - 1) ≠ m.get r (m.cols - 1) := by
  obtain ⟨h1, h2⟩ := loaded_as_its_name_says E E' hE hE' old s hs [.nvp n (.mtx T df m)] [.nvp n (.mtx T df m0)]
    (by simp [AllNamed, Item.Named]) (by simp only [EachAll, Item.Each, Loadable]; exact ⟨⟨hr, by omega, fun _ => hc⟩, trivial⟩)
    (by simp [RelAll, Item.Rel, SameType])
  obtain ⟨r, hrr, hne⟩ := hd
  generalize loadAll E' [.nvp n (.mtx T df m0)] (saveAll E [.nvp n (.mtx T df m)] s) = p at *
  obtain ⟨l, s'⟩ := p
  cases l with
  | nil => simp [RelAll] at h2
  | cons j js =>
    cases js with
    | cons => simp [RelAll] at h2
    | nil =>
      cases j with
      | nvpObj => simp [RelAll, Item.Rel] at h2
      | strct => simp [RelAll, Item.Rel] at h2
      | nvp n' v' =>
        simp only [RelAll, Item.Rel, and_true] at h2
        obtain ⟨rfl, h2⟩ := h2
        cases h2 with
        | mtx _ _ _ m' rows cols emul bir get cap own =>
          refine ⟨m', rfl, h1, by rw [hm, emul.2 hx]; simp, r, hrr, ?_⟩
          rw [get r (m.cols - 1) hrr (by omega), if_pos ⟨hx, by omega⟩]
          exact fun h => hne h.symm

/-- **C116, false of the code.** A matrix with emulated biases (say, activations) of any other name comes back without: its bias column has become a
column of data. -/
theorem biases_become_data (E E' : Env) (hE : ∀ k, E.ok k = true) (hE' : ∀ k, E'.ok k = true) (old : Vars) (s : St)
    (hs : Idle old s) (n : String) (hx : ¬ XName n) (T : Cls) (df : Bool) (m m0 : Mtx (Elem T)) (hr : 0 < m.rows) (hc : 0 < m.cols)
    (hm : m.emul = true) (hb : m.bir = false) :
    ∃ m', (loadAll E' [.nvp n (.mtx T df m0)] (saveAll E [.nvp n (.mtx T df m)] s)).1 = [.nvp n (.mtx T df m')] ∧
      (loadAll E' [.nvp n (.mtx T df m0)] (saveAll E [.nvp n (.mtx T df m)] s)).2.err = .success ∧
      m'.emul = false ∧ m'.colsNoBias = m.colsNoBias + 1 := by
  obtain ⟨h1, h2⟩ := loaded_as_its_name_says E E' hE hE' old s hs [.nvp n (.mtx T df m)] [.nvp n (.mtx T df m0)]
    (by simp [AllNamed, Item.Named]) (by simp only [EachAll, Item.Each, Loadable]; exact ⟨⟨hr, by omega, fun a => absurd a hx⟩, trivial⟩)
    (by simp [RelAll, Item.Rel, SameType])
  generalize loadAll E' [.nvp n (.mtx T df m0)] (saveAll E [.nvp n (.mtx T df m)] s) = p at *
  obtain ⟨l, s'⟩ := p
  cases l with
  | nil => simp [RelAll] at h2
  | cons j js =>
    cases js with
    | cons => simp [RelAll] at h2
    | nil =>
      cases j with
      | nvpObj => simp [RelAll, Item.Rel] at h2
      | strct => simp [RelAll, Item.Rel] at h2
      | nvp n' v' =>
        simp only [RelAll, Item.Rel, and_true] at h2
        obtain ⟨rfl, h2⟩ := h2
        cases h2 with
        | mtx _ _ _ m' rows cols emul bir get cap own =>
          have hem : m'.emul = false := by
            cases h : m'.emul
            · rfl
            · exact absurd (emul.1 h) hx
          refine ⟨m', rfl, h1, hem, ?_⟩
          simp only [Mtx.colsNoBias, hem, hm, hb, cols, Bool.false_and, Bool.toNat_false, Bool.not_false, Bool.and_self, Bool.toNat_true]
          omega

/-! ### C117 -/

/-- **C117.** After the first error neither the archive nor its file nor any object loaded into changes any more. -/
theorem after_error_nothing_happens (E : Env) (is : List Item) (s : St) (h : s.err ≠ .success) :
    saveAll E is s = s ∧ loadAll E is s = (is, s) := ⟨saveAll_latched E is s h, loadAll_latched E is s h⟩

/-- Inside of a struct nothing is written to the file, and the outer structs are not touched. -/
def Inside (s s' : St) : Prop := s'.file = s.file ∧ ∃ top', s'.stack = top' :: s.stack.tail

theorem toFileOrStruct_inside (E : Env) (s : St) (v : Var) (h : s.stack ≠ []) : Inside s (toFileOrStruct E s v).1 := by
  obtain ⟨f, cur, st, e, t⟩ := s
  cases st with
  | nil => simp at h
  | cons top rest =>
    unfold toFileOrStruct
    cases cur with
    | none => exact ⟨rfl, top, rfl⟩
    | some n => cases f with
      | none => exact ⟨rfl, top, rfl⟩
      | some f =>
        simp only
        split
        · exact ⟨rfl, _, rfl⟩
        · split
          · exact ⟨rfl, _, rfl⟩
          · exact ⟨rfl, top, rfl⟩

theorem latch_stack (p : St × Err) : (St.latch p).file = p.1.file ∧ (St.latch p).stack = p.1.stack := by
  unfold St.latch; split <;> exact ⟨rfl, rfl⟩

theorem Inside.self {s : St} (h : s.stack ≠ []) : Inside s s := by
  refine ⟨rfl, ?_⟩
  cases hs : s.stack with
  | nil => exact absurd hs h
  | cons top rest => exact ⟨top, rfl⟩

theorem saveVar_inside (E : Env) (s : St) (v : Var) (h : s.stack ≠ []) : Inside s (saveVar E s v) := by
  unfold saveVar
  split
  · exact Inside.self h
  · exact Inside.self h
  · split
    · obtain ⟨a, b⟩ := toFileOrStruct_inside E s.next v h
      obtain ⟨c, d⟩ := latch_stack (toFileOrStruct E s.next v)
      exact ⟨c.trans a, by rw [d]; exact b⟩
    · exact Inside.self (s := s) h

mutual
theorem save_inside (E : Env) : ∀ (i : Item) (s : St), s.stack ≠ [] → Inside s (save E i s)
  | .nvp n v, s, h => by
    simp only [save]
    repeat' split
    · exact Inside.self h
    · exact Inside.self h
    · exact Inside.self h
    · exact saveVar_inside E { s with cur := some n } v.var h
  | .nvpObj n b, s, h => by
    simp only [save]
    repeat' split
    · exact Inside.self h
    · exact Inside.self h
    · exact Inside.self h
    · exact saveAll_inside E b { s with cur := some n } h
  | .strct n b, s, h => by
    simp only [save]
    have hin := saveAll_inside E b { s.next with stack := [] :: s.stack } (by simp)
    repeat' split
    · exact Inside.self h
    · exact Inside.self h
    · exact Inside.self h
    · rename_i top rest hst
      obtain ⟨a, top', b'⟩ := hin
      rw [hst] at b'
      simp only [List.tail_cons, List.cons.injEq] at b'
      obtain ⟨-, rfl⟩ := b'
      obtain ⟨c, d⟩ := latch_stack (toFileOrStruct E ⟨(saveAll E b { s.next with stack := [] :: s.stack }).file, some n, s.stack,
        (saveAll E b { s.next with stack := [] :: s.stack }).err, (saveAll E b { s.next with stack := [] :: s.stack }).tick⟩ (.strct 1 1 top))
      obtain ⟨e, g⟩ := toFileOrStruct_inside E ⟨(saveAll E b { s.next with stack := [] :: s.stack }).file, some n, s.stack,
        (saveAll E b { s.next with stack := [] :: s.stack }).err, (saveAll E b { s.next with stack := [] :: s.stack }).tick⟩ (.strct 1 1 top) h
      exact ⟨(c.trans e).trans a, by rw [d]; exact g⟩
    · rename_i hst
      obtain ⟨a, top', b'⟩ := hin
      rw [hst] at b'
      cases b'
    · exact Inside.self (s := s) h
theorem saveAll_inside (E : Env) : ∀ (is : List Item) (s : St), s.stack ≠ [] → Inside s (saveAll E is s)
  | [], s, h => by simp only [saveAll]; exact Inside.self h
  | i :: is, s, h => by
    simp only [saveAll]
    obtain ⟨a, t, b⟩ := save_inside E i s h
    obtain ⟨c, u, d⟩ := saveAll_inside E is (save E i s) (by rw [b]; simp)
    exact ⟨c.trans a, u, by rw [d, b]; rfl⟩
end

theorem saveVar_err_file (E : Env) (s : St) (v : Var) (hs : s.stack = []) (h0 : s.err = .success) (he : (saveVar E s v).err ≠ .success) :
    (saveVar E s v).file = s.file := by
  obtain ⟨f, cur, st, e, t⟩ := s
  simp only at hs h0
  subst hs h0
  unfold saveVar at *
  cases f with
  | none => rfl
  | some f => cases cur with
    | none => rfl
    | some n =>
      simp only [St.next, toFileOrStruct] at he ⊢
      by_cases h1 : E.ok t = true
      · simp only [h1, if_true] at he ⊢
        by_cases h2 : E.ok (t + 1) = true
        · simp [h2, St.latch] at he
        · simp [h2, St.latch, St.setErr]
      · simp [h1, St.setErr]

/-- One item at the top level of a file. -/
theorem save_top (E : Env) (i : Item) (s : St) (f : Vars) (hn : i.Named) (hi : Idle f s) (he : (save E i s).err ≠ .success) :
    (save E i s).file = some f ∨ ∃ n b fs, i = .strct n b ∧ (save E i s).file = some (fput f n (.strct 1 1 fs)) := by
  obtain ⟨f0, cur, st, e, t⟩ := s
  obtain ⟨h1, h2, h3, h4⟩ := hi
  simp only at h1 h2 h3 h4
  subst h1 h2 h3 h4
  cases i with
  | nvpObj => simp [Item.Named] at hn
  | nvp n v =>
    left
    simp only [save, ne_eq, not_true_eq_false, if_false, Option.isSome_none, Bool.false_eq_true] at he ⊢
    exact saveVar_err_file E _ _ rfl rfl he
  | strct n b =>
    simp only [save, ne_eq, not_true_eq_false, if_false, Option.isSome_none, Bool.false_eq_true] at he ⊢
    by_cases hk : E.ok t = true
    · rw [if_pos hk]
      obtain ⟨a, top', b'⟩ := saveAll_inside E b ⟨some f, none, [[]], .success, t + 1⟩ (by simp)
      simp only [List.tail_cons] at b' a
      simp only [St.next]
      generalize saveAll E b ⟨some f, none, [[]], .success, t + 1⟩ = s1 at *
      rw [b']
      simp only [(latch_stack _).1]
      simp only [toFileOrStruct, a]
      by_cases h2 : E.ok s1.tick = true
      · right
        exact ⟨n, b, top', rfl, by simp [h2, St.next]⟩
      · left
        simp [h2, St.next, a]
    · rw [if_neg hk]
      left
      rfl

/-- **C117.** What is in the file after a save that failed: the parts before the one that failed are there, the parts after it are not, and of the one that
failed there is nothing, unless it is a struct. -/
theorem failed_save_partial (E : Env) (src : List Item) : ∀ (old : Vars) (s : St), Idle old s → AllNamed src →
    (saveAll E src s).err ≠ .success →
    ∃ p i q s1, src = p ++ i :: q ∧ s1 = saveAll E p s ∧ s1.err = .success ∧ saveAll E src s = save E i s1 ∧
      ((saveAll E src s).file = s1.file ∨
        ∃ n b fs f, i = .strct n b ∧ s1.file = some f ∧ (saveAll E src s).file = some (fput f n (.strct 1 1 fs))) := by
  induction src with
  | nil => intro old s hi _ he; simp only [saveAll] at he; exact absurd hi.ok he
  | cons i is ih =>
    intro old s hi hn he
    simp only [AllNamed] at hn
    simp only [saveAll] at he ⊢
    by_cases h1 : (save E i s).err = .success
    · obtain ⟨⟨w0, w⟩, -⟩ := save_ok E i s hn.1 hi.cur (by rw [hi.file]; rfl) h1
      rw [hi.stack, hi.file] at w
      obtain ⟨p, j, q, s1, g1, g2, g3, g4, g5⟩ := ih _ (save E i s) ⟨w.2, w0, w.1, h1⟩ hn.2.2 he
      exact ⟨i :: p, j, q, s1, by simp [g1], by simp [saveAll, g2], g3, g4, g5⟩
    · rw [saveAll_latched E is _ h1]
      refine ⟨[], i, is, s, rfl, by simp [saveAll], hi.ok, rfl, ?_⟩
      rcases save_top E i s old hn.1 hi h1 with h | ⟨n, b, fs, h2, h3⟩
      · left; rw [h, hi.file]
      · right; exact ⟨n, b, fs, old, h2, hi.file, h3⟩

/-- **C117, false of the code: a save that failed leaves no half-written variables.** If a part of a struct cannot be saved, the incomplete struct
is written to the file nevertheless, in place of the complete one from before. Whoever closes the archive without looking at its
error code first is told that all is well. -/
theorem failed_save_overwrites_with_incomplete :
    ∃ (E E2 : Env) (old f : Vars) (s : St) (src : List Item), Idle old s ∧ AllNamed src ∧ EachAll Regular src ∧
      -- the file had the object in it
      (∀ s' : St, Idle old s' → (loadAll E2 src s').2.err = .success) ∧
      -- saving it once more fails
      (saveAll E src s).err = .failedToAllocateMxData ∧ (saveAll E src s).file = some f ∧
      -- and it cannot be loaded any more
      (∀ s' : St, Idle f s' → (loadAll E2 src s').2.err = .failedToTransferVariable) ∧
      ((saveAll E src s).close E).2 = .success := by
  refine ⟨⟨fun k => k != 3, fun _ _ => 0, fun _ _ b => b⟩, ⟨fun _ => true, fun _ _ => 0, fun _ _ b => b⟩,
    [("net", .strct 1 1 [("a", .num .double 1 1 fun _ => 5), ("b", .num .double 1 1 fun _ => 7)])],
    [("net", .strct 1 1 [("a", .num .double 1 1 fun _ => 5)])],
    ⟨some [("net", .strct 1 1 [("a", .num .double 1 1 fun _ => 5), ("b", .num .double 1 1 fun _ => 7)])], none, [], .success, 0⟩,
    [.strct "net" [.nvp "a" (.scalar .double 5), .nvp "b" (.scalar .double 7)]], ⟨rfl, rfl, rfl, rfl⟩, ?_, ?_, ?_, ?_, ?_, ?_, ?_⟩
  · simp [AllNamed, Item.Named, Item.name]
  · simp [EachAll, Item.Each, Regular]
  · rintro ⟨f, cur, st, e, t⟩ ⟨h1, h2, h3, h4⟩
    simp only at h1 h2 h3 h4
    subst h1 h2 h3 h4
    simp [loadAll, load, loadVar, loadLeaf, loadScalar, fget, St.next]
  · simp [saveAll, save, saveVar, toFileOrStruct, St.latch, St.next, St.setErr, fput, fget, Leaf.var]
  · simp [saveAll, save, saveVar, toFileOrStruct, St.latch, St.next, St.setErr, fput, fget, Leaf.var]
  · rintro ⟨f, cur, st, e, t⟩ ⟨h1, h2, h3, h4⟩
    simp only at h1 h2 h3 h4
    subst h1 h2 h3 h4
    simp [loadAll, load, loadVar, loadLeaf, loadScalar, fget, St.next, St.setErr]
  · simp [saveAll, save, saveVar, toFileOrStruct, St.latch, St.next, St.setErr, fput, fget, Leaf.var, St.close]

/-- **C117, whom the error concerns.** An object that is stored as a plain name-value pair instead of a named struct is refused, unless
it is empty: then the archive goes on without an error but refuses the next item. -/
theorem pair_of_object_refused (E : Env) (n : String) (b : List Item) (i : Item) (f : Vars) (s : St) (hs : Idle f s) :
    (b ≠ [] → (save E (.nvpObj n b) s).err = .nameAlreadySet ∧ (save E (.nvpObj n b) s).file = some f) ∧
    (b = [] → (save E (.nvpObj n b) s).err = .success ∧ (save E i (save E (.nvpObj n b) s)).err = .nameAlreadySet) := by
  obtain ⟨f0, cur, st, e, t⟩ := s
  obtain ⟨h1, h2, h3, h4⟩ := hs
  simp only at h1 h2 h3 h4
  subst h1 h2 h3 h4
  have key : ∀ j : Item, save E j ⟨some f, some n, [], .success, t⟩ = ⟨some f, some n, [], .nameAlreadySet, t⟩ := by
    intro j; cases j <;> simp [save, St.setErr]
  constructor
  · intro hne
    cases b with
    | nil => exact absurd rfl hne
    | cons j js =>
      simp only [save, ne_eq, not_true_eq_false, if_false, Option.isSome_none, Bool.false_eq_true, saveAll, key j]
      rw [saveAll_latched E js _ (by simp)]
      exact ⟨rfl, rfl⟩
  · rintro rfl
    simp only [save, ne_eq, not_true_eq_false, if_false, Option.isSome_none, Bool.false_eq_true, saveAll, key i]
    exact ⟨trivial, trivial⟩

/-! ### Non-vacuity: a data set with a network's parameters -/

/-- Two samples of one feature. -/
def demoX : Mtx (Elem .double) := ⟨fun k => if k < 2 then ⟨k + 10⟩ else 1, 4, 2, 2, true, false, false, false, 4⟩
def demoY : Mtx (Elem .double) := ⟨fun k => ⟨k + 20⟩, 2, 2, 1, false, false, false, false, 2⟩
def demo : List Item :=
  [.strct "td" [.nvp "train_x" (.mtx .double true demoX), .nvp "train_y" (.mtx .double true demoY)],
   .strct "net" [.nvp "lr" (.scalar .double 3), .strct "layer" [.nvp "train_y" (.mtx .double false demoY)]]]

theorem demo_regular : EachAll Regular demo := by
  have hx : BiasesAreOnes demoX := by
    intro _ r c hr hc hb
    simp only [IsBias, demoX] at hb hr hc
    have hb2 : c = 1 := by simpa using hb
    subst hb2
    obtain rfl | rfl : r = 0 ∨ r = 1 := by omega
    · rfl
    · rfl
  have hy : BiasesAreOnes demoY := noEmul_ok _ rfl
  simp only [demo, EachAll, Item.Each, Regular, and_true]
  refine ⟨⟨⟨by decide, by decide, by decide, by decide, rfl, by decide, hx⟩, by decide, by decide, by decide, by decide, rfl, by decide, hy⟩,
    trivial, by decide, by decide, by decide, by decide, rfl, by decide, hy⟩

example (E : Env) (hE : ∀ k, E.ok k = true) : ∃ f, Idle f (saveAll E demo ⟨some [], none, [], .success, 0⟩) ∧
    (loadAll E demo (saveAll E demo ⟨some [], none, [], .success, 0⟩)).2.err = .success ∧
    RelAll (fun _ => SameValue) demo (loadAll E demo (saveAll E demo ⟨some [], none, [], .success, 0⟩)).1 := by
  have hn : AllNamed demo := by simp [demo, AllNamed, Item.Named, Item.name]
  have hi : Idle [] ⟨some [], none, [], .success, 0⟩ := ⟨rfl, rfl, rfl, rfl⟩
  obtain ⟨f, h1, -, h3⟩ := saved_loads_back E [] _ hi demo hn demo_regular (save_succeeds E hE [] _ hi demo hn)
  obtain ⟨q, r⟩ := h3 E demo _ (by simp [demo, RelAll, Item.Rel, SameType]) h1
  exact ⟨f, h1, r hE, (q (r hE)).2⟩

end Nntl.MatFile
