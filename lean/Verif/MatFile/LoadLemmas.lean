import Verif.MatFile.Lemmas
/-! Helper lemmas for the MATLAB archives: loading. -/
namespace Nntl.MatFile
open Nntl.Matrix
set_option linter.unusedSimpArgs false

theorem isX_iff (n : String) : isX n = true ↔ XName n := by simp [isX, XName]

/-- What a matrix loaded under the name `n` from a variable of `R` rows and `C` columns with the elements `e` is. -/
structure Filled {T : Cls} (n : String) (R C : Nat) (e : Nat → Elem T) (m : Mtx (Elem T)) : Prop where
  rows : m.rows = R
  cols : m.cols = C
  emul : m.emul = true ↔ XName n
  bir : m.bir = false
  get : ∀ r c, r < R → c < C → m.get r c = some (if XName n ∧ c + 1 = C then 1 else e (r + R * c))
  cap : m.cap = m.rows * m.cols
  own : m.ext = false

theorem resize_cleared {T : Cls} (m : Mtx (Elem T)) (b : Bool) (r c : Nat) (j : Nat → Elem T) (ok : Bool) (hr : 0 < r) (hc : 0 < c) :
    ∃ m', Mtx.resize { mclear m with emul := b } r c j ok = some (m', ok) ∧
      (ok = true → m'.rows = r ∧ m'.cols = c + b.toNat ∧ m'.emul = b ∧ m'.bir = false ∧ m'.ext = false ∧ m'.cap = m'.rows * m'.cols ∧
        (b = true → ∀ i, i < r → m'.data (i + r * c) = 1)) := by
  have hr0 : ¬ (r = 0 ∨ c = 0) := by omega
  have hstep : Mtx.resize { mclear m with emul := b } r c j ok =
      some (if ok && b then (⟨j, if ok then r * (c + b.toNat) else 0, r, c + b.toNat, b, false, false, false, m.maxSize⟩ : Mtx (Elem T)).setBiases
        else ⟨j, if ok then r * (c + b.toNat) else 0, r, c + b.toNat, b, false, false, false, m.maxSize⟩, ok) := by
    have h1 : ¬ (r = 0 ∨ c + b.toNat = 0) := by omega
    have h2 : ¬ (r = 0 ∧ c + b.toNat = 0) := by omega
    cases b <;> cases ok <;> simp_all [Mtx.resize, Mtx.implResize, mclear]
  rw [hstep]
  refine ⟨_, rfl, ?_⟩
  rintro rfl
  cases b
  · simp
  · simp only [Bool.and_self, if_true, setBiases_rows, setBiases_cols, setBiases_emul, setBiases_bir, setBiases_ext, setBiases_cap, true_and,
      Bool.toNat_true]
    intro _ i hi
    exact setBiases_data (⟨j, r * (c + 1), r, c + 1, true, false, false, false, m.maxSize⟩ : Mtx (Elem T)) i c hi (Nat.lt_succ_self c) (by simp)

/-- What `_load_var` finds. -/
def lookup (s : St) (n : String) : Option Var :=
  match s.stack, s.file with
  | top :: _, _ => fget top n
  | [], some f => fget f n
  | [], none => none

/-- Loading changes neither the file nor the structs. -/
def Kept (s s' : St) : Prop := s'.file = s.file ∧ s'.stack = s.stack

theorem Kept.trans {a b c : St} (h : Kept a b) (k : Kept b c) : Kept a c := ⟨k.1.trans h.1, k.2.trans h.2⟩

theorem Kept.lookup {s s' : St} (h : Kept s s') (n : String) : lookup s' n = lookup s n := by
  unfold MatFile.lookup; rw [h.1, h.2]

/-- The result of `_load_var` for a variable that is there: found, or the library failed. -/
theorem loadVar_found (E : Env) (s : St) (w : Bool) (n : String) (v : Var) (hc : s.cur = some n) (hf : s.file.isSome = true)
    (hl : lookup s n = some v) (hw : (∃ r c fs, v = .strct r c fs ∧ w = true ∧ r ≠ 0 ∧ c ≠ 0) ∨
      (∃ S r c d, v = .num S r c d ∧ w = false ∧ r ≠ 0 ∧ c ≠ 0)) :
    (∃ k, loadVar E s w = ({ s with tick := k }, some v)) ∨
    (∃ s', loadVar E s w = (s', none) ∧ s'.err = .failedToTransferVariable ∧ Kept s s' ∧ ∃ k, E.ok k = false) := by
  obtain ⟨f, cur, st, e, t⟩ := s
  simp only at hc hf
  subst hc
  obtain ⟨f, rfl⟩ := Option.isSome_iff_exists.1 hf
  cases st with
  | cons top rest =>
    simp only [lookup] at hl
    left
    refine ⟨t, ?_⟩
    rcases hw with ⟨r, c, fs, rfl, rfl, hr, hcc⟩ | ⟨S, r, c, d, rfl, rfl, hr, hcc⟩ <;> simp [loadVar, hl, hr, hcc]
  | nil =>
    simp only [lookup] at hl
    by_cases hk : E.ok t = true
    · left
      refine ⟨t + 1, ?_⟩
      rcases hw with ⟨r, c, fs, rfl, rfl, hr, hcc⟩ | ⟨S, r, c, d, rfl, rfl, hr, hcc⟩ <;> simp [loadVar, hl, hr, hcc, hk, St.next]
    · right
      exact ⟨⟨some f, some n, [], .failedToTransferVariable, t + 1⟩, by simp [loadVar, hk, St.next, St.setErr], rfl, ⟨rfl, rfl⟩, t,
        by simpa using hk⟩

theorem element_same (E : Env) (T : Cls) : element E T T = some fun b => ⟨b⟩ := by simp [element]

theorem loadMtx_found (E : Env) (n : String) {T : Cls} (df : Bool) (m : Mtx (Elem T)) (s : St) (S : Cls) (R C : Nat) (d : Nat → Nat)
    (g : Nat → Elem T) (hg : element E S T = some g) (hc : s.cur = some n) (hf : s.file.isSome = true) (he : s.err = .success)
    (hl : lookup s n = some (.num S R C d)) (hR : 0 < R) (hC : 0 < C) (hX : XName n → 2 ≤ C) :
    Kept s (loadMtx E n df m s).2 ∧
    ((loadMtx E n df m s).2.err = .success → (loadMtx E n df m s).2.cur = none ∧ Filled n R C (fun k => g (d k)) (loadMtx E n df m s).1) ∧
    ((∀ k, E.ok k = true) → (loadMtx E n df m s).2.err = .success) := by
  rcases loadVar_found E s false n _ hc hf hl (.inr ⟨S, R, C, d, rfl, rfl, by omega, by omega⟩) with ⟨k, hv⟩ | ⟨s', hv, h1, h2, k, h3⟩
  · have hcx : ¬ ((isX n && decide (C < 2)) = true) := by
      simp only [Bool.and_eq_true, decide_eq_true_eq, isX_iff]
      rintro ⟨a, b⟩
      have := hX a
      omega
    have hc' : 0 < (if isX n = true then C - 1 else C) := by
      split
      · rename_i h; have := hX ((isX_iff n).1 h); omega
      · exact hC
    obtain ⟨m1, hm1, hm2⟩ := resize_cleared m (isX n) R (if isX n = true then C - 1 else C) (E.elems T k) (E.ok k) hR hc'
    unfold loadMtx
    rw [hv]
    simp only [if_neg hcx, hm1]
    by_cases hk : E.ok k = true
    · rw [hk]
      obtain ⟨q1, q2, q3, q4, q5, q6, q7⟩ := hm2 hk
      simp only [hg]
      have hff : ∀ src, m1.fillFromArrayNoBias src = some { m1 with data := copyN m1.data src m1.numelNoBias } := by
        intro src; simp [Mtx.fillFromArrayNoBias, q4]
      simp only [hff]
      have q2' : m1.cols = C := by
        rw [q2]
        by_cases h : isX n = true
        · simp only [h, if_true]; have := hX ((isX_iff n).1 h); simp; omega
        · simp [h]
      have hnb : m1.numelNoBias = R * (if isX n = true then C - 1 else C) := by
        simp only [Mtx.numelNoBias, Mtx.rowsNoBias, Mtx.colsNoBias, q1, q2', q3, q4, Bool.and_false, Bool.not_false, Bool.and_true,
          Bool.toNat_false, Nat.sub_zero]
        by_cases h : isX n = true <;> simp [h]
      refine ⟨⟨rfl, rfl⟩, ?_, ?_⟩
      · intro _
        refine ⟨trivial, ?_⟩
        have key : Filled n R C (fun k => g (d k)) { m1 with data := copyN m1.data (fun k => g (d k)) m1.numelNoBias } := by
          refine ⟨q1, q2', by rw [← isX_iff]; simp [q3], q4, ?_, q6, q5⟩
          intro r c hr hc2
          have hin : r < m1.rows ∧ c < m1.cols := by rw [q1, q2']; exact ⟨hr, hc2⟩
          simp only [Mtx.get, Mtx.cell]
          rw [if_pos hin, copyN_apply, hnb, q1]
          congr 1
          by_cases h : isX n = true
          · have hx := (isX_iff n).1 h
            have h2 := hX hx
            simp only [h, if_true] at q7 ⊢
            by_cases hlast : c + 1 = C
            · have e1 : C - 1 = c := by omega
              have hn1 : ¬ (r + R * c < R * (C - 1)) := by rw [e1]; omega
              rw [if_neg hn1, if_pos ⟨hx, hlast⟩]
              have := q7 trivial r hr
              rwa [e1] at this
            · rw [if_pos (cell_lt hr (by omega)), if_neg (fun a => hlast a.2)]
          · have hx : ¬ XName n := fun a => h ((isX_iff n).2 a)
            have hn1 : r + R * c < R * (if isX n = true then C - 1 else C) := by simpa [h] using cell_lt hr hc2
            rw [if_pos hn1, if_neg (fun a => hx a.1)]
        split
        · exact ⟨key.rows, key.cols, key.emul, key.bir, key.get, key.cap, key.own⟩
        · exact key
      · intro _; exact he
    · have hk' : E.ok k = false := by simpa using hk
      rw [hk']
      refine ⟨⟨rfl, rfl⟩, ?_, ?_⟩
      · intro h; simp [St.setErr] at h
      · intro h; rw [h k] at hk'; cases hk'
  · unfold loadMtx
    rw [hv]
    refine ⟨h2, ?_, ?_⟩
    · intro h; rw [h1] at h; cases h
    · intro h; rw [h k] at h3; cases h3

theorem loadScalar_found (E : Env) (n : String) (T : Cls) (v w : Nat) (s : St) (hc : s.cur = some n) (hf : s.file.isSome = true)
    (he : s.err = .success) (hl : lookup s n = some (.num T 1 1 fun _ => w)) :
    Kept s (loadScalar E T v s).2 ∧
    ((loadScalar E T v s).2.err = .success → (loadScalar E T v s).2.cur = none ∧ (loadScalar E T v s).1 = w) ∧
    ((∀ k, E.ok k = true) → (loadScalar E T v s).2.err = .success) := by
  rcases loadVar_found E s false n _ hc hf hl (.inr ⟨T, 1, 1, _, rfl, rfl, by omega, by omega⟩) with ⟨k, hv⟩ | ⟨s', hv, h1, h2, k, h3⟩
  · unfold loadScalar
    rw [hv]
    simp [Kept, he]
  · unfold loadScalar
    rw [hv]
    refine ⟨h2, ?_, ?_⟩
    · intro h; rw [h1] at h; cases h
    · intro h; rw [h k] at h3; cases h3

theorem loadLeaf_found (E : Env) (n : String) (src dst : Leaf) (s : St) (hst : SameType src dst) (hld : Loadable n src)
    (hc : s.cur = some n) (hf : s.file.isSome = true) (he : s.err = .success) (hl : lookup s n = some src.var) :
    Kept s (loadLeaf E n dst s).2 ∧
    ((loadLeaf E n dst s).2.err = .success → (loadLeaf E n dst s).2.cur = none ∧ AsNamed n src (loadLeaf E n dst s).1) ∧
    ((∀ k, E.ok k = true) → (loadLeaf E n dst s).2.err = .success) := by
  cases src with
  | scalar T w =>
    cases dst with
    | scalar T' v =>
      simp only [SameType] at hst
      subst hst
      obtain ⟨a, b, c⟩ := loadScalar_found E n T v w s hc hf he hl
      refine ⟨a, fun h => ⟨(b h).1, ?_⟩, c⟩
      show AsNamed n (.scalar T w) (.scalar T (loadScalar E T v s).1)
      rw [(b h).2]
      exact .scalar T w
    | mtx => simp [SameType] at hst
  | mtx T df m0 =>
    cases dst with
    | scalar => simp [SameType] at hst
    | mtx T' df' m =>
      simp only [SameType] at hst
      obtain ⟨rfl, rfl⟩ := hst
      simp only [Loadable] at hld
      obtain ⟨a, b, c⟩ := loadMtx_found E n df m s T m0.rows m0.cols (fun k => (m0.data k).bits) _ (element_same E T) hc hf he hl hld.1 hld.2.1
        hld.2.2
      refine ⟨a, fun h => ⟨(b h).1, ?_⟩, c⟩
      have F := (b h).2
      show AsNamed n (.mtx T df m0) (.mtx T df (loadMtx E n df m s).1)
      refine .mtx T df m0 _ F.rows F.cols F.emul F.bir ?_ F.cap F.own
      intro r c hr hcc
      rw [F.get r c hr hcc]
      split
      · rfl
      · simp only [Mtx.get, if_pos (And.intro hr hcc)]
        rfl

theorem load_latched (E : Env) (i : Item) (s : St) (h : s.err ≠ .success) : load E i s = (i, s) := by
  cases i <;> simp [load, h]

theorem loadAll_latched (E : Env) (is : List Item) (s : St) (h : s.err ≠ .success) : loadAll E is s = (is, s) := by
  induction is with
  | nil => simp [loadAll]
  | cons i is ih => simp [loadAll, load_latched E i s h, ih]

mutual
theorem load_found (E : Env) : ∀ (src dst : Item) (s : St), src.Named → src.Rel (fun _ => SameType) dst → src.Each Loadable →
    s.cur = none → s.file.isSome = true → s.err = .success → lookup s src.name = some src.var →
    Kept s (load E dst s).2 ∧
    ((load E dst s).2.err = .success → (load E dst s).2.cur = none ∧ src.Rel AsNamed (load E dst s).1) ∧
    ((∀ k, E.ok k = true) → (load E dst s).2.err = .success)
  | .nvp n v, dst, s, _, hr, hld, hc, hf, he, hl => by
    cases dst with
    | nvpObj => simp [Item.Rel] at hr
    | strct => simp [Item.Rel] at hr
    | nvp n' v' =>
      simp only [Item.Rel] at hr
      obtain ⟨rfl, hst⟩ := hr
      obtain ⟨f, hf⟩ := Option.isSome_iff_exists.1 hf
      simp only [Item.Each] at hld
      obtain ⟨a, b, c⟩ := loadLeaf_found E n v v' { s with cur := some n } hst hld rfl (by simp [hf]) he hl
      have hload : load E (.nvp n v') s = (.nvp n (loadLeaf E n v' { s with cur := some n }).1, (loadLeaf E n v' { s with cur := some n }).2) := by
        simp [load, he, hf, hc]
      rw [hload]
      refine ⟨a, fun h => ⟨(b h).1, ?_⟩, c⟩
      simp only [Item.Rel]
      exact ⟨trivial, (b h).2⟩
  | .nvpObj n b, dst, s, hn, _, _, _, _, _, _ => by simp [Item.Named] at hn
  | .strct n b, dst, s, hn, hr, hld, hc, hf, he, hl => by
    cases dst with
    | nvp => simp [Item.Rel] at hr
    | nvpObj => simp [Item.Rel] at hr
    | strct n' b' =>
      simp only [Item.Rel] at hr
      obtain ⟨rfl, hst⟩ := hr
      simp only [Item.Each] at hld
      simp only [Item.Named] at hn
      obtain ⟨f, hf⟩ := Option.isSome_iff_exists.1 hf
      have hstart : load E (.strct n b') s =
          match loadVar E { s with cur := some n } true with
          | (s, some (.strct r c fs)) =>
            if r = 1 ∧ c = 1 then
              (.strct n (loadAll E b' { s with cur := none, stack := fs :: s.stack }).1,
                { (loadAll E b' { s with cur := none, stack := fs :: s.stack }).2 with
                  stack := (loadAll E b' { s with cur := none, stack := fs :: s.stack }).2.stack.tail })
            else (.strct n b', { s with cur := none }.setErr .wrongVariableType)
          | (s, _) => (.strct n b', { s with cur := none }) := by
        simp [load, he, hf, hc]
        rfl
      rw [hstart]
      rcases loadVar_found E { s with cur := some n } true n _ rfl (by simp [hf]) hl
        (.inl ⟨1, 1, putAll [] b, by simp [Item.var], rfl, by omega, by omega⟩) with ⟨k, hv⟩ | ⟨s', hv, h1, h2, k, h3⟩
      · rw [hv]
        simp only [Item.var, and_self, if_true]
        obtain ⟨p1, p2, p3⟩ := loadAll_found E b b' ⟨s.file, none, putAll [] b :: s.stack, s.err, k⟩ hn hst hld rfl (by simp [hf]) he
          (fun i hi => by simp only [lookup]; exact putAll_mem b [] hn i hi)
        refine ⟨⟨p1.1, ?_⟩, fun h => ⟨(p2 h).1, ?_⟩, p3⟩
        · simp only; rw [p1.2]; rfl
        · simp only [Item.Rel]
          exact ⟨trivial, (p2 h).2⟩
      · rw [hv]
        refine ⟨h2, ?_, ?_⟩
        · intro h; simp only at h; rw [h1] at h; cases h
        · intro h; rw [h k] at h3; cases h3
theorem loadAll_found (E : Env) : ∀ (src dst : List Item) (s : St), AllNamed src → RelAll (fun _ => SameType) src dst → EachAll Loadable src →
    s.cur = none → s.file.isSome = true → s.err = .success → (∀ i ∈ src, lookup s i.name = some i.var) →
    Kept s (loadAll E dst s).2 ∧
    ((loadAll E dst s).2.err = .success → (loadAll E dst s).2.cur = none ∧ RelAll AsNamed src (loadAll E dst s).1) ∧
    ((∀ k, E.ok k = true) → (loadAll E dst s).2.err = .success)
  | [], dst, s, _, hr, _, hc, _, he, _ => by
    cases dst with
    | nil => simp [loadAll, Kept, hc, he, RelAll]
    | cons => simp [RelAll] at hr
  | i :: is, dst, s, hn, hr, hld, hc, hf, he, hl => by
    cases dst with
    | nil => simp [RelAll] at hr
    | cons j js =>
      simp only [RelAll] at hr
      simp only [EachAll] at hld
      simp only [AllNamed] at hn
      obtain ⟨a, b, c⟩ := load_found E i j s hn.1 hr.1 hld.1 hc hf he (hl i List.mem_cons_self)
      have hall : loadAll E (j :: js) s = ((load E j s).1 :: (loadAll E js (load E j s).2).1, (loadAll E js (load E j s).2).2) := by
        simp [loadAll]
      rw [hall]
      by_cases h1 : (load E j s).2.err = .success
      · obtain ⟨p, q, r⟩ := loadAll_found E is js (load E j s).2 hn.2.2 hr.2 hld.2 (b h1).1 (by rw [a.1]; exact hf) h1
          (fun k hk => by rw [a.lookup]; exact hl k (List.mem_cons_of_mem _ hk))
        refine ⟨a.trans p, fun h => ⟨(q h).1, ?_⟩, r⟩
        simp only [RelAll]
        exact ⟨(b h1).2, (q h).2⟩
      · rw [loadAll_latched E js _ h1]
        exact ⟨a, fun h => absurd h h1, c⟩
end

end Nntl.MatFile
