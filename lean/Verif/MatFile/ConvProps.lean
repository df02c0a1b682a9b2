import Verif.MatFile.Props
/-! C118 (types of elements), C119 (opening and closing). -/
namespace Nntl.MatFile
open Nntl.Matrix
set_option linter.unusedSimpArgs false

/-! ### C118 -/

/-- Width of an integer class in bits, and whether it is signed. -/
def Cls.int? : Cls → Option (Nat × Bool)
  | .int8 => some (8, true)
  | .uint8 => some (8, false)
  | .int32 => some (32, true)
  | .uint32 => some (32, false)
  | .int64 => some (64, true)
  | .uint64 => some (64, false)
  | _ => none

/-- The number an integer's bit pattern stands for. -/
def toInt (w : Nat) (signed : Bool) (b : Nat) : Int := if signed ∧ 2 ^ (w - 1) ≤ b then (b : Int) - 2 ^ w else b

/-- `static_cast` between integer types keeps the number, modulo the size of the destination. -/
def IntCasts (cast : Cls → Cls → Nat → Nat) : Prop :=
  ∀ S T w s w' s' b, S.int? = some (w, s) → T.int? = some (w', s') → b < 2 ^ w →
    (cast S T b : Int) = (toInt w s b) % 2 ^ w'

/-- Classes nntl knows and whose elements it does not take for something else. -/
def Faithful : Cls → Prop
  | .int8 => False
  | .int32 => False
  | .int64 => False
  | .otherCls => False
  | _ => True

/-- Loading one matrix from a file. -/
theorem load_matrix (E : Env) (n : String) (S T : Cls) (df : Bool) (m : Mtx (Elem T)) (R C : Nat) (d : Nat → Nat) (g : Nat → Elem T)
    (hg : element E S T = some g) (f : Vars) (s : St) (hs : Idle f s) (hv : fget f n = some (.num S R C d)) (hR : 0 < R) (hC : 0 < C)
    (hX : XName n → 2 ≤ C) :
    ∃ m' s', load E (.nvp n (.mtx T df m)) s = (.nvp n (.mtx T df m'), s') ∧
      (s'.err = .success → Idle f s' ∧ Filled n R C (fun k => g (d k)) m') ∧ ((∀ k, E.ok k = true) → s'.err = .success) := by
  obtain ⟨f0, cur, st, e, t⟩ := s
  obtain ⟨h1, h2, h3, h4⟩ := hs
  simp only at h1 h2 h3 h4
  subst h1 h2 h3 h4
  obtain ⟨a, b, c⟩ := loadMtx_found E n df m ⟨some f, some n, [], .success, t⟩ S R C d g hg rfl rfl rfl (by simpa [lookup] using hv) hR hC hX
  refine ⟨(loadMtx E n df m ⟨some f, some n, [], .success, t⟩).1, (loadMtx E n df m ⟨some f, some n, [], .success, t⟩).2,
    by simp [load, loadLeaf], ?_, c⟩
  intro h
  exact ⟨⟨a.1, (b h).1, a.2, h⟩, (b h).2⟩

/-- **C118.** A matrix of numbers is loaded from a variable of any class `S`, signed integers of another type than the matrix' excepted: either
an error is reported, or every element is the variable's one, converted as C++ does. (The last column of samples consists of the biases.) -/
theorem matrix_elements_converted_partial (E : Env) (n : String) (S T : Cls) (hST : S = T ∨ Faithful S) (df : Bool) (m : Mtx (Elem T)) (R C : Nat)
    (d : Nat → Nat) (f : Vars) (s : St) (hs : Idle f s) (hv : fget f n = some (.num S R C d)) (hR : 0 < R) (hC : 0 < C) (hX : XName n → 2 ≤ C) :
    ∃ m' s', load E (.nvp n (.mtx T df m)) s = (.nvp n (.mtx T df m'), s') ∧ ((∀ k, E.ok k = true) → s'.err = .success) ∧
      (s'.err = .success → m'.rows = R ∧ m'.cols = C ∧ ∀ r c, r < R → c < C → ¬ (XName n ∧ c + 1 = C) →
        m'.get r c = some ⟨if S = T then d (r + R * c) else E.cast S T (d (r + R * c))⟩) := by
  have hg : element E S T = some fun b => ⟨if S = T then b else E.cast S T b⟩ := by
    by_cases h : S = T
    · subst h; simp [element]
    · have h' : ¬ T = S := fun a => h a.symm
      rcases hST with rfl | hF
      · exact absurd rfl h
      · simp only [element, if_neg h', if_neg h]
        cases S <;> simp_all [Faithful, readAs]
  obtain ⟨m', s', h1, h2, h3⟩ := load_matrix E n S T df m R C d _ hg f s hs hv hR hC hX
  refine ⟨m', s', h1, h3, fun he => ?_⟩
  have F := (h2 he).2
  refine ⟨F.rows, F.cols, fun r c hr hc hx => ?_⟩
  rw [F.get r c hr hc, if_neg hx]

/-- The unsigned class of the same width. -/
def unsign : Cls → Cls
  | .int8 => .uint8
  | .int32 => .uint32
  | .int64 => .uint64
  | c => c

/-- **C118, what happens to signed integers**: they are taken for unsigned ones first. -/
theorem signed_elements_taken_for_unsigned (E : Env) (n : String) (S T : Cls) (hS : S = .int8 ∨ S = .int32 ∨ S = .int64) (hST : S ≠ T)
    (df : Bool) (m : Mtx (Elem T)) (R C : Nat) (d : Nat → Nat) (f : Vars) (s : St) (hs : Idle f s) (hv : fget f n = some (.num S R C d))
    (hR : 0 < R) (hC : 0 < C) (hX : XName n → 2 ≤ C) :
    ∃ m' s', load E (.nvp n (.mtx T df m)) s = (.nvp n (.mtx T df m'), s') ∧ ((∀ k, E.ok k = true) → s'.err = .success) ∧
      (s'.err = .success → m'.rows = R ∧ m'.cols = C ∧ ∀ r c, r < R → c < C → ¬ (XName n ∧ c + 1 = C) →
        m'.get r c = some ⟨E.cast (unsign S) T (d (r + R * c))⟩) := by
  have hg : element E S T = some fun b => ⟨E.cast (unsign S) T b⟩ := by
    have h' : ¬ T = S := fun a => hST a.symm
    rcases hS with rfl | rfl | rfl <;> simp [element, h', readAs, unsign]
  obtain ⟨m', s', h1, h2, h3⟩ := load_matrix E n S T df m R C d _ hg f s hs hv hR hC hX
  refine ⟨m', s', h1, h3, fun he => ?_⟩
  have F := (h2 he).2
  refine ⟨F.rows, F.cols, fun r c hr hc hx => ?_⟩
  rw [F.get r c hr hc, if_neg hx]

/-- **C118, false of the code: a loaded matrix holds the numbers of the variable.** -1 in a variable of class `int32` becomes 4294967295 in a
matrix of `int64`, without an error. -/
theorem negative_numbers_change (E : Env) (hE : ∀ k, E.ok k = true) (hcast : IntCasts E.cast) (s : St)
    (hs : Idle [("a", .num .int32 1 1 fun _ => 2 ^ 32 - 1)] s) (m : Mtx (Elem .int64)) :
    ∃ m' s' b, load E (.nvp "a" (.mtx .int64 false m)) s = (.nvp "a" (.mtx .int64 false m'), s') ∧ s'.err = .success ∧
      m'.get 0 0 = some ⟨b⟩ ∧ toInt 32 true (2 ^ 32 - 1) = -1 ∧ toInt 64 true b = 4294967295 := by
  obtain ⟨m', s', h1, h2, h3⟩ := signed_elements_taken_for_unsigned E "a" .int32 .int64 (by simp) (by simp) false m 1 1 (fun _ => 2 ^ 32 - 1) _ s hs
    (by simp [fget]) (by omega) (by omega) (by simp [XName])
  have hb := (h3 (h2 hE)).2.2 0 0 (by omega) (by omega) (by simp [XName])
  have hcc := hcast .uint32 .int64 32 false 64 true (2 ^ 32 - 1) rfl rfl (by decide)
  have hval : E.cast .uint32 .int64 (2 ^ 32 - 1) = 2 ^ 32 - 1 := by
    have : (E.cast .uint32 .int64 (2 ^ 32 - 1) : Int) = ((2 ^ 32 - 1 : Nat) : Int) := by
      rw [hcc]; decide
    exact_mod_cast this
  refine ⟨m', s', 2 ^ 32 - 1, h1, h2 hE, ?_, by decide, by decide⟩
  rw [hb]
  simp only [unsign, hval]

/-- Conversions between integer types as C++ makes them. -/
def demoCast (S T : Cls) (b : Nat) : Nat :=
  match S.int?, T.int? with
  | some (w, s), some (w', _) => ((toInt w s b) % 2 ^ w').toNat
  | _, _ => b

theorem demoCast_ok : IntCasts demoCast := by
  intro S T w s w' s' b h1 h2 _
  simp only [demoCast, h1, h2]
  exact Int.toNat_of_nonneg (Int.emod_nonneg _ (by have := Int.pow_pos (n := 2) (m := w') (by omega); omega))

example : ∃ m' s' b, load ⟨fun _ => true, fun _ _ => 0, demoCast⟩ (.nvp "a" (.mtx .int64 false (Mtx.default fun _ => ⟨0⟩)))
      ⟨some [("a", .num .int32 1 1 fun _ => 2 ^ 32 - 1)], none, [], .success, 0⟩ = (.nvp "a" (.mtx .int64 false m'), s') ∧
    s'.err = .success ∧ m'.get 0 0 = some ⟨b⟩ ∧ toInt 64 true b = 4294967295 := by
  obtain ⟨m', s', b, h1, h2, h3, -, h4⟩ := negative_numbers_change ⟨fun _ => true, fun _ _ => 0, demoCast⟩ (fun _ => rfl) demoCast_ok
    ⟨some [("a", .num .int32 1 1 fun _ => 2 ^ 32 - 1)], none, [], .success, 0⟩ ⟨rfl, rfl, rfl, rfl⟩ (Mtx.default fun _ => ⟨0⟩)
  exact ⟨m', s', b, h1, h2, h3, h4⟩

/-- Unsigned integers are converted. -/
example : ∃ m' s', load ⟨fun _ => true, fun _ _ => 0, demoCast⟩ (.nvp "a" (.mtx .int64 false (Mtx.default fun _ => ⟨0⟩)))
      ⟨some [("a", .num .uint32 1 1 fun _ => 2 ^ 32 - 1)], none, [], .success, 0⟩ = (.nvp "a" (.mtx .int64 false m'), s') ∧
    m'.get 0 0 = some ⟨2 ^ 32 - 1⟩ := by
  obtain ⟨m', s', h1, h2, h3⟩ := matrix_elements_converted_partial ⟨fun _ => true, fun _ _ => 0, demoCast⟩ "a" .uint32 .int64 (.inr trivial) false
    (Mtx.default fun _ => ⟨0⟩) 1 1 (fun _ => 2 ^ 32 - 1) _ ⟨some [("a", .num .uint32 1 1 fun _ => 2 ^ 32 - 1)], none, [], .success, 0⟩
    ⟨rfl, rfl, rfl, rfl⟩ (by simp [fget]) (by omega) (by omega) (by simp [XName])
  exact ⟨m', s', h1, (h3 (h2 fun _ => rfl)).2.2 0 0 (by omega) (by omega) (by simp [XName])⟩

/-- **C118.** What is not among the fields of a struct is refused, whatever the file contains beside this struct; nothing of the rest is loaded. -/
theorem missing_field_refused (E : Env) (hE : ∀ k, E.ok k = true) (n k : String) (f fs : Vars) (s : St) (hs : Idle f s)
    (h : fget f n = some (.strct 1 1 fs)) (hk : fget fs k = none) (v : Leaf) (b rest : List Item) :
    (∀ i, i = .nvp k v ∨ i = .strct k b →
      (load E (.strct n (i :: rest)) s).1 = .strct n (i :: rest) ∧ (load E (.strct n (i :: rest)) s).2.err = .failedToTransferVariable) := by
  obtain ⟨f0, cur, st, e, t⟩ := s
  obtain ⟨h1, h2, h3, h4⟩ := hs
  simp only at h1 h2 h3 h4
  subst h1 h2 h3 h4
  intro i hi
  have key : load E i ⟨some f, none, [fs], .success, t + 1⟩ = (i, (load E i ⟨some f, none, [fs], .success, t + 1⟩).2) ∧
      (load E i ⟨some f, none, [fs], .success, t + 1⟩).2.err = .failedToTransferVariable := by
    rcases hi with rfl | rfl
    · cases v <;> simp [load, loadLeaf, loadScalar, loadMtx, loadVar, hk, St.setErr]
    · simp [load, loadVar, hk, St.setErr]
  simp only [load, ne_eq, not_true_eq_false, if_false, Option.isSome_none, Bool.false_eq_true, loadVar, hE, h, St.next, if_true,
    Nat.one_ne_zero, or_self, and_self, loadAll]
  rw [key.1]
  simp only
  rw [loadAll_latched E rest _ (by rw [key.2]; simp)]
  exact ⟨rfl, key.2⟩

/-- **C118.** What is not there, or is not numeric, is refused, and the destination keeps its value; a number is only loaded from
a variable of one element of exactly its type; a matrix of an unknown class or an empty one is refused (its previous contents are
lost then). -/
theorem wrong_variables_refused (E : Env) (hE : ∀ k, E.ok k = true) (n : String) (f : Vars) (s : St) (hs : Idle f s) :
    (∀ v, (fget f n = none → load E (.nvp n v) s = (.nvp n v, (load E (.nvp n v) s).2) ∧ (load E (.nvp n v) s).2.err = .failedToTransferVariable) ∧
      ((fget f n = some .other ∨ ∃ r c fs, fget f n = some (.strct r c fs)) →
        load E (.nvp n v) s = (.nvp n v, (load E (.nvp n v) s).2) ∧ (load E (.nvp n v) s).2.err = .wrongVariableType)) ∧
    (∀ T x S r c d, fget f n = some (.num S r c d) → ¬ (r = 1 ∧ c = 1 ∧ S = T) →
      load E (.nvp n (.scalar T x)) s = (.nvp n (.scalar T x), (load E (.nvp n (.scalar T x)) s).2) ∧
      (load E (.nvp n (.scalar T x)) s).2.err = .wrongVariableType) ∧
    (∀ T df m r c d, fget f n = some (.num .otherCls r c d) → T ≠ .otherCls → 0 < r → 0 < c → (XName n → 2 ≤ c) →
      (load E (.nvp n (.mtx T df m)) s).2.err = .wrongVariableType) ∧
    (∀ T df m S r c d, fget f n = some (.num S r c d) → r = 0 ∨ c = 0 ∨ XName n ∧ c = 1 →
      (load E (.nvp n (.mtx T df m)) s).2.err ≠ .success) := by
  obtain ⟨f0, cur, st, e, t⟩ := s
  obtain ⟨h1, h2, h3, h4⟩ := hs
  simp only at h1 h2 h3 h4
  subst h1 h2 h3 h4
  refine ⟨fun v => ⟨fun h => ?_, fun h => ?_⟩, ?_, ?_, ?_⟩
  · cases v <;> simp [load, loadLeaf, loadScalar, loadMtx, loadVar, hE, h, St.next, St.setErr]
  · rcases h with h | ⟨r, c, fs, h⟩ <;> cases v <;> simp [load, loadLeaf, loadScalar, loadMtx, loadVar, hE, h, St.next, St.setErr]
  · intro T x S r c d h hn
    by_cases h0 : r = 0 ∨ c = 0 <;> simp [load, loadLeaf, loadScalar, loadVar, hE, h, h0, hn, St.next, St.setErr]
  · intro T df m r c d h hT hr hc hX
    have hcx : ¬ ((isX n && decide (c < 2)) = true) := by
      simp only [Bool.and_eq_true, decide_eq_true_eq, isX_iff]
      rintro ⟨a, b⟩
      have := hX a
      omega
    have hc' : 0 < (if isX n = true then c - 1 else c) := by
      split
      · rename_i h; have := hX ((isX_iff n).1 h); omega
      · exact hc
    obtain ⟨m1, hm1, -⟩ := resize_cleared m (isX n) r (if isX n = true then c - 1 else c) (E.elems T (t + 1)) true hr hc'
    have h0 : ¬ (r = 0 ∨ c = 0) := by omega
    simp only [load, ne_eq, not_true_eq_false, if_false, Option.isSome_none, Bool.false_eq_true, loadLeaf, loadMtx, loadVar, hE, h, St.next,
      if_true, if_neg h0, if_neg hcx, hm1, element, if_neg hT, readAs, Option.map_none, St.setErr]
  · intro T df m S r c d h hbad
    simp only [load, ne_eq, not_true_eq_false, if_false, Option.isSome_none, Bool.false_eq_true, loadLeaf, loadMtx, loadVar, hE, h, St.next,
      if_true]
    by_cases hcx : (isX n && decide (c < 2)) = true
    · by_cases h0 : r = 0 ∨ c = 0 <;> simp [h0, hcx, St.setErr]
    · have hz : r = 0 ∨ (if isX n = true then c - 1 else c) = 0 := by
        rcases hbad with h | h | h
        · exact .inl h
        · right; subst h; simp
        · exfalso; apply hcx; simp [(isX_iff n).2 h.1, h.2]
      have hz2 : ∀ (mm : Mtx (Elem T)) j ok, mm.resize r (if isX n = true then c - 1 else c) j ok = some (mm, false) := by
        intro mm j ok; simp only [Mtx.resize, if_pos hz]
      by_cases h0 : r = 0 ∨ c = 0 <;> simp only [if_pos, h0, if_false, if_neg hcx, hz2, St.setErr] <;> simp

/-! ### C119 -/

/-- The archive has nothing open and nothing pending. -/
def Closed (s : St) : Prop := s.file = none ∧ s.cur = none ∧ s.stack = []

/-- **C119.** A saving archive cannot be opened for reading only, a loading one not for writing only; an archive with an open file cannot be opened:
an error is reported, nothing else happens, in particular the file is not deleted. -/
theorem open_refused (E : Env) (saving : Bool) (m : Mode) (disk : Option Vars) (s : St)
    (h : (saving = true ∧ m = .read) ∨ (saving = false ∧ m = .writeDelete) ∨ s.file.isSome = true) :
    (s.open E saving m disk).1.err ≠ .success ∧ (s.open E saving m disk).2 = disk ∧ (s.open E saving m disk).1.file = s.file := by
  rcases h with ⟨rfl, rfl⟩ | ⟨rfl, rfl⟩ | h
  · simp [St.open, St.setErr]
  · simp [St.open, St.setErr]
  · by_cases h1 : ((saving && decide (m = .read)) || (!saving && decide (m = .writeDelete))) = true
    · simp only [St.open, if_pos h1]; simp [St.setErr]
    · simp only [St.open, if_neg h1, if_pos h]; simp [St.setErr]

/-- **C119.** Opening a closed archive, whatever error it had before: if the code is `Success`, it can be used, its contents are those of
the file, or nothing in the modes that delete; otherwise it stays closed. A file that is there can only get lost in a mode that
deletes. -/
theorem open_result (E : Env) (saving : Bool) (m : Mode) (disk : Option Vars) (s : St) (hs : Closed s) :
    ((s.open E saving m disk).1.err = .success →
      ∃ f, Idle f (s.open E saving m disk).1 ∧ (s.open E saving m disk).2 = some f ∧
        (f = [] ∧ (m = .writeDelete ∨ m = .updateDelete) ∨ disk = some f ∧ (m = .read ∨ m = .updateKeepOld))) ∧
    ((s.open E saving m disk).1.err ≠ .success → Closed (s.open E saving m disk).1) ∧
    (m = .read ∨ m = .updateKeepOld → (s.open E saving m disk).2 = disk) ∧
    ((∀ k, E.ok k = true) → (saving = true → m ≠ .read) → (saving = false → m ≠ .writeDelete) → (m = .read ∨ m = .updateKeepOld → disk.isSome = true) →
      (s.open E saving m disk).1.err = .success) := by
  obtain ⟨f0, cur, st, e, t⟩ := s
  obtain ⟨h1, h2, h3⟩ := hs
  simp only at h1 h2 h3
  subst h1 h2 h3
  cases saving <;> cases m <;> cases disk <;> simp [St.open, St.setErr, St.next, Closed] <;>
    (repeat' split) <;> simp_all [St.next, St.setErr] <;>
    first | exact ⟨rfl, rfl, rfl, rfl⟩ | exact ⟨_, by assumption⟩

/-- **C119.** After `close` the archive can be opened again. The code it returns tells whether closing the file failed, a struct or a name were
left over; what error there was before is forgotten. -/
theorem close_result (E : Env) (s : St) :
    Closed (s.close E).1 ∧ (s.close E).1.err = (s.close E).2 ∧
    ((s.close E).2 = .success ↔ s.cur = none ∧ s.stack = [] ∧ (s.file.isSome = true → E.ok s.tick = true)) := by
  obtain ⟨f, cur, st, e, t⟩ := s
  cases f <;> cases cur <;> cases st <;> simp [St.close, Closed, St.next] <;> by_cases h : E.ok t = true <;> simp [h]

end Nntl.MatFile
