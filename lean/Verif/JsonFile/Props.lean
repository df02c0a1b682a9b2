import Verif.JsonFile.Lemmas
/-! C121 (a matrix from a JSON file), C122 (train data from a JSON file), C123 (errors of the reader). -/
namespace Nntl.JsonFile
open Nntl.Matrix
variable {α β : Type}
set_option linter.unusedSimpArgs false

/-! ### Proofs -/

/-- A `resize` of a sound matrix: fails, or the matrix has the size. -/
theorem resize_sound [OfNat α 1] (m : Mtx α) (r c : Nat) (j : Nat → α) (ok : Bool) (hm : Sound m) (hr : 0 < r) (hc : 0 < c) :
    ∃ m' b, m.resize r c j ok = some (m', b) ∧ m'.emul = m.emul ∧ m'.bir = m.bir ∧ (ok = true → b = true) ∧
      (b = true → Sound m' ∧ m'.rowsNoBias = r ∧ m'.colsNoBias = c ∧ r ≤ m'.rows ∧ c ≤ m'.cols ∧ 0 < m'.cap ∧ BiasesAreOnes m') := by
  obtain ⟨data, cap, rows, cols, emul, ext, holey, bir, ms⟩ := m
  obtain ⟨h1, h2⟩ := hm
  simp only [InStorage] at h1
  simp only at h2
  subst h2
  have h0 : ¬ (r = 0 ∨ c = 0) := by omega
  have h0' : ¬ (r + (emul && bir).toNat = 0 ∨ c + (emul && !bir).toNat = 0) := by omega
  have hpos : 0 < (r + (emul && bir).toNat) * (c + (emul && !bir).toNat) := Nat.mul_pos (by omega) (by omega)
  simp only [Mtx.resize, if_neg h0, Mtx.implResize, if_neg h0']
  by_cases hs : r + (emul && bir).toNat = rows ∧ c + (emul && !bir).toNat = cols
  · simp only [hs, and_self, if_true, Bool.true_and]
    obtain ⟨rfl, rfl⟩ := hs
    refine ⟨_, _, rfl, ?_, ?_, fun _ => rfl, fun _ => ?_⟩
    · split <;> simp
    · split <;> simp
    · refine ⟨⟨?_, ?_⟩, ?_, ?_, ?_, ?_, ?_, ?_⟩
      · split <;> simpa [InStorage] using h1
      · split <;> simp
      · cases emul <;> cases bir <;> simp [Mtx.rowsNoBias]
      · cases emul <;> cases bir <;> simp [Mtx.colsNoBias]
      · split <;> simp
      · split <;> simp
      · split <;> simp <;> omega
      · split
        · exact setBiases_ok _
        · exact noEmul_ok _ (by simp_all)
  · simp only [if_neg hs, Bool.false_eq_true, if_false]
    refine ⟨_, _, rfl, ?_, ?_, fun h => h, fun hb => ?_⟩
    · split <;> simp
    · split <;> simp
    · subst hb
      simp only [Bool.true_and, if_true]
      refine ⟨⟨?_, ?_⟩, ?_, ?_, ?_, ?_, ?_, ?_⟩
      · split <;> simp [InStorage]
      · split <;> simp
      · cases emul <;> cases bir <;> simp [Mtx.rowsNoBias]
      · cases emul <;> cases bir <;> simp [Mtx.colsNoBias]
      · split <;> simp
      · split <;> simp
      · split <;> simp <;> omega
      · split
        · exact setBiases_ok _
        · exact noEmul_ok _ (by simp_all)

/-- Cells of data do not belong to the biases. -/
theorem bias_cell_ne (m : Mtx α) (R C : Nat) (hR : m.rowsNoBias = R) (hC : m.colsNoBias = C) (r c r' c' : Nat) (hr : r < m.rows)
    (hb : IsBias m r c) (hr' : r' < R) (hc' : c' < C) (hRr : R ≤ m.rows) : m.cell r c ≠ m.cell r' c' := by
  intro h
  simp only [Mtx.cell] at h
  have hpos : 0 < m.rows := by omega
  have h1 : (r + m.rows * c) % m.rows = r := by rw [Nat.add_mul_mod_self_left, Nat.mod_eq_of_lt hr]
  have h2 : (r' + m.rows * c') % m.rows = r' := by rw [Nat.add_mul_mod_self_left, Nat.mod_eq_of_lt (by omega)]
  have h3 : (r + m.rows * c) / m.rows = c := by rw [Nat.add_mul_div_left _ _ hpos, Nat.div_eq_of_lt hr, Nat.zero_add]
  have h4 : (r' + m.rows * c') / m.rows = c' := by rw [Nat.add_mul_div_left _ _ hpos, Nat.div_eq_of_lt (by omega), Nat.zero_add]
  rw [h] at h1 h3
  have e1 : r = r' := h1.symm.trans h2
  have e2 : c = c' := h3.symm.trans h4
  obtain ⟨he, hi⟩ := hb
  simp only [Mtx.rowsNoBias, Mtx.colsNoBias, he] at hR hC
  cases hbir : m.bir <;> simp [hbir] at hi hR hC <;> omega

/-- The matrix after its elements have been written. -/
theorem holds_of_filled [OfNat α 1] (t : Ty α) (m : Mtx α) (d : Nat → α) (R C : Nat) (a : Nat → Nat → JNum) (hm : Sound m) (h1 : m.rowsNoBias = R)
    (h2 : m.colsNoBias = C) (h3 : R ≤ m.rows) (h4 : C ≤ m.cols) (h5 : 0 < m.cap) (h6 : BiasesAreOnes m)
    (hd : ∀ r c, r < R → c < C → d (m.cell r c) = t.cast (a r c))
    (ho : ∀ p, (∀ r c, r < R → c < C → p ≠ m.cell r c) → d p = m.data p) :
    Holds { m with data := d } R C fun r c => t.cast (a r c) := by
  refine ⟨h1, h2, ?_, ?_, hm.mem, hm.own, h5⟩
  · intro r c hr hc
    have : r < m.rows ∧ c < m.cols := ⟨by omega, by omega⟩
    simp only [Mtx.get, this, and_self, if_true, Option.some.injEq]
    exact hd r c hr hc
  · rw [biasesAreOnes_iff] at h6 ⊢
    intro h0 r c hr hc hb
    simp only at hr hc h0 ⊢
    have := h6 h0 r c hr hc hb
    rw [← this]
    exact ho _ fun r' c' hr' hc' => bias_cell_ne m R C h1 h2 r c r' c' hr hb hr' hc' h3

/-- What reading a member ends with. -/
inductive Outcome [OfNat α 1] (t : Ty α) (f : Field) (v : Option JVal) (ok : Bool) (m : Mtx α) : Option (Err × Mtx α) → Prop
  | read (R C a m') (hv : ∃ w, v = some w ∧ Describes w R C a) (h : Holds m' R C fun r c => t.cast (a r c)) (he : m'.emul = m.emul)
      (hb : m'.bir = m.bir) : Outcome t f v ok m (some (.success, m'))
  | refused (m') (hv : ¬ ∃ w R C a, v = some w ∧ Describes w R C a) : Outcome t f v ok m (some (.no f, m'))
  | noMemory (m') (hk : ok = false) : Outcome t f v ok m (some (.memoryAllocationFailed, m'))

theorem describes_vec {vec : List JVal} {R C : Nat} {a : Nat → Nat → JNum} (h : Describes (.arr vec) R C a)
    (hn : ∀ first rest, vec ≠ .arr first :: rest) : C = 1 ∧ R = vec.length ∧ Numbers vec vec.length fun r => a r 0 := by
  obtain ⟨h1, h2, h | ⟨h3, col, h4, h5⟩⟩ := h
  · obtain ⟨cols, h3, h4, h5⟩ := h
    simp only [JVal.arr.injEq] at h3
    subst h3
    obtain ⟨col, h6, -⟩ := h5 0 h2
    cases vec with
    | nil => simp at h6
    | cons v vec =>
      simp only [List.getElem?_cons_zero, Option.some.injEq] at h6
      exact absurd (by rw [h6]) (hn col vec)
  · simp only [JVal.arr.injEq] at h4
    subst h4
    obtain ⟨rfl, h6⟩ := h5
    exact ⟨h3, rfl, rfl, h6⟩

theorem parseAsVector_outcome [OfNat α 1] (t : Ty α) (e : Env α) (f : Field) (vec : List JVal) (m : Mtx α) (hm : Sound m)
    (hf : Fits t (.arr vec)) (hne : vec ≠ []) (hn : ∀ first rest, vec ≠ .arr first :: rest) :
    Outcome t f (some (.arr vec)) e.ok m (parseAsVector t e vec f m) := by
  have hlen : 0 < vec.length := List.length_pos_iff.mpr hne
  obtain ⟨m1, b, h1, h2, h3, h4, h5⟩ := resize_sound m vec.length 1 e.junk e.ok hm hlen (by omega)
  have hfl : FitsL t vec := fun x hx => extract_ok t x ((hf vec rfl (.num x) hx).1 x rfl)
  simp only [parseAsVector, h1, Option.bind_eq_bind, Option.bind_some]
  cases b with
  | false =>
    refine .noMemory _ ?_
    cases hk : e.ok
    · rfl
    · exact absurd (h4 hk) (by simp)
  | true =>
    obtain ⟨s1, s2, s3, s4, s5, s6, s7⟩ := h5 rfl
    simp only
    by_cases hnum : ∃ a, Numbers vec vec.length a
    · obtain ⟨a, ha⟩ := hnum
      obtain ⟨m2, g1, ⟨d, rfl⟩, g3, g4⟩ := readCol_numbers t 0 vec 0 m1 vec.length a ha hfl s1.mem (by omega) (by omega)
      rw [g1]
      simp only [Option.bind_some, finish, pure]
      refine .read vec.length 1 (fun r _ => a r) _ ⟨_, rfl, hlen, by omega, .inr ⟨rfl, vec, rfl, ha⟩⟩ ?_ h2 h3
      refine holds_of_filled t m1 d _ _ (fun r _ => a r) s1 s2 s3 s4 s5 s6 s7 ?_ ?_
      · intro r c hr hc
        have : c = 0 := by omega
        subst this
        simpa using g3 r hr
      · intro p hp
        exact g4 p fun k hk => by simpa using hp k 0 hk (by omega)
    · obtain ⟨m2, g1⟩ := readCol_other t 0 vec 0 m1 hnum hfl s1.mem (by omega) (by omega)
      rw [g1]
      simp only [Option.bind_some, finish, pure, members2ErrorCode]
      refine .refused _ ?_
      rintro ⟨w, R, C, a, hw, hd⟩
      simp only [Option.some.injEq] at hw
      subst hw
      exact hnum ⟨_, (describes_vec hd hn).2.2⟩

theorem parseAsMtx_outcome [OfNat α 1] (t : Ty α) (e : Env α) (f : Field) (first vec : List JVal) (m : Mtx α) (hm : Sound m)
    (hf : Fits t (.arr (.arr first :: vec))) :
    Outcome t f (some (.arr (.arr first :: vec))) e.ok m (parseAsMtx t e (.arr first :: vec) first f m) := by
  have key : ∀ R C a, Describes (.arr (.arr first :: vec)) R C a → R = first.length ∧ Columns (.arr first :: vec) first.length (vec.length + 1) a ∧
      C = vec.length + 1 := by
    rintro R C a ⟨hR, hC, h | ⟨-, col, h, h'⟩⟩
    · obtain ⟨cols, h1, h2, h3⟩ := h
      simp only [JVal.arr.injEq] at h1
      subst h1
      obtain ⟨col, h4, h5⟩ := h3 0 hC
      simp only [List.getElem?_cons_zero, Option.some.injEq, JVal.arr.injEq] at h4
      subst h4
      obtain ⟨rfl, -⟩ := h5
      simp only [List.length_cons] at h2
      subst h2
      exact ⟨rfl, ⟨by simp, h3⟩, rfl⟩
    · simp only [JVal.arr.injEq] at h
      subst h
      have := h'.2 0 hR
      simp at this
  unfold parseAsMtx
  by_cases h0 : first.length = 0
  · rw [if_pos h0]
    refine .refused _ ?_
    rintro ⟨w, R, C, a, hw, hd⟩
    simp only [Option.some.injEq] at hw
    subst hw
    have := (key R C a hd).1
    have := hd.1
    omega
  · rw [if_neg h0]
    obtain ⟨m1, b, h1, h2, h3, h4, h5⟩ := resize_sound m first.length (vec.length + 1) e.junk e.ok hm (by omega) (by omega)
    have hfc : FitsC t (.arr first :: vec) := fun col hc x hx => extract_ok t x ((hf _ rfl (.arr col) hc).2 col rfl x hx)
    simp only [List.length_cons, h1, Option.bind_eq_bind, Option.bind_some]
    cases b with
    | false =>
      refine .noMemory _ ?_
      cases hk : e.ok
      · rfl
      · exact absurd (h4 hk) (by simp)
    | true =>
      obtain ⟨s1, s2, s3, s4, s5, s6, s7⟩ := h5 rfl
      simp only
      by_cases hnum : ∃ a, Columns (.arr first :: vec) first.length (vec.length + 1) a
      · obtain ⟨a, ha⟩ := hnum
        obtain ⟨m2, g1, ⟨d, rfl⟩, g3, g4⟩ := readCols_numbers t first.length _ 0 m1 _ a ha hfc s1.mem (by omega) (by omega)
        rw [g1]
        simp only [Option.bind_some, finish, pure]
        refine .read first.length (vec.length + 1) a _ ⟨_, rfl, by omega, by omega, .inl ⟨_, rfl, by simp, ha.2⟩⟩ ?_ h2 h3
        refine holds_of_filled t m1 d _ _ a s1 s2 s3 s4 s5 s6 s7 ?_ ?_
        · intro r c hr hc
          simpa using g3 r c hr hc
        · intro p hp
          exact g4 p fun r c hr hc => by simpa using hp r c hr hc
      · obtain ⟨m2, g1⟩ := readCols_other t first.length _ 0 m1 hnum hfc s1.mem (by omega) (by simpa using s5)
        rw [g1]
        simp only [Option.bind_some, finish, pure, members2ErrorCode]
        refine .refused _ ?_
        rintro ⟨w, R, C, a, hw, hd⟩
        simp only [Option.some.injEq] at hw
        subst hw
        exact hnum ⟨a, (key R C a hd).2.1⟩

theorem parseMtx_outcome [OfNat α 1] (t : Ty α) (e : Env α) (f : Field) (o : List (String × JVal)) (m : Mtx α) (hm : Sound m)
    (hf : ∀ v, Member o f.str v → Fits t v) : Outcome t f (findMember o f.str) e.ok m (parseMtx t e o f m) := by
  unfold parseMtx
  have hnone : ∀ v, (∀ a, v ≠ JVal.arr a) → ¬ ∃ w R C a, some v = some w ∧ Describes w R C a := by
    rintro v hv ⟨w, R, C, a, hw, -, -, ⟨cols, h, -⟩ | ⟨-, col, h, -⟩⟩
    · exact hv cols (by simp only [Option.some.injEq] at hw; rw [hw, h])
    · exact hv col (by simp only [Option.some.injEq] at hw; rw [hw, h])
  cases hv : findMember o f.str with
  | none => exact .refused _ (by rintro ⟨w, R, C, a, hw, -⟩; simp at hw)
  | some v =>
    have hf' := hf v ((member_iff _ _ _).1 hv)
    cases v with
    | arr vec =>
      cases vec with
      | nil =>
        refine .refused _ ?_
        rintro ⟨w, R, C, a, hw, hd⟩
        simp only [Option.some.injEq] at hw
        subst hw
        have h1 := hd.1
        obtain ⟨-, h2, -⟩ := describes_vec hd (by simp)
        simp only [List.length_nil] at h2
        omega
      | cons u vec =>
        cases u with
        | arr first => exact parseAsMtx_outcome t e f first vec m hm hf'
        | null => exact parseAsVector_outcome t e f _ m hm hf' (by simp) (by simp)
        | bool b => exact parseAsVector_outcome t e f _ m hm hf' (by simp) (by simp)
        | num b => exact parseAsVector_outcome t e f _ m hm hf' (by simp) (by simp)
        | str b => exact parseAsVector_outcome t e f _ m hm hf' (by simp) (by simp)
        | obj b => exact parseAsVector_outcome t e f _ m hm hf' (by simp) (by simp)
    | null => exact .refused _ (hnone _ (by simp))
    | bool b => exact .refused _ (hnone _ (by simp))
    | num b => exact .refused _ (hnone _ (by simp))
    | str b => exact .refused _ (hnone _ (by simp))
    | obj b => exact .refused _ (hnone _ (by simp))

theorem numbers_unique {vs : List JVal} {n n' : Nat} {a a' : Nat → JNum} (h : Numbers vs n a) (h' : Numbers vs n' a') :
    n = n' ∧ ∀ k, k < n → a k = a' k := by
  obtain ⟨h1, h2⟩ := h
  obtain ⟨h3, h4⟩ := h'
  refine ⟨h1.symm.trans h3, fun k hk => ?_⟩
  have e1 := h2 k hk
  have e2 := h4 k (by omega)
  rw [e1] at e2
  simpa using e2

/-- A value describes at most one matrix. -/
theorem describes_unique {v : JVal} {R C R' C' : Nat} {a a' : Nat → Nat → JNum} (h : Describes v R C a) (h' : Describes v R' C' a') :
    R = R' ∧ C = C' ∧ ∀ r c, r < R → c < C → a r c = a' r c := by
  obtain ⟨h1, h2, h⟩ := h
  obtain ⟨g1, g2, g⟩ := h'
  rcases h with ⟨cols, rfl, h3, h4⟩ | ⟨rfl, col, rfl, h3⟩
  · rcases g with ⟨cols', e, g3, g4⟩ | ⟨rfl, col, e, g3⟩
    · simp only [JVal.arr.injEq] at e
      subst e
      have hC : C = C' := h3.symm.trans g3
      subst hC
      have hcol : ∀ c, c < C → R = R' ∧ ∀ r, r < R → a r c = a' r c := by
        intro c hc
        obtain ⟨col, e1, e2⟩ := h4 c hc
        obtain ⟨col', f1, f2⟩ := g4 c hc
        rw [e1] at f1
        simp only [Option.some.injEq, JVal.arr.injEq] at f1
        subst f1
        exact numbers_unique e2 f2
      exact ⟨(hcol 0 h2).1, rfl, fun r c hr hc => (hcol c hc).2 r hr⟩
    · simp only [JVal.arr.injEq] at e
      subst e
      obtain ⟨col, e1, e2⟩ := h4 0 h2
      have := g3.2 0 g1
      rw [e1] at this
      simp at this
  · rcases g with ⟨cols', e, g3, g4⟩ | ⟨rfl, col', e, g3⟩
    · simp only [JVal.arr.injEq] at e
      subst e
      obtain ⟨col, e1, e2⟩ := g4 0 g2
      have := h3.2 0 h1
      rw [e1] at this
      simp at this
    · simp only [JVal.arr.injEq] at e
      subst e
      obtain ⟨e1, e2⟩ := numbers_unique h3 g3
      refine ⟨e1, rfl, fun r c hr hc => ?_⟩
      have : c = 0 := by omega
      subst this
      exact e2 r hr

theorem Holds.congr [OfNat α 1] {m : Mtx α} {R C : Nat} {a b : Nat → Nat → α} (h : Holds m R C a) (hab : ∀ r c, r < R → c < C → a r c = b r c) :
    Holds m R C b :=
  ⟨h.rows, h.cols, fun r c hr hc => by rw [h.get r c hr hc, hab r c hr hc], h.biases, h.mem, h.own, h.full⟩

theorem parseOne_obj [OfNat α 1] (t : Ty α) (e : Env α) (biased : Bool) (o : List (String × JVal)) (dest : Mtx α) (hb : MayBias biased dest) :
    parseOne t e biased (.obj o) dest = parseMtx t e o .trainX { dest with emul := dest.emul || biased } := by
  cases biased with
  | false => simp [parseOne]
  | true =>
    obtain ⟨h1, h2, h3⟩ := hb rfl
    simp [parseOne, Mtx.empty, h1, h2, h3]

/-! ### C121 -/

/-- **C121.** If `train_x` describes a matrix, this matrix is read, element by element, or there is no memory for it. The matrix has biases if it is
told to or had them before. -/
theorem json_matrix_read [OfNat α 1] (t : Ty α) (e : Env α) (biased : Bool) (o : List (String × JVal)) (v : JVal) (R C : Nat) (a : Nat → Nat → JNum)
    (hv : Member o "train_x" v) (hd : Describes v R C a) (hf : Fits t v) (dest : Mtx α) (hm : Sound dest) (hbias : MayBias biased dest) :
    (∃ m', read (parseOne t e biased) (.doc (.obj o)) dest = some (.success, m') ∧ Holds m' R C (fun r c => t.cast (a r c)) ∧
      m'.emul = (dest.emul || biased) ∧ m'.bir = dest.bir) ∨
    (e.ok = false ∧ ∃ m', read (parseOne t e biased) (.doc (.obj o)) dest = some (.memoryAllocationFailed, m')) := by
  have h := parseMtx_outcome t e .trainX o { dest with emul := dest.emul || biased } ⟨hm.mem, hm.own⟩
    (fun w hw => by rw [member_unique hv hw]; exact hf)
  simp only [read, parseOne_obj t e biased o dest hbias]
  rw [show findMember o Field.trainX.str = some v from (member_iff _ _ _).2 hv] at h
  revert h
  generalize parseMtx t e o .trainX _ = res
  intro h
  cases h with
  | read R' C' a' m' hv' hh he hb =>
    obtain ⟨w, hw, hd'⟩ := hv'
    simp only [Option.some.injEq] at hw
    subst hw
    obtain ⟨rfl, rfl, haa⟩ := describes_unique hd hd'
    exact .inl ⟨m', rfl, hh.congr fun r c hr hc => by rw [haa r c hr hc], he, hb⟩
  | refused m' hv' => exact absurd ⟨v, R, C, a, rfl, hd⟩ hv'
  | noMemory m' hk => exact .inr ⟨hk, m', rfl⟩

/-- **C121.** Nothing else is taken for a matrix: a missing or unreadable file, a document that is not an object, a missing member, an empty array,
columns of different lengths, empty columns, anything that is not a number, numbers and arrays side by side. -/
theorem json_matrix_refused [OfNat α 1] (t : Ty α) (e : Env α) (biased : Bool) (file : Disk) (dest : Mtx α) (hm : Sound dest) (hbias : MayBias biased dest)
    (hf : ∀ o v, file = .doc (.obj o) → Member o "train_x" v → Fits t v)
    (hn : ¬ ∃ o v R C a, file = .doc (.obj o) ∧ Member o "train_x" v ∧ Describes v R C a) :
    ∃ r m', read (parseOne t e biased) file dest = some (r, m') ∧ r ≠ .success := by
  cases file with
  | missing => exact ⟨_, _, rfl, by simp⟩
  | garbage => exact ⟨_, _, rfl, by simp⟩
  | doc d =>
    cases d with
    | obj o =>
      have h := parseMtx_outcome t e .trainX o { dest with emul := dest.emul || biased } ⟨hm.mem, hm.own⟩ (fun w hw => hf o w rfl hw)
      simp only [read, parseOne_obj t e biased o dest hbias]
      revert h
      generalize parseMtx t e o .trainX _ = res
      intro h
      cases h with
      | read R' C' a' m' hv' hh he hb =>
        obtain ⟨w, hw, hd'⟩ := hv'
        exact absurd ⟨o, w, R', C', a', rfl, (member_iff _ _ _).1 hw, hd'⟩ hn
      | refused m' hv' => exact ⟨_, _, rfl, by simp⟩
      | noMemory m' hk => exact ⟨_, _, rfl, by simp⟩
    | null => exact ⟨_, _, rfl, by simp⟩
    | bool b => exact ⟨_, _, rfl, by simp⟩
    | num b => exact ⟨_, _, rfl, by simp⟩
    | str b => exact ⟨_, _, rfl, by simp⟩
    | arr b => exact ⟨_, _, rfl, by simp⟩

/-- Asking for biases with a matrix that is not empty is refused by an assertion. -/
theorem biases_for_used_matrix [OfNat α 1] (t : Ty α) (e : Env α) (o : List (String × JVal)) (dest : Mtx α) (h : dest.cap ≠ 0) :
    read (parseOne t e true) (.doc (.obj o)) dest = none := by
  simp [read, parseOne, Mtx.empty, h]

/-! ### C122 -/

theorem default_sound (d : Nat → α) (b : Bool) : Sound { (Mtx.default d) with emul := b } := ⟨by simp [InStorage, Mtx.default], rfl⟩

/-- What reading of one of the four members ends with, in the form needed for train data. -/
theorem member_outcome [OfNat α 1] (t : Ty α) (e : Env α) (f : Field) (b : Bool) (o : List (String × JVal))
    (hf : ∀ v, Member o f.str v → Fits t v) :
    (∃ v R C a m', Member o f.str v ∧ Describes v R C a ∧
      parseMtx t e o f { (Mtx.default e.junk) with emul := b } = some (.success, m') ∧ Holds m' R C (fun r c => t.cast (a r c)) ∧
      m'.emul = b ∧ m'.bir = false) ∨
    (∃ r m', parseMtx t e o f { (Mtx.default e.junk) with emul := b } = some (r, m') ∧
      (r = .no f ∧ (¬ ∃ v R C a, Member o f.str v ∧ Describes v R C a) ∨ r = .memoryAllocationFailed ∧ e.ok = false)) := by
  have h := parseMtx_outcome t e f o _ (default_sound e.junk b) hf
  revert h
  generalize parseMtx t e o f _ = res
  intro h
  cases h with
  | read R C a m' hv hh he hb =>
    obtain ⟨w, hw, hd⟩ := hv
    exact .inl ⟨w, R, C, a, m', (member_iff _ _ _).1 hw, hd, rfl, hh, he, hb⟩
  | refused m' hv => exact .inr ⟨_, m', rfl, .inl ⟨rfl, fun ⟨v, R, C, a, h1, h2⟩ => hv ⟨v, R, C, a, (member_iff _ _ _).2 h1, h2⟩⟩⟩
  | noMemory m' hk => exact .inr ⟨_, m', rfl, .inr ⟨rfl, hk⟩⟩

theorem holds_size [OfNat α 1] {m : Mtx α} {R C : Nat} {a : Nat → Nat → α} (h : Holds m R C a) (hb : m.bir = false) (hC : 0 < C) :
    m.rows = R ∧ m.cols = C + m.emul.toNat ∧ m.empty = false := by
  have h1 := h.rows
  have h2 := h.cols
  have h3 := h.full
  simp only [Mtx.rowsNoBias, Mtx.colsNoBias, hb, Bool.and_false, Bool.toNat_false, Nat.sub_zero, Bool.not_false, Bool.and_true] at h1 h2
  refine ⟨h1, by cases he : m.emul <;> simp [he] at h2 ⊢ <;> omega, ?_⟩
  simp only [Mtx.empty, beq_eq_false_iff_ne]
  omega

theorem holds_hidden [OfNat α 1] {m : Mtx α} {R C : Nat} {a : Nat → Nat → α} (h : Holds m R C a) : Holds m.updateOnHiddenResize R C a :=
  ⟨h.rows, h.cols, h.get, h.biases, h.mem, h.own, h.full⟩

/-- The document fits the types. -/
def FitsTD (tx : Ty α) (ty : Ty β) (o : List (String × JVal)) : Prop :=
  (∀ v, Member o "train_x" v ∨ Member o "test_x" v → Fits tx v) ∧
  (∀ v, Member o "train_y" v ∨ Member o "test_y" v → Fits ty v)

/-- Train data with these numbers of samples and sizes of samples. -/
structure HoldsTD [OfNat α 1] [OfNat β 1] (d : TD α β) (N M W C : Nat) (a b : Nat → Nat → α) (y z : Nat → Nat → β) : Prop where
  trainX : Holds d.trainX N W a
  trainY : Holds d.trainY N C y
  testX : Holds d.testX M W b
  testY : Holds d.testY M C z
  xBiases : d.trainX.emul = true ∧ d.testX.emul = true
  yNoBiases : d.trainY.emul = false ∧ d.testY.emul = false
  inRows : d.trainX.bir = false ∧ d.trainY.bir = false ∧ d.testX.bir = false ∧ d.testY.bir = false

/-- The cases of reading train data. -/
theorem parseTD_cases [OfNat α 1] [OfNat β 1] (tx : Ty α) (ty : Ty β) (e1 e3 : Env α) (e2 e4 : Env β) (o : List (String × JVal)) (hf : FitsTD tx ty o)
    (dest : TD α β) :
    (∃ N M W C a d, DescribesTD o N M W C a ∧ parseTD tx ty e1 e3 e2 e4 (.obj o) dest = some (.success, d) ∧
      HoldsTD d N M W C (fun r c => tx.cast (a .trainX r c)) (fun r c => tx.cast (a .testX r c)) (fun r c => ty.cast (a .trainY r c))
        (fun r c => ty.cast (a .testY r c))) ∨
    (∃ r, parseTD tx ty e1 e3 e2 e4 (.obj o) dest = some (r, dest) ∧
      ((∃ f, r = .no f ∧ ¬ Good o f ∧ ∀ g : Field, g.order < f.order → Good o g) ∨
       (r = .memoryAllocationFailed ∧ (e1.ok && e2.ok && e3.ok && e4.ok) = false) ∨
       (r = .mismatchingDataLength ∧ (∀ f : Field, Good o f) ∧
         ¬ ∃ N M W C a, DescribesTD o N M W C a))) := by
  rcases member_outcome tx e1 .trainX true o (fun v hv => hf.1 v (.inl hv)) with ⟨v1, R1, C1, a1, m1, f1, d1, p1, h1, x1, b1⟩ | ⟨r, m1, p1, h1⟩
  rotate_left
  · right
    refine ⟨r, ?_, ?_⟩
    · have : r ≠ .success := by rcases h1 with ⟨rfl, -⟩ | ⟨rfl, -⟩ <;> simp
      simp [parseTD, p1, this]
    · rcases h1 with ⟨h, h'⟩ | ⟨h, h'⟩
      · exact .inl ⟨_, h, h', (fun g hg => by cases g <;> simp [Field.order] at hg)⟩
      · exact .inr (.inl ⟨h, by simp [h']⟩)
  rcases member_outcome ty e2 .trainY false o (fun v hv => hf.2 v (.inl hv)) with ⟨v2, R2, C2, a2, m2, f2, d2, p2, h2, x2, b2⟩ | ⟨r, m2, p2, h2⟩
  rotate_left
  · right
    have p2 : parseMtx ty e2 o .trainY (Mtx.default e2.junk) = some (r, m2) := p2
    refine ⟨r, ?_, ?_⟩
    · have : r ≠ .success := by rcases h2 with ⟨rfl, -⟩ | ⟨rfl, -⟩ <;> simp
      simp [parseTD, p1, p2, this]
    · rcases h2 with ⟨h, h'⟩ | ⟨h, h'⟩
      · exact .inl ⟨_, h, h', (fun g hg => by cases g <;> simp [Field.order] at hg <;> exact ⟨v1, R1, C1, a1, f1, d1⟩)⟩
      · exact .inr (.inl ⟨h, by simp [h']⟩)
  have p2 : parseMtx ty e2 o .trainY (Mtx.default e2.junk) = some (.success, m2) := p2
  rcases member_outcome tx e3 .testX true o (fun v hv => hf.1 v (.inr hv)) with ⟨v3, R3, C3, a3, m3, f3, d3, p3, h3, x3, b3⟩ | ⟨r, m3, p3, h3⟩
  rotate_left
  · right
    refine ⟨r, ?_, ?_⟩
    · have : r ≠ .success := by rcases h3 with ⟨rfl, -⟩ | ⟨rfl, -⟩ <;> simp
      simp [parseTD, p1, p2, p3, this]
    · rcases h3 with ⟨h, h'⟩ | ⟨h, h'⟩
      · exact .inl ⟨_, h, h', (fun g hg => by cases g <;> simp [Field.order] at hg <;> first | exact ⟨v1, R1, C1, a1, f1, d1⟩ | exact ⟨v2, R2, C2, a2, f2, d2⟩)⟩
      · exact .inr (.inl ⟨h, by simp [h']⟩)
  rcases member_outcome ty e4 .testY false o (fun v hv => hf.2 v (.inr hv)) with ⟨v4, R4, C4, a4, m4, f4, d4, p4, h4, x4, b4⟩ | ⟨r, m4, p4, h4⟩
  rotate_left
  · right
    have p4 : parseMtx ty e4 o .testY (Mtx.default e4.junk) = some (r, m4) := p4
    refine ⟨r, ?_, ?_⟩
    · have : r ≠ .success := by rcases h4 with ⟨rfl, -⟩ | ⟨rfl, -⟩ <;> simp
      simp [parseTD, p1, p2, p3, p4, this]
    · rcases h4 with ⟨h, h'⟩ | ⟨h, h'⟩
      · exact .inl ⟨_, h, h', (fun g hg => by cases g <;> simp [Field.order] at hg <;> first | exact ⟨v1, R1, C1, a1, f1, d1⟩ | exact ⟨v2, R2, C2, a2, f2, d2⟩ | exact ⟨v3, R3, C3, a3, f3, d3⟩)⟩
      · exact .inr (.inl ⟨h, by simp [h']⟩)
  have p4 : parseMtx ty e4 o .testY (Mtx.default e4.junk) = some (.success, m4) := p4
  obtain ⟨r1, c1, y1⟩ := holds_size h1 b1 d1.2.1
  obtain ⟨r2, c2, y2⟩ := holds_size h2 b2 d2.2.1
  obtain ⟨r3, c3, y3⟩ := holds_size h3 b3 d3.2.1
  obtain ⟨r4, c4, y4⟩ := holds_size h4 b4 d4.2.1
  rw [x1] at c1; rw [x2] at c2; rw [x3] at c3; rw [x4] at c4
  have hp : parseTD tx ty e1 e3 e2 e4 (.obj o) dest =
      some (if absorbOk ⟨m1.updateOnHiddenResize, m2.updateOnHiddenResize, m3.updateOnHiddenResize, m4.updateOnHiddenResize⟩ then
        (.success, ⟨m1.updateOnHiddenResize, m2.updateOnHiddenResize, m3.updateOnHiddenResize, m4.updateOnHiddenResize⟩)
      else (.mismatchingDataLength, dest)) := by
    simp [parseTD, p1, p2, p3, p4]
  have habs : absorbOk ⟨m1.updateOnHiddenResize, m2.updateOnHiddenResize, m3.updateOnHiddenResize, m4.updateOnHiddenResize⟩ = true ↔
      R1 = R2 ∧ R3 = R4 ∧ C2 = C4 ∧ C1 = C3 := by
    have e1 : ∀ m : Mtx α, m.updateOnHiddenResize.empty = m.empty := fun _ => rfl
    have e2 : ∀ m : Mtx β, m.updateOnHiddenResize.empty = m.empty := fun _ => rfl
    simp only [absorbOk, e1, e2, y1, y2, y3, y4]
    simp only [Mtx.updateOnHiddenResize, r1, r2, r3, r4, c1, c2, c3, c4, x1, x2, x3, x4, h1.own, h2.own, h3.own, h4.own]
    simp
    omega
  by_cases hc : R1 = R2 ∧ R3 = R4 ∧ C2 = C4 ∧ C1 = C3
  · left
    rw [hp, if_pos (habs.2 hc)]
    obtain ⟨rfl, rfl, rfl, rfl⟩ := hc
    refine ⟨R1, R3, C1, C2, fun f => match f with | .trainX => a1 | .trainY => a2 | .testX => a3 | .testY => a4, _,
      ⟨⟨v1, f1, d1⟩, ⟨v2, f2, d2⟩, ⟨v3, f3, d3⟩, ⟨v4, f4, d4⟩⟩, rfl, ?_⟩
    exact ⟨holds_hidden h1, holds_hidden h2, holds_hidden h3, holds_hidden h4, ⟨x1, x3⟩, ⟨x2, x4⟩, b1, b2, b3, b4⟩
  · right
    refine ⟨.mismatchingDataLength, by rw [hp, if_neg (fun h => hc (habs.1 h))], .inr (.inr ⟨rfl, ?_, ?_⟩)⟩
    · rintro (_ | _ | _ | _)
      · exact ⟨v1, R1, C1, a1, f1, d1⟩
      · exact ⟨v2, R2, C2, a2, f2, d2⟩
      · exact ⟨v3, R3, C3, a3, f3, d3⟩
      · exact ⟨v4, R4, C4, a4, f4, d4⟩
    · rintro ⟨N, M, W, C, a, ⟨w1, g1, k1⟩, ⟨w2, g2, k2⟩, ⟨w3, g3, k3⟩, ⟨w4, g4, k4⟩⟩
      apply hc
      have q1 : w1 = v1 := member_unique f1 g1
      have q2 : w2 = v2 := member_unique f2 g2
      have q3 : w3 = v3 := member_unique f3 g3
      have q4 : w4 = v4 := member_unique f4 g4
      subst q1 q2 q3 q4
      have u1 := describes_unique d1 k1
      have u2 := describes_unique d2 k2
      have u3 := describes_unique d3 k3
      have u4 := describes_unique d4 k4
      omega

/-- **C122.** If the four members describe train data that fit together, these data are read (samples with biases), or there is not enough memory. -/
theorem json_train_data_read [OfNat α 1] [OfNat β 1] (tx : Ty α) (ty : Ty β) (e1 e3 : Env α) (e2 e4 : Env β) (o : List (String × JVal))
    (hf : FitsTD tx ty o) (N M W C : Nat) (a : Field → Nat → Nat → JNum) (hd : DescribesTD o N M W C a) (dest : TD α β) :
    (∃ d, read (parseTD tx ty e1 e3 e2 e4) (.doc (.obj o)) dest = some (.success, d) ∧
      HoldsTD d N M W C (fun r c => tx.cast (a .trainX r c)) (fun r c => tx.cast (a .testX r c)) (fun r c => ty.cast (a .trainY r c))
        (fun r c => ty.cast (a .testY r c))) ∨
    ((e1.ok && e2.ok && e3.ok && e4.ok) = false ∧ read (parseTD tx ty e1 e3 e2 e4) (.doc (.obj o)) dest = some (.memoryAllocationFailed, dest)) := by
  have hgood : ∀ f : Field, Good o f := by
    obtain ⟨⟨v1, f1, d1⟩, ⟨v2, f2, d2⟩, ⟨v3, f3, d3⟩, ⟨v4, f4, d4⟩⟩ := hd
    rintro (_ | _ | _ | _)
    · exact ⟨v1, _, _, _, f1, d1⟩
    · exact ⟨v2, _, _, _, f2, d2⟩
    · exact ⟨v3, _, _, _, f3, d3⟩
    · exact ⟨v4, _, _, _, f4, d4⟩
  rcases parseTD_cases tx ty e1 e3 e2 e4 o hf dest with ⟨N', M', W', C', a', d, hd', hp, hh⟩ | ⟨r, hp, ⟨f, -, h, -⟩ | ⟨rfl, h⟩ | ⟨-, -, h⟩⟩
  · left
    refine ⟨d, hp, ?_⟩
    obtain ⟨⟨v1, f1, d1⟩, ⟨v2, f2, d2⟩, ⟨v3, f3, d3⟩, ⟨v4, f4, d4⟩⟩ := hd
    obtain ⟨⟨w1, g1, k1⟩, ⟨w2, g2, k2⟩, ⟨w3, g3, k3⟩, ⟨w4, g4, k4⟩⟩ := hd'
    have q1 : w1 = v1 := member_unique f1 g1
    have q2 : w2 = v2 := member_unique f2 g2
    have q3 : w3 = v3 := member_unique f3 g3
    have q4 : w4 = v4 := member_unique f4 g4
    subst q1 q2 q3 q4
    obtain ⟨rfl, rfl, u1⟩ := describes_unique d1 k1
    obtain ⟨-, rfl, u2⟩ := describes_unique d2 k2
    obtain ⟨rfl, -, u3⟩ := describes_unique d3 k3
    obtain ⟨-, -, u4⟩ := describes_unique d4 k4
    exact ⟨hh.trainX.congr fun r c hr hc => by rw [u1 r c hr hc], hh.trainY.congr fun r c hr hc => by rw [u2 r c hr hc],
      hh.testX.congr fun r c hr hc => by rw [u3 r c hr hc], hh.testY.congr fun r c hr hc => by rw [u4 r c hr hc], hh.xBiases, hh.yNoBiases, hh.inRows⟩
  · exact absurd (hgood f) h
  · exact .inr ⟨h, hp⟩
  · exact absurd ⟨N, M, W, C, a, hd⟩ h

/-- **C122.** In every other case an error is reported and the destination is not touched. -/
theorem json_train_data_refused [OfNat α 1] [OfNat β 1] (tx : Ty α) (ty : Ty β) (e1 e3 : Env α) (e2 e4 : Env β) (file : Disk)
    (hf : ∀ o, file = .doc (.obj o) → FitsTD tx ty o) (hn : ¬ ∃ o N M W C a, file = .doc (.obj o) ∧ DescribesTD o N M W C a) (dest : TD α β) :
    ∃ r, read (parseTD tx ty e1 e3 e2 e4) file dest = some (r, dest) ∧ r ≠ .success := by
  cases file with
  | missing => exact ⟨_, rfl, by simp⟩
  | garbage => exact ⟨_, rfl, by simp⟩
  | doc d =>
    cases d with
    | obj o =>
      rcases parseTD_cases tx ty e1 e3 e2 e4 o (hf o rfl) dest with ⟨N', M', W', C', a', d, hd', -⟩ | ⟨r, hp, ⟨f, rfl, -⟩ | ⟨rfl, h⟩ | ⟨rfl, -, h⟩⟩
      · exact absurd ⟨o, N', M', W', C', a', rfl, hd'⟩ hn
      · exact ⟨_, hp, by simp⟩
      · exact ⟨_, hp, by simp⟩
      · exact ⟨_, hp, by simp⟩
    | null => exact ⟨_, rfl, by simp⟩
    | bool b => exact ⟨_, rfl, by simp⟩
    | num b => exact ⟨_, rfl, by simp⟩
    | str b => exact ⟨_, rfl, by simp⟩
    | arr b => exact ⟨_, rfl, by simp⟩

/-! ### C123 -/

/-- **C123, what the error code tells.** For train data: `No..` names the first member that is missing or does not describe a matrix; there is
not enough memory only if an allocation failed; a mismatch is reported only if all members are matrices that do not fit together. -/
theorem json_error_meaning_partial [OfNat α 1] [OfNat β 1] (tx : Ty α) (ty : Ty β) (e1 e3 : Env α) (e2 e4 : Env β) (o : List (String × JVal))
    (hf : FitsTD tx ty o) (dest dest' : TD α β) (r : Err) (h : read (parseTD tx ty e1 e3 e2 e4) (.doc (.obj o)) dest = some (r, dest')) :
    r = .success ∨
    (∃ f, r = .no f ∧ ¬ Good o f ∧ ∀ g : Field, g.order < f.order → Good o g) ∨
    (r = .memoryAllocationFailed ∧ (e1.ok && e2.ok && e3.ok && e4.ok) = false) ∨
    (r = .mismatchingDataLength ∧ (∀ f, Good o f) ∧ ¬ ∃ N M W C a, DescribesTD o N M W C a) := by
  simp only [read] at h
  rcases parseTD_cases tx ty e1 e3 e2 e4 o hf dest with ⟨N', M', W', C', a', d, hd', hp, -⟩ | ⟨r', hp, hr⟩
  · rw [hp] at h
    simp only [Option.some.injEq, Prod.mk.injEq] at h
    exact .inl h.1.symm
  · rw [hp] at h
    simp only [Option.some.injEq, Prod.mk.injEq] at h
    obtain ⟨rfl, -⟩ := h
    exact .inr hr

/-- **C123 is false of the code**: a member that is there but does not describe a matrix is reported as "there is no required field". -/
theorem invalid_reported_as_missing [OfNat α 1] (t : Ty α) (e : Env α) (biased : Bool) (o : List (String × JVal)) (v : JVal)
    (hv : Member o "train_x" v) (hd : ¬ ∃ R C a, Describes v R C a) (hf : Fits t v) (hk : e.ok = true) (dest : Mtx α) (hm : Sound dest) (hbias : MayBias biased dest) :
    ∃ m', read (parseOne t e biased) (.doc (.obj o)) dest = some (.no .trainX, m') := by
  have h := parseMtx_outcome t e .trainX o { dest with emul := dest.emul || biased } ⟨hm.mem, hm.own⟩
    (fun w hw => by rw [member_unique hv hw]; exact hf)
  simp only [read, parseOne_obj t e biased o dest hbias]
  rw [show findMember o Field.trainX.str = some v from (member_iff _ _ _).2 hv] at h
  revert h
  generalize parseMtx t e o .trainX _ = res
  intro h
  cases h with
  | read R' C' a' m' hv' hh he hb =>
    obtain ⟨w, hw, hd'⟩ := hv'
    simp only [Option.some.injEq] at hw
    subst hw
    exact absurd ⟨R', C', a', hd'⟩ hd
  | refused m' hv' => exact ⟨m', rfl⟩
  | noMemory m' hk' => rw [hk] at hk'; cases hk'

/-- **C121, the limits of it**: a number that is not of the element type is not refused. For integral types a number like 1.5 (or one of the wrong
sign or size) fails an assertion of the parser. -/
theorem wrong_number_not_refused [OfNat α 1] (t : Ty α) (e : Env α) (biased : Bool) (x : JNum) (hx : ¬ NumOf t.kind x) (hk : e.ok = true)
    (dest : Mtx α) (hm : Sound dest) (hbias : MayBias biased dest) :
    read (parseOne t e biased) (.doc (.obj [("train_x", .arr [.num x])])) dest = none := by
  obtain ⟨m', b, h1, -, -, h4, -⟩ := resize_sound { dest with emul := dest.emul || biased } 1 1 e.junk e.ok ⟨hm.mem, hm.own⟩ (by omega) (by omega)
  have hb : b = true := h4 hk
  subst hb
  rw [show ∀ d, read (parseOne t e biased) (.doc d) dest = parseOne t e biased d dest from fun _ => rfl, parseOne_obj t e biased _ dest hbias]
  simp [parseMtx, findMember, Field.str, parseAsVector, h1, readCol, extract_none t x hx]

/-- **C121, the limits of it**: after a failed allocation the matrix has the new size but no memory. Reading once more into it is undefined
behaviour: `resize` does not allocate as the size is right already. -/
theorem read_again_after_no_memory [OfNat α 1] (t : Ty α) (e e' : Env α) (hk : e.ok = false) (x y : JNum) :
    ∃ m', read (parseOne t e false) (.doc (.obj [("train_x", .arr [.num x, .num y])])) (Mtx.default e.junk) = some (.memoryAllocationFailed, m') ∧
      m'.empty = true ∧ m'.rows = 2 ∧ m'.cols = 1 ∧
      read (parseOne t e' false) (.doc (.obj [("train_x", .arr [.num x, .num y])])) m' = none := by
  have h1 : read (parseOne t e false) (.doc (.obj [("train_x", .arr [.num x, .num y])])) (Mtx.default e.junk) =
      some (.memoryAllocationFailed, ⟨e.junk, 0, 2, 1, false, false, false, false, 0⟩) := by
    simp [read, parseOne, parseMtx, findMember, Field.str, parseAsVector, Mtx.resize, Mtx.implResize, Mtx.default, hk]
  refine ⟨_, h1, rfl, rfl, rfl, ?_⟩
  simp only [read, parseOne, Bool.false_and, Bool.false_eq_true, if_false, parseMtx, findMember, Field.str, parseAsVector, Mtx.resize, Mtx.implResize]
  cases hx : t.extract x with
  | none => simp [readCol, hx]
  | some v => simp [readCol, hx, wr, Mtx.cell]

/-! ### A concrete case -/

/-- Two samples of two features for training, one for testing; one label each. -/
def demoDoc : List (String × JVal) :=
  [("note", .str "x"), ("train_x", .arr [.arr [.num (.int 1), .num (.int 2)], .arr [.num (.int 3), .num (.dbl 7)]]),
   ("train_y", .arr [.num (.int 5), .num (.int (-6))]), ("test_x", .arr [.arr [.num (.int 8)], .arr [.num (.int 9)]]), ("test_y", .arr [.num (.int 4)])]

def demoA : Field → Nat → Nat → JNum
  | .trainX, 0, 0 => .int 1
  | .trainX, 1, 0 => .int 2
  | .trainX, 0, 1 => .int 3
  | .trainX, _, _ => .dbl 7
  | .trainY, 0, _ => .int 5
  | .trainY, _, _ => .int (-6)
  | .testX, _, 0 => .int 8
  | .testX, _, _ => .int 9
  | .testY, _, _ => .int 4

theorem demo_describes : DescribesTD demoDoc 2 1 2 1 demoA := by
  refine ⟨⟨_, (member_iff _ _ _).1 rfl, by omega, by omega, .inl ⟨_, rfl, rfl, ?_⟩⟩, ⟨_, (member_iff _ _ _).1 rfl, by omega, by omega, .inr ⟨rfl, _, rfl, rfl, ?_⟩⟩,
    ⟨_, (member_iff _ _ _).1 rfl, by omega, by omega, .inl ⟨_, rfl, rfl, ?_⟩⟩, ⟨_, (member_iff _ _ _).1 rfl, by omega, by omega, .inr ⟨rfl, _, rfl, rfl, ?_⟩⟩⟩
  · intro c hc
    have h : c = 0 ∨ c = 1 := by omega
    rcases h with rfl | rfl
    · refine ⟨_, rfl, rfl, fun k hk => ?_⟩
      have h : k = 0 ∨ k = 1 := by omega
      rcases h with rfl | rfl <;> rfl
    · refine ⟨_, rfl, rfl, fun k hk => ?_⟩
      have h : k = 0 ∨ k = 1 := by omega
      rcases h with rfl | rfl <;> rfl
  · intro k hk
    have h : k = 0 ∨ k = 1 := by omega
    rcases h with rfl | rfl <;> rfl
  · intro c hc
    have h : c = 0 ∨ c = 1 := by omega
    rcases h with rfl | rfl
    · refine ⟨_, rfl, rfl, fun k hk => ?_⟩
      have h : k = 0 := by omega
      subst h; rfl
    · refine ⟨_, rfl, rfl, fun k hk => ?_⟩
      have h : k = 0 := by omega
      subst h; rfl
  · intro k hk
    have h : k = 0 := by omega
    subst h; rfl

theorem fits_float (t : Ty α) (h : t.kind = .float) (v : JVal) : Fits t v := by
  intro a _ u _
  rw [h]
  exact ⟨fun x _ => trivial, fun b _ x _ => trivial⟩

example (e : Env Int) (hk : e.ok = true) (dest : TD Int Int) : ∃ d, read (parseTD ⟨.float, fun x => match x with | .int z => z | .dbl _ => 0⟩
      ⟨.float, fun x => match x with | .int z => z | .dbl _ => 0⟩ e e e e) (.doc (.obj demoDoc)) dest = some (.success, d) ∧
    d.trainX.get 0 1 = some 3 ∧ d.trainX.get 1 2 = some 1 ∧ d.trainY.get 1 0 = some (-6) ∧ d.testX.get 0 1 = some 9 := by
  rcases json_train_data_read (⟨.float, fun x => match x with | .int z => z | .dbl _ => 0⟩ : Ty Int)
    (⟨.float, fun x => match x with | .int z => z | .dbl _ => 0⟩ : Ty Int) e e e e demoDoc
    ⟨fun v _ => fits_float _ rfl v, fun v _ => fits_float _ rfl v⟩ 2 1 2 1 demoA demo_describes dest with ⟨d, h, hh⟩ | ⟨h, -⟩
  · refine ⟨d, h, hh.trainX.get 0 1 (by omega) (by omega), ?_, hh.trainY.get 1 0 (by omega) (by omega), hh.testX.get 0 1 (by omega) (by omega)⟩
    have hb := hh.inRows.1
    have he := hh.xBiases.1
    obtain ⟨s1, s2, -⟩ := holds_size hh.trainX hb (by omega)
    rw [he] at s2
    exact hh.trainX.biases (by have := hh.trainX.full; omega) 1 2 (by omega) (by rw [s2]; simp) ⟨he, by simp [hb, s2]⟩
  · simp [hk] at h

/-- A member that does not describe a matrix. -/
example : ¬ ∃ R C a, Describes (.arr [.num (.int 1), .str "x"]) R C a := by
  rintro ⟨R, C, a, h⟩
  obtain ⟨-, rfl, h2⟩ := describes_vec h (by simp)
  have := h2.2 1 (by simp)
  simp at this

end Nntl.JsonFile
