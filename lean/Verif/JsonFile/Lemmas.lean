import Verif.JsonFile.Spec
import Verif.Matrix.Lemmas
/-! Helper lemmas for the JSON reader. -/
namespace Nntl.JsonFile
open Nntl.Matrix
variable {α β : Type}
set_option linter.unusedSimpArgs false

/-- Same matrix except for its elements. -/
def Same (m m' : Mtx α) : Prop := ∃ d, m' = { m with data := d }

theorem Same.refl (m : Mtx α) : Same m m := ⟨m.data, rfl⟩
theorem Same.trans {a b c : Mtx α} (h : Same a b) (k : Same b c) : Same a c := by
  obtain ⟨d, rfl⟩ := h
  obtain ⟨d', rfl⟩ := k
  exact ⟨d', rfl⟩

theorem wr_ok (m : Mtx α) (r c : Nat) (v : α) (hs : InStorage m) (hr : r < m.rows) (hc : c < m.cols) :
    wr m r c v = some { m with data := upd m.data (m.cell r c) v } := by
  have h1 : m.cell r c < m.cap := Nat.lt_of_lt_of_le (cell_lt hr hc) hs
  simp [wr, h1, Mtx.set, hr, hc]

theorem member_iff (o : List (String × JVal)) (k : String) (v : JVal) : findMember o k = some v ↔ Member o k v := by
  induction o with
  | nil => simp [findMember, Member]
  | cons e o ih =>
    obtain ⟨n, w⟩ := e
    simp only [findMember]
    by_cases h : n = k
    · subst h
      rw [if_pos rfl]
      constructor
      · intro h
        simp only [Option.some.injEq] at h
        subst h
        exact ⟨0, rfl, fun j _ hj => absurd hj (by omega)⟩
      · rintro ⟨i, h1, h2⟩
        cases i with
        | zero => simpa using h1
        | succ i => exact absurd rfl (h2 0 w (by omega))
    · rw [if_neg h, ih]
      constructor
      · rintro ⟨i, h1, h2⟩
        refine ⟨i + 1, by simpa using h1, fun j x hj => ?_⟩
        cases j with
        | zero => simp [h]
        | succ j => simpa using h2 j x (by omega)
      · rintro ⟨i, h1, h2⟩
        cases i with
        | zero => simp [h] at h1
        | succ i => exact ⟨i, by simpa using h1, fun j x hj => by simpa using h2 (j + 1) x (by omega)⟩

theorem member_unique {o : List (String × JVal)} {k : String} {v w : JVal} (h : Member o k v) (h' : Member o k w) : w = v := by
  rw [← member_iff] at h h'
  rw [h] at h'
  simpa using h'.symm

theorem extract_ok (t : Ty α) (x : JNum) (h : NumOf t.kind x) : t.extract x = some (t.cast x) := by
  unfold Ty.extract
  revert h
  cases t.kind with
  | float => intro _; rfl
  | signed => rintro ⟨z, rfl, h⟩; simp only [if_pos h]
  | unsigned => rintro ⟨z, rfl, h⟩; simp only [if_pos h]

theorem extract_none (t : Ty α) (x : JNum) (h : ¬ NumOf t.kind x) : t.extract x = none := by
  unfold Ty.extract
  revert h
  cases t.kind with
  | float => intro h; exact absurd trivial h
  | signed =>
    intro h
    cases x with
    | int z => simp only [if_neg (fun h' => h ⟨z, rfl, h'⟩)]
    | dbl b => rfl
  | unsigned =>
    intro h
    cases x with
    | int z => simp only [if_neg (fun h' => h ⟨z, rfl, h'⟩)]
    | dbl b => rfl

/-- All numbers of the list can be extracted. -/
def FitsL (t : Ty α) (vs : List JVal) : Prop := ∀ x, JVal.num x ∈ vs → t.extract x = some (t.cast x)

theorem readCol_numbers (t : Ty α) (i : Nat) : ∀ (vs : List JVal) (j : Nat) (m : Mtx α) (n : Nat) (a : Nat → JNum), Numbers vs n a → FitsL t vs →
    InStorage m → j + n ≤ m.rows → i < m.cols →
    ∃ m', readCol t i j vs m = some (m', true) ∧ Same m m' ∧
      (∀ k, k < n → m'.data (m.cell (j + k) i) = t.cast (a k)) ∧
      ∀ p, (∀ k, k < n → p ≠ m.cell (j + k) i) → m'.data p = m.data p
  | [], j, m, n, a, hn, _, _, _, _ => by
    obtain ⟨h, -⟩ := hn
    simp only [List.length_nil] at h
    subst h
    exact ⟨m, by simp [readCol], Same.refl m, fun k hk => absurd hk (by omega), fun p _ => rfl⟩
  | v :: vs, j, m, n, a, hn, hf, hs, hr, hi => by
    obtain ⟨hl, hv⟩ := hn
    simp only [List.length_cons] at hl
    subst hl
    have h0 := hv 0 (by omega)
    simp only [List.getElem?_cons_zero, Option.some.injEq] at h0
    subst h0
    simp only [readCol, hf (a 0) List.mem_cons_self, Option.bind_eq_bind, Option.bind_some]
    rw [wr_ok m j i _ hs (by omega) hi]
    simp only [Option.bind_some]
    obtain ⟨m', h1, h2, h3, h4⟩ := readCol_numbers t i vs (j + 1) { m with data := upd m.data (m.cell j i) (t.cast (a 0)) } vs.length (fun k => a (k + 1))
      ⟨rfl, fun k hk => by simpa using hv (k + 1) (by omega)⟩ (fun x hx => hf x (List.mem_cons_of_mem _ hx)) hs (by simp only; omega) hi
    refine ⟨m', h1, Same.trans ⟨_, rfl⟩ h2, fun k hk => ?_, fun p hp => ?_⟩
    · simp only [Mtx.cell] at *
      rcases k with _ | k
      · rw [h4 _ (fun k _ => by omega)]
        simp [upd]
      · have := h3 k (by omega)
        rwa [Nat.add_assoc j 1 k, Nat.add_comm 1 k] at this
    · simp only [Mtx.cell] at *
      rw [h4 p (fun k hk => by
        have := hp (k + 1) (by omega)
        rwa [Nat.add_assoc j 1 k, Nat.add_comm 1 k])]
      have := hp 0 (by omega)
      simp only [Nat.add_zero] at this
      simp [upd, this]

theorem readCol_other (t : Ty α) (i : Nat) : ∀ (vs : List JVal) (j : Nat) (m : Mtx α), (¬ ∃ a, Numbers vs vs.length a) → FitsL t vs →
    InStorage m → j + vs.length ≤ m.rows → i < m.cols → ∃ m', readCol t i j vs m = some (m', false)
  | [], j, m, hn, _, _, _, _ => by
    exact absurd ⟨fun _ => .int 0, rfl, fun k hk => absurd hk (by simp)⟩ hn
  | v :: vs, j, m, hn, hf, hs, hr, hi => by
    simp only [List.length_cons] at hr
    cases v with
    | num x =>
      simp only [readCol, hf x List.mem_cons_self, Option.bind_eq_bind, Option.bind_some]
      rw [wr_ok m j i _ hs (by omega) hi]
      simp only [Option.bind_some]
      refine readCol_other t i vs (j + 1) { m with data := upd m.data (m.cell j i) (t.cast x) } ?_ (fun x hx => hf x (List.mem_cons_of_mem _ hx)) hs
        (by simp only; omega) hi
      rintro ⟨a, -, ha⟩
      refine hn ⟨fun k => match k with | 0 => x | k + 1 => a k, rfl, fun k hk => ?_⟩
      cases k with
      | zero => simp
      | succ k => simpa using ha k (by simpa using hk)
    | null => exact ⟨m, by simp [readCol]⟩
    | bool b => exact ⟨m, by simp [readCol]⟩
    | str b => exact ⟨m, by simp [readCol]⟩
    | arr b => exact ⟨m, by simp [readCol]⟩
    | obj b => exact ⟨m, by simp [readCol]⟩

/-- `C` columns of `R` numbers. -/
def Columns (cs : List JVal) (R C : Nat) (a : Nat → Nat → JNum) : Prop :=
  cs.length = C ∧ ∀ c, c < C → ∃ col, cs[c]? = some (.arr col) ∧ Numbers col R fun r => a r c

def FitsC (t : Ty α) (cs : List JVal) : Prop := ∀ col, JVal.arr col ∈ cs → FitsL t col

theorem readCols_numbers (t : Ty α) (R : Nat) : ∀ (cs : List JVal) (i : Nat) (m : Mtx α) (C : Nat) (a : Nat → Nat → JNum), Columns cs R C a →
    FitsC t cs → InStorage m → R ≤ m.rows → i + C ≤ m.cols →
    ∃ m', readCols t R i cs m = some (m', true) ∧ Same m m' ∧
      (∀ r c, r < R → c < C → m'.data (m.cell r (i + c)) = t.cast (a r c)) ∧
      ∀ p, (∀ r c, r < R → c < C → p ≠ m.cell r (i + c)) → m'.data p = m.data p
  | [], i, m, C, a, hn, _, _, _, _ => by
    obtain ⟨h, -⟩ := hn
    simp only [List.length_nil] at h
    subst h
    exact ⟨m, by simp [readCols], Same.refl m, fun r c _ hc => absurd hc (by omega), fun p _ => rfl⟩
  | v :: cs, i, m, C, a, hn, hf, hs, hr, hi => by
    obtain ⟨hl, hv⟩ := hn
    simp only [List.length_cons] at hl
    subst hl
    obtain ⟨col, h0, hcol⟩ := hv 0 (by omega)
    simp only [List.getElem?_cons_zero, Option.some.injEq] at h0
    subst h0
    obtain ⟨m1, g1, ⟨d1, rfl⟩, g3, g4⟩ := readCol_numbers t i col 0 m R (fun r => a r 0) hcol (hf col List.mem_cons_self) hs (by omega) (by omega)
    obtain ⟨m2, k1, ⟨d2, rfl⟩, k3, k4⟩ := readCols_numbers t R cs (i + 1) { m with data := d1 } cs.length (fun r c => a r (c + 1))
      ⟨rfl, fun c hc => by simpa using hv (c + 1) (by omega)⟩ (fun col hc => hf col (List.mem_cons_of_mem _ hc)) hs hr (by simp only; omega)
    refine ⟨_, ?_, ⟨d2, rfl⟩, ?_, ?_⟩
    · have hlen : ¬ (R ≠ col.length) := by rw [hcol.1]; simp
      simp only [readCols, if_neg hlen, Option.bind_eq_bind, g1, Option.bind_some]
      exact k1
    · intro r c hrr hcc
      simp only [Mtx.cell] at *
      rcases c with _ | c
      · rw [k4 _ (fun r' c' hr' hc' hEq => by
          have : r + m.rows * (i + 0) < m.rows * (i + 1 + c') := by
            have h1 : m.rows * (i + 1) ≤ m.rows * (i + 1 + c') := Nat.mul_le_mul_left _ (by omega)
            rw [Nat.mul_succ] at h1
            simp only [Nat.add_zero]
            omega
          omega)]
        have h3 := g3 r hrr
        simpa only [Nat.zero_add, Nat.add_zero] using h3
      · have := k3 r c hrr (by omega)
        rw [← this]
        congr 2
        rw [Nat.add_assoc i 1 c, Nat.add_comm 1 c]
    · intro p hp
      simp only [Mtx.cell] at *
      rw [k4 p (fun r c hr' hc' => by
        have := hp r (c + 1) hr' (by omega)
        rwa [Nat.add_assoc i 1 c, Nat.add_comm 1 c])]
      exact g4 p fun k hk => by simpa using hp k 0 hk (by omega)

theorem readCols_other (t : Ty α) (R : Nat) : ∀ (cs : List JVal) (i : Nat) (m : Mtx α), (¬ ∃ a, Columns cs R cs.length a) →
    FitsC t cs → InStorage m → R ≤ m.rows → i + cs.length ≤ m.cols → ∃ m', readCols t R i cs m = some (m', false)
  | [], i, m, hn, _, _, _, _ => by
    exact absurd ⟨fun _ _ => .int 0, rfl, fun k hk => absurd hk (by simp)⟩ hn
  | v :: cs, i, m, hn, hf, hs, hr, hi => by
    simp only [List.length_cons] at hi
    cases v with
    | arr col =>
      by_cases hlen : R = col.length
      · subst hlen
        simp only [readCols, ne_eq, not_true_eq_false, if_false, Option.bind_eq_bind]
        by_cases hc : ∃ a, Numbers col col.length a
        · obtain ⟨a0, ha0⟩ := hc
          obtain ⟨m1, g1, ⟨d1, rfl⟩, g3⟩ := readCol_numbers t i col 0 m _ a0 ha0 (hf col List.mem_cons_self) hs (by omega) (by omega)
          rw [g1]
          simp only [Option.bind_some]
          refine readCols_other t _ cs (i + 1) { m with data := d1 } ?_ (fun col hc => hf col (List.mem_cons_of_mem _ hc)) hs hr
            (by simp only; omega)
          rintro ⟨a, -, ha⟩
          refine hn ⟨fun r c => match c with | 0 => a0 r | c + 1 => a r c, rfl, fun c hc => ?_⟩
          cases c with
          | zero => exact ⟨col, by simp, ha0⟩
          | succ c => simpa using ha c (by simpa using hc)
        · obtain ⟨m1, g1⟩ := readCol_other t i col 0 m hc (hf col List.mem_cons_self) hs (by omega) (by omega)
          rw [g1]
          exact ⟨m1, rfl⟩
      · exact ⟨m, by simp [readCols, hlen]⟩
    | null => exact ⟨m, by simp [readCols]⟩
    | bool b => exact ⟨m, by simp [readCols]⟩
    | str b => exact ⟨m, by simp [readCols]⟩
    | num b => exact ⟨m, by simp [readCols]⟩
    | obj b => exact ⟨m, by simp [readCols]⟩

end Nntl.JsonFile
