import Verif.EW.RowModel
import Verif.EW.Spec
import Verif.Grad.Lemmas
import Verif.Kernel.RowProps
/-! C131: row-wise OR, counters, sum of products. -/
namespace Nntl.EW
open Nntl.Kernel Nntl.Matrix Nntl.Threads

/-- Bits with OR are a commutative monoid, so what was proved of sums over rows holds of OR. -/
instance : Zero Bits := ⟨⟨0⟩⟩
instance : Add Bits := ⟨fun a b => ⟨a.val ||| b.val⟩⟩
instance : AddCommMonoid Bits where
  add_assoc a b c := congrArg Bits.mk (Nat.or_assoc _ _ _)
  zero_add a := congrArg Bits.mk (Nat.zero_or _)
  add_zero a := congrArg Bits.mk (Nat.or_zero _)
  add_comm a b := congrArg Bits.mk (Nat.or_comm _ _)
  nsmul := nsmulRec

theorem bits_add (a b : Bits) : a + b = ⟨a.val ||| b.val⟩ := rfl
theorem bits_zero : (0 : Bits) = ⟨0⟩ := rfl

theorem orStCw_eq (A : Mtx Bits) (cb ce rb re : Nat) : orStCw A cb ce rb re = mrwSumSt false A cb ce rb re := by
  unfold orStCw mrwSumSt
  split
  · rfl
  · rfl

theorem orStRw_eq (A : Mtx Bits) (cb ce rb re : Nat) : orStRw A cb ce rb re = mrwSumSt true A cb ce rb re := by
  unfold orStRw mrwSumSt
  split
  · rfl
  · rfl

theorem orSt_eq (A : Mtx Bits) (cb ce rb re : Nat) : orSt A cb ce rb re = mrwSumSt false A cb ce rb re := by
  unfold orSt
  split
  · rename_i h; unfold mrwSumSt; rw [if_pos h]
  · exact orStCw_eq A cb ce rb re

theorem sum_or (one : Nat) (l : List Bits) (h : ∀ b ∈ l, b = ⟨one⟩ ∨ b = ⟨0⟩) :
    ((⟨one⟩ : Bits) ∈ l → l.sum = ⟨one⟩) ∧ ((⟨one⟩ : Bits) ∉ l → l.sum = ⟨0⟩) := by
  induction l with
  | nil => exact ⟨fun h => by simp at h, fun _ => rfl⟩
  | cons b l ih =>
    obtain ⟨ih1, ih2⟩ := ih fun x hx => h x (List.mem_cons_of_mem _ hx)
    rw [List.sum_cons, bits_add]
    by_cases hm : (⟨one⟩ : Bits) ∈ l
    · refine ⟨fun _ => ?_, fun hn => absurd (List.mem_cons_of_mem _ hm) hn⟩
      rw [ih1 hm]
      rcases h b (List.mem_cons_self ..) with hb | hb
      · rw [hb]; exact congrArg Bits.mk (Nat.or_self _)
      · rw [hb]; exact congrArg Bits.mk (Nat.zero_or _)
    · rw [ih2 hm]
      constructor
      · intro hc
        rcases List.mem_cons.1 hc with hb | hb
        · rw [← hb]; exact congrArg Bits.mk (Nat.or_zero _)
        · exact absurd hb hm
      · intro hn
        rcases h b (List.mem_cons_self ..) with hb | hb
        · exact absurd (by rw [hb]; exact List.mem_cons_self ..) hn
        · rw [hb]; rfl

theorem runs_st_of_eq {σ : Type} {cnt : Nat} {kernel : Nat → Nat → List (Step σ)} {m m' : Nat → σ} (h : m' = runSteps m (kernel 0 cnt)) :
    Runs .st cnt kernel m m' := ⟨_, interleaves_one (kernel 0 cnt), h⟩

/-- Every variant gives the sum of the row in the monoid of bits. -/
theorem or_sum (fb : FloatBits) (call : OrCall) {rs : List ParRange} (hok : RangesOk rs) (per : Nat) {A : Mtx Bits} (hr : 0 < A.rows) (hc : 0 < A.cols)
    {m m' : Nat → Bits} (h : mrwOr fb call rs per A m (some m')) :
    (∀ r, r < A.rows → m' r = rowSum A r) ∧ ∀ k, A.rows ≤ k → m' k = m k := by
  have st : ∀ rw', (m' = runSteps m (mrwSumSt rw' A 0 A.cols 0 A.rows)) →
      (∀ r, r < A.rows → m' r = rowSum A r) ∧ ∀ k, A.rows ≤ k → m' k = m k := by
    intro rw' h
    refine row_sum_by_rows .st trivial rw' A hr hc ?_
    unfold mrwSumByRows
    exact runs_st_of_eq h
  have cp : A.cols = 1 → m' = runSteps m (copyFirst A 0 0 A.rows) → (∀ r, r < A.rows → m' r = rowSum A r) ∧ ∀ k, A.rows ≤ k → m' k = m k := by
    intro h1 h2
    refine st true ?_
    unfold mrwSumSt
    rw [if_pos (Or.inl h1)]; exact h2
  have mtrw : orMtRw rs A m m' → (∀ r, r < A.rows → m' r = rowSum A r) ∧ ∀ k, A.rows ≤ k → m' k = m k := by
    intro h
    unfold orMtRw at h
    split at h
    · exact cp ‹_› h
    · refine row_sum_by_rows (.mt rs) hok false A hr hc ?_
      unfold mrwSumByRows
      have : orSt A 0 A.cols = mrwSumSt false A 0 A.cols := by funext a b; exact orSt_eq A 0 A.cols a b
      rw [← this]; exact h
  have mtcw : orMtCw rs per A m m' → (∀ r, r < A.rows → m' r = rowSum A r) ∧ ∀ k, A.rows ≤ k → m' k = m k := by
    rintro ⟨tmp0, w, hw, h⟩
    refine row_sum_mt_cw rs hok per false false A hr hc ⟨tmp0, w, ?_, ?_⟩
    · have : (fun cb ce => orSt A cb ce 0 A.rows) = fun cb ce => mrwSumSt false A cb ce 0 A.rows := by
        funext a b; exact orSt_eq A a b 0 A.rows
      rw [← this]; exact hw
    · unfold mrwSumByRows
      refine runs_st_of_eq ?_
      rw [← orSt_eq]; exact h
  unfold mrwOr at h
  split at h
  · cases h
  · rcases h with ⟨_, h⟩ | ⟨_, h⟩
    · cases h
    · cases call with
      | default =>
        dsimp only at h
        split at h
        · cases h
        · exact st false (by rw [← orStCw_eq]; exact Option.some.inj h)
      | st => exact st false (by rw [← orSt_eq]; exact Option.some.inj h)
      | stCw => exact st false (by rw [← orStCw_eq]; exact Option.some.inj h)
      | stRw => exact st true (by rw [← orStRw_eq]; exact Option.some.inj h)
      | mt =>
        obtain ⟨m'', e, h⟩ := h
        cases e
        split at h
        · exact cp ‹_› h
        · split at h
          · exact mtrw h
          · exact mtcw h
      | mtCw =>
        dsimp only at h
        split at h
        · cases h
        · obtain ⟨m'', e, h⟩ := h
          cases e
          exact mtcw h
      | mtRw =>
        obtain ⟨m'', e, h⟩ := h
        cases e
        exact mtrw h

/-- **C131 (OR of rows).** If all elements are `1` or `+0`, every variant, with any threads in any order, puts `1` for the rows that contain a `1`
and `+0` for the others. Memory behind the vector does not change. The full claim, that this holds whenever the assertion of the function holds, is
false: it lets `-0` pass, see `row_or_wrong_with_negative_zero`. -/
theorem row_or_partial (fb : FloatBits) (call : OrCall) {rs : List ParRange} (hok : RangesOk rs) (per : Nat) {A : Mtx Bits} (hr : 0 < A.rows)
    (hc : 0 < A.cols) (hbin : ∀ r c, r < A.rows → c < A.cols → elem A r c = ⟨fb.one⟩ ∨ elem A r c = ⟨0⟩)
    {m m' : Nat → Bits} (h : mrwOr fb call rs per A m (some m')) :
    (∀ r, r < A.rows → ((∃ c, c < A.cols ∧ elem A r c = ⟨fb.one⟩) → m' r = ⟨fb.one⟩) ∧
      ((∀ c, c < A.cols → elem A r c ≠ ⟨fb.one⟩) → m' r = ⟨0⟩)) ∧ ∀ k, A.rows ≤ k → m' k = m k := by
  obtain ⟨h1, h2⟩ := or_sum fb call hok per hr hc h
  refine ⟨fun r hr' => ?_, h2⟩
  have hs := sum_or fb.one ((List.range A.cols).map (Mtx.rowOf A r)) (by
    intro b hb
    obtain ⟨c, hc', e⟩ := List.mem_map.1 hb
    rw [← e]; exact hbin r c hr' (List.mem_range.1 hc'))
  rw [h1 r hr']
  refine ⟨fun ⟨c, hc', e⟩ => hs.1 (List.mem_map.2 ⟨c, List.mem_range.2 hc', e⟩), fun hn => hs.2 fun hm => ?_⟩
  obtain ⟨c, hc', e⟩ := List.mem_map.1 hm
  exact hn c (List.mem_range.1 hc') e

/-- **C131 (OR of rows).** With the conditions of the assertions a result always exists, and no other outcome. -/
theorem row_or_returns (fb : FloatBits) (call : OrCall) {rs : List ParRange} (per : Nat) {A : Mtx Bits} (hr : 0 < A.rows) (hc : 0 < A.cols)
    (hmem : A.rows * A.cols ≤ A.cap) (hemul : A.emul = false) (hper : per < A.cols)
    (hbin : ∀ r c, r < A.rows → c < A.cols → elem A r c = ⟨fb.one⟩ ∨ elem A r c = ⟨0⟩) (m : Nat → Bits) :
    (∃ m', mrwOr fb call rs per A m (some m')) ∧ ¬ mrwOr fb call rs per A m none := by
  have hn : 0 < A.rows * A.cols := Nat.mul_pos hr hc
  have h0 : ¬ (A.empty = true ∨ A.numel = 0) := by
    rintro (h | h)
    · unfold Mtx.empty at h; simp at h; omega
    · have : A.rows * A.cols = 0 := h
      omega
  have hb : isBinary fb A := by
    intro k hk
    have hk' : k < A.rows * A.cols := hk
    have h1 := hbin (k % A.rows) (k / A.rows) (Nat.mod_lt _ hr) (Nat.div_lt_of_lt_mul hk')
    unfold elem at h1
    rw [Nat.mod_add_div] at h1
    rcases h1 with h1 | h1
    · exact Or.inl h1
    · exact Or.inr (Or.inl h1)
  have hcw : ∃ m', orMtCw rs per A m m' := by
    have hw := interleaves_flatten (cwThreads rs A per fun cb ce => orSt A cb ce 0 A.rows)
    exact ⟨_, m, _, hw, rfl⟩
  have hrw : ∃ m', orMtRw rs A m m' := by
    unfold orMtRw
    split
    · exact ⟨_, rfl⟩
    · exact runs_exists ..
  unfold mrwOr
  simp only [if_neg h0]
  constructor
  · cases call with
    | default => exact ⟨_, Or.inr ⟨hb, by rw [if_neg (by rw [hemul]; decide)]⟩⟩
    | st => exact ⟨_, Or.inr ⟨hb, rfl⟩⟩
    | stCw => exact ⟨_, Or.inr ⟨hb, rfl⟩⟩
    | stRw => exact ⟨_, Or.inr ⟨hb, rfl⟩⟩
    | mt =>
      by_cases h1 : A.cols = 1
      · exact ⟨_, Or.inr ⟨hb, _, rfl, by rw [if_pos h1]⟩⟩
      · by_cases h2 : A.cols ≤ max per (rs.length + 1)
        · obtain ⟨m', hm⟩ := hrw
          exact ⟨m', Or.inr ⟨hb, m', rfl, by rw [if_neg h1, if_pos h2]; exact hm⟩⟩
        · obtain ⟨m', hm⟩ := hcw
          exact ⟨m', Or.inr ⟨hb, m', rfl, by rw [if_neg h1, if_neg h2]; exact hm⟩⟩
    | mtCw =>
      obtain ⟨m', hm⟩ := hcw
      exact ⟨m', Or.inr ⟨hb, by rw [if_neg (show ¬ A.cols ≤ per by omega)]; exact ⟨m', rfl, hm⟩⟩⟩
    | mtRw =>
      obtain ⟨m', hm⟩ := hrw
      exact ⟨m', Or.inr ⟨hb, m', rfl, hm⟩⟩
  · rintro (⟨h, _⟩ | ⟨_, h⟩)
    · exact h hb
    · cases call with
      | default => rw [hemul] at h; cases h
      | st => cases h
      | stCw => cases h
      | stRw => cases h
      | mt => obtain ⟨_, h, _⟩ := h; cases h
      | mtCw =>
        rw [if_neg (show ¬ A.cols ≤ per by omega)] at h
        obtain ⟨_, h, _⟩ := h; cases h
      | mtRw => obtain ⟨_, h, _⟩ := h; cases h

/-- A row `1, -0` of `float`. -/
def demoNegZero : Mtx Bits := { data := fun k => [⟨0x3F800000⟩, ⟨0x80000000⟩].getD k ⟨0⟩, cap := 2, rows := 1, cols := 2, emul := false, ext := false, holey := false, bir := false, maxSize := 2 }

/-- **C131, the full claim is false.** The row `1, -0` passes the assertion, the result has the bits `0xBF800000`: it is `-1`. -/
theorem row_or_wrong_with_negative_zero : ∃ m', mrwOr float32 .default [] 1 demoNegZero (fun _ => ⟨0⟩) (some m') ∧
    elem demoNegZero 0 0 = ⟨float32.one⟩ ∧ elem demoNegZero 0 1 = ⟨float32.negZero⟩ ∧ m' 0 = ⟨0xBF800000⟩ ∧ m' 0 ≠ ⟨float32.one⟩ ∧ m' 0 ≠ ⟨0⟩ := by
  refine ⟨runSteps (fun _ => ⟨0⟩) (orStCw demoNegZero 0 2 0 1), ?_, rfl, rfl, ?_⟩
  · unfold mrwOr
    rw [if_neg (by decide)]
    refine Or.inr ⟨?_, rfl⟩
    intro k hk
    have : k < 2 := hk
    match k, this with
    | 0, _ => exact Or.inl rfl
    | 1, _ => exact Or.inr (Or.inr rfl)
  · decide

/-- The same with `double`: the bits `0xBFF0000000000000`. -/
theorem row_or_wrong_with_negative_zero_double : ∃ (A : Mtx Bits) (m' : Nat → Bits), mrwOr float64 .default [] 1 A (fun _ => ⟨0⟩) (some m') ∧
    elem A 0 0 = ⟨float64.one⟩ ∧ elem A 0 1 = ⟨float64.negZero⟩ ∧ m' 0 = ⟨0xBFF0000000000000⟩ := by
  refine ⟨{ demoNegZero with data := fun k => [⟨0x3FF0000000000000⟩, ⟨0x8000000000000000⟩].getD k ⟨0⟩ },
    runSteps (fun _ => ⟨0⟩) (orStCw { demoNegZero with data := fun k => [⟨0x3FF0000000000000⟩, ⟨0x8000000000000000⟩].getD k ⟨0⟩ } 0 2 0 1), ?_, rfl, rfl, ?_⟩
  · unfold mrwOr
    rw [if_neg (by decide)]
    refine Or.inr ⟨?_, rfl⟩
    intro k hk
    have : k < 2 := hk
    match k, this with
    | 0, _ => exact Or.inl rfl
    | 1, _ => exact Or.inr (Or.inr rfl)
  · decide

/-! ### Counters -/

/-- **C131 (counter).** The number of elements that differ from zero, that is, are above or below it (the comment in the code says "equal to zero"). -/
theorem count_nonzeros {α : Type} [LinearOrder α] [OfNat α 0] (v : Nat → α) (ne : Nat) (hne : 0 < ne) :
    vCountNonZeros v ne = some ((List.range ne).filter fun i => decide (v i ≠ 0)).length := by
  unfold vCountNonZeros
  rw [if_neg (by omega)]
  congr 1
  have key : ∀ (l : List Nat) (a : Nat), l.foldl (fun nz i => nz + ((if 0 < v i then 1 else 0) + (if v i < 0 then 1 else 0))) a =
      a + (l.filter fun i => decide (v i ≠ 0)).length := by
    intro l
    induction l with
    | nil => intro a; rfl
    | cons x l ih =>
      intro a
      rw [List.foldl_cons, ih]
      rcases lt_trichotomy (v x) 0 with h | h | h
      · rw [if_neg (lt_asymm h), if_pos h, List.filter_cons_of_pos (by simpa using ne_of_lt h), List.length_cons]; omega
      · rw [if_neg (by rw [h]; exact lt_irrefl _), if_neg (by rw [h]; exact lt_irrefl _), List.filter_cons_of_neg (by simpa using h)]; omega
      · rw [if_pos h, if_neg (lt_asymm h), List.filter_cons_of_pos (by simpa using ne_of_gt h), List.length_cons]; omega
  rw [key, Nat.zero_add]

/-- What the strict counter gives for any length: the number of elements other than `+0`, modulo `2^w`. -/
theorem count_nonzeros_strict_mod (w : Nat) (hw : 0 < w) (v : Nat → Bits) (ne : Nat) (hne : 0 < ne) :
    vCountNonZerosStrict w v ne = some (((List.range ne).filter fun i => decide (v i ≠ ⟨0⟩)).length % 2 ^ w) := by
  unfold vCountNonZerosStrict
  rw [if_neg (by omega)]
  congr 1
  have key : ∀ (l : List Nat) (a : Nat), l.foldl (fun nz i => (nz + (if 0 < (v i).val then 1 else 0)) % 2 ^ w) (a % 2 ^ w) =
      (a + (l.filter fun i => decide (v i ≠ ⟨0⟩)).length) % 2 ^ w := by
    intro l
    induction l with
    | nil => intro a; rfl
    | cons x l ih =>
      intro a
      rw [List.foldl_cons, Nat.mod_add_mod, ih]
      by_cases h : v x = ⟨0⟩
      · rw [if_neg (by rw [h]; exact Nat.lt_irrefl _), List.filter_cons_of_neg (by simpa using h)]; rfl
      · have h' : 0 < (v x).val := by
          rcases Nat.eq_zero_or_pos (v x).val with h0 | h0
          · exact absurd (congrArg Bits.mk h0) h
          · exact h0
        rw [if_pos h', List.filter_cons_of_pos (by simpa using h), List.length_cons]
        congr 1; omega
  have := key (List.range ne) 0
  rw [Nat.zero_mod, Nat.zero_add] at this
  exact this

/-- **C131 (strict counter).** The number of elements other than `+0`, for vectors of fewer than `2^w` elements, `w` being the number of bits of the
floating point type. The full claim, for every length, is false: see `count_strict_wraps`. -/
theorem count_nonzeros_strict_partial (w : Nat) (v : Nat → Bits) (ne : Nat) (hne : 0 < ne) (hlt : ne < 2 ^ w) :
    vCountNonZerosStrict w v ne = some ((List.range ne).filter fun i => decide (v i ≠ ⟨0⟩)).length := by
  have hw : 0 < w := by
    rcases Nat.eq_zero_or_pos w with h | h
    · rw [h] at hlt; simp at hlt; omega
    · exact h
  rw [count_nonzeros_strict_mod w hw v ne hne, Nat.mod_eq_of_lt]
  refine lt_of_le_of_lt (List.length_filter_le ..) ?_
  rw [List.length_range]; exact hlt

/-- **C131 (strict counter), the full claim is false.** A vector of `2^32` ones of type `float` is said to have no element that is not zero. -/
theorem count_strict_wraps (ne : Nat) (hne : ne = 2 ^ 32) : vCountNonZerosStrict 32 (fun _ => ⟨float32.one⟩) ne = some 0 ∧
    ((List.range ne).filter fun _ => decide ((⟨float32.one⟩ : Bits) ≠ ⟨0⟩)).length = ne := by
  have h : ((List.range ne).filter fun _ => decide ((⟨float32.one⟩ : Bits) ≠ ⟨0⟩)).length = ne := by
    rw [List.filter_eq_self.2 (fun _ _ => by decide), List.length_range]
  refine ⟨?_, h⟩
  rw [count_nonzeros_strict_mod 32 (by decide) _ _ (by omega), h, hne, Nat.mod_self]

/-! ### Sum of products -/

/-- **C131 (sum of products).** The sum over all elements of the product of the two elements at the same place, with any threads. -/
theorem sum_of_products {R : Type} [CommRing R] (ex : Exec) (hex : ex.Ok) (A B : Mtx R) (hA : A.empty = false) (hB : B.empty = false)
    (hr : B.rows = A.rows) (hc : B.cols = A.cols) (hpos : 0 < A.rows) :
    ewSumProd ex A B = some (∑ c ∈ Finset.range A.cols, ∑ r ∈ Finset.range A.rows, elem A r c * elem B r c) := by
  unfold ewSumProd
  rw [if_neg (by rw [hA, hB, hr, hc]; simp), reduceSum_eq ex hex]
  congr 1
  have key : ∀ n, ((List.range (A.rows * n)).map fun i => A.data i * B.data i).sum =
      ∑ c ∈ Finset.range n, ∑ r ∈ Finset.range A.rows, elem A r c * elem B r c := by
    intro n
    induction n with
    | zero => simp
    | succ n ih =>
      rw [Finset.sum_range_succ, ← ih, Nat.mul_succ, List.range_add, List.map_append, List.sum_append]
      congr 1
      rw [List.map_map]
      unfold elem
      rw [hr]
      rw [Finset.sum_range]
      rw [← List.sum_ofFn]
      congr 1
      rw [List.ofFn_eq_map]
      apply List.ext_getElem
      · simp
      · intro i h1 h2
        simp [Nat.add_comm]
  exact key A.cols

/-! ### The hypotheses can be met -/

def demoBin : Mtx Bits := { data := fun k => [⟨0x3F800000⟩, ⟨0⟩, ⟨0⟩, ⟨0⟩, ⟨0x3F800000⟩, ⟨0⟩].getD k ⟨0⟩, cap := 6, rows := 2, cols := 3, emul := false, ext := false, holey := false, bir := false, maxSize := 6 }

theorem demoBin_binary : ∀ r c, r < demoBin.rows → c < demoBin.cols → elem demoBin r c = ⟨float32.one⟩ ∨ elem demoBin r c = ⟨0⟩ := by
  intro r c hr hc
  have hr' : r < 2 := hr
  have hc' : c < 3 := hc
  have key : ∀ r < 2, ∀ c < 3, elem demoBin r c = ⟨float32.one⟩ ∨ elem demoBin r c = ⟨0⟩ := by decide
  exact key r hr' c hc'

example : ∃ m', mrwOr float32 .mt (initRanges 1) 1 demoBin (fun _ => ⟨7⟩) (some m') ∧ m' 0 = ⟨float32.one⟩ ∧ m' 1 = ⟨0⟩ ∧ m' 2 = ⟨7⟩ := by
  obtain ⟨⟨m', h⟩, _⟩ := row_or_returns float32 .mt (rs := initRanges 1) 1 (A := demoBin) (by decide) (by decide) (by decide) rfl (by decide) demoBin_binary
    fun _ => ⟨7⟩
  obtain ⟨h1, h2⟩ := row_or_partial float32 .mt (initRanges_ok 1) 1 (A := demoBin) (by decide) (by decide) demoBin_binary h
  exact ⟨m', h, (h1 0 (by decide)).1 ⟨0, by decide, by decide⟩, (h1 1 (by decide)).2 (by decide), h2 2 (by decide)⟩

example : vCountNonZeros (fun i => [(3 : Int), 0, -2].getD i 0) 3 = some 2 ∧ vCountNonZerosStrict 32 demoBin.data 6 = some 2 := by decide

end Nntl.EW
