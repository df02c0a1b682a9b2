import Verif.MtxTest.Spec
import Verif.Matrix.Lemmas
import Mathlib.Tactic.Ring
import Mathlib.Tactic.Positivity
import Mathlib.Tactic.FieldSimp
import Mathlib.Tactic.Linarith
/-! The loop of the checks, the patterns of zero and one. -/
namespace Nntl.MtxTest
open Nntl.Matrix

theorem scan_run {β : Type} (dbg quiet : Bool) (ok : β → Bool) (d : Nat → β) (cap ld : Nat) (go : Nat → Bool) (n : Nat) :
    ∀ fuel pos cond, n < fuel → (∀ i, i < n → go (pos + i * ld) = true ∧ pos + i * ld < cap) → go (pos + n * ld) = false →
      ((∀ i, i < n → ok (d (pos + i * ld)) = true) → scan dbg quiet ok d cap ld go fuel pos cond = .ret cond) ∧
      ((¬ ∀ i, i < n → ok (d (pos + i * ld)) = true) →
        scan dbg quiet ok d cap ld go fuel pos cond = if dbg && !quiet then .abort else .ret false) := by
  induction n with
  | zero =>
    intro fuel pos cond hf _ hg
    obtain ⟨f, rfl⟩ : ∃ f, fuel = f + 1 := ⟨fuel - 1, by omega⟩
    rw [Nat.zero_mul, Nat.add_zero] at hg
    refine ⟨fun _ => ?_, fun h => absurd (fun i hi => absurd hi (Nat.not_lt_zero i)) h⟩
    unfold scan; rw [hg]; rfl
  | succ n ih =>
    intro fuel pos cond hf hall hg
    obtain ⟨f, rfl⟩ : ∃ f, fuel = f + 1 := ⟨fuel - 1, by omega⟩
    have h0 := hall 0 (by omega)
    rw [Nat.zero_mul, Nat.add_zero] at h0
    have e : ∀ i, pos + ld + i * ld = pos + (i + 1) * ld := fun i => by rw [Nat.add_mul]; omega
    have := ih f (pos + ld) (cond && ok (d pos)) (by omega) (fun i hi => by rw [e]; exact hall (i + 1) (by omega)) (by rw [e]; exact hg)
    have sp : (∀ i, i < n + 1 → ok (d (pos + i * ld)) = true) ↔ (ok (d pos) = true ∧ ∀ i, i < n → ok (d (pos + ld + i * ld)) = true) := by
      constructor
      · intro h
        refine ⟨by simpa using h 0 (by omega), fun i hi => ?_⟩
        rw [e]; exact h (i + 1) (by omega)
      · rintro ⟨h1, h2⟩ i hi
        rcases i with _ | i
        · simpa using h1
        · rw [← e]; exact h2 i (by omega)
    rw [sp]
    unfold scan
    rw [h0.1]
    simp only [Bool.not_true, Bool.false_eq_true, if_false]
    rw [if_neg (by omega : ¬ cap ≤ pos)]
    constructor
    · rintro ⟨h1, h2⟩
      rw [h1, if_neg (by simp)]
      have := this.1 h2
      rw [h1] at this
      simpa using this
    · intro hn
      by_cases h1 : ok (d pos) = true
      · rw [h1, if_neg (by simp)]
        have := this.2 (fun h2 => hn ⟨h1, h2⟩)
        rw [h1] at this
        exact this
      · have h1' : ok (d pos) = false := by simpa using h1
        rw [h1']
        by_cases hd : (dbg && !quiet) = true
        · rw [if_pos hd, if_pos (by rw [hd]; rfl)]
        · rw [if_neg hd, if_neg (by simpa using hd)]
          rw [h1', Bool.and_false] at this
          rw [Bool.and_false]
          by_cases h2 : ∀ i, i < n → ok (d (pos + ld + i * ld)) = true
          · exact this.1 h2
          · rw [this.2 h2, if_neg hd]

/-- The loop over `n` elements at distances `ld`. -/
theorem scan_tells {β : Type} (dbg quiet : Bool) (ok : β → Bool) (d : Nat → β) (cap ld : Nat) (go : Nat → Bool) (n fuel pos : Nat) (hf : n < fuel)
    (h : ∀ i, i < n → go (pos + i * ld) = true ∧ pos + i * ld < cap) (hg : go (pos + n * ld) = false) (P : Prop)
    (hP : P ↔ ∀ i, i < n → ok (d (pos + i * ld)) = true) : Tells (dbg && !quiet) P (scan dbg quiet ok d cap ld go fuel pos true) := by
  have := scan_run dbg quiet ok d cap ld go n fuel pos true hf h hg
  rw [← hP] at this
  by_cases hp : P
  · exact .inl ⟨hp, this.1 hp⟩
  · exact .inr ⟨hp, this.2 hp⟩

theorem scanNe_tells {β : Type} (dbg quiet : Bool) (ok : β → Bool) (d : Nat → β) (cap ofs ne : Nat) (h : ofs + ne ≤ cap) (P : Prop)
    (hP : P ↔ ∀ i, i < ne → ok (d (ofs + i)) = true) : Tells (dbg && !quiet) P (scanNe dbg quiet ok d cap ofs ne 1) := by
  refine scan_tells dbg quiet ok d cap 1 _ ne _ ofs (by omega) (fun i hi => ⟨?_, by omega⟩) ?_ P ?_
  · simp; omega
  · simp
  · rw [hP]; simp

/-! Elements and cells. -/

variable {t : VT}

theorem all_iff (m : Mtx (Bits t)) (P : Bits t → Prop) (ok : Bits t → Bool) (h : ∀ b, P b ↔ ok b = true) :
    AllElements m P ↔ ∀ i, i < m.numel → ok (m.data (0 + i)) = true := by
  constructor
  · intro hA i hi
    obtain ⟨r, c, hr, hc, rfl⟩ := cell_surj hi
    obtain ⟨b, hb, hp⟩ := hA r c hr hc
    unfold Mtx.get Mtx.cell at hb
    rw [if_pos ⟨hr, hc⟩] at hb
    cases hb
    rw [Nat.zero_add]; exact (h _).1 hp
  · intro hA r c hr hc
    refine ⟨m.data (m.cell r c), by unfold Mtx.get; rw [if_pos ⟨hr, hc⟩], (h _).2 ?_⟩
    have := hA (r + m.rows * c) (cell_lt hr hc)
    rw [Nat.zero_add] at this; exact this

theorem data_iff (m : Mtx (Bits t)) (hm : m.emul = true → m.bir = false) (P : Bits t → Prop) (ok : Bits t → Bool)
    (h : ∀ b, P b ↔ ok b = true) : AllData m P ↔ ∀ i, i < m.numelNoBias → ok (m.data (0 + i)) = true := by
  have hr0 : m.rowsNoBias = m.rows := by
    unfold Mtx.rowsNoBias
    rcases he : m.emul with _ | _
    · rfl
    · rw [hm he]; rfl
  constructor
  · intro hA i hi
    unfold Mtx.numelNoBias at hi
    rw [hr0] at hi
    obtain ⟨r, c, hr, hc, rfl⟩ := cell_surj hi
    unfold Mtx.colsNoBias at hc
    obtain ⟨b, hb, hp⟩ := hA r c hr (by omega) (by
      rintro ⟨he, hb⟩
      rw [hm he] at hb; rw [he, hm he] at hc
      simp at hb hc; omega)
    unfold Mtx.get Mtx.cell at hb
    rw [if_pos ⟨hr, by omega⟩] at hb
    cases hb
    rw [Nat.zero_add]; exact (h _).1 hp
  · intro hA r c hr hc hb
    refine ⟨m.data (m.cell r c), by unfold Mtx.get; rw [if_pos ⟨hr, hc⟩], (h _).2 ?_⟩
    have hc' : c < m.colsNoBias := by
      unfold Mtx.colsNoBias
      rcases he : m.emul with _ | _
      · simpa using hc
      · have : ¬ (c + 1 = m.cols) := fun h => hb ⟨he, by rw [hm he]; simpa using h⟩
        rw [hm he]; simp; omega
    have := hA (r + m.rows * c) (by unfold Mtx.numelNoBias; rw [hr0]; exact cell_lt hr hc')
    rw [Nat.zero_add] at this; exact this

theorem biases_cols_iff (m : Mtx (Bits t)) (he : m.emul = true) (hb : m.bir = false) (hc0 : 0 < m.cols) (P : Bits t → Prop) (ok : Bits t → Bool)
    (h : ∀ b, P b ↔ ok b = true) : AllBiases m P ↔ ∀ i, i < m.rows → ok (m.data (m.rows * (m.cols - 1) + i)) = true := by
  constructor
  · intro hA i hi
    obtain ⟨b, hg, hp⟩ := hA i (m.cols - 1) hi (by omega) ⟨he, by rw [hb]; simp; omega⟩
    unfold Mtx.get Mtx.cell at hg
    rw [if_pos ⟨hi, by omega⟩] at hg
    cases hg
    rw [Nat.add_comm]; exact (h _).1 hp
  · rintro hA r c hr hc ⟨_, hi⟩
    rw [hb] at hi
    have : c = m.cols - 1 := by simp at hi; omega
    subst this
    refine ⟨m.data (m.cell r (m.cols - 1)), by unfold Mtx.get; rw [if_pos ⟨hr, hc⟩], (h _).2 ?_⟩
    unfold Mtx.cell; rw [Nat.add_comm]; exact hA r hr

theorem biases_rows_iff (m : Mtx (Bits t)) (he : m.emul = true) (hb : m.bir = true) (hr0 : 0 < m.rows) (P : Bits t → Prop) (ok : Bits t → Bool)
    (h : ∀ b, P b ↔ ok b = true) : AllBiases m P ↔ ∀ i, i < m.cols → ok (m.data (m.rows - 1 + i * m.rows)) = true := by
  constructor
  · intro hA i hi
    obtain ⟨b, hg, hp⟩ := hA (m.rows - 1) i (by omega) hi ⟨he, by rw [hb]; simp; omega⟩
    unfold Mtx.get Mtx.cell at hg
    rw [if_pos ⟨by omega, hi⟩] at hg
    cases hg
    rw [Nat.mul_comm]; exact (h _).1 hp
  · rintro hA r c hr hc ⟨_, hi⟩
    rw [hb] at hi
    have : r = m.rows - 1 := by simp at hi; omega
    subst this
    refine ⟨m.data (m.cell (m.rows - 1) c), by unfold Mtx.get; rw [if_pos ⟨hr, hc⟩], (h _).2 ?_⟩
    unfold Mtx.cell; rw [Nat.mul_comm]; exact hA c hc

/-! Patterns. -/

theorem pow_eq {p m e B : Nat} (hm : m < 2 ^ p) (h : (2 ^ p + m) * 2 ^ e = 2 ^ (B + p)) : e = B ∧ m = 0 := by
  rcases Nat.lt_trichotomy e B with hlt | rfl | hgt
  · exfalso
    have h1 : (2 ^ p + m) * 2 ^ e < 2 ^ (p + 1) * 2 ^ e :=
      Nat.mul_lt_mul_of_pos_right (by rw [pow_succ]; omega) (by positivity)
    have h2 : 2 ^ (p + 1) * 2 ^ e ≤ 2 ^ (B + p) := by
      rw [← pow_add]; exact Nat.pow_le_pow_right (by omega) (by omega)
    omega
  · refine ⟨rfl, ?_⟩
    rw [Nat.add_mul, ← pow_add, Nat.add_comm p e] at h
    have : m * 2 ^ e = 0 := by omega
    rcases Nat.mul_eq_zero.1 this with h | h
    · exact h
    · exact absurd h (by positivity)
  · exfalso
    have h2 : 2 ^ (B + p) < 2 ^ (p + e) := Nat.pow_lt_pow_right (by omega) (by omega)
    rw [Nat.add_mul, ← pow_add] at h
    omega

theorem mag_one (b : Bits t) (hB : 1 ≤ 2 ^ (t.exp - 1) - 1) (h : b.mag = 1) : b.e = 2 ^ (t.exp - 1) - 1 ∧ b.m = 0 := by
  have hm : b.m < 2 ^ t.man := Nat.mod_lt _ (by positivity)
  unfold Bits.mag at h
  generalize 2 ^ (t.exp - 1) - 1 = B at *
  split at h
  · exfalso
    rw [div_eq_one_iff_eq (by positivity)] at h
    have h' : b.m * 2 = 2 ^ (B + t.man) := by exact_mod_cast h
    have : 2 ^ (1 + t.man) ≤ 2 ^ (B + t.man) := Nat.pow_le_pow_right (by omega) (by omega)
    rw [pow_add 2 1] at this
    omega
  · rw [div_eq_one_iff_eq (by positivity)] at h
    exact pow_eq hm (by exact_mod_cast h)

theorem mag_zero (b : Bits t) (h : b.mag = 0) : b.e = 0 ∧ b.m = 0 := by
  unfold Bits.mag at h
  split at h
  next he =>
    refine ⟨he, ?_⟩
    rw [div_eq_zero_iff] at h
    rcases h with h | h
    · have : b.m * 2 = 0 := by exact_mod_cast h
      omega
    · exact absurd h (by positivity)
  next =>
    exfalso
    rw [div_eq_zero_iff] at h
    rcases h with h | h
    · have : (2 ^ t.man + b.m) * 2 ^ b.e = 0 := by exact_mod_cast h
      rcases Nat.mul_eq_zero.1 this with h | h
      · have : 0 < 2 ^ t.man := by positivity
        omega
      · exact absurd h (by positivity)
    · exact absurd h (by positivity)

theorem mag_of (b : Bits t) (he : b.e = 2 ^ (t.exp - 1) - 1) (h0 : b.e ≠ 0) (hm : b.m = 0) : b.mag = 1 := by
  unfold Bits.mag
  rw [if_neg h0, hm, he, Nat.add_zero, Nat.cast_pow, Nat.cast_ofNat, ← pow_add, Nat.add_comm t.man, div_self]
  positivity

theorem mag_nonneg (b : Bits t) : 0 ≤ b.mag := by unfold Bits.mag; split <;> positivity

theorem num_one_iff (b : Bits t) : b.num = some 1 ↔ b.v = oneBits t := by
  have hlt := b.lt
  constructor
  · intro h
    cases t with
    | int => unfold Bits.num at h; simp at h; simpa [oneBits] using h
    | f32 =>
      unfold Bits.num at h
      simp only [VT.width] at *
      split at h
      · cases h
      rw [Option.some.injEq] at h
      split at h
      · have := mag_nonneg b; exfalso; linarith
      next hn =>
        obtain ⟨he, hm⟩ := mag_one b (by decide) h
        simp only [Bits.e, Bits.m, Bits.neg, VT.man, VT.exp] at *
        simp at hn
        simp only [oneBits]; omega
    | f64 =>
      unfold Bits.num at h
      simp only [VT.width] at *
      split at h
      · cases h
      rw [Option.some.injEq] at h
      split at h
      · have := mag_nonneg b; exfalso; linarith
      next hn =>
        obtain ⟨he, hm⟩ := mag_one b (by decide) h
        simp only [Bits.e, Bits.m, Bits.neg, VT.man, VT.exp] at *
        simp at hn
        simp only [oneBits]; omega
  · intro h
    cases t with
    | int => unfold Bits.num; simp [h, oneBits]
    | f32 =>
      have he : b.e = 127 := by simp [Bits.e, h, oneBits, VT.man, VT.exp]
      have hm : b.m = 0 := by simp [Bits.m, h, oneBits, VT.man]
      have hn : b.neg = false := by simp [Bits.neg, h, oneBits, VT.man, VT.exp]
      unfold Bits.num
      simp only [hn, mag_of b (by rw [he]; decide) (by rw [he]; decide) hm]
      rw [he]; rfl
    | f64 =>
      have he : b.e = 1023 := by simp [Bits.e, h, oneBits, VT.man, VT.exp]
      have hm : b.m = 0 := by simp [Bits.m, h, oneBits, VT.man]
      have hn : b.neg = false := by simp [Bits.neg, h, oneBits, VT.man, VT.exp]
      unfold Bits.num
      simp only [hn, mag_of b (by rw [he]; decide) (by rw [he]; decide) hm]
      rw [he]; rfl

theorem num_zero_iff (b : Bits t) : b.num = some 0 ↔ b.v = 0 ∨ b.v = negZeroBits t := by
  have hlt := b.lt
  constructor
  · intro h
    cases t with
    | int => unfold Bits.num at h; simp at h; exact .inl h
    | f32 =>
      unfold Bits.num at h
      simp only [VT.width] at *
      split at h
      · cases h
      rw [Option.some.injEq] at h
      have h0 : b.mag = 0 := by split at h <;> linarith
      obtain ⟨he, hm⟩ := mag_zero b h0
      simp only [Bits.e, Bits.m, VT.man, VT.exp] at *
      simp only [negZeroBits]; omega
    | f64 =>
      unfold Bits.num at h
      simp only [VT.width] at *
      split at h
      · cases h
      rw [Option.some.injEq] at h
      have h0 : b.mag = 0 := by split at h <;> linarith
      obtain ⟨he, hm⟩ := mag_zero b h0
      simp only [Bits.e, Bits.m, VT.man, VT.exp] at *
      simp only [negZeroBits]; omega
  · intro h
    cases t with
    | int => unfold Bits.num; simp [negZeroBits] at h; simp [h]
    | f32 =>
      have he : b.e = 0 := by rcases h with h | h <;> simp [Bits.e, h, negZeroBits, VT.man, VT.exp]
      have hm : b.m = 0 := by rcases h with h | h <;> simp [Bits.m, h, negZeroBits, VT.man]
      unfold Bits.num
      simp [he, Bits.mag, hm, VT.exp, VT.man]
    | f64 =>
      have he : b.e = 0 := by rcases h with h | h <;> simp [Bits.e, h, negZeroBits, VT.man, VT.exp]
      have hm : b.m = 0 := by rcases h with h | h <;> simp [Bits.m, h, negZeroBits, VT.man]
      unfold Bits.num
      simp [he, Bits.mag, hm, VT.exp, VT.man]

theorem binC_iff (b : Bits t) : ZeroOne b ↔ binC b = true := by
  unfold ZeroOne
  rw [num_zero_iff, num_one_iff]
  cases t <;> simp [binC, negZeroBits, oneBits] <;> tauto

theorem strictC_iff (b : Bits t) : ZeroOneStrict b ↔ strictC b = true := by
  unfold ZeroOneStrict
  rw [num_zero_iff, num_one_iff]
  cases t <;> simp only [strictC, negZeroBits, oneBits, VT.width, Bool.or_eq_true, beq_iff_eq] <;> constructor <;> intro h <;> omega

theorem isOne_iff (b : Bits t) : b.num = some 1 ↔ isOne b = true := by rw [num_one_iff]; simp [isOne]

theorem isnan_iff (b : Bits t) : ¬ b.nan ↔ (!isnan b) = true := by
  have := b.lt
  cases t <;> simp only [Bits.nan, isnan, Bits.e, Bits.m, VT.man, VT.exp, VT.width] at * <;> simp <;> omega

end Nntl.MtxTest
