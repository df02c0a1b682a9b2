import Verif.Rng.FillProps
import Mathlib.Algebra.Order.Archimedean.Basic
import Mathlib.Data.Rat.Floor
import Mathlib.Tactic.Positivity
import Mathlib.Tactic.NormNum
/-! C108: ranges of random numbers. C111: normal vectors. -/
namespace Nntl.Rng
open Nntl.Threads
variable {σ δ β R : Type}

/-- What is assumed of a generator: numbers from 0 to 1, 1 excluded. -/
def UnitDraws [Field R] [LinearOrder R] (B : Base σ R) : Prop := ∀ s, 0 ≤ (B.real s).1 ∧ (B.real s).1 < 1

theorem filled_all {P : β → Prop} {g : Gen σ δ β} (hg : ∀ d s, P (g d s).1) {W n : Nat} (hW : 0 < W) {d0 : δ} {rngs rngs' : Nat → σ}
    {mem mem' : Nat → β} (h : Filled g d0 W n rngs mem rngs' mem') : ∀ k, k < n → P (mem' k) := by
  intro k hk
  obtain ⟨⟨j, hj, i, hi, rfl⟩, _⟩ := pieces_partition n (crew W n) (crew_pos hW n) k hk
  rw [h.inside j hj i hi]
  exact hg _ _

theorem fill_all {P : β → Prop} {bnd : Nat} {g : Gen σ δ β} (hg : ∀ d s, P (g d s).1) {W : Nat} {ranges : List ParRange} (hp : Pool W ranges)
    {n : Nat} {d0 : δ} {rngs rngs' : Nat → σ} {mem mem' : Nat → β} {sched : List Nat}
    (h : fill bnd g ranges n d0 rngs mem sched = some (rngs', mem')) : ∀ k, k < n → P (mem' k) := by
  have hW : 0 < W := by have := hp.2; omega
  refine filled_all hg ?_ (fill_exact hp h)
  split <;> omega

theorem call_all {P : R → Prop} {bnd : Nat} {g : Gen σ δ R} (hg : ∀ d s, P (g d s).1) {W : Nat} {ranges : List ParRange} (hp : Pool W ranges)
    {n : Nat} {d0 : δ} {m M : Mt σ} {mem : Nat → R} {sched : List Nat} {o : Out R}
    (h : m.filled bnd g d0 ranges n mem sched = some (M, o)) : ∃ xs, o = .reals xs ∧ xs.length = n ∧ ∀ x ∈ xs, P x := by
  unfold Mt.filled at h
  rcases f : fill bnd g ranges n d0 m.rngs mem sched with _ | ⟨R1, A1⟩
  · rw [f] at h; cases h
  · rw [f, Option.map_some, Option.some.injEq, Prod.mk.injEq] at h
    refine ⟨_, h.2.symm, by simp, ?_⟩
    intro x hx
    rw [List.mem_map] at hx
    obtain ⟨k, hk, rfl⟩ := hx
    exact fill_all hg hp f k (List.mem_range.1 hk)

section ranges
variable [Field R] [LinearOrder R] [IsStrictOrderedRing R]

/-- **C108a.** The filling calls of the multi-threaded generator give as many numbers as asked for, all of them in the promised range: `[-a, a)`,
`[neg, pos)`, `[0, 1)`, `[0, a)`, one of the two values. -/
theorem vectors_in_range (E : Env σ δ R) (hu : UnitDraws E.B) {W : Nat} {ranges : List ParRange} (hp : Pool W ranges) (m M : Mt σ)
    (mem : Nat → R) (sched : List Nat) (o : Out R) :
    (∀ n a, 0 ≤ a → m.call E ranges mem sched (.vec n a) = some (M, o) →
      ∃ xs, o = .reals xs ∧ xs.length = n ∧ ∀ x ∈ xs, -a ≤ x ∧ x ≤ a ∧ (0 < a → x < a)) ∧
    (∀ n neg pos, neg ≤ pos → m.call E ranges mem sched (.between n neg pos) = some (M, o) →
      ∃ xs, o = .reals xs ∧ xs.length = n ∧ ∀ x ∈ xs, neg ≤ x ∧ x ≤ pos ∧ (neg < pos → x < pos)) ∧
    (∀ n, m.call E ranges mem sched (.norm n) = some (M, o) → ∃ xs, o = .reals xs ∧ xs.length = n ∧ ∀ x ∈ xs, 0 ≤ x ∧ x < 1) ∧
    (∀ n a, 0 ≤ a → m.call E ranges mem sched (.gtz n a) = some (M, o) →
      ∃ xs, o = .reals xs ∧ xs.length = n ∧ ∀ x ∈ xs, 0 ≤ x ∧ x ≤ a ∧ (0 < a → x < a)) ∧
    (∀ n p pos neg, m.call E ranges mem sched (.bern n p pos neg) = some (M, o) →
      ∃ xs, o = .reals xs ∧ xs.length = n ∧ ∀ x ∈ xs, x = pos ∨ x = neg) := by
  have uni : ∀ (span ofs : R), 0 ≤ span → ∀ (d : Unit) s, ofs ≤ (gUni E.B span ofs d s).1 ∧ (gUni E.B span ofs d s).1 ≤ span + ofs ∧
      (0 < span → (gUni E.B span ofs d s).1 < span + ofs) := by
    intro span ofs hs d s
    obtain ⟨h0, h1⟩ := hu s
    simp only [gUni]
    have a := mul_nonneg h0 hs
    have b := mul_le_mul_of_nonneg_right h1.le hs
    rw [one_mul] at b
    refine ⟨by linarith, by linarith, ?_⟩
    intro hs'
    have c := mul_lt_mul_of_pos_right h1 hs'
    rw [one_mul] at c
    linarith
  refine ⟨?_, ?_, ?_, ?_, ?_⟩
  · intro n a ha h
    refine call_all (P := fun x => -a ≤ x ∧ x ≤ a ∧ (0 < a → x < a)) ?_ hp h
    intro d s
    obtain ⟨k1, k2, k3⟩ := uni (a * 2) (-a) (by linarith) d s
    unfold gSym
    refine ⟨k1, by linarith, ?_⟩
    intro h
    have := k3 (by linarith)
    linarith
  · intro n neg pos hle h
    refine call_all (P := fun x => neg ≤ x ∧ x ≤ pos ∧ (neg < pos → x < pos)) ?_ hp h
    intro d s
    obtain ⟨k1, k2, k3⟩ := uni (pos - neg) neg (by linarith) d s
    unfold gBetween
    refine ⟨k1, by linarith, ?_⟩
    intro h
    have := k3 (by linarith)
    linarith
  · intro n h
    exact call_all (P := fun x => 0 ≤ x ∧ x < 1) (fun d s => hu s) hp h
  · intro n a ha h
    refine call_all (P := fun x => 0 ≤ x ∧ x ≤ a ∧ (0 < a → x < a)) ?_ hp h
    intro d s
    obtain ⟨k1, k2, k3⟩ := uni a 0 ha d s
    simp only [gUni, add_zero] at k1 k2 k3
    exact ⟨k1, k2, k3⟩
  · intro n p pos neg h
    refine call_all (P := fun x => x = pos ∨ x = neg) ?_ hp h
    intro d s
    simp only [gBern]
    split
    · exact Or.inl rfl
    · exact Or.inr rfl

/-- **C108k.** A Bernoulli vector: never the first value with probability 0, always with probability 1, and with the same streams every
element that has the first value keeps it when the probability grows. -/
theorem bernoulli_follows_probability (B : Base σ R) (hu : UnitDraws B) (p q pos neg : R) (hne : pos ≠ neg) (d : Unit) (s : σ) :
    (p ≤ 0 → (gBern B p pos neg d s).1 = neg) ∧ (1 ≤ p → (gBern B p pos neg d s).1 = pos) ∧
    (p ≤ q → (gBern B p pos neg d s).1 = pos → (gBern B q pos neg d s).1 = pos) ∧
    ((gBern B p pos neg d s).1 = pos ↔ (gNorm B d s).1 < p) ∧ (gBern B p pos neg d s).2 = (gNorm B d s).2 ∧
    gBernOf (gNorm B) p pos neg d s = gBern B p pos neg d s := by
  obtain ⟨u0, u1⟩ := hu s
  have e : (gBern B p pos neg d s).1 = pos ↔ (gNorm B d s).1 < p := by
    simp only [gBern, gNorm]
    by_cases h : (B.real s).1 < p
    · rw [if_pos h]; exact ⟨fun _ => h, fun _ => rfl⟩
    · rw [if_neg h]; exact ⟨fun k => absurd k hne.symm, fun k => absurd k h⟩
  refine ⟨?_, ?_, ?_, e, rfl, rfl⟩
  · intro h; simp only [gBern]; rw [if_neg]; exact not_lt.2 (le_trans h u0)
  · intro h; simp only [gBern]; rw [if_pos]; exact lt_of_lt_of_le u1 h
  · intro h k
    have := e.1 k
    simp only [gBern, gNorm] at this ⊢
    rw [if_pos (lt_of_lt_of_le this h)]

/-- **C108m.** The ranges are covered evenly: an element is at most `x` exactly if the uniform number from the same stream is at most the share of the
range below `x`; an integer is `k` exactly if the uniform number is in the `k`-th of `a` equal parts. The stream moves on in the same way. -/
theorem ranges_covered_evenly [FloorRing R] (B : Base σ R) (C : CRand σ) (a neg pos x : R) (ha : 0 < a) (hlt : neg < pos) (d : Unit) (s : σ) :
    ((gSym B a d s).1 ≤ x ↔ (gNorm B d s).1 ≤ (x + a) / (2 * a)) ∧
    ((gBetween B neg pos d s).1 ≤ x ↔ (gNorm B d s).1 ≤ (x - neg) / (pos - neg)) ∧
    ((gGtz B a d s).1 ≤ x ↔ (gNorm B d s).1 ≤ x / a) ∧
    ((gAf B a d s).1 ≤ x ↔ (gNorm B d s).1 ≤ (x + a) / (2 * a)) ∧
    ((C.sym a d s).1 ≤ x ↔ (C.norm (R := R) d s).1 ≤ (x + a) / (2 * a)) ∧
    ((C.gtz a d s).1 ≤ x ↔ (C.norm (R := R) d s).1 ≤ x / a) ∧
    (∀ n k : Int, 0 < n → ((gGtzInt B n d s).1 = k ↔ (k : R) / n ≤ (gNorm B d s).1 ∧ (gNorm B d s).1 < ((k : R) + 1) / n)) ∧
    (∀ n k : Int, 0 < n → ((C.gtzInt (R := R) n d s).1 = k ↔ (k : R) / n ≤ (C.norm (R := R) d s).1 ∧ (C.norm (R := R) d s).1 < ((k : R) + 1) / n)) ∧
    (∀ n : Int, (gSym B a d s).2 = (gNorm B d s).2 ∧ (gBetween B neg pos d s).2 = (gNorm B d s).2 ∧ (gGtz B a d s).2 = (gNorm B d s).2 ∧
      (gAf B a d s).2 = (gNorm B d s).2 ∧ (gGtzInt B n d s).2 = (gNorm B d s).2 ∧ (C.sym a d s).2 = (C.norm (R := R) d s).2 ∧
      (C.gtz a d s).2 = (C.norm (R := R) d s).2 ∧ (C.gtzInt (R := R) n d s).2 = (C.norm (R := R) d s).2) := by
  have h2 : (0 : R) < 2 * a := by linarith
  have hd : (0 : R) < pos - neg := by linarith
  simp only [gSym, gUni, gBetween, gGtz, gAf, gGtzInt, gNorm, CRand.sym, CRand.gtz, CRand.norm, CRand.gtzInt]
  generalize (B.real s).1 = u
  generalize ((C.rand s).1 : R) / (C.max : R) = w
  rw [le_div_iff₀ h2, le_div_iff₀ hd, le_div_iff₀ ha, le_div_iff₀ h2, le_div_iff₀ ha]
  refine ⟨?_, ?_, Iff.rfl, ?_, ?_, ?_, ?_, ?_, fun _ => by simp⟩
  · constructor <;> intro h <;> linarith
  · constructor <;> intro h <;> linarith
  · constructor <;> intro h <;> linarith
  · constructor <;> intro h <;> linarith
  · rw [mul_comm]
  · intro n k hn
    have hn' : (0 : R) < (n : R) := by exact_mod_cast hn
    rw [Int.floor_eq_iff, div_le_iff₀ hn', lt_div_iff₀ hn']
  · intro n k hn
    have hn' : (0 : R) < (n : R) := by exact_mod_cast hn
    rw [Int.floor_eq_iff, div_le_iff₀ hn', lt_div_iff₀ hn', mul_comm]

/-- **C108l.** Single numbers come from the stream of the main thread, and no other stream moves. -/
theorem single_numbers (E : Env σ δ R) (hu : UnitDraws E.B) (ranges : List ParRange) (m : Mt σ) (mem : Nat → R) (sched : List Nat) (o : Op R)
    (ho : (∃ k, o = .genI k) ∨ o = .genInt ∨ ∃ a, o = .genF a) :
    ∃ M x, m.call E ranges mem sched o = some (M, x) ∧ (∀ t, t ≠ 0 → M.rngs t = m.rngs t) ∧ M.lastSeed = m.lastSeed ∧
      (∀ a, o = .genF a → 0 ≤ a → ∃ y, x = .real y ∧ 0 ≤ y ∧ y ≤ a ∧ (0 < a → y < a) ∧ M.rngs 0 = (E.B.real (m.rngs 0)).2) := by
  have keep : ∀ (v : σ) t, t ≠ 0 → put m.rngs 0 v t = m.rngs t := fun v t ht => if_neg ht
  rcases ho with ⟨k, rfl⟩ | rfl | ⟨a, rfl⟩
  · exact ⟨_, _, rfl, fun t ht => keep _ t ht, rfl, fun a h => by cases h⟩
  · exact ⟨_, _, rfl, fun t ht => keep _ t ht, rfl, fun a h => by cases h⟩
  · refine ⟨_, _, rfl, fun t ht => keep _ t ht, rfl, ?_⟩
    intro a' h ha
    cases h
    obtain ⟨u0, u1⟩ := hu (m.rngs 0)
    have h2 := mul_le_mul_of_nonneg_left u1.le ha
    refine ⟨_, rfl, mul_nonneg ha u0, by linarith, ?_, rfl⟩
    intro h3
    have := mul_lt_mul_of_pos_left u1 h3
    linarith

/-- **C108b.** With rounding the numbers of `gen_vector(ptr, n, a)` still stay in `[-a, a]`, for every way to round that keeps order, zero and
the limits. -/
theorem symmetric_vector_in_range_rounded (B : Base σ R) (hu : UnitDraws B) (rp rs : R → R) (hp : Monotone rp) (hs : Monotone rs) (a : R) (ha : 0 ≤ a)
    (h0 : rp 0 = 0) (h2 : rp (a * 2) = a * 2) (hn : rs (-a) = -a) (hpos : rs a = a) (d : Unit) (s : σ) :
    -a ≤ (gSymRnd B rp rs a d s).1 ∧ (gSymRnd B rp rs a d s).1 ≤ a := by
  obtain ⟨u0, u1⟩ := hu s
  simp only [gSymRnd, gUniRnd]
  have e0 : 0 ≤ (B.real s).1 * (a * 2) := mul_nonneg u0 (by linarith)
  have e1 : (B.real s).1 * (a * 2) ≤ a * 2 := by
    have := mul_le_mul_of_nonneg_right u1.le (show (0:R) ≤ a * 2 by linarith)
    rwa [one_mul] at this
  have f0 := hp e0
  have f1 := hp e1
  rw [h0] at f0
  rw [h2] at f1
  refine ⟨?_, ?_⟩
  · have := hs (show -a ≤ rp ((B.real s).1 * (a * 2)) + -a by linarith)
    rwa [hn] at this
  · have := hs (show rp ((B.real s).1 * (a * 2)) + -a ≤ a by linarith)
    rwa [hpos] at this

/-- **C108c.** Integers of `gen_vector_gtz` are below the bound (and with the bound 0 all are 0). -/
theorem gtz_integers_below [FloorRing R] (B : Base σ R) (hu : UnitDraws B) (a : Int) (d : Unit) (s : σ) :
    (0 < a → 0 ≤ (gGtzInt B a d s).1 ∧ (gGtzInt B a d s).1 < a) ∧ (a = 0 → (gGtzInt B a d s).1 = 0) := by
  obtain ⟨u0, u1⟩ := hu s
  simp only [gGtzInt]
  refine ⟨?_, ?_⟩
  · intro ha
    have ha' : (0 : R) < (a : R) := by exact_mod_cast ha
    refine ⟨Int.floor_nonneg.2 (mul_nonneg u0 ha'.le), ?_⟩
    rw [Int.floor_lt]
    have := mul_lt_mul_of_pos_right u1 ha'
    rwa [one_mul] at this
  · rintro rfl; simp

/-- **C108d.** The generator of one thread: `[-a, a]`. -/
theorem afrand_symmetric_in_range (B : Base σ R) (hu : UnitDraws B) (a : R) (ha : 0 ≤ a) (d : Unit) (s : σ) :
    -a ≤ (gAf B a d s).1 ∧ (gAf B a d s).1 ≤ a := by
  obtain ⟨u0, u1⟩ := hu s
  simp only [gAf]
  have h1 : 2 * a * ((B.real s).1 - 1 / 2) = a * (2 * (B.real s).1 - 1) := by ring
  rw [h1]
  have := mul_nonneg ha u0
  have h2 := mul_le_mul_of_nonneg_left u1.le ha
  constructor <;> nlinarith

/-- **C108e.** The generator of the C library: the upper limits are reached (`_rand()` may give `_rand_max()`), also by integers. -/
theorem cstd_in_range (C : CRand σ) (hC : ∀ s, (C.rand s).1 ≤ C.max) (hm : 0 < C.max) (a : R) (ha : 0 ≤ a) (d : Unit) (s : σ) :
    (0 ≤ (C.norm (R := R) d s).1 ∧ (C.norm (R := R) d s).1 ≤ 1) ∧ (-a ≤ (C.sym a d s).1 ∧ (C.sym a d s).1 ≤ a) ∧
      (0 ≤ (C.gtz a d s).1 ∧ (C.gtz a d s).1 ≤ a) ∧
      ((C.rand s).1 = C.max → (C.norm (R := R) d s).1 = 1 ∧ (C.sym a d s).1 = a ∧ (C.gtz a d s).1 = a) := by
  have hm' : (0 : R) < (C.max : R) := by exact_mod_cast hm
  have h0 : (0 : R) ≤ ((C.rand s).1 : R) / (C.max : R) := by positivity
  have h1 : ((C.rand s).1 : R) / (C.max : R) ≤ 1 := by
    rw [div_le_one hm']; exact_mod_cast hC s
  simp only [CRand.norm, CRand.sym, CRand.gtz]
  have k := mul_nonneg ha h0
  have k2 := mul_le_mul_of_nonneg_left h1 ha
  refine ⟨⟨h0, h1⟩, ⟨?_, ?_⟩, ⟨k, ?_⟩, ?_⟩
  · nlinarith
  · nlinarith
  · linarith
  · intro e
    rw [e, div_self hm'.ne']
    refine ⟨rfl, by ring, by ring⟩

end ranges

/-- **C108f.** With rounding, `gen_vector(ptr, n, neg, pos)` can leave its range: the difference of the limits is rounded up. Here numbers below
1 are rounded to eighths and others to quarters. -/
theorem between_leaves_range_rounded : ∃ (rnd : Rat → Rat) (B : Base Unit Rat) (neg pos : Rat), Monotone rnd ∧ rnd neg = neg ∧ rnd pos = pos ∧
    rnd 0 = 0 ∧ UnitDraws B ∧ neg < pos ∧ pos < (gBetweenRnd B rnd rnd neg pos () ()).1 := by
  refine ⟨fun x => if x < 1 then (⌊8 * x + 1 / 2⌋ : Rat) / 8 else (⌊4 * x + 1 / 2⌋ : Rat) / 4,
    ⟨fun _ => (), fun _ _ => (), fun _ => (15 / 16, ()), fun _ => (0, ()), fun _ _ _ => (0, ())⟩, -1, 3 / 8, ?_, ?_, ?_, ?_, ?_, ?_, ?_⟩
  · intro x y h
    dsimp only
    have cast : ∀ a b : Int, a ≤ b → (a : Rat) ≤ (b : Rat) := fun a b h => by exact_mod_cast h
    split
    · split
      · have := cast _ _ (Int.floor_le_floor (show 8 * x + 1 / 2 ≤ 8 * y + 1 / 2 by linarith))
        linarith
      · rename_i h1 h2
        have a : ⌊8 * x + 1 / 2⌋ ≤ 8 := by
          have : ⌊8 * x + 1 / 2⌋ < 9 := by rw [Int.floor_lt]; push_cast; linarith
          omega
        have b : 4 ≤ ⌊4 * y + 1 / 2⌋ := by rw [Int.le_floor]; push_cast; linarith
        have a' := cast _ _ a
        have b' := cast _ _ b
        push_cast at a' b'
        linarith
    · split
      · rename_i h1 h2; exact absurd (lt_of_le_of_lt h h2) h1
      · have := cast _ _ (Int.floor_le_floor (show 4 * x + 1 / 2 ≤ 4 * y + 1 / 2 by linarith))
        linarith
  · norm_num
  · norm_num
  · norm_num
  · intro s; norm_num
  · norm_num
  · simp only [gBetweenRnd, gUniRnd]; norm_num

/-- **C108g.** Integers of the C library's generator can be equal to the bound, so they are no valid indices. -/
theorem cstd_integers_reach_bound (C : CRand σ) (hm : 0 < C.max) (a : Int) (s : σ) (h : (C.rand s).1 = C.max) :
    (C.gtzInt (R := Rat) a () s).1 = a := by
  simp only [CRand.gtzInt]
  have : ((C.max : Nat) : Rat) ≠ 0 := by exact_mod_cast hm.ne'
  rw [h, div_self this, mul_one, Int.floor_intCast]

/-! ### Integers below a bound -/

/-- What is assumed of `IRandomX(min, max)`: numbers from `min` to `max`, the error value (the smallest `int`) if there are none. -/
def IRandOk (B : Base σ R) : Prop := ∀ s lo hi, (lo ≤ hi → lo ≤ (B.irandX s lo hi).1 ∧ (B.irandX s lo hi).1 ≤ hi) ∧
  (hi < lo → (B.irandX s lo hi).1 = -2147483648)

/-- **C108h.** `gen_i(k)` gives a number of `[0, k)` as long as `k` does not exceed `2^31`. -/
theorem gen_i_below (B : Base σ R) (hB : IRandOk B) (s : σ) (k : Int) (h0 : 0 < k) (h1 : k ≤ 2147483648) :
    0 ≤ (genI B s k).1 ∧ (genI B s k).1 < k := by
  unfold genI
  have e : toInt32 (k - 1) = k - 1 := by unfold toInt32; omega
  rw [e]
  have := (hB s 0 (k - 1)).1 (by omega)
  omega

/-- **C108i.** Beyond that it gives a negative number, up to `2^32`, and after that numbers of a much smaller range (release build). -/
theorem gen_i_too_big (B : Base σ R) (hB : IRandOk B) (s : σ) (k : Int) :
    (2147483648 < k → k ≤ 4294967296 → (genI B s k).1 = -2147483648) ∧
    (0 < k → k ≤ 2147483648 → 0 ≤ (genI B s (k + 4294967296)).1 ∧ (genI B s (k + 4294967296)).1 < k) := by
  refine ⟨?_, ?_⟩
  · intro h0 h1
    unfold genI
    refine (hB s 0 _).2 ?_
    unfold toInt32; omega
  · intro h0 h1
    have e : toInt32 (k + 4294967296 - 1) = toInt32 (k - 1) := by unfold toInt32; omega
    have := gen_i_below B hB s k h0 h1
    unfold genI at this ⊢
    rw [e]; exact this

/-- **C108j.** `CStd::gen_i(k)`: a number of `[0, k)`, but never one above `_rand_max()` (32767 with the Microsoft library), so long arrays are not
shuffled as a whole. -/
theorem cstd_gen_i (C : CRand σ) (hC : ∀ s, (C.rand s).1 ≤ C.max) (s : σ) (k : Nat) :
    (k = 0 → C.genI s k = none) ∧ (0 < k → ∃ v s', C.genI s k = some (v, s') ∧ v < k ∧ v ≤ C.max) := by
  unfold CRand.genI
  refine ⟨fun h => if_pos h, ?_⟩
  intro h
  rw [if_neg (by omega)]
  exact ⟨_, _, rfl, Nat.mod_lt _ h, le_trans (Nat.mod_le _ _) (hC s)⟩

/-! ### Bits for distributions -/

/-- **C111a.** The bits of Agner Fog's generators (32 of them, without sign) make numbers from 0 to 1, 1 excluded. -/
theorem canonical_unit (lo hi : Int) (hlo : lo ≤ hi) (xs : List Int) (h : ∀ x ∈ xs, lo ≤ x ∧ x ≤ hi) :
    0 ≤ canonical lo hi xs ∧ canonical lo hi xs < 1 := by
  have key : ∀ xs : List Int, (∀ x ∈ xs, lo ≤ x ∧ x ≤ hi) →
      0 ≤ canonNum lo hi xs ∧ canonNum lo hi xs + 1 ≤ (hi - lo + 1) ^ xs.length := by
    intro xs
    induction xs with
    | nil => intro _; simp [canonNum]
    | cons x xs ih =>
      intro h
      obtain ⟨a, b⟩ := ih (fun y hy => h y (List.mem_cons_of_mem _ hy))
      obtain ⟨c, d⟩ := h x List.mem_cons_self
      simp only [canonNum, List.length_cons, pow_succ]
      have hr : 0 < hi - lo + 1 := by omega
      refine ⟨?_, ?_⟩
      · have := mul_nonneg hr.le a; omega
      · have := mul_le_mul_of_nonneg_left b hr.le
        nlinarith
  obtain ⟨a, b⟩ := key xs h
  unfold canonical
  have hr : (0 : Rat) < ((hi - lo + 1 : Int) : Rat) := by exact_mod_cast (by omega : (0:Int) < hi - lo + 1)
  have hp : (0 : Rat) < ((hi - lo + 1 : Int) : Rat) ^ xs.length := pow_pos hr _
  refine ⟨div_nonneg (by exact_mod_cast a) hp.le, ?_⟩
  rw [div_lt_one hp]
  have : (canonNum lo hi xs : Rat) + 1 ≤ ((hi - lo + 1 : Int) : Rat) ^ xs.length := by exact_mod_cast b
  linarith

/-- **C111b.** The numbers of the C library are never negative, but `min()` is the smallest `int`: whatever is made of them lies in
`[1/2, 1/2 + (RAND_MAX+1)/2^32)`. Distributions over `CStd` see next to no randomness. -/
theorem cstd_canonical_stuck (M : Int) (xs : List Int) (hne : xs ≠ []) (h : ∀ x ∈ xs, 0 ≤ x ∧ x ≤ M) (hM : M ≤ 2147483647) :
    1 / 2 ≤ canonical (-2147483648) 2147483647 xs ∧
    canonical (-2147483648) 2147483647 xs < 1 / 2 + (M + 1) / 4294967296 := by
  have key : ∀ xs : List Int, xs ≠ [] → (∀ x ∈ xs, 0 ≤ x ∧ x ≤ M) →
      2147483648 * 4294967296 ^ (xs.length - 1) ≤ canonNum (-2147483648) 2147483647 xs ∧
      canonNum (-2147483648) 2147483647 xs + 1 ≤ (2147483648 + M + 1) * 4294967296 ^ (xs.length - 1) := by
    intro xs
    induction xs with
    | nil => intro h; exact absurd rfl h
    | cons x xs ih =>
      intro _ h
      obtain ⟨c, d⟩ := h x List.mem_cons_self
      cases xs with
      | nil => simp [canonNum]; omega
      | cons y ys =>
        obtain ⟨a, b⟩ := ih (by simp) (fun z hz => h z (List.mem_cons_of_mem _ hz))
        simp only [List.length_cons, Nat.add_sub_cancel] at a b ⊢
        rw [show canonNum (-2147483648) 2147483647 (x :: y :: ys) = (x - -2147483648) + (2147483647 - -2147483648 + 1) *
          canonNum (-2147483648) 2147483647 (y :: ys) from rfl]
        generalize canonNum (-2147483648) 2147483647 (y :: ys) = N at *
        rw [pow_succ]
        generalize (4294967296 : Int) ^ ys.length = P at *
        constructor
        · nlinarith
        · nlinarith
  obtain ⟨a, b⟩ := key xs hne h
  unfold canonical
  have hl : 0 < xs.length := List.length_pos_iff.2 hne
  have e : (((2147483647 - -2147483648 + 1 : Int) : Rat)) ^ xs.length = 4294967296 * 4294967296 ^ (xs.length - 1) := by
    rw [← pow_succ', show xs.length - 1 + 1 = xs.length by omega]; norm_num
  rw [e]
  have hP : (0 : Rat) < 4294967296 ^ (xs.length - 1) := by positivity
  have a' : (2147483648 : Rat) * 4294967296 ^ (xs.length - 1) ≤ (canonNum (-2147483648) 2147483647 xs : Rat) := by exact_mod_cast a
  have b' : (canonNum (-2147483648) 2147483647 xs : Rat) + 1 ≤ (2147483648 + M + 1) * 4294967296 ^ (xs.length - 1) := by exact_mod_cast b
  generalize (4294967296 : Rat) ^ (xs.length - 1) = P at *
  constructor
  · rw [le_div_iff₀ (by positivity)]; linarith
  · rw [div_lt_iff₀ (by positivity)]
    have : (1 / 2 + ((M : Rat) + 1) / 4294967296) * (4294967296 * P) = (2147483648 + M + 1) * P := by ring
    rw [this]; linarith

/-! ### Normal vectors -/

/-- **C111c (full property, for the multi-threaded generator).** `normal_vector(ptr, n, m, st)`: every element is `m + st * z`, `z` a standard normal
deviate of the stream of its thread. -/
theorem mt_normal_vector [Field R] [LinearOrder R] (E : Env σ δ R) {W : Nat} {ranges : List ParRange} (hp : Pool W ranges) (m : Mt σ) (mem : Nat → R)
    (sched : List Nat) (n : Nat) (mean st : R) (M : Mt σ) (o : Out R) (h : m.call E ranges mem sched (.normal n mean st) = some (M, o)) :
    ∃ xs, o = .reals xs ∧ xs.length = n ∧ ∀ x ∈ xs, ∃ d s, x = mean + st * (E.std d s).1 :=
  call_all (P := fun x => ∃ d s, x = mean + st * (E.std d s).1) (fun d s => ⟨d, s, rfl⟩) hp h

/-- The normal deviates of a stream. -/
def deviate (std : δ → σ → R × δ × σ) (d0 : δ) (s : σ) (k : Nat) : R := elem std d0 s k

/-- **C111d.** The same call of the generators of one thread (`AFRand`, `CStd`) ignores `st`: the length of the vector takes its place. -/
theorem helper_normal_vector_partial [Field R] (std : δ → σ → R × δ × σ) (d0 : δ) (n : Nat) (mean st : R) (s : σ) (mem : Nat → R) :
    (∀ k, k < n → (helperNormal std d0 n mean st s mem).2 k = mean + (n : R) * deviate std d0 s k) ∧
    ∀ k, n ≤ k → (helperNormal std d0 n mean st s mem).2 k = mem k := by
  obtain ⟨_, h2, h3⟩ := loop_eq (gNormal std mean (n : R)) n 0 d0 s mem
  have st_eq : ∀ k, after (gNormal std mean (n : R)) d0 s k = after std d0 s k := by
    intro k
    induction k with
    | zero => rfl
    | succ k ih => simp only [after, ih]; rfl
  refine ⟨?_, ?_⟩
  · intro k hk
    have := h2 k hk
    rw [Nat.zero_add] at this
    unfold helperNormal
    rw [this]
    simp only [elem, st_eq, deviate]
    rfl
  · intro k hk; exact h3 k (Or.inr (by omega))

/-- **C111e.** So the vector has not the deviation asked for: a witness. -/
theorem helper_normal_vector_wrong : ∃ (std : Unit → Nat → Rat × Unit × Nat) (st : Rat),
    (helperNormal std () 3 0 st 1 (fun _ => 0)).2 0 ≠ 0 + st * deviate std () 1 0 :=
  ⟨fun _ s => ((s : Rat), (), s + 1), 1, by
    have := (helper_normal_vector_partial (fun (_ : Unit) (s : Nat) => ((s : Rat), (), s + 1)) () 3 (0 : Rat) 1 1 (fun _ => 0)).1 0 (by omega)
    rw [this]
    simp only [deviate, elem, after]
    norm_num⟩

/- Non-vacuity. -/
example : UnitDraws (⟨fun _ => (), fun _ _ => (), fun _ => (15 / 16, ()), fun _ => (0, ()), fun _ _ _ => (0, ())⟩ : Base Unit Rat) := by
  intro s; norm_num
example : IRandOk toy := by
  intro s lo hi
  simp only [toy]
  refine ⟨?_, fun h => if_pos h⟩
  intro h
  rw [if_neg (by omega)]
  have := Int.emod_nonneg (s.2 : Int) (show hi - lo + 1 ≠ 0 by omega)
  have := Int.emod_lt_of_pos (s.2 : Int) (show 0 < hi - lo + 1 by omega)
  omega
example : canonical (-2147483648) 2147483647 [41, 18467] = 9223451354163314729 / 18446744073709551616 := by
  norm_num [canonical, canonNum]

end Nntl.Rng
