import Verif.Ttd.Spec
namespace Nntl.Ttd
variable {P : Type}

theorem toVec_id {n : Int} (h0 : 0 ≤ n) (h : n ≤ vmax) : toVec n = n := by
  unfold toVec vmax at *
  rw [Int.bmod_def]
  split <;> omega

theorem mul_of_tmod {m : Int} {k : Nat} (hk : 0 < k) (h0 : 0 ≤ m) (h : m.tmod k = 0) :
    ∃ q : Nat, m = (q * k : Nat) ∧ m.tdiv k = q := by
  obtain ⟨a, rfl⟩ := Int.eq_ofNat_of_zero_le h0
  rw [← Int.ofNat_tmod] at h
  have : a % k = 0 := by omega
  refine ⟨a / k, ?_, ?_⟩
  · rw [Nat.div_mul_cancel (Nat.dvd_of_mod_eq_zero this)]
  · rw [← Int.ofNat_tdiv]

theorem tdiv_mul {q k : Nat} (hk : 0 < k) : ((q * k : Nat) : Int).tdiv k = q := by
  rw [← Int.ofNat_tdiv, Nat.mul_div_cancel _ hk]

theorem tmod_mul {q k : Nat} : ((q * k : Nat) : Int).tmod k = 0 := by
  rw [← Int.ofNat_tmod, Nat.mul_mod_left]; rfl

/-- Invariant of all reachable states. -/
structure Inv (c : Src) (t : TT P) (f b : Nat) : Prop where
  maxF : t.maxF = (f * c.sibs : Nat)
  maxB : t.maxB = (b * c.sibs : Nat)
  le : b ≤ f
  leF : (f : Int) ≤ c.biggest
  leB : b ≤ c.base true
  fit : ((f * c.sibs : Nat) : Int) ≤ vmax
  idxs : b ≠ 0 → t.idxs.Perm (List.range (c.base true))
  perm : t.idxs = [] ∨ t.idxs.Perm (List.range (c.base true))
  cur : 0 ≤ t.cur
  walk : t.walk.isSome → t.excl.isSome

theorem inv_deinit {c : Src} (t : TT P) : Inv c (deinit t) 0 0 where
  maxF := by simp [deinit]
  maxB := by simp [deinit]
  le := Nat.le_refl _
  leF := by simp only [Src.biggest]; omega
  leB := Nat.zero_le _
  fit := by simp [vmax]
  idxs := by simp
  perm := .inl rfl
  cur := by simp [deinit]
  walk := by simp [deinit]

theorem checks_true {c : Src} (hc : c.Fits) {maxF maxB : Int} (h : checks c maxF maxB = true) :
    c.ok = true ∧ ∃ f b : Nat, maxF = (f * c.sibs : Nat) ∧ maxF.tdiv c.sibs = f ∧ maxB = (b * c.sibs : Nat) ∧ maxB.tdiv c.sibs = b := by
  unfold checks at h
  split at h
  · cases h
  next h1 =>
  split at h
  · cases h
  next h2 =>
  split at h
  · cases h
  next h3 =>
  have h2' : 0 ≤ maxF ∧ maxF.tmod c.sibs = 0 := by
    constructor
    · omega
    · by_cases e : maxF.tmod c.sibs = 0
      · exact e
      · exact absurd (Or.inr e) h2
  have h3' : 0 ≤ maxB ∧ maxB.tmod c.sibs = 0 := by
    constructor
    · omega
    · by_cases e : maxB.tmod c.sibs = 0
      · exact e
      · by_cases hp : maxB > 0
        · exact absurd (Or.inr ⟨hp, e⟩) h3
        · have : maxB = 0 := by omega
          subst this; simp
  obtain ⟨f, hf⟩ := mul_of_tmod hc.sibs h2'.1 h2'.2
  obtain ⟨b, hb⟩ := mul_of_tmod hc.sibs h3'.1 h3'.2
  exact ⟨by simpa using h1, f, b, hf.1, hf.2, hb.1, hb.2⟩

theorem checks_mul {c : Src} (hok : c.ok = true) (f b : Nat) : checks c ((f * c.sibs : Nat) : Int) ((b * c.sibs : Nat) : Int) = true := by
  unfold checks
  rw [if_neg (by simp [hok]), if_neg, if_neg]
  · rintro (h | ⟨-, h⟩)
    · omega
    · exact h tmod_mul
  · rintro (h | h)
    · omega
    · exact h tmod_mul

/-- The size used for a request of `r` out of `n` (in base samples). -/
def clampTo (r n : Nat) : Nat := if r = 0 ∨ n < r then n else r

theorem clamp_eq {r n : Nat} (hn : (n : Int) ≤ vmax) :
    (if (r : Int) ≤ 0 ∨ (r : Int) > (n : Int) then toVec n else (r : Int)) = (clampTo r n : Nat) := by
  unfold clampTo
  by_cases h : r = 0 ∨ n < r
  · rw [if_pos (by omega), if_pos h, toVec_id (by omega) hn]
  · rw [if_neg (by omega), if_neg h]

theorem biggest_nat (c : Src) : c.biggest = (max (c.base true) (c.base false) : Nat) := by
  unfold Src.biggest; congr 1

theorem biggest_le {c : Src} (hc : c.Fits) : ((max (c.base true) (c.base false) : Nat) : Int) ≤ vmax := by
  have := hc.base true; have := hc.base false; omega

theorem init4inference_eq {c : Src} (hc : c.Fits) (hok : c.ok = true) (t : TT P) (f : Nat) (fOk : Bool) :
    let g := clampTo f (max (c.base true) (c.base false))
    init4inference c t ((f * c.sibs : Nat) : Int) fOk =
      if ((g * c.sibs : Nat) : Int) > vmax then ⟨deinit t, .tooBigTrainTestSet, (f * c.sibs : Nat), 0, none, [.deinit]⟩
      else ⟨{ deinit t with maxF := (g * c.sibs : Nat) }, if fOk then .success else .otherTdInitError, (g * c.sibs : Nat), 0, none,
        [.deinit, .init g]⟩ := by
  dsimp only
  unfold init4inference
  have h := checks_mul hok f 0
  rw [Nat.zero_mul] at h
  rw [show ((0 : Nat) : Int) = 0 from rfl] at h
  rw [h, if_neg (by simp)]
  dsimp only
  rw [tdiv_mul hc.sibs, biggest_nat, clamp_eq (biggest_le hc), ← Int.natCast_mul]

theorem inv_inference {c : Src} (hc : c.Fits) {t : TT P} {f0 b0 : Nat} (hi : Inv c t f0 b0) (maxF : Int) (fOk : Bool) :
    ∃ f b, Inv c (init4inference c t maxF fOk).t f b := by
  cases hk : checks c maxF 0 with
  | false =>
    unfold init4inference
    simp only [hk]
    exact ⟨f0, b0, hi⟩
  | true =>
    obtain ⟨hok, f, -, rfl, -⟩ := checks_true hc hk
    have he := init4inference_eq hc hok t f fOk
    dsimp only at he
    rw [he]
    split
    · exact ⟨0, 0, inv_deinit t⟩
    next hv =>
      refine ⟨clampTo f (max (c.base true) (c.base false)), 0, rfl, by simp [deinit], Nat.zero_le _, ?_, Nat.zero_le _, by omega, by simp,
        .inl rfl, by simp [deinit], by simp [deinit]⟩
      rw [biggest_nat]
      unfold clampTo
      split <;> omega

theorem init4train_eq {c : Src} (hc : c.Fits) (hok : c.ok = true) (t : TT P) (f b : Nat) (memOk fOk : Bool) :
    let g := clampTo f (max (c.base true) (c.base false))
    let h := clampTo b (c.base true)
    let mini := decide (h < c.base true)
    init4train c t ((f * c.sibs : Nat) : Int) ((b * c.sibs : Nat) : Int) memOk fOk =
      if h > g then ⟨deinit t, .invalidBatchSize2MaxFPropSizeRelation, (f * c.sibs : Nat), (b * c.sibs : Nat), none, [.deinit, .deinit]⟩
      else if ((g * c.sibs : Nat) : Int) > vmax then
        ⟨deinit t, .tooBigTrainTestSet, (f * c.sibs : Nat), (b * c.sibs : Nat), some mini, [.deinit, .deinit]⟩
      else if !memOk then ⟨deinit t, .tdInitNoMemory, (g * c.sibs : Nat), (h * c.sibs : Nat), some mini, [.deinit, .deinit]⟩
      else if fOk then ⟨{ deinit t with maxF := (g * c.sibs : Nat), maxB := (h * c.sibs : Nat), idxs := List.range (c.base true) }, .success,
        (g * c.sibs : Nat), (h * c.sibs : Nat), some mini, [.deinit, .init g]⟩
      else ⟨deinit t, .otherTdInitError, (g * c.sibs : Nat), (h * c.sibs : Nat), some mini, [.deinit, .init g, .deinit]⟩ := by
  dsimp only
  unfold init4train
  rw [if_neg (by rw [checks_mul hok f b]; simp)]
  dsimp only
  rw [tdiv_mul hc.sibs, tdiv_mul hc.sibs, biggest_nat, clamp_eq (biggest_le hc), clamp_eq (hc.base true), ← Int.natCast_mul, ← Int.natCast_mul]
  by_cases h1 : clampTo b (c.base true) > clampTo f (max (c.base true) (c.base false))
  · rw [if_pos (by omega), if_pos h1]; rfl
  · have hle : clampTo b (c.base true) * c.sibs ≤ clampTo f (max (c.base true) (c.base false)) * c.sibs := Nat.mul_le_mul_right _ (by omega)
    have hmax : max ((clampTo f (max (c.base true) (c.base false)) : Nat) : Int) ((clampTo b (c.base true) : Nat) : Int)
        = (clampTo f (max (c.base true) (c.base false)) : Nat) := by omega
    rw [if_neg (by omega), if_neg h1, hmax]
    by_cases h2 : ((clampTo f (max (c.base true) (c.base false)) * c.sibs : Nat) : Int) > vmax
    · rw [if_pos h2, if_pos h2]; simp [deinit]
    · rw [if_neg h2, if_neg h2, if_neg (by omega)]
      cases memOk <;> cases fOk <;> simp [deinit]

theorem inv_train {c : Src} (hc : c.Fits) {t : TT P} {f0 b0 : Nat} (hi : Inv c t f0 b0) (maxF maxB : Int) (memOk fOk : Bool) :
    ∃ f b, Inv c (init4train c t maxF maxB memOk fOk).t f b := by
  cases hk : checks c maxF maxB with
  | false =>
    unfold init4train
    simp only [hk]
    exact ⟨f0, b0, hi⟩
  | true =>
    obtain ⟨hok, f, b, rfl, -, rfl, -⟩ := checks_true hc hk
    have he := init4train_eq hc hok t f b memOk fOk
    dsimp only at he
    rw [he]
    split
    · exact ⟨0, 0, inv_deinit t⟩
    split
    · exact ⟨0, 0, inv_deinit t⟩
    split
    · exact ⟨0, 0, inv_deinit t⟩
    split
    · next h1 h2 h3 h4 =>
      refine ⟨clampTo f (max (c.base true) (c.base false)), clampTo b (c.base true), rfl, rfl, by omega, ?_, ?_, by omega,
        fun _ => .refl _, .inr (.refl _), by simp [deinit], by simp [deinit]⟩
      · rw [biggest_nat]; unfold clampTo; split <;> omega
      · unfold clampTo; split <;> omega
    · exact ⟨0, 0, inv_deinit t⟩

theorem isInit4inference_eq {c : Src} (hc : c.Fits) (t : TT P) (f k : Nat) (hf : t.maxF = (f * c.sibs : Nat)) (hok : c.ok = true) :
    isInit4inference c t ((k * c.sibs : Nat) : Int) =
      if f = 0 ∨ f < k then none else some (((if k = 0 then f else k) * c.sibs : Nat) : Int) := by
  unfold isInit4inference
  dsimp only
  have hs := hc.sibs
  rw [hf]
  by_cases hk : k = 0
  · subst hk
    simp only [Nat.zero_mul, Int.natCast_zero, ne_eq, not_true_eq_false, if_false, if_true, tmod_mul]
    by_cases h : f = 0
    · simp [h]
    · have : f * c.sibs ≠ 0 := Nat.mul_ne_zero h (by omega)
      rw [if_neg (show ¬ (f = 0 ∨ f < 0) by omega), if_neg]
      rintro (h | h | h | h)
      · simp [hok] at h
      · omega
      · omega
      · exact h
  · have hne : k * c.sibs ≠ 0 := Nat.mul_ne_zero hk (by omega)
    rw [if_pos (show ((k * c.sibs : Nat) : Int) ≠ 0 by omega), if_neg hk, tmod_mul]
    by_cases h : f = 0 ∨ f < k
    · rw [if_pos h, if_pos]
      rcases h with h | h
      · simp [h]
      · have := (Nat.mul_lt_mul_right hs).2 h
        right; right; left; omega
    · have h1 : f * c.sibs ≠ 0 := Nat.mul_ne_zero (by omega) (by omega)
      have h2 := Nat.mul_le_mul_right c.sibs (show k ≤ f by omega)
      rw [if_neg h, if_neg]
      rintro (h | h | h | h)
      · simp [hok] at h
      · omega
      · omega
      · exact h rfl

theorem isInit4inference_mul {c : Src} (hc : c.Fits) {t : TT P} {bs r : Int} (h0 : 0 ≤ bs) (h : isInit4inference c t bs = some r) :
    ∃ k : Nat, bs = (k * c.sibs : Nat) := by
  unfold isInit4inference at h
  dsimp only at h
  by_cases hb : bs = 0
  · exact ⟨0, by simp [hb]⟩
  · rw [if_pos hb] at h
    split at h
    · cases h
    next h1 =>
    have : bs.tmod c.sibs = 0 := by
      by_cases e : bs.tmod c.sibs = 0
      · exact e
      · exact absurd (Or.inr (Or.inr (Or.inr e))) h1
    obtain ⟨q, hq, -⟩ := mul_of_tmod hc.sibs h0 this
    exact ⟨q, hq⟩

/-- What a successful `on_next_epoch` did. -/
theorem epoch_cases {c : Src} (hc : c.Fits) {t t1 : TT P} {cd arg n : Int} {shuffle : List Nat → List Nat} {calls : List (Call P)}
    (h : onNextEpoch c t cd arg shuffle = some (t1, n, calls)) : ∃ b : Nat, 0 < b ∧ effBatch t.maxB cd arg = (b * c.sibs : Nat) ∧
      ((b * c.sibs : Nat) : Int) ≤ t.maxB ∧ b ≤ c.base true ∧ n = ((c.base true / b : Nat) : Int) ∧ calls = [.nextEpoch b] ∧
      t1 = { t with walk := none, cur := b, idxs := shuffle t.idxs } := by
  unfold onNextEpoch at h
  dsimp only at h
  split at h
  next hh =>
    obtain ⟨hok, hpos, hle, hlc, hin⟩ := hh
    have hin2 : ∃ r, isInit4inference c t (effBatch t.maxB cd arg) = some r := by
      unfold isInit4train at hin
      cases e : isInit4inference c t (effBatch t.maxB cd arg) with
      | none => rw [e] at hin; simp at hin
      | some r => exact ⟨r, rfl⟩
    obtain ⟨r, hr⟩ := hin2
    obtain ⟨b, hb⟩ := isInit4inference_mul hc (by omega) hr
    rw [hb] at h hpos hle hlc
    have hb0 : 0 < b := by
      rcases Nat.eq_zero_or_pos b with h0 | h0
      · subst h0; simp at hpos
      · exact h0
    have hcnt : c.count true = (c.base true * c.sibs : Nat) := by unfold Src.count; rw [Int.natCast_mul, Int.mul_comm]
    have hbl : b ≤ c.base true := by
      rw [hcnt] at hlc
      exact Nat.le_of_mul_le_mul_right (by omega) hc.sibs
    have hdiv : (c.count true).tdiv ((b * c.sibs : Nat) : Int) = ((c.base true / b : Nat) : Int) := by
      rw [hcnt, ← Int.ofNat_tdiv, Nat.mul_div_mul_right _ _ hc.sibs]
    rw [hdiv, tdiv_mul hc.sibs] at h
    split at h
    · simp only [Option.some.injEq, Prod.mk.injEq] at h
      obtain ⟨h1, h2, h3⟩ := h
      exact ⟨b, hb0, hb, hle, hbl, h2.symm, h3.symm, h1.symm⟩
    · cases h
  · cases h

theorem walk_cases {c : Src} (hc : c.Fits) {t t1 : TT P} {f0 b0 : Nat} (hi : Inv c t f0 b0) {s : Bool} {cd arg n : Int} {e : Excl}
    {calls : List (Call P)} (h : walkOverSet c t s cd arg e = some (t1, n, calls)) : ∃ k b : Nat, 0 < k ∧ 0 < c.base s ∧
      effBatch t.maxF cd arg = (k * c.sibs : Nat) ∧ ((k * c.sibs : Nat) : Int) ≤ t.maxF ∧ b = min k (c.base s) ∧
      n = ((c.base s / b + (if c.base s % b * c.sibs > 1 then 1 else 0) : Nat) : Int) ∧ calls = [.walk s b e] ∧
      t1 = { t with walk := some s, cur := b, excl := some e } := by
  unfold walkOverSet at h
  dsimp only at h
  split at h
  next hh =>
    obtain ⟨hok, hpos, hle, hin, hcp⟩ := hh
    obtain ⟨k, hk⟩ := isInit4inference_mul hc (by omega) hin
    rw [hk] at h hpos hle
    have hcnt : c.count s = (c.base s * c.sibs : Nat) := by unfold Src.count; rw [Int.natCast_mul, Int.mul_comm]
    rw [hcnt] at h hcp
    have hk0 : 0 < k := by
      rcases Nat.eq_zero_or_pos k with h0 | h0
      · subst h0; simp at hpos
      · exact h0
    have hs0 : 0 < c.base s := by
      rcases Nat.eq_zero_or_pos (c.base s) with h0 | h0
      · rw [h0] at hcp; simp at hcp
      · exact h0
    have hbs : (if ((k * c.sibs : Nat) : Int) > ((c.base s * c.sibs : Nat) : Int) then toVec ((c.base s * c.sibs : Nat) : Int)
        else ((k * c.sibs : Nat) : Int)) = ((min k (c.base s) * c.sibs : Nat) : Int) := by
      by_cases hkb : c.base s < k
      · have := (Nat.mul_lt_mul_right hc.sibs).2 hkb
        have hv := hi.fit
        have hm := hi.maxF
        rw [if_pos (by omega), toVec_id (by omega) (by omega), Nat.min_eq_right (by omega)]
      · have := Nat.mul_le_mul_right c.sibs (show k ≤ c.base s by omega)
        rw [if_neg (by omega), Nat.min_eq_left (by omega)]
    rw [hbs] at h
    have hdiv : (((c.base s * c.sibs : Nat) : Int)).tdiv ((min k (c.base s) * c.sibs : Nat) : Int) = ((c.base s / min k (c.base s) : Nat) : Int) := by
      rw [← Int.ofNat_tdiv, Nat.mul_div_mul_right _ _ hc.sibs]
    have hmod : (((c.base s * c.sibs : Nat) : Int)).tmod ((min k (c.base s) * c.sibs : Nat) : Int)
        = ((c.base s % min k (c.base s) * c.sibs : Nat) : Int) := by
      rw [← Int.ofNat_tmod, Nat.mul_mod_mul_right]
    rw [hdiv, hmod, tdiv_mul hc.sibs] at h
    have hn : ((c.base s / min k (c.base s) : Nat) : Int) + (if ((c.base s % min k (c.base s) * c.sibs : Nat) : Int) > 1 then 1 else 0)
        = ((c.base s / min k (c.base s) + (if c.base s % min k (c.base s) * c.sibs > 1 then 1 else 0) : Nat) : Int) := by
      rw [Int.natCast_add]
      congr 1
      by_cases hr : c.base s % min k (c.base s) * c.sibs > 1
      · rw [if_pos (by omega), if_pos hr]; rfl
      · rw [if_neg (by omega), if_neg hr]; rfl
    rw [hn] at h
    rw [Option.ite_none_right_eq_some] at h
    simp only [Option.some.injEq, Prod.mk.injEq] at h
    obtain ⟨-, h1, h2, h3⟩ := h
    exact ⟨k, _, hk0, hs0, hk, hle, rfl, h2.symm, h3.symm, h1.symm⟩
  · cases h

theorem inv_step {c : Src} (hc : c.Fits) {t t' : TT P} {f b : Nat} (hi : Inv c t f b) (h : Step c t t') : ∃ f b, Inv c t' f b := by
  cases h with
  | deinit => exact ⟨0, 0, inv_deinit t⟩
  | train maxF maxB memOk fOk => exact inv_train hc hi ..
  | inference maxF fOk => exact inv_inference hc hi ..
  | epoch hsh h =>
    obtain ⟨k, -, -, -, -, -, -, rfl⟩ := epoch_cases hc h
    refine ⟨f, b, hi.maxF, hi.maxB, hi.le, hi.leF, hi.leB, hi.fit, fun hb => (hsh _).trans (hi.idxs hb), ?_, by dsimp only; omega, by simp⟩
    rcases hi.perm with h0 | h0
    · left
      have := hsh t.idxs
      rw [h0] at this ⊢
      exact List.Perm.eq_nil this
    · exact .inr ((hsh _).trans h0)
  | walk h =>
    obtain ⟨k, d, -, -, -, -, -, -, -, rfl⟩ := walk_cases hc hi h
    exact ⟨f, b, hi.maxF, hi.maxB, hi.le, hi.leF, hi.leB, hi.fit, hi.idxs, hi.perm, by dsimp only; omega, by simp⟩
  | reset => exact ⟨f, b, hi.maxF, hi.maxB, hi.le, hi.leF, hi.leB, hi.fit, hi.idxs, hi.perm, hi.cur, hi.walk⟩
  | fix => exact ⟨f, b, hi.maxF, hi.maxB, hi.le, hi.leF, hi.leB, hi.fit, hi.idxs, hi.perm, hi.cur, hi.walk⟩

theorem inv_fresh {c : Src} : Inv c (fresh : TT P) 0 0 := inv_deinit fresh

theorem reach_inv {c : Src} (hc : c.Fits) {t : TT P} (h : Reach c t) : ∃ f b, Inv c t f b := by
  induction h with
  | fresh => exact ⟨0, 0, inv_fresh⟩
  | step _ hs ih => obtain ⟨f, b, hi⟩ := ih; exact inv_step hc hi hs

end Nntl.Ttd
