import Verif.Text.Spec
/-! Lengths and values of printed numbers. -/
namespace Nntl.Text

theorem padL_length (c : Char) (w : Nat) (t : Text) : (padL c w t).length = max w t.length := by
  simp only [padL, List.length_append, List.length_replicate]; omega

theorem padR_length (w : Nat) (t : Text) : (padR w t).length = max w t.length := by
  simp only [padR, List.length_append, List.length_replicate]; omega

theorem padL_ex (c : Char) (w : Nat) (t : Text) : ∃ k, padL c w t = List.replicate k c ++ t := ⟨_, rfl⟩

theorem padR_ex (w : Nat) (t : Text) : ∃ k, padR w t = t ++ List.replicate k ' ' := ⟨_, rfl⟩

theorem spaced_length (t : Text) : (spaced t).length ≤ t.length + 1 := by
  unfold spaced; split
  · omega
  · simp

theorem digits_le {n k : Nat} (hk : 0 < k) (h : n < 10 ^ k) : (Nat.toDigits 10 n).length ≤ k :=
  (Nat.length_toDigits_le_iff (by decide) hk).2 h

theorem digits_ge {n k : Nat} (h : 10 ^ k ≤ n) : k + 1 ≤ (Nat.toDigits 10 n).length := by
  rcases Nat.eq_zero_or_pos k with h0 | h0
  · subst h0
    exact Nat.length_toDigits_pos
  · have := mt (Nat.length_toDigits_le_iff (n := n) (b := 10) (by decide) h0).1
    have := this (by omega)
    omega

theorem intText_nat (n : Nat) : intText (n : Int) = Nat.toDigits 10 n := rfl

/-- An integer of magnitude below `10 ^ k` has at most `k` digits and a sign. -/
theorem intText_length (k : Nat) (hk : 0 < k) (z : Int) (h : z.natAbs < 10 ^ k) : (intText z).length ≤ (if z < 0 then 1 else 0) + k := by
  cases z with
  | ofNat n =>
    rw [if_neg (by simp)]
    have := digits_le hk (show n < 10 ^ k from h)
    show (Nat.toDigits 10 n).length ≤ _
    omega
  | negSucc n =>
    rw [if_pos (by omega)]
    have := digits_le hk (show n + 1 < 10 ^ k from h)
    show (Nat.toDigits 10 (n + 1)).length + 1 ≤ _
    omega

theorem nearest_le (up : Nat → Bool) (a d m : Nat) (hd : 0 < d) (h : a ≤ m * d) : nearest up a d ≤ m := by
  have e := Nat.div_add_mod a d
  have hr := Nat.mod_lt a hd
  have hq : a / d ≤ m := Nat.div_le_of_le_mul (by rw [Nat.mul_comm]; exact h)
  unfold nearest
  rcases Nat.lt_or_ge (a / d) m with hlt | hge
  · split
    · omega
    · split
      · omega
      · split <;> omega
  · have hm : a / d = m := Nat.le_antisymm hq hge
    have : a % d = 0 := by
      rw [hm, Nat.mul_comm] at e
      omega
    rw [if_pos (by omega)]
    omega

theorem nearest_near (up : Nat → Bool) (a d : Nat) (hd : 0 < d) :
    2 * (nearest up a d * d) ≤ 2 * a + d ∧ 2 * a ≤ 2 * (nearest up a d * d) + d := by
  have e := Nat.div_add_mod a d
  have hr := Nat.mod_lt a hd
  have e1 : (a / d) * d = d * (a / d) := Nat.mul_comm _ _
  have e2 : (a / d + 1) * d = d * (a / d) + d := by rw [Nat.add_mul, Nat.one_mul, Nat.mul_comm]
  unfold nearest
  split
  · rw [e1]; omega
  · split
    · rw [e2]; omega
    · split
      · rw [e2]; omega
      · rw [e1]; omega

theorem digits_all (n : Nat) : ∀ c ∈ Nat.toDigits 10 n, c.isDigit = true :=
  fun _ h => Nat.isDigit_of_mem_toDigits (by decide) (by decide) h

theorem frac_length (p n : Nat) (hp : 0 < p) : (padL '0' p (Nat.toDigits 10 (n % 10 ^ p))).length = p := by
  rw [padL_length]
  have := digits_le hp (Nat.mod_lt n (Nat.pow_pos (by decide : 0 < 10) (n := p)))
  omega

theorem frac_value (p n : Nat) (i : Nat) (hp : 0 < p) :
    Nat.ofDigitChars 10 (padL '0' p (Nat.toDigits 10 (n % 10 ^ p))) i = 10 ^ p * i + n % 10 ^ p := by
  rw [Nat.ofDigitChars_eq_ofDigitChars_zero, frac_length p n hp]
  simp [padL, Nat.ofDigitChars_append]

theorem isDigit_zero : '0'.isDigit = true := by decide

theorem padL_digits (w : Nat) (t : Text) (h : ∀ c ∈ t, c.isDigit = true) : ∀ c ∈ padL '0' w t, c.isDigit = true := by
  intro c hc
  rcases List.mem_append.1 hc with h1 | h1
  · rw [(List.mem_replicate.1 h1).2]; exact isDigit_zero
  · exact h c h1

/-- A printed number in two parts. -/
theorem fixed_eq (p n : Nat) (hp : 0 < p) : ∃ ip fp, fixed p n = ip ++ '.' :: fp ∧ (∀ c ∈ ip ++ fp, c.isDigit = true) ∧ ip ≠ [] ∧ fp.length = p ∧
    Nat.ofDigitChars 10 (ip ++ fp) 0 = n ∧ ip = Nat.toDigits 10 (n / 10 ^ p) := by
  refine ⟨_, _, rfl, ?_, Nat.toDigits_ne_nil, frac_length p n hp, ?_, rfl⟩
  · intro c hc
    rcases List.mem_append.1 hc with h | h
    · exact digits_all _ c h
    · exact padL_digits _ _ (digits_all _) c h
  · rw [Nat.ofDigitChars_append, Nat.ofDigitChars_ten_toDigits, frac_value p n _ hp]
    exact Nat.div_add_mod n (10 ^ p)

theorem fixed_length (p n : Nat) (hp : 0 < p) : (fixed p n).length = (Nat.toDigits 10 (n / 10 ^ p)).length + 1 + p := by
  unfold fixed
  rw [List.length_append, List.length_cons, frac_length p n hp]
  omega

/-- The number printed of a magnitude below `10 ^ k` is below `10 ^ k`. -/
theorem whole_lt (up : Nat → Bool) (k p a d : Nat) (hd : 0 < d) (h : a + d ≤ 10 ^ k * d) : nearest up (a * 10 ^ p) d / 10 ^ p < 10 ^ k := by
  have hp : 0 < 10 ^ p := Nat.pow_pos (by decide)
  have hk : 1 ≤ 10 ^ k := Nat.pow_pos (by decide)
  have h1 : a ≤ (10 ^ k - 1) * d := by
    rw [Nat.sub_mul, Nat.one_mul]
    omega
  have h2 : nearest up (a * 10 ^ p) d ≤ (10 ^ k - 1) * 10 ^ p := by
    apply nearest_le up _ _ _ hd
    rw [Nat.mul_right_comm]
    exact Nat.mul_le_mul_right _ h1
  have h3 := Nat.div_le_of_le_mul (by rw [Nat.mul_comm]; exact h2)
  omega

/-- At most `k` digits in front of the point, and a sign. -/
theorem fltText_length (up : Nat → Bool) (zero : Bool) (w p k : Nat) (hp : 0 < p) (hk : 0 < k) (v : FVal) (h : v.Below k) :
    (fltText up zero w p v).length ≤ max w (max 9 (k + p + 2)) := by
  cases v with
  | odd t =>
    show (padL _ _ _).length ≤ _
    rw [padL_length]
    have : t.length ≤ 9 := h
    omega
  | fin neg a d =>
    have hl := digits_le hk (whole_lt up k p a d h.1 h.2)
    unfold fltText
    simp only
    have hs : (if neg then ['-'] else ([] : Text)).length ≤ 1 := by cases neg <;> simp
    split
    · rw [List.length_append, padL_length, fixed_length p _ hp]
      omega
    · rw [padL_length, List.length_append, fixed_length p _ hp]
      omega

/-- Without a sign. -/
theorem fltText_length_pos (up : Nat → Bool) (zero : Bool) (w p k a d : Nat) (hp : 0 < p) (hk : 0 < k) (hd : 0 < d) (h : a + d ≤ 10 ^ k * d) :
    (fltText up zero w p (.fin false a d)).length ≤ max w (k + p + 1) := by
  have hl := digits_le hk (whole_lt up k p a d hd h)
  unfold fltText
  simp only [Bool.false_eq_true, if_false, List.nil_append, List.length_nil]
  split
  · rw [padL_length, fixed_length p _ hp]
    omega
  · rw [padL_length, fixed_length p _ hp]
    omega

theorem shows_fltText (up : Nat → Bool) (zero : Bool) (w p : Nat) (hp : 0 < p) (v : FVal) (h : v.Ok) : Shows p (fltText up zero w p v) v := by
  cases v with
  | odd t => exact ⟨_, rfl, fun c hc => (List.mem_replicate.1 hc).2⟩
  | fin neg a d =>
    obtain ⟨ip, fp, e, hd, hi, hf, hv, -⟩ := fixed_eq p (nearest up (a * 10 ^ p) d) hp
    have hn := nearest_near up (a * 10 ^ p) d h
    cases zero with
    | false =>
      obtain ⟨k, hk⟩ := padL_ex ' ' w ((if neg then ['-'] else []) ++ fixed p (nearest up (a * 10 ^ p) d))
      refine ⟨List.replicate k ' ', ip, fp, ?_, fun c hc => (List.mem_replicate.1 hc).2, hd, hi, hf, ?_⟩
      · refine Eq.trans (show _ = padL ' ' w ((if neg then ['-'] else []) ++ fixed p (nearest up (a * 10 ^ p) d)) from rfl) ?_
        rw [hk, e]
        simp only [List.append_assoc]
      · rw [hv]; exact hn
    | true =>
      obtain ⟨k, hk⟩ := padL_ex '0' (w - (if neg then ['-'] else ([] : Text)).length) (fixed p (nearest up (a * 10 ^ p) d))
      refine ⟨[], List.replicate k '0' ++ ip, fp, ?_, (by simp), ?_, ?_, hf, ?_⟩
      · refine Eq.trans (show _ = (if neg then ['-'] else []) ++ padL '0' (w - (if neg then ['-'] else ([] : Text)).length)
          (fixed p (nearest up (a * 10 ^ p) d)) from rfl) ?_
        rw [hk, e]
        simp only [List.append_assoc, List.nil_append]
      · intro c hc
        rw [List.append_assoc] at hc
        rcases List.mem_append.1 hc with h1 | h1
        · rw [(List.mem_replicate.1 h1).2]; exact isDigit_zero
        · exact hd c h1
      · simp [hi]
      · rw [List.append_assoc, Nat.ofDigitChars_append]
        simp only [Nat.ofDigitChars_replicate_zero, Nat.mul_zero]
        rw [hv]; exact hn

theorem shows_int (z : Int) : ShowsInt (intText z) z := by
  cases z with
  | ofNat n =>
    refine ⟨[], Nat.toDigits 10 n, [], ?_, (by simp), digits_all n, Nat.toDigits_ne_nil, Nat.ofDigitChars_ten_toDigits⟩
    rw [if_neg (by simp)]
    simp [intText]
  | negSucc n =>
    refine ⟨[], Nat.toDigits 10 (n + 1), [], ?_, (by simp), digits_all _, Nat.toDigits_ne_nil, ?_⟩
    · rw [if_pos (by omega)]
      simp [intText]
    · rw [Nat.ofDigitChars_ten_toDigits]
      rfl

theorem shows_padL (w : Nat) (t : Text) (z : Int) (h : ShowsInt t z) : ShowsInt (padL ' ' w t) z := by
  obtain ⟨b, ds, b', e, hb, h⟩ := h
  obtain ⟨k, hk⟩ := padL_ex ' ' w t
  refine ⟨List.replicate k ' ' ++ b, ds, b', ?_, ?_, h⟩
  · rw [hk, e]
    simp only [List.append_assoc]
  · intro c hc
    rw [List.append_assoc] at hc
    rcases List.mem_append.1 hc with h1 | h1
    · exact (List.mem_replicate.1 h1).2
    · exact hb c h1

theorem shows_padR (w : Nat) (t : Text) (z : Int) (h : ShowsInt t z) : ShowsInt (padR w t) z := by
  obtain ⟨b, ds, b', e, hb, h⟩ := h
  obtain ⟨k, hk⟩ := padR_ex w t
  refine ⟨b, ds, b' ++ List.replicate k ' ', ?_, ?_, h⟩
  · rw [hk, e]
    simp only [List.append_assoc]
  · intro c hc
    rw [← List.append_assoc] at hc
    rcases List.mem_append.1 hc with h1 | h1
    · exact hb c h1
    · exact (List.mem_replicate.1 h1).2

theorem shows_spaced (t : Text) (z : Int) (h : ShowsInt t z) : ShowsInt (spaced t) z := by
  unfold spaced
  split
  · exact h
  · obtain ⟨b, ds, b', e, hb, h⟩ := h
    refine ⟨' ' :: b, ds, b', by rw [e]; simp, ?_, h⟩
    intro c hc
    rcases List.mem_cons.1 hc with h1 | h1
    · exact h1
    · exact hb c h1

theorem print_some {cap : Nat} {t : Text} (h : t.length < cap) : print cap t = some t := if_pos h

end Nntl.Text
