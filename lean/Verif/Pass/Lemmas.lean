import Verif.Pass.Spec
import Mathlib.Tactic.Ring
/-! Packs of lawful layers are lawful. -/
namespace Nntl.Pass
variable {α : Type}

/-! ### Memory -/

theorem idx_lt {R r c n : Nat} (hr : r < R) (hc : c < n) : r + R * c < R * n := by
  have : R * (c + 1) ≤ R * n := Nat.mul_le_mul_left R hc
  rw [Nat.mul_add, Nat.mul_one] at this
  omega

theorem idx_ge {R r c n : Nat} (hc : n ≤ c) : R * n ≤ r + R * c := by
  have : R * n ≤ R * c := Nat.mul_le_mul_left R hc
  omega

theorem unshift_shift (k : Nat) (m : Mem α) : unshift k m (shift k m) = m := by
  funext p
  simp only [unshift, shift]
  split
  · rfl
  · congr 1; omega

theorem shift_unshift (k : Nat) (m m' : Mem α) : shift k (unshift k m m') = m' := by
  funext p
  simp only [unshift, shift]
  rw [if_neg (by omega)]; congr 1; omega

theorem shift_shift (a b : Nat) (m : Mem α) : shift a (shift b m) = shift (b + a) m := by
  funext p; simp only [shift]; congr 1; omega

theorem SameFrom.refl (k : Nat) (m : Mem α) : SameFrom k m m := fun _ _ => rfl

theorem SameFrom.trans {a b k : Nat} {m m' m'' : Mem α} (h : SameFrom a m m') (h' : SameFrom b m' m'') (ha : a ≤ k) (hb : b ≤ k) :
    SameFrom k m m'' := fun p hp => (h' p (by omega)).trans (h p (by omega))

theorem SameFrom.mono {a k : Nat} {m m' : Mem α} (h : SameFrom a m m') (ha : a ≤ k) : SameFrom k m m' := fun p hp => h p (by omega)

theorem SameFrom.unshift {a k b : Nat} {m m' : Mem α} (h : SameFrom a (shift k m) m') (hb : k + a ≤ b) :
    SameFrom b m (unshift k m m') := by
  intro p hp
  simp only [Pass.unshift]
  rw [if_neg (by omega), h _ (by omega)]
  simp only [shift]; congr 1; omega

theorem copy_sameFrom (n : Nat) (d s : Mem α) : SameFrom n d (copy n d s) := fun p hp => by
  simp only [copy]; rw [if_neg (by omega)]

theorem fill_sameFrom (n : Nat) (v : α) (d : Mem α) : SameFrom n d (fill n v d) := fun p hp => by
  simp only [fill]; rw [if_neg (by omega)]

theorem Shows.congr {R n : Nat} {A A' : Mem α} {X : Mat α} (h : Shows R n A X) (he : ∀ p < R * n, A' p = A p) : Shows R n A' X :=
  fun r hr c hc => (he _ (idx_lt hr hc)).trans (h r hr c hc)

theorem Ones.congr [One α] {R n : Nat} {A A' : Mem α} (h : Ones R n A) (he : ∀ p, R * n ≤ p → p < R * n + R → A' p = A p) :
    Ones R n A' := fun r hr => (he _ (by omega) (by omega)).trans (h r hr)

theorem Ones.sameFrom [One α] {R n : Nat} {A A' : Mem α} (h : Ones R n A) (he : SameFrom (R * n) A A') : Ones R n A' :=
  h.congr fun p hp _ => he p hp

theorem Shows.shift {R n ofs cnt : Nat} {A : Mem α} {X : Mat α} (h : Shows R n A X) (ho : ofs + cnt ≤ n) :
    Shows R cnt (shift (R * ofs) A) (colsFrom ofs X) := by
  intro r hr c hc
  have := h r hr (ofs + c) (by omega)
  simp only [Pass.shift, colsFrom, ← this]
  congr 1; ring

theorem deform_ok [One α] (x : Stor α) (R0 R n : Nat) (h0 : x.rows = R0) (h : Ones R0 n x.m) :
    (x.deform R n).rows = R ∧ Ones R n (x.deform R n).m := by
  unfold Stor.deform
  split
  · rename_i hr
    have : R0 = R := h0.symm.trans hr
    subst this; exact ⟨hr, h⟩
  · refine ⟨rfl, fun r hr => ?_⟩
    simp only [unshift, fill]
    rw [if_neg (by omega), if_pos (by omega)]

/-! ### Vertical pack -/

theorem over_lawful [One α] {N NT : Nat} {l u : Obj α} {L : Law l} {U : Law u} (hl : Lawful N NT l L) (hu : Lawful N NT u U)
    (hn : u.inc = l.neurons) (hc : NT * l.neurons ≤ l.cap) : Lawful N NT (over l u) (overLaw L U) where
  mode_ok := fun b b' R s h => ⟨hl.mode_ok b b' R s.1 h.1, hu.mode_ok b b' R s.2.2 h.2.1, h.2.2⟩
  resize_ok := by
    rintro b R0 R ⟨s1, m, s2⟩ hR ⟨h1, h2, h3, h4⟩
    obtain ⟨a, c⟩ := deform_ok m R0 R l.neurons h3 h4
    exact ⟨hl.resize_ok b R0 R s1 hR h1, hu.resize_ok b R0 R s2 hR h2, a, c⟩
  fprop_ok := by
    rintro b R ⟨s1, m, s2⟩ A T O X h0 hR ⟨h1, h2, h3, h4⟩ hX hB
    obtain ⟨a1, a2, a3, a4, a5, a6⟩ := hl.fprop_ok b R s1 A T m.m X h0 hR h1 hX hB
    simp only [over, overLaw] at *
    generalize l.fprop R s1 A T m.m = x at *
    have ho := h4.sameFrom a3
    obtain ⟨b1, b2, b3, b4, b5, b6⟩ := hu.fprop_ok b R s2 x.O x.T O (L.fwd R x.s X) h0 hR h2 (hn ▸ a6) (fun _ => hn ▸ ho)
    refine ⟨a1, a2.trans b2 (by omega) (by omega), b3, ⟨a4, b4, h3, ?_⟩, ⟨a5, b5, ?_⟩, b6⟩
    · rw [b1]; exact ho
    · rw [b1]; exact a6
  bprop_ok := by
    rintro R need ⟨s1, m, s2⟩ A T O D P X G h0 hR ⟨h1, h2, h3, h4⟩ ⟨r1, r2, r3⟩ hX hB hO hD
    simp only [over, overLaw] at *
    obtain ⟨b1, b2, b3, b4, b5, b6, b7, b8⟩ := hu.bprop_ok R true s2 m.m T O D P (L.fwd R s1 X) G h0 hR h2 r2
      (hn ▸ r3) (fun _ => hn ▸ h4) hO hD
    generalize u.bprop R true s2 m.m T O D P = y at *
    have b8 := b8 rfl
    have hcap : R * u.inc ≤ l.cap := by rw [hn]; exact Nat.le_trans (Nat.mul_le_mul_right _ hR) hc
    have hlim : max u.cap (R * u.inc) ≤ max (max l.cap u.cap) (R * l.inc) := by omega
    have hlim2 : max l.cap (R * l.inc) ≤ max (max l.cap u.cap) (R * l.inc) := by omega
    cases hf : y.flag with
    | true =>
      simp only [hf, if_true, hn] at b8 ⊢
      obtain ⟨a1, a2, a3, a4, a5, a6, a7, a8⟩ := hl.bprop_ok R need s1 A y.T y.A y.P y.D X (U.bwd R s2 (L.fwd R s1 X) G) h0 hR h1 r1 hX hB
        (b1 ▸ r3) b8
      generalize l.bprop R need s1 A y.T y.A y.P y.D = x at *
      refine ⟨a1, b2.trans a2 (by omega) (by omega), b3, b4.trans a5 hlim hlim2, b5.trans a4 hlim hlim2, ⟨a6, b6, h3, ?_⟩, ⟨b7, a7⟩, ?_⟩
      · rw [b1] at a3; exact h4.sameFrom a3
      · intro hneed
        have := a8 hneed
        cases hx : x.flag <;> simp_all
    | false =>
      simp only [hf, Bool.false_eq_true, if_false, hn] at b8 ⊢
      obtain ⟨a1, a2, a3, a4, a5, a6, a7, a8⟩ := hl.bprop_ok R need s1 A y.T y.A y.D y.P X (U.bwd R s2 (L.fwd R s1 X) G) h0 hR h1 r1 hX hB
        (b1 ▸ r3) b8
      generalize l.bprop R need s1 A y.T y.A y.D y.P = x at *
      refine ⟨a1, b2.trans a2 (by omega) (by omega), b3, b4.trans a4 hlim hlim2, b5.trans a5 hlim hlim2, ⟨a6, b6, h3, ?_⟩, ⟨b7, a7⟩, ?_⟩
      · rw [b1] at a3; exact h4.sameFrom a3
      · intro hneed
        have := a8 hneed
        cases hx : x.flag <;> simp_all

/-! ### The wrapper -/

theorem enter_ok [One α] {R inc ofs cnt : Nat} {A : Mem α} (T : Mem α) {X : Mat α} (ho : ofs + cnt ≤ inc) (hX : Shows R inc A X)
    (hB : Ones R inc A) :
    Shows R cnt (shift (R * ofs) (enter R inc ofs cnt true A T).2.1) (colsFrom ofs X) ∧
    Ones R cnt (shift (R * ofs) (enter R inc ofs cnt true A T).2.1) ∧
    SameFrom R T (enter R inc ofs cnt true A T).2.2 ∧
    ∀ T1 : Mem α, (∀ p < R, T1 p = (enter R inc ofs cnt true A T).2.2 p) →
      leave R ofs cnt (enter R inc ofs cnt true A T).1 (enter R inc ofs cnt true A T).2.1 T1 = A := by
  unfold enter
  split
  · rename_i hge
    have he : ofs + cnt = inc := by omega
    refine ⟨hX.shift ho, ?_, SameFrom.refl _ _, ?_⟩
    · intro r hr
      have := hB r hr
      rw [← he, Nat.mul_add] at this
      simp only [shift, ← this]
      congr 1; omega
    · intro T1 _; simp [leave]
  · rename_i hlt
    simp only [if_true]
    refine ⟨?_, ?_, copy_sameFrom _ _ _, ?_⟩
    · refine (hX.shift (ofs := ofs) (cnt := cnt) ho).congr fun p hp => ?_
      simp only [shift, unshift]
      rw [if_pos (by omega)]
    · intro r hr
      simp only [shift, unshift, fill]
      rw [if_neg (by omega), if_pos (by omega)]
    · intro T1 h1
      simp only [leave, if_true]
      rw [shift_unshift]
      funext p
      simp only [unshift, copy, fill, shift] at *
      split
      · rfl
      · split
        · rename_i hp
          rw [h1 _ hp, if_pos hp]; congr 1; omega
        · congr 1; omega

/-! ### Tile pack -/

theorem roll_mem {R k m : Nat} (h0 : 0 < R) {dst src : Mem α} {X : Mat α} (h : Shows R (k * m) src X) :
    Shows (k * R) m (rollMem R k m dst src) (roll R m X) := by
  intro q hq c hc
  simp only [rollMem]
  rw [if_pos (idx_lt hq hc)]
  have hk : 0 < k * R := by omega
  have e1 : (q + k * R * c) % (k * R) = q := by rw [Nat.add_mul_mod_self_left, Nat.mod_eq_of_lt hq]
  have e2 : (q + k * R * c) / (k * R) = c := by rw [Nat.add_mul_div_left _ _ hk, Nat.div_eq_of_lt hq, Nat.zero_add]
  rw [e1, e2]
  have ht : q / R < k := (Nat.div_lt_iff_lt_mul h0).2 hq
  refine h (q % R) (Nat.mod_lt _ h0) (q / R * m + c) ?_
  have : (q / R + 1) * m ≤ k * m := Nat.mul_le_mul_right m ht
  rw [Nat.add_mul, Nat.one_mul] at this
  omega

theorem rollMem_sameFrom (R k m : Nat) (dst src : Mem α) : SameFrom (k * R * m) dst (rollMem R k m dst src) := fun p hp => by
  simp only [rollMem]; rw [if_neg (by omega)]

theorem unroll_mem {R k m : Nat} (h0 : 0 < R) {dst src : Mem α} {Y : Mat α} (h : Shows (k * R) m src Y) :
    Shows R (k * m) (unrollMem R k m dst src) (unroll R m Y) := by
  intro r hr c hc
  have hm : 0 < m := Nat.pos_of_ne_zero fun h => by subst h; simp at hc
  simp only [unrollMem]
  have : r + R * c < k * R * m := by
    have := idx_lt hr hc
    rw [show k * R * m = R * (k * m) by ring]; exact this
  rw [if_pos this]
  have e1 : (r + R * c) / R = c := by rw [Nat.add_mul_div_left _ _ h0, Nat.div_eq_of_lt hr, Nat.zero_add]
  have e2 : (r + R * c) % R = r := by rw [Nat.add_mul_mod_self_left, Nat.mod_eq_of_lt hr]
  rw [e1, e2]
  have ht : c / m < k := (Nat.div_lt_iff_lt_mul hm).2 hc
  refine h (c / m * R + r) ?_ (c % m) (Nat.mod_lt _ hm)
  have : (c / m + 1) * R ≤ k * R := Nat.mul_le_mul_right R ht
  rw [Nat.add_mul, Nat.one_mul] at this
  omega

theorem unrollMem_sameFrom (R k m : Nat) (dst src : Mem α) : SameFrom (k * R * m) dst (unrollMem R k m dst src) := fun p hp => by
  simp only [unrollMem]; rw [if_neg (by omega)]

theorem tile_lawful [One α] {N NT k cap : Nat} {l : Obj α} {L : Law l} (hl : Lawful (k * N) (k * NT) l L) (hk : 0 < k)
    (hc : l.cap ≤ cap) (hn : k * NT * l.neurons ≤ cap) (hi : k * NT * l.inc ≤ cap) : Lawful N NT (tile k cap l) (tileLaw k cap L) where
  mode_ok := fun b b' R s h => ⟨hl.mode_ok b b' (k * R) s.1 h.1, h.2⟩
  resize_ok := by
    rintro b R0 R ⟨s, m, o⟩ hR ⟨h1, h2, h3⟩
    obtain ⟨a, c⟩ := deform_ok m (k * R0) (k * R) l.inc h2 h3
    exact ⟨hl.resize_ok b (k * R0) (k * R) s (Nat.mul_le_mul_left k hR) h1, a, c⟩
  fprop_ok := by
    rintro b R ⟨s, m, o⟩ A T O X h0 hR ⟨h1, h2, h3⟩ hX hB
    simp only [tile, tileLaw] at *
    have hll := roll_mem h0 (dst := m.m) hX
    have hon := h3.sameFrom (rollMem_sameFrom R k l.inc m.m A)
    obtain ⟨a1, a2, a3, a4, a5, a6⟩ := hl.fprop_ok b (k * R) s (rollMem R k l.inc m.m A) T o.m (roll R l.inc X)
      (Nat.mul_pos hk h0) (Nat.mul_le_mul_left k hR) h1 hll (fun _ => hon)
    generalize l.fprop (k * R) s (rollMem R k l.inc m.m A) T o.m = x at *
    refine ⟨trivial, a2, (unrollMem_sameFrom R k l.neurons O x.O).mono (Nat.le_of_eq (by ring)), ⟨a4, h2, ?_⟩, ⟨a5, ?_, a6⟩, unroll_mem h0 a6⟩
    · rw [a1]; exact hon
    · rw [a1]; exact hll
  bprop_ok := by
    rintro R need ⟨s, m, o⟩ A T O D P X G h0 hR ⟨h1, h2, h3⟩ ⟨r1, r2, r3⟩ hX hB hO hD
    simp only [tile, tileLaw] at *
    obtain ⟨a1, a2, a3, a4, a5, a6, a7, a8⟩ := hl.bprop_ok (k * R) need s m.m T o.m (rollMem R k l.neurons P D) D (roll R l.inc X)
      (roll R l.neurons G) (Nat.mul_pos hk h0) (Nat.mul_le_mul_left k hR) h1 r1 r2 (fun _ => h3) r3 (roll_mem h0 hD)
    generalize l.bprop (k * R) need s m.m T o.m (rollMem R k l.neurons P D) D = x at *
    have e1 : k * R * l.neurons ≤ max cap (R * (k * l.inc)) := by
      have : k * R * l.neurons ≤ k * NT * l.neurons := Nat.mul_le_mul_right _ (Nat.mul_le_mul_left k hR)
      omega
    have e2 : k * R * l.inc ≤ max cap (R * (k * l.inc)) := by
      have : k * R * l.inc ≤ k * NT * l.inc := Nat.mul_le_mul_right _ (Nat.mul_le_mul_left k hR)
      omega
    have e3 : max l.cap (k * R * l.inc) ≤ max cap (R * (k * l.inc)) := by omega
    have d : SameFrom (max cap (R * (k * l.inc))) P x.D := (rollMem_sameFrom R k l.neurons P D).trans a4 e1 e3
    have p : SameFrom (max cap (R * (k * l.inc))) D x.P := a5.mono e3
    refine ⟨trivial, a2, SameFrom.refl _ _, ?_, ?_, ⟨a6, h2, ?_⟩, a7, ?_⟩
    · cases need <;> cases hx : x.flag <;> simp only [Bool.and_true, Bool.and_false, Bool.not_true, Bool.not_false, Bool.false_and,
        Bool.true_and, Bool.false_eq_true, if_true, if_false] <;> first
        | exact p
        | exact p.trans (unrollMem_sameFrom R k l.inc x.P x.D) (Nat.le_refl _) e2
    · cases need <;> cases hx : x.flag <;> simp only [Bool.and_true, Bool.and_false, Bool.not_true, Bool.not_false, Bool.false_and,
        Bool.true_and, Bool.false_eq_true, if_true, if_false] <;> first
        | exact d
        | exact d.trans (unrollMem_sameFrom R k l.inc x.D x.P) (Nat.le_refl _) e2
    · rw [a1]; exact h3
    · intro hneed
      have h8 := a8 hneed
      subst hneed
      cases hx : x.flag <;> simp only [hx, Bool.and_true, Bool.and_false, Bool.not_true, Bool.not_false, Bool.true_and, Bool.xor_false,
        Bool.false_eq_true, if_true, if_false] at h8 ⊢ <;> exact unroll_mem h0 h8

end Nntl.Pass
