import Verif.Pass.Lemmas
/-! A horizontal pack of lawful layers is lawful. -/
namespace Nntl.Pass
variable {α : Type}

/-- The requirements of the construction and initialisation of a horizontal pack: fields inside of the incoming neurons, inner layers
constructed with the width of their field, and the memory announced by the inner layers (C33, C69). -/
def FieldsOk [One α] (N NT inc buf tmp : Nat) : (fs : List (Fld α)) → Laws fs → Prop
  | [], _ => True
  | f :: fs, Ls => (f.obj.inc = f.cnt ∧ f.ofs + f.cnt ≤ inc ∧ f.obj.cap ≤ buf ∧ NT * f.cnt ≤ buf ∧ NT * f.obj.neurons ≤ buf ∧
      f.obj.tmp ≤ tmp ∧ Lawful N NT f.obj Ls.head) ∧ FieldsOk N NT inc buf tmp fs Ls.tail

theorem fMode_ok [One α] {b b' : Bool} {N NT inc buf tmp R : Nat} : (fs : List (Fld α)) → (Ls : Laws fs) → (s : FState fs) →
    FieldsOk N NT inc buf tmp fs Ls → fInv b R fs Ls s → fInv b' R fs Ls (fMode b' fs s)
  | [], _, _, _, _ => trivial
  | f :: fs, Ls, s, ⟨hf, h⟩, ⟨hi, his⟩ => ⟨hf.2.2.2.2.2.2.mode_ok b b' R s.1 hi, fMode_ok fs Ls.tail s.2 h his⟩

theorem fResize_ok [One α] {b : Bool} {N NT inc buf tmp R0 R : Nat} (hR : R ≤ N) : (fs : List (Fld α)) → (Ls : Laws fs) → (s : FState fs) →
    FieldsOk N NT inc buf tmp fs Ls → fInv b R0 fs Ls s → fInv b R fs Ls (fResize R fs s)
  | [], _, _, _, _ => trivial
  | f :: fs, Ls, s, ⟨hf, h⟩, ⟨hi, his⟩ =>
    ⟨hf.2.2.2.2.2.2.resize_ok b R0 R s.1 hR hi, fResize_ok hR fs Ls.tail s.2 h his⟩

theorem fFprop_ok [One α] {b : Bool} {N NT inc buf tmp R used : Nat} (h0 : 0 < R) (hR : R ≤ N) (hu : R ≤ used) {X : Mat α} :
    (fs : List (Fld α)) → (Ls : Laws fs) → (s : FState fs) → (fo : Nat) → (A T O : Mem α) →
    FieldsOk N NT inc buf tmp fs Ls → fInv b R fs Ls s → Shows R inc A X → Ones R inc A →
    (fFprop R inc used fs fo s A T O).A = A ∧
    SameFrom (used + tmp) T (fFprop R inc used fs fo s A T O).T ∧
    (∀ p < R * fo, (fFprop R inc used fs fo s A T O).O p = O p) ∧
    SameFrom (R * (fo + fNeurons fs)) O (fFprop R inc used fs fo s A T O).O ∧
    fInv b R fs Ls (fFprop R inc used fs fo s A T O).s ∧
    fReady R X fs Ls (fFprop R inc used fs fo s A T O).s ∧
    Shows R (fNeurons fs) (shift (R * fo) (fFprop R inc used fs fo s A T O).O) (fFwd R X fs Ls (fFprop R inc used fs fo s A T O).s)
  | [], _, _, _, _, _, _, _, _, _, _ =>
    ⟨rfl, SameFrom.refl _ _, fun _ _ => rfl, SameFrom.refl _ _, trivial, trivial, fun _ _ c hc => absurd hc (Nat.not_lt_zero c)⟩
  | f :: fs, Ls, s, fo, A, T, O, ⟨⟨e1, e2, e3, e4, e5, e6, e7⟩, h⟩, ⟨hi, his⟩, hX, hB => by
    obtain ⟨w1, w2, w3, w4⟩ := enter_ok T e2 hX hB
    simp only [fFprop, fInv, fReady, fNeurons]
    generalize enter R inc f.ofs f.cnt true A T = w at *
    obtain ⟨a1, a2, a3, a4, a5, a6⟩ := e7.fprop_ok b R s.1 (shift (R * f.ofs) w.2.1) (shift used w.2.2) (shift (R * fo) O)
      (colsFrom f.ofs X) h0 hR hi (e1 ▸ w1) (fun _ => e1 ▸ w2)
    generalize f.obj.fprop R s.1 (shift (R * f.ofs) w.2.1) (shift used w.2.2) (shift (R * fo) O) = x at *
    rw [a1, unshift_shift, w4 (unshift used w.2.2 x.T) (fun p hp => by simp only [unshift]; rw [if_pos (by omega)])]
    obtain ⟨b1, b2, b3, b4, b5, b6, b7⟩ := fFprop_ok (N := N) (NT := NT) (buf := buf) (tmp := tmp) h0 hR hu fs Ls.tail s.2 (fo + f.obj.neurons) A
      (unshift used w.2.2 x.T) (unshift (R * fo) O x.O) h his hX hB
    generalize fFprop R inc used fs (fo + f.obj.neurons) s.2 A (unshift used w.2.2 x.T) (unshift (R * fo) O x.O) = y at *
    have hm : R * (fo + f.obj.neurons) = R * fo + R * f.obj.neurons := Nat.mul_add ..
    have hm2 : R * (fo + (f.obj.neurons + fNeurons fs)) = R * fo + R * f.obj.neurons + R * fNeurons fs := by ring
    have hm3 : R * (fo + f.obj.neurons + fNeurons fs) = R * fo + R * f.obj.neurons + R * fNeurons fs := by ring
    refine ⟨b1, ?_, ?_, ?_, ⟨a4, b5⟩, ⟨a5, b6⟩, ?_⟩
    · exact (w3.trans (SameFrom.unshift a2 (Nat.le_refl _)) (by omega) (by omega)).trans b2 (Nat.le_refl (used + tmp)) (Nat.le_refl _)
    · intro p hp
      rw [b3 p (by omega)]
      simp only [unshift]; rw [if_pos hp]
    · exact (SameFrom.unshift a3 (Nat.le_refl _)).trans b4 (by omega) (by omega)
    · intro r hr c hc
      simp only [fFwd]
      split
      · rename_i hlt
        rw [← a6 r hr c hlt]
        have := idx_lt hr hlt
        simp only [shift]
        rw [b3 _ (by omega)]
        simp only [unshift]
        rw [if_neg (by omega)]; congr 1; omega
      · rename_i hge
        rw [← b7 r hr (c - f.obj.neurons) (by omega)]
        simp only [shift]
        congr 1
        obtain ⟨d, rfl⟩ : ∃ d, c = f.obj.neurons + d := ⟨c - f.obj.neurons, by omega⟩
        rw [Nat.add_sub_cancel_left]; ring

theorem fBprop_ok [Zero α] [One α] [Add α] {N NT inc bias buf tmp R : Nat} {need : Bool} (h0 : 0 < R) (hR : R ≤ NT) (hu : R ≤ bias)
    {X : Mat α} :
    (fs : List (Fld α)) → (Ls : Laws fs) → (s : FState fs) → (fo : Nat) → (A T O D P : Mem α) → (G : Mat α) →
    FieldsOk N NT inc buf tmp fs Ls → fInv true R fs Ls s → fReady R X fs Ls s → Shows R inc A X → Ones R inc A →
    Shows R (fNeurons fs) (shift (R * fo) O) (fFwd R X fs Ls s) → Shows R (fNeurons fs) (shift (R * fo) D) G →
    (need = true → Shows R inc P (fun _ _ => 0)) →
    (fBprop R inc bias buf need fs fo s A T O D P).A = A ∧
    SameFrom (bias + 2 * buf + tmp) T (fBprop R inc bias buf need fs fo s A T O D P).T ∧
    (∀ p < R * fo, (fBprop R inc bias buf need fs fo s A T O D P).O p = O p) ∧
    SameFrom (R * (fo + fNeurons fs)) O (fBprop R inc bias buf need fs fo s A T O D P).O ∧
    SameFrom (R * inc) P (fBprop R inc bias buf need fs fo s A T O D P).P ∧
    fInv true R fs Ls (fBprop R inc bias buf need fs fo s A T O D P).s ∧
    fUpd R X fs Ls s G (fBprop R inc bias buf need fs fo s A T O D P).s ∧
    (need = true → Shows R inc (fBprop R inc bias buf need fs fo s A T O D P).P (fBwd R X fs Ls s G))
  | [], _, _, _, _, _, _, _, _, _, _, _, _, _, _, _, _, hP =>
    ⟨rfl, SameFrom.refl _ _, fun _ _ => rfl, SameFrom.refl _ _, SameFrom.refl _ _, trivial, trivial, hP⟩
  | f :: fs, Ls, s, fo, A, T, O, D, P, G, ⟨⟨e1, e2, e3, e4, e5, e6, e7⟩, h⟩, ⟨hi, his⟩, ⟨hr1, hr2⟩, hX, hB, hO, hD, hP => by
    have hsh : ∀ (M : Mem α) (Z : Mat α), Shows R (f.obj.neurons + fNeurons fs) (shift (R * fo) M) Z →
        Shows R (fNeurons fs) (shift (R * (fo + f.obj.neurons)) M) (colsFrom f.obj.neurons Z) := by
      intro M Z hZ
      have := hZ.shift (ofs := f.obj.neurons) (cnt := fNeurons fs) (Nat.le_refl _)
      rwa [shift_shift, ← Nat.mul_add] at this
    have hm : R * (fo + f.obj.neurons) = R * fo + R * f.obj.neurons := Nat.mul_add ..
    have hm2 : R * (fo + (f.obj.neurons + fNeurons fs)) = R * fo + R * f.obj.neurons + R * fNeurons fs := by ring
    have hm3 : R * (fo + f.obj.neurons + fNeurons fs) = R * fo + R * f.obj.neurons + R * fNeurons fs := by ring
    have hrest : colsFrom f.obj.neurons (fFwd R X (f :: fs) Ls s) = fFwd R X fs Ls.tail s.2 := by
      funext r c
      simp only [colsFrom, fFwd]
      rw [if_neg (by omega), Nat.add_sub_cancel_left]
    obtain ⟨b1, b2, b3, b4, b5, b6, b7, b8⟩ := fBprop_ok (N := N) (NT := NT) (buf := buf) (tmp := tmp) (need := need) h0 hR hu fs Ls.tail s.2
      (fo + f.obj.neurons) A T O D P (colsFrom f.obj.neurons G) h his hr2 hX hB (hrest ▸ hsh O _ hO) (hsh D G hD) hP
    simp only [fBprop, fInv, fUpd, fNeurons] at *
    generalize fBprop R inc bias buf need fs (fo + f.obj.neurons) s.2 A T O D P = y at *
    rw [b1]
    obtain ⟨w1, w2, w3, w4⟩ := enter_ok (unshift bias y.T (copy (R * f.obj.neurons) (shift bias y.T) (shift (R * fo) D))) e2 hX hB
    generalize hT0 : unshift bias y.T (copy (R * f.obj.neurons) (shift bias y.T) (shift (R * fo) D)) = T0 at *
    generalize enter R inc f.ofs f.cnt true A T0 = w at *
    have n1 : R * f.obj.neurons ≤ buf := Nat.le_trans (Nat.mul_le_mul_right _ hR) e5
    have n2 : R * f.cnt ≤ buf := Nat.le_trans (Nat.mul_le_mul_right _ hR) e4
    have t0 : SameFrom (bias + buf) y.T T0 := by
      rw [← hT0]; exact SameFrom.unshift (copy_sameFrom _ _ _) (by omega)
    have fO : Shows R f.obj.neurons (shift (R * fo) y.O) (Ls.head.fwd R s.1 (colsFrom f.ofs X)) := by
      intro r hr c hc
      have h1 := hO r hr c (by omega)
      have := idx_lt hr hc
      simp only [shift, fFwd] at h1 ⊢
      rw [if_pos hc] at h1
      rw [b3 _ (by omega), h1]
    have fD : Shows R f.obj.neurons (shift bias w.2.2) G := by
      intro r hr c hc
      rw [← hD r hr c (by omega)]
      have := idx_lt hr hc
      simp only [shift]
      rw [w3 _ (by omega), ← hT0]
      simp only [unshift, copy, shift]
      rw [if_neg (by omega), if_pos (by omega)]
      congr 1; omega
    obtain ⟨a1, a2, a3, a4, a5, a6, a7, a8⟩ := e7.bprop_ok R need s.1 (shift (R * f.ofs) w.2.1) (shift (bias + 2 * buf) w.2.2)
      (shift (R * fo) y.O) (shift bias w.2.2) (shift (bias + buf) w.2.2) (colsFrom f.ofs X) G h0 hR hi hr1 (e1 ▸ w1) (fun _ => e1 ▸ w2) fO fD
    generalize f.obj.bprop R need s.1 (shift (R * f.ofs) w.2.1) (shift (bias + 2 * buf) w.2.2) (shift (R * fo) y.O)
      (shift bias w.2.2) (shift (bias + buf) w.2.2) = x at *
    rw [a1, unshift_shift, w4 (unshift bias w.2.2 (unshift buf x.D (unshift buf x.P x.T)))
      (fun p hp => by simp only [unshift]; rw [if_pos (by omega)])]
    refine ⟨rfl, ?_, ?_, ?_, ?_, ⟨a6, b6⟩, ⟨a7, b7⟩, ?_⟩
    · intro p hp
      simp only [unshift]
      rw [if_neg (by omega), if_neg (by omega), if_neg (by omega), a2 _ (by omega)]
      simp only [shift]
      rw [show bias + 2 * buf + (p - bias - buf - buf) = p by omega, w3 p (by omega), t0 p (by omega), b2 p (by omega)]
    · intro p hp
      simp only [unshift]
      rw [if_pos hp, b3 p (by omega)]
    · exact b4.trans (SameFrom.unshift a3 (Nat.le_refl _)) (by omega) (by omega)
    · have ho : R * f.ofs + R * f.cnt ≤ R * inc := by rw [← Nat.mul_add]; exact Nat.mul_le_mul_left R e2
      cases need with
      | false => simpa using b5
      | true =>
        simp only [if_true]
        intro p hp
        simp only [unshift, addTo, shift]
        rw [if_neg (by omega), if_neg (by omega), show R * f.ofs + (p - R * f.ofs) = p by omega, b5 p hp]
    · intro hneed
      have h8 := a8 hneed
      have hy := b8 hneed
      subst hneed
      simp only [if_true]
      intro r hr j hj
      simp only [fBwd]
      rw [← hy r hr j hj]
      by_cases hcov : f.ofs ≤ j ∧ j < f.ofs + f.cnt
      · rw [if_pos hcov]
        obtain ⟨d, rfl⟩ : ∃ d, j = f.ofs + d := ⟨j - f.ofs, by omega⟩
        have hd : d < f.cnt := by omega
        have h9 := h8 r hr d (by omega)
        have hidx := idx_lt hr hd
        have hj2 : r + R * (f.ofs + d) = R * f.ofs + (r + R * d) := by ring
        rw [Nat.add_sub_cancel_left, ← h9, hj2]
        simp only [unshift, addTo, shift]
        rw [if_neg (by omega), if_pos (by omega), show R * f.ofs + (r + R * d) - R * f.ofs = r + R * d by omega]
        congr 1
        cases x.flag with
        | true =>
          simp only [if_true, shift, unshift]
          rw [if_neg (by omega), if_neg (by omega), if_pos (by omega)]; congr 1; omega
        | false =>
          simp only [Bool.false_eq_true, if_false, shift, unshift]
          rw [if_neg (by omega), if_pos (by omega)]; congr 1; omega
      · rw [if_neg hcov]
        simp only [unshift, addTo, shift]
        by_cases hlt : j < f.ofs
        · rw [if_pos]
          exact idx_lt hr hlt
        · have h1 : R * (f.ofs + f.cnt) ≤ r + R * j := idx_ge (by omega)
          rw [Nat.mul_add] at h1
          rw [if_neg (by omega), if_neg (by omega)]; congr 1; omega

theorem fTmp_le [One α] {N NT inc buf : Nat} : (fs : List (Fld α)) → (Ls : Laws fs) → (tmp : Nat) → fTmp fs ≤ tmp →
    FieldsOk N NT inc buf (fTmp fs) fs Ls → FieldsOk N NT inc buf tmp fs Ls
  | [], _, _, _, _ => trivial
  | _ :: fs, Ls, tmp, hle, ⟨⟨e1, e2, e3, e4, e5, e6, e7⟩, h⟩ => by
    refine ⟨⟨e1, e2, e3, e4, e5, by omega, e7⟩, ?_⟩
    exact weaken fs Ls.tail _ tmp hle h
where
  weaken : (fs : List (Fld α)) → (Ls : Laws fs) → (a b : Nat) → a ≤ b → FieldsOk N NT inc buf a fs Ls → FieldsOk N NT inc buf b fs Ls
    | [], _, _, _, _, _ => trivial
    | _ :: fs, Ls, a, b, hle, ⟨⟨e1, e2, e3, e4, e5, e6, e7⟩, h⟩ =>
      ⟨⟨e1, e2, e3, e4, e5, by omega, e7⟩, weaken fs Ls.tail a b hle h⟩

theorem horiz_lawful [Zero α] [One α] [Add α] {N NT inc bias buf cap : Nat} {fs : List (Fld α)} {Ls : Laws fs}
    (h : FieldsOk N NT inc buf (fTmp fs) fs Ls) (hb : N ≤ bias) (hT : NT ≤ N) :
    Lawful N NT (horiz inc bias buf cap fs) (horizLaw inc bias buf cap Ls) where
  mode_ok := fun b b' R s hi => fMode_ok fs Ls s h hi
  resize_ok := fun b R0 R s hR hi => fResize_ok hR fs Ls s h hi
  fprop_ok := by
    intro b R s A T O X h0 hR hi hX hB
    obtain ⟨a1, a2, a3, a4, a5, a6, a7⟩ := fFprop_ok (used := bias + 2 * buf) h0 hR (by omega) fs Ls s 0 A T O h hi hX (hB rfl)
    simp only [horiz, horizLaw, Nat.zero_add] at *
    refine ⟨a1, a2, a4, a5, a6, ?_⟩
    intro r hr c hc
    have := a7 r hr c hc
    simpa only [shift, Nat.mul_zero, Nat.zero_add] using this
  bprop_ok := by
    intro R need s A T O D P X G h0 hR hi hr hX hB hO hD
    have hs : ∀ M : Mem α, shift (R * 0) M = M := fun M => by funext p; simp [shift]
    have hz : need = true → Shows R inc (if need then fill (R * inc) 0 P else P) (fun _ _ => 0) := by
      rintro rfl r hr c hc
      simp only [if_true, fill]
      rw [if_pos (idx_lt hr hc)]
    obtain ⟨a1, a2, a3, a4, a5, a6, a7, a8⟩ := fBprop_ok (need := need) (bias := bias) h0 hR (by omega) fs Ls s 0 A T O D
      (if need then fill (R * inc) 0 P else P) G h hi hr hX (hB rfl) (by rw [hs]; exact hO) (by rw [hs]; exact hD) hz
    simp only [horiz, horizLaw, Nat.zero_add] at *
    refine ⟨a1, a2, a4, SameFrom.refl _ _, ?_, a6, a7, by simpa using a8⟩
    cases need with
    | true => exact ((fill_sameFrom _ _ _).trans a5 (Nat.le_refl (R * inc)) (Nat.le_refl _)).mono (by omega)
    | false => exact a5.mono (by omega)

end Nntl.Pass
