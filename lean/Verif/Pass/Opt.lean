import Verif.Pass.OptModel
import Verif.Pass.Horiz
/-! An optional (gated) pack of lawful layers is lawful. -/
namespace Nntl.Pass
open Nntl.Kernel (openRows rank openRows_get openRows_mem rank_le rank_mono)
variable {α : Type}

/-! ### Rows by mask -/

theorem openRows_congr {m m' : Nat → Bool} {n : Nat} (h : ∀ r < n, m r = m' r) : openRows m n = openRows m' n := by
  unfold openRows
  apply List.filter_congr
  intro r hr
  exact h r (List.mem_range.1 hr)

theorem openRows_length_le (m : Nat → Bool) (n : Nat) : (openRows m n).length ≤ n := rank_le m n

theorem openRows_getD_lt {m : Nat → Bool} {n q : Nat} (hq : q < (openRows m n).length) : (openRows m n).getD q 0 < n := by
  rw [List.getD_eq_getElem?_getD, List.getElem?_eq_getElem hq]
  exact (openRows_mem (List.getElem_mem hq)).1

theorem extractMem_congr {R n : Nat} {m m' : Nat → Bool} {d s : Mem α} (h : ∀ r < R, m r = m' r) :
    extractMem R m n d s = extractMem R m' n d s := by
  unfold extractMem; rw [openRows_congr h]

theorem fillMem_congr [Zero α] {R n : Nat} {m m' : Nat → Bool} {d s : Mem α} (h : ∀ r < R, m r = m' r) :
    fillMem R m n d s = fillMem R m' n d s := by
  funext p
  unfold fillMem
  by_cases hp : p < R * n
  · rw [if_pos hp, if_pos hp]
    have h0 : 0 < R := by
      rcases Nat.eq_zero_or_pos R with h | h
      · subst h; simp at hp
      · exact h
    have := Nat.mod_lt p h0
    rw [openRows_congr h, h _ this, openRows_congr (n := p % R) (fun r hr => h r (by omega))]
  · rw [if_neg hp, if_neg hp]

theorem extractMem_sameFrom (R : Nat) (m : Nat → Bool) (n : Nat) (d s : Mem α) :
    SameFrom ((openRows m R).length * n) d (extractMem R m n d s) := fun p hp => by
  simp only [extractMem]; rw [if_neg (by omega)]

theorem fillMem_sameFrom [Zero α] (R : Nat) (m : Nat → Bool) (n : Nat) (d s : Mem α) :
    SameFrom (R * n) d (fillMem R m n d s) := fun p hp => by
  simp only [fillMem]; rw [if_neg (by omega)]

theorem extractMem_shows {R n : Nat} {m : Nat → Bool} {d s : Mem α} {X : Mat α} (h : Shows R n s X) :
    Shows (openRows m R).length n (extractMem R m n d s) (pick R m X) := by
  intro q hq c hc
  simp only [extractMem, pick]
  rw [if_pos (idx_lt hq hc), Nat.add_mul_mod_self_left, Nat.mod_eq_of_lt hq, Nat.add_mul_div_left _ _ (by omega), Nat.div_eq_of_lt hq,
    Nat.zero_add]
  exact h _ (openRows_getD_lt hq) c hc

theorem rank_lt {m : Nat → Bool} {n r : Nat} (hr : r < n) (hm : m r = true) : (openRows m r).length < (openRows m n).length :=
  (List.getElem?_eq_some_iff.1 (openRows_get m n r hr hm)).1

theorem fillMem_shows [Zero α] {R n : Nat} {m : Nat → Bool} {d s : Mem α} {Y : Mat α} (h : Shows (openRows m R).length n s Y) :
    Shows R n (fillMem R m n d s) (scatter m Y) := by
  intro r hr c hc
  simp only [fillMem, scatter]
  rw [if_pos (idx_lt hr hc), Nat.add_mul_mod_self_left, Nat.mod_eq_of_lt hr, Nat.add_mul_div_left _ _ (by omega), Nat.div_eq_of_lt hr,
    Nat.zero_add]
  by_cases hm : m r = true
  · rw [if_pos hm, if_pos hm]
    exact h _ (rank_lt hr hm) c hc
  · rw [if_neg hm, if_neg hm]

theorem maskOf_eq [Zero α] [DecidableEq α] {R gn k : Nat} {O : Mem α} {g : Mat α} (hg : Shows R gn O g) (hk : k < gn) :
    ∀ r < R, maskOf R k O r = gmask g k r := by
  intro r hr
  simp only [maskOf, gmask]
  rw [hg r hr k hk]

theorem fTmp_ok [One α] {N NT inc buf tmp : Nat} {f : Fld α} {fs : List (Fld α)} {Ls : Laws (f :: fs)}
    (h : FieldsOk N NT inc buf tmp (f :: fs) Ls) : FieldsOk N NT inc buf tmp fs Ls.tail := h.2

theorem oMode_ok [One α] {b b' : Bool} {N NT inc buf tmp : Nat} : (fs : List (Fld α)) → (Ls : Laws fs) → (s : OState fs) →
    FieldsOk N NT inc buf tmp fs Ls → oInv b fs Ls s → oInv b' fs Ls (oMode b' fs s)
  | [], _, _, _, _ => trivial
  | _ :: fs, Ls, s, ⟨hf, h⟩, ⟨hi, his⟩ => ⟨hf.2.2.2.2.2.2.mode_ok b b' s.1.2.rows s.1.1 hi, oMode_ok fs Ls.tail s.2 h his⟩

theorem oFprop_ok [Zero α] [One α] [DecidableEq α] {b : Bool} {N NT inc buf tmp R bbs used gn : Nat} (hR : R ≤ N) (hb : N ≤ bbs)
    {g X : Mat α} {A : Mem α} (hX : Shows R inc A X) :
    (fs : List (Fld α)) → (Ls : Laws fs) → (s : OState fs) → (k fo po : Nat) → (Q T O : Mem α) →
    FieldsOk N NT inc buf tmp fs Ls → oInv b fs Ls s → Shows R gn O g → gn ≤ fo → k + fs.length ≤ gn →
    (∀ p < po, (oFprop R bbs used fs k fo po s A Q T O).Q p = Q p) ∧
    SameFrom (used + tmp) T (oFprop R bbs used fs k fo po s A Q T O).T ∧
    (∀ p < R * fo, (oFprop R bbs used fs k fo po s A Q T O).O p = O p) ∧
    SameFrom (R * (fo + fNeurons fs)) O (oFprop R bbs used fs k fo po s A Q T O).O ∧
    oInv b fs Ls (oFprop R bbs used fs k fo po s A Q T O).s ∧
    oReady R bbs g X (oFprop R bbs used fs k fo po s A Q T O).Q fs k po Ls (oFprop R bbs used fs k fo po s A Q T O).s ∧
    Shows R (fNeurons fs) (shift (R * fo) (oFprop R bbs used fs k fo po s A Q T O).O)
      (oFwd R g X fs k Ls (oFprop R bbs used fs k fo po s A Q T O).s)
  | [], _, _, _, _, _, _, _, _, _, _, _, _, _ =>
    ⟨fun _ _ => rfl, SameFrom.refl _ _, fun _ _ => rfl, SameFrom.refl _ _, trivial, trivial, fun _ _ c hc => absurd hc (Nat.not_lt_zero c)⟩
  | f :: fs, Ls, s, k, fo, po, Q, T, O, ⟨⟨e1, e2, e3, e4, e5, e6, e7⟩, h⟩, ⟨hi, his⟩, hg, hfo, hk => by
    rw [List.length_cons] at hk
    have hmk := maskOf_eq hg (show k < gn by omega)
    have hro := openRows_congr hmk
    have hm : R * (fo + f.obj.neurons) = R * fo + R * f.obj.neurons := Nat.mul_add ..
    have hm2 : R * (fo + (f.obj.neurons + fNeurons fs)) = R * fo + R * f.obj.neurons + R * fNeurons fs := by ring
    have hm3 : R * (fo + f.obj.neurons + fNeurons fs) = R * fo + R * f.obj.neurons + R * fNeurons fs := by ring
    have hgn : R * gn ≤ R * fo := Nat.mul_le_mul_left R hfo
    simp only [oFprop, oInv, oReady, fNeurons, hro]
    generalize hn : (openRows (gmask g k) R).length = n at *
    have hnR : n ≤ R := hn ▸ openRows_length_le _ _
    have tail_shows : ∀ (M : Mem α) (V : Mat α) , Shows R (fNeurons fs) (shift (R * (fo + f.obj.neurons)) M) V →
        ∀ r < R, ∀ c < f.obj.neurons + fNeurons fs, ¬ c < f.obj.neurons → shift (R * fo) M (r + R * c) = V r (c - f.obj.neurons) := by
      intro M V hV r hr c hc hge
      rw [← hV r hr (c - f.obj.neurons) (by omega)]
      simp only [shift]
      congr 1
      obtain ⟨d, rfl⟩ : ∃ d, c = f.obj.neurons + d := ⟨c - f.obj.neurons, by omega⟩
      rw [Nat.add_sub_cancel_left]; ring
    by_cases hpos : 0 < n
    · simp only [if_pos hpos]
      rw [extractMem_congr hmk]
      generalize hq : extractMem R (gmask g k) f.cnt (shift po Q) (shift (R * f.ofs) A) = q
      have hqs : Shows n f.cnt q (pick R (gmask g k) (colsFrom f.ofs X)) := by
        rw [← hq, ← hn]; exact extractMem_shows (hX.shift e2)
      generalize hq1 : unshift (n * f.cnt) q (fill n 1 (shift (n * f.cnt) q)) = q1
      have hq1s : Shows n f.cnt q1 (pick R (gmask g k) (colsFrom f.ofs X)) :=
        hqs.congr fun p hp => by rw [← hq1]; simp only [unshift]; rw [if_pos hp]
      have hq1o : Ones n f.cnt q1 := by
        intro r hr
        rw [← hq1]; simp only [unshift, fill]
        rw [if_neg (by omega), if_pos (by omega)]
      obtain ⟨a1, a2, a3, a4, a5, a6⟩ := e7.fprop_ok b n (f.obj.resize n s.1.1) q1 (shift used T) (s.1.2.deform n f.obj.neurons).m
        (pick R (gmask g k) (colsFrom f.ofs X)) hpos (by omega) (e7.resize_ok b _ n s.1.1 (by omega) hi) (e1 ▸ hq1s) (fun _ => e1 ▸ hq1o)
      generalize f.obj.fprop n (f.obj.resize n s.1.1) q1 (shift used T) (s.1.2.deform n f.obj.neurons).m = x at *
      rw [a1, fillMem_congr hmk]
      have hfill : Shows R f.obj.neurons (fillMem R (gmask g k) f.obj.neurons (shift (R * fo) O) x.O)
        (scatter (gmask g k) (Ls.head.fwd n x.s (pick R (gmask g k) (colsFrom f.ofs X)))) := fillMem_shows (hn.symm ▸ a6)
      have hfs := fillMem_sameFrom R (gmask g k) f.obj.neurons (shift (R * fo) O) x.O
      generalize fillMem R (gmask g k) f.obj.neurons (shift (R * fo) O) x.O = o1 at *
      obtain ⟨b1, b2, b3, b4, b5, b6, b7⟩ := oFprop_ok (N := N) (NT := NT) (buf := buf) (tmp := tmp) (bbs := bbs) (used := used) (gn := gn)
        hR hb hX fs Ls.tail s.2 (k + 1) (fo + f.obj.neurons) (po + bbs * f.cnt) (unshift po Q q1) (unshift used T x.T)
        (unshift (R * fo) O o1) h his (hg.congr fun p hp => by simp only [unshift]; rw [if_pos (by omega)]) (by omega) (by omega)
      generalize oFprop R bbs used fs (k + 1) (fo + f.obj.neurons) (po + bbs * f.cnt) s.2 A (unshift po Q q1) (unshift used T x.T)
        (unshift (R * fo) O o1) = y at *
      have hdr : (s.1.2.deform n f.obj.neurons).rows = n := by
        unfold Stor.deform; split <;> simp_all
      have hncb : n * f.cnt ≤ bbs * f.cnt := Nat.mul_le_mul_right _ (by omega)
      have hyq : ∀ p < bbs * f.cnt, shift po y.Q p = q1 p := by
        intro p hp
        simp only [shift]
        rw [b1 _ (by omega)]
        simp only [unshift]
        rw [if_neg (by omega)]; congr 1; omega
      refine ⟨?_, ?_, ?_, ?_, ⟨?_, b5⟩, ⟨fun _ => ⟨hdr, a5, a6, ?_, ?_⟩, b6⟩, ?_⟩
      · intro p hp
        rw [b1 p (by omega)]
        simp only [unshift]; rw [if_pos hp]
      · exact (SameFrom.unshift a2 (Nat.le_refl _)).trans b2 (by omega) (by omega)
      · intro p hp
        rw [b3 p (by omega)]
        simp only [unshift]; rw [if_pos hp]
      · exact (SameFrom.unshift hfs (Nat.le_refl _)).trans b4 (by omega) (by omega)
      · rw [hdr]; exact a4
      · exact hq1s.congr fun p hp => hyq p (by omega)
      · intro hroom
        rw [Nat.mul_add, Nat.mul_one] at hroom
        exact hq1o.congr fun p _ hp => hyq p (by omega)
      · intro r hr c hc
        simp only [oFwd]
        split
        · rename_i hlt
          rw [hn, ← hfill r hr c hlt]
          have := idx_lt hr hlt
          simp only [shift]
          rw [b3 _ (by omega)]
          simp only [unshift]
          rw [if_neg (by omega)]; congr 1; omega
        · rename_i hge
          exact tail_shows _ _ b7 r hr c hc hge
    · simp only [if_neg hpos]
      have hn0 : n = 0 := by omega
      obtain ⟨b1, b2, b3, b4, b5, b6, b7⟩ := oFprop_ok (N := N) (NT := NT) (buf := buf) (tmp := tmp) (bbs := bbs) (used := used) (gn := gn)
        hR hb hX fs Ls.tail s.2 (k + 1) (fo + f.obj.neurons) (po + bbs * f.cnt) Q T
        (unshift (R * fo) O (fill (R * f.obj.neurons) 0 (shift (R * fo) O))) h his
        (hg.congr fun p hp => by simp only [unshift]; rw [if_pos (by omega)]) (by omega) (by omega)
      generalize oFprop R bbs used fs (k + 1) (fo + f.obj.neurons) (po + bbs * f.cnt) s.2 A Q T
        (unshift (R * fo) O (fill (R * f.obj.neurons) 0 (shift (R * fo) O))) = y at *
      refine ⟨fun p hp => b1 p (by omega), b2, ?_, ?_, ⟨hi, b5⟩, ⟨fun hh => absurd hh (by first | exact hpos | omega), b6⟩, ?_⟩
      · intro p hp
        rw [b3 p (by omega)]
        simp only [unshift]; rw [if_pos hp]
      · exact (SameFrom.unshift (fill_sameFrom _ _ _) (Nat.le_refl _)).trans b4 (by omega) (by omega)
      · intro r hr c hc
        simp only [oFwd]
        split
        · rename_i hlt
          have hmr : ¬ gmask g k r = true := fun hm' => by
            have := rank_lt hr hm'
            omega
          simp only [scatter]
          rw [if_neg hmr]
          have := idx_lt hr hlt
          simp only [shift]
          rw [b3 _ (by omega)]
          simp only [unshift, fill]
          rw [if_neg (by omega), if_pos (by omega)]
        · rename_i hge
          exact tail_shows _ _ b7 r hr c hc hge

theorem enterOpt_ok [One α] {n cnt maxNumel : Nat} {A : Mem α} (T : Mem α) {X : Mat α} (hX : Shows n cnt A X)
    (hB : n * (cnt + 1) ≤ maxNumel → Ones n cnt A) :
    Shows n cnt (enterOpt n cnt maxNumel A T).2.1 X ∧ Ones n cnt (enterOpt n cnt maxNumel A T).2.1 ∧
    SameFrom n T (enterOpt n cnt maxNumel A T).2.2 ∧
    ∀ T1 : Mem α, (∀ p < n, T1 p = (enterOpt n cnt maxNumel A T).2.2 p) →
      leaveOpt n cnt (enterOpt n cnt maxNumel A T).1 (enterOpt n cnt maxNumel A T).2.1 T1 = A := by
  unfold enterOpt
  by_cases h : n * (cnt + 1) ≤ maxNumel
  · rw [if_pos h]
    exact ⟨hX, hB h, SameFrom.refl _ _, fun _ _ => rfl⟩
  · rw [if_neg h]
    refine ⟨hX.congr fun p hp => ?_, fun r hr => ?_, copy_sameFrom _ _ _, fun T1 hT => ?_⟩
    · simp only [unshift]; rw [if_pos hp]
    · simp only [unshift, fill]; rw [if_neg (by omega), if_pos (by omega)]
    · funext p
      simp only [leaveOpt, if_true, unshift, copy, shift]
      by_cases h1 : p < n * cnt
      · rw [if_pos h1, if_pos h1]
      · rw [if_neg h1]
        by_cases h2 : p - n * cnt < n
        · rw [if_pos h2, hT _ h2]
          simp only [copy, shift]; rw [if_pos h2]; congr 1; omega
        · rw [if_neg h2, if_neg (by omega)]
          simp only [fill, shift]; rw [if_neg (by omega)]; congr 1; omega

/-- Column `j` belongs to the field of a layer under the gate. -/
def OCov (fs : List (Fld α)) (j : Nat) : Prop := ∃ f ∈ fs, f.ofs ≤ j ∧ j < f.ofs + f.cnt

theorem oBprop_ok [Zero α] [One α] [DecidableEq α] {N NT inc bias buf tmp R bbs gn : Nat} {need : Bool} (hR : R ≤ NT)
    (hu : R ≤ bias) {g X : Mat α} {O : Mem α} (hg : Shows R gn O g) (D0 : Mem α) :
    (fs : List (Fld α)) → (Ls : Laws fs) → (s : OState fs) → (k fo po : Nat) → (Q T P : Mem α) → (G : Mat α) →
    FieldsOk N NT inc buf tmp fs Ls → oInv true fs Ls s → oReady R bbs g X Q fs k po Ls s → k + fs.length ≤ gn →
    Shows R (fNeurons fs) (shift (R * fo) D0) G →
    (oBprop R bbs bias buf need fs k fo po s Q T O D0 P).Q = Q ∧
    SameFrom (bias + 2 * buf + tmp) T (oBprop R bbs bias buf need fs k fo po s Q T O D0 P).T ∧
    SameFrom (R * inc) P (oBprop R bbs bias buf need fs k fo po s Q T O D0 P).P ∧
    oInv true fs Ls (oBprop R bbs bias buf need fs k fo po s Q T O D0 P).s ∧
    oUpd R g X fs k Ls s G (oBprop R bbs bias buf need fs k fo po s Q T O D0 P).s ∧
    (need = true → ∀ r < R, ∀ j < inc, OCov fs j →
      (oBprop R bbs bias buf need fs k fo po s Q T O D0 P).P (r + R * j) = oBwd R g X fs k Ls s G r j)
  | [], _, _, _, _, _, _, _, _, _, _, _, _, _, _ =>
    ⟨rfl, SameFrom.refl _ _, SameFrom.refl _ _, trivial, trivial, fun _ _ _ _ _ ⟨_, h, _⟩ => absurd h List.not_mem_nil⟩
  | f :: fs, Ls, s, k, fo, po, Q, T, P, G, ⟨⟨e1, e2, e3, e4, e5, e6, e7⟩, h⟩, ⟨hi, his⟩, ⟨hr1, hr2⟩, hk, hD => by
    rw [List.length_cons] at hk
    have hmk := maskOf_eq hg (show k < gn by omega)
    have hro := openRows_congr hmk
    have hD2 : Shows R (fNeurons fs) (shift (R * (fo + f.obj.neurons)) D0) (colsFrom f.obj.neurons G) := by
      have := hD.shift (ofs := f.obj.neurons) (cnt := fNeurons fs) (Nat.le_refl _)
      rwa [shift_shift, ← Nat.mul_add] at this
    have hD1 : Shows R f.obj.neurons (shift (R * fo) D0) G := fun r hr c hc => hD r hr c (by simp only [fNeurons]; omega)
    obtain ⟨b1, b2, b3, b4, b5, b6⟩ := oBprop_ok (N := N) (NT := NT) (inc := inc) (bias := bias) (buf := buf) (tmp := tmp) (bbs := bbs)
      (need := need) hR hu hg D0 fs Ls.tail s.2 (k + 1) (fo + f.obj.neurons) (po + bbs * f.cnt) Q T P (colsFrom f.obj.neurons G) h his hr2
      (by omega) hD2
    simp only [oBprop, oInv, oUpd, hro]
    generalize oBprop R bbs bias buf need fs (k + 1) (fo + f.obj.neurons) (po + bbs * f.cnt) s.2 Q T O D0 P = y at *
    have ho : R * f.ofs + R * f.cnt ≤ R * inc := by rw [← Nat.mul_add]; exact Nat.mul_le_mul_left R e2
    -- what is left to show about `P`: the block of the field is `Z`, the rest is as it was
    have hPs : ∀ M : Mem α, SameFrom (R * f.cnt) (shift (R * f.ofs) y.P) M → SameFrom (R * inc) P (unshift (R * f.ofs) y.P M) :=
      fun M hM => b3.trans (SameFrom.unshift hM (Nat.le_refl _)) (Nat.le_refl _) ho
    have hPv : need = true → ∀ (M : Mem α) (Z : Mat α), SameFrom (R * f.cnt) (shift (R * f.ofs) y.P) M → Shows R f.cnt M Z →
        ∀ r < R, ∀ j < inc, OCov (f :: fs) j → unshift (R * f.ofs) y.P M (r + R * j) =
          if f.ofs ≤ j ∧ j < f.ofs + f.cnt then Z r (j - f.ofs) else oBwd R g X fs (k + 1) Ls.tail s.2 (colsFrom f.obj.neurons G) r j := by
      intro hneed M Z hM hZ r hr j hj hcov
      by_cases hc : f.ofs ≤ j ∧ j < f.ofs + f.cnt
      · rw [if_pos hc]
        obtain ⟨d, rfl⟩ : ∃ d, j = f.ofs + d := ⟨j - f.ofs, by omega⟩
        rw [Nat.add_sub_cancel_left, ← hZ r hr d (by omega)]
        have : r + R * (f.ofs + d) = R * f.ofs + (r + R * d) := by ring
        rw [this]
        simp only [unshift]
        rw [if_neg (by omega)]; congr 1; omega
      · rw [if_neg hc]
        have hcov' : OCov fs j := by
          obtain ⟨f', hf', hc'⟩ := hcov
          rcases List.mem_cons.1 hf' with rfl | hf'
          · exact absurd hc' hc
          · exact ⟨f', hf', hc'⟩
        rw [← b6 hneed r hr j hj hcov']
        simp only [unshift]
        by_cases hlt : j < f.ofs
        · rw [if_pos]
          exact idx_lt hr hlt
        · have h1 : R * (f.ofs + f.cnt) ≤ r + R * j := idx_ge (by omega)
          rw [Nat.mul_add] at h1
          rw [if_neg (by omega), hM _ (by omega)]
          simp only [shift]; congr 1; omega
    generalize hn : (openRows (gmask g k) R).length = n at *
    have hnR : n ≤ R := hn ▸ openRows_length_le _ _
    by_cases hpos : 0 < n
    · simp only [if_pos hpos]
      obtain ⟨q0, q1, q2, q3, q4⟩ := hr1 hpos
      rw [extractMem_congr hmk, b1]
      have hns : Shows n f.obj.neurons (extractMem R (gmask g k) f.obj.neurons (shift bias y.T) (shift (R * fo) D0))
          (pick R (gmask g k) G) := by rw [← hn]; exact extractMem_shows hD1
      have hnd : SameFrom (n * f.obj.neurons) (shift bias y.T)
          (extractMem R (gmask g k) f.obj.neurons (shift bias y.T) (shift (R * fo) D0)) := by
        rw [← hn]; exact extractMem_sameFrom _ _ _ _ _
      generalize extractMem R (gmask g k) f.obj.neurons (shift bias y.T) (shift (R * fo) D0) = d1 at *
      obtain ⟨w1, w2, w3, w4⟩ := enterOpt_ok (maxNumel := bbs * f.cnt) (unshift bias y.T d1) q3 q4
      generalize enterOpt n f.cnt (bbs * f.cnt) (shift po Q) (unshift bias y.T d1) = w at *
      have n1 : n * f.obj.neurons ≤ buf := Nat.le_trans (Nat.mul_le_mul_right _ (by omega)) e5
      have n2 : n * f.cnt ≤ buf := Nat.le_trans (Nat.mul_le_mul_right _ (by omega)) e4
      have fD : Shows n f.obj.neurons (shift bias w.2.2) (pick R (gmask g k) G) := by
        intro r hr c hc
        rw [← hns r hr c hc]
        simp only [shift]
        rw [w3 _ (by omega)]
        simp only [unshift]; rw [if_neg (by omega)]; congr 1; omega
      obtain ⟨a1, a2, a3, a4, a5, a6, a7, a8⟩ := e7.bprop_ok n need s.1.1 w.2.1 (shift (bias + 2 * buf) w.2.2)
        s.1.2.m (shift bias w.2.2) (shift (bias + buf) w.2.2) (pick R (gmask g k) (colsFrom f.ofs X)) (pick R (gmask g k) G)
        hpos (by omega) (q0 ▸ hi) q1 (e1 ▸ w1) (fun _ => e1 ▸ w2) q2 fD
      generalize f.obj.bprop n need s.1.1 w.2.1 (shift (bias + 2 * buf) w.2.2) s.1.2.m (shift bias w.2.2) (shift (bias + buf) w.2.2) = x at *
      rw [a1, w4 (unshift bias w.2.2 (unshift buf x.D (unshift buf x.P x.T)))
        (fun p hp => by simp only [unshift]; rw [if_pos (by omega)]), fillMem_congr hmk]
      refine ⟨unshift_shift _ _, ?_, ?_, ⟨q0.symm ▸ a6, b4⟩, ⟨a7, b5⟩, ?_⟩
      · intro p hp
        simp only [unshift]
        rw [if_neg (by omega), if_neg (by omega), if_neg (by omega), a2 _ (by omega)]
        simp only [shift]
        rw [show bias + 2 * buf + (p - bias - buf - buf) = p by omega, w3 p (by omega)]
        simp only [unshift]
        rw [if_neg (by omega), hnd _ (by omega)]
        simp only [shift]
        rw [show bias + (p - bias) = p by omega, b2 p (by omega)]
      · cases need with
        | false => simpa using b3
        | true =>
          simp only [if_true]
          exact hPs _ (fillMem_sameFrom _ _ _ _ _)
      · intro hneed
        have h8 := a8 hneed
        subst hneed
        simp only [if_true]
        intro r hr j hj hcov
        simp only [oBwd]
        rw [hn]
        refine hPv rfl _ (scatter (gmask g k) (Ls.head.bwd n s.1.1 (pick R (gmask g k) (colsFrom f.ofs X)) (pick R (gmask g k) G)))
          (fillMem_sameFrom _ _ _ _ _) (fillMem_shows ?_) r hr j hj hcov
        rw [hn]
        intro r' hr' d hd
        rw [← h8 r' hr' d (by omega)]
        have hidx := idx_lt hr' hd
        cases x.flag with
        | true =>
          simp only [if_true, shift, unshift]
          rw [if_neg (by omega), if_neg (by omega), if_pos (by omega)]; congr 1; omega
        | false =>
          simp only [Bool.false_eq_true, if_false, shift, unshift]
          rw [if_neg (by omega), if_pos (by omega)]; congr 1; omega
    · simp only [if_neg hpos]
      refine ⟨b1, b2, ?_, ⟨hi, b4⟩, ⟨?_, b5⟩, ?_⟩
      · cases need with
        | false => simpa using b3
        | true => simp only [if_true]; exact hPs _ (fill_sameFrom _ _ _)
      · trivial
      · intro hneed
        subst hneed
        simp only [if_true]
        intro r hr j hj hcov
        simp only [oBwd]
        refine hPv rfl _ _ (fill_sameFrom _ _ _) ?_ r hr j hj hcov
        intro r' hr' d hd
        have hmr : ¬ gmask g k r' = true := fun hm' => by
          have := rank_lt hr' hm'
          omega
        simp only [fill, scatter]
        rw [if_pos (idx_lt hr' hd), if_neg hmr]

theorem enter_ok' [One α] {R inc ofs cnt : Nat} {mk : Bool} {A : Mem α} (T : Mem α) {X : Mat α} (ho : ofs + cnt ≤ inc) (hX : Shows R inc A X)
    (hB : Ones R inc A) :
    Shows R cnt (shift (R * ofs) (enter R inc ofs cnt mk A T).2.1) (colsFrom ofs X) ∧
    (mk = true → Ones R cnt (shift (R * ofs) (enter R inc ofs cnt mk A T).2.1)) ∧
    SameFrom R T (enter R inc ofs cnt mk A T).2.2 ∧
    ∀ T1 : Mem α, (∀ p < R, T1 p = (enter R inc ofs cnt mk A T).2.2 p) →
      leave R ofs cnt (enter R inc ofs cnt mk A T).1 (enter R inc ofs cnt mk A T).2.1 T1 = A := by
  cases mk with
  | true =>
    obtain ⟨h1, h2, h3, h4⟩ := enter_ok T ho hX hB
    exact ⟨h1, fun _ => h2, h3, h4⟩
  | false =>
    have he : enter R inc ofs cnt false A T = (false, A, T) := by
      unfold enter; split <;> rfl
    rw [he]
    exact ⟨hX.shift ho, fun h => absurd h (by decide), SameFrom.refl _ _, fun _ _ => rfl⟩

theorem optional_lawful [Zero α] [One α] [DecidableEq α] {N NT inc bbs buf cap : Nat} {add : Bool} {compl : α → α} {g : Fld α}
    {fs : List (Fld α)} {Lg : Law g.obj} {Ls : Laws fs} (hg : Lawful N NT g.obj Lg) (hgi : g.obj.inc = g.cnt) (hgo : g.ofs + g.cnt ≤ inc)
    (hgn : g.obj.neurons = fs.length) (h : FieldsOk N NT inc buf (fTmp fs) fs Ls) (hb : N ≤ bbs) (hT : NT ≤ N)
    (hcov : ∀ j < inc, (g.ofs ≤ j ∧ j < g.ofs + g.cnt) ∨ OCov fs j) :
    Lawful N NT (optional inc bbs buf cap add compl true g fs) (optionalLaw inc bbs buf cap add compl Lg Ls) where
  mode_ok := fun b b' R s hi => ⟨hg.mode_ok b b' R s.1 hi.1, oMode_ok fs Ls s.2.2 h hi.2⟩
  resize_ok := fun b R0 R s hR hi => ⟨hg.resize_ok b R0 R s.1 hR hi.1, hi.2⟩
  fprop_ok := by
    rintro b R ⟨s1, Q, s2⟩ A T O X h0 hR ⟨hi1, hi2⟩ hX hB
    have hB := hB rfl
    simp only [optional, optionalLaw] at hX hB hi1 hi2 ⊢
    obtain ⟨w1, w2, w3, w4⟩ := enter_ok' (mk := g.obj.biases) T hgo hX hB
    generalize enter R inc g.ofs g.cnt g.obj.biases A T = w at *
    obtain ⟨a1, a2, a3, a4, a5, a6⟩ := hg.fprop_ok b R s1 (shift (R * g.ofs) w.2.1) (shift (bbs + 2 * buf) w.2.2) O
      (colsFrom g.ofs X) h0 hR hi1 (hgi ▸ w1) (fun hh => hgi ▸ w2 hh)
    generalize g.obj.fprop R s1 (shift (R * g.ofs) w.2.1) (shift (bbs + 2 * buf) w.2.2) O = x at *
    rw [a1, unshift_shift, w4 (unshift (bbs + 2 * buf) w.2.2 x.T) (fun p hp => by simp only [unshift]; rw [if_pos (by omega)])]
    generalize hT1 : unshift (bbs + 2 * buf) w.2.2 x.T = T1
    generalize hga : (if add then g.obj.neurons else 0) = ga
    generalize hO1 : (if add then unshift (R * g.obj.neurons) x.O
      (copy (R * g.obj.neurons) (shift (R * g.obj.neurons) x.O) (fun p => compl (x.O p))) else x.O) = O1
    have hO1a : ∀ p < R * g.obj.neurons, O1 p = x.O p := by
      intro p hp
      rw [← hO1]; split
      · simp only [unshift]; rw [if_pos hp]
      · rfl
    have hO1b : SameFrom (R * (g.obj.neurons + ga)) O O1 := by
      rw [← hO1, ← hga, Nat.mul_add]; split
      · exact a3.trans (SameFrom.unshift (copy_sameFrom _ _ _) (Nat.le_refl _)) (by omega) (Nat.le_refl _)
      · exact a3.mono (by omega)
    have hm : R * (g.obj.neurons + ga + fNeurons fs) = R * (g.obj.neurons + ga) + R * fNeurons fs := Nat.mul_add ..
    have hm2 : R * g.obj.neurons ≤ R * (g.obj.neurons + ga) := Nat.mul_le_mul_left R (by omega)
    obtain ⟨b1, b2, b3, b4, b5, b6, b7⟩ := oFprop_ok (used := bbs + 2 * buf) (bbs := bbs) hR hb hX fs Ls s2 0 (g.obj.neurons + ga) 0 Q T1 O1
      h hi2 (a6.congr hO1a) (by omega) (by omega)
    generalize oFprop R bbs (bbs + 2 * buf) fs 0 (g.obj.neurons + ga) 0 s2 A Q T1 O1 = y at *
    refine ⟨rfl, ?_, ?_, ⟨a4, b5⟩, ⟨a5, b6⟩, ?_⟩
    · have : SameFrom (bbs + 2 * buf + g.obj.tmp) T T1 := by
        rw [← hT1]; exact w3.trans (SameFrom.unshift a2 (Nat.le_refl _)) (by omega) (by omega)
      exact this.trans b2 (by omega) (by omega)
    · exact hO1b.trans b4 (by omega) (by omega)
    · intro r hr c hc
      show _ = if c < g.obj.neurons then _ else _
      by_cases hc1 : c < g.obj.neurons
      · rw [if_pos hc1]
        have hi := idx_lt hr hc1
        rw [b3 _ (by omega), hO1a _ (by omega)]
        exact a6 r hr c hc1
      · rw [if_neg hc1]
        by_cases hc2 : add = true ∧ c < g.obj.neurons + g.obj.neurons
        · rw [if_pos hc2]
          obtain ⟨d, rfl⟩ : ∃ d, c = g.obj.neurons + d := ⟨c - g.obj.neurons, by omega⟩
          have hd : d < g.obj.neurons := by omega
          have hi := idx_lt hr hd
          rw [if_pos hc2.1] at hga hO1
          have hr2 : r + R * (g.obj.neurons + d) = R * g.obj.neurons + (r + R * d) := by ring
          have hm3 : R * (g.obj.neurons + ga) = R * g.obj.neurons + R * g.obj.neurons := by rw [← hga]; ring
          rw [Nat.add_sub_cancel_left, ← a6 r hr d hd, hr2, b3 _ (by omega), ← hO1]
          simp only [unshift, copy]
          rw [if_neg (by omega), if_pos (by omega)]; congr 2; omega
        · rw [if_neg hc2]
          have hge : g.obj.neurons + ga ≤ c := by
            rw [← hga]; split
            · rename_i ha; have : ¬ c < g.obj.neurons + g.obj.neurons := fun hh => hc2 ⟨ha, hh⟩
              omega
            · omega
          obtain ⟨d, rfl⟩ : ∃ d, c = g.obj.neurons + ga + d := ⟨c - (g.obj.neurons + ga), by omega⟩
          rw [Nat.add_sub_cancel_left, ← b7 r hr d (by omega)]
          simp only [shift]; congr 1; ring
  bprop_ok := by
    rintro R need ⟨s1, Q, s2⟩ A T O D P X G h0 hR ⟨hi1, hi2⟩ ⟨hr1, hr2⟩ hX hB hO hD
    simp only [optional, optionalLaw, if_true] at hX hi1 hi2 hr1 hr2 hO hD ⊢
    generalize hga : (if add then g.obj.neurons else 0) = ga at *
    have hOg : Shows R g.obj.neurons O (Lg.fwd R s1 (colsFrom g.ofs X)) := by
      intro r hr c hc
      exact (hO r hr c (by omega)).trans (if_pos hc)
    have hDg : Shows R (fNeurons fs) (shift (R * (g.obj.neurons + ga)) D) (colsFrom (g.obj.neurons + ga) G) :=
      hD.shift (Nat.le_refl _)
    obtain ⟨b1, b2, b3, b4, b5, b6⟩ := oBprop_ok (inc := inc) (bias := bbs) (bbs := bbs) (need := need) hR (by omega) hOg D fs Ls s2 0
      (g.obj.neurons + ga) 0 Q T P _ h hi2 hr2 (by omega) hDg
    generalize oBprop R bbs bbs buf need fs 0 (g.obj.neurons + ga) 0 s2 Q T O D P = y at *
    have ho : R * g.ofs + R * g.cnt ≤ R * inc := by rw [← Nat.mul_add]; exact Nat.mul_le_mul_left R hgo
    refine ⟨trivial, b2.mono (by omega), SameFrom.refl _ _, SameFrom.refl _ _, ?_, ⟨hi1, b4⟩, ⟨trivial, b5⟩, ?_⟩
    · cases need with
      | false => simp only [Bool.false_eq_true, if_false]; exact b3.mono (by omega)
      | true =>
        simp only [if_true]
        exact (b3.trans (SameFrom.unshift (fill_sameFrom _ _ _) (Nat.le_refl _)) (Nat.le_refl _) ho).mono (by omega)
    · intro hneed
      have h6 := b6 hneed
      subst hneed
      simp only [if_true]
      intro r hr j hj
      show _ = if g.ofs ≤ j ∧ j < g.ofs + g.cnt then _ else _
      by_cases hc : g.ofs ≤ j ∧ j < g.ofs + g.cnt
      · rw [if_pos hc]
        obtain ⟨d, rfl⟩ : ∃ d, j = g.ofs + d := ⟨j - g.ofs, by omega⟩
        have hd : d < g.cnt := by omega
        have := idx_lt hr hd
        have hr3 : r + R * (g.ofs + d) = R * g.ofs + (r + R * d) := by ring
        rw [hr3]
        simp only [unshift, fill]
        rw [if_neg (by omega), if_pos (by omega)]
      · rw [if_neg hc]
        rcases hcov j hj with hh | hh
        · exact absurd hh hc
        · rw [← h6 r hr j hj hh]
          simp only [unshift]
          by_cases hlt : j < g.ofs
          · rw [if_pos]
            exact idx_lt hr hlt
          · have h1 : R * (g.ofs + g.cnt) ≤ r + R * j := idx_ge (by omega)
            rw [Nat.mul_add] at h1
            rw [if_neg (by omega)]
            simp only [fill, shift]
            rw [if_neg (by omega)]; congr 1; omega

end Nntl.Pass
