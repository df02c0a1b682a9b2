import Verif.TrainData.Inv
/-! `next_subset`, and the invariant over all histories. -/
namespace Nntl.TrainData
open Nntl.Matrix Nntl.Kernel
set_option linter.unusedSimpArgs false
set_option linter.unusedSectionVars false
variable {α β γ : Type}

theorem sampleAt_isSome {m : Mtx γ} {r j : Nat} (hr : r < m.batchSize) (hj : j < m.sampleSize) : (sampleAt m r j).isSome := by
  unfold sampleAt Mtx.get
  unfold Mtx.batchSize at hr
  unfold Mtx.sampleSize at hj
  have := rowsNoBias_le m
  have := colsNoBias_le m
  cases hb : m.bir <;> simp only [hb, Bool.false_eq_true, if_true, if_false] at hr hj ⊢
  · rw [if_pos ⟨hr, by omega⟩]; rfl
  · rw [if_pos ⟨by omega, hr⟩]; rfl

theorem rowIs_self {m : Mtx γ} {r : Nat} (hr : r < m.batchSize) : RowIs m m r r :=
  ⟨rfl, hr, hr, fun _ hj => ⟨rfl, sampleAt_isSome hr hj⟩⟩

theorem seq_to {src dest : Mtx γ} {ex : Exec} (hex : ex.Ok) {em w start} (hs : Shape dest em false w) (hw : 0 < w)
    (hbir : src.bir = false) (hss : src.sampleSize = w) (hle : start + dest.batchSize ≤ src.batchSize) {d' : Nat → γ}
    (h : Outcome (mExtractRowsSeq ex src dest start) dest.data d') :
    (∀ r, r < dest.batchSize → RowIs { dest with data := d' } src r (start + r)) ∧
    (∀ r c, r < dest.rows → c < dest.cols → ¬ (r < dest.rowsNoBias ∧ c < dest.colsNoBias) →
      Mtx.get { dest with data := d' } r c = dest.get r c) := by
  have hp := shape_pos hs hw
  have hf := extract_rows_seq ex hex src dest start hp.2 d' h
  have hdb : dest.bir = false := hs.bir
  have hrn : dest.rowsNoBias = dest.rows := rowsNoBias_eq (by rw [hdb]; simp)
  have hbs : dest.batchSize = dest.rows := by simp [Mtx.batchSize, hdb]
  have hcs : dest.sampleSize = dest.colsNoBias := by simp [Mtx.sampleSize, hdb]
  have hbs' : src.batchSize = src.rows := by simp [Mtx.batchSize, hbir]
  have hcs' : src.sampleSize = src.colsNoBias := by simp [Mtx.sampleSize, hbir]
  have hsz : dest.sampleSize = w := hs.sampleSize
  constructor
  · intro r hr
    refine ⟨?_, hr, by omega, ?_⟩
    · rw [hss]; exact (hs.data d').sampleSize
    · intro j hj
      have hj : j < dest.sampleSize := hj
      refine ⟨?_, sampleAt_isSome (by omega) (by omega)⟩
      have hget := hf.get (src := src) (Nat.le_refl _) (colsNoBias_le _) (r := r) (c := j) (by omega) (by omega)
      unfold sampleAt
      rw [if_neg (by show ¬ dest.bir = true; rw [hdb]; simp), if_neg (by rw [hbir]; simp), hget]
      unfold Mtx.get
      have := colsNoBias_le src
      rw [if_pos ⟨by omega, by omega⟩]
  · intro r c hr hc hno
    unfold Mtx.get
    rw [if_pos ⟨hr, hc⟩, if_pos ⟨hr, hc⟩]
    refine congrArg some (hf.2 _ ?_)
    intro r2 c2 h1 h2 he
    have := cell_inj (R := dest.rows) hr h1 he
    exact hno ⟨by omega, by omega⟩

theorem view_to {w src w' : Mtx γ} {start r bs : Nat} {em : Bool} (hbir : src.bir = true) (hem : src.emul = em)
    (hr : r = src.sampleSize + em.toNat) (hpos : 0 < src.sampleSize) (hle : start + bs ≤ src.batchSize)
    (h : colView w src start r bs em = some w') :
    w'.batchSize = bs ∧ ∀ k, k < bs → RowIs w' src k (start + k) := by
  unfold colView Mtx.dUseExternal at h
  split at h
  · cases h
    refine ⟨by simp [Mtx.batchSize], ?_⟩
    have hrows : r = src.rows := by
      have : src.sampleSize = src.rowsNoBias := by simp [Mtx.sampleSize, hbir]
      unfold Mtx.rowsNoBias at this
      rw [hbir, hem] at this
      cases em <;> simp at this hr <;> omega
    have hss : ∀ d c, Mtx.sampleSize ({ data := d, cap := c, rows := r, cols := bs, emul := em, ext := true, holey := false, bir := true, maxSize := r * bs } : Mtx γ) = src.sampleSize := by
      intro d c
      simp only [Mtx.sampleSize, Mtx.rowsNoBias, hbir, hem, if_true, Bool.and_true, hrows]
    intro k hk
    refine ⟨hss _ _, by simpa [Mtx.batchSize] using hk, by omega, ?_⟩
    intro j hj
    rw [hss] at hj
    refine ⟨?_, sampleAt_isSome (by omega) hj⟩
    have hjr : j < src.rows := by
      have : src.sampleSize = src.rowsNoBias := by simp [Mtx.sampleSize, hbir]
      have := rowsNoBias_le src
      omega
    have hcc : start + k < src.cols := by
      have : src.batchSize = src.cols := by simp [Mtx.batchSize, hbir]
      omega
    unfold sampleAt
    simp only [hbir, if_true]
    unfold Mtx.get
    rw [if_pos ⟨by simpa [hrows] using hjr, hk⟩, if_pos ⟨hjr, hcc⟩]
    unfold Mtx.cell
    simp only [hrows]
    rw [Nat.mul_add]
    congr 2
    omega
  · contradiction

variable [OfNat α 1] [OfNat β 1]

/-- `next_subset` in mini-batch mode. -/
theorem nextSubset_mini {exX exY : Exec} (hX : exX.Ok) (hY : exY.Ok) {t t' : TD α β} {i : Nat} {s : SetId} (hI : Inv t)
    (hs : t.walk = some s) (hc : t.cur > 0) (h : NextSubset exX exY t i t') :
    ∃ b bs : Nat, 0 < b ∧ t.cur = b ∧ i * b < t.d.count s ∧ bs = min b (t.d.count s - i * b) ∧
    (∃ bx wx bY wY, t' = { t with bx := bx, wx := wx, bY := bY, wY := wY }) ∧ Inv t' ∧
    (∀ x, batchX t' = some x → x.batchSize = bs ∧ ∀ r, r < bs → RowIs x (t.d.X s) r (i * b + r)) ∧
    (∀ y, batchY t' = some y → y.batchSize = bs ∧ ∀ r, r < bs → RowIs y (t.d.Y s) r (i * b + r)) ∧
    (t.px = .batch → t'.bx.batchSize = bs) ∧ (t.py = .batch → t'.bY.batchSize = bs) ∧
    t'.bx.maxSize = t.bx.maxSize ∧ t'.bY.maxSize = t.bY.maxSize := by
  obtain ⟨s', hs', h⟩ := h
  have : s = s' := by rw [hs] at hs'; exact Option.some.inj hs'
  subst this
  rw [if_pos hc] at h
  obtain ⟨b, hb⟩ : ∃ b : Nat, t.cur = b := ⟨t.cur.toNat, by omega⟩
  have hcnt : (t.d.X s).batchSize = t.d.count s := rfl
  simp only [hb, Int.toNat_natCast, hcnt] at h
  obtain ⟨hst, bx1, bY1, hsx, hsy, bx2, wx2, bY2, wY2, hfx, hfy, rfl⟩ := h
  have hbs : (if ((t.d.count s - i * b : Nat) : Int) < b then t.d.count s - i * b else b) = min b (t.d.count s - i * b) := by
    split <;> omega
  rw [hbs] at hfx hfy
  generalize hbsd : min b (t.d.count s - i * b) = bs at *
  have hbpos : 0 < bs := by omega
  have hfit : i * b + bs ≤ t.d.count s := by omega
  -- X
  have pX := (hI.ptrX s hs).2 hc
  have pY := (hI.ptrY s hs).2 hc
  have hbx1 : (t.px = .batch → Shape bx1 true (t.d.X .train).bir t.d.xW ∧ bx1.batchSize = bs ∧ bx1.cap ≠ 0) ∧
      BiasesAreOnes bx1 ∧ bx1.maxSize = t.bx.maxSize ∧ (bx1.cap ≠ 0 → Shape bx1 true (t.d.X .train).bir t.d.xW) ∧
      (t.bx.cap ≠ 0 → bx1.cap ≠ 0) := by
    unfold shrinkX at hsx
    rw [hb] at hsx
    split at hsx
    · rename_i hlt
      have : bs = t.d.count s - i * b := by omega
      rw [← this] at hsx
      split at hsx
      · obtain ⟨s1, s2, s3, s4, s5⟩ := (hI.bxOk (deformWB_nonempty hsx)).deformWB hI.bxOnes hbpos hsx
        exact ⟨fun _ => ⟨s1, s2, s3⟩, s4, s5, fun _ => s1, fun _ => s3⟩
      · rename_i hn; cases hsx; exact ⟨fun hp => absurd hp hn, hI.bxOnes, rfl, hI.bxOk, id⟩
    · rename_i hlt
      split at hsx
      · contradiction
      · rename_i hn
        cases hsx
        refine ⟨fun hp => ?_, hI.bxOnes, rfl, hI.bxOk, id⟩
        have hcap : t.bx.cap ≠ 0 := by
          rcases pX with h1 | h1 | h1
          · rw [h1] at hp; cases hp
          · exact h1.2.2
          · rw [h1.1] at hp; cases hp
        refine ⟨hI.bxOk hcap, ?_, hcap⟩
        have : ¬ ((t.bx.batchSize : Int) ≠ b) := fun hh => hn ⟨hp, hh⟩
        omega
  have hby1 : (t.py = .batch → Shape bY1 false (t.d.Y .train).bir t.d.yW ∧ bY1.batchSize = bs ∧ bY1.cap ≠ 0) ∧
      bY1.maxSize = t.bY.maxSize ∧ (bY1.cap ≠ 0 → Shape bY1 false (t.d.Y .train).bir t.d.yW) ∧
      (t.bY.cap ≠ 0 → bY1.cap ≠ 0) := by
    unfold shrinkY at hsy
    rw [hb] at hsy
    split at hsy
    · rename_i hlt
      have : bs = t.d.count s - i * b := by omega
      rw [← this] at hsy
      split at hsy
      · obtain ⟨s1, s2, s3, -⟩ := (hI.byOk (deform_nonempty hsy)).deform hbpos hsy
        exact ⟨fun _ => ⟨s1, s2, s3⟩, deformY_maxSize hsy, fun _ => s1, fun _ => s3⟩
      · rename_i hn; cases hsy; exact ⟨fun hp => absurd hp hn, rfl, hI.byOk, id⟩
    · rename_i hlt
      split at hsy
      · contradiction
      · rename_i hn
        cases hsy
        refine ⟨fun hp => ?_, rfl, hI.byOk, id⟩
        have hcap : t.bY.cap ≠ 0 := by
          rcases pY with h1 | h1 | h1
          · rw [h1] at hp; cases hp
          · exact h1.2.2
          · rw [h1.1] at hp; cases hp
        refine ⟨hI.byOk hcap, ?_, hcap⟩
        have : ¬ ((t.bY.batchSize : Int) ≠ b) := fun hh => hn ⟨hp, hh⟩
        omega
  have hdX := hI.dOk.birX s
  have hdY := hI.dOk.birY s
  -- results
  have rX : (∀ x, batchX { t with bx := bx2, wx := wx2, bY := bY2, wY := wY2 } = some x →
        x.batchSize = bs ∧ ∀ r, r < bs → RowIs x (t.d.X s) r (i * b + r)) ∧
      (t.px = .batch → bx2.batchSize = bs) ∧ bx2.maxSize = bx1.maxSize ∧ BiasesAreOnes bx2 ∧ bx2.cap = bx1.cap ∧
      (bx2.cap ≠ 0 → Shape bx2 true (t.d.X .train).bir t.d.xW) := by
    rcases pX with h1 | ⟨h1, h2, h3⟩ | ⟨h1, h2⟩
    · rw [h1] at hfx
      simp only [FetchX] at hfx
      obtain ⟨rfl, rfl⟩ := hfx
      refine ⟨?_, ?_, rfl, hbx1.2.1, rfl, hbx1.2.2.2.1⟩
      · intro x hx; simp [batchX, h1] at hx
      · intro hp; rw [h1] at hp; cases hp
    · rw [h1] at hfx
      simp only [FetchX] at hfx
      obtain ⟨rfl, dx, ho, rfl⟩ := hfx
      obtain ⟨q1, q2, q3⟩ := hbx1.1 h1
      rw [h2] at q1
      have hsq := seq_to hX q1 hI.dOk.posX (by rw [hdX, h2]) (hI.dOk.widthX s) (by rw [q2]; exact hfit) ho
      refine ⟨?_, fun _ => q2, rfl, ones_of_untouched hbx1.2.1 hsq.2, rfl, fun hcc => (hbx1.2.2.2.1 hcc).data dx⟩
      intro x hx
      simp only [batchX, h1, Option.some.injEq] at hx
      subst hx
      exact ⟨q2, fun r hr => hsq.1 r (by omega)⟩
    · rw [h1] at hfx
      simp only [FetchX] at hfx
      obtain ⟨rfl, hv⟩ := hfx
      refine ⟨?_, ?_, rfl, hbx1.2.1, rfl, hbx1.2.2.2.1⟩
      · intro x hx
        simp only [batchX, h1, Option.some.injEq] at hx
        subst hx
        exact view_to (by rw [hdX, h2]) (hI.dOk.emulX s) rfl (by rw [hI.dOk.widthX s]; exact hI.dOk.posX) hfit hv
      · intro hp; rw [h1] at hp; cases hp
  have rY : (∀ y, batchY { t with bx := bx2, wx := wx2, bY := bY2, wY := wY2 } = some y →
        y.batchSize = bs ∧ ∀ r, r < bs → RowIs y (t.d.Y s) r (i * b + r)) ∧
      (t.py = .batch → bY2.batchSize = bs) ∧ bY2.maxSize = bY1.maxSize ∧ bY2.cap = bY1.cap ∧
      (bY2.cap ≠ 0 → Shape bY2 false (t.d.Y .train).bir t.d.yW) := by
    have hsame : (t.d.Y s).batchSize = t.d.count s := hI.dOk.same s
    rcases pY with h1 | ⟨h1, h2, h3⟩ | ⟨h1, h2⟩
    · rw [h1] at hfy
      simp only [FetchY] at hfy
      obtain ⟨rfl, rfl⟩ := hfy
      refine ⟨?_, ?_, rfl, rfl, hby1.2.2.1⟩
      · intro x hx; simp [batchY, h1] at hx
      · intro hp; rw [h1] at hp; cases hp
    · rw [h1] at hfy
      simp only [FetchY] at hfy
      obtain ⟨rfl, dy, ho, rfl⟩ := hfy
      obtain ⟨q1, q2, q3⟩ := hby1.1 h1
      rw [h2] at q1
      have hsq := seq_to hY q1 hI.dOk.posY (by rw [hdY, h2]) (hI.dOk.widthY s) (by rw [q2, hsame]; exact hfit) ho
      refine ⟨?_, fun _ => q2, rfl, rfl, fun hcc => (hby1.2.2.1 hcc).data dy⟩
      intro x hx
      simp only [batchY, h1, Option.some.injEq] at hx
      subst hx
      exact ⟨q2, fun r hr => hsq.1 r (by omega)⟩
    · rw [h1] at hfy
      simp only [FetchY] at hfy
      obtain ⟨rfl, hv⟩ := hfy
      refine ⟨?_, ?_, rfl, rfl, hby1.2.2.1⟩
      · intro x hx
        simp only [batchY, h1, Option.some.injEq] at hx
        subst hx
        exact view_to (by rw [hdY, h2]) (hI.dOk.emulY s) rfl (by rw [hI.dOk.widthY s]; exact hI.dOk.posY)
          (by rw [hsame]; exact hfit) hv
      · intro hp; rw [h1] at hp; cases hp
  refine ⟨b, bs, by omega, hb, hst, hbsd.symm, ⟨bx2, wx2, bY2, wY2, by rw [hb]⟩, ?_, rX.1, rY.1, rX.2.1, rY.2.1, ?_, ?_⟩
  · exact {
      dOk := hI.dOk
      bxOk := rX.2.2.2.2.2
      bxOnes := rX.2.2.2.1
      byOk := rY.2.2.2.2
      mini := fun hm => by
        obtain ⟨m1, m2, m3, m4, m5⟩ := hI.mini hm
        refine ⟨?_, ?_, m3, ?_, ?_⟩
        · show bx2.cap ≠ 0; rw [rX.2.2.2.2.1]; exact hbx1.2.2.2.2 m1
        · show bY2.cap ≠ 0; rw [rY.2.2.2.1]; exact hby1.2.2.2 m2
        · show _ ≤ bx2.maxSize; rw [rX.2.2.1, hbx1.2.2.1]; exact m4
        · show _ ≤ bY2.maxSize; rw [rY.2.2.1, hby1.2.1]; exact m5
      trainLe := hI.trainLe
      full := hI.full
      ptrX := fun s' hs'' => by
        refine ⟨fun hcc => (hI.ptrX s' hs'').1 (hb.trans hcc), fun hcc => ?_⟩
        rcases (hI.ptrX s' hs'').2 hc with h1 | ⟨h1, h2, h3⟩ | h1
        · exact Or.inl h1
        · exact Or.inr (Or.inl ⟨h1, h2, by show bx2.cap ≠ 0; rw [rX.2.2.2.2.1]; exact hbx1.2.2.2.2 h3⟩)
        · exact Or.inr (Or.inr h1)
      ptrY := fun s' hs'' => by
        refine ⟨fun hcc => (hI.ptrY s' hs'').1 (hb.trans hcc), fun hcc => ?_⟩
        rcases (hI.ptrY s' hs'').2 hc with h1 | ⟨h1, h2, h3⟩ | h1
        · exact Or.inl h1
        · exact Or.inr (Or.inl ⟨h1, h2, by show bY2.cap ≠ 0; rw [rY.2.2.2.1]; exact hby1.2.2.2 h3⟩)
        · exact Or.inr (Or.inr h1)
      ptrE := fun hw => by
        have hw : t.walk = none := hw
        rw [hs] at hw; cases hw }
  · show bx2.maxSize = _; rw [rX.2.2.1, hbx1.2.2.1]
  · show bY2.maxSize = _; rw [rY.2.2.1, hby1.2.1]

theorem inv_subset {exX exY : Exec} (hX : exX.Ok) (hY : exY.Ok) {t t' : TD α β} {i : Nat} (hI : Inv t)
    (h : NextSubset exX exY t i t') : Inv t' ∧ t'.d = t.d := by
  by_cases hc : t.cur > 0
  · obtain ⟨s, hs, -⟩ := id h
    obtain ⟨b, bs, -, -, -, -, ⟨bx, wx, bY, wY, he⟩, hi, -⟩ := nextSubset_mini hX hY hI hs hc h
    exact ⟨hi, by rw [he]⟩
  · obtain ⟨s, hs, h⟩ := h
    rw [if_neg hc] at h
    rw [h.2]
    exact ⟨hI, rfl⟩

theorem inv_step {vmax : Nat} {t t' : TD α β} (hI : Inv t) (h : Step vmax t t') : Inv t' ∧ t'.d = t.d := by
  cases h with
  | deinit => exact ⟨inv_deinit hI.dOk, rfl⟩
  | train _ _ _ _ _ h => exact inv_train hI h
  | inference _ _ _ _ h => exact inv_inference hI h
  | epoch _ _ _ _ _ _ h1 h2 => exact inv_epoch h1 hI h2
  | batch _ _ _ _ _ h1 h2 h3 => exact inv_batch h1 h2 hI h3
  | walk _ _ _ _ _ _ _ _ h => exact inv_walk hI h
  | subset _ _ _ _ _ h1 h2 h3 => exact inv_subset h1 h2 hI h3

theorem reach_inv {vmax : Nat} {d : Data α β} (hd : d.Ok) {t : TD α β} (h : Reach vmax d t) : Inv t ∧ t.d = d := by
  induction h with
  | fresh ja jb => exact ⟨inv_fresh hd ja jb, rfl⟩
  | step _ hs ih =>
    obtain ⟨h1, h2⟩ := inv_step ih.1 hs
    exact ⟨h1, h2.trans ih.2⟩

end Nntl.TrainData
