import Verif.MtxTest.Props
import Verif.Matrix.BiasInv
/-! C162: the flag of the biases tells the truth after every operation; what the functions that copy biases do. -/
namespace Nntl.MtxTest
open Nntl.Matrix
variable {t : VT}

theorem one_num : (1 : Bits t).num = some 1 := (num_one_iff _).2 rfl

/-- Contents of the biases, by cells. -/
theorem biases_iff (m : Mtx (Bits t)) (P : Bits t → Prop) :
    AllBiases m P ↔ ∀ r c, r < m.rows → c < m.cols → IsBias m r c → P (m.data (r + m.rows * c)) := by
  unfold AllBiases
  refine forall_congr' fun r => forall_congr' fun c => forall_congr' fun hr => forall_congr' fun hc => forall_congr' fun _ => ?_
  unfold Mtx.get Mtx.cell; rw [if_pos ⟨hr, hc⟩]; simp

theorem flag_ones (m : Mtx (Bits t)) (h : ∀ r c, r < m.rows → c < m.cols → IsBias m r c → m.data (r + m.rows * c) = 1) : FlagIsTrue m := by
  intro _ _
  split
  · rw [biases_iff]; intro r c hr hc hb; rw [h r c hr hc hb]; exact .inr one_num
  · rw [biases_iff]; intro r c hr hc hb; rw [h r c hr hc hb]; exact one_num

/-- The flag and the biases are those of a matrix whose flag tells the truth. -/
theorem flag_same (m m' : Mtx (Bits t)) (h : FlagIsTrue m) (hc : m'.cap ≠ 0 → m.cap ≠ 0) (he : m'.emul = true → m.emul = true)
    (hh : m'.emul = true → m'.holey = m.holey)
    (hd : ∀ r c, r < m'.rows → c < m'.cols → IsBias m' r c → r < m.rows ∧ c < m.cols ∧ IsBias m r c ∧ m'.data (r + m'.rows * c) = m.data (r + m.rows * c)) :
    FlagIsTrue m' := by
  intro h1 h2
  have := h (hc h1) (he h2)
  rw [hh h2]
  by_cases hx : m.holey = true
  · rw [if_pos hx, biases_iff] at this ⊢
    intro r c hr hc hb
    obtain ⟨a, b, d, e⟩ := hd r c hr hc hb
    rw [e]; exact this r c a b d
  · rw [if_neg hx, biases_iff] at this ⊢
    intro r c hr hc hb
    obtain ⟨a, b, d, e⟩ := hd r c hr hc hb
    rw [e]; exact this r c a b d

theorem bias_above (m : Mtx (Bits t)) (hb : m.emul = true → m.bir = false) (r c : Nat) (_hr : r < m.rows) (hc : c < m.cols) (h : IsBias m r c) :
    m.numelNoBias ≤ r + m.rows * c := by
  obtain ⟨he, hi⟩ := h
  rw [hb he] at hi
  have hc' : c = m.cols - 1 := by simp at hi; omega
  have e : m.numelNoBias = m.rows * (m.cols - 1) := by
    unfold Mtx.numelNoBias Mtx.rowsNoBias Mtx.colsNoBias; rw [he, hb he]; rfl
  rw [e, hc']; omega

/-! ### Copying biases -/

theorem copyAt_apply {α : Type} (d : Nat → α) (o : Nat) (s : Nat → α) (n k : Nat) :
    copyAt d o s n k = if o ≤ k ∧ k < o + n then s (k - o) else d k := by
  induction n with
  | zero => simp only [copyAt]; rw [if_neg]; omega
  | succ n ih =>
    simp only [copyAt, upd_apply, ih]
    by_cases h : k = o + n
    · subst h; rw [if_pos rfl, if_pos (by omega)]; congr 1; omega
    · rw [if_neg h]
      by_cases h2 : o ≤ k ∧ k < o + n
      · rw [if_pos h2, if_pos (by omega)]
      · rw [if_neg h2, if_neg (by omega)]

theorem vec_tells (dbg quiet : Bool) (d : Nat → Bits t) (cap ofs ne : Nat) (h : ofs + ne ≤ cap) :
    Tells (dbg && !quiet) (∀ i, i < ne → ZeroOne (d (ofs + i))) (isBinaryVec dbg quiet d cap ofs ne) :=
  scanNe_tells dbg quiet binC d cap ofs ne h _ (forall_congr' fun _ => forall_congr' fun _ => binC_iff _)

theorem vec_true {dbg quiet : Bool} {d : Nat → Bits t} {cap ofs ne : Nat} (h : ofs + ne ≤ cap)
    (hr : isBinaryVec dbg quiet d cap ofs ne = .ret true) : ∀ i, i < ne → ZeroOne (d (ofs + i)) := by
  rcases vec_tells dbg quiet d cap ofs ne h with ⟨h, _⟩ | ⟨_, h⟩
  · exact h
  · rw [hr] at h; split at h <;> cases h

/-- The cell of the bias of row `r`. -/
theorem col_cell {R C r c : Nat} (hr : r < R) (hc : c < C) (hb : ¬ c + 1 = C) : r + R * c < R * (C - 1) := cell_lt hr (by omega)

/-- `copy_biases_from(ptr, n)`: every bias becomes the element of the vector, no other element changes, and the flag is set unless the count is complete. -/
theorem biases_copied (m m' : Mtx (Bits t)) (ptr : Nat → Bits t) (n : Nat) (h : copyBiasesPtr m ptr n = some m') :
    m'.rows = m.rows ∧ m'.cols = m.cols ∧ m'.emul = m.emul ∧ m'.bir = m.bir ∧ (m'.holey = true ↔ n ≠ m.rows) ∧
      (∀ k, k < m.rows → ZeroOne (ptr k)) ∧
      ∀ r c, r < m.rows → c < m.cols → (IsBias m r c → m'.get r c = some (ptr r)) ∧ (¬ IsBias m r c → m'.get r c = m.get r c) := by
  unfold copyBiasesPtr at h
  split at h
  next hc =>
    simp only [Bool.and_eq_true, decide_eq_true_eq, Bool.not_eq_true', beq_iff_eq] at hc
    cases h
    refine ⟨rfl, rfl, rfl, rfl, by simp, fun k hk => ?_, fun r c hr hc' => ⟨fun hb => ?_, fun hb => ?_⟩⟩
    · have := vec_true (by omega) hc.2 k hk
      rwa [Nat.zero_add] at this
    · have hcc : c = m.cols - 1 := by
        have := hb.2; rw [hc.1.2] at this; simp at this; omega
      show (if r < m.rows ∧ c < m.cols then some (copyAt m.data (m.rows * (m.cols - 1)) ptr m.rows (r + m.rows * c)) else none) = _
      rw [if_pos ⟨hr, hc'⟩, copyAt_apply, hcc, if_pos (by omega)]
      congr 2; omega
    · have hcc : ¬ c + 1 = m.cols := fun hh => hb ⟨hc.1.1.1.1, by rw [hc.1.2]; simpa using hh⟩
      show (if r < m.rows ∧ c < m.cols then some (copyAt m.data (m.rows * (m.cols - 1)) ptr m.rows (r + m.rows * c)) else none) = _
      have := col_cell hr hc' hcc
      rw [if_pos ⟨hr, hc'⟩, copyAt_apply, if_neg (by omega)]
      unfold Mtx.get; rw [if_pos ⟨hr, hc'⟩]; rfl
  · cases h

/-- `copy_biases_from(src)`: every bias becomes that of the same row of the source — if the flag of the source tells the truth —, no other element
changes, and the flag is that of the source. -/
theorem biases_copied_from_matrix (m src m' : Mtx (Bits t)) (hs : Solid src) (hf : FlagIsTrue src) (hl : src.holey = false → src.bir = false)
    (h : copyBiasesMtx m src = some m') :
    m'.rows = m.rows ∧ m'.cols = m.cols ∧ m'.emul = m.emul ∧ m'.bir = m.bir ∧ m'.holey = src.holey ∧
      ∀ r c, r < m.rows → c < m.cols →
        (IsBias m r c → m'.get r c = src.get r (src.cols - 1)) ∧ (¬ IsBias m r c → m'.get r c = m.get r c) := by
  obtain ⟨s1, s2, s3⟩ := hs
  have hcap : src.cap ≠ 0 := by
    have := Nat.mul_pos s1 s2
    omega
  unfold copyBiasesMtx at h
  split at h
  next hc =>
    simp only [Bool.and_eq_true, Bool.not_eq_true', beq_iff_eq] at hc
    have hrows : src.rows = m.rows := hc.1.2
    have hbir : m.bir = false := hc.2
    have hem : m.emul = true := hc.1.1.1.1.1
    rcases hh : src.holey with _ | _
    · rw [hh] at h
      simp only [Bool.false_eq_true, if_false] at h
      cases h
      refine ⟨rfl, rfl, rfl, rfl, rfl, fun r c hr hc' => ⟨fun hb => ?_, fun hb => ?_⟩⟩
      · have hcc : c = m.cols - 1 := by
          have := hb.2; rw [hbir] at this; simp at this; omega
        have hsb := hf hcap hc.1.1.1.2
        rw [hh] at hsb
        simp only [Bool.false_eq_true, if_false] at hsb
        obtain ⟨b, hg, hb1⟩ := hsb r (src.cols - 1) (by omega) (by omega) ⟨hc.1.1.1.2, by rw [hl hh]; simp; omega⟩
        rw [hg]
        show (if r < m.rows ∧ c < m.cols then some (fillSeq m.data (m.rows * (m.cols - 1)) 1 m.rows (r + m.rows * c)) else none) = _
        rw [if_pos ⟨hr, hc'⟩, fillSeq_apply, hcc, if_pos (by omega)]
        have : b = 1 := by
          have := (num_one_iff b).1 hb1
          cases b; cases this; rfl
        rw [this]
      · have hcc : ¬ c + 1 = m.cols := fun hh => hb ⟨hem, by rw [hbir]; simpa using hh⟩
        have := col_cell hr hc' hcc
        show (if r < m.rows ∧ c < m.cols then some (fillSeq m.data (m.rows * (m.cols - 1)) 1 m.rows (r + m.rows * c)) else none) = _
        rw [if_pos ⟨hr, hc'⟩, fillSeq_apply, if_neg (by omega)]
        unfold Mtx.get; rw [if_pos ⟨hr, hc'⟩]; rfl
    · rw [hh] at h
      simp only [if_true] at h
      split at h
      next =>
        cases h
        refine ⟨rfl, rfl, rfl, rfl, rfl, fun r c hr hc' => ⟨fun hb => ?_, fun hb => ?_⟩⟩
        · have hcc : c = m.cols - 1 := by
            have := hb.2; rw [hbir] at this; simp at this; omega
          show (if r < m.rows ∧ c < m.cols then some (copyAt m.data (m.rows * (m.cols - 1)) (fun k => src.data (src.rows * (src.cols - 1) + k)) m.rows
            (r + m.rows * c)) else none) = _
          rw [if_pos ⟨hr, hc'⟩, copyAt_apply, hcc, if_pos (by omega)]
          unfold Mtx.get Mtx.cell
          rw [if_pos ⟨by omega, by omega⟩]
          congr 2; omega
        · have hcc : ¬ c + 1 = m.cols := fun hh => hb ⟨hem, by rw [hbir]; simpa using hh⟩
          have := col_cell hr hc' hcc
          show (if r < m.rows ∧ c < m.cols then some (copyAt m.data (m.rows * (m.cols - 1)) (fun k => src.data (src.rows * (src.cols - 1) + k)) m.rows
            (r + m.rows * c)) else none) = _
          rw [if_pos ⟨hr, hc'⟩, copyAt_apply, if_neg (by omega)]
          unfold Mtx.get; rw [if_pos ⟨hr, hc'⟩]; rfl
      · cases h
  · cases h

/-! ### One operation -/

theorem step_keeps (o : HOp t) (m m' : Mtx (Bits t)) (hf : o.fair m) (hi : FlagIsTrue m) (h : o.step m = some m') : FlagIsTrue m' := by
  cases o with
  | write r c v =>
    simp only [HOp.step] at h
    split at h
    next hrc =>
      unfold Mtx.set at h
      split at h
      · cases h
        refine flag_same m _ hi id id (fun _ => rfl) fun r' c' hr' hc' hb => ⟨hr', hc', hb, ?_⟩
        show (if r' + m.rows * c' = r + m.rows * c then _ else _) = _
        rw [if_neg]
        intro he
        have hr' : r' < m.rows := hr'
        obtain ⟨rfl, rfl⟩ := cell_inj hr' (by unfold Mtx.rowsNoBias at hrc; omega) he
        obtain ⟨hem, hb2⟩ := hb
        have hem' : m.emul = true := hem
        unfold Mtx.rowsNoBias Mtx.colsNoBias at hrc
        rw [hem'] at hrc
        rcases hbir : m.bir with _ | _
        · have hb3 : c' + 1 = m.cols := by simpa [hbir] using hb2
          rw [hbir] at hrc; simp at hrc; omega
        · have hb3 : r' + 1 = m.rows := by simpa [hbir] using hb2
          rw [hbir] at hrc; simp at hrc; omega
      · cases h
    · cases h
  | zeros =>
    simp only [HOp.step] at h
    split at h
    · cases h
    cases h
    unfold Mtx.zeros
    by_cases hb : m.bir = true
    swap
    · rw [if_neg hb]
      refine flag_same m _ hi id id (fun _ => rfl) fun r c hr hc hbi => ⟨hr, hc, by exact hbi, ?_⟩
      have := bias_above m (fun _ => by simpa using hb) r c hr hc (by exact hbi)
      show fillSeq m.data 0 0 m.numelNoBias (r + m.rows * c) = _
      rw [fillSeq_apply, if_neg (by omega)]
    · rw [if_pos hb]
      by_cases he : m.emul = true
      swap
      · simp only
        rw [if_neg he]
        intro _ h2; exact absurd h2 he
      · simp only
        rw [if_pos he]
        refine flag_ones _ fun r c hr hc hbi => ?_
        have hr1 : r = m.rows - 1 := by
          have := hbi.2
          simp only [Mtx.fillRow, hb, if_true] at this
          omega
        show fillStride _ (m.rows - 1) m.rows 1 m.cols (r + m.rows * c) = 1
        rw [hr1]
        exact fillStride_hit _ _ _ _ _ _ hc
  | ones =>
    simp only [HOp.step] at h
    split at h
    · cases h
    cases h
    refine flag_ones _ fun r c hr hc _ => ?_
    show fillSeq m.data 0 1 m.numel (r + m.rows * c) = _
    have : r + m.rows * c < m.rows * m.cols := cell_lt hr hc
    rw [fillSeq_apply, if_pos (by unfold Mtx.numel; omega)]
  | setBiases =>
    simp only [HOp.step] at h
    split at h
    · cases h
      refine flag_ones _ fun r c hr hc hb => ?_
      simp only [setBiases_rows, setBiases_cols] at *
      exact setBiases_data m r c hr hc (by simpa [IsBias] using hb.2)
    · cases h
  | fillArray s =>
    simp only [HOp.step, Mtx.fillFromArrayNoBias] at h
    split at h
    · cases h
    next hb =>
      cases h
      refine flag_same m _ hi id id (fun _ => rfl) fun r c hr hc hbi => ⟨hr, hc, by exact hbi, ?_⟩
      show copyN m.data s m.numelNoBias (r + m.rows * c) = _
      have := bias_above m (fun he => by rw [he] at hb; simpa using hb) r c hr hc (by exact hbi)
      rw [copyN_apply, if_neg (by omega)]
  | copyBiases p n =>
    simp only [HOp.step] at h
    obtain ⟨h1, h2, h3, h4, h5, h6, h7⟩ := biases_copied m m' p n h
    intro _ _
    have hb : ∀ r c, IsBias m' r c → IsBias m r c := fun r c hb => by unfold IsBias at hb ⊢; rw [h1, h2, h3, h4] at hb; exact hb
    split
    · intro r c hr hc hbi
      exact ⟨p r, (h7 r c (by omega) (by omega)).1 (hb r c hbi), h6 r (by omega)⟩
    next hh =>
      intro r c hr hc hbi
      have hn : n = m.rows := by
        apply Classical.byContradiction
        intro hne; exact hh (h5.2 hne)
      exact ⟨p r, (h7 r c (by omega) (by omega)).1 (hb r c hbi), hf hn r (by omega)⟩
  | biasesOf s =>
    simp only [HOp.step] at h
    have hs := hf
    unfold copyBiasesMtx at h
    split at h
    next hc =>
      simp only [Bool.and_eq_true, Bool.not_eq_true', beq_iff_eq] at hc
      have hbir : m.bir = false := hc.2
      split at h
      next hh =>
        split at h
        next hv =>
          simp only [Bool.and_eq_true, Bool.not_eq_true', beq_iff_eq] at hv
          cases h
          have hz := vec_true (by
            have h3 := hs.1.2.2
            have e : s.rows * (s.cols - 1) + s.rows = s.rows * s.cols := by
              rw [← Nat.mul_succ]; congr 1; have := hs.1.2.1; omega
            omega) hv.2
          intro _ _
          simp only [if_true]
          rw [biases_iff]
          intro r c hr hc' hb
          have hcc : c = m.cols - 1 := by
            have := hb.2
            simp only [hbir, Bool.false_eq_true, if_false] at this
            omega
          show ZeroOne (copyAt _ _ _ _ _)
          have hr' : r < m.rows := hr
          show ZeroOne (copyAt m.data (m.rows * (m.cols - 1)) _ m.rows (r + m.rows * c))
          rw [copyAt_apply, hcc, if_pos (by omega)]
          have e : r + m.rows * (m.cols - 1) - m.rows * (m.cols - 1) = r := by omega
          rw [e]
          exact hz r (by omega)
        · cases h
      next hh =>
        cases h
        refine flag_ones _ fun r c hr hc' hb => ?_
        have hcc : c = m.cols - 1 := by
          have := hb.2
          simp only [Mtx.fillCol, hbir, Bool.false_eq_true, if_false] at this
          omega
        have hr' : r < m.rows := hr
        show fillSeq m.data (m.rows * (m.cols - 1)) 1 m.rows (r + m.rows * c) = 1
        rw [fillSeq_apply, hcc, if_pos (by omega)]
    · cases h
  | copyFrom s =>
    simp only [HOp.step] at h
    cases h
    unfold Mtx.copyTo
    split
    · exact hi
    next hne =>
      have hem : m.emul = s.emul := by
        apply Classical.byContradiction; intro hh; exact hne (.inr hh)
      refine flag_same s _ hf.2 (fun _ => ?_) (fun he => by rw [← hem]; exact he) (fun _ => rfl) fun r c hr hc hb => ⟨hr, hc, ⟨?_, hb.2⟩, ?_⟩
      · have := Nat.mul_pos hf.1.1 hf.1.2.1
        have := hf.1.2.2
        omega
      · rw [← hem]; exact hb.1
      · show copyN _ _ _ _ = _
        have : r + s.rows * c < s.rows * s.cols := cell_lt hr hc
        rw [copyN_apply, if_pos (by exact this)]
  | resize r c j ok =>
    simp only [HOp.step, Mtx.resize] at h
    split at h
    · cases h; exact hi
    split at h
    · cases h
    next m1 b hm1 =>
      cases h
      simp only
      split
      · refine flag_ones _ fun r c hr hc hb => ?_
        simp only [setBiases_rows, setBiases_cols] at *
        exact setBiases_data m1 r c hr hc (by simpa [IsBias] using hb.2)
      next hnb =>
        unfold Mtx.implResize at hm1
        split at hm1
        · cases hm1; exact hi
        split at hm1
        · cases hm1; exact hi
        split at hm1
        · cases hm1
        cases hm1
        intro h1 h2
        exfalso
        apply hnb
        have h2' : m.emul = true := h2
        cases hok : ok with
        | false => rw [hok] at h1; simp at h1
        | true => simp [h2']
  | nansNoBias q =>
    simp only [HOp.step, Nntl.MtxTest.nansNoBias] at h
    split at h
    · cases h
    next hb =>
      cases h
      have hf' : m.holey = false := hf
      refine flag_same m _ hi id id (fun _ => hf'.symm) fun r c hr hc hbi => ⟨hr, hc, by exact hbi, ?_⟩
      show fillSeq m.data 0 q m.numelNoBias (r + m.rows * c) = _
      have := bias_above m (fun he => by rw [he] at hb; simp at hb; exact hb.2) r c hr hc (by exact hbi)
      rw [fillSeq_apply, if_neg (by omega)]
  | announce b =>
    simp only [HOp.step, holeyBiases] at h
    split at h
    next he =>
      cases h
      intro hc _
      have hi' := hi hc he
      cases b with
      | false => exact hf rfl
      | true =>
        show AllBiases m ZeroOne
        split at hi'
        · exact hi'
        · intro r c hr hc hb
          obtain ⟨x, h1, h2⟩ := hi' r c hr hc hb
          exact ⟨x, h1, .inr h2⟩
    · cases h

/-- The flag of the biases tells the truth after any run of operations the caller performs fairly. -/
theorem flag_stays_true_partial (ops : List (HOp t)) (m m' : Mtx (Bits t)) (hr : Fair ops m m') (hi : FlagIsTrue m) : FlagIsTrue m' := by
  induction hr with
  | nil => exact hi
  | cons hf hs _ ih => exact ih (step_keeps _ _ _ hf hi hs)

/-- Consequently the check of biases that debug versions call everywhere accepts the matrix (unless the flag is set and samples are in columns). -/
theorem check_accepts_partial (ops : List (HOp t)) (m m' : Mtx (Bits t)) (hr : Fair ops m m') (hi : FlagIsTrue m) (hs : Solid m')
    (he : m'.emul = true) (hb : m'.holey = true → m'.bir = false) (dbg : Bool) : testBiasesOk dbg m' = .ret true := by
  rcases biases_ok_tells_partial dbg m' hs he hb with ⟨_, h⟩ | ⟨h, _⟩
  · exact h
  · exact absurd (flag_stays_true_partial ops m m' hr hi) h

end Nntl.MtxTest
