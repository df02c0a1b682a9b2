import Verif.Kernel.MoveLemmas
/-!
C41 (tiling), C42 (column cloning), C43 (extraction), C44 (transposition) and the masked row kernels used by C37.

Every theorem quantifies over the execution `ex` (single thread, or any pool state) and over all orders in which the
threads' writes may happen (`Outcome`).
-/
namespace Nntl.Kernel
open Nntl.Matrix Nntl.Threads
variable {α : Type}

/-- Reading an area filled by a kernel through `get`. -/
theorem Fills.get {m src : Mtx α} {R C : Nat} {d' : Nat → α} {f : Nat → Nat → α} (h : Fills m.rows R C m.data d' f)
    (hR : R ≤ m.rows) (hC : C ≤ m.cols) {r c : Nat} (hr : r < R) (hc : c < C) :
    Mtx.get { m with data := d' } r c = some (f r c) := by
  unfold Mtx.get
  rw [if_pos ⟨by show r < m.rows; omega, by show c < m.cols; omega⟩]
  exact congrArg some (h.1 r c hr hc)

theorem rowsNoBias_le (m : Mtx α) : m.rowsNoBias ≤ m.rows := Nat.sub_le _ _
theorem colsNoBias_le (m : Mtx α) : m.colsNoBias ≤ m.cols := Nat.sub_le _ _
theorem rowsNoBias_eq {m : Mtx α} (h : (m.emul && m.bir) = false) : m.rowsNoBias = m.rows := by
  simp [Mtx.rowsNoBias, h]

/-- **C43 (rows).** Row `r` of the destination becomes row `idx r` of the source; biases and everything behind stay. -/
theorem extract_rows (ex : Exec) (hex : ex.Ok) (src dest : Mtx α) (idx : Nat → Nat)
    (hlay : (dest.emul && dest.bir) = false) (hrows : 0 < dest.rows)
    (d' : Nat → α) (h : Outcome (mExtractRows ex src dest idx) dest.data d') :
    Fills dest.rows dest.rows dest.colsNoBias dest.data d' (fun r c => src.data (src.cell (idx r) c)) := by
  refine fills_of_mem (Nat.le_refl _) _ _ ?_ h
  intro k v
  unfold mExtractRows
  rw [mem_writes ex hex dest.rows hrows (exRowsKernel src dest idx)
    (fun r p => ∃ c, c < dest.colsNoBias ∧ p = (r + dest.rows * c, src.data (src.cell (idx r) c)))]
  · constructor
    · rintro ⟨r, hr, c, hc, hp⟩
      cases hp
      exact ⟨r, c, hr, hc, rfl, rfl⟩
    · rintro ⟨r, c, hr, hc, rfl, rfl⟩
      exact ⟨r, hr, c, hc, rfl⟩
  · intro b e hbe he p
    unfold exRowsKernel
    have hn : dest.numelNoBias = dest.rows * dest.colsNoBias := by
      simp [Mtx.numelNoBias, rowsNoBias_eq hlay]
    have hle : dest.colsNoBias ≤ dest.rows * dest.colsNoBias := Nat.le_mul_of_pos_left _ hrows
    rw [mem_exRowsOuter src.data idx dest.rows src.rows b (e - b) hrows dest.colsNoBias _ _ _ _ (by rw [hn])
      (by rw [hn]; omega)]
    constructor
    · rintro ⟨c, i, hc, hi, rfl⟩
      refine ⟨b + i, by omega, by omega, c, hc, ?_⟩
      unfold Mtx.cell
      congr 1
      · omega
      · congr 1; omega
    · rintro ⟨r, h1, h2, c, hc, rfl⟩
      refine ⟨c, r - b, hc, by omega, ?_⟩
      unfold Mtx.cell
      rw [show b + (r - b) = r by omega]
      congr 1
      · omega
      · congr 1; omega

/-- **C43 (columns).** Column `c` of the destination becomes column `idx c` of the source; a bias row stays. -/
theorem extract_cols (ex : Exec) (hex : ex.Ok) (src dest : Mtx α) (idx : Nat → Nat)
    (hrows : src.rowsNoBias = dest.rowsNoBias) (hcols : 0 < dest.colsNoBias)
    (d' : Nat → α) (h : Outcome (mExtractCols ex src dest idx) dest.data d') :
    Fills dest.rows dest.rowsNoBias dest.colsNoBias dest.data d' (fun r c => src.data (src.cell r (idx c))) := by
  refine fills_of_mem (rowsNoBias_le _) _ _ ?_ h
  intro k v
  unfold mExtractCols
  rw [mem_writes ex hex dest.colsNoBias hcols (exColsKernel src dest idx)
    (fun c p => ∃ r, r < dest.rowsNoBias ∧ p = (r + dest.rows * c, src.data (src.cell r (idx c))))]
  · constructor
    · rintro ⟨c, hc, r, hr, hp⟩
      cases hp
      exact ⟨r, c, hr, hc, rfl, rfl⟩
    · rintro ⟨r, c, hr, hc, rfl, rfl⟩
      exact ⟨c, hc, r, hr, rfl⟩
  · intro b e hbe he p
    simp only [exColsKernel, List.mem_flatMap, List.mem_range'_1, mem_memcpyW, hrows]
    constructor
    · rintro ⟨c, hc, i, hi, rfl⟩
      refine ⟨c, hc.1, by omega, i, hi, ?_⟩
      unfold Mtx.cell
      rw [Nat.add_comm i, Nat.add_comm i]
    · rintro ⟨c, h1, h2, r, hr, rfl⟩
      refine ⟨c, ⟨h1, by omega⟩, r, hr, ?_⟩
      unfold Mtx.cell
      rw [Nat.add_comm r, Nat.add_comm r]

/-- **C43 (consecutive rows).** Row `r` of the destination becomes row `rowOfs + r` of the source. -/
theorem extract_rows_seq (ex : Exec) (hex : ex.Ok) (src dest : Mtx α) (rowOfs : Nat) (hcols : 0 < dest.colsNoBias)
    (d' : Nat → α) (h : Outcome (mExtractRowsSeq ex src dest rowOfs) dest.data d') :
    Fills dest.rows dest.rows dest.colsNoBias dest.data d' (fun r c => src.data (src.cell (rowOfs + r) c)) := by
  refine fills_of_mem (Nat.le_refl _) _ _ ?_ h
  intro k v
  unfold mExtractRowsSeq
  rw [mem_writes ex hex dest.colsNoBias hcols (exSeqKernel src dest rowOfs)
    (fun c p => ∃ r, r < dest.rows ∧ p = (r + dest.rows * c, src.data (src.cell (rowOfs + r) c)))]
  · constructor
    · rintro ⟨c, hc, r, hr, hp⟩
      cases hp
      exact ⟨r, c, hr, hc, rfl, rfl⟩
    · rintro ⟨r, c, hr, hc, rfl, rfl⟩
      exact ⟨c, hc, r, hr, rfl⟩
  · intro b e hbe he p
    unfold exSeqKernel
    rw [mem_exSeqLoop]
    constructor
    · rintro ⟨c, i, hc, hi, rfl⟩
      refine ⟨b + c, by omega, by omega, i, hi, ?_⟩
      unfold Mtx.cell
      rw [Nat.mul_add, Nat.mul_add]
      congr 1
      · omega
      · congr 1; omega
    · rintro ⟨c, h1, h2, r, hr, rfl⟩
      obtain ⟨x, rfl⟩ : ∃ x, c = b + x := ⟨c - b, by omega⟩
      refine ⟨x, r, by omega, hr, ?_⟩
      unfold Mtx.cell
      rw [Nat.mul_add, Nat.mul_add]
      congr 1
      · omega
      · congr 1; omega

/-- **C43 (batches, both layouts)** stated through `get`: sample `i` of the destination batch is sample `idx i` of the
source, component by component. `sampleAt m i j` is component `j` of sample `i` in either layout. -/
def sampleAt (m : Mtx α) (i j : Nat) : Option α := if m.bir then m.get j i else m.get i j

theorem extract_batches (ex : Exec) (hex : ex.Ok) (src dest : Mtx α) (idx : Nat → Nat)
    (hbir : src.bir = dest.bir) (hss : src.sampleSize = dest.sampleSize)
    (hr : 0 < dest.rows) (hc : 0 < dest.colsNoBias)
    (hidx : ∀ i, i < dest.batchSize → idx i < src.batchSize)
    (d' : Nat → α) (h : Outcome (mExtractBatches ex src dest idx) dest.data d') :
    (∀ i j, i < dest.batchSize → j < dest.sampleSize →
      sampleAt { dest with data := d' } i j = sampleAt src (idx i) j ∧ (sampleAt src (idx i) j).isSome) ∧
    (∀ r c, r < dest.rows → c < dest.cols → ¬ (r < dest.rowsNoBias ∧ c < dest.colsNoBias) →
      Mtx.get { dest with data := d' } r c = dest.get r c) ∧
    ∀ k, dest.numel ≤ k → d' k = dest.data k := by
  have key : Fills dest.rows dest.rowsNoBias dest.colsNoBias dest.data d'
      (fun r c => if src.bir then src.data (src.cell r (idx c)) else src.data (src.cell (idx r) c)) := by
    unfold mExtractBatches at h
    cases hb : src.bir with
    | true =>
      rw [hb] at h hbir
      have hrr : src.rowsNoBias = dest.rowsNoBias := by
        simpa [Mtx.sampleSize, hb, ← hbir] using hss
      have := extract_cols ex hex src dest idx hrr hc d' h
      simpa using this
    | false =>
      rw [hb] at h hbir
      have hlay : (dest.emul && dest.bir) = false := by rw [← hbir]; simp
      have := extract_rows ex hex src dest idx hlay hr d' h
      rw [rowsNoBias_eq hlay]
      simpa using this
  refine ⟨?_, ?_, ?_⟩
  · intro i j hi hj
    have hi' := hidx i hi
    cases hb : src.bir with
    | true =>
      rw [hb] at hbir
      simp only [Mtx.batchSize, Mtx.sampleSize, ← hbir, hb, if_true] at hi hj hi' hss
      have hcn : dest.colsNoBias = dest.cols := by simp [Mtx.colsNoBias, ← hbir]
      have e1 := key.get (src := src) (rowsNoBias_le _) (colsNoBias_le _) hj (by rw [hcn]; exact hi)
      simp only [hb, if_true] at e1
      unfold sampleAt
      simp only [← hbir, hb, if_true]
      have hjs : j < src.rows := by have := rowsNoBias_le src; omega
      have e2 : src.get j (idx i) = some (src.data (src.cell j (idx i))) := by
        unfold Mtx.get; rw [if_pos ⟨hjs, hi'⟩]
      rw [e2]
      exact ⟨by rw [hbir]; exact e1, rfl⟩
    | false =>
      rw [hb] at hbir
      simp only [Mtx.batchSize, Mtx.sampleSize, ← hbir, hb] at hi hj hi' hss
      simp only [Bool.false_eq_true, if_false] at hi hj hi' hss
      have hrn : dest.rowsNoBias = dest.rows := rowsNoBias_eq (by rw [← hbir]; simp)
      have e1 := key.get (src := src) (rowsNoBias_le _) (colsNoBias_le _) (show i < dest.rowsNoBias by omega) hj
      simp only [hb, Bool.false_eq_true, if_false] at e1
      unfold sampleAt
      simp only [← hbir, hb, Bool.false_eq_true, if_false]
      have hjs : j < src.cols := by have := colsNoBias_le src; omega
      have e2 : src.get (idx i) j = some (src.data (src.cell (idx i) j)) := by
        unfold Mtx.get; rw [if_pos ⟨hi', hjs⟩]
      rw [e2]
      exact ⟨by rw [hbir]; exact e1, rfl⟩
  · intro r c hr' hc' hno
    unfold Mtx.get
    rw [if_pos ⟨hr', hc'⟩, if_pos ⟨hr', hc'⟩]
    refine congrArg some (key.2 _ ?_)
    intro r2 c2 h1 h2 he
    have := rowsNoBias_le dest
    have := cell_inj (R := dest.rows) hr' (by omega) he
    exact hno ⟨by omega, by omega⟩
  · intro k hk
    refine key.2 k ?_
    rintro r c h1 h2 rfl
    have := rowsNoBias_le dest
    have := colsNoBias_le dest
    have := cell_lt (R := dest.rows) (C := dest.cols) (r := r) (c := c) (by omega) (by omega)
    unfold Mtx.numel at hk
    omega

/-- **C37 (extraction by mask).** If the destination has as many rows as there are set mask entries, its row `r` becomes
the `r`-th row with a set mask entry. -/
theorem extract_rows_by_mask (ex : Exec) (hex : ex.Ok) (src dest : Mtx α) (mask : Nat → Bool)
    (hls : (src.emul && src.bir) = false)
    (hc : dest.colsNoBias = src.colsNoBias) (hcols : 0 < dest.colsNoBias)
    (hn : dest.rows = (openRows mask src.rows).length)
    (d' : Nat → α) (h : Outcome (mExtractRowsByMask ex src dest mask) dest.data d') :
    Fills dest.rows dest.rows dest.colsNoBias dest.data d'
      (fun r c => src.data (src.cell ((openRows mask src.rows).getD r 0) c)) := by
  refine fills_of_mem (Nat.le_refl _) _ _ ?_ h
  intro k v
  unfold mExtractRowsByMask
  by_cases hfull : dest.rows = src.rows
  · rw [if_pos hfull, mem_memcpyW]
    have hopen : openRows mask src.rows = List.range src.rows := by
      have h1 : (openRows mask src.rows).length = (List.range src.rows).length := by
        rw [List.length_range]; omega
      exact List.Sublist.eq_of_length List.filter_sublist h1
    have hne : src.numelNoBias = src.rows * dest.colsNoBias := by
      simp [Mtx.numelNoBias, rowsNoBias_eq hls, hc]
    rw [hne, hfull]
    constructor
    · rintro ⟨i, hi, hp⟩
      cases hp
      obtain ⟨r, c, hr, hcc, rfl⟩ := cell_surj hi
      refine ⟨r, c, hr, hcc, by omega, ?_⟩
      rw [hopen]
      unfold Mtx.cell
      rw [List.getD_eq_getElem?_getD, List.getElem?_range hr, Nat.zero_add]
      rfl
    · rintro ⟨r, c, hr, hcc, rfl, rfl⟩
      refine ⟨r + src.rows * c, cell_lt hr hcc, ?_⟩
      rw [hopen]
      unfold Mtx.cell
      rw [List.getD_eq_getElem?_getD, List.getElem?_range hr, Nat.zero_add]
      rfl
  · rw [if_neg hfull]
    rw [mem_writes ex hex src.colsNoBias (by omega) (exMaskKernel src dest mask)
      (fun c p => ∃ j, j < src.rows ∧ mask j = true ∧ p = (rank mask j + dest.rows * c, src.data (src.cell j c)))]
    · rw [← hc]
      constructor
      · rintro ⟨c, hcc, j, hj, hm, hp⟩
        cases hp
        have hg := openRows_get mask src.rows j hj hm
        refine ⟨rank mask j, c, ?_, hcc, rfl, ?_⟩
        · rw [hn]; exact (List.getElem?_eq_some_iff.1 hg).1
        · rw [List.getD_eq_getElem?_getD, hg]; rfl
      · rintro ⟨r, c, hr, hcc, rfl, rfl⟩
        have hr' : r < (openRows mask src.rows).length := by omega
        have hg : (openRows mask src.rows)[r]? = some (openRows mask src.rows)[r] :=
          List.getElem?_eq_getElem hr'
        obtain ⟨h1, h2, h3⟩ := openRows_rank mask src.rows r _ hg
        refine ⟨c, hcc, _, h1, h2, ?_⟩
        rw [h3, List.getD_eq_getElem?_getD, hg]
        rfl
    · intro b e hbe he p
      unfold exMaskKernel
      rw [mem_exMaskOuter]
      have hrank : rank mask src.rows = dest.rows := hn.symm
      rw [hrank]
      constructor
      · rintro ⟨c, j, hcc, hj, hm, rfl⟩
        refine ⟨b + c, by omega, by omega, j, hj, hm, ?_⟩
        unfold Mtx.cell
        rw [Nat.mul_add, Nat.mul_add]
        congr 1
        · omega
        · congr 1; omega
      · rintro ⟨c, h1, h2, j, hj, hm, rfl⟩
        obtain ⟨x, rfl⟩ : ∃ x, c = b + x := ⟨c - b, by omega⟩
        refine ⟨x, j, by omega, hj, hm, ?_⟩
        unfold Mtx.cell
        rw [Nat.mul_add, Nat.mul_add]
        congr 1
        · omega
        · congr 1; omega

/-- **C37 (filling by mask).** Row `i` of the destination is zero if its mask entry is not set, and otherwise it is the
row of the source whose number is the count of set entries before `i`. -/
theorem fill_rows_by_mask (ex : Exec) (hex : ex.Ok) (src dest : Mtx α) (zero : α) (mask : Nat → Bool)
    (hls : (src.emul && src.bir) = false)
    (hc : dest.colsNoBias = src.colsNoBias) (hcols : 0 < dest.colsNoBias)
    (hn : src.rows = (openRows mask dest.rows).length)
    (d' : Nat → α) (h : Outcome (mFillRowsByMask ex src dest zero mask) dest.data d') :
    Fills dest.rows dest.rows dest.colsNoBias dest.data d'
      (fun i c => if mask i then src.data (src.cell (openRows mask i).length c) else zero) := by
  refine fills_of_mem (Nat.le_refl _) _ _ ?_ h
  intro k v
  unfold mFillRowsByMask
  by_cases hfull : dest.rows = src.rows
  · rw [if_pos hfull, mem_memcpyW]
    have hopen : openRows mask dest.rows = List.range dest.rows := by
      have h1 : (openRows mask dest.rows).length = (List.range dest.rows).length := by
        rw [List.length_range]; omega
      exact List.Sublist.eq_of_length List.filter_sublist h1
    have hmask : ∀ i, i < dest.rows → mask i = true := by
      intro i hi
      have : i ∈ openRows mask dest.rows := by rw [hopen]; exact List.mem_range.2 hi
      exact (openRows_mem this).2
    have hrank : ∀ i, i ≤ dest.rows → (openRows mask i).length = i := by
      intro i hi
      have : openRows mask i = List.range i := by
        unfold openRows
        rw [List.filter_eq_self]
        intro x hx
        exact hmask x (by have := List.mem_range.1 hx; omega)
      rw [this, List.length_range]
    have hne : src.numelNoBias = src.rows * dest.colsNoBias := by
      simp [Mtx.numelNoBias, rowsNoBias_eq hls, hc]
    rw [hne]
    constructor
    · rintro ⟨i, hi, hp⟩
      cases hp
      obtain ⟨r, c, hr, hcc, rfl⟩ := cell_surj hi
      refine ⟨r, c, by omega, hcc, by rw [hfull]; omega, ?_⟩
      rw [if_pos (hmask r (by omega)), hrank r (by omega), Nat.zero_add]
      rfl
    · rintro ⟨r, c, hr, hcc, rfl, rfl⟩
      refine ⟨r + src.rows * c, cell_lt (by omega) hcc, ?_⟩
      rw [if_pos (hmask r (by omega)), hrank r (by omega), hfull]
      unfold Mtx.cell
      rw [Nat.zero_add]
  · rw [if_neg hfull]
    rw [mem_writes ex hex dest.colsNoBias hcols (fillMaskKernel src dest zero mask)
      (fun c p => ∃ i, i < dest.rows ∧ p = (i + dest.rows * c,
        if mask i then src.data (src.cell (openRows mask i).length c) else zero))]
    · constructor
      · rintro ⟨c, hcc, j, hj, hp⟩
        cases hp
        exact ⟨j, c, hj, hcc, rfl, rfl⟩
      · rintro ⟨r, c, hr, hcc, rfl, rfl⟩
        exact ⟨c, hcc, r, hr, rfl⟩
    · intro b e hbe he p
      unfold fillMaskKernel
      rw [mem_fillMaskOuter]
      have hrank : rank mask dest.rows = src.rows := hn.symm
      rw [hrank]
      constructor
      · rintro ⟨c, j, hcc, hj, rfl⟩
        refine ⟨b + c, by omega, by omega, j, hj, ?_⟩
        unfold Mtx.cell rank
        rw [Nat.mul_add, Nat.mul_add,
          show (openRows mask j).length + (src.rows * b + src.rows * c) =
            src.rows * b + src.rows * c + (openRows mask j).length by omega,
          show dest.rows * b + dest.rows * c + j = j + (dest.rows * b + dest.rows * c) by omega]
      · rintro ⟨c, h1, h2, j, hj, rfl⟩
        obtain ⟨x, rfl⟩ : ∃ x, c = b + x := ⟨c - b, by omega⟩
        refine ⟨x, j, by omega, hj, ?_⟩
        unfold Mtx.cell rank
        rw [Nat.mul_add, Nat.mul_add,
          show (openRows mask j).length + (src.rows * b + src.rows * x) =
            src.rows * b + src.rows * x + (openRows mask j).length by omega,
          show dest.rows * b + dest.rows * x + j = j + (dest.rows * b + dest.rows * x) by omega]

/-! ### C44 -/

theorem rowsIf_le (m : Mtx α) (ib : Bool) : rowsIf m ib ≤ m.rows := by
  unfold rowsIf; split
  · exact rowsNoBias_le m
  · exact Nat.le_refl _

theorem rowsIf_add (m : Mtx α) (ib : Bool) (h : 0 < m.rows) : rowsIf m ib + (ib && m.hasBiasRow).toNat = m.rows := by
  unfold rowsIf Mtx.rowsNoBias Mtx.hasBiasRow
  cases ib <;> cases m.emul <;> cases m.bir <;> simp <;> omega

/-- **C44 (sequential reading).** -/
theorem transpose_seq_read (src dest : Mtx α) (ib : Bool)
    (h1 : rowsIf src ib = colsIf dest ib) (h2 : colsIf src ib = rowsIf dest ib) (hs : 0 < src.rows)
    (d' : Nat → α) (h : Outcome (mTransposeSeqRead src dest ib) dest.data d') :
    Fills dest.rows (rowsIf dest ib) (colsIf dest ib) dest.data d' (fun r c => src.data (src.cell c r)) := by
  refine fills_of_mem (rowsIf_le _ _) _ _ ?_ h
  intro k v
  unfold mTransposeSeqRead
  rw [mem_trReadOuter src.data (rowsIf src ib) dest.rows _ (rowsIf dest ib) _ _ _ _ (by omega) (by omega)]
  rw [rowsIf_add src ib hs, h1]
  unfold Mtx.cell
  constructor
  · rintro ⟨c, i, hc, hi, hp⟩
    cases hp
    refine ⟨c, i, hc, hi, by omega, ?_⟩
    congr 1; omega
  · rintro ⟨r, c, hr, hc, rfl, rfl⟩
    refine ⟨r, c, hr, hc, ?_⟩
    congr 1
    · omega
    · congr 1; omega

/-- **C44 (sequential writing).** -/
theorem transpose_seq_write (src dest : Mtx α) (ib : Bool)
    (h1 : rowsIf src ib = colsIf dest ib) (h2 : colsIf src ib = rowsIf dest ib) (hd : 0 < dest.rows)
    (d' : Nat → α) (h : Outcome (mTransposeSeqWrite src dest ib) dest.data d') :
    Fills dest.rows (rowsIf dest ib) (colsIf dest ib) dest.data d' (fun r c => src.data (src.cell c r)) := by
  refine fills_of_mem (rowsIf_le _ _) _ _ ?_ h
  intro k v
  unfold mTransposeSeqWrite
  rw [mem_trWriteOuter src.data src.rows (rowsIf dest ib) _ (rowsIf src ib) _ _ _ _ (by omega) (by omega)]
  rw [rowsIf_add dest ib hd, h1]
  unfold Mtx.cell
  constructor
  · rintro ⟨c, i, hc, hi, hp⟩
    cases hp
    refine ⟨i, c, hi, hc, by omega, ?_⟩
    congr 1; omega
  · rintro ⟨r, c, hr, hc, rfl, rfl⟩
    refine ⟨c, r, hc, hr, ?_⟩
    congr 1
    · omega
    · congr 1; omega

/-- **C44.** Whatever variant the size-based dispatch chooses, `dest(r,c) = src(c,r)` on the selected area and nothing
else changes. -/
theorem transpose_spec (thr : Nat) (src dest : Mtx α) (ib : Bool)
    (h1 : rowsIf src ib = colsIf dest ib) (h2 : colsIf src ib = rowsIf dest ib) (hs : 0 < src.rows) (hd : 0 < dest.rows) :
    Fills dest.rows (rowsIf dest ib) (colsIf dest ib) dest.data (applyW dest.data (mTranspose thr src dest ib))
      (fun r c => src.data (src.cell c r)) := by
  unfold mTranspose
  split
  · exact transpose_seq_write src dest ib h1 h2 hd _ (outcome_program_order _ _)
  · exact transpose_seq_read src dest ib h1 h2 hs _ (outcome_program_order _ _)

theorem transpose_ignore_bias_spec (thr : Nat) (src dest : Mtx α)
    (h1 : src.rowsNoBias = dest.colsNoBias) (h2 : src.colsNoBias = dest.rowsNoBias) (hs : 0 < src.rows)
    (hd : 0 < dest.rows) :
    Fills dest.rows dest.rowsNoBias dest.colsNoBias dest.data (applyW dest.data (mTransposeIgnoreBias thr src dest))
      (fun r c => src.data (src.cell c r)) := by
  unfold mTransposeIgnoreBias
  split
  · exact transpose_seq_write src dest true h1 h2 hd _ (outcome_program_order _ _)
  · exact transpose_seq_read src dest true h1 h2 hs _ (outcome_program_order _ _)

/-- **C44 (twice).** Transposing into `mid` and from there into a matrix shaped like the source restores every element of
the selected area. -/
theorem transpose_twice (thr thr' : Nat) (src mid back : Mtx α) (ib : Bool)
    (h1 : rowsIf src ib = colsIf mid ib) (h2 : colsIf src ib = rowsIf mid ib)
    (h3 : rowsIf mid ib = colsIf back ib) (h4 : colsIf mid ib = rowsIf back ib)
    (hs : 0 < src.rows) (hm : 0 < mid.rows) (hb : 0 < back.rows) (r c : Nat) (hr : r < rowsIf src ib)
    (hc : c < colsIf src ib) :
    applyW back.data (mTranspose thr' { mid with data := applyW mid.data (mTranspose thr src mid ib) } back ib)
      (back.cell r c) = src.data (src.cell r c) := by
  have f1 := transpose_spec thr src mid ib h1 h2 hs hm
  have f2 := transpose_spec thr' { mid with data := applyW mid.data (mTranspose thr src mid ib) } back ib
    h3 h4 hm hb
  have e2 := f2.1 r c (by omega) (by omega)
  have e1 := f1.1 c r (by omega) (by omega)
  exact e2.trans e1

/-! ### C41 -/

/-- Sizes required by roll: `src` is `m × (k*n)` (plus bias), `dest` is `(k*m) × n` (plus bias). -/
structure TileShape (m k n : Nat) (wide tall : Mtx α) : Prop where
  hm : 0 < m
  hk : 0 < k
  hn : 0 < n
  wrows : wide.rows = m
  wcols : wide.colsNoBias = k * n
  trows : tall.rows = k * m
  tcols : tall.colsNoBias = n

theorem mem_rollSeqRead {m k n : Nat} {src dest : Mtx α} (s : TileShape m k n src dest) (b e : Nat) (hbe : b < e)
    (he : e ≤ k * n) (p : Nat × α) :
    p ∈ rollSeqReadKernel src dest b e ↔ ∃ c, b ≤ c ∧ c < e ∧
      ∃ r, r < m ∧ p = (m * (c / n) + r + dest.rows * (c % n), src.data (r + m * c)) := by
  obtain ⟨hm, hk, hn, e1, e2, e3, e4⟩ := s
  unfold rollSeqReadKernel
  simp only [e1, e4]
  have hx : b - b / n * n = b % n := by
    have := Nat.div_add_mod b n
    rw [Nat.mul_comm] at this; omega
  have hb : b = n * (b / n) + b % n := (Nat.div_add_mod b n).symm
  have hloop := tileLoopA_eq m dest.rows n (dest.rows * (n - 1)) 0 hm hn (e - b) (b / n) (b % n) (e - b + 1) (m * b)
    (m * b + m * (e - b)) (Nat.mod_lt _ hn) (by omega) rfl ?_
  · rw [Nat.zero_add, ← hb] at hloop
    rw [hx, hloop]
    simp only [List.mem_flatMap, List.mem_map, List.mem_range, mem_memcpyW, Nat.zero_add]
    constructor
    · rintro ⟨_, ⟨i, hi, rfl⟩, r, hr, rfl⟩
      refine ⟨b + i, by omega, by omega, r, hr, ?_⟩
      rw [Nat.mul_add]
      simp only []
      congr 1
      · omega
      · congr 1; omega
    · rintro ⟨c, h1, h2, r, hr, rfl⟩
      obtain ⟨i, rfl⟩ : ∃ i, c = b + i := ⟨c - b, by omega⟩
      refine ⟨_, ⟨i, by omega, rfl⟩, r, hr, ?_⟩
      rw [Nat.mul_add]
      simp only []
      congr 1
      · omega
      · congr 1; omega
  · intro i hi
    rw [← hb]
    have hq : (b + i) / n < k := Nat.div_lt_of_lt_mul (by rw [Nat.mul_comm]; omega)
    have h1 : m * ((b + i) / n) + m ≤ dest.rows := by
      rw [e3, Nat.mul_comm k m, ← Nat.mul_succ]; exact Nat.mul_le_mul_left _ hq
    generalize (b + i) / n = q at *
    generalize hx2 : (b + i) % n = x at *
    have hxn : x < n := by rw [← hx2]; exact Nat.mod_lt _ hn
    rw [Nat.zero_add]
    constructor
    · intro h
      apply Decidable.byContradiction
      intro h'
      have : x = n - 1 := by omega
      subst this
      omega
    · intro h
      have : dest.rows * (x + 1) ≤ dest.rows * (n - 1) := Nat.mul_le_mul_left _ (by omega)
      rw [Nat.mul_succ] at this
      omega

theorem mem_rollSeqWrite_aux (m k n ld : Nat) (hm : 0 < m) (hk : 0 < k) (hn : 0 < n) (hld : ld = k * m) (cols : Nat)
    (hcols : cols = k * n) (b e : Nat) (hbe : b < e)
    (he : e ≤ n) (P : Nat × Nat) :
    P ∈ tileLoopA m (m * n) (m * (cols - n)) (ld * b + ld * (e - b)) (ld / m * (e - b) + 1) (ld * b) (m * b) (m * b) ↔
      ∃ c, b ≤ c ∧ c < e ∧ ∃ q, q < k ∧ P = (m * (q * n + c), ld * c + m * q) := by
  have hk' : ld / m = k := by rw [hld]; exact Nat.mul_div_cancel _ hm
  rw [hk']
  have hcnt : m * (k * (e - b)) = ld * (e - b) := by rw [hld, ← Nat.mul_assoc, Nat.mul_comm m k]
  have hloop := tileLoopA_eq m (m * n) k (m * (cols - n)) (m * b) hm hk (k * (e - b)) 0 0 (k * (e - b) + 1)
    (ld * b) (ld * b + ld * (e - b)) hk (by omega) (by omega) ?_
  · simp only [Nat.mul_zero, Nat.add_zero, Nat.zero_add] at hloop
    rw [hloop]
    simp only [List.mem_map, List.mem_range]
    constructor
    · rintro ⟨i, hi, rfl⟩
      have hi2 : i / k < e - b := Nat.div_lt_of_lt_mul hi
      refine ⟨b + i / k, Nat.le_add_right _ _, by generalize i / k = y at *; omega, i % k, Nat.mod_lt _ hk, ?_⟩
      have hd := Nat.div_add_mod i k
      congr 1
      · rw [Nat.mul_add, Nat.mul_add, Nat.mul_comm (i % k) n, Nat.mul_assoc]
        omega
      · conv => lhs; rw [← hd]
        rw [Nat.mul_add, Nat.mul_add, hld, ← Nat.mul_assoc, Nat.mul_comm m k]
        omega
    · rintro ⟨c, h1, h2, q, hq, rfl⟩
      obtain ⟨x, rfl⟩ : ∃ x, c = b + x := ⟨c - b, by omega⟩
      refine ⟨k * x + q, ?_, ?_⟩
      · have : k * (x + 1) ≤ k * (e - b) := Nat.mul_le_mul_left _ (by omega)
        rw [Nat.mul_succ] at this
        omega
      · have e1 : (k * x + q) / k = x := by rw [Nat.mul_add_div hk, Nat.div_eq_of_lt hq, Nat.add_zero]
        have e2 : (k * x + q) % k = q := by rw [Nat.mul_add_mod, Nat.mod_eq_of_lt hq]
        rw [e1, e2]
        congr 1
        · rw [Nat.mul_add, Nat.mul_add, Nat.mul_comm q n, Nat.mul_assoc]
          omega
        · rw [Nat.mul_add, Nat.mul_add, hld, ← Nat.mul_assoc, Nat.mul_comm m k]
          omega
  · intro i hi
    have hi2 : i / k < e - b := Nat.div_lt_of_lt_mul hi
    have hx : i % k < k := Nat.mod_lt _ hk
    simp only [Nat.mul_zero, Nat.zero_add]
    generalize i / k = y at *
    generalize i % k = x at *
    have h1 : m * b + m * y + m ≤ m * n := by
      rw [← Nat.mul_add, ← Nat.mul_succ]; exact Nat.mul_le_mul_left _ (by omega)
    have h2 : m * (cols - n) = m * n * (k - 1) := by
      rw [hcols, Nat.mul_assoc m n (k - 1), Nat.mul_sub n k 1, Nat.mul_one, Nat.mul_comm k n]
    rw [h2]
    constructor
    · intro h
      apply Decidable.byContradiction
      intro h'
      have : x = k - 1 := by omega
      subst this
      omega
    · intro h
      have : m * n * (x + 1) ≤ m * n * (k - 1) := Nat.mul_le_mul_left _ (by omega)
      rw [Nat.mul_succ] at this
      omega

/-- **C41 (roll, reading variant).** Row `q*m + r`, column `x` of the result is row `r`, column `q*n + x` of the source. -/
theorem tiling_roll_read (ex : Exec) (hex : ex.Ok) {m k n : Nat} {src dest : Mtx α} (s : TileShape m k n src dest)
    (d' : Nat → α) (h : Outcome (mTilingRollRead ex src dest) dest.data d') :
    Fills dest.rows dest.rows dest.colsNoBias dest.data d' (fun R x => src.data (src.cell (R % m) (R / m * n + x))) := by
  refine fills_of_mem (Nat.le_refl _) _ _ ?_ h
  intro k' v
  unfold mTilingRollRead
  rw [s.wcols]
  rw [mem_writes ex hex (k * n) (Nat.mul_pos s.hk s.hn) (rollSeqReadKernel src dest)
    (fun c p => ∃ r, r < m ∧ p = (m * (c / n) + r + dest.rows * (c % n), src.data (r + m * c)))
    (fun b e hbe he p => mem_rollSeqRead s b e hbe he p)]
  have hm := s.hm
  have hn := s.hn
  rw [s.tcols]
  unfold Mtx.cell
  rw [s.wrows]
  constructor
  · rintro ⟨c, hc, r, hr, hp⟩
    cases hp
    have hq : c / n < k := Nat.div_lt_of_lt_mul (by rw [Nat.mul_comm]; exact hc)
    refine ⟨m * (c / n) + r, c % n, ?_, Nat.mod_lt _ hn, rfl, ?_⟩
    · rw [s.trows, Nat.mul_comm k m]
      have : m * (c / n + 1) ≤ m * k := Nat.mul_le_mul_left _ hq
      rw [Nat.mul_succ] at this
      omega
    · rw [Nat.mul_add_mod, Nat.mod_eq_of_lt hr, Nat.mul_add_div hm, Nat.div_eq_of_lt hr, Nat.add_zero,
        Nat.mul_comm (c / n) n, Nat.div_add_mod]
  · rintro ⟨R, x, hR, hx, rfl, rfl⟩
    rw [s.trows] at hR
    have hq : R / m < k := Nat.div_lt_of_lt_mul (by rw [Nat.mul_comm]; exact hR)
    refine ⟨R / m * n + x, ?_, R % m, Nat.mod_lt _ hm, ?_⟩
    · have : (R / m + 1) * n ≤ k * n := Nat.mul_le_mul_right _ hq
      rw [Nat.succ_mul] at this
      omega
    · have e1 : (R / m * n + x) / n = R / m := by
        rw [Nat.mul_comm, Nat.mul_add_div hn, Nat.div_eq_of_lt hx, Nat.add_zero]
      have e2 : (R / m * n + x) % n = x := by rw [Nat.mul_comm, Nat.mul_add_mod, Nat.mod_eq_of_lt hx]
      rw [e1, e2, Nat.div_add_mod]

/-- **C41 (roll, writing variant).** -/
theorem tiling_roll_write (ex : Exec) (hex : ex.Ok) {m k n : Nat} {src dest : Mtx α} (s : TileShape m k n src dest)
    (d' : Nat → α) (h : Outcome (mTilingRollWrite ex src dest) dest.data d') :
    Fills dest.rows dest.rows dest.colsNoBias dest.data d' (fun R x => src.data (src.cell (R % m) (R / m * n + x))) := by
  refine fills_of_mem (Nat.le_refl _) _ _ ?_ h
  intro k' v
  unfold mTilingRollWrite
  have hm := s.hm
  have hn := s.hn
  rw [s.tcols]
  rw [mem_writes ex hex n hn (rollSeqWriteKernel src dest)
    (fun c p => ∃ q, q < k ∧ ∃ r, r < m ∧ p = (m * q + r + dest.rows * c, src.data (r + m * (q * n + c))))]
  · unfold Mtx.cell
    rw [s.wrows]
    constructor
    · rintro ⟨c, hc, q, hq, r, hr, hp⟩
      cases hp
      refine ⟨m * q + r, c, ?_, hc, rfl, ?_⟩
      · rw [s.trows, Nat.mul_comm k m]
        have : m * (q + 1) ≤ m * k := Nat.mul_le_mul_left _ hq
        rw [Nat.mul_succ] at this
        omega
      · rw [Nat.mul_add_mod, Nat.mod_eq_of_lt hr, Nat.mul_add_div hm, Nat.div_eq_of_lt hr, Nat.add_zero]
    · rintro ⟨R, x, hR, hx, rfl, rfl⟩
      rw [s.trows] at hR
      have hq : R / m < k := Nat.div_lt_of_lt_mul (by rw [Nat.mul_comm]; exact hR)
      refine ⟨x, hx, R / m, hq, R % m, Nat.mod_lt _ hm, ?_⟩
      rw [Nat.div_add_mod]
  · intro b e hbe he p
    unfold rollSeqWriteKernel
    simp only [s.wrows, s.tcols, List.mem_flatMap, mem_memcpyW]
    simp only [mem_rollSeqWrite_aux m k n dest.rows s.hm s.hk s.hn s.trows src.colsNoBias s.wcols b e hbe he]
    constructor
    · rintro ⟨_, ⟨c, h1, h2, q, hq, rfl⟩, r, hr, rfl⟩
      refine ⟨c, h1, h2, q, hq, r, hr, ?_⟩
      simp only []
      congr 1
      · omega
      · congr 1; omega
    · rintro ⟨c, h1, h2, q, hq, r, hr, rfl⟩
      refine ⟨_, ⟨c, h1, h2, q, hq, rfl⟩, r, hr, ?_⟩
      simp only []
      congr 1
      · omega
      · congr 1; omega

/-- **C41 (unroll, writing variant).** Row `r`, column `c` of the result is row `(c/n)*m + r`, column `c%n` of the source. -/
theorem tiling_unroll_write (ex : Exec) (hex : ex.Ok) {m k n : Nat} {src dest : Mtx α} (s : TileShape m k n dest src)
    (d' : Nat → α) (h : Outcome (mTilingUnrollWrite ex src dest) dest.data d') :
    Fills dest.rows dest.rows dest.colsNoBias dest.data d' (fun r c => src.data (src.cell (c / n * m + r) (c % n))) := by
  refine fills_of_mem (Nat.le_refl _) _ _ ?_ h
  intro k' v
  unfold mTilingUnrollWrite
  have hm := s.hm
  have hn := s.hn
  rw [s.wcols]
  rw [mem_writes ex hex (k * n) (Nat.mul_pos s.hk s.hn) (unrollSeqWriteKernel src dest)
    (fun c p => ∃ r, r < m ∧ p = (r + m * c, src.data (c / n * m + r + src.rows * (c % n))))]
  · unfold Mtx.cell
    rw [s.wrows]
    constructor
    · rintro ⟨c, hc, r, hr, hp⟩
      cases hp
      exact ⟨r, c, hr, hc, rfl, rfl⟩
    · rintro ⟨r, c, hr, hc, rfl, rfl⟩
      exact ⟨c, hc, r, hr, rfl⟩
  · intro b e hbe he p
    -- same pointer sequence as the reading roll of a matrix shaped like `dest`
    have := fun Q => mem_rollSeqRead s b e hbe he (α := α) Q
    have hx : b - b / n * n = b % n := by
      have := Nat.div_add_mod b n
      rw [Nat.mul_comm] at this; omega
    have hb : b = n * (b / n) + b % n := (Nat.div_add_mod b n).symm
    have hloop := tileLoopA_eq m src.rows n (src.rows * (n - 1)) 0 hm hn (e - b) (b / n) (b % n) (e - b + 1) (m * b)
      (m * b + m * (e - b)) (Nat.mod_lt _ hn) (by omega) rfl ?_
    · rw [Nat.zero_add, ← hb] at hloop
      unfold unrollSeqWriteKernel
      simp only [s.wrows, s.tcols]
      rw [hx, hloop]
      simp only [List.mem_flatMap, List.mem_map, List.mem_range, mem_memcpyW, Nat.zero_add]
      constructor
      · rintro ⟨_, ⟨i, hi, rfl⟩, r, hr, rfl⟩
        refine ⟨b + i, by omega, by omega, r, hr, ?_⟩
        rw [Nat.mul_add, Nat.mul_comm ((b + i) / n) m]
        simp only []
        congr 1
        · omega
        · congr 1; omega
      · rintro ⟨c, h1, h2, r, hr, rfl⟩
        obtain ⟨i, rfl⟩ : ∃ i, c = b + i := ⟨c - b, by omega⟩
        refine ⟨_, ⟨i, by omega, rfl⟩, r, hr, ?_⟩
        rw [Nat.mul_add, Nat.mul_comm ((b + i) / n) m]
        simp only []
        congr 1
        · omega
        · congr 1; omega
    · intro i hi
      rw [← hb]
      have hq : (b + i) / n < k := Nat.div_lt_of_lt_mul (by rw [Nat.mul_comm]; omega)
      have h1 : m * ((b + i) / n) + m ≤ src.rows := by
        rw [s.trows, Nat.mul_comm k m, ← Nat.mul_succ]; exact Nat.mul_le_mul_left _ hq
      generalize (b + i) / n = q at *
      generalize hx2 : (b + i) % n = x at *
      have hxn : x < n := by rw [← hx2]; exact Nat.mod_lt _ hn
      rw [Nat.zero_add]
      constructor
      · intro h
        apply Decidable.byContradiction
        intro h'
        have : x = n - 1 := by omega
        subst this
        omega
      · intro h
        have : src.rows * (x + 1) ≤ src.rows * (n - 1) := Nat.mul_le_mul_left _ (by omega)
        rw [Nat.mul_succ] at this
        omega

/-- **C41 (unroll, reading variant).** -/
theorem tiling_unroll_read (ex : Exec) (hex : ex.Ok) {m k n : Nat} {src dest : Mtx α} (s : TileShape m k n dest src)
    (d' : Nat → α) (h : Outcome (mTilingUnrollRead ex src dest) dest.data d') :
    Fills dest.rows dest.rows dest.colsNoBias dest.data d' (fun r c => src.data (src.cell (c / n * m + r) (c % n))) := by
  refine fills_of_mem (Nat.le_refl _) _ _ ?_ h
  intro k' v
  unfold mTilingUnrollRead
  have hm := s.hm
  have hn := s.hn
  rw [s.tcols]
  rw [mem_writes ex hex n hn (unrollSeqReadKernel src dest)
    (fun x p => ∃ q, q < k ∧ ∃ r, r < m ∧ p = (r + m * (q * n + x), src.data (q * m + r + src.rows * x)))]
  · unfold Mtx.cell
    rw [s.wrows, s.wcols]
    constructor
    · rintro ⟨x, hx, q, hq, r, hr, hp⟩
      cases hp
      refine ⟨r, q * n + x, hr, ?_, rfl, ?_⟩
      · have : (q + 1) * n ≤ k * n := Nat.mul_le_mul_right _ hq
        rw [Nat.succ_mul] at this
        omega
      · have e1 : (q * n + x) / n = q := by
          rw [Nat.mul_comm, Nat.mul_add_div hn, Nat.div_eq_of_lt hx, Nat.add_zero]
        have e2 : (q * n + x) % n = x := by rw [Nat.mul_comm, Nat.mul_add_mod, Nat.mod_eq_of_lt hx]
        rw [e1, e2]
    · rintro ⟨r, c, hr, hc, rfl, rfl⟩
      have hq : c / n < k := Nat.div_lt_of_lt_mul (by rw [Nat.mul_comm]; exact hc)
      refine ⟨c % n, Nat.mod_lt _ hn, c / n, hq, r, hr, ?_⟩
      rw [Nat.mul_comm (c / n) n, Nat.div_add_mod]
  · intro b e hbe he p
    unfold unrollSeqReadKernel
    simp only [s.wrows, s.tcols, List.mem_flatMap, mem_memcpyW]
    simp only [mem_rollSeqWrite_aux m k n src.rows s.hm s.hk s.hn s.trows dest.colsNoBias s.wcols b e hbe he]
    constructor
    · rintro ⟨_, ⟨c, h1, h2, q, hq, rfl⟩, r, hr, rfl⟩
      refine ⟨c, h1, h2, q, hq, r, hr, ?_⟩
      simp only []
      rw [Nat.mul_comm q m]
      congr 1
      · omega
      · congr 1; omega
    · rintro ⟨c, h1, h2, q, hq, r, hr, rfl⟩
      refine ⟨_, ⟨c, h1, h2, q, hq, rfl⟩, r, hr, ?_⟩
      simp only []
      rw [Nat.mul_comm q m]
      congr 1
      · omega
      · congr 1; omega

/-- Any of the four ways roll may be executed. -/
def RollOutcome (src dest : Mtx α) (d' : Nat → α) : Prop :=
  ∃ ex : Exec, ex.Ok ∧
    (Outcome (mTilingRollRead ex src dest) dest.data d' ∨ Outcome (mTilingRollWrite ex src dest) dest.data d')

def UnrollOutcome (src dest : Mtx α) (d' : Nat → α) : Prop :=
  ∃ ex : Exec, ex.Ok ∧
    (Outcome (mTilingUnrollRead ex src dest) dest.data d' ∨ Outcome (mTilingUnrollWrite ex src dest) dest.data d')

theorem roll_spec {m k n : Nat} {src dest : Mtx α} (s : TileShape m k n src dest) {d' : Nat → α}
    (h : RollOutcome src dest d') :
    Fills dest.rows dest.rows dest.colsNoBias dest.data d' (fun R x => src.data (src.cell (R % m) (R / m * n + x))) := by
  obtain ⟨ex, hex, h | h⟩ := h
  · exact tiling_roll_read ex hex s d' h
  · exact tiling_roll_write ex hex s d' h

theorem unroll_spec {m k n : Nat} {src dest : Mtx α} (s : TileShape m k n dest src) {d' : Nat → α}
    (h : UnrollOutcome src dest d') :
    Fills dest.rows dest.rows dest.colsNoBias dest.data d' (fun r c => src.data (src.cell (c / n * m + r) (c % n))) := by
  obtain ⟨ex, hex, h | h⟩ := h
  · exact tiling_unroll_read ex hex s d' h
  · exact tiling_unroll_write ex hex s d' h

/-- **C41.** Unrolling what was rolled restores every data element, whatever variants and thread splits were used. -/
theorem unroll_after_roll {m k n : Nat} {wide tall back : Mtx α} (s : TileShape m k n wide tall)
    (s' : TileShape m k n back tall) {d1 d2 : Nat → α} (h1 : RollOutcome wide tall d1)
    (h2 : UnrollOutcome { tall with data := d1 } back d2) (r c : Nat) (hr : r < m) (hc : c < k * n) :
    d2 (back.cell r c) = wide.data (wide.cell r c) := by
  have f1 := roll_spec s h1
  have s2 : TileShape m k n back { tall with data := d1 } := ⟨s'.hm, s'.hk, s'.hn, s'.wrows, s'.wcols, s'.trows, s'.tcols⟩
  have f2 := unroll_spec s2 h2
  have hm := s.hm
  have hq : c / n < k := Nat.div_lt_of_lt_mul (by rw [Nat.mul_comm]; exact hc)
  have hrow : c / n * m + r < tall.rows := by
    rw [s.trows]
    have : (c / n + 1) * m ≤ k * m := Nat.mul_le_mul_right _ hq
    rw [Nat.succ_mul] at this; omega
  have e1 := f1.1 (c / n * m + r) (c % n) hrow (by rw [s.tcols]; exact Nat.mod_lt _ s.hn)
  have e2 := f2.1 r c (by rw [s'.wrows]; exact hr) (by rw [s'.wcols]; exact hc)
  have e3 : (c / n * m + r) % m = r := by rw [Nat.mul_comm, Nat.mul_add_mod, Nat.mod_eq_of_lt hr]
  have e4 : (c / n * m + r) / m = c / n := by
    rw [Nat.mul_comm, Nat.mul_add_div hm, Nat.div_eq_of_lt hr, Nat.add_zero]
  dsimp only at e1 e2
  rw [e3, e4, Nat.mul_comm (c / n) n, Nat.div_add_mod] at e1
  rw [Nat.mul_comm (c / n) m] at e1 e2
  exact e2.trans e1

/-- **C41.** Rolling what was unrolled restores every data element. -/
theorem roll_after_unroll {m k n : Nat} {wide tall back : Mtx α} (s : TileShape m k n wide tall)
    (s' : TileShape m k n wide back) {d1 d2 : Nat → α} (h1 : UnrollOutcome tall wide d1)
    (h2 : RollOutcome { wide with data := d1 } back d2) (R x : Nat) (hR : R < k * m) (hx : x < n) :
    d2 (back.cell R x) = tall.data (tall.cell R x) := by
  have f1 := unroll_spec s h1
  have s2 : TileShape m k n { wide with data := d1 } back := ⟨s'.hm, s'.hk, s'.hn, s'.wrows, s'.wcols, s'.trows, s'.tcols⟩
  have f2 := roll_spec s2 h2
  have hm := s.hm
  have hq : R / m < k := Nat.div_lt_of_lt_mul (by rw [Nat.mul_comm]; exact hR)
  have e2 := f2.1 R x (by rw [s'.trows]; exact hR) (by rw [s'.tcols]; exact hx)
  have e1 := f1.1 (R % m) (R / m * n + x) (by rw [s.wrows]; exact Nat.mod_lt _ hm) (by
    rw [s.wcols]
    have : (R / m + 1) * n ≤ k * n := Nat.mul_le_mul_right _ hq
    rw [Nat.succ_mul] at this; omega)
  have e3 : (R / m * n + x) / n = R / m := by
    rw [Nat.mul_comm, Nat.mul_add_div s.hn, Nat.div_eq_of_lt hx, Nat.add_zero]
  have e4 : (R / m * n + x) % n = x := by rw [Nat.mul_comm, Nat.mul_add_mod, Nat.mod_eq_of_lt hx]
  dsimp only at e1 e2
  rw [e3, e4, Nat.mul_comm (R / m) m, Nat.div_add_mod] at e1
  exact e2.trans e1

/-! ### C42 -/

theorem cloneColsKernel_eq (spec : List Nat) (hpos : ∀ s ∈ spec.tail, 0 < s) (hne : spec ≠ []) (b e : Nat)
    (hbe : b < e) (he : e ≤ spec.sum) :
    cloneColsKernel spec spec.sum b e = some ((List.range' b (e - b)).zip ((expandFrom 0 spec).drop b)) := by
  obtain ⟨t, left, e1, e2, e3⟩ := cloneFind_eq b spec 0 0 (Nat.zero_le _) (by omega) hne
  unfold cloneColsKernel
  rw [e1]
  simp only [Nat.zero_add, Nat.sub_zero] at e2 e3 ⊢
  rw [if_pos e3]
  have hl := congrArg List.length e2
  rw [List.length_drop, expandFrom_length, List.length_append, List.length_replicate, expandFrom_length] at hl
  rw [cloneLoop_eq _ _ _ _ _ ?_ (by omega), e2]
  intro s hs
  refine hpos s ?_
  rw [Nat.add_comm, ← List.drop_drop, List.drop_one] at hs
  exact List.mem_of_mem_drop hs

theorem mapM_some_eq {β γ : Type} (f : β → Option γ) (g : β → γ) (l : List β) (h : ∀ x ∈ l, f x = some (g x)) :
    l.mapM f = some (l.map g) := by
  induction l with
  | nil => rfl
  | cons x xs ih =>
    rw [List.mapM_cons, h x (List.mem_cons_self ..), ih (fun y hy => h y (List.mem_cons_of_mem _ hy))]
    rfl

/-- **C42 (partial).** If every count except possibly the first one is positive, `mCloneCols` succeeds and destination
column `c` becomes the `c`-th entry of: column 0 `spec[0]` times, column 1 `spec[1]` times, and so on.
Missing: the property claims this for zero counts too, which is false (`clone_cols_zero_count_wrong`). -/
theorem clone_cols_partial (ex : Exec) (hex : ex.Ok) (src dest : Mtx α) (spec : List Nat)
    (hpos : ∀ s ∈ spec.tail, 0 < s) (hne : spec ≠ []) (hsum : dest.cols = spec.sum) (hcols : 0 < dest.cols)
    (hrows : src.rows = dest.rows) :
    ∃ ws, mCloneCols ex src dest spec = some ws ∧ ∀ d', Outcome ws dest.data d' →
      Fills dest.rows dest.rows dest.cols dest.data d'
        (fun r c => src.data (src.cell r (((List.range spec.length).flatMap fun j => List.replicate (spec.getD j 0) j).getD c 0))) := by
  have hexp : ∀ (l : List Nat) (j : Nat), expandFrom j l =
      (List.range l.length).flatMap fun i => List.replicate (l.getD i 0) (j + i) := by
    intro l
    induction l with
    | nil => intro j; simp [expandFrom]
    | cons s ss ih =>
      intro j
      rw [expandFrom, ih, List.length_cons, List.range_succ_eq_map, List.flatMap_cons, List.flatMap_map]
      simp only [List.getD_cons_zero, Nat.add_zero, List.getD_cons_succ]
      congr 1
      simp only [Nat.add_assoc, Nat.add_comm 1]
  have hE := hexp spec 0
  simp only [Nat.zero_add] at hE
  rw [← hE]
  have hk : ∀ r ∈ ex.calls dest.cols, cloneColsKernel spec dest.cols r.1 r.2 =
      some ((List.range' r.1 (r.2 - r.1)).zip ((expandFrom 0 spec).drop r.1)) := by
    intro r hr
    have hb := calls_bounds ex hex dest.cols hcols r hr
    rw [hsum]
    exact cloneColsKernel_eq spec hpos hne r.1 r.2 hb.1 (by omega)
  unfold mCloneCols
  rw [mapM_some_eq _ _ _ hk]
  refine ⟨_, rfl, ?_⟩
  intro d' ho
  refine fills_of_mem (Nat.le_refl _) _ _ ?_ ho
  intro k v
  have hmem := mem_writes ex hex dest.cols hcols
    (fun b e => cloneWrites src dest.rows ((List.range' b (e - b)).zip ((expandFrom 0 spec).drop b)))
    (fun c p => ∃ r, r < dest.rows ∧ p = (r + dest.rows * c, src.data (src.cell r ((expandFrom 0 spec).getD c 0))))
    ?_ (k, v)
  · unfold Exec.writes at hmem
    dsimp only at hmem ⊢
    rw [List.flatMap_map, hmem]
    constructor
    · rintro ⟨c, hc, r, hr, hp⟩
      cases hp
      exact ⟨r, c, hr, hc, rfl, rfl⟩
    · rintro ⟨r, c, hr, hc, rfl, rfl⟩
      exact ⟨c, hc, r, hr, rfl⟩
  · intro b e hbe he p
    have hlen := expandFrom_length 0 spec
    unfold cloneWrites
    simp only [List.mem_flatMap, mem_memcpyW]
    unfold Mtx.cell
    rw [hrows]
    constructor
    · rintro ⟨q, hq, r, hr, rfl⟩
      obtain ⟨i, hi⟩ := List.mem_iff_getElem?.1 hq
      obtain ⟨h1, h2⟩ := List.getElem?_zip_eq_some.1 hi
      have hi' : i < e - b := by
        have := (List.getElem?_eq_some_iff.1 h1).1
        simpa using this
      rw [List.getElem?_range' hi'] at h1
      rw [List.getElem?_drop] at h2
      have h1' : q.1 = b + i := by simpa using h1.symm
      refine ⟨b + i, by omega, by omega, r, hr, ?_⟩
      rw [List.getD_eq_getElem?_getD, h2, h1']
      simp only [Option.getD_some]
      congr 1
      · omega
      · congr 1; omega
    · rintro ⟨c, h1, h2, r, hr, rfl⟩
      have hlt : c < (expandFrom 0 spec).length := by omega
      refine ⟨(c, (expandFrom 0 spec)[c]), ?_, r, hr, ?_⟩
      · apply List.mem_iff_getElem?.2
        refine ⟨c - b, ?_⟩
        rw [List.getElem?_zip_eq_some]
        constructor
        · rw [List.getElem?_range' (by omega)]
          congr 1; omega
        · rw [List.getElem?_drop, show b + (c - b) = c by omega]
          exact List.getElem?_eq_getElem hlt
      · rw [List.getD_eq_getElem?_getD, List.getElem?_eq_getElem hlt]
        simp only [Option.getD_some]
        congr 1
        · omega
        · congr 1; omega

/-- **C42 is false for a zero count.** With counts 1,0,1 the second destination column becomes source column 1, although
column 1 is to be copied zero times and column 2 once. -/
theorem clone_cols_zero_count_wrong :
    ∃ (src dest : Mtx Nat) (spec : List Nat) (ws : List (Nat × Nat)), dest.cols = spec.sum ∧ spec.length = src.cols ∧
      src.rows = dest.rows ∧ mCloneCols .st src dest spec = some ws ∧
      applyW dest.data ws (dest.cell 0 1) ≠ src.data (src.cell 0 2) ∧
      applyW dest.data ws (dest.cell 0 1) = src.data (src.cell 0 1) := by
  refine ⟨⟨fun k => k, 3, 1, 3, false, false, false, false, 3⟩, ⟨fun _ => 7, 2, 1, 2, false, false, false, false, 2⟩,
    [1, 0, 1], [(0, 0), (1, 1)], rfl, rfl, rfl, rfl, ?_, rfl⟩
  decide

/-- `mCloneCol`: every destination column becomes the source column. -/
theorem clone_col (ex : Exec) (hex : ex.Ok) (src dest : Mtx α) (hcols : 0 < dest.cols)
    (d' : Nat → α) (h : Outcome (mCloneCol ex src dest) dest.data d') :
    Fills dest.rows dest.rows dest.cols dest.data d' (fun r _ => src.data (src.cell r 0)) := by
  refine fills_of_mem (Nat.le_refl _) _ _ ?_ h
  intro k v
  unfold mCloneCol
  rw [mem_writes ex hex dest.cols hcols _
    (fun c p => ∃ r, r < dest.rows ∧ p = (r + dest.rows * c, src.data (src.cell r 0)))]
  · constructor
    · rintro ⟨c, hc, r, hr, hp⟩
      cases hp
      exact ⟨r, c, hr, hc, rfl, rfl⟩
    · rintro ⟨r, c, hr, hc, rfl, rfl⟩
      exact ⟨c, hc, r, hr, rfl⟩
  · intro b e hbe he p
    simp only [List.mem_flatMap, List.mem_range'_1, mem_memcpyW, Mtx.cell, Nat.mul_zero, Nat.add_zero, Nat.zero_add]
    constructor
    · rintro ⟨c, hc, i, hi, rfl⟩
      exact ⟨c, hc.1, by omega, i, hi, by rw [Nat.add_comm i]⟩
    · rintro ⟨c, h1, h2, r, hr, rfl⟩
      exact ⟨c, ⟨h1, by omega⟩, r, hr, by rw [Nat.add_comm r]⟩

/-! Non-vacuity: concrete matrices meet the hypotheses above, and the kernels do something. -/

/-- A `r × c` matrix without biases with elements `0,1,2,..` in storage order. -/
def demoMtx (r c : Nat) : Mtx Nat := ⟨fun k => k, r * c, r, c, false, false, false, false, r * c⟩
/-- The same with an emulated bias column. -/
def demoMtxB (r c : Nat) : Mtx Nat := ⟨fun k => if k < r * c then 100 + k else 1, r * (c + 1), r, c + 1, true, false, false, false, r * (c + 1)⟩

example : (List.range 6).map (applyW (demoMtxB 2 2).data
    (mExtractRows (.mt (initRanges 2)) (demoMtx 3 2) (demoMtxB 2 2) (fun i => if i = 0 then 2 else 0))) =
    [2, 0, 5, 3, 1, 1] := by decide
example : Exec.Ok (.mt (initRanges 2)) := initRanges_ok 2
example : TileShape 2 3 2 (demoMtx 2 6) (demoMtxB 6 2) := ⟨by decide, by decide, by decide, rfl, rfl, rfl, rfl⟩
example : (List.range 18).map (applyW (demoMtxB 6 2).data (mTilingRollRead (.mt (initRanges 3)) (demoMtx 2 6) (demoMtxB 6 2))) =
    [0, 1, 4, 5, 8, 9, 2, 3, 6, 7, 10, 11, 1, 1, 1, 1, 1, 1] := by decide
example : (List.range 18).map (applyW (demoMtxB 6 2).data (mTilingRollWrite .st (demoMtx 2 6) (demoMtxB 6 2))) =
    [0, 1, 4, 5, 8, 9, 2, 3, 6, 7, 10, 11, 1, 1, 1, 1, 1, 1] := by decide
example : (List.range 6).map (applyW (demoMtx 2 3).data ((mCloneCols (.mt (initRanges 1)) (demoMtx 2 2) (demoMtx 2 3) [1, 2]).getD [])) =
    [0, 1, 2, 3, 2, 3] := by decide
example : rowsIf (demoMtx 2 3) false = colsIf (demoMtx 3 2) false ∧ colsIf (demoMtx 2 3) false = rowsIf (demoMtx 3 2) false :=
  ⟨rfl, rfl⟩
example : (List.range 6).map (applyW (demoMtx 3 2).data (mTranspose 3 (demoMtx 2 3) (demoMtx 3 2) false)) =
    [0, 2, 4, 1, 3, 5] := by decide
example : (demoMtx 2 2).rows = (openRows (fun i => i != 1) 3).length := by decide
example : (List.range 4).map (applyW (demoMtx 2 2).data (mExtractRowsByMask .st (demoMtx 3 2) (demoMtx 2 2) (fun i => i != 1))) =
    [0, 2, 3, 5] := by decide
example : (List.range 6).map (applyW (demoMtx 3 2).data (mFillRowsByMask .st (demoMtx 2 2) (demoMtx 3 2) 0 (fun i => i != 1))) =
    [0, 0, 1, 2, 0, 3] := by decide

end Nntl.Kernel
