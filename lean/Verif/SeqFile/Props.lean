import Verif.SeqFile.Lemmas
/-! Reading sequences for classification from a binary file: C152 (what was written is read), C153 (arbitrary files). -/
namespace Nntl.SeqFile
open Nntl.Matrix Nntl.BinFile
set_option linter.unusedSimpArgs false

variable {T : ETy}

/-! ### The file's header and the counts -/

theorem read_header (cv : Conv) (env : Env T) (dest : Seqs T) (f n : Nat) (hf : f < 65536) (hn : n < 65536) (bs : List UInt8) :
    read cv env dest ([110, 110, 116, 108] ++ leBytes 2 0 ++ leBytes 2 f ++ leBytes 2 n ++ bs) = readInto cv env dest f n bs := by
  have hl : ([110, 110, 116, 108] ++ leBytes 2 0 ++ leBytes 2 f ++ leBytes 2 n).length = 10 := by simp [leBytes_length]
  unfold read
  rw [fread_eq hl]
  dsimp only
  have e1 : ([110, 110, 116, 108] ++ leBytes 2 0 ++ leBytes 2 f ++ leBytes 2 n).take 4 = [110, 110, 116, 108] := by
    rw [List.append_assoc, List.append_assoc, List.take_left' sig4]
  have e2 : (([110, 110, 116, 108] ++ leBytes 2 0 ++ leBytes 2 f ++ leBytes 2 n).drop 4).take 2 = leBytes 2 0 := by
    rw [List.append_assoc, List.append_assoc, List.drop_left' sig4, List.take_left' (leBytes_length _ _)]
  have e3 : (([110, 110, 116, 108] ++ leBytes 2 0 ++ leBytes 2 f ++ leBytes 2 n).drop 6).take 2 = leBytes 2 f := by
    rw [List.append_assoc, List.drop_left' (by simp [leBytes_length]), List.take_left' (leBytes_length _ _)]
  have e4 : (([110, 110, 116, 108] ++ leBytes 2 0 ++ leBytes 2 f ++ leBytes 2 n).drop 8).take 2 = leBytes 2 n := by
    rw [List.drop_left' (by simp [leBytes_length]), List.take_of_length_le (by simp [leBytes_length])]
  rw [e1, e2, e3, e4, leNat_leBytes _ _ (by omega), leNat_leBytes _ _ (by omega), leNat_leBytes _ _ (by omega), if_neg (by decide), if_neg (by simp)]

theorem encSeqFile_append (n : Nat) (es : List Entry) (rest : List UInt8) : encSeqFile n es ++ rest =
    [110, 110, 116, 108] ++ leBytes 2 0 ++ leBytes 2 (es.length + n) ++ leBytes 2 n ++
      (((List.range n).map fun k => es.countP fun e => e.cls == k).flatMap (leBytes 2) ++ ((es.flatMap fun e => encField e.name e.mtx) ++ rest)) := by
  unfold encSeqFile
  rw [List.flatMap_map]
  simp only [List.append_assoc]

theorem counts_pos {n : Nat} {es : List Entry} (h : SetOk n es) : ∀ c ∈ (List.range n).map fun k => es.countP fun e => e.cls == k, 0 < c ∧ c < 65536 := by
  intro c hc
  obtain ⟨k, hk, rfl⟩ := List.mem_map.1 hc
  rw [List.mem_range] at hk
  obtain ⟨e, he, hek⟩ := h.every k hk
  refine ⟨List.countP_pos_iff.2 ⟨e, he, by simp [hek]⟩, ?_⟩
  have h1 : (es.countP fun e => e.cls == k) ≤ es.length := List.countP_le_length
  have := h.fits
  omega

theorem readCounts_file {n : Nat} {es : List Entry} (h : SetOk n es) (rest : List UInt8) :
    readCounts n [] 0 (((List.range n).map fun k => es.countP fun e => e.cls == k).flatMap (leBytes 2) ++ rest) =
      some (.inr ((List.range n).map fun k => es.countP fun e => e.cls == k, es.length), rest) := by
  have h1 := readCounts_ok ((List.range n).map fun k => es.countP fun e => e.cls == k) [] 0 rest (counts_pos h)
    (by rw [sum_counts n es h.cls]; have := h.fits; omega)
  rw [List.length_map, List.length_range, sum_counts n es h.cls] at h1
  simpa using h1

theorem prealloc_clear (d : Seqs T) (hd : Clear d) (counts : List Nat) (hc : counts ≠ []) (junk : Nat → Elem T) :
    prealloc d counts none junk = (⟨counts.map fun c => List.replicate c (Mtx.default junk), counts⟩, true) := by
  unfold prealloc Seqs.isClear
  rw [hd.1, hd.2]
  cases counts with
  | nil => exact absurd rfl hc
  | cons _ _ => rfl

theorem ofClass_length (es : List Entry) (k : Nat) : (ofClass es k).length = es.countP fun e => e.cls == k := by
  unfold ofClass
  rw [List.length_map, List.countP_eq_length_filter]

theorem preallocated_ok (counts : List Nat) (junk : Nat → Elem T) : StorOk ⟨counts.map fun c => List.replicate c (Mtx.default junk), counts⟩ := by
  intro l hl m hm
  obtain ⟨c, -, rfl⟩ := List.mem_map.1 hl
  rw [(List.mem_replicate.1 hm).2]
  exact ⟨fun _ => ⟨rfl, rfl, rfl⟩, fun h => absurd rfl h⟩

theorem preallocated_empty (counts : List Nat) (junk : Nat → Elem T) :
    numEmpty ⟨counts.map fun c => List.replicate c (Mtx.default junk), counts⟩ = counts.sum := by
  unfold numEmpty
  dsimp only
  rw [List.map_map]
  congr 1
  conv => rhs; rw [← List.map_id counts]
  apply List.map_congr_left
  intro c _
  simp [List.countP_replicate, Mtx.empty, Mtx.default]

/-- Nothing empty and every class with something: the object is not `empty()`. -/
theorem not_empty_of {d : Seqs T} (h0 : numEmpty d = 0) (hs : d.stor ≠ []) (hc : d.cnt ≠ []) (hl : ∀ l ∈ d.stor, l ≠ []) : d.empty = false := by
  unfold Seqs.empty
  rw [Bool.or_eq_false_iff, Bool.or_eq_false_iff]
  refine ⟨⟨?_, ?_⟩, ?_⟩
  · cases h : d.stor with
    | nil => exact absurd h hs
    | cons _ _ => rfl
  · cases h : d.cnt with
    | nil => exact absurd h hc
    | cons _ _ => rfl
  · rw [List.any_eq_false]
    intro l hm
    have h1 : (l.countP fun m => m.empty) = 0 := by
      unfold numEmpty at h0
      exact List.sum_eq_zero_iff_forall_eq_nat.1 h0 _ (List.mem_map.2 ⟨l, hm, rfl⟩)
    rw [List.countP_eq_zero] at h1
    have h2 : l.isEmpty = false := by
      cases h : l with
      | nil => exact absurd h (hl l hm)
      | cons _ _ => rfl
    simp only [h2, Bool.false_or, Bool.not_eq_true, List.any_eq_false]
    intro m hm
    simpa using h1 m hm

/-! ### C152 -/

/-- **C152.** A set of sequences that was written to a file is read into a clear object: every class gets its sequences, in the order of the file,
however the classes are mixed in it. -/
theorem seq_round_trip (cv : Conv) (env : Env T) (henv : env.Ok) (dest : Seqs T) (hd : Clear dest) (n : Nat) (es : List Entry) (h : SetOk n es)
    (rest : List UInt8) : ∃ d, read cv env dest (encSeqFile n es ++ rest) = some (.base .success, d, rest) ∧ Holds cv n es d := by
  have hfit := h.fits
  have hn := h.some_class
  have hes : es.length ≠ 0 := by
    obtain ⟨e, he, -⟩ := h.every 0 hn
    intro h0
    rw [List.length_eq_zero_iff.1 h0] at he
    cases he
  have hcne : ((List.range n).map fun k => es.countP fun e => e.cls == k) ≠ [] := by
    intro h0
    have := congrArg List.length h0
    simp at this
    omega
  rw [encSeqFile_append, read_header _ _ _ _ _ (by omega) (by omega)]
  unfold readInto
  rw [if_neg (by omega), henv.vec, readCounts_file h]
  simp only [Bool.not_true, Bool.false_eq_true, if_false]
  rw [if_neg (by omega), if_neg (by simp), henv.pre, prealloc_clear _ hd _ hcne]
  dsimp only
  obtain ⟨d', g1, g2, g3, g4⟩ := readSeqs_ok cv env henv n (by omega) (env.field 0).junk es 0
    (⟨((List.range n).map fun k => es.countP fun e => e.cls == k).map fun c => List.replicate c (Mtx.default (env.field 0).junk),
      (List.range n).map fun k => es.countP fun e => e.cls == k⟩ : Seqs T) rest h.cls h.mtx h.suffix h.name
    (by simp) (by
      intro k hk
      simp [hk])
  obtain ⟨i1, i2, i3, i4⟩ := readSeqs_inv cv env es.length 0 _ d' _ rest (preallocated_ok _ _)
    (by rw [preallocated_empty, sum_counts n es h.cls]) g1
  rw [g1]
  dsimp only
  have hne : d'.empty = false := by
    apply not_empty_of i2
    · intro h0; rw [h0] at g3; simp at g3; omega
    · rw [g2]; exact hcne
    · intro l hl h0
      obtain ⟨k, hk⟩ := List.mem_iff_getElem?.1 hl
      have hkn : k < n := by
        have := List.getElem?_eq_some_iff.1 hk
        obtain ⟨hk', -⟩ := this
        omega
      obtain ⟨l', h1, h2⟩ := g4 k hkn
      rw [hk] at h1
      cases h1
      have h3 := h2.length_eq
      rw [ofClass_length, h0] at h3
      have := counts_pos h (es.countP fun e => e.cls == k) (List.mem_map.2 ⟨k, List.mem_range.2 hkn, rfl⟩)
      simp at h3
      have h5 := this.1
      rw [List.countP_pos_iff] at h5
      obtain ⟨e, he, hek⟩ := h5
      exact absurd (by simpa using hek) (h3 e he)
  rw [hne]
  refine ⟨d', rfl, g3, ?_, ?_⟩
  · rw [g2]
    apply List.map_congr_left
    intro k _
    exact (ofClass_length es k).symm
  · intro k hk
    obtain ⟨l, h1, h2⟩ := g4 k hk
    exact ⟨l, h1, h2⟩

/-! ### Reading and files with more at their end -/

theorem readCounts_mono (n : Nat) : ∀ (cs : List Nat) (tot : Nat) (bs x : List UInt8) (r : List Nat × Nat) (rest : List UInt8),
    readCounts n cs tot bs = some (.inr r, rest) → readCounts n cs tot (bs ++ x) = some (.inr r, rest ++ x) := by
  induction n with
  | zero =>
    intro cs tot bs x r rest h
    simp only [readCounts, Option.some.injEq, Prod.mk.injEq, Sum.inr.injEq] at h ⊢
    obtain ⟨rfl, rfl⟩ := h
    exact ⟨rfl, rfl⟩
  | succ n ih =>
    intro cs tot bs x r rest h
    unfold readCounts at h ⊢
    split at h
    · cases h
    · rename_i hd bs1 h1
      rw [fread_append x h1]
      dsimp only at h ⊢
      split at h
      · cases h
      · rename_i h2
        rw [if_neg h2]
        split at h
        · cases h
        · rename_i h3
          rw [if_neg h3]
          exact ih _ _ _ _ _ _ h

/-- What a successful reading has gone through. -/
theorem readInto_success {cv : Conv} {env : Env T} {dest d : Seqs T} {f n : Nat} {bs rest : List UInt8}
    (h : readInto cv env dest f n bs = some (.base .success, d, rest)) :
    ∃ counts tot bs1, n < f ∧ env.vecOk = true ∧ readCounts n [] 0 bs = some (.inr (counts, tot), bs1) ∧ tot + n ≤ 2147483647 ∧ tot + n = f ∧
      Clear dest ∧ counts ≠ [] ∧ env.pre = none ∧
      readSeqs cv env tot 0 ⟨counts.map fun c => List.replicate c (Mtx.default (env.field 0).junk), counts⟩ bs1 = some (.base .success, d, rest) ∧
      d.empty = false := by
  unfold readInto at h
  split at h
  · cases h
  rename_i h1
  split at h
  · cases h
  rename_i h2
  split at h
  · cases h
  · rename_i e bs1 h3
    simp only [Option.some.injEq, Prod.mk.injEq] at h
    obtain ⟨he, -, -⟩ := h
    exfalso
    have key : ∀ (n : Nat) (cs : List Nat) (tot : Nat) (bs bs1 : List UInt8), readCounts n cs tot bs ≠ some (.inl (.base .success), bs1) := by
      intro n
      induction n with
      | zero => intro cs tot bs bs1 hh; simp [readCounts] at hh
      | succ n ih =>
        intro cs tot bs bs1 hh
        unfold readCounts at hh
        split at hh
        · cases hh
        · dsimp only at hh
          split at hh
          · cases hh
          · split at hh
            · cases hh
            · exact ih _ _ _ _ hh
    rw [he] at h3
    exact key _ _ _ _ _ h3
  · rename_i counts tot bs1 h3
    split at h
    · cases h
    rename_i h4
    split at h
    · cases h
    rename_i h5
    split at h
    · cases h
    · rename_i d1 h6
      have hpre : Clear dest ∧ counts ≠ [] ∧ env.pre = none ∧ d1 = ⟨counts.map fun c => List.replicate c (Mtx.default (env.field 0).junk), counts⟩ := by
        unfold prealloc at h6
        split at h6
        · cases h6
        · rename_i h7
          simp only [Seqs.isClear, Bool.or_eq_true, Bool.not_eq_true', Bool.and_eq_false_iff, List.isEmpty_eq_false_iff, not_or,
            Decidable.not_not, ne_eq, List.isEmpty_iff] at h7
          split at h6
          · rename_i hp
            cases h6
            exact ⟨⟨h7.1.1, h7.1.2⟩, h7.2, hp, rfl⟩
          · cases h6
      obtain ⟨p1, p2, p3, rfl⟩ := hpre
      split at h
      · cases h
      · rename_i d2 bs2 h8
        split at h
        · cases h
        · rename_i h9
          simp only [Option.some.injEq, Prod.mk.injEq] at h
          obtain ⟨-, rfl, rfl⟩ := h
          exact ⟨counts, tot, bs1, by omega, by simpa using h2, h3, by omega, by omega, p1, p2, p3, h8, by simpa using h9⟩
      · rename_i e d2 bs2 hne h8
        simp only [Option.some.injEq, Prod.mk.injEq] at h
        obtain ⟨rfl, rfl, rfl⟩ := h
        exact absurd rfl hne

theorem readInto_mono {cv : Conv} {env : Env T} {dest d : Seqs T} {f n : Nat} {bs rest : List UInt8} (x : List UInt8)
    (h : readInto cv env dest f n bs = some (.base .success, d, rest)) :
    readInto cv env dest f n (bs ++ x) = some (.base .success, d, rest ++ x) := by
  obtain ⟨counts, tot, bs1, h1, h2, h3, h4, h5, h6, h7, h8, h9, h10⟩ := readInto_success h
  unfold readInto
  rw [if_neg (by omega), h2, readCounts_mono _ _ _ _ x _ _ h3]
  simp only [Bool.not_true, Bool.false_eq_true, if_false]
  rw [if_neg (by omega), if_neg (by omega), h8, prealloc_clear _ h6 _ h7]
  dsimp only
  rw [readSeqs_mono _ _ _ _ _ _ _ _ x h9]
  dsimp only
  rw [h10]
  rfl

theorem read_mono {cv : Conv} {env : Env T} {dest d : Seqs T} {bs rest : List UInt8} (x : List UInt8)
    (h : read cv env dest bs = some (.base .success, d, rest)) : read cv env dest (bs ++ x) = some (.base .success, d, rest ++ x) := by
  unfold read at h ⊢
  split at h
  · cases h
  · rename_i hd bs1 h1
    rw [fread_append x h1]
    dsimp only
    split at h
    · cases h
    · rename_i h2
      rw [if_neg h2]
      split at h
      · cases h
      · rename_i h3
        rw [if_neg h3]
        exact readInto_mono x h

/-- **C152.** A file that was cut off anywhere is never read successfully, whatever the environment does. -/
theorem truncated_sequences_rejected (cv : Conv) (env : Env T) (dest d : Seqs T) (n : Nat) (es : List Entry) (h : SetOk n es) (p x rest : List UInt8)
    (hp : p ++ x = encSeqFile n es) (hx : x ≠ []) : read cv env dest p ≠ some (.base .success, d, rest) := by
  intro hr
  have h1 := read_mono x hr
  rw [hp] at h1
  have hfit := h.fits
  have h2 : encSeqFile n es = encSeqFile n es ++ [] := (List.append_nil _).symm
  rw [h2, encSeqFile_append, read_header _ _ _ _ _ (by omega) (by omega)] at h1
  obtain ⟨counts, tot, bs1, -, -, g3, -, g5, -, -, -, g9, -⟩ := readInto_success h1
  rw [readCounts_file h] at g3
  simp only [Option.some.injEq, Prod.mk.injEq, Sum.inr.injEq] at g3
  obtain ⟨⟨rfl, rfl⟩, rfl⟩ := g3
  have := readSeqs_consumes cv env es 0 _ d [] _ (preallocated_ok _ _) h.mtx h.name g9
  simp at this
  exact hx this.2

/-! ### C153 -/

theorem readCounts_facts (n : Nat) : ∀ (cs : List Nat) (tot : Nat) (bs : List UInt8) (cs' : List Nat) (tot' : Nat) (rest : List UInt8),
    (∀ c ∈ cs, 0 < c) → cs.sum = tot → readCounts n cs tot bs = some (.inr (cs', tot'), rest) →
    (∀ c ∈ cs', 0 < c) ∧ cs'.sum = tot' ∧ cs'.length = cs.length + n := by
  induction n with
  | zero =>
    intro cs tot bs cs' tot' rest h1 h2 h
    simp only [readCounts, Option.some.injEq, Prod.mk.injEq, Sum.inr.injEq] at h
    obtain ⟨⟨rfl, rfl⟩, -⟩ := h
    exact ⟨h1, h2, rfl⟩
  | succ n ih =>
    intro cs tot bs cs' tot' rest h1 h2 h
    unfold readCounts at h
    split at h
    · cases h
    · rename_i hd bs1 h3
      dsimp only at h
      split at h
      · cases h
      · rename_i h4
        split at h
        · cases h
        · obtain ⟨g1, g2, g3⟩ := ih _ _ _ _ _ _ (by
            intro c hc
            rcases List.mem_append.1 hc with hc | hc
            · exact h1 c hc
            · simp only [List.mem_singleton] at hc
              omega) (by rw [List.sum_append, h2]; simp) h
          exact ⟨g1, g2, by rw [g3]; simp; omega⟩

theorem full_of {cv : Conv} {env : Env T} {d : Seqs T} {counts : List Nat} {tot : Nat} {bs rest : List UInt8} {j : Nat → Elem T}
    (hpos : ∀ c ∈ counts, 0 < c) (hsum : counts.sum = tot) (hne : counts ≠ [])
    (h : readSeqs cv env tot 0 ⟨counts.map fun c => List.replicate c (Mtx.default j), counts⟩ bs = some (.base .success, d, rest)) :
    Full d ∧ d.cnt = counts ∧ d.empty = false := by
  obtain ⟨i1, i2, i3, i4⟩ := readSeqs_inv cv env tot 0 _ d bs rest (preallocated_ok counts j) (by rw [preallocated_empty, hsum]) h
  have hlen : d.stor.map List.length = counts := by
    rw [i4, List.map_map]
    conv => rhs; rw [← List.map_id counts]
    apply List.map_congr_left
    intro c _
    simp
  have hs : d.stor ≠ [] := by intro h0; rw [h0] at hlen; exact hne hlen.symm
  have hl : ∀ l ∈ d.stor, l ≠ [] := by
    intro l hl h0
    have := hpos l.length (by rw [← hlen]; exact List.mem_map.2 ⟨l, hl, rfl⟩)
    rw [h0] at this
    simp at this
  refine ⟨⟨hs, by rw [i3, hlen], hl, ?_⟩, i3, not_empty_of i2 hs (by rw [i3]; exact hne) hl⟩
  intro l hm m hmm
  have h1 : (l.countP fun m => m.empty) = 0 := by
    unfold numEmpty at i2
    exact List.sum_eq_zero_iff_forall_eq_nat.1 i2 _ (List.mem_map.2 ⟨l, hm, rfl⟩)
  rw [List.countP_eq_zero] at h1
  exact (i1 l hm m hmm).2 (by simpa [Mtx.empty] using h1 m hmm)

/-- **C153.** Whatever the file contains: after a successful reading the object was clear before, and every class has exactly the announced number of
sequences, at least one, all of them matrices with elements; the number of classes is the one in the header, signature and version are right, and
the file pointer could be moved back for every sequence. -/
theorem successful_read_full (cv : Conv) (env : Env T) (dest d : Seqs T) (bs rest : List UInt8)
    (h : read cv env dest bs = some (.base .success, d, rest)) :
    Clear dest ∧ Full d ∧ d.cnt.length = leNat ((bs.drop 8).take 2) ∧ d.cnt.sum + d.cnt.length = leNat ((bs.drop 6).take 2) ∧
      leNat (bs.take 4) = signature ∧ leNat ((bs.drop 4).take 2) = 0 ∧ ∀ i, i < d.cnt.sum → env.seekOk i = true := by
  unfold read at h
  split at h
  · cases h
  · rename_i hd bs1 h1
    split at h
    · cases h
    rename_i hsig
    split at h
    · cases h
    rename_i hver
    obtain ⟨counts, tot, bs2, -, -, g3, -, g5, g6, g7, -, g9, -⟩ := readInto_success h
    obtain ⟨k1, k2, k3⟩ := readCounts_facts _ _ _ _ _ _ _ (by simp) (by simp) g3
    obtain ⟨f1, f2, -⟩ := full_of k1 k2 g7 g9
    obtain ⟨rfl, hl⟩ := fread_some h1
    have e8 : ((hd ++ bs1).drop 8).take 2 = (hd.drop 8).take 2 := by
      rw [List.drop_append_of_le_length (by omega), List.take_append_of_le_length (by simp; omega)]
    have e6 : ((hd ++ bs1).drop 6).take 2 = (hd.drop 6).take 2 := by
      rw [List.drop_append_of_le_length (by omega), List.take_append_of_le_length (by simp; omega)]
    have hc : d.cnt.length = leNat ((hd.drop 8).take 2) := by rw [f2, k3]; simp
    refine ⟨g6, f1, by rw [e8]; exact hc, ?_⟩
    refine ⟨by rw [e6, hc, f2, k2]; exact g5, ?_, ?_, ?_⟩
    · rw [List.take_append_of_le_length (by omega)]; simpa using hsig
    · rw [List.drop_append_of_le_length (by omega), List.take_append_of_le_length (by simp; omega)]; simpa using hver
    · intro i hi
      rw [f2, k2] at hi
      have := readSeqs_seek cv env _ _ _ _ _ _ g9 i (by omega) (by omega)
      exact this

/-- **C153.** The error `IncoherentMetaAndContent` is never reported. -/
theorem incoherent_content_never (cv : Conv) (env : Env T) (dest d : Seqs T) (bs rest : List UInt8) :
    read cv env dest bs ≠ some (.incoherentMetaAndContent, d, rest) := by
  have hc : ∀ (n : Nat) (cs : List Nat) (tot : Nat) (bs bs1 : List UInt8), readCounts n cs tot bs ≠ some (.inl .incoherentMetaAndContent, bs1) := by
    intro n
    induction n with
    | zero => intro cs tot bs bs1 hh; simp [readCounts] at hh
    | succ n ih =>
      intro cs tot bs bs1 hh
      unfold readCounts at hh
      split at hh
      · cases hh
      · dsimp only at hh
        split at hh
        · cases hh
        · split at hh
          · cases hh
          · exact ih _ _ _ _ hh
  have hs : ∀ (k i : Nat) (d d' : Seqs T) (bs rest : List UInt8), readSeqs cv env k i d bs ≠ some (.incoherentMetaAndContent, d', rest) := by
    intro k
    induction k with
    | zero => intro i d d' bs rest hh; simp [readSeqs] at hh
    | succ k ih =>
      intro i d d' bs rest hh
      unfold readSeqs at hh
      split at hh
      · cases hh
      split at hh
      · cases hh
      · cases hh
      · split at hh
        · cases hh
        dsimp only at hh
        split at hh
        · cases hh
        split at hh
        · cases hh
        split at hh
        · cases hh
        split at hh
        · cases hh
        · exact ih _ _ _ _ _ hh
  intro h
  unfold read at h
  split at h
  · cases h
  split at h
  · cases h
  split at h
  · cases h
  unfold readInto at h
  split at h
  · cases h
  split at h
  · cases h
  split at h
  · cases h
  · rename_i e bs1 h3
    simp only [Option.some.injEq, Prod.mk.injEq] at h
    rw [h.1] at h3
    exact hc _ _ _ _ _ h3
  · rename_i counts tot bs1 h3
    obtain ⟨k1, k2, -⟩ := readCounts_facts _ _ _ _ _ _ _ (by simp) (by simp) h3
    split at h
    · cases h
    split at h
    · cases h
    split at h
    · cases h
    · rename_i d1 h6
      have hpre : counts ≠ [] ∧ d1 = ⟨counts.map fun c => List.replicate c (Mtx.default (env.field 0).junk), counts⟩ := by
        unfold prealloc at h6
        split at h6
        · cases h6
        · rename_i h7
          simp only [Bool.or_eq_true, not_or, List.isEmpty_iff] at h7
          split at h6
          · cases h6
            exact ⟨h7.2, rfl⟩
          · cases h6
      obtain ⟨p2, rfl⟩ := hpre
      split at h
      · cases h
      · rename_i d2 bs2 h8
        obtain ⟨-, -, f3⟩ := full_of k1 k2 p2 h8
        rw [f3] at h
        cases h
      · rename_i e d2 bs2 hne h8
        simp only [Option.some.injEq, Prod.mk.injEq] at h
        rw [h.1] at h8
        exact hs _ _ _ _ _ _ h8

/-- **C153.** An object that is not clear is never read into: no success, and it keeps its contents. -/
theorem occupied_object_kept (cv : Conv) (env : Env T) (dest d : Seqs T) (hd : ¬ Clear dest) (bs rest : List UInt8) (e : SErr)
    (h : read cv env dest bs = some (e, d, rest)) : e ≠ .base .success ∧ d = dest := by
  refine ⟨?_, ?_⟩
  · rintro rfl
    exact hd (successful_read_full cv env dest d bs rest h).1
  · have hpre : ∀ counts pre junk, prealloc dest counts pre junk = (dest, false) := by
      intro counts pre junk
      unfold prealloc
      have : dest.isClear = false := by
        rw [Bool.eq_false_iff]
        intro hh
        simp only [Seqs.isClear, Bool.and_eq_true, List.isEmpty_iff] at hh
        exact hd hh
      rw [this]
      rfl
    unfold read at h
    split at h
    · cases h; rfl
    split at h
    · cases h; rfl
    split at h
    · cases h; rfl
    unfold readInto at h
    split at h
    · cases h; rfl
    split at h
    · cases h
    split at h
    · cases h
    · cases h; rfl
    · split at h
      · cases h
      split at h
      · cases h; rfl
      rw [hpre] at h
      cases h; rfl

theorem readSeqs_cnt (cv : Conv) (env : Env T) (k : Nat) : ∀ (i : Nat) (d d' : Seqs T) (bs rest : List UInt8) (e : SErr),
    readSeqs cv env k i d bs = some (e, d', rest) → d'.cnt = d.cnt := by
  induction k with
  | zero =>
    intro i d d' bs rest e h
    simp only [readSeqs, Option.some.injEq, Prod.mk.injEq] at h
    rw [h.2.1]
  | succ k ih =>
    intro i d d' bs rest e h
    unfold readSeqs at h
    split at h
    · cases h; rfl
    split at h
    · cases h
    · cases h; rfl
    · split at h
      · cases h; rfl
      dsimp only at h
      split at h
      · cases h; rfl
      split at h
      · cases h; rfl
      split at h
      · cases h
      split at h
      · cases h; rfl
      · rw [ih _ _ _ _ _ _ h]; rfl

/-- **C153.** A file that is cut off behind its counts leaves the object occupied: the result is an error, and every later reading into it, of
whatever file, fails and changes nothing, until it is cleared. -/
theorem failed_read_occupies (cv : Conv) (env env' : Env T) (dest d d' : Seqs T) (hd : Clear dest) (henv : env.pre = none) (n : Nat) (es : List Entry)
    (h : SetOk n es) (p x rest bs rest' : List UInt8) (e e' : SErr) (hp : p ++ x = es.flatMap fun e => encField e.name e.mtx) (hx : x ≠ [])
    (hr : read cv env dest ([110, 110, 116, 108] ++ leBytes 2 0 ++ leBytes 2 (es.length + n) ++ leBytes 2 n ++
      (((List.range n).flatMap fun k => leBytes 2 (es.countP fun e => e.cls == k)) ++ p)) = some (e, d, rest))
    (hr' : read cv env' d bs = some (e', d', rest')) :
    e ≠ .base .success ∧ ¬ Clear d ∧ e' ≠ .base .success ∧ d' = d := by
  have hfit := h.fits
  have hn := h.some_class
  have hes : es.length ≠ 0 := by
    obtain ⟨e, he, -⟩ := h.every 0 hn
    intro h0
    rw [List.length_eq_zero_iff.1 h0] at he
    cases he
  have hcne : ((List.range n).map fun k => es.countP fun e => e.cls == k) ≠ [] := by
    intro h0
    have := congrArg List.length h0
    simp at this
    omega
  have hnc : ¬ Clear d := by
    rw [read_header _ _ _ _ _ (by omega) (by omega)] at hr
    have hfm : ((List.range n).flatMap fun k => leBytes 2 (es.countP fun e => e.cls == k)) =
        ((List.range n).map fun k => es.countP fun e => e.cls == k).flatMap (leBytes 2) := by rw [List.flatMap_map]
    rw [hfm] at hr
    unfold readInto at hr
    rw [if_neg (by omega), readCounts_file h] at hr
    split at hr
    · cases hr
    dsimp only at hr
    rw [if_neg (by omega), if_neg (by simp), henv, prealloc_clear _ hd _ hcne] at hr
    dsimp only at hr
    have hcnt : d.cnt = (List.range n).map fun k => es.countP fun e => e.cls == k := by
      split at hr
      · cases hr
      · rename_i d2 bs2 h8
        have h9 := readSeqs_cnt _ _ _ _ _ _ _ _ _ h8
        split at hr <;> (cases hr; exact h9)
      · rename_i e2 d2 bs2 _ h8
        have h9 := readSeqs_cnt _ _ _ _ _ _ _ _ _ h8
        cases hr; exact h9
    intro hcl
    rw [hcl.2] at hcnt
    exact hcne hcnt.symm
  refine ⟨?_, hnc, occupied_object_kept cv env' d d' hnc bs rest' e' hr'⟩
  rintro rfl
  refine truncated_sequences_rejected cv env dest d n es h _ x rest ?_ hx hr
  unfold encSeqFile
  rw [← hp]
  simp only [List.append_assoc]

/-- **C153.** After `clear()` a file is read again, whatever was in the object. -/
theorem read_after_clear (cv : Conv) (env : Env T) (henv : env.Ok) (old : Seqs T) (n : Nat) (es : List Entry) (h : SetOk n es) (rest : List UInt8) :
    ∃ d, read cv env old.clear (encSeqFile n es ++ rest) = some (.base .success, d, rest) ∧ Holds cv n es d :=
  seq_round_trip cv env henv old.clear ⟨rfl, rfl⟩ n es h rest

/-- **C153.** If memory runs out while the places for the sequences are made, the object is left with more counts than classes: `empty()`, `is_clear()`
and `clear()` assert that these numbers are equal. -/
theorem failed_preallocation_inconsistent (cv : Conv) (env : Env T) (dest : Seqs T) (hd : Clear dest) (n : Nat) (es : List Entry) (h : SetOk n es)
    (k : Nat) (hk : k < n) (hv : env.vecOk = true) (hpre : env.pre = some k) (rest : List UInt8) :
    ∃ d rest', read cv env dest (encSeqFile n es ++ rest) = some (.failedToPreallocateSeqData, d, rest') ∧ d.stor.length = k ∧ d.cnt.length = n := by
  have hfit := h.fits
  have hes : es.length ≠ 0 := by
    obtain ⟨e, he, -⟩ := h.every 0 h.some_class
    intro h0
    rw [List.length_eq_zero_iff.1 h0] at he
    cases he
  have hc : prealloc dest ((List.range n).map fun k => es.countP fun e => e.cls == k) (some k) (env.field 0).junk =
      (⟨(((List.range n).map fun k => es.countP fun e => e.cls == k).take k).map fun c => List.replicate c (Mtx.default (env.field 0).junk),
        (List.range n).map fun k => es.countP fun e => e.cls == k⟩, false) := by
    unfold prealloc
    rw [if_neg]
    simp only [Seqs.isClear, hd.1, hd.2, List.isEmpty_nil, Bool.and_self, Bool.not_true, Bool.false_or, List.isEmpty_iff, List.map_eq_nil_iff,
      List.range_eq_nil]
    omega
  rw [encSeqFile_append, read_header _ _ _ _ _ (by omega) (by omega)]
  unfold readInto
  rw [if_neg (by omega), hv, readCounts_file h]
  simp only [Bool.not_true, Bool.false_eq_true, if_false]
  rw [if_neg (by omega), if_neg (by simp), hpre, hc]
  exact ⟨_, _, rfl, by simp; omega, by simp⟩

/-- **C153.** A field whose name has a class number that is no `int` makes the behaviour undefined, however well-formed the rest is. -/
theorem class_number_too_big_ub (cv : Conv) (env : Env T) (henv : env.Ok) (dest : Seqs T) (hd : Clear dest) (N : Nat) (hN : 2147483648 ≤ N)
    (hl : (decimal N).length ≤ 14) (f : FileMtx) (hf : f.Ok) (rest : List UInt8) :
    read cv env dest ([110, 110, 116, 108] ++ leBytes 2 0 ++ leBytes 2 2 ++ leBytes 2 1 ++ (leBytes 2 1 ++ (encField (99 :: decimal N) f ++ rest))) = none := by
  have hnl : ((99 :: decimal N) ++ List.replicate (15 - (99 :: decimal N).length) (0 : UInt8)).length = 15 := by simp; omega
  obtain ⟨p1, -, -, p4, -⟩ := hdr_parse hnl hf
  rw [read_header _ _ _ _ _ (by omega) (by omega)]
  have hc := readCounts_ok [1] [] 0 (encField (99 :: decimal N) f ++ rest) (by simp) (by simp)
  simp only [List.length_singleton, List.flatMap_cons, List.flatMap_nil, List.append_nil, List.nil_append, List.sum_cons, List.sum_nil] at hc
  unfold readInto
  rw [if_neg (by omega), henv.vec, hc]
  simp only [Bool.not_true, Bool.false_eq_true, if_false]
  rw [if_neg (by omega), if_neg (by omega), henv.pre, prealloc_clear _ hd _ (by simp)]
  dsimp only
  have hz : ∀ b, (List.replicate (15 - (99 :: decimal N).length) (0 : UInt8)).head? = some b → b < 48 ∨ 57 < b := by
    intro b hb
    rw [(List.mem_replicate.1 (List.mem_of_mem_head? hb)).2]
    left; decide
  have : readSeqs cv env (0 + (1 + 0)) 0 (⟨[1].map fun c => List.replicate c (Mtx.default (env.field 0).junk), [1]⟩ : Seqs T)
      (encField (99 :: decimal N) f ++ rest) = none := by
    show readSeqs cv env (0 + 1) 0 _ _ = none
    unfold readSeqs
    rw [encField_append, fread_eq p1]
    dsimp only
    rw [p4, List.cons_append, parseClass_decimal N _ hz, if_neg (by omega)]
  rw [this]

theorem readCounts_overflow (m : Nat) : ∀ (cs : List Nat) (tot : Nat) (rest : List UInt8), tot ≤ 2147483647 → 2147483647 < tot + 65535 * m →
    readCounts m cs tot ((List.replicate m 65535).flatMap (leBytes 2) ++ rest) = none := by
  induction m with
  | zero => intro cs tot rest h1 h2; omega
  | succ m ih =>
    intro cs tot rest h1 h2
    rw [List.replicate_succ, List.flatMap_cons, List.append_assoc]
    unfold readCounts
    rw [fread_eq (leBytes_length 2 65535)]
    dsimp only
    rw [leNat_leBytes _ _ (by omega), if_neg (by omega)]
    by_cases hh : tot + 65535 > 2147483647
    · rw [if_pos hh]
    · rw [if_neg hh]
      exact ih _ _ _ (by omega) (by omega)

/-- **C153.** So does a file announcing too many sequences, from 32769 classes of 65535 on: their sum is no `int`. -/
theorem too_many_sequences_ub (cv : Conv) (env : Env T) (hv : env.vecOk = true) (dest : Seqs T) (n f : Nat) (hn : 32769 ≤ n) (hf : n < f) (hf' : f < 65536)
    (rest : List UInt8) :
    read cv env dest ([110, 110, 116, 108] ++ leBytes 2 0 ++ leBytes 2 f ++ leBytes 2 n ++ ((List.replicate n 65535).flatMap (leBytes 2) ++ rest)) = none := by
  rw [read_header _ _ _ _ _ hf' (by omega)]
  unfold readInto
  rw [if_neg (by omega), hv, readCounts_overflow n [] 0 rest (by omega) (by omega)]
  simp

/-! ### The hypotheses can be met -/

def demoEnv : Env .flt := ⟨true, none, fun _ => ⟨true, true, fun _ => ⟨[]⟩⟩, fun _ => true⟩

theorem demoEnv_ok : demoEnv.Ok := ⟨rfl, rfl, fun _ => ⟨rfl, rfl⟩, fun _ => rfl⟩

/-- Two classes; the sequences are mixed, one name has a suffix, the element types differ. -/
def demoSet : List Entry :=
  [⟨1, [], ⟨.flt, 2, 1, fun r _ => ⟨List.replicate 4 (UInt8.ofNat r)⟩⟩⟩,
   ⟨0, [95, 49], ⟨.dbl, 1, 1, fun _ _ => ⟨List.replicate 8 7⟩⟩⟩,
   ⟨1, [], ⟨.flt, 1, 2, fun _ c => ⟨List.replicate 4 (UInt8.ofNat c)⟩⟩⟩]

theorem demoSet_ok : SetOk 2 demoSet := by
  have hd1 : decimal 1 = [49] := by unfold decimal; rfl
  have hd2 : decimal 2 = [50] := by unfold decimal; rfl
  refine ⟨by decide, by decide, ?_, ?_, ?_, ?_, ?_⟩
  · intro e he
    simp only [demoSet, List.mem_cons, List.not_mem_nil, or_false] at he
    rcases he with rfl | rfl | rfl <;> decide
  · intro k hk
    have : k = 0 ∨ k = 1 := by omega
    rcases this with rfl | rfl
    · exact ⟨_, List.mem_cons_of_mem _ List.mem_cons_self, rfl⟩
    · exact ⟨_, List.mem_cons_self, rfl⟩
  · intro e he
    simp only [demoSet, List.mem_cons, List.not_mem_nil, or_false] at he
    rcases he with rfl | rfl | rfl
    · exact ⟨by decide, by decide, fun _ _ _ _ => by simp; rfl⟩
    · exact ⟨by decide, by decide, fun _ _ _ _ => by simp; rfl⟩
    · exact ⟨by decide, by decide, fun _ _ _ _ => by simp; rfl⟩
  · intro e he
    simp only [demoSet, List.mem_cons, List.not_mem_nil, or_false] at he
    rcases he with rfl | rfl | rfl
    · intro b hb; simp at hb
    · intro b hb; simp at hb; rw [← hb]; right; decide
    · intro b hb; simp at hb
  · intro e he
    simp only [demoSet, List.mem_cons, List.not_mem_nil, or_false] at he
    rcases he with rfl | rfl | rfl <;> simp [Entry.name, hd1, hd2]

example (cv : Conv) : ∃ d, read cv demoEnv ⟨[], []⟩ (encSeqFile 2 demoSet ++ [1, 2, 3]) = some (.base .success, d, [1, 2, 3]) ∧ Holds cv 2 demoSet d :=
  seq_round_trip cv demoEnv demoEnv_ok ⟨[], []⟩ ⟨rfl, rfl⟩ 2 demoSet demoSet_ok [1, 2, 3]

example (cv : Conv) : ∃ d rest, read cv { demoEnv with pre := some 1 } ⟨[], []⟩ (encSeqFile 2 demoSet ++ []) = some (.failedToPreallocateSeqData, d, rest) ∧
    d.stor.length = 1 ∧ d.cnt.length = 2 :=
  failed_preallocation_inconsistent cv { demoEnv with pre := some 1 } ⟨[], []⟩ ⟨rfl, rfl⟩ 2 demoSet demoSet_ok 1 (by decide) rfl rfl []

/-- The same file cut off behind its counts. -/
example (cv : Conv) : (read cv demoEnv ⟨[], []⟩ ([110, 110, 116, 108] ++ leBytes 2 0 ++ leBytes 2 (demoSet.length + 2) ++ leBytes 2 2 ++
    (((List.range 2).flatMap fun k => leBytes 2 (demoSet.countP fun e => e.cls == k)) ++ []))).map (fun r => (r.1, r.2.1.cnt)) =
      some (.base .failedToReadFieldEntry, [1, 2]) := by rfl

/-- A name with a number that is no `int`: `c2147483648`. -/
example : (decimal 2147483648).length ≤ 14 := by
  have h : ∀ n k, n < 10 ^ (k + 1) → (decimal n).length ≤ k + 1 := by
    intro n k
    induction k generalizing n with
    | zero => intro hn; unfold decimal; rw [if_pos (by omega)]; simp
    | succ k ih =>
      intro hn
      unfold decimal
      split
      · simp
      · rw [List.length_append]
        have := ih (n / 10) (by rw [Nat.pow_succ] at hn; omega)
        simp; omega
  exact Nat.le_trans (h 2147483648 9 (by decide)) (by decide)

end Nntl.SeqFile
