import Verif.SeqFile.Props
/-! Files with sequences that are rejected, and with which error: C153. -/
namespace Nntl.SeqFile
open Nntl.Matrix Nntl.BinFile
set_option linter.unusedSimpArgs false

variable {T : ETy}

theorem not_digit {b : UInt8} (h : b < 48 ∨ 57 < b) : isDigit b = false := by
  simp only [isDigit, Bool.and_eq_false_iff, decide_eq_false_iff_not, UInt8.not_le]
  exact h

theorem mem_le_sum {c : Nat} {cs : List Nat} (h : c ∈ cs) : c ≤ cs.sum := by
  induction cs with
  | nil => cases h
  | cons a l ih =>
    rw [List.sum_cons]
    rcases List.mem_cons.1 h with rfl | h
    · omega
    · have := ih h; omega

theorem takeWhile_zeros (s : List UInt8) (k : Nat) :
    (s ++ List.replicate k 0).takeWhile (fun b => decide (b ≠ 0)) = s.takeWhile (fun b => decide (b ≠ 0)) := by
  induction s with
  | nil => cases k with
    | zero => rfl
    | succ k => simp [List.replicate_succ]
  | cons b s ih =>
    rw [List.cons_append, List.takeWhile_cons, List.takeWhile_cons, ih]

theorem bad_parse {name : List UInt8} (h : BadName name) (k : Nat) : parseClass (name ++ List.replicate k 0) = .fail ∨
    ∃ i : Int, i < 1 ∧ parseClass (name ++ List.replicate k 0) = .val i := by
  have hnz : ∀ n, ∀ b ∈ decimal n, (decide (b ≠ 0)) = true := by
    intro n b hb
    have := decimal_digits n b hb
    simp only [isDigit, Bool.and_eq_true, decide_eq_true_eq] at this
    simp only [ne_eq, decide_eq_true_eq]
    intro h
    rw [h] at this
    exact absurd this.1 (by decide)
  have htail : ∀ s : List UInt8, (∀ b, s.head? = some b → b < 48 ∨ 57 < b) →
      ∀ b, (s.takeWhile (fun b => decide (b ≠ 0))).head? = some b → isDigit b = false := by
    intro s hs b hb
    cases s with
    | nil => simp at hb
    | cons x s =>
      rw [List.takeWhile_cons] at hb
      split at hb
      · simp only [List.head?_cons, Option.some.injEq] at hb
        subst hb
        exact not_digit (hs x rfl)
      · simp at hb
  cases h with
  | nothing => left; unfold parseClass; rw [takeWhile_zeros]; rfl
  | letter b s h =>
    left
    unfold parseClass
    rw [takeWhile_zeros, List.takeWhile_cons]
    by_cases h0 : b = 0
    · rw [if_neg (by simp [h0])]
    · rw [if_pos (by simpa using h0)]
      dsimp only
      rw [if_pos h]
  | only => left; unfold parseClass; rw [takeWhile_zeros]; rfl
  | noNumber b s h h1 h2 h3 h4 =>
    left
    unfold parseClass
    rw [takeWhile_zeros, List.takeWhile_cons, if_pos (by decide), List.takeWhile_cons]
    dsimp only
    rw [if_neg (by decide)]
    by_cases h0 : b = 0
    · rw [if_neg (by simp [h0])]
      rfl
    · rw [if_pos (by simpa using h0)]
      have hsp : isSpace b = false := by
        simp only [isSpace, Bool.or_eq_false_iff, beq_eq_false_iff_ne, Bool.and_eq_false_iff, decide_eq_false_iff_not, UInt8.not_le]
        exact ⟨h3, h4⟩
      rw [List.dropWhile_cons, hsp]
      simp only [Bool.false_eq_true, if_false]
      split
      · rename_i hh; cases hh; exact absurd rfl h2
      · rename_i hh; cases hh; exact absurd rfl h1
      · unfold parseNum
        rw [List.takeWhile_cons, not_digit h]
        rfl
  | zero s h =>
    right
    refine ⟨0, by decide, ?_⟩
    rw [List.cons_append, List.append_assoc, parseClass_decimal 0 _ ?_]
    · rfl
    · intro b hb
      cases s with
      | nil => rw [List.nil_append] at hb; rw [(List.mem_replicate.1 (List.mem_of_mem_head? hb)).2]; left; decide
      | cons x xs =>
        simp only [List.cons_append, List.head?_cons, Option.some.injEq] at hb
        exact h b (by rw [List.head?_cons, hb])
  | negative n s hn h =>
    right
    refine ⟨-(n : Int), by omega, ?_⟩
    unfold parseClass
    rw [takeWhile_zeros, List.takeWhile_cons, if_pos (by decide), List.takeWhile_cons, if_pos (by decide), List.takeWhile_append_of_pos (hnz n)]
    dsimp only
    rw [if_neg (by decide), List.dropWhile_cons]
    have : isSpace 45 = false := by decide
    rw [this]
    simp only [Bool.false_eq_true, if_false]
    unfold parseNum
    rw [takeWhile_digits n _ (htail s h)]
    have : (decimal n).isEmpty = false := by
      cases h : decimal n with
      | nil => exact absurd h (decimal_ne_nil n)
      | cons _ _ => rfl
    simp only [this, decimal_value]
    simp [hn]

/-- Where the reading is after the sequences `es`, if more are announced. -/
theorem read_part (cv : Conv) (env : Env T) (henv : env.Ok) (dest : Seqs T) (hd : Clear dest) (cs : List Nat) (es : List Entry) (h : PartOk cs es)
    (hmore : es.length < cs.sum) : ∃ d, HoldsPart cv cs es d ∧ (∀ k, k < cs.length → (nextMtx d k).isSome = decide (cs[k]? ≠ some (es.countP fun e => e.cls == k))) ∧
      ∀ rest e dr rest', readSeqs cv env (cs.sum - es.length) es.length d rest = some (e, dr, rest') → e ≠ .base .success →
        read cv env dest (encSeqPart cs es ++ rest) = some (e, dr, rest') := by
  have hfit := h.fits
  have hlen : cs.length ≠ 0 := fun h0 => h.some_class (List.length_eq_zero_iff.1 h0)
  have hroom : ∀ k, k < cs.length → ∃ c, cs[k]? = some c ∧ (es.countP fun e => e.cls == k) ≤ c := fun k hk =>
    ⟨cs[k], List.getElem?_eq_getElem hk, h.room k _ (List.getElem?_eq_getElem hk)⟩
  obtain ⟨d', g1, g2, g3, g4⟩ := readSeqs_prefix cv env henv cs.length (by omega) (env.field 0).junk
    (fun k => (cs[k]?).getD 0 - es.countP fun e => e.cls == k) es 0
    (⟨cs.map fun c => List.replicate c (Mtx.default (env.field 0).junk), cs⟩ : Seqs T) (fun _ => []) h.cls h.mtx h.suffix h.name
    (by simp) (by simp) (by
      intro k hk
      obtain ⟨c, hc1, hc2⟩ := hroom k hk
      dsimp only
      rw [hc1, List.getElem?_map, hc1, Option.getD_some, Nat.add_sub_of_le hc2]
      rfl)
  have hdec : ∀ k l, List.Forall₂ (fun f m => Decoded (T := T) cv f false m) (ofClass es k) l → l.length = (es.countP fun e => e.cls == k) ∧ ∀ m ∈ l, m.cap ≠ 0 := by
    intro k l hl
    refine ⟨by rw [← ofClass_length, hl.length_eq], ?_⟩
    intro m hm
    obtain ⟨i, hi, rfl⟩ := List.getElem_of_mem hm
    have hh := hl.get (i := i) (by rw [hl.length_eq]; exact hi) hi
    exact hh.nonempty
  refine ⟨d', ⟨g2, g3, ?_⟩, ?_, ?_⟩
  · intro k hk
    obtain ⟨l, q1, q2⟩ := g4 k hk
    obtain ⟨c, hc1, hc2⟩ := hroom k hk
    refine ⟨l, _, by simpa using q1, q2, ?_, ?_⟩
    · intro m hm
      rw [(List.mem_replicate.1 hm).2]; rfl
    · rw [hc1, List.length_replicate, (hdec k l q2).1, Option.getD_some]
      congr 1
      omega
  · intro k hk
    obtain ⟨l, q1, q2⟩ := g4 k hk
    obtain ⟨c, hc1, hc2⟩ := hroom k hk
    unfold nextMtx
    rw [q1, Option.bind_some, hc1, Option.getD_some, List.nil_append]
    by_cases hf : c = es.countP fun e => e.cls == k
    · rw [hf, Nat.sub_self, List.replicate_zero, List.append_nil, List.findIdx?_eq_none_iff.2 ?_]
      · simp
      · intro m hm
        simpa [Mtx.empty] using (hdec k l q2).2 m hm
    · obtain ⟨z, hz⟩ : ∃ z, c - (es.countP fun e => e.cls == k) = z + 1 := ⟨c - (es.countP fun e => e.cls == k) - 1, by omega⟩
      rw [hz, findIdx_done l (hdec k l q2).2 (Mtx.default (env.field 0).junk) rfl z]
      simpa using hf
  · intro rest e dr rest' hr hne
    have hc := readCounts_ok cs [] 0 ((es.flatMap fun e => encField e.name e.mtx) ++ rest)
      (fun c hc => ⟨h.pos c hc, by have := mem_le_sum hc; omega⟩) (by omega)
    have : encSeqPart cs es ++ rest = [110, 110, 116, 108] ++ leBytes 2 0 ++ leBytes 2 (cs.sum + cs.length) ++ leBytes 2 cs.length ++
        (cs.flatMap (leBytes 2) ++ ((es.flatMap fun e => encField e.name e.mtx) ++ rest)) := by
      unfold encSeqPart; simp only [List.append_assoc]
    rw [this, read_header _ _ _ _ _ (by omega) (by omega)]
    unfold readInto
    rw [if_neg (by omega), henv.vec, hc]
    simp only [Bool.not_true, Bool.false_eq_true, if_false, List.nil_append, Nat.zero_add]
    rw [if_neg (by omega), if_neg (by simp), henv.pre, prealloc_clear _ hd _ h.some_class]
    dsimp only
    have hs : cs.sum = es.length + (cs.sum - es.length) := by omega
    conv => lhs; rw [hs]
    rw [g1, Nat.zero_add, hr]
    split
    · rename_i hh; cases hh
    · rename_i hh; cases hh; exact absurd rfl hne
    · rename_i hh; cases hh; rfl

/-- **C153.** A sequence whose name gives no class makes the reading fail; the sequences in front of it stay in the object. -/
theorem nameless_sequence_rejected (cv : Conv) (env : Env T) (henv : env.Ok) (dest : Seqs T) (hd : Clear dest) (cs : List Nat) (es : List Entry)
    (h : PartOk cs es) (hmore : es.length < cs.sum) (name : List UInt8) (hb : BadName name) (hl : name.length ≤ 15) (f : FileMtx) (hf : f.Ok)
    (rest : List UInt8) : ∃ d rest', read cv env dest (encSeqPart cs es ++ (encField name f ++ rest)) = some (.failedToParseClassId, d, rest') ∧
      HoldsPart cv cs es d := by
  obtain ⟨d, h1, -, h3⟩ := read_part cv env henv dest hd cs es h hmore
  have hnl : (name ++ List.replicate (15 - name.length) (0 : UInt8)).length = 15 := by simp; omega
  obtain ⟨p1, -, -, p4, -⟩ := hdr_parse hnl hf
  refine ⟨d, fieldBody f ++ rest, h3 _ _ _ _ ?_ (by simp), h1⟩
  obtain ⟨k, hk⟩ : ∃ k, cs.sum - es.length = k + 1 := ⟨cs.sum - es.length - 1, by omega⟩
  rw [hk]
  unfold readSeqs
  rw [encField_append, fread_eq p1]
  dsimp only
  rw [p4]
  rcases bad_parse hb (15 - name.length) with hp | ⟨i, hi, hp⟩
  · rw [hp]
  · rw [hp]
    dsimp only
    rw [if_pos hi]

/-- **C153.** A sequence of a class that was not announced, or one more than was announced for its class, makes the reading fail with
`IncoherentSeqClassCount`; the sequences in front of it stay in the object. -/
theorem excess_sequence_rejected (cv : Conv) (env : Env T) (henv : env.Ok) (dest : Seqs T) (hd : Clear dest) (cs : List Nat) (es : List Entry)
    (h : PartOk cs es) (hmore : es.length < cs.sum) (e : Entry) (he : cs.length ≤ e.cls ∨ cs[e.cls]? = some (es.countP fun x => x.cls == e.cls))
    (h16 : e.cls < 65536) (hs : ∀ b, e.suffix.head? = some b → b < 48 ∨ 57 < b) (hl : e.name.length ≤ 15) (hf : e.mtx.Ok)
    (rest : List UInt8) : ∃ d rest', read cv env dest (encSeqPart cs es ++ (encField e.name e.mtx ++ rest)) = some (.incoherentSeqClassCount, d, rest') ∧
      HoldsPart cv cs es d := by
  obtain ⟨d, h1, h2, h3⟩ := read_part cv env henv dest hd cs es h hmore
  obtain ⟨hd', bs1, q1, q2⟩ := field_name e hl hf h16 hs rest
  refine ⟨d, bs1, h3 _ _ _ _ ?_ (by simp), h1⟩
  obtain ⟨k, hk⟩ : ∃ k, cs.sum - es.length = k + 1 := ⟨cs.sum - es.length - 1, by omega⟩
  have hnone : nextMtx d e.cls = none := by
    by_cases hc : e.cls < cs.length
    · have h4 := h2 e.cls hc
      rcases he with he | he
      · omega
      · rw [he] at h4
        simpa using h4
    · unfold nextMtx
      rw [List.getElem?_eq_none (by rw [h1.classes]; omega)]
      rfl
  rw [hk]
  unfold readSeqs
  rw [q1]
  dsimp only
  rw [q2]
  dsimp only
  rw [if_neg (by omega)]
  have e1 : (((e.cls + 1 : Nat) : Int) - 1).toNat = e.cls := by omega
  rw [e1, hnone]

/-- **C153.** What is checked before anything is stored: the object keeps what it has and the error says what is wrong. -/
theorem bad_header_rejected (cv : Conv) (env : Env T) (hv : env.vecOk = true) (dest : Seqs T) :
    (∀ bs, bs.length < 10 → read cv env dest bs = some (.base .failedToReadHeader, dest, [])) ∧
    (∀ bs, 10 ≤ bs.length → bs.take 4 ≠ [110, 110, 116, 108] → read cv env dest bs = some (.base .wrongHeaderSignature, dest, bs.drop 10)) ∧
    (∀ v f n rest, v < 65536 → v ≠ 0 → read cv env dest ([110, 110, 116, 108] ++ leBytes 2 v ++ leBytes 2 f ++ leBytes 2 n ++ rest) =
      some (.base .unsupportedFormatVersion, dest, rest)) ∧
    (∀ f n rest, f ≤ n → n < 65536 → read cv env dest ([110, 110, 116, 108] ++ leBytes 2 0 ++ leBytes 2 f ++ leBytes 2 n ++ rest) =
      some (.base .wrongElementsCount, dest, rest)) ∧
    (∀ (cs : List Nat) f rest, cs.length < f → f < 65536 → (∀ c ∈ cs, 0 < c ∧ c < 65536) → cs.sum + cs.length ≤ 2147483647 → cs.sum + cs.length ≠ f →
      read cv env dest ([110, 110, 116, 108] ++ leBytes 2 0 ++ leBytes 2 f ++ leBytes 2 cs.length ++ (cs.flatMap (leBytes 2) ++ rest)) =
        some (.base .wrongElementsCount, dest, rest)) ∧
    (∀ (cs : List Nat) n f rest, cs.length < n → n < f → f < 65536 → (∀ c ∈ cs, 0 < c ∧ c < 65536) → cs.sum ≤ 2147483647 →
      read cv env dest ([110, 110, 116, 108] ++ leBytes 2 0 ++ leBytes 2 f ++ leBytes 2 n ++ (cs.flatMap (leBytes 2) ++ (leBytes 2 0 ++ rest))) =
        some (.invalidSeqClassElement, dest, rest)) ∧
    (∀ (cs : List Nat) n f x, cs.length < n → n < f → f < 65536 → (∀ c ∈ cs, 0 < c ∧ c < 65536) → cs.sum ≤ 2147483647 → x.length < 2 →
      read cv env dest ([110, 110, 116, 108] ++ leBytes 2 0 ++ leBytes 2 f ++ leBytes 2 n ++ (cs.flatMap (leBytes 2) ++ x)) =
        some (.failedToReadSeqClassHeader, dest, [])) := by
  have hpre : ∀ (cs : List Nat) (k : Nat) (acc : List Nat) (tot : Nat) (rest : List UInt8), (∀ c ∈ cs, 0 < c ∧ c < 65536) → tot + cs.sum ≤ 2147483647 →
      readCounts (cs.length + k) acc tot (cs.flatMap (leBytes 2) ++ rest) = readCounts k (acc ++ cs) (tot + cs.sum) rest := by
    intro cs k
    induction cs with
    | nil => intro acc tot rest _ _; simp
    | cons c cs ih =>
      intro acc tot rest hc ht
      have h1 := hc c List.mem_cons_self
      rw [List.sum_cons] at ht
      rw [List.length_cons, List.flatMap_cons, List.append_assoc, Nat.add_right_comm]
      conv => lhs; unfold readCounts
      rw [fread_eq (leBytes_length 2 c)]
      dsimp only
      rw [leNat_leBytes _ _ (by omega), if_neg (by omega), if_neg (by omega), ih _ _ _ (fun x hx => hc x (List.mem_cons_of_mem _ hx)) (by omega),
        List.sum_cons, List.append_assoc, Nat.add_assoc]
      rfl
  refine ⟨?_, ?_, ?_, ?_, ?_, ?_, ?_⟩
  · intro bs hb
    unfold read
    rw [fread_none.2 hb]
  · intro bs hb hs
    unfold read
    rw [show bs = bs.take 10 ++ bs.drop 10 from (List.take_append_drop 10 bs).symm, fread_eq (by simp; omega)]
    dsimp only
    rw [if_pos]
    · simp
    · intro hh
      apply hs
      rw [List.take_take] at hh
      exact leNat_inj (by simp; omega) (hh.trans (by decide))
  · intro v f n rest hv16 hv0
    have hl : ([110, 110, 116, 108] ++ leBytes 2 v ++ leBytes 2 f ++ leBytes 2 n).length = 10 := by simp [leBytes_length]
    unfold read
    rw [fread_eq hl]
    dsimp only
    have e1 : ([110, 110, 116, 108] ++ leBytes 2 v ++ leBytes 2 f ++ leBytes 2 n).take 4 = [110, 110, 116, 108] := by
      rw [List.append_assoc, List.append_assoc, List.take_left' sig4]
    have e2 : (([110, 110, 116, 108] ++ leBytes 2 v ++ leBytes 2 f ++ leBytes 2 n).drop 4).take 2 = leBytes 2 v := by
      rw [List.append_assoc, List.append_assoc, List.drop_left' sig4, List.take_left' (leBytes_length _ _)]
    rw [e1, e2, leNat_leBytes _ _ (by omega), if_neg (by decide), if_pos hv0]
  · intro f n rest hfn hn
    rw [read_header _ _ _ _ _ (by omega) hn]
    unfold readInto
    rw [if_pos hfn]
  · intro cs f rest h1 h2 h3 h4 h5
    rw [read_header _ _ _ _ _ h2 (by omega)]
    unfold readInto
    rw [if_neg (by omega), hv, readCounts_ok cs [] 0 rest h3 (by omega)]
    simp only [Bool.not_true, Bool.false_eq_true, if_false, Nat.zero_add]
    rw [if_neg (by omega), if_pos h5]
  · intro cs n f rest h1 h2 h3 h4 h5
    rw [read_header _ _ _ _ _ h3 (by omega)]
    unfold readInto
    obtain ⟨k, rfl⟩ : ∃ k, n = cs.length + (k + 1) := ⟨n - cs.length - 1, by omega⟩
    rw [if_neg (by omega), hv, hpre cs (k + 1) [] 0 _ h4 (by omega)]
    have : readCounts (k + 1) ([] ++ cs) (0 + cs.sum) (leBytes 2 0 ++ rest) = some (.inl .invalidSeqClassElement, rest) := by
      unfold readCounts
      rw [fread_eq (leBytes_length 2 0)]
      dsimp only
      rw [leNat_leBytes _ _ (by omega), if_pos rfl]
    rw [this]
    rfl
  · intro cs n f x h1 h2 h3 h4 h5 h6
    rw [read_header _ _ _ _ _ h3 (by omega)]
    unfold readInto
    obtain ⟨k, rfl⟩ : ∃ k, n = cs.length + (k + 1) := ⟨n - cs.length - 1, by omega⟩
    rw [if_neg (by omega), hv, hpre cs (k + 1) [] 0 _ h4 (by omega)]
    have : readCounts (k + 1) ([] ++ cs) (0 + cs.sum) x = some (.inl .failedToReadSeqClassHeader, []) := by
      unfold readCounts
      rw [fread_none.2 h6]
    rw [this]
    rfl

/-! ### The hypotheses can be met -/

/-- Three sequences are announced, the second one has a name without a class. -/
theorem demoPart_ok : PartOk [1, 2] (demoSet.take 1) := by
  refine ⟨by decide, by simp, by simp, ?_, ?_, fun e he => demoSet_ok.mtx e (List.mem_of_mem_take he), fun e he => demoSet_ok.suffix e (List.mem_of_mem_take he),
    fun e he => demoSet_ok.name e (List.mem_of_mem_take he)⟩
  · intro e he
    exact demoSet_ok.cls e (List.mem_of_mem_take he)
  · intro k c hk
    match k, hk with
    | 0, hk => exact Nat.zero_le _
    | 1, hk => cases hk; decide
    | k + 2, hk => simp at hk

example (cv : Conv) : ∃ d rest', read cv demoEnv ⟨[], []⟩ (encSeqPart [1, 2] (demoSet.take 1) ++ (encField [99, 48] ⟨.dbl, 1, 1, fun _ _ => ⟨List.replicate 8 7⟩⟩ ++ [])) =
    some (.failedToParseClassId, d, rest') ∧ HoldsPart cv [1, 2] (demoSet.take 1) d :=
  nameless_sequence_rejected cv demoEnv demoEnv_ok ⟨[], []⟩ ⟨rfl, rfl⟩ [1, 2] (demoSet.take 1) demoPart_ok (by decide) [99, 48]
    (by have := BadName.zero [] (by simp); rwa [show decimal 0 = [48] by unfold decimal; rfl] at this) (by decide) _
    ⟨by decide, by decide, fun _ _ _ _ => by simp; rfl⟩ []

/-- A sequence of class 3, which was not announced. -/
example (cv : Conv) : ∃ d rest', read cv demoEnv ⟨[], []⟩ (encSeqPart [1, 2] (demoSet.take 1) ++
      (encField (Entry.name ⟨2, [], ⟨.dbl, 1, 1, fun _ _ => ⟨List.replicate 8 7⟩⟩⟩) ⟨.dbl, 1, 1, fun _ _ => ⟨List.replicate 8 7⟩⟩ ++ [])) =
    some (.incoherentSeqClassCount, d, rest') ∧ HoldsPart cv [1, 2] (demoSet.take 1) d :=
  excess_sequence_rejected cv demoEnv demoEnv_ok ⟨[], []⟩ ⟨rfl, rfl⟩ [1, 2] (demoSet.take 1) demoPart_ok (by decide)
    ⟨2, [], ⟨.dbl, 1, 1, fun _ _ => ⟨List.replicate 8 7⟩⟩⟩ (Or.inl (by decide)) (by decide) (by intro b hb; simp at hb)
    (by simp [Entry.name, show decimal 3 = [51] by unfold decimal; rfl]) ⟨by decide, by decide, fun _ _ _ _ => by simp; rfl⟩ []

end Nntl.SeqFile
