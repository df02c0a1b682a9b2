import Verif.SeqFile.Spec
import Verif.BinFile.Props
/-! Helper lemmas for reading sequences. -/
namespace Nntl.SeqFile
open Nntl.Matrix Nntl.BinFile
set_option linter.unusedSimpArgs false

theorem digit_ofNat {k : Nat} (h : k < 10) : isDigit (UInt8.ofNat (48 + k)) = true ∧ (UInt8.ofNat (48 + k)).toNat = 48 + k := by
  have : (UInt8.ofNat (48 + k)).toNat = 48 + k := by
    rw [UInt8.toNat_ofNat']; omega
  refine ⟨?_, this⟩
  simp only [isDigit, Bool.and_eq_true, decide_eq_true_eq, UInt8.le_iff_toNat_le, this]
  constructor
  · show 48 ≤ 48 + k; omega
  · show 48 + k ≤ 57; omega

theorem decimal_digits (n : Nat) : ∀ b ∈ decimal n, isDigit b = true := by
  induction n using Nat.strongRecOn with
  | ind n ih =>
    intro b hb
    unfold decimal at hb
    split at hb
    · rename_i h
      simp only [List.mem_singleton] at hb
      rw [hb]; exact (digit_ofNat h).1
    · rename_i h
      rcases List.mem_append.1 hb with hb | hb
      · exact ih _ (by omega) _ hb
      · simp only [List.mem_singleton] at hb
        rw [hb]; exact (digit_ofNat (by omega)).1

theorem decimal_ne_nil (n : Nat) : decimal n ≠ [] := by
  unfold decimal
  split
  · simp
  · simp

theorem decimal_value (n a : Nat) : (decimal n).foldl (fun a b => a * 10 + (b.toNat - 48)) a = a * 10 ^ (decimal n).length + n := by
  induction n using Nat.strongRecOn generalizing a with
  | ind n ih =>
    unfold decimal
    split
    · rename_i h
      simp only [List.foldl_cons, List.foldl_nil, (digit_ofNat h).2, List.length_singleton]
      omega
    · rename_i h
      rw [List.foldl_append, ih _ (by omega)]
      simp only [List.foldl_cons, List.foldl_nil, (digit_ofNat (Nat.mod_lt n (by omega : 0 < 10))).2, List.length_append, List.length_singleton,
        Nat.pow_succ]
      rw [Nat.add_mul, Nat.mul_assoc]
      omega

theorem takeWhile_digits (n : Nat) (t : List UInt8) (ht : ∀ b, t.head? = some b → isDigit b = false) :
    (decimal n ++ t).takeWhile isDigit = decimal n := by
  rw [List.takeWhile_append_of_pos (decimal_digits n)]
  cases t with
  | nil => simp
  | cons b t => rw [List.takeWhile_cons, ht b rfl]; simp

theorem parseNum_decimal (n : Nat) (t : List UInt8) (ht : ∀ b, t.head? = some b → isDigit b = false) :
    parseNum false (decimal n ++ t) = if n ≤ 2147483647 then .val n else .ub := by
  unfold parseNum
  rw [takeWhile_digits n t ht]
  have : (decimal n).isEmpty = false := by
    cases h : decimal n with
    | nil => exact absurd h (decimal_ne_nil n)
    | cons _ _ => rfl
  simp only [this, decimal_value]
  simp

/-- The name of a sequence gives its class. -/
theorem parseClass_decimal (n : Nat) (s : List UInt8) (hs : ∀ b, s.head? = some b → b < 48 ∨ 57 < b) :
    parseClass (99 :: (decimal n ++ s)) = if n ≤ 2147483647 then .val n else .ub := by
  have hnz : ∀ b ∈ decimal n, (decide (b ≠ 0)) = true := by
    intro b hb
    have := decimal_digits n b hb
    simp only [isDigit, Bool.and_eq_true, decide_eq_true_eq] at this
    simp only [ne_eq, decide_eq_true_eq]
    intro h
    rw [h] at this
    exact absurd this.1 (by decide)
  have ht : ∀ b, (s.takeWhile (fun b => decide (b ≠ 0))).head? = some b → isDigit b = false := by
    intro b hb
    cases s with
    | nil => simp at hb
    | cons x s =>
      rw [List.takeWhile_cons] at hb
      split at hb
      · simp only [List.head?_cons, Option.some.injEq] at hb
        subst hb
        have := hs x rfl
        simp only [isDigit, Bool.and_eq_false_iff, decide_eq_false_iff_not, UInt8.not_le]
        exact this
      · simp at hb
  unfold parseClass
  rw [List.takeWhile_cons, if_pos (by decide), List.takeWhile_append_of_pos hnz]
  dsimp only
  rw [if_neg (by decide)]
  have hpn := parseNum_decimal n _ ht
  have hd := decimal_digits n
  revert hpn
  cases hdec : decimal n with
  | nil => exact absurd hdec (decimal_ne_nil n)
  | cons x xs =>
    intro hpn
    rw [hdec] at hd
    have hx := hd x List.mem_cons_self
    have hxs : isSpace x = false := by
      simp only [isDigit, Bool.and_eq_true, decide_eq_true_eq] at hx
      simp only [isSpace, Bool.or_eq_false_iff, beq_eq_false_iff_ne, Bool.and_eq_false_iff, decide_eq_false_iff_not, UInt8.not_le]
      have h1 := hx.1
      rw [UInt8.le_iff_toNat_le] at h1
      have h1' : 48 ≤ x.toNat := h1
      refine ⟨?_, Or.inr ?_⟩
      · intro h; rw [h] at h1'; exact absurd h1' (by decide)
      · rw [UInt8.lt_iff_toNat_lt]; show 13 < x.toNat; omega
    rw [List.cons_append, List.dropWhile_cons, hxs]
    simp only [Bool.false_eq_true, if_false]
    split
    · rename_i h
      cases h
      exact absurd hx (by decide)
    · rename_i h
      cases h
      exact absurd hx (by decide)
    · exact hpn

theorem name_parse (e : Entry) (he : e.cls < 65536) (hs : ∀ b, e.suffix.head? = some b → b < 48 ∨ 57 < b) (z : List UInt8) (hz : ∀ b ∈ z, b = 0) :
    parseClass (e.name ++ z) = .val (e.cls + 1 : Nat) := by
  unfold Entry.name
  rw [List.cons_append, List.append_assoc, parseClass_decimal, if_pos (by omega)]
  intro b hb
  cases hh : e.suffix with
  | nil =>
    rw [hh, List.nil_append] at hb
    have := hz b (List.mem_of_mem_head? hb)
    rw [this]; left; decide
  | cons x xs =>
    rw [hh] at hb
    simp only [List.cons_append, List.head?_cons, Option.some.injEq] at hb
    exact hs b (by rw [hh, List.head?_cons, hb])

variable {T : ETy}

theorem findIdx_done (done : List (Mtx (Elem T))) (hd : ∀ m ∈ done, m.cap ≠ 0) (d : Mtx (Elem T)) (hc : d.cap = 0) (k : Nat) :
    (done ++ List.replicate (k + 1) d).findIdx? (fun m => m.empty) = some done.length := by
  induction done with
  | nil => simp [List.replicate_succ, List.findIdx?_cons, Mtx.empty, hc]
  | cons a l ih =>
    have ha : a.empty = false := by simpa [Mtx.empty] using hd a List.mem_cons_self
    rw [List.cons_append, List.findIdx?_cons, ha, ih fun m hm => hd m (List.mem_cons_of_mem _ hm)]
    simp

theorem set_done (done : List (Mtx (Elem T))) (d x : Mtx (Elem T)) (k : Nat) :
    (done ++ List.replicate (k + 1) d).set done.length x = (done ++ [x]) ++ List.replicate k d := by
  rw [List.set_append_right _ _ (Nat.le_refl _), Nat.sub_self, List.replicate_succ, List.set_cons_zero, List.append_assoc]
  rfl

theorem get_done (done : List (Mtx (Elem T))) (d : Mtx (Elem T)) (k : Nat) : (done ++ List.replicate (k + 1) d)[done.length]? = some d := by
  rw [List.getElem?_append_right (Nat.le_refl _), Nat.sub_self, List.replicate_succ]
  rfl

/-- The field's name as the reader sees it. -/
theorem field_name (e : Entry) (hn : e.name.length ≤ 15) (hm : e.mtx.Ok) (hc : e.cls < 65536) (hs : ∀ b, e.suffix.head? = some b → b < 48 ∨ 57 < b)
    (rest : List UInt8) : ∃ h bs1, fread 24 (encField e.name e.mtx ++ rest) = some (h, bs1) ∧
      parseClass ((h.drop 8).take 15) = .val (e.cls + 1 : Nat) := by
  have hl : (e.name ++ List.replicate (15 - e.name.length) 0).length = 15 := by simp; omega
  obtain ⟨p1, -, -, p4, -⟩ := hdr_parse hl hm
  refine ⟨fieldHdr e.name e.mtx, fieldBody e.mtx ++ rest, ?_, ?_⟩
  · rw [encField_append]; exact fread_eq p1
  · rw [p4]
    exact name_parse e hc hs _ fun b hb => (List.mem_replicate.1 hb).2

/-- Sequences are put behind those of their class. `more k`: the number of sequences of class `k` that are still to come behind these. -/
theorem readSeqs_prefix (cv : Conv) (env : Env T) (henv : env.Ok) (n : Nat) (hn : n < 65536) (j : Nat → Elem T) (more : Nat → Nat) (es : List Entry) :
    ∀ (i : Nat) (d : Seqs T) (done : Nat → List (Mtx (Elem T))),
    (∀ e ∈ es, e.cls < n) → (∀ e ∈ es, e.mtx.Ok) → (∀ e ∈ es, ∀ b, e.suffix.head? = some b → b < 48 ∨ 57 < b) → (∀ e ∈ es, e.name.length ≤ 15) →
    d.stor.length = n → (∀ k, ∀ m ∈ done k, m.cap ≠ 0) →
    (∀ k, k < n → d.stor[k]? = some (done k ++ List.replicate ((es.countP fun e => e.cls == k) + more k) (Mtx.default j))) →
    ∃ d', (∀ r rest, readSeqs cv env (es.length + r) i d ((es.flatMap fun e => encField e.name e.mtx) ++ rest) = readSeqs cv env r (i + es.length) d' rest) ∧
      d'.cnt = d.cnt ∧ d'.stor.length = n ∧
      ∀ k, k < n → ∃ l, d'.stor[k]? = some (done k ++ l ++ List.replicate (more k) (Mtx.default j)) ∧ List.Forall₂ (fun f m => Decoded cv f false m) (ofClass es k) l := by
  induction es with
  | nil =>
    intro i d done _ _ _ _ hl hdone hst
    refine ⟨d, fun r rest => by simp, rfl, hl, fun k hk => ⟨[], ?_, List.Forall₂.nil⟩⟩
    simpa using hst k hk
  | cons e es ih =>
    intro i d done hcls hmtx hsuf hname hl hdone hst
    have hc := hcls e List.mem_cons_self
    have hm := hmtx e List.mem_cons_self
    have hnm := hname e List.mem_cons_self
    have hnl : (e.name ++ List.replicate (15 - e.name.length) 0).length = 15 := by simp; omega
    have hdc := hst e.cls hc
    rw [List.countP_cons_of_pos (by simp), Nat.add_right_comm] at hdc
    have hfield : ∃ m', (∀ rest, readFieldEntry cv (env.field i) (Mtx.default j) false (encField e.name e.mtx ++ rest) =
        some ⟨.success, m', idOf false e.name, rest⟩) ∧ Decoded cv e.mtx false m' := by
      obtain ⟨m', hr1, hr2⟩ := readField_ok cv (env.field i) (henv.field i).1 (henv.field i).2 (Mtx.default j) rfl rfl rfl rfl false e.name hnl
        (by simp) e.mtx hm []
      refine ⟨m', fun rest => ?_, hr2⟩
      have := readField_mono cv (env.field i) (Mtx.default j) false _ rest hr1 rfl
      simpa using this
    obtain ⟨m', hr1, hr2⟩ := hfield
    have hstep : ∀ r rest, readSeqs cv env (r + 1) i d (encField e.name e.mtx ++ rest) =
        readSeqs cv env r (i + 1) (put d e.cls (done e.cls).length m') rest := by
      intro r rest
      obtain ⟨h, bs1, hf1, hf2⟩ := field_name e hnm hm (by omega) (hsuf e List.mem_cons_self) rest
      conv => lhs; unfold readSeqs
      rw [hf1]
      dsimp only
      rw [hf2]
      dsimp only
      rw [if_neg (by omega)]
      have h1 : (((e.cls + 1 : Nat) : Int) - 1).toNat = e.cls := by omega
      rw [h1]
      unfold nextMtx
      rw [hdc]
      simp only [Option.bind_some, findIdx_done _ (hdone e.cls) (Mtx.default j) rfl, henv.seek i, Bool.not_true, Bool.false_eq_true, if_false,
        Option.getD_some, get_done, hr1, ne_eq, not_true]
    have hput : ∀ k, k < n → (put d e.cls (done e.cls).length m').stor[k]? =
        some ((if k = e.cls then done k ++ [m'] else done k) ++ List.replicate ((es.countP fun e => e.cls == k) + more k) (Mtx.default j)) := by
      intro k hk
      unfold put
      dsimp only
      rw [List.getElem?_modify]
      by_cases hke : e.cls = k
      · subst hke
        rw [if_pos rfl, hdc]
        show some (if e.cls = e.cls then _ else _) = _
        rw [if_pos rfl, set_done]
      · rw [if_neg (fun h => hke h.symm), hst k hk, List.countP_cons_of_neg (by simpa using hke)]
        show some (if e.cls = k then _ else _) = _
        rw [if_neg hke]
    obtain ⟨d', g1, g2, g3, g4⟩ := ih (i + 1) (put d e.cls (done e.cls).length m') (fun k => if k = e.cls then done k ++ [m'] else done k)
      (fun x hx => hcls x (List.mem_cons_of_mem _ hx)) (fun x hx => hmtx x (List.mem_cons_of_mem _ hx))
      (fun x hx => hsuf x (List.mem_cons_of_mem _ hx)) (fun x hx => hname x (List.mem_cons_of_mem _ hx))
      (by unfold put; simpa using hl)
      (by
        intro k m hm
        split at hm
        · rcases List.mem_append.1 hm with hm | hm
          · exact hdone _ _ hm
          · simp only [List.mem_singleton] at hm
            rw [hm]; exact hr2.nonempty
        · exact hdone _ _ hm)
      hput
    refine ⟨d', ?_, g2, g3, ?_⟩
    · intro r rest
      rw [List.length_cons, List.flatMap_cons, List.append_assoc, Nat.add_right_comm, hstep, g1]
      congr 1
      omega
    intro k hk
    obtain ⟨l, h1, h2⟩ := g4 k hk
    unfold ofClass
    by_cases hke : e.cls = k
    · subst hke
      rw [if_pos rfl] at h1
      refine ⟨m' :: l, by rw [h1]; simp, ?_⟩
      rw [List.filter_cons_of_pos (by simp), List.map_cons]
      exact List.Forall₂.cons hr2 h2
    · rw [if_neg (fun h => hke h.symm)] at h1
      refine ⟨l, h1, ?_⟩
      rw [List.filter_cons_of_neg (by simpa using hke)]
      exact h2

/-- All the sequences. -/
theorem readSeqs_ok (cv : Conv) (env : Env T) (henv : env.Ok) (n : Nat) (hn : n < 65536) (j : Nat → Elem T) (es : List Entry)
    (i : Nat) (d : Seqs T) (rest : List UInt8) (h1 : ∀ e ∈ es, e.cls < n) (h2 : ∀ e ∈ es, e.mtx.Ok)
    (h3 : ∀ e ∈ es, ∀ b, e.suffix.head? = some b → b < 48 ∨ 57 < b) (h4 : ∀ e ∈ es, e.name.length ≤ 15) (h5 : d.stor.length = n)
    (h6 : ∀ k, k < n → d.stor[k]? = some (List.replicate (es.countP fun e => e.cls == k) (Mtx.default j))) :
    ∃ d', readSeqs cv env es.length i d ((es.flatMap fun e => encField e.name e.mtx) ++ rest) = some (.base .success, d', rest) ∧
      d'.cnt = d.cnt ∧ d'.stor.length = n ∧
      ∀ k, k < n → ∃ l, d'.stor[k]? = some l ∧ List.Forall₂ (fun f m => Decoded cv f false m) (ofClass es k) l := by
  obtain ⟨d', g1, g2, g3, g4⟩ := readSeqs_prefix cv env henv n hn j (fun _ => 0) es i d (fun _ => []) h1 h2 h3 h4 h5 (by simp) (by simpa using h6)
  refine ⟨d', ?_, g2, g3, ?_⟩
  · have := g1 0 rest
    simpa [readSeqs] using this
  · intro k hk
    obtain ⟨l, q1, q2⟩ := g4 k hk
    exact ⟨l, by simpa using q1, q2⟩

theorem readCounts_ok (cs : List Nat) : ∀ (acc : List Nat) (tot : Nat) (rest : List UInt8), (∀ c ∈ cs, 0 < c ∧ c < 65536) →
    tot + cs.sum ≤ 2147483647 →
    readCounts cs.length acc tot (cs.flatMap (leBytes 2) ++ rest) = some (.inr (acc ++ cs, tot + cs.sum), rest) := by
  induction cs with
  | nil => intro acc tot rest _ _; simp [readCounts]
  | cons c cs ih =>
    intro acc tot rest hc ht
    have h1 := hc c List.mem_cons_self
    rw [List.sum_cons] at ht
    rw [List.length_cons, List.flatMap_cons, List.append_assoc]
    unfold readCounts
    rw [fread_eq (leBytes_length 2 c)]
    dsimp only
    rw [leNat_leBytes _ _ (by omega), if_neg (by omega), if_neg (by omega), ih _ _ _ (fun x hx => hc x (List.mem_cons_of_mem _ hx)) (by omega),
      List.sum_cons, List.append_assoc, Nat.add_assoc]
    rfl

theorem sum_indicator (n c : Nat) (h : c < n) : ((List.range n).map fun k => if c == k then 1 else 0).sum = 1 := by
  induction n with
  | zero => omega
  | succ n ih =>
    rw [List.range_succ, List.map_append, List.sum_append]
    by_cases hc : c = n
    · subst hc
      have : ((List.range c).map fun k => if c == k then 1 else 0) = (List.range c).map fun _ => 0 := by
        apply List.map_congr_left
        intro k hk
        rw [List.mem_range] at hk
        rw [if_neg (by simp; omega)]
      rw [this]
      simp
    · rw [ih (by omega)]
      simp [hc]

theorem sum_counts (n : Nat) (es : List Entry) (h : ∀ e ∈ es, e.cls < n) :
    ((List.range n).map fun k => es.countP fun e => e.cls == k).sum = es.length := by
  induction es with
  | nil => simp
  | cons e es ih =>
    have h1 : ((List.range n).map fun k => (e :: es).countP fun e => e.cls == k) =
        (List.range n).map fun k => (es.countP fun e => e.cls == k) + if e.cls == k then 1 else 0 := by
      apply List.map_congr_left
      intro k _
      rw [List.countP_cons]
    have h2 : ∀ (l : List Nat) (f g : Nat → Nat), (l.map fun k => f k + g k).sum = (l.map f).sum + (l.map g).sum := by
      intro l f g
      induction l with
      | nil => rfl
      | cons a l ih => simp only [List.map_cons, List.sum_cons, ih]; omega
    rw [h1, h2, ih fun x hx => h x (List.mem_cons_of_mem _ hx), sum_indicator n e.cls (h e List.mem_cons_self), List.length_cons]

/-- What every matrix of the object is like. -/
def MtxOk (m : Mtx (Elem T)) : Prop :=
  (m.cap = 0 → m.rows = 0 ∧ m.bir = false ∧ m.ext = false) ∧ (m.cap ≠ 0 → 0 < m.rows ∧ 0 < m.cols ∧ m.cap = m.rows * m.cols)

def StorOk (d : Seqs T) : Prop := ∀ l ∈ d.stor, ∀ m ∈ l, MtxOk m

/-- Number of matrices that are empty yet. -/
def numEmpty (d : Seqs T) : Nat := (d.stor.map fun l => l.countP fun m => m.empty).sum

theorem field_success (cv : Conv) (e : FEnv T) (m : Mtx (Elem T)) (hm : MtxOk m) (bs : List UInt8) {r : FRes T}
    (h : readFieldEntry cv e m false bs = some r) (hs : r.err = .success) : m.cap = 0 ∧ r.m.cap ≠ 0 ∧ MtxOk r.m := by
  unfold readFieldEntry at h
  split at h
  · cases h; cases hs
  · rename_i hemp
    have hcap : m.cap = 0 := by simpa [Mtx.empty] using hemp
    refine ⟨hcap, ?_⟩
    split at h
    · cases h; cases hs
    · dsimp only at h
      split at h
      · cases h; cases hs
      · rw [if_neg (by simp)] at h
        split at h
        · contradiction
        · cases h; cases hs
        · rename_i m1 hm1
          obtain ⟨q1, q2, q3, q4, q5, q6, q7, q8, q9, q10, q11⟩ := resizeI_true (m := applyId _ m) hcap (hm.1 hcap).1 (hm.1 hcap).2.1 hm1
          have hc0 : m1.cap ≠ 0 := by rw [q7, q8, q9]; exact Nat.ne_of_gt (Nat.mul_pos q10 (by omega))
          split at h
          · cases h; cases hs
          · split at h
            · cases h; cases hs
            · split at h
              · cases h; cases hs
              · cases h
                refine ⟨hc0, fun hh => absurd hh hc0, fun _ => ⟨?_, ?_, q7⟩⟩
                · show 0 < m1.rows; omega
                · show 0 < m1.cols; omega

theorem countP_fill (l : List (Mtx (Elem T))) (j : Nat) (m : Mtx (Elem T)) (hm : m.cap ≠ 0) (h : l.findIdx? (fun m => m.empty) = some j) :
    (l.set j m).countP (fun m => m.empty) + 1 = l.countP (fun m => m.empty) := by
  have hme : m.empty = false := by simpa [Mtx.empty] using hm
  induction l generalizing j with
  | nil => simp at h
  | cons a l ih =>
    rw [List.findIdx?_cons] at h
    split at h
    · rename_i ha
      cases h
      rw [List.set_cons_zero, List.countP_cons, List.countP_cons, ha, hme]
      simp
    · rename_i ha
      cases hf : l.findIdx? (fun m => m.empty) with
      | none => rw [hf] at h; simp at h
      | some j' =>
        rw [hf] at h
        simp only [Option.map_some, Option.some.injEq] at h
        subst h
        have := ih j' hf
        rw [List.set_cons_succ, List.countP_cons, List.countP_cons]
        omega

theorem next_some {d : Seqs T} {c j : Nat} (h : nextMtx d c = some j) :
    ∃ l m, d.stor[c]? = some l ∧ l.findIdx? (fun m => m.empty) = some j ∧ l[j]? = some m ∧ l ∈ d.stor ∧ m ∈ l := by
  unfold nextMtx at h
  cases hl : d.stor[c]? with
  | none => rw [hl] at h; simp at h
  | some l =>
    rw [hl, Option.bind_some] at h
    obtain ⟨hj, -⟩ := List.findIdx?_eq_some_iff_getElem.1 h
    exact ⟨l, l[j], rfl, h, List.getElem?_eq_getElem hj, List.mem_of_getElem? hl, List.getElem_mem hj⟩

theorem put_facts {d : Seqs T} {c j : Nat} {m : Mtx (Elem T)} (h : nextMtx d c = some j) (hm : m.cap ≠ 0) (hok : MtxOk m) (hd : StorOk d) :
    StorOk (put d c j m) ∧ numEmpty (put d c j m) + 1 = numEmpty d ∧ (put d c j m).cnt = d.cnt ∧
      (put d c j m).stor.map List.length = d.stor.map List.length := by
  obtain ⟨l, m0, hl, hf, -, -, -⟩ := next_some h
  obtain ⟨stor, cnt⟩ := d
  dsimp only at hl
  unfold StorOk numEmpty put at *
  dsimp only at *
  have key : ∀ (stor : List (List (Mtx (Elem T)))) (c : Nat), stor[c]? = some l → (∀ l ∈ stor, ∀ m ∈ l, MtxOk m) →
      (∀ l' ∈ stor.modify c (fun l => l.set j m), ∀ m ∈ l', MtxOk m) ∧
      ((stor.modify c fun l => l.set j m).map fun l => l.countP fun m => m.empty).sum + 1 = (stor.map fun l => l.countP fun m => m.empty).sum ∧
      (stor.modify c fun l => l.set j m).map List.length = stor.map List.length := by
    intro stor
    induction stor with
    | nil => intro c hc; simp at hc
    | cons a stor ih =>
      intro c hc hst
      cases c with
      | zero =>
        simp only [List.getElem?_cons_zero, Option.some.injEq] at hc
        subst hc
        have := countP_fill a j m hm hf
        refine ⟨?_, ?_, ?_⟩
        · intro l' hl' x hx
          simp only [List.modify_zero_cons, List.mem_cons] at hl'
          rcases hl' with rfl | hl'
          · rcases List.mem_or_eq_of_mem_set hx with hx | rfl
            · exact hst a List.mem_cons_self x hx
            · exact hok
          · exact hst l' (List.mem_cons_of_mem _ hl') x hx
        · simp only [List.modify_zero_cons, List.map_cons, List.sum_cons]; omega
        · simp
      | succ c =>
        rw [List.getElem?_cons_succ] at hc
        obtain ⟨k1, k2, k3⟩ := ih c hc fun l hl => hst l (List.mem_cons_of_mem _ hl)
        refine ⟨?_, ?_, ?_⟩
        · intro l' hl' x hx
          simp only [List.modify_succ_cons, List.mem_cons] at hl'
          rcases hl' with rfl | hl'
          · exact hst _ List.mem_cons_self x hx
          · exact k1 l' hl' x hx
        · simp only [List.modify_succ_cons, List.map_cons, List.sum_cons]; omega
        · simp only [List.modify_succ_cons, List.map_cons, k3]
  obtain ⟨k1, k2, k3⟩ := key stor c hl hd
  exact ⟨k1, k2, rfl, k3⟩

/-- One successful round of the loop. -/
theorem readSeqs_step (cv : Conv) (env : Env T) (k i : Nat) (d d' : Seqs T) (bs rest : List UInt8)
    (h : readSeqs cv env (k + 1) i d bs = some (.base .success, d', rest)) :
    ∃ hd bs1 id j r l m, fread 24 bs = some (hd, bs1) ∧ parseClass ((hd.drop 8).take 15) = .val id ∧ 1 ≤ id ∧ nextMtx d (id - 1).toNat = some j ∧
      env.seekOk i = true ∧ d.stor[(id - 1).toNat]? = some l ∧ l[j]? = some m ∧ readFieldEntry cv (env.field i) m false bs = some r ∧
      r.err = .success ∧ readSeqs cv env k (i + 1) (put d (id - 1).toNat j r.m) r.rest = some (.base .success, d', rest) := by
  unfold readSeqs at h
  split at h
  · cases h
  · rename_i hd bs1 h1
    split at h
    · cases h
    · cases h
    · rename_i id h2
      split at h
      · cases h
      · rename_i h3
        dsimp only at h
        split at h
        · cases h
        · rename_i j h4
          split at h
          · cases h
          · rename_i h5
            obtain ⟨l, m, g1, g2, g3, -, -⟩ := next_some h4
            rw [g1, Option.getD_some, g3, Option.getD_some] at h
            split at h
            · cases h
            · rename_i r h6
              split at h
              · rename_i h7
                simp only [Option.some.injEq, Prod.mk.injEq, SErr.base.injEq] at h
                exact absurd h.1 h7
              · rename_i h7
                exact ⟨hd, bs1, id, j, r, l, m, h1, h2, by omega, h4, by simpa using h5, g1, g3, h6, by simpa using h7, h⟩

theorem readSeqs_seek (cv : Conv) (env : Env T) (k : Nat) : ∀ (i : Nat) (d d' : Seqs T) (bs rest : List UInt8),
    readSeqs cv env k i d bs = some (.base .success, d', rest) → ∀ p, i ≤ p → p < i + k → env.seekOk p = true := by
  induction k with
  | zero => intro i d d' bs rest _ p h1 h2; omega
  | succ k ih =>
    intro i d d' bs rest h p h1 h2
    obtain ⟨_, _, _, _, _, _, _, -, -, -, -, hs, -, -, -, -, h8⟩ := readSeqs_step cv env k i d d' bs rest h
    by_cases hp : p = i
    · rw [hp]; exact hs
    · exact ih _ _ _ _ _ h8 p (by omega) (by omega)

theorem readSeqs_inv (cv : Conv) (env : Env T) (k : Nat) : ∀ (i : Nat) (d d' : Seqs T) (bs rest : List UInt8), StorOk d → numEmpty d = k →
    readSeqs cv env k i d bs = some (.base .success, d', rest) →
    StorOk d' ∧ numEmpty d' = 0 ∧ d'.cnt = d.cnt ∧ d'.stor.map List.length = d.stor.map List.length := by
  induction k with
  | zero =>
    intro i d d' bs rest hd hn h
    simp only [readSeqs, Option.some.injEq, Prod.mk.injEq] at h
    obtain ⟨-, rfl, -⟩ := h
    exact ⟨hd, hn, rfl, rfl⟩
  | succ k ih =>
    intro i d d' bs rest hd hn h
    obtain ⟨_, _, id, j, r, l, m, -, -, -, h4, -, g1, g3, h6, h7, h8⟩ := readSeqs_step cv env k i d d' bs rest h
    have hmok : MtxOk m := hd l (List.mem_of_getElem? g1) m (List.mem_of_getElem? g3)
    obtain ⟨-, f2, f3⟩ := field_success cv (env.field i) m hmok bs h6 h7
    obtain ⟨p1, p2, p3, p4⟩ := put_facts h4 f2 f3 hd
    obtain ⟨a1, a2, a3, a4⟩ := ih (i + 1) _ d' _ rest p1 (by omega) h8
    exact ⟨a1, a2, a3.trans p3, a4.trans p4⟩

theorem readSeqs_mono (cv : Conv) (env : Env T) (k : Nat) : ∀ (i : Nat) (d d' : Seqs T) (bs rest x : List UInt8),
    readSeqs cv env k i d bs = some (.base .success, d', rest) → readSeqs cv env k i d (bs ++ x) = some (.base .success, d', rest ++ x) := by
  induction k with
  | zero =>
    intro i d d' bs rest x h
    simp only [readSeqs, Option.some.injEq, Prod.mk.injEq] at h ⊢
    obtain ⟨-, rfl, rfl⟩ := h
    exact ⟨trivial, rfl, rfl⟩
  | succ k ih =>
    intro i d d' bs rest x h
    obtain ⟨hd, bs1, id, j, r, l, m, h1, h2, h3, h4, h5, g1, g3, h6, h7, h8⟩ := readSeqs_step cv env k i d d' bs rest h
    unfold readSeqs
    rw [fread_append x h1]
    dsimp only
    rw [h2]
    dsimp only
    rw [if_neg (by omega), h4]
    dsimp only
    rw [h5, g1, Option.getD_some, g3, Option.getD_some, readField_mono cv (env.field i) m false bs x h6 h7]
    simp only [Bool.not_true, Bool.false_eq_true, if_false, h7, ne_eq, not_true]
    exact ih _ _ _ _ _ _ h8

theorem readSeqs_consumes (cv : Conv) (env : Env T) (es : List Entry) : ∀ (i : Nat) (d d' : Seqs T) (rest rest' : List UInt8), StorOk d →
    (∀ e ∈ es, e.mtx.Ok) → (∀ e ∈ es, e.name.length ≤ 15) →
    readSeqs cv env es.length i d ((es.flatMap fun e => encField e.name e.mtx) ++ rest) = some (.base .success, d', rest') → rest' = rest := by
  induction es with
  | nil =>
    intro i d d' rest rest' _ _ _ h
    simp only [List.length_nil, List.flatMap_nil, List.nil_append, readSeqs, Option.some.injEq, Prod.mk.injEq] at h
    exact h.2.2.symm
  | cons e es ih =>
    intro i d d' rest rest' hd hm hn h
    rw [List.length_cons, List.flatMap_cons, List.append_assoc] at h
    obtain ⟨_, _, id, j, r, l, m, -, -, -, h4, -, g1, g3, h6, h7, h8⟩ := readSeqs_step cv env es.length i d d' _ rest' h
    have hmok : MtxOk m := hd l (List.mem_of_getElem? g1) m (List.mem_of_getElem? g3)
    obtain ⟨f1, f2, f3⟩ := field_success cv (env.field i) m hmok _ h6 h7
    have hnl : (e.name ++ List.replicate (15 - e.name.length) 0).length = 15 := by
      have := hn e List.mem_cons_self
      simp; omega
    obtain ⟨c1, -⟩ := readField_consumes cv (env.field i) m (hmok.1 f1).1 (hmok.1 f1).2.1 false e.name hnl e.mtx (hm e List.mem_cons_self) _ h6 h7
    rw [c1] at h8
    exact ih (i + 1) _ d' rest rest' (put_facts h4 f2 f3 hd).1 (fun x hx => hm x (List.mem_cons_of_mem _ hx))
      (fun x hx => hn x (List.mem_cons_of_mem _ hx)) h8

end Nntl.SeqFile
