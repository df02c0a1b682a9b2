import Verif.BinFile.Lemmas
import Mathlib.Data.List.Perm.Basic
/-! Property theorems C18-C21: the binary file reader. -/
namespace Nntl.BinFile
open Nntl.Matrix
set_option linter.unusedSimpArgs false
variable {T : ETy}

/-- The environment grants all memory. -/
def EnvOk (env : Nat → FEnv T) : Prop := ∀ i, (env i).ok = true ∧ (env i).okConv = true

theorem idOf_str (i : FieldId) : idOf true i.str = some i := name2id_str i

/-- Reading the fields `l` in front of `rest`. -/
theorem readLoop_prefix (cv : Conv) (env : Nat → FEnv T) (henv : EnvOk env) (f : FieldId → FileMtx) (hf : ∀ i, (f i).Ok)
    (l : List FieldId) (k i : Nat) (acc : Four T) (hnd : l.Nodup) (hacc : ∀ j ∈ l, (acc j).cap = 0) (rest : List UInt8) :
    ∃ acc' : Four T, readLoop cv env (l.length + k) i acc ((l.flatMap fun j => encField j.str (f j)) ++ rest) =
      readLoop cv env k (i + l.length) acc' rest ∧ (∀ j ∈ l, Decoded cv (f j) j.isX (acc' j)) ∧ ∀ j, j ∉ l → acc' j = acc j := by
  induction l generalizing i acc with
  | nil => exact ⟨acc, by simp, by simp, fun _ _ => rfl⟩
  | cons a l ih =>
    obtain ⟨hal, hnd⟩ := List.nodup_cons.1 hnd
    obtain ⟨m', h1, h2⟩ := readField_ok cv (env i) (henv i).1 (henv i).2 (Mtx.default (env i).junk) rfl rfl rfl rfl true a.str (str_length a)
      (by rw [idOf_str]; simp) (f a) (hf a) ((l.flatMap fun j => encField j.str (f j)) ++ rest)
    rw [idOf_str] at h1 h2
    obtain ⟨acc', h3, h4, h5⟩ := ih (i + 1) (fun j => if j = a then m' else acc j) hnd
      (fun j hj => by
        have : j ≠ a := fun e => hal (e ▸ hj)
        rw [if_neg this]; exact hacc j (List.mem_cons_of_mem _ hj))
    refine ⟨acc', ?_, ?_, ?_⟩
    · rw [List.flatMap_cons, List.append_assoc, List.length_cons, show l.length + 1 + k = (l.length + k) + 1 by omega, readLoop, h1]
      have : (acc a).empty = true := by simp [Mtx.empty, hacc a List.mem_cons_self]
      simp only [this, ne_eq, not_true_eq_false, if_false, Bool.not_true, Bool.false_eq_true]
      rw [h3]; congr 1; omega
    · intro j hj
      by_cases hja : j = a
      · subst hja; rw [h5 j hal]; simpa [biasOf] using h2
      · exact h4 j ((List.mem_cons.1 hj).resolve_left hja)
    · intro j hj
      rw [List.mem_cons, not_or] at hj
      rw [h5 j hj.2, if_neg hj.1]

theorem sig4 : ([110, 110, 116, 108] : List UInt8).length = 4 := rfl
theorem ver2 : ([0, 0] : List UInt8).length = 2 := rfl
theorem sigver : (([110, 110, 116, 108] : List UInt8) ++ [0, 0]).length = 6 := rfl

theorem encHeader_eq (n : Nat) : encHeader n = [110, 110, 116, 108] ++ ([0, 0] ++ (leBytes 2 n ++ [0, 0])) := by
  simp [encHeader, leBytes]

/-- The header of a well-formed file is accepted. -/
theorem readFile_header {D : Type} (dest : D) (cont : Nat → Nat → List UInt8 → Option (Err × D × List UInt8)) (n : Nat) (hn : n < 65536)
    (bs : List UInt8) : readFile dest cont (encHeader n ++ bs) = cont n 0 bs := by
  have hl : (encHeader n).length = 10 := by simp [encHeader, leBytes_length]
  have h1 : leNat ((encHeader n).take 4) = signature := by rw [encHeader_eq, List.take_left' sig4]; decide
  have h2 : leNat (((encHeader n).drop 4).take 2) = 0 := by
    rw [encHeader_eq, List.drop_left' sig4, List.take_left' ver2]; decide
  have h3 : leNat (((encHeader n).drop 6).take 2) = n := by
    rw [encHeader_eq, ← List.append_assoc, List.drop_left' sigver, List.take_left' (leBytes_length _ _)]
    exact leNat_leBytes _ _ (by omega)
  have h4 : leNat (((encHeader n).drop 8).take 2) = 0 := by
    rw [encHeader_eq, ← List.append_assoc, ← List.append_assoc, List.drop_left' (by simp [leBytes_length])]; decide
  unfold readFile
  rw [fread_eq hl]
  dsimp only
  rw [h1, h2, h3, h4, if_neg (by simp), if_neg (by simp)]

theorem allFields_mem {order : List FieldId} (h : AllFields order) (i : FieldId) : i ∈ order :=
  h.mem_iff.2 (by cases i <;> simp)
theorem allFields_nodup {order : List FieldId} (h : AllFields order) : order.Nodup := h.nodup_iff.2 (by decide)

/-- **C18 (training data).** Reading a well-formed file returns exactly the four matrices that were stored, in any order of the fields and for
any mix of element types, with bias columns of ones added to the features only; the whole file is consumed. -/
theorem train_data_round_trip (cv : Conv) (env : Nat → FEnv T) (henv : EnvOk env) (dest : Four T) (order : List FieldId)
    (hord : AllFields order) (f : FieldId → FileMtx) (hf : TDOk f) :
    ∃ d : Four T, readTrainData cv env dest (encTDFile order f) = some (.success, d, []) ∧ ∀ i, Decoded cv (f i) i.isX (d i) := by
  have hlen : order.length = 4 := by rw [hord.length_eq]; rfl
  obtain ⟨acc', h1, h2, -⟩ := readLoop_prefix cv env henv f hf.ok order 0 0 (fun _ => Mtx.default (env 0).junk) (allFields_nodup hord)
    (fun _ _ => rfl) []
  rw [List.append_nil, hlen] at h1
  have hD := fun i => h2 i (allFields_mem hord i)
  have hrows : ∀ i, (acc' i).rows = (f i).rows := by
    intro i
    have := (hD i).rows
    have hb := (hD i).layout
    simpa [Mtx.rowsNoBias, hb] using this
  have hcols : ∀ i, (acc' i).cols = (f i).cols + i.isX.toNat := by
    intro i
    have h := (hD i).cols
    have hb := (hD i).layout
    have he := (hD i).emul
    have := (hf.ok i).cols
    unfold Mtx.colsNoBias at h
    rw [hb, he] at h
    cases i <;> simp [FieldId.isX] at h ⊢ <;> omega
  have habs : absorbOk acc' = true := by
    have e := fun i => (hD i).nonempty
    have x := fun i => (hD i).own
    have m := fun i => (hD i).emul
    simp [absorbOk, Mtx.empty, e, x, m, hrows, hcols, FieldId.isX, hf.trainRows, hf.testRows, hf.xCols, hf.yCols]
  refine ⟨acc', ?_, hD⟩
  unfold readTrainData encTDFile
  rw [readFile_header _ _ 4 (by omega)]
  unfold readTD
  rw [if_neg (by simp), if_neg (by simp), h1]
  simp [readLoop, absorb, habs]

/-- **C18 (single matrix).** The same for a file with one matrix under any name, read into an empty matrix. -/
theorem matrix_round_trip (cv : Conv) (e : FEnv T) (h1 : e.ok = true) (h2 : e.okConv = true) (dest : Mtx (Elem T)) (hd : dest.cap = 0)
    (hz : dest.rows = 0) (hx : dest.ext = false) (hb : dest.bir = false) (name : List UInt8) (hn : name.length ≤ 15) (f : FileMtx) (hf : f.Ok) :
    ∃ m, readMatrix cv e dest (encMatrixFile name f) = some (.success, m, []) ∧ Decoded cv f dest.emul m := by
  have hn' : (name ++ List.replicate (15 - name.length) 0).length = 15 := by simp; omega
  obtain ⟨m, g1, g2⟩ := readField_ok cv e h1 h2 dest hd hz hx hb false name hn' (by simp) f hf []
  refine ⟨m, ?_, g2⟩
  unfold readMatrix encMatrixFile
  rw [readFile_header _ _ 1 (by omega)]
  unfold readMtx
  rw [List.append_nil] at g1
  rw [if_neg (by simp), if_neg (by simp), g1]
  rfl

/-! ### C19 -/

theorem readLoop_mono (cv : Conv) (env : Nat → FEnv T) (k i : Nat) (acc : Four T) (bs x : List UInt8) {f : Four T} {rest : List UInt8}
    (h : readLoop cv env k i acc bs = some (.success, f, rest)) : readLoop cv env k i acc (bs ++ x) = some (.success, f, rest ++ x) := by
  induction k generalizing i acc bs with
  | zero => simp only [readLoop, Option.some.injEq, Prod.mk.injEq] at h ⊢; obtain ⟨-, rfl, rfl⟩ := h; simp
  | succ k ih =>
    unfold readLoop at h ⊢
    cases h1 : readFieldEntry cv (env i) (Mtx.default (env i).junk) true bs with
    | none => rw [h1] at h; contradiction
    | some r =>
      rw [h1] at h
      dsimp only at h
      by_cases hs : r.err = .success
      · rw [readField_mono cv _ _ _ _ x h1 hs]
        dsimp only
        rw [if_neg (by simp [hs])] at h ⊢
        split at h
        · contradiction
        · rename_i id hid
          split at h
          · cases h
          · rename_i he
            rw [if_neg he]
            exact ih _ _ _ h
      · rw [if_pos hs] at h
        simp only [Option.some.injEq, Prod.mk.injEq] at h
        exact absurd h.1 hs

theorem readTD_mono (cv : Conv) (env : Nat → FEnv T) (dest d : Four T) (a b : Nat) (bs x rest : List UInt8)
    (h : readTD cv env dest a b bs = some (.success, d, rest)) : readTD cv env dest a b (bs ++ x) = some (.success, d, rest ++ x) := by
  unfold readTD at h ⊢
  split at h
  · cases h
  · rename_i c1
    rw [if_neg c1]
    split at h
    · cases h
    · rename_i c2
      rw [if_neg c2]
      split at h
      · contradiction
      · rename_i f r hr
        rw [readLoop_mono cv env _ _ _ _ x hr]
        dsimp only
        split at h
        · rename_i d' hd'
          cases h; rfl
        · cases h
      · rename_i hne hr
        simp only [Option.some.injEq, Prod.mk.injEq] at h
        exact absurd h.1 hne

theorem readFile_mono {D : Type} {dest d : D} {cont : Nat → Nat → List UInt8 → Option (Err × D × List UInt8)} {bs rest : List UInt8} (x : List UInt8)
    (hc : ∀ a b bs d rest, cont a b bs = some (.success, d, rest) → cont a b (bs ++ x) = some (.success, d, rest ++ x))
    (h : readFile dest cont bs = some (.success, d, rest)) : readFile dest cont (bs ++ x) = some (.success, d, rest ++ x) := by
  unfold readFile at h ⊢
  cases h1 : fread 10 bs with
  | none => rw [h1] at h; cases h
  | some p =>
    obtain ⟨hd, b1⟩ := p
    rw [h1] at h
    rw [fread_append x h1]
    dsimp only at h ⊢
    split at h
    · cases h
    · rename_i c1
      rw [if_neg c1]
      split at h
      · cases h
      · rename_i c2
        rw [if_neg c2]
        exact hc _ _ _ _ _ h

theorem readLoop_consumes (cv : Conv) (env : Nat → FEnv T) (f : FieldId → FileMtx) (hf : ∀ i, (f i).Ok) (l : List FieldId) (i : Nat)
    (acc g : Four T) (rest rest' : List UInt8)
    (h : readLoop cv env l.length i acc ((l.flatMap fun j => encField j.str (f j)) ++ rest) = some (.success, g, rest')) : rest' = rest := by
  induction l generalizing i acc with
  | nil => simp [readLoop] at h; exact h.2.symm
  | cons a l ih =>
    rw [List.flatMap_cons, List.append_assoc, List.length_cons, readLoop] at h
    cases h1 : readFieldEntry cv (env i) (Mtx.default (env i).junk) true
        (encField a.str (f a) ++ ((l.flatMap fun j => encField j.str (f j)) ++ rest)) with
    | none => rw [h1] at h; contradiction
    | some r =>
      rw [h1] at h
      dsimp only at h
      by_cases hs : r.err = .success
      · obtain ⟨e1, e2⟩ := readField_consumes cv (env i) _ rfl rfl true a.str (str_length a) (f a) (hf a) _ h1 hs
        rw [if_neg (by simp [hs]), e2, idOf_str] at h
        dsimp only at h
        split at h
        · cases h
        · rw [e1] at h; exact ih _ _ h
      · rw [if_pos hs] at h
        simp only [Option.some.injEq, Prod.mk.injEq] at h
        exact absurd h.1 hs

/-- **C19 (training data).** A valid file cut anywhere before its end is never read successfully, whatever memory the environment
grants. -/
theorem truncated_train_data_rejected (cv : Conv) (env : Nat → FEnv T) (dest : Four T) (order : List FieldId) (hord : AllFields order)
    (f : FieldId → FileMtx) (hf : ∀ i, (f i).Ok) (p x : List UInt8) (hx : x ≠ []) (hp : p ++ x = encTDFile order f) (d : Four T)
    (rest : List UInt8) : readTrainData cv env dest p ≠ some (.success, d, rest) := by
  intro h
  have hm := readFile_mono x (fun a b bs d' rest' hh => readTD_mono cv env dest d' a b bs x rest' hh) h
  rw [hp] at hm
  unfold encTDFile at hm
  rw [readFile_header _ _ 4 (by omega)] at hm
  unfold readTD at hm
  rw [if_neg (by simp), if_neg (by simp)] at hm
  have hlen : order.length = 4 := by rw [hord.length_eq]; rfl
  split at hm
  · contradiction
  · rename_i g r hr
    have : r = [] := by
      rw [← hlen] at hr
      exact readLoop_consumes cv env f hf order 0 _ g [] r (by rw [List.append_nil]; exact hr)
    subst this
    split at hm
    · simp only [Option.some.injEq, Prod.mk.injEq] at hm
      have := hm.2.2
      simp at this
      exact hx this.2
    · cases hm
  · rename_i hne hr
    simp only [Option.some.injEq, Prod.mk.injEq] at hm
    exact absurd hm.1 hne

/-- **C19 (single matrix).** -/
theorem truncated_matrix_rejected (cv : Conv) (e : FEnv T) (dest : Mtx (Elem T)) (hz : dest.rows = 0) (hb : dest.bir = false)
    (name : List UInt8) (hn : name.length ≤ 15) (f : FileMtx) (hf : f.Ok) (p x : List UInt8) (hx : x ≠ [])
    (hp : p ++ x = encMatrixFile name f) (m : Mtx (Elem T)) (rest : List UInt8) : readMatrix cv e dest p ≠ some (.success, m, rest) := by
  intro h
  have hn' : (name ++ List.replicate (15 - name.length) 0).length = 15 := by simp; omega
  have hm := readFile_mono x (fun a b bs d' rest' hh => by
    unfold readMtx at hh ⊢
    split at hh
    · cases hh
    · rename_i c1
      rw [if_neg c1]
      split at hh
      · cases hh
      · rename_i c2
        rw [if_neg c2]
        cases h1 : readFieldEntry cv e dest false bs with
        | none => rw [h1] at hh; contradiction
        | some r =>
          rw [h1] at hh
          simp only [Option.map_some, Option.some.injEq, Prod.mk.injEq] at hh
          rw [readField_mono cv _ _ _ _ x h1 hh.1]
          simp [hh]) h
  rw [hp] at hm
  unfold encMatrixFile at hm
  rw [readFile_header _ _ 1 (by omega)] at hm
  unfold readMtx at hm
  rw [if_neg (by simp), if_neg (by simp)] at hm
  cases h1 : readFieldEntry cv e dest false (encField name f) with
  | none => rw [h1] at hm; contradiction
  | some r =>
    rw [h1] at hm
    simp only [Option.map_some, Option.some.injEq, Prod.mk.injEq] at hm
    have := (readField_consumes cv e dest hz hb false name hn' f hf [] (by rw [List.append_nil]; exact h1) hm.1).1
    rw [this] at hm
    have := hm.2.2
    simp at this
    exact hx this.2

/-! ### C20 -/

theorem leNat_zero {l : List UInt8} (h : leNat l = 0) : ∀ b ∈ l, b = 0 := by
  induction l with
  | nil => simp
  | cons a l ih =>
    simp only [leNat] at h
    intro b hb
    rcases List.mem_cons.1 hb with rfl | hb
    · exact UInt8.toNat_inj.1 (by simp; omega)
    · exact ih (by omega) b hb

theorem leNat_inj {l l' : List UInt8} (hl : l.length = l'.length) (h : leNat l = leNat l') : l = l' := by
  induction l generalizing l' with
  | nil => cases l' with | nil => rfl | cons => simp at hl
  | cons a l ih =>
    cases l' with
    | nil => simp at hl
    | cons b l' =>
      simp only [leNat] at h
      have ha := a.toNat_lt
      have hb := b.toNat_lt
      have h1 : a = b := UInt8.toNat_inj.1 (by omega)
      have h2 : leNat l = leNat l' := by omega
      rw [h1, ih (by simpa using hl) h2]

variable {D : Type} (dest : D) (cont : Nat → Nat → List UInt8 → Option (Err × D × List UInt8))

/-- **C20.** Fewer than ten bytes: no header. -/
theorem short_header_rejected (bs : List UInt8) (h : bs.length < 10) : readFile dest cont bs = some (.failedToReadHeader, dest, []) := by
  unfold readFile; rw [fread_none.2 h]

/-- **C20.** A file that doesn't start with `nntl` is rejected as such, whatever follows. -/
theorem wrong_signature_rejected (sig rest : List UInt8) (hs : sig.length = 4) (hne : sig ≠ [110, 110, 116, 108]) (hr : 6 ≤ rest.length) :
    readFile dest cont (sig ++ rest) = some (.wrongHeaderSignature, dest, rest.drop 6) := by
  unfold readFile
  have hsplit : sig ++ rest = (sig ++ rest.take 6) ++ rest.drop 6 := by rw [List.append_assoc, List.take_append_drop]
  rw [hsplit, fread_eq (by simp; omega)]
  dsimp only
  rw [List.take_left' hs, if_pos]
  intro he
  exact hne (leNat_inj (by simpa using hs) (he.trans (by decide)))

/-- **C20.** Right signature, but another version. -/
theorem wrong_version_rejected (ver rest : List UInt8) (hs : ver.length = 2) (hne : ver ≠ [0, 0]) (hr : 4 ≤ rest.length) :
    readFile dest cont ([110, 110, 116, 108] ++ ver ++ rest) = some (.unsupportedFormatVersion, dest, rest.drop 4) := by
  unfold readFile
  have hsplit : [110, 110, 116, 108] ++ ver ++ rest = ([110, 110, 116, 108] ++ (ver ++ rest.take 4)) ++ rest.drop 4 := by
    simp [List.append_assoc]
  rw [hsplit, fread_eq (by simp; omega)]
  dsimp only
  rw [List.take_left' sig4, if_neg (by decide), List.drop_left' sig4, List.take_left' hs, if_pos]
  intro he
  exact hne (leNat_inj (by simpa using hs) (he.trans (by decide)))

/-- The header with arbitrary counts. -/
theorem readFile_counts (n c : List UInt8) (hn : n.length = 2) (hc : c.length = 2) (rest : List UInt8) :
    readFile dest cont ([110, 110, 116, 108] ++ [0, 0] ++ n ++ c ++ rest) = cont (leNat n) (leNat c) rest := by
  unfold readFile
  rw [fread_eq (by simp; omega)]
  dsimp only
  have e1 : ([110, 110, 116, 108] ++ [0, 0] ++ n ++ c : List UInt8) = [110, 110, 116, 108] ++ ([0, 0] ++ (n ++ c)) := by simp
  rw [e1, List.take_left' sig4, if_neg (by decide), List.drop_left' sig4, List.take_left' ver2, if_neg (by decide)]
  rw [← List.append_assoc, List.drop_left' sigver, List.take_left' hn, ← List.append_assoc, List.drop_left' (by simp; omega),
    List.take_of_length_le (by omega)]

/-- **C20.** A wrong number of fields, for both kinds of destinations. -/
theorem wrong_field_count_rejected (cv : Conv) (env : Nat → FEnv T) (dest : Four T) (n c : List UInt8) (hn : n.length = 2) (hc : c.length = 2)
    (hne : n ≠ [4, 0]) (rest : List UInt8) :
    readTrainData cv env dest ([110, 110, 116, 108] ++ [0, 0] ++ n ++ c ++ rest) = some (.wrongElementsCount, dest, rest) := by
  unfold readTrainData
  rw [readFile_counts _ _ n c hn hc]
  unfold readTD
  rw [if_pos]
  intro he
  exact hne (leNat_inj (by simpa using hn) (he.trans (by decide)))

theorem wrong_field_count_rejected_matrix (cv : Conv) (e : FEnv T) (dest : Mtx (Elem T)) (n c : List UInt8) (hn : n.length = 2) (hc : c.length = 2)
    (hne : n ≠ [1, 0]) (rest : List UInt8) :
    readMatrix cv e dest ([110, 110, 116, 108] ++ [0, 0] ++ n ++ c ++ rest) = some (.wrongElementsCount, dest, rest) := by
  unfold readMatrix
  rw [readFile_counts _ _ n c hn hc]
  unfold readMtx
  rw [if_pos]
  intro he
  exact hne (leNat_inj (by simpa using hn) (he.trans (by decide)))

/-- **C20.** Sequence classes in a file that is read as training data. -/
theorem seq_classes_rejected (cv : Conv) (env : Nat → FEnv T) (dest : Four T) (c : List UInt8) (hc : c.length = 2) (hne : c ≠ [0, 0])
    (rest : List UInt8) :
    readTrainData cv env dest ([110, 110, 116, 108] ++ [0, 0] ++ [4, 0] ++ c ++ rest) = some (.invalidSeqClassCount, dest, rest) := by
  unfold readTrainData
  rw [readFile_counts _ _ [4, 0] c rfl hc]
  unfold readTD
  rw [if_neg (by decide), if_pos]
  intro he
  exact hne (leNat_inj (by simpa using hc) (he.trans (by decide)))

/-- An error while the fields are read is the result of the whole read, after any correct fields `l` before it. -/
theorem field_error (cv : Conv) (env : Nat → FEnv T) (henv : EnvOk env) (dest : Four T) (f : FieldId → FileMtx) (hf : ∀ i, (f i).Ok)
    (l : List FieldId) (hnd : l.Nodup) (hlen : l.length < 4) (tail : List UInt8) (err : Err) (herr : err ≠ .success)
    (htail : ∀ i k acc, (∀ j ∈ l, (acc j : Mtx (Elem T)).cap ≠ 0) → ∃ rest, readLoop cv env (k + 1) i acc tail = some (err, acc, rest)) :
    ∃ rest, readTrainData cv env dest (encHeader 4 ++ ((l.flatMap fun j => encField j.str (f j)) ++ tail)) = some (err, dest, rest) := by
  obtain ⟨acc', h1, h2, -⟩ := readLoop_prefix cv env henv f hf l (4 - l.length) 0 (fun _ => Mtx.default (env 0).junk) hnd
    (fun _ _ => rfl) tail
  rw [show l.length + (4 - l.length) = 4 by omega] at h1
  obtain ⟨rest, hrest⟩ := htail (0 + l.length) (4 - l.length - 1) acc' (fun j hj => (h2 j hj).nonempty)
  rw [show 4 - l.length - 1 + 1 = 4 - l.length by omega] at hrest
  refine ⟨rest, ?_⟩
  unfold readTrainData
  rw [readFile_header _ _ 4 (by omega)]
  unfold readTD
  rw [if_neg (by simp), if_neg (by simp), h1, hrest]
  cases err <;> first | exact absurd rfl herr | rfl

/-- **C20.** A field with a zero dimension, after any correct fields. -/
theorem zero_dimension_rejected (cv : Conv) (env : Nat → FEnv T) (henv : EnvOk env) (dest : Four T) (f : FieldId → FileMtx) (hf : ∀ i, (f i).Ok)
    (l : List FieldId) (hnd : l.Nodup) (hlen : l.length < 4) (R C N : List UInt8) (t : UInt8) (hR : R.length = 4) (hC : C.length = 4)
    (hN : N.length = 15) (hz : R = [0, 0, 0, 0] ∨ C = [0, 0, 0, 0]) (tail : List UInt8) :
    ∃ rest, readTrainData cv env dest (encHeader 4 ++ ((l.flatMap fun j => encField j.str (f j)) ++ ((R ++ C ++ N ++ [t]) ++ tail))) =
      some (.invalidDataSize, dest, rest) := by
  refine field_error cv env henv dest f hf l hnd hlen _ _ (by simp) ?_
  intro i k acc _
  obtain ⟨p1, p2, p3, p4, p5⟩ := field_header (t := t) hR hC hN
  unfold readLoop readFieldEntry
  rw [fread_eq p1]
  dsimp only
  rw [p2, p3]
  have : leNat R = 0 ∨ leNat C = 0 := by rcases hz with rfl | rfl <;> simp [leNat]
  rw [if_neg (by simp [Mtx.empty, Mtx.default]), if_pos this]
  exact ⟨_, rfl⟩

/-- **C20.** An unknown field name (dimensions are not zero), after any correct fields. -/
theorem unknown_name_rejected (cv : Conv) (env : Nat → FEnv T) (henv : EnvOk env) (dest : Four T) (f : FieldId → FileMtx) (hf : ∀ i, (f i).Ok)
    (l : List FieldId) (hnd : l.Nodup) (hlen : l.length < 4) (R C N : List UInt8) (t : UInt8) (hR : R.length = 4) (hC : C.length = 4)
    (hN : N.length = 15) (hz : R ≠ [0, 0, 0, 0] ∧ C ≠ [0, 0, 0, 0]) (hname : ∀ i : FieldId, N.takeWhile (· ≠ 0) ≠ i.str) (tail : List UInt8) :
    ∃ rest, readTrainData cv env dest (encHeader 4 ++ ((l.flatMap fun j => encField j.str (f j)) ++ ((R ++ C ++ N ++ [t]) ++ tail))) =
      some (.unknownFieldName, dest, rest) := by
  refine field_error cv env henv dest f hf l hnd hlen _ _ (by simp) ?_
  intro i k acc _
  obtain ⟨p1, p2, p3, p4, p5⟩ := field_header (t := t) hR hC hN
  unfold readLoop readFieldEntry
  rw [fread_eq p1]
  dsimp only
  rw [p2, p3, p4]
  have hnz : ¬ (leNat R = 0 ∨ leNat C = 0) := by
    rintro (h | h)
    · exact hz.1 (leNat_inj (by simpa using hR) (h.trans (by decide)))
    · exact hz.2 (leNat_inj (by simpa using hC) (h.trans (by decide)))
  have hid : name2id N = none := by
    unfold name2id
    simp only [hname, if_false]
  rw [if_neg (by simp [Mtx.empty, Mtx.default]), if_neg hnz]
  simp only [hid, if_true, and_self]
  exact ⟨_, rfl⟩

/-- **C20.** An unknown element type in an otherwise acceptable field header, after any correct fields. -/
theorem unknown_type_rejected (cv : Conv) (env : Nat → FEnv T) (henv : EnvOk env) (dest : Four T) (f : FieldId → FileMtx) (hf : ∀ i, (f i).Ok)
    (l : List FieldId) (hnd : l.Nodup) (hlen : l.length < 4) (r c : Nat) (hr : 0 < r ∧ r < 2 ^ 31 - 1) (hc : 0 < c ∧ c < 2 ^ 31 - 1)
    (id : FieldId) (t : UInt8) (ht : t ≠ 0 ∧ t ≠ 1) (tail : List UInt8) :
    ∃ rest, readTrainData cv env dest (encHeader 4 ++ ((l.flatMap fun j => encField j.str (f j)) ++
        ((leBytes 4 r ++ leBytes 4 c ++ (id.str ++ List.replicate (15 - id.str.length) 0) ++ [t]) ++ tail))) =
      some (.unsupportedIncorrectDataType, dest, rest) := by
  refine field_error cv env henv dest f hf l hnd hlen _ _ (by simp) ?_
  intro i k acc _
  obtain ⟨p1, p2, p3, p4, p5⟩ := field_header (t := t) (leBytes_length 4 r) (leBytes_length 4 c) (str_length id)
  unfold readLoop readFieldEntry
  rw [fread_eq p1]
  dsimp only
  rw [p2, p3, p4, p5, leNat_leBytes 4 r (by omega), leNat_leBytes 4 c (by omega), name2id_str]
  rw [if_neg (by simp [Mtx.empty, Mtx.default]), if_neg (by omega)]
  simp only [if_true, reduceCtorEq, and_false, if_false]
  obtain ⟨m1, hm1⟩ := resizeI_total (T := T) (m := applyId (some id) (Mtx.default (env i).junk)) (r := r) (c := c) (e := env i) rfl rfl rfl hr hc
  rw [(henv i).1] at hm1
  rw [hm1]
  have : ETy.ofCode t = none := by simp [ETy.ofCode, ht]
  dsimp only
  rw [this]
  exact ⟨_, rfl⟩

/-- **C20.** A second field with a name that was already read. -/
theorem duplicate_field_rejected (cv : Conv) (env : Nat → FEnv T) (henv : EnvOk env) (dest : Four T) (f : FieldId → FileMtx) (hf : ∀ i, (f i).Ok)
    (l : List FieldId) (hnd : l.Nodup) (hlen : l.length < 4) (id : FieldId) (hid : id ∈ l) (g : FileMtx) (hg : g.Ok) (tail : List UInt8) :
    ∃ rest, readTrainData cv env dest (encHeader 4 ++ ((l.flatMap fun j => encField j.str (f j)) ++ (encField id.str g ++ tail))) =
      some (.fieldHasBeenRead, dest, rest) := by
  refine field_error cv env henv dest f hf l hnd hlen _ _ (by simp) ?_
  intro i k acc hacc
  obtain ⟨m', h1, -⟩ := readField_ok cv (env i) (henv i).1 (henv i).2 (Mtx.default (env i).junk) rfl rfl rfl rfl true id.str (str_length id)
    (by rw [idOf_str]; simp) g hg tail
  rw [idOf_str] at h1
  unfold readLoop
  rw [h1]
  have : (acc id).empty = false := by simp [Mtx.empty, hacc id hid]
  simp only [ne_eq, not_true_eq_false, if_false, this, Bool.not_false, if_true]
  exact ⟨_, rfl⟩

/-- **C20 (single matrix).** -/
theorem zero_dimension_rejected_matrix (cv : Conv) (e : FEnv T) (dest : Mtx (Elem T)) (hd : dest.cap = 0) (R C N : List UInt8) (t : UInt8)
    (hR : R.length = 4) (hC : C.length = 4) (hN : N.length = 15) (hz : R = [0, 0, 0, 0] ∨ C = [0, 0, 0, 0]) (tail : List UInt8) :
    readMatrix cv e dest (encHeader 1 ++ ((R ++ C ++ N ++ [t]) ++ tail)) = some (.invalidDataSize, dest, tail) := by
  obtain ⟨p1, p2, p3, p4, p5⟩ := field_header (t := t) hR hC hN
  unfold readMatrix
  rw [readFile_header _ _ 1 (by omega)]
  unfold readMtx
  rw [if_neg (by simp), if_neg (by simp)]
  unfold readFieldEntry
  rw [fread_eq p1]
  dsimp only
  rw [p2, p3]
  have : leNat R = 0 ∨ leNat C = 0 := by rcases hz with rfl | rfl <;> simp [leNat]
  rw [if_neg (by simp [Mtx.empty, hd]), if_pos this]
  rfl

/-- **C20 (single matrix).** -/
theorem unknown_type_rejected_matrix (cv : Conv) (e : FEnv T) (he : e.ok = true) (dest : Mtx (Elem T)) (hd : dest.cap = 0)
    (hzr : dest.rows = 0) (hx : dest.ext = false) (hb : dest.bir = false) (r c : Nat)
    (hr : 0 < r ∧ r < 2 ^ 31 - 1) (hc : 0 < c ∧ c < 2 ^ 31 - 1) (N : List UInt8) (hN : N.length = 15) (t : UInt8) (ht : t ≠ 0 ∧ t ≠ 1)
    (tail : List UInt8) :
    ∃ m, readMatrix cv e dest (encHeader 1 ++ ((leBytes 4 r ++ leBytes 4 c ++ N ++ [t]) ++ tail)) =
      some (.unsupportedIncorrectDataType, m, tail) := by
  obtain ⟨p1, p2, p3, p4, p5⟩ := field_header (t := t) (leBytes_length 4 r) (leBytes_length 4 c) hN
  unfold readMatrix
  rw [readFile_header _ _ 1 (by omega)]
  unfold readMtx
  rw [if_neg (by simp), if_neg (by simp)]
  unfold readFieldEntry
  rw [fread_eq p1]
  dsimp only
  rw [p2, p3, p4, p5, leNat_leBytes 4 r (by omega), leNat_leBytes 4 c (by omega)]
  rw [if_neg (by simp [Mtx.empty, hd]), if_neg (by omega)]
  simp only [Bool.false_eq_true, false_and, if_false]
  obtain ⟨m1, hm1⟩ := resizeI_total (T := T) (m := applyId none dest) (r := r) (c := c) (e := e) hx hzr hb hr hc
  rw [he] at hm1
  rw [hm1]
  have : ETy.ofCode t = none := by simp [ETy.ofCode, ht]
  dsimp only
  rw [this]
  exact ⟨_, rfl⟩

/-! ### C21 -/

/-- **C21.** Whatever the file contains: if the result is not success, the destination is what it was. -/
theorem failed_read_leaves_data (cv : Conv) (env : Nat → FEnv T) (dest d : Four T) (bs rest : List UInt8) (err : Err)
    (h : readTrainData cv env dest bs = some (err, d, rest)) (he : err ≠ .success) : d = dest := by
  unfold readTrainData readFile at h
  split at h
  · cases h; rfl
  · split at h
    · cases h; rfl
    · split at h
      · cases h; rfl
      · unfold readTD at h
        split at h
        · cases h; rfl
        · split at h
          · cases h; rfl
          · split at h
            · contradiction
            · unfold absorb at h
              split at h <;> (rename_i hh; split at hh <;> simp_all)
            · cases h; rfl

theorem resizeI_ne_none {m : Mtx (Elem T)} {r c : Nat} {e : FEnv T} (hx : m.ext = false) : resizeI m r c e ≠ none := by
  unfold resizeI Mtx.resize Mtx.implResize
  intro h
  split at h
  · split at h
    · cases h
    · split at h
      · rename_i hh
        split at hh
        · cases hh
        · split at hh
          · cases hh
          · rw [hx] at hh; simp at hh
      · cases h
  · cases h

/-- The reader never aborts: for every file it returns a result. -/
theorem read_train_data_total (cv : Conv) (env : Nat → FEnv T) (dest : Four T) (bs : List UInt8) :
    ∃ r, readTrainData cv env dest bs = some r := by
  have hfield : ∀ e : FEnv T, ∀ bs, ∃ r, readFieldEntry cv e (Mtx.default e.junk) true bs = some r ∧ (r.err = .success → r.id ≠ none) := by
    intro e bs
    unfold readFieldEntry
    rw [if_neg (by simp [Mtx.empty, Mtx.default])]
    split
    · exact ⟨_, rfl, by simp⟩
    · dsimp only
      split
      · exact ⟨_, rfl, by simp⟩
      · simp only [if_true, true_and]
        split
        · exact ⟨_, rfl, by simp⟩
        · rename_i hid
          split
          · rename_i hn
            exact absurd hn (resizeI_ne_none rfl)
          · exact ⟨_, rfl, by simp⟩
          · split
            · exact ⟨_, rfl, by simp⟩
            · split
              · exact ⟨_, rfl, by simp⟩
              · split
                · exact ⟨_, rfl, by simp⟩
                · exact ⟨_, rfl, fun _ => hid⟩
  have hloop : ∀ k i (acc : Four T) bs, ∃ r, readLoop cv env k i acc bs = some r := by
    intro k
    induction k with
    | zero => intro i acc bs; exact ⟨_, rfl⟩
    | succ k ih =>
      intro i acc bs
      obtain ⟨r, h1, h2⟩ := hfield (env i) bs
      unfold readLoop
      rw [h1]
      dsimp only
      by_cases hs : r.err = .success
      · rw [if_neg (by simp [hs])]
        cases hid : r.id with
        | none => exact absurd hid (h2 hs)
        | some id =>
          dsimp only
          split
          · exact ⟨_, rfl⟩
          · exact ih _ _ _
      · rw [if_pos hs]; exact ⟨_, rfl⟩
  unfold readTrainData readFile
  split
  · exact ⟨_, rfl⟩
  · split
    · exact ⟨_, rfl⟩
    · split
      · exact ⟨_, rfl⟩
      · unfold readTD
        split
        · exact ⟨_, rfl⟩
        · split
          · exact ⟨_, rfl⟩
          · obtain ⟨r, hr⟩ := hloop 4 0 (fun _ => Mtx.default (env 0).junk) (by assumption)
            rw [hr]
            obtain ⟨err, g, rest⟩ := r
            cases err <;> first | exact ⟨_, rfl⟩ | (unfold absorb; dsimp only; split <;> exact ⟨_, rfl⟩)

/-! ### The hypotheses can be met -/

/-- Two samples of three features and one label, stored as `float`s and `double`s. -/
def demoFile : FieldId → FileMtx
  | .trainX => ⟨.flt, 2, 3, fun r c => ⟨List.replicate 4 (UInt8.ofNat (r + 2 * c))⟩⟩
  | .trainY => ⟨.dbl, 2, 1, fun r _ => ⟨List.replicate 8 (UInt8.ofNat r)⟩⟩
  | .testX => ⟨.dbl, 1, 3, fun _ c => ⟨List.replicate 8 (UInt8.ofNat c)⟩⟩
  | .testY => ⟨.flt, 1, 1, fun _ _ => ⟨[1, 2, 3, 4]⟩⟩

theorem demoFile_ok : TDOk demoFile := by
  refine ⟨?_, rfl, rfl, rfl, rfl⟩
  intro i
  cases i <;> exact ⟨by decide, by decide, fun _ _ _ _ => rfl⟩

def demoEnv : Nat → FEnv .flt := fun _ => ⟨true, true, fun _ => ⟨[9, 9, 9, 9]⟩⟩
example : EnvOk demoEnv := fun _ => ⟨rfl, rfl⟩
example : AllFields [.testY, .trainX, .testX, .trainY] := by unfold AllFields; decide
example (cv : Conv) (dest : Four .flt) : ∃ d, readTrainData cv demoEnv dest (encTDFile [.testY, .trainX, .testX, .trainY] demoFile) =
    some (.success, d, []) ∧ (d .trainX).get 1 2 = some ⟨[5, 5, 5, 5]⟩ ∧ (d .trainX).get 1 3 = some 1 ∧
    (d .trainY).get 1 0 = some (cv .dbl .flt ⟨[1, 1, 1, 1, 1, 1, 1, 1]⟩) := by
  obtain ⟨d, h1, h2⟩ := train_data_round_trip cv demoEnv (fun _ => ⟨rfl, rfl⟩) dest [.testY, .trainX, .testX, .trainY]
    (by unfold AllFields; decide) demoFile demoFile_ok
  refine ⟨d, h1, ?_, ?_, ?_⟩
  · exact (h2 .trainX).get 1 2 (by decide) (by decide)
  · have hr := (h2 .trainX).rows
    have hc := (h2 .trainX).cols
    rw [Mtx.rowsNoBias, (h2 .trainX).emul, (h2 .trainX).layout] at hr
    rw [Mtx.colsNoBias, (h2 .trainX).emul, (h2 .trainX).layout] at hc
    simp [FieldId.isX, demoFile] at hr hc
    refine (h2 .trainX).ones (h2 .trainX).nonempty 1 3 (by omega) (by omega) ⟨(h2 .trainX).emul, ?_⟩
    simp [(h2 .trainX).layout]
    omega
  · exact (h2 .trainY).get 1 0 (by decide) (by decide)

/-- The bias elements of the theorems above are the number one: sign 0, biased exponent 1023 (127 for `float`), mantissa 0, least significant byte first. -/
theorem bias_is_one : (1 : Elem .dbl).bytes.length = 8 ∧ (1 : Elem .dbl).bytes.foldr (fun b n => b.toNat + 256 * n) 0 = 1023 * 2 ^ 52 ∧
    (1 : Elem .flt).bytes.length = 4 ∧ (1 : Elem .flt).bytes.foldr (fun b n => b.toNat + 256 * n) 0 = 127 * 2 ^ 23 := by
  decide

end Nntl.BinFile
