import Verif.BinFile.Spec
/-! Helper lemmas for the binary file reader. -/
namespace Nntl.BinFile
open Nntl.Matrix
set_option linter.unusedSimpArgs false

theorem leBytes_length (len n : Nat) : (leBytes len n).length = len := by
  induction len generalizing n with
  | zero => rfl
  | succ len ih => simp [leBytes, ih]

theorem leNat_leBytes (len n : Nat) (h : n < 256 ^ len) : leNat (leBytes len n) = n := by
  induction len generalizing n with
  | zero => simp [leBytes, leNat] at *; omega
  | succ len ih =>
    have hq : n / 256 < 256 ^ len := by
      rw [Nat.pow_succ] at h
      exact Nat.div_lt_of_lt_mul (by rw [Nat.mul_comm]; exact h)
    simp only [leBytes, leNat, ih _ hq]
    have : (UInt8.ofNat (n % 256)).toNat = n % 256 := by
      simp
    rw [this]; omega

theorem fread_some {n : Nat} {bs a b : List UInt8} (h : fread n bs = some (a, b)) : bs = a ++ b ∧ a.length = n := by
  unfold fread at h
  split at h
  · cases h; exact ⟨(List.take_append_drop _ _).symm, by simp; omega⟩
  · contradiction

theorem fread_eq {n : Nat} {a b : List UInt8} (h : a.length = n) : fread n (a ++ b) = some (a, b) := by
  unfold fread
  rw [if_pos (by simp; omega), List.take_left' h, List.drop_left' h]

theorem fread_append {n : Nat} {bs a b : List UInt8} (x : List UInt8) (h : fread n bs = some (a, b)) :
    fread n (bs ++ x) = some (a, b ++ x) := by
  obtain ⟨rfl, hl⟩ := fread_some h
  rw [List.append_assoc]; exact fread_eq hl

theorem fread_none {n : Nat} {bs : List UInt8} : fread n bs = none ↔ bs.length < n := by
  unfold fread
  split <;> simp <;> omega

/-- Uniform blocks. -/
theorem flatMap_length_uniform {γ : Type} (l : List γ) (f : γ → List UInt8) (L : Nat) (h : ∀ x ∈ l, (f x).length = L) :
    (l.flatMap f).length = L * l.length := by
  induction l with
  | nil => simp
  | cons a l ih =>
    rw [List.flatMap_cons, List.length_append, ih (fun x hx => h x (List.mem_cons_of_mem _ hx)), h a List.mem_cons_self,
      List.length_cons, Nat.mul_add]
    omega

theorem flatMap_block (n : Nat) (f : Nat → List UInt8) (L i : Nat) (h : ∀ x, x < n → (f x).length = L) (hi : i < n) :
    (((List.range n).flatMap f).drop (L * i)).take L = f i := by
  have hsplit : List.range n = List.range i ++ i :: (List.range (n - i - 1)).map (i + 1 + ·) := by
    have h1 : List.range n = List.range i ++ (List.range (n - i)).map (i + ·) := by
      rw [← List.range_add]; congr 1; omega
    have h2 : n - i = 1 + (n - i - 1) := by omega
    rw [h1, h2, List.range_add]
    simp [Nat.add_assoc]
  rw [hsplit, List.flatMap_append, List.flatMap_cons]
  have hl : ((List.range i).flatMap f).length = L * i := by
    rw [flatMap_length_uniform _ _ L (fun x hx => h x (by simp at hx; omega)), List.length_range]
  rw [List.drop_left' hl, List.take_left' (h i hi)]

theorem matrix_bytes_length (sz R C : Nat) (v : Nat → Nat → List UInt8) (h : ∀ r c, r < R → c < C → (v r c).length = sz) :
    ((List.range C).flatMap fun c => (List.range R).flatMap fun r => v r c).length = sz * (R * C) := by
  rw [flatMap_length_uniform _ _ (sz * R)]
  · rw [List.length_range, Nat.mul_assoc]
  · intro c hc
    rw [flatMap_length_uniform _ _ sz]
    · rw [List.length_range]
    · intro r hr; exact h r c (by simpa using hr) (by simpa using hc)

theorem matrix_bytes_chunk (sz R C : Nat) (v : Nat → Nat → List UInt8) (h : ∀ r c, r < R → c < C → (v r c).length = sz) (r c : Nat)
    (hr : r < R) (hc : c < C) :
    chunk sz ((List.range C).flatMap fun c => (List.range R).flatMap fun r => v r c) (r + R * c) = v r c := by
  have hb : ∀ c, c < C → ((List.range R).flatMap fun r => v r c).length = sz * R := by
    intro c hc
    rw [flatMap_length_uniform _ _ sz]
    · rw [List.length_range]
    · intro r hr; exact h r c (by simpa using hr) hc
  have houter := flatMap_block C (fun c => (List.range R).flatMap fun r => v r c) (sz * R) c hb hc
  have hinner := flatMap_block R (fun r => v r c) sz r (fun r hr => h r c hr hc) hr
  unfold chunk
  rw [Nat.mul_add, ← Nat.mul_assoc, Nat.add_comm, ← List.drop_drop]
  generalize ((List.range C).flatMap fun c => (List.range R).flatMap fun r => v r c).drop (sz * R * c) = l at *
  rw [← hinner]
  rw [← houter, List.drop_take, List.take_take]
  congr 1
  have : sz * (r + 1) ≤ sz * R := Nat.mul_le_mul_left _ hr
  rw [Nat.mul_add] at this
  omega

/-- The 24 bytes of a field header. -/
theorem field_header {A B N : List UInt8} {t : UInt8} (hA : A.length = 4) (hB : B.length = 4) (hN : N.length = 15) :
    (A ++ B ++ N ++ [t]).length = 24 ∧ (A ++ B ++ N ++ [t]).take 4 = A ∧ ((A ++ B ++ N ++ [t]).drop 4).take 4 = B ∧
    ((A ++ B ++ N ++ [t]).drop 8).take 15 = N ∧ ((A ++ B ++ N ++ [t]).drop 23).headD 0 = t := by
  refine ⟨by simp; omega, ?_, ?_, ?_, ?_⟩
  · rw [List.append_assoc, List.append_assoc, List.take_left' hA]
  · rw [List.append_assoc, List.append_assoc, List.drop_left' hA, List.take_left' hB]
  · rw [List.append_assoc, List.drop_left' (by simp; omega), List.take_left' hN]
  · rw [List.drop_left' (by simp; omega)]; rfl

theorem name2id_str (i : FieldId) : name2id (i.str ++ List.replicate (15 - i.str.length) 0) = some i := by
  cases i <;> decide

theorem str_length (i : FieldId) : (i.str ++ List.replicate (15 - i.str.length) 0).length = 15 := by cases i <;> decide

theorem ofCode_code (S : ETy) : ETy.ofCode S.code = some S := by cases S <;> decide

/-- The header part of `encField`. -/
def fieldHdr (name : List UInt8) (f : FileMtx) : List UInt8 :=
  leBytes 4 f.rows ++ leBytes 4 f.cols ++ (name ++ List.replicate (15 - name.length) 0) ++ [f.ty.code]
def fieldBody (f : FileMtx) : List UInt8 :=
  (List.range f.cols).flatMap fun c => (List.range f.rows).flatMap fun r => (f.v r c).bytes

theorem encField_append (name : List UInt8) (f : FileMtx) (rest : List UInt8) :
    encField name f ++ rest = fieldHdr name f ++ (fieldBody f ++ rest) := by
  simp [encField, fieldHdr, fieldBody, List.append_assoc]

theorem body_length {f : FileMtx} (hf : f.Ok) : (fieldBody f).length = f.ty.size * (f.rows * f.cols) :=
  matrix_bytes_length _ _ _ (fun r c => (f.v r c).bytes) hf.size

theorem hdr_parse {name : List UInt8} {f : FileMtx} (hn : (name ++ List.replicate (15 - name.length) 0).length = 15) (hf : f.Ok) :
    (fieldHdr name f).length = 24 ∧ leNat ((fieldHdr name f).take 4) = f.rows ∧ leNat (((fieldHdr name f).drop 4).take 4) = f.cols ∧
    ((fieldHdr name f).drop 8).take 15 = name ++ List.replicate (15 - name.length) 0 ∧ ((fieldHdr name f).drop 23).headD 0 = f.ty.code := by
  obtain ⟨h1, h2, h3, h4, h5⟩ := field_header (t := f.ty.code) (leBytes_length 4 f.rows) (leBytes_length 4 f.cols) hn
  have p1 := hf.rows
  have p2 := hf.cols
  refine ⟨h1, ?_, ?_, h4, h5⟩
  · unfold fieldHdr; rw [h2]; exact leNat_leBytes _ _ (by omega)
  · unfold fieldHdr; rw [h3]; exact leNat_leBytes _ _ (by omega)

/-- The id a field gets. -/
def idOf (wantId : Bool) (name : List UInt8) : Option FieldId :=
  if wantId then name2id (name ++ List.replicate (15 - name.length) 0) else none
def biasOf {T : ETy} (id : Option FieldId) (m : Mtx (Elem T)) : Bool :=
  match id with
  | some i => i.isX
  | none => m.emul

theorem withBias {T : ETy} (id : Option FieldId) (m : Mtx (Elem T)) : applyId id m = { m with emul := biasOf id m } := by
  cases id <;> rfl

theorem resizeI_true {T : ETy} {m m' : Mtx (Elem T)} {r c : Nat} {e : FEnv T} (hm : m.cap = 0) (hz : m.rows = 0) (hb : m.bir = false)
    (h : resizeI m r c e = some (m', true)) : m'.rowsNoBias = r ∧ m'.colsNoBias = c ∧ m'.emul = m.emul ∧ m'.bir = false ∧ m'.ext = m.ext ∧
      BiasesAreOnes m' ∧ m'.cap = m'.rows * m'.cols ∧ m'.rows = r ∧ m'.cols = c + m.emul.toNat ∧ 0 < r ∧ 0 < c := by
  unfold resizeI at h
  split at h
  · obtain ⟨h1, h2, h3, h4, h5, h6, h7⟩ := resize_true_size _ _ _ _ _ _ h
    rw [hb] at h1 h2 h6
    refine ⟨?_, ?_, h5, h6, h7, resize_ok _ _ _ _ _ _ _ (cap0_ok m hm) h, ?_, by simpa using h1, by simpa using h2, h3, h4⟩
    · unfold Mtx.rowsNoBias; rw [h1, h5, h6]; simp
    · unfold Mtx.colsNoBias; rw [h2, h5, h6]; simp
    · unfold Mtx.resize at h
      rw [if_neg (by omega)] at h
      unfold Mtx.implResize at h
      rw [if_neg (by omega), if_neg (by omega)] at h
      split at h
      · contradiction
      · rename_i hh
        split at hh
        · contradiction
        · generalize e.ok = ok at hh
          cases ok
          · cases hh; cases h
          · cases hh
            simp only [Bool.true_and] at h
            cases h
            split <;> simp
  · cases h

theorem resizeI_total {T : ETy} {m : Mtx (Elem T)} {r c : Nat} {e : FEnv T} (hx : m.ext = false) (hz : m.rows = 0) (hb : m.bir = false)
    (hr : 0 < r ∧ r < 2 ^ 31 - 1) (hc : 0 < c ∧ c < 2 ^ 31 - 1) : ∃ m', resizeI m r c e = some (m', e.ok) := by
  unfold resizeI
  have : (m.emul && !m.bir).toNat ≤ 1 := by cases (m.emul && !m.bir) <;> simp
  rw [if_pos (by rw [hb]; simp; rw [hb] at this; simp at this; omega)]
  unfold Mtx.resize
  rw [if_neg (by omega)]
  unfold Mtx.implResize
  rw [if_neg (by omega), if_neg (by rw [hz]; omega), hx]
  simp

/-- The layout of a data set: no bias row. -/
theorem bias_cell_ge {α : Type} [OfNat α 1] {m : Mtx α} (hb : m.bir = false) {r c : Nat} (hi : IsBias m r c) :
    m.numelNoBias ≤ m.cell r c := by
  obtain ⟨h1, h2⟩ := hi
  rw [hb] at h2
  simp at h2
  unfold Mtx.numelNoBias Mtx.rowsNoBias Mtx.colsNoBias Mtx.cell
  rw [h1, hb]
  simp
  have : m.cols - 1 = c := by omega
  rw [this]; omega

/-- A field reads back. -/
theorem readField_ok {T : ETy} (cv : Conv) (e : FEnv T) (he1 : e.ok = true) (he2 : e.okConv = true) (m : Mtx (Elem T)) (hm : m.cap = 0)
    (hz : m.rows = 0) (hx : m.ext = false) (hb : m.bir = false) (w : Bool) (name : List UInt8)
    (hn : (name ++ List.replicate (15 - name.length) 0).length = 15) (hid : w = true → idOf w name ≠ none) (f : FileMtx) (hf : f.Ok)
    (rest : List UInt8) :
    ∃ m', readFieldEntry cv e m w (encField name f ++ rest) = some ⟨.success, m', idOf w name, rest⟩ ∧
      Decoded cv f (biasOf (idOf w name) m) m' := by
  obtain ⟨p1, p2, p3, p4, p5⟩ := hdr_parse hn hf
  have hemp : m.empty = true := by simp [Mtx.empty, hm]
  have hfr := hf.rows
  have hfc := hf.cols
  obtain ⟨m1, hm1⟩ := resizeI_total (T := T) (m := { m with emul := biasOf (idOf w name) m }) (r := f.rows) (c := f.cols) (e := e) hx hz hb hfr hfc
  rw [he1] at hm1
  obtain ⟨q1, q2, q3, q4, q5, q6, q7, q8, q9, q10, q11⟩ := resizeI_true (m := { m with emul := biasOf (idOf w name) m }) hm hz hb hm1
  have hne : ∀ k, Mtx.numelNoBias { m1 with maxSize := k } = f.rows * f.cols := by
    intro k
    show m1.rowsNoBias * m1.colsNoBias = _
    rw [q1, q2]
  have hbl : (fieldBody f).length = f.ty.size * (f.rows * f.cols) := body_length hf
  unfold readFieldEntry
  rw [hemp, encField_append, fread_eq p1]
  simp only [Bool.not_true, Bool.false_eq_true, if_false, p2, p3, p4, p5]
  rw [if_neg (by omega)]
  have hid' : (if w = true then name2id (name ++ List.replicate (15 - name.length) 0) else none) = idOf w name := rfl
  rw [hid']
  rw [if_neg (by rintro ⟨h1, h2⟩; exact hid h1 h2)]
  rw [withBias, hm1]
  simp only [ofCode_code, hne, he2]
  rw [if_neg (by simp), fread_eq hbl]
  refine ⟨_, rfl, ?_⟩
  refine ⟨q1, q2, q3, ?_, ?_, ?_, q5.trans hx, q4⟩
  · intro r c hr hc
    unfold Mtx.get Mtx.cell
    dsimp only
    rw [if_pos ⟨by omega, by omega⟩, q8, if_pos (cell_lt hr hc)]
    congr 1
    unfold convElem asType
    have := matrix_bytes_chunk f.ty.size f.rows f.cols (fun r c => (f.v r c).bytes) hf.size r c hr hc
    unfold fieldBody
    rw [this]
  · intro hcap r c hr hc hbias
    have hge : m1.numelNoBias ≤ m1.cell r c := bias_cell_ge (m := m1) q4 hbias
    have h1 := q6 hcap r c hr hc hbias
    unfold Mtx.get at h1 ⊢
    dsimp only
    rw [if_pos ⟨hr, hc⟩] at h1 ⊢
    have h2 : ¬ (m1.cell r c < f.rows * f.cols) := by
      have : m1.numelNoBias = f.rows * f.cols := hne m1.maxSize
      omega
    rw [← h1]
    congr 1
    show (if m1.cell r c < _ then _ else _) = _
    rw [if_neg h2]
    rfl
  · show m1.cap ≠ 0
    rw [q7, q8, q9]
    exact Nat.ne_of_gt (Nat.mul_pos (by omega) (by omega))

/-- Whatever the environment does, a successful read of a field consumes exactly the field. -/
theorem readField_consumes {T : ETy} (cv : Conv) (e : FEnv T) (m : Mtx (Elem T)) (hz : m.rows = 0) (hb : m.bir = false) (w : Bool)
    (name : List UInt8) (hn : (name ++ List.replicate (15 - name.length) 0).length = 15) (f : FileMtx) (hf : f.Ok)
    (rest : List UInt8) {r : FRes T} (h : readFieldEntry cv e m w (encField name f ++ rest) = some r) (hs : r.err = .success) :
    r.rest = rest ∧ r.id = idOf w name := by
  obtain ⟨p1, p2, p3, p4, p5⟩ := hdr_parse hn hf
  unfold readFieldEntry at h
  split at h
  · cases h; cases hs
  · rename_i hemp
    have hcap : m.cap = 0 := by simpa [Mtx.empty] using hemp
    rw [encField_append, fread_eq p1] at h
    simp only [p2, p3, p4, p5] at h
    split at h
    · cases h; cases hs
    · have hid' : (if w = true then name2id (name ++ List.replicate (15 - name.length) 0) else none) = idOf w name := rfl
      rw [hid'] at h
      split at h
      · cases h; cases hs
      · rw [withBias] at h
        split at h
        · contradiction
        · cases h; cases hs
        · rename_i m1 hm1
          obtain ⟨q1, q2, -⟩ := resizeI_true (m := { m with emul := biasOf (idOf w name) m }) hcap hz hb hm1
          have hne : ∀ k, Mtx.numelNoBias { m1 with maxSize := k } = f.rows * f.cols := by
            intro k
            show m1.rowsNoBias * m1.colsNoBias = _
            rw [q1, q2]
          simp only [ofCode_code, hne] at h
          split at h
          · cases h; cases hs
          · rw [fread_eq (body_length hf)] at h
            cases h
            exact ⟨rfl, rfl⟩

/-- A successful read is not affected by additional bytes at the end. -/
theorem readField_mono {T : ETy} (cv : Conv) (e : FEnv T) (m : Mtx (Elem T)) (w : Bool) (bs x : List UInt8) {r : FRes T}
    (h : readFieldEntry cv e m w bs = some r) (hs : r.err = .success) :
    readFieldEntry cv e m w (bs ++ x) = some { r with rest := r.rest ++ x } := by
  unfold readFieldEntry at h ⊢
  split at h
  · cases h; cases hs
  · rename_i hemp
    rw [if_neg hemp]
    cases h1 : fread 24 bs with
    | none => rw [h1] at h; cases h; cases hs
    | some p =>
      obtain ⟨hd, b1⟩ := p
      rw [h1] at h
      rw [fread_append x h1]
      dsimp only at h ⊢
      split at h
      · cases h; cases hs
      · rename_i c1
        rw [if_neg c1]
        generalize (if w = true then name2id _ else none) = id at h ⊢
        split at h
        · cases h; cases hs
        · rename_i c2
          rw [if_neg c2]
          split at h
          · contradiction
          · cases h; cases hs
          · rename_i m1 hm1
            try rw [hm1]
            try dsimp only at h ⊢
            split at h
            · cases h; cases hs
            · rename_i S hS
              try rw [hS]
              try dsimp only at h ⊢
              split at h
              · cases h; cases hs
              · rename_i c3
                try rw [if_neg c3]
                split at h
                · cases h; cases hs
                · rename_i raw b2 hraw
                  rw [fread_append x hraw]
                  cases h
                  rfl

end Nntl.BinFile
