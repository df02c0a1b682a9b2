import Verif.EW.Model
import Verif.EW.Spec
import Verif.Kernel.Elem
/-! C128–C130: element-wise operations. -/
namespace Nntl.EW
open Nntl.Kernel Nntl.Matrix
variable {α β : Type}

theorem sameShape (A : Mtx α) (d : Nat → α) : SameShape A { A with data := d } := ⟨rfl, rfl, rfl, rfl, rfl, rfl, rfl, rfl⟩

theorem get_with (A : Mtx α) (d : Nat → α) (r c : Nat) (h1 : r < A.rows) (h2 : c < A.cols) :
    Mtx.get { A with data := d } r c = some (d (r + A.rows * c)) := if_pos ⟨h1, h2⟩

theorem get_out (A : Mtx α) (d : Nat → α) (r c : Nat) (h : ¬ (r < A.rows ∧ c < A.cols)) : Mtx.get { A with data := d } r c = A.get r c := by
  have e1 : Mtx.get { A with data := d } r c = none := if_neg h
  have e2 : A.get r c = none := if_neg h
  rw [e1, e2]

theorem get_in (A : Mtx α) (r c : Nat) (h1 : r < A.rows) (h2 : c < A.cols) : A.get r c = some (A.data (r + A.rows * c)) := if_pos ⟨h1, h2⟩

theorem cell_lt {A : Mtx α} {r c n : Nat} (h1 : r < A.rows) (h2 : c < n) : r + A.rows * c < A.rows * n := by
  have : A.rows * (c + 1) ≤ A.rows * n := Nat.mul_le_mul_left _ h2
  rw [Nat.mul_succ] at this
  omega

theorem cell_ge {A : Mtx α} {r c n : Nat} (h2 : n ≤ c) : A.rows * n ≤ r + A.rows * c := by
  have : A.rows * n ≤ A.rows * c := Nat.mul_le_mul_left _ h2
  omega

theorem cell_div {A : Mtx α} {r : Nat} (h1 : r < A.rows) (c : Nat) : (r + A.rows * c) / A.rows = c := by
  rw [Nat.add_mul_div_left _ _ (by omega), Nat.div_eq_of_lt h1, Nat.zero_add]

theorem cell_mod {A : Mtx α} {r : Nat} (h1 : r < A.rows) (c : Nat) : (r + A.rows * c) % A.rows = r := by
  rw [Nat.add_mul_mod_self_left, Nat.mod_eq_of_lt h1]

theorem usable_pos {A : Mtx α} (h : Usable A) : 0 < A.rows ∧ 0 < A.cols := by
  obtain ⟨r, c, h1, h2, _⟩ := h.some
  exact ⟨by omega, by omega⟩

theorem usable_cap {A : Mtx α} (h : Usable A) : A.empty = false := by
  have h1 := usable_pos h
  have h2 := h.mem
  have : 0 < A.rows * A.cols := Nat.mul_pos h1.1 h1.2
  have h3 : A.cap ≠ 0 := by omega
  unfold Mtx.empty
  simpa using h3

/-- From the effect on the memory of a prefix of whole columns to that on elements, samples in rows. -/
theorem data_of_prefix {A : Mtx α} (hA : Usable A) (hl : A.emul = false ∨ A.bir = false) (g : Nat → α → α) {d : Nat → α} {cnt : Nat}
    (hcnt : cnt = A.rows * (A.cols - A.emul.toNat)) (hd : ∀ k, d k = if k < cnt then g k (A.data k) else A.data k) :
    DataBecomes (fun r c => g (r + A.rows * c)) A { A with data := d } := by
  have hp := usable_pos hA
  have hdata : ∀ r c, r < A.rows → c < A.cols → ¬ IsBias A r c → c < A.cols - A.emul.toNat := by
    intro r c h1 h2 hb
    cases he : A.emul with
    | false => simpa using h2
    | true =>
      have hbir : A.bir = false := by rcases hl with h | h; · rw [he] at h; cases h
                                      · exact h
      have : ¬ (c + 1 = A.cols) := fun h => hb ⟨he, by rw [if_neg (by rw [hbir]; decide)]; exact h⟩
      simp only [Bool.toNat_true]; omega
  refine ⟨sameShape A d, ?_, ?_, ?_⟩
  · rintro r c ⟨h1, h2, hb⟩
    rw [get_with A d r c h1 h2, get_in A r c h1 h2, hd, hcnt, if_pos (cell_lt h1 (hdata r c h1 h2 hb))]
    rfl
  · rintro r c ⟨he, hb⟩
    have hbir : A.bir = false := by rcases hl with h | h; · rw [he] at h; cases h
                                    · exact h
    rw [if_neg (by rw [hbir]; decide)] at hb
    by_cases hin : r < A.rows ∧ c < A.cols
    · rw [get_with A d r c hin.1 hin.2, get_in A r c hin.1 hin.2, hd, hcnt, if_neg]
      have := cell_ge (A := A) (r := r) (c := c) (n := A.cols - A.emul.toNat) (by rw [he]; simp only [Bool.toNat_true]; omega)
      omega
    · exact get_out A d r c hin
  · intro k hk
    show d k = A.data k
    rw [hd, if_neg]
    have : A.rows * (A.cols - A.emul.toNat) ≤ A.rows * A.cols := Nat.mul_le_mul_left _ (Nat.sub_le _ _)
    omega

theorem colLoop_eq (f : α → α) (rows : Nat) (hr : 0 < rows) : ∀ n b, colLoop f (rows - 1) (rows * b) (rows * (b + n)) =
    elemCw (fun _ _ => f) rows b (b + n) 0 (rows - 1) := by
  intro n
  induction n with
  | zero =>
    intro b
    unfold colLoop elemCw
    rw [Nat.add_zero, if_neg (Nat.lt_irrefl _), Nat.sub_self]; rfl
  | succ n ih =>
    intro b
    have e1 : rows * b + (rows - 1) + 1 = rows * (b + 1) := by rw [Nat.mul_succ]; omega
    have e2 : rows * (b + (n + 1)) = rows * (b + 1 + n) := by congr 1; omega
    have hlt : rows * b < rows * (b + (n + 1)) := Nat.mul_lt_mul_of_pos_left (by omega) hr
    rw [colLoop, if_pos hlt, e1, e2, ih (b + 1)]
    unfold elemCw vecSteps eachSteps
    rw [show b + (n + 1) - b = (b + 1 + n - (b + 1)) + 1 by omega, List.range'_succ, List.flatMap_cons]
    congr 1
    rw [show rows * b + (rows - 1) - rows * b = rows - 1 by omega, Nat.sub_zero]
    have : ∀ m s, (List.range' (rows * b + s) m).map (fun i => ((i, f) : Step α)) = (List.range' s m).map fun r => ((rows * b + r, f) : Step α) := by
      intro m
      induction m with
      | zero => intro s; rfl
      | succ m ihm => intro s; rw [List.range'_succ, List.range'_succ, List.map_cons, List.map_cons, Nat.add_assoc, ihm]
    exact this (rows - 1) 0

/-- The operations with constants on any layout. -/
theorem constOp_result (ex : Exec) (hex : ex.Ok) (f : α → α) (A : Mtx α) (hA : Usable A) (ib : Bool) (hib : ib = true ∨ A.emul = false)
    {o : Option (Mtx α)} (h : constOp ex f A ib o) : ∃ A', o = some A' ∧ DataBecomes (fun _ _ v => f v) A A' := by
  have hp := usable_pos hA
  unfold constOp at h
  have hc0 : (A.empty || !(ib || !A.emul)) = false := by
    rw [usable_cap hA]
    rcases hib with rfl | h
    · rfl
    · rw [h]; cases ib <;> rfl
  rw [hc0, if_neg (by decide)] at h
  obtain ⟨d, hrun, rfl⟩ := h
  refine ⟨_, rfl, ?_⟩
  cases hb : ib && A.bir && A.emul with
  | false =>
    have hl : A.emul = false ∨ A.bir = false := by
      rcases hib with rfl | h
      · cases h1 : A.emul
        · exact Or.inl rfl
        · cases h2 : A.bir
          · exact Or.inr rfl
          · rw [h1, h2] at hb; cases hb
      · exact Or.inl h
    have hcnt : universalRange A ib = A.rows * (A.cols - A.emul.toNat) := by
      unfold universalRange
      rw [hb, if_neg (by decide)]
      cases he : A.emul with
      | false =>
        have e : A.numelNoBias = A.rows * A.cols := by
          unfold Mtx.numelNoBias Mtx.rowsNoBias Mtx.colsNoBias; rw [he]; rfl
        rw [e]
        cases A.bir <;> cases ib <;> rfl
      | true =>
        have hbir : A.bir = false := by rcases hl with h | h; · rw [he] at h; cases h
                                        · exact h
        have hibt : ib = true := by rcases hib with h | h; · exact h
                                    · rw [he] at h; cases h
        have e : A.numelNoBias = A.rows * (A.cols - 1) := by
          unfold Mtx.numelNoBias Mtx.rowsNoBias Mtx.colsNoBias; rw [he, hbir]; rfl
        rw [hbir, hibt, e]; rfl
    have hpos : 0 < universalRange A ib := by
      rw [hcnt]
      refine Nat.mul_pos hp.1 ?_
      cases he : A.emul with
      | false => simpa using hp.2
      | true =>
        have hbir : A.bir = false := by rcases hl with h | h; · rw [he] at h; cases h
                                        · exact h
        obtain ⟨r, c, h1, h2, h3⟩ := hA.some
        have : ¬ (c + 1 = A.cols) := fun h => h3 ⟨he, by rw [if_neg (by rw [hbir]; decide)]; exact h⟩
        simp only [Bool.toNat_true]; omega
    have hk : constSteps f A ib = eachSteps fun _ => f := by
      funext b e
      unfold constSteps vecSteps
      rw [hb, if_neg (by decide)]
    rw [hk] at hrun
    exact data_of_prefix hA hl (fun _ => f) hcnt (each_result ex hex _ hpos _ hrun)
  | true =>
    have ⟨⟨h1, hbir⟩, he⟩ : (ib = true ∧ A.bir = true) ∧ A.emul = true := by
      simpa [Bool.and_eq_true] using hb
    have hcnt : universalRange A ib = A.cols := by unfold universalRange; rw [hb, if_pos rfl]
    rw [hcnt] at hrun
    have hres := fun k => runs_result ex hex A.cols hp.2 _ (fun k => k / A.rows) (fun k => if k % A.rows < A.rows - 1 then [f] else [])
      (fun b e hbe hle k => by
        have e1 : constSteps f A ib b e = elemCw (fun _ _ => f) A.rows b e 0 (A.rows - 1) := by
          have := colLoop_eq f A.rows hp.1 (e - b) b
          rw [show b + (e - b) = e by omega] at this
          unfold constSteps
          rw [hb, if_pos rfl, this]
        rw [e1, filter_elemCw _ _ _ _ _ _ _ (by omega) (by omega)]
        by_cases h3 : b ≤ k / A.rows ∧ k / A.rows < e
        · rw [if_pos h3]
          by_cases h4 : k % A.rows < A.rows - 1
          · rw [if_pos h4, if_pos ⟨h3, Nat.zero_le _, h4⟩]
          · rw [if_neg h4, if_neg fun hh => h4 hh.2.2]
        · rw [if_neg h3, if_neg fun hh => h3 hh.1]) hrun k
    refine ⟨sameShape A d, ?_, ?_, ?_⟩
    · rintro r c ⟨h3, h4, h5⟩
      have h6 : r < A.rows - 1 := by
        have : ¬ (r + 1 = A.rows) := fun h => h5 ⟨he, by rw [if_pos hbir]; exact h⟩
        omega
      rw [get_with A d r c h3 h4, get_in A r c h3 h4, hres, cell_div h3, cell_mod h3, if_pos h4, if_pos h6]
      rfl
    · rintro r c ⟨_, h5⟩
      rw [if_pos hbir] at h5
      by_cases hin : r < A.rows ∧ c < A.cols
      · have h6 : ¬ r < A.rows - 1 := by omega
        rw [get_with A d r c hin.1 hin.2, get_in A r c hin.1 hin.2, hres, cell_div hin.1, cell_mod hin.1, if_pos hin.2, if_neg h6]
        rfl
      · exact get_out A d r c hin
    · intro k hk
      show d k = A.data k
      rw [hres, if_neg]
      rw [Nat.div_lt_iff_lt_mul hp.1, Nat.mul_comm]
      omega

/-- C128. `evMulCAddC_ip`: every element `v` becomes `sc*v + ofs`, in any layout and on any threads; biases are left alone. (The comment in the source says
`sc*A − ofs`.) -/
theorem scale_and_offset [Mul α] [Add α] [OfNat α 0] [DecidableEq α] (ex : Exec) (hex : ex.Ok) (A : Mtx α) (hA : Usable A) (sc ofs : α) (hsc : sc ≠ 0)
    (ib : Bool) (hib : ib = true ∨ A.emul = false) {o : Option (Mtx α)} (h : evMulCAddC_ip ex A sc ofs ib o) :
    ∃ A', o = some A' ∧ DataBecomes (fun _ _ v => sc * v + ofs) A A' := by
  unfold evMulCAddC_ip at h
  rw [if_neg hsc] at h
  exact constOp_result ex hex _ A hA ib hib h

/-- C128. `evMulCAddC_ip_nb`. -/
theorem scale_and_offset_nb [Mul α] [Add α] [OfNat α 0] [DecidableEq α] (ex : Exec) (hex : ex.Ok) (A : Mtx α) (hA : Usable A) (sc ofs : α) (hsc : sc ≠ 0)
    {o : Option (Mtx α)} (h : evMulCAddC_ip_nb ex A sc ofs o) : ∃ A', o = some A' ∧ DataBecomes (fun _ _ v => sc * v + ofs) A A' :=
  scale_and_offset ex hex A hA sc ofs hsc true (Or.inl rfl) h

/-- C128. `evMulC_ip`: every element is multiplied by the constant. -/
theorem scale [Mul α] [OfNat α 0] [DecidableEq α] (ex : Exec) (hex : ex.Ok) (A : Mtx α) (hA : Usable A) (c : α) (hc : c ≠ 0)
    (ib : Bool) (hib : ib = true ∨ A.emul = false) {o : Option (Mtx α)} (h : evMulC_ip ex A c ib o) :
    ∃ A', o = some A' ∧ DataBecomes (fun _ _ v => v * c) A A' := by
  unfold evMulC_ip at h
  rw [if_neg hc] at h
  exact constOp_result ex hex _ A hA ib hib h

/-- C128. `evMulC_ip_nb`. -/
theorem scale_nb [Mul α] [OfNat α 0] [DecidableEq α] (ex : Exec) (hex : ex.Ok) (A : Mtx α) (hA : Usable A) (c : α) (hc : c ≠ 0)
    {o : Option (Mtx α)} (h : evMulC_ip_nb ex A c o) : ∃ A', o = some A' ∧ DataBecomes (fun _ _ v => v * c) A A' :=
  scale ex hex A hA c hc true (Or.inl rfl) h

/-- C128. `evAddC_ip`: the constant is added to every element. -/
theorem offset [Add α] (ex : Exec) (hex : ex.Ok) (A : Mtx α) (hA : Usable A) (c : α)
    (ib : Bool) (hib : ib = true ∨ A.emul = false) {o : Option (Mtx α)} (h : evAddC_ip ex A c ib o) :
    ∃ A', o = some A' ∧ DataBecomes (fun _ _ v => v + c) A A' := constOp_result ex hex _ A hA ib hib h

/-- C128. `evAddC_ip_nb`. -/
theorem offset_nb [Add α] (ex : Exec) (hex : ex.Ok) (A : Mtx α) (hA : Usable A) (c : α)
    {o : Option (Mtx α)} (h : evAddC_ip_nb ex A c o) : ∃ A', o = some A' ∧ DataBecomes (fun _ _ v => v + c) A A' :=
  constOp_result ex hex _ A hA true (Or.inl rfl) h

/-! ### Other matrices -/

theorem all_of_each {A : Mtx α} (hr : 0 < A.rows) (hc : 0 < A.cols) (ex : Exec) (hex : ex.Ok) (g : Nat → α → α)
    {o : Option (Mtx α)} (h : onMtx ex A.numel (eachSteps g) A o) :
    ∃ A', o = some A' ∧ AllBecome (fun r c => g (r + A.rows * c)) A A' := by
  obtain ⟨d, hrun, rfl⟩ := h
  have hpos : 0 < A.numel := Nat.mul_pos hr hc
  have hd := each_result ex hex _ hpos _ hrun
  refine ⟨_, rfl, sameShape A d, ?_, ?_⟩
  · intro r c h1 h2
    have hlt : r + A.rows * c < A.numel := cell_lt h1 h2
    rw [get_with A d r c h1 h2, get_in A r c h1 h2, hd, if_pos hlt]; rfl
  · intro k hk
    show d k = A.data k
    have hge : ¬ k < A.numel := Nat.not_lt.2 hk
    rw [hd, if_neg hge]

theorem zipAll_result (ex : Exec) (hex : ex.Ok) (f : α → β → α) (A : Mtx α) (B : Mtx β) (hA : Usable A) (hB : B.cap ≠ 0) (h1 : A.rows = B.rows)
    (h2 : A.cols = B.cols) {o : Option (Mtx α)} (h : zipAll ex f A B o) :
    ∃ A', o = some A' ∧ AllBecome (fun r c v => f v (elem B r c)) A A' := by
  have hp := usable_pos hA
  unfold zipAll at h
  have hB' : B.empty = false := by unfold Mtx.empty; simpa using hB
  have : (A.empty || B.empty || !(A.rows == B.rows && A.cols == B.cols)) = false := by
    rw [usable_cap hA, hB', h1, h2]; simp
  rw [this, if_neg (by decide)] at h
  obtain ⟨A', ho, hr⟩ := all_of_each hp.1 hp.2 ex hex _ h
  refine ⟨A', ho, hr.shape, fun r c h3 h4 => ?_, hr.outside⟩
  rw [hr.data r c h3 h4, h1]; rfl

section Ops
variable (ex : Exec) (hex : ex.Ok) (A B : Mtx α) (hA : Usable A) (hB : B.cap ≠ 0) (h1 : A.rows = B.rows) (h2 : A.cols = B.cols) {o : Option (Mtx α)}
include hex hA hB h1 h2

/-- C129. `evMul_ip`: products of elements at equal places. -/
theorem mul_elements [Mul α] (h : evMul_ip ex A B o) : ∃ A', o = some A' ∧ AllBecome (fun r c v => v * elem B r c) A A' :=
  zipAll_result ex hex _ A B hA hB h1 h2 h

/-- C129. `evAdd_ip`. -/
theorem add_elements [Add α] (h : evAdd_ip ex A B o) : ∃ A', o = some A' ∧ AllBecome (fun r c v => v + elem B r c) A A' :=
  zipAll_result ex hex _ A B hA hB h1 h2 h

/-- C129. `evSub_ip`. -/
theorem sub_elements [Sub α] (h : evSub_ip ex A B o) : ∃ A', o = some A' ∧ AllBecome (fun r c v => v - elem B r c) A A' :=
  zipAll_result ex hex _ A B hA hB h1 h2 h

/-- C129. `evAddScaled_ip`. -/
theorem add_scaled [Add α] [Mul α] [OfNat α 0] [DecidableEq α] (k : α) (hk : k ≠ 0) (h : evAddScaled_ip ex A k B o) :
    ∃ A', o = some A' ∧ AllBecome (fun r c v => v + k * elem B r c) A A' := by
  unfold evAddScaled_ip at h; rw [if_neg hk] at h; exact zipAll_result ex hex _ A B hA hB h1 h2 h

/-- C129. `evNZAddScaled_ip`: zeros stay. -/
theorem add_scaled_nonzero [Add α] [Mul α] [OfNat α 0] [DecidableEq α] (k : α) (hk : k ≠ 0) (h : evNZAddScaled_ip ex A k B o) :
    ∃ A', o = some A' ∧ AllBecome (fun r c v => if v = 0 then 0 else v + k * elem B r c) A A' := by
  unfold evNZAddScaled_ip at h; rw [if_neg hk] at h; exact zipAll_result ex hex _ A B hA hB h1 h2 h

omit hex hA hB h1 h2 in
theorem sign_eq [LT α] [DecidableLT α] [OfNat α 0] (v : α) (h : ¬ (0 < v ∧ v < 0)) : sign v = signum v := by
  unfold sign signum
  by_cases h3 : 0 < v
  · have h4 : ¬ v < 0 := fun h4 => h ⟨h3, h4⟩
    rw [if_pos h3, if_neg h4, if_pos h3]; rfl
  · by_cases h4 : v < 0
    · rw [if_neg h3, if_pos h4, if_neg h3, if_pos h4]; rfl
    · rw [if_neg h3, if_neg h4, if_neg h3, if_neg h4]; rfl

/-- C129. `evAddScaledSign_ip`. -/
theorem add_scaled_sign [Add α] [Mul α] [LT α] [DecidableLT α] [IntCast α] [OfNat α 0] [DecidableEq α] (hlt : ∀ v : α, ¬ (0 < v ∧ v < 0)) (k : α) (hk : k ≠ 0)
    (h : evAddScaledSign_ip ex A k B o) : ∃ A', o = some A' ∧ AllBecome (fun r c v => v + k * ((signum (elem B r c) : Int) : α)) A A' := by
  unfold evAddScaledSign_ip at h; rw [if_neg hk] at h
  simp only [sign_eq _ (hlt _)] at h
  exact zipAll_result ex hex _ A B hA hB h1 h2 h

/-- C129. `evNZAddScaledSign_ip`: zeros stay. -/
theorem add_scaled_sign_nonzero [Add α] [Mul α] [LT α] [DecidableLT α] [IntCast α] [OfNat α 0] [DecidableEq α] (hlt : ∀ v : α, ¬ (0 < v ∧ v < 0)) (k : α)
    (hk : k ≠ 0) (h : evNZAddScaledSign_ip ex A k B o) :
    ∃ A', o = some A' ∧ AllBecome (fun r c v => if v = 0 then 0 else v + k * ((signum (elem B r c) : Int) : α)) A A' := by
  unfold evNZAddScaledSign_ip at h; rw [if_neg hk] at h
  simp only [sign_eq _ (hlt _)] at h
  exact zipAll_result ex hex _ A B hA hB h1 h2 h

/-- C129. `evSign`. -/
theorem sign_elements [LT α] [DecidableLT α] [IntCast α] [OfNat α 0] (hlt : ∀ v : α, ¬ (0 < v ∧ v < 0)) (h : evSign ex A B o) :
    ∃ A', o = some A' ∧ AllBecome (fun r c _ => ((signum (elem B r c) : Int) : α)) A A' := by
  unfold evSign at h
  simp only [sign_eq _ (hlt _)] at h
  exact zipAll_result ex hex _ A B hA hB h1 h2 h

/-- C129. `evSquare`. -/
theorem square_elements [Mul α] (h : evSquare ex A B o) : ∃ A', o = some A' ∧ AllBecome (fun r c _ => elem B r c * elem B r c) A A' :=
  zipAll_result ex hex _ A B hA hB h1 h2 h

/-- C129. `evAbs`. -/
theorem abs_elements (abs : α → α) (h : evAbs abs ex A B o) : ∃ A', o = some A' ∧ AllBecome (fun r c _ => abs (elem B r c)) A A' :=
  zipAll_result ex hex _ A B hA hB h1 h2 h

end Ops

/-- C129. `evSub`: the third matrix becomes the difference of the others. -/
theorem sub_into [Sub α] (ex : Exec) (hex : ex.Ok) (A B C : Mtx α) (hC : Usable C) (h1 : A.rows = B.rows ∧ A.cols = B.cols)
    (h2 : A.rows = C.rows ∧ A.cols = C.cols) {o : Option (Mtx α)} (h : evSub ex A B C o) :
    ∃ C', o = some C' ∧ AllBecome (fun r c _ => elem A r c - elem B r c) C C' := by
  have hp := usable_pos hC
  unfold evSub at h
  rw [if_neg (by rw [← h1.1, ← h1.2, ← h2.1, ← h2.2]; simp)] at h
  have hn : A.numel = C.numel := by unfold Mtx.numel; rw [h2.1, h2.2]
  rw [hn] at h
  obtain ⟨C', ho, hr⟩ := all_of_each hp.1 hp.2 ex hex _ h
  refine ⟨C', ho, hr.shape, fun r c h3 h4 => ?_, hr.outside⟩
  rw [hr.data r c h3 h4, elem, elem, ← h1.1, h2.1]

/-- Operations that leave the biases of the first matrix out, with samples in rows (or without biases). -/
theorem zipNb_result (ex : Exec) (hex : ex.Ok) (f : α → β → α) (A : Mtx α) (B : Mtx β) (hA : Usable A) (hl : A.emul = false ∨ A.bir = false)
    (hB : B.cap ≠ 0) (h1 : A.rows = B.rows) (h2 : A.cols - A.emul.toNat = B.cols) {o : Option (Mtx α)} (h : zipNb ex f A B o) :
    ∃ A', o = some A' ∧ DataBecomes (fun r c v => f v (elem B r c)) A A' := by
  have hp := usable_pos hA
  unfold zipNb at h
  have hB' : B.empty = false := by unfold Mtx.empty; simpa using hB
  have hrn : A.rowsNoBias = A.rows := by
    unfold Mtx.rowsNoBias
    rcases hl with h | h <;> rw [h] <;> simp
  have hcn : A.colsNoBias = A.cols - A.emul.toNat := by
    unfold Mtx.colsNoBias
    rcases hl with h | h <;> rw [h] <;> simp
  rw [hrn, hcn, usable_cap hA, hB', h1, h2, if_neg (by simp)] at h
  obtain ⟨d, hrun, rfl⟩ := h
  have hcnt : B.numel = A.rows * (A.cols - A.emul.toNat) := by unfold Mtx.numel; rw [h1, h2]
  have hpos : 0 < B.numel := by
    rw [hcnt]
    refine Nat.mul_pos hp.1 ?_
    cases he : A.emul with
    | false => simpa using hp.2
    | true =>
      have hbir : A.bir = false := by rcases hl with h | h; · rw [he] at h; cases h
                                      · exact h
      obtain ⟨r, c, h1, h2, h3⟩ := hA.some
      have : ¬ (c + 1 = A.cols) := fun h => h3 ⟨he, by rw [if_neg (by rw [hbir]; decide)]; exact h⟩
      simp only [Bool.toNat_true]; omega
  have := data_of_prefix hA hl (fun k v => f v (B.data k)) hcnt (each_result ex hex _ hpos _ hrun)
  refine ⟨_, rfl, this.shape, ?_, this.bias, this.outside⟩
  intro r c hd
  rw [this.data r c hd, h1]; rfl

section OpsNb
variable (ex : Exec) (hex : ex.Ok) (A B : Mtx α) (hA : Usable A) (hl : A.emul = false ∨ A.bir = false) (hB : B.cap ≠ 0) (h1 : A.rows = B.rows)
  (h2 : A.cols - A.emul.toNat = B.cols) {o : Option (Mtx α)}
include hex hA hl hB h1 h2

/-- C129. `evMul_ip_Anb` with the default layout. -/
theorem mul_elements_nb_partial [Mul α] (h : evMul_ip_Anb ex A B o) : ∃ A', o = some A' ∧ DataBecomes (fun r c v => v * elem B r c) A A' :=
  zipNb_result ex hex _ A B hA hl hB h1 h2 h

/-- C129. `evAdd_Anb_ip` with the default layout. -/
theorem add_elements_nb_partial [Add α] (h : evAdd_Anb_ip ex A B o) : ∃ A', o = some A' ∧ DataBecomes (fun r c v => v + elem B r c) A A' :=
  zipNb_result ex hex _ A B hA hl hB h1 h2 h

/-- C129. `apply_dropout_mask` with the default layout. -/
theorem dropout_mask_partial [Mul α] [LT α] [DecidableLT α] [OfNat α 0] [OfNat α 1] (p : α) (h : apply_dropout_mask ex A p B o) :
    ∃ A', o = some A' ∧ DataBecomes (fun r c v => v * (if elem B r c < p then 1 else 0)) A A' :=
  zipNb_result ex hex _ A B hA hl hB h1 h2 h

/-- C129. `evSubMtxMulC_ip_nb`. -/
theorem sub_and_scale [Sub α] [Mul α] [OfNat α 0] [DecidableEq α] (k : α) (hk : k ≠ 0) (h : evSubMtxMulC_ip_nb ex A B k o) :
    ∃ A', o = some A' ∧ DataBecomes (fun r c v => (v - elem B r c) * k) A A' := by
  unfold evSubMtxMulC_ip_nb at h
  have hk' : (decide (k = 0) || (A.emul && A.bir)) = false := by
    rw [decide_eq_false hk]; rcases hl with h | h <;> rw [h] <;> simp
  rw [hk', if_neg (by decide)] at h
  exact zipNb_result ex hex _ A B hA hl hB h1 h2 h

end OpsNb

/-- C129. `evOneCompl`: the complement of a gate of zeros and ones; both matrices may have biases, those of the result are left alone. -/
theorem one_complement [Sub α] [OfNat α 0] [OfNat α 1] [DecidableEq α] (ex : Exec) (hex : ex.Ok) (G C : Mtx α) (hC : Usable C) (hG : G.cap ≠ 0)
    (hlG : G.emul = false ∨ G.bir = false) (hlC : C.emul = false ∨ C.bir = false) (h1 : G.rows = C.rows)
    (h2 : G.cols - G.emul.toNat = C.cols - C.emul.toNat)
    (hbin : ∀ r c, IsData C r c → elem G r c = 1 ∨ elem G r c = 0) (h10 : (1 : α) - 1 = 0 ∧ (1 : α) - 0 = 1)
    {o : Option (Mtx α)} (h : evOneCompl ex G C o) : ∃ C', o = some C' ∧ DataBecomes (fun r c _ => 1 - elem G r c) C C' := by
  have hp := usable_pos hC
  have hG' : G.empty = false := by unfold Mtx.empty; simpa using hG
  have dims : ∀ {γ : Type} (A : Mtx γ), (A.emul = false ∨ A.bir = false) → A.rowsNoBias = A.rows ∧ A.colsNoBias = A.cols - A.emul.toNat := by
    intro γ A hl
    unfold Mtx.rowsNoBias Mtx.colsNoBias
    rcases hl with h | h <;> rw [h] <;> simp
  have hcnt : G.numelNoBias = C.rows * (C.cols - C.emul.toNat) := by
    unfold Mtx.numelNoBias; rw [(dims G hlG).1, (dims G hlG).2, h1, h2]
  have hpos : 0 < C.cols - C.emul.toNat := by
    cases he : C.emul with
    | false => simpa using hp.2
    | true =>
      have hbir : C.bir = false := by rcases hlC with h | h; · rw [he] at h; cases h
                                      · exact h
      obtain ⟨r, c, h1, h2, h3⟩ := hC.some
      have : ¬ (c + 1 = C.cols) := fun h => h3 ⟨he, by rw [if_neg (by rw [hbir]; decide)]; exact h⟩
      simp only [Bool.toNat_true]; omega
  unfold evOneCompl at h
  have hall : ((List.range G.numelNoBias).all fun k => decide ((G.data k = 1 ∨ G.data k = 0) ∧ (1 - G.data k = 1 ∨ 1 - G.data k = 0))) = true := by
    rw [List.all_eq_true]
    intro k hk
    have hk := List.mem_range.1 hk
    rw [hcnt] at hk
    have hkd : k / C.rows < C.cols - C.emul.toNat := by rw [Nat.div_lt_iff_lt_mul hp.1, Nat.mul_comm]; exact hk
    have hkm : k % C.rows < C.rows := Nat.mod_lt _ hp.1
    have hdat : IsData C (k % C.rows) (k / C.rows) := by
      refine ⟨hkm, by omega, ?_⟩
      rintro ⟨he, hb⟩
      have hbir : C.bir = false := by rcases hlC with h | h; · rw [he] at h; cases h
                                      · exact h
      rw [if_neg (by rw [hbir]; decide)] at hb
      rw [he] at hkd
      simp only [Bool.toNat_true] at hkd
      omega
    have hel : elem G (k % C.rows) (k / C.rows) = G.data k := by unfold elem; rw [h1, Nat.mod_add_div]
    have hb := hbin _ _ hdat
    rw [hel] at hb
    refine decide_eq_true ⟨hb, ?_⟩
    rcases hb with h | h <;> rw [h]
    · exact Or.inr h10.1
    · exact Or.inl h10.2
  have hlG' : (G.emul && G.bir) = false := by rcases hlG with h | h <;> rw [h] <;> simp
  rw [hall, hG', usable_cap hC, hlG', (dims G hlG).1, (dims G hlG).2, (dims C hlC).1, (dims C hlC).2, h1, h2, if_neg (by simp)] at h
  obtain ⟨d, hrun, rfl⟩ := h
  have := data_of_prefix hC hlC (fun k _ => 1 - G.data k) hcnt (each_result ex hex _ (by rw [hcnt]; exact Nat.mul_pos hp.1 hpos) _ hrun)
  refine ⟨_, rfl, this.shape, ?_, this.bias, this.outside⟩
  intro r c hd
  rw [this.data r c hd, elem, h1]

/-- C129. `evClamp`: every element, biases too, is brought into the bounds. -/
theorem clamp_elements [LT α] [DecidableLT α] (ex : Exec) (hex : ex.Ok) (A : Mtx α) (hA : Usable A) (lo hi : α) (hlh : lo < hi) {o : Option (Mtx α)}
    (h : evClamp ex A lo hi o) : ∃ A', o = some A' ∧ AllBecome (fun _ _ v => if v < lo then lo else if hi < v then hi else v) A A' := by
  have hp := usable_pos hA
  unfold evClamp at h
  have hn : A.numel ≠ 0 := Nat.ne_of_gt (Nat.mul_pos hp.1 hp.2)
  have : (A.empty || A.numel == 0 || !decide (lo < hi)) = false := by rw [usable_cap hA, decide_eq_true hlh]; simpa using hn
  rw [this, if_neg (by decide)] at h
  exact all_of_each hp.1 hp.2 ex hex _ h

/-- C130. `ewBinarize_ip` under the evaluation order of C++17: every element that is not a bias becomes the upper bound if it is larger than the threshold,
the lower one otherwise. -/
theorem binarize_partial [LT α] [DecidableLT α] (ex : Exec) (hex : ex.Ok) (A : Mtx α) (hA : Usable A) (hl : A.emul = false ∨ A.bir = false) (frac l u : α)
    {o : Option (Mtx α)} (h : ewBinarize_ip ex A frac l u o) : ∃ A', o = some A' ∧ DataBecomes (fun _ _ v => if frac < v then u else l) A A' := by
  have hp := usable_pos hA
  unfold ewBinarize_ip at h
  have : (A.empty || (A.emul && A.bir)) = false := by rw [usable_cap hA]; rcases hl with h | h <;> rw [h] <;> simp
  rw [this, if_neg (by decide)] at h
  have hcnt : A.numelNoBias = A.rows * (A.cols - A.emul.toNat) := by
    unfold Mtx.numelNoBias Mtx.rowsNoBias Mtx.colsNoBias; rcases hl with h | h <;> rw [h] <;> simp
  have hpos : 0 < A.numelNoBias := by
    rw [hcnt]
    refine Nat.mul_pos hp.1 ?_
    cases he : A.emul with
    | false => simpa using hp.2
    | true =>
      have hbir : A.bir = false := by rcases hl with h | h; · rw [he] at h; cases h
                                      · exact h
      obtain ⟨r, c, h1, h2, h3⟩ := hA.some
      have : ¬ (c + 1 = A.cols) := fun h => h3 ⟨he, by rw [if_neg (by rw [hbir]; decide)]; exact h⟩
      simp only [Bool.toNat_true]; omega
  obtain ⟨d, hrun, rfl⟩ := h
  exact ⟨_, rfl, data_of_prefix hA hl (fun _ v => if frac < v then u else l) hcnt (each_result ex hex _ hpos _ hrun)⟩

/-! ### What fails -/

/-- Two samples with two values each, samples in columns, with a row of biases: `(1, 2)` and `(3, 4)`. -/
def demoBir : Mtx Int := { data := fun k => [1, 2, 1, 3, 4, 1].getD k 0, cap := 6, rows := 3, cols := 2, emul := true, ext := false, holey := false, bir := true, maxSize := 6 }

/-- The factors `(10, 20)` and `(30, 40)`, no biases. -/
def demoFac : Mtx Int := { data := fun k => [10, 20, 30, 40].getD k 0, cap := 4, rows := 2, cols := 2, emul := false, ext := false, holey := false, bir := true, maxSize := 4 }

/-- C129. With a row of biases `evMul_ip_Anb`, `evAdd_Anb_ip` and `apply_dropout_mask` accept the matrices (no assertion), and combine wrong elements: here the bias of
the first sample is multiplied, and the value 3 of the second sample by 40 instead of 30. -/
theorem nb_operations_wrong_with_bias_row : ∃ A', evMul_ip_Anb .st demoBir demoFac (some A') ∧ Usable demoBir ∧ demoBir.rows - 1 = demoFac.rows ∧
    demoBir.cols = demoFac.cols ∧ IsBias demoBir 2 0 ∧ A'.get 2 0 = some 30 ∧ IsData demoBir 0 1 ∧ A'.get 0 1 = some 120 ∧ elem demoFac 0 1 = 30 ∧
    A'.get 1 1 = some 4 := by
  obtain ⟨d, hd⟩ := runs_exists .st demoFac.numel (eachSteps fun k v => v * demoFac.data k) demoBir.data
  have hres := each_result .st trivial _ (by decide) _ hd
  refine ⟨{ demoBir with data := d }, ?_, ⟨by decide, 0, 0, by decide, by decide, fun h => by cases h.2⟩, rfl, rfl, ⟨rfl, rfl⟩, ?_,
    ⟨by decide, by decide, fun h => by cases h.2⟩, ?_, rfl, ?_⟩
  · exact ⟨d, hd, rfl⟩
  · rw [get_with demoBir d 2 0 (by decide) (by decide), hres]; rfl
  · rw [get_with demoBir d 0 1 (by decide) (by decide), hres]; rfl
  · rw [get_with demoBir d 1 1 (by decide) (by decide), hres]; rfl

/-- C130. If the left side of the assignment is evaluated first, the result is that of the neighbours: `(0, 1)` with the threshold 0 becomes `(1, ..)`, and
without memory behind the matrix the loop reads past its end. The matrix has no biases. -/
theorem binarize_left_first_wrong : ∃ A : Mtx Int, Usable A ∧ A.emul = false ∧ A.rows * A.cols = 2 ∧ A.get 0 0 = some 0 ∧
    ewBinarize_ip_leftFirst A 0 0 1 = none ∧
    ∃ A', ewBinarize_ip_leftFirst { A with cap := 3 } 0 0 1 = some A' ∧ A'.get 0 0 = some 1 := by
  refine ⟨{ data := fun k => [0, 1].getD k 0, cap := 2, rows := 2, cols := 1, emul := false, ext := false, holey := false, bir := false, maxSize := 2 },
    ⟨by decide, 0, 0, by decide, by decide, fun h => by cases h.1⟩, rfl, rfl, rfl, rfl, _, rfl, rfl⟩

/-! ### Examples -/

/-- The same samples in rows with a column of biases. -/
def demoRow : Mtx Int := { data := fun k => [1, 3, 2, 4, 1, 1].getD k 0, cap := 6, rows := 2, cols := 3, emul := true, ext := false, holey := false, bir := false, maxSize := 6 }

/-- A matrix of four values. -/
def demoSq : Mtx Int := { data := fun k => [1, 0, -1, 1].getD k 0, cap := 4, rows := 2, cols := 2, emul := false, ext := false, holey := false, bir := false, maxSize := 4 }

theorem demoBir_usable : Usable demoBir := ⟨by decide, 0, 0, by decide, by decide, fun h => by cases h.2⟩
theorem demoRow_usable : Usable demoRow := ⟨by decide, 0, 0, by decide, by decide, fun h => by cases h.2⟩
theorem demoSq_usable : Usable demoSq := ⟨by decide, 0, 0, by decide, by decide, fun h => by cases h.1⟩

/-- C128, with a row of biases and 3 threads. -/
example : ∃ o, evMulCAddC_ip_nb (.mt (Nntl.Threads.initRanges 2)) demoBir 2 1 o ∧ Exec.Ok (.mt (Nntl.Threads.initRanges 2)) ∧ Usable demoBir := by
  obtain ⟨d, hd⟩ := runs_exists (.mt (Nntl.Threads.initRanges 2)) (universalRange demoBir true) (constSteps (fun v => 2 * v + 1) demoBir true) demoBir.data
  exact ⟨_, ⟨d, hd, rfl⟩, Nntl.Threads.initRanges_ok 2, demoBir_usable⟩

/-- C129. -/
example : ∃ o, evAddScaledSign_ip .st demoSq (-3) demoSq o ∧ Exec.Ok .st ∧ Usable demoSq ∧ demoSq.cap ≠ 0 ∧ ∀ v : Int, ¬ (0 < v ∧ v < 0) := by
  obtain ⟨d, hd⟩ := runs_exists .st demoSq.numel (eachSteps fun k v => v + -3 * ((sign (demoSq.data k) : Int) : Int)) demoSq.data
  exact ⟨_, ⟨d, hd, rfl⟩, trivial, demoSq_usable, by decide, fun v h => by omega⟩

/-- C129, biases left out. -/
example : ∃ o, evSubMtxMulC_ip_nb .st demoRow demoSq 2 o ∧ Usable demoRow ∧ demoRow.bir = false ∧ demoRow.rows = demoSq.rows ∧
    demoRow.cols - demoRow.emul.toNat = demoSq.cols := by
  obtain ⟨d, hd⟩ := runs_exists .st demoSq.numel (eachSteps fun k v => (v - demoSq.data k) * 2) demoRow.data
  exact ⟨_, ⟨d, hd, rfl⟩, demoRow_usable, rfl, rfl, rfl⟩

/-- C129, complement. -/
example : ∃ (G : Mtx Int) (o : _), evOneCompl .st G demoRow o ∧ G.emul = false ∧ G.rows = demoRow.rows ∧ G.cols - G.emul.toNat = demoRow.cols - demoRow.emul.toNat ∧
    o ≠ none := by
  let G : Mtx Int := { demoSq with data := fun k => [1, 0, 0, 1].getD k 0 }
  obtain ⟨d, hd⟩ := runs_exists .st G.numelNoBias (eachSteps fun k _ => 1 - G.data k) demoRow.data
  exact ⟨G, _, ⟨d, hd, rfl⟩, rfl, rfl, rfl, by simp⟩

/-- C130. -/
example : ∃ o, ewBinarize_ip .st demoRow 2 0 1 o ∧ Usable demoRow ∧ demoRow.bir = false := by
  obtain ⟨d, hd⟩ := runs_exists .st demoRow.numelNoBias (eachSteps fun _ v => if 2 < v then (1 : Int) else 0) demoRow.data
  exact ⟨_, ⟨d, hd, rfl⟩, demoRow_usable, rfl⟩

end Nntl.EW
