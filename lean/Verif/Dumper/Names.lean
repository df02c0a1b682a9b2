import Verif.Dumper.Spec
/-! The names of the files. -/
namespace Nntl.Dumper

theorem digitChar_eq {n : Nat} (h : n < 10) : n.digitChar = Char.ofNat (48 + n) := by
  have : n = 0 ∨ n = 1 ∨ n = 2 ∨ n = 3 ∨ n = 4 ∨ n = 5 ∨ n = 6 ∨ n = 7 ∨ n = 8 ∨ n = 9 := by omega
  rcases this with h | h | h | h | h | h | h | h | h | h <;> subst h <;> rfl

theorem digits_eq (n : Nat) : digits n = Nat.toDigits 10 n := by
  induction n using Nat.strongRecOn with
  | _ n ih =>
    rw [digits]
    split
    · rw [Nat.toDigits_of_lt_base (by omega), digitChar_eq (by omega)]
    · rw [Nat.toDigits_of_base_le (by omega) (by omega), ih _ (by omega), digitChar_eq (by omega)]

theorem digits_toString (n : Nat) : digits n = (toString n).toList := by
  rw [digits_eq]
  show _ = (Nat.repr n).toList
  rw [Nat.toList_repr]

theorem digits_len (n : Nat) : (n < 10 ∧ (digits n).length = 1) ∨ (10 ≤ n ∧ n < 100 ∧ (digits n).length = 2) ∨ (100 ≤ n ∧ 3 ≤ (digits n).length) := by
  have h1 := @Nat.length_toDigits_le_iff 10 n 1 (by omega) (by omega)
  have h2 := @Nat.length_toDigits_le_iff 10 n 2 (by omega) (by omega)
  have h0 : 0 < (Nat.toDigits 10 n).length := Nat.length_toDigits_pos
  rw [digits_eq]
  by_cases a : n < 10
  · have := h1.2 (by omega); omega
  · by_cases b : n < 100
    · have := h2.2 (by omega)
      have : ¬ (Nat.toDigits 10 n).length ≤ 1 := fun h => a (by have := h1.1 h; omega)
      omega
    · have : ¬ (Nat.toDigits 10 n).length ≤ 2 := fun h => b (by have := h2.1 h; omega)
      omega

theorem printf0_num3 (n : Nat) : printf0 3 (n : Int) = (num3 n).toList := by
  rw [printf0, if_neg (by omega), Int.natAbs_natCast, num3]
  rcases digits_len n with ⟨h, l⟩ | ⟨h, h', l⟩ | ⟨h, l⟩
  · simp only [if_pos h, l, String.toList_append, ← digits_toString]; rfl
  · simp only [if_neg (show ¬ n < 10 by omega), if_pos h', l, String.toList_append, ← digits_toString]; rfl
  · have : 3 - (digits n).length = 0 := by omega
    simp only [if_neg (show ¬ n < 10 by omega), if_neg (show ¬ n < 100 by omega), this, ← digits_toString]; rfl

theorem printf0_zero (n : Nat) : printf0 0 (n : Int) = (toString n).toList := by
  rw [printf0, if_neg (by omega), Int.natAbs_natCast, ← digits_toString]
  simp

theorem fileName_f (dir : List Char) (e k : Nat) : fileName dir e k .fprop = batchFile dir .f e k := by
  have : ((e : Int) + 1) = ((e + 1 : Nat) : Int) := by omega
  simp only [fileName, batchFile, String.toList_append, this, printf0_num3, List.append_assoc]
  rfl
theorem fileName_b (dir : List Char) (e k : Nat) : fileName dir e k .bprop = batchFile dir .b e k := by
  have : ((e : Int) + 1) = ((e + 1 : Nat) : Int) := by omega
  simp only [fileName, batchFile, String.toList_append, this, printf0_num3, List.append_assoc]
  rfl

/-- The epoch's index of the inspector. -/
def epochIdx : Option Nat → Int
  | none => -1
  | some e => e

theorem fileName_err (dir : List Char) (e : Option Nat) (b : Int) (set : Nat) : fileName dir (epochIdx e) b (.calcErr set) = errFile dir e set := by
  rcases e with _ | e
  · show _ ++ printf0 3 ((0 : Nat) : Int) ++ _ ++ _ ++ _ = _
    simp only [errFile, String.toList_append, printf0_num3, printf0_zero, List.append_assoc]
  · have : epochIdx (some e) + 1 = ((e + 1 : Nat) : Int) := by simp only [epochIdx]; omega
    simp only [fileName, errFile, String.toList_append, this, printf0_num3, printf0_zero, List.append_assoc]

/-! ### Different names -/

/-- The number a sequence of digits means. -/
def val (l : List Char) : Nat := Nat.ofDigitChars 10 l 0

theorem val_digits (n : Nat) : val (toString n).toList = n := by
  rw [← digits_toString, digits_eq, val, Nat.ofDigitChars_toDigits (by omega) (by omega)]

theorem val_num3 (n : Nat) : val (num3 n).toList = n := by
  simp only [num3]
  split
  · rw [String.toList_append]
    show val ('0' :: '0' :: _) = n
    simpa [val, Nat.ofDigitChars] using val_digits n
  · split
    · rw [String.toList_append]
      show val ('0' :: _) = n
      simpa [val, Nat.ofDigitChars] using val_digits n
    · exact val_digits n

theorem isDigit_num3 (n : Nat) : ∀ c ∈ (num3 n).toList, c.isDigit = true := by
  have hd : ∀ c ∈ (toString n).toList, c.isDigit = true := by
    intro c hc
    rw [← digits_toString, digits_eq] at hc
    exact Nat.isDigit_of_mem_toDigits (by omega) (by omega) hc
  simp only [num3]
  split
  · rw [String.toList_append]
    intro c hc
    rcases List.mem_append.1 hc with h | h
    · rcases (by simpa using h : c = '0') with rfl; rfl
    · exact hd c h
  · split
    · rw [String.toList_append]
      intro c hc
      rcases List.mem_append.1 hc with h | h
      · rcases (by simpa using h : c = '0') with rfl; rfl
      · exact hd c h
    · exact hd

/-- Digits end where something else begins. -/
theorem digits_split {a a' b b' : List Char} (ha : ∀ c ∈ a, c.isDigit = true) (ha' : ∀ c ∈ a', c.isDigit = true) (hb : ∀ c, b.head? = some c → c.isDigit = false)
    (hb' : ∀ c, b'.head? = some c → c.isDigit = false) (h : a ++ b = a' ++ b') : a = a' ∧ b = b' := by
  induction a generalizing a' with
  | nil =>
    rcases a' with _ | ⟨c, a'⟩
    · exact ⟨rfl, by simpa using h⟩
    · have := hb c (by rw [show b = c :: (a' ++ b') by simpa using h]; rfl)
      rw [ha' c (List.mem_cons_self ..)] at this
      cases this
  | cons c a ih =>
    rcases a' with _ | ⟨c', a'⟩
    · have := hb' c (by rw [← show c :: (a ++ b) = b' by simpa using h]; rfl)
      rw [ha c (List.mem_cons_self ..)] at this
      cases this
    · simp only [List.cons_append, List.cons.injEq] at h
      obtain ⟨rfl, h⟩ := h
      obtain ⟨rfl, rfl⟩ := ih (fun c hc => ha c (List.mem_cons_of_mem _ hc)) (fun c hc => ha' c (List.mem_cons_of_mem _ hc)) h
      exact ⟨rfl, rfl⟩

/-- Digits begin where the directory ends, so the rest of the name can be read off. -/
theorem batchFile_eq (dir : List Char) (d : Dir) (e k : Nat) : batchFile dir d e k = dir ++ ('/' :: 'e' :: 'p' :: ((num3 (e + 1)).toList ++ ('_' :: ((num3 k).toList ++
    ('_' :: (match d with | .f => 'f' | .b => 'b') :: ".mat".toList))))) := by
  cases d <;> simp [batchFile]

theorem errFile_eq (dir : List Char) (e : Option Nat) (set : Nat) : errFile dir e set = dir ++ ('/' :: 'e' :: 'p' :: ((num3 (match e with | none => 0 | some e => e + 1)).toList ++
    ('_' :: 'e' :: 'r' :: 'r' :: '_' :: ((toString set).toList ++ ".mat".toList)))) := by
  cases e <;> simp [errFile]

theorem toString_isDigit (n : Nat) : ∀ c ∈ (toString n).toList, c.isDigit = true := by
  intro c hc
  rw [← digits_toString, digits_eq] at hc
  exact Nat.isDigit_of_mem_toDigits (by omega) (by omega) hc

theorem num3_inj {a b : Nat} (h : (num3 a).toList = (num3 b).toList) : a = b := by
  rw [← val_num3 a, ← val_num3 b, h]

theorem head_cons {c : Char} {l : List Char} (h : c.isDigit = false) : ∀ x, (c :: l).head? = some x → x.isDigit = false := by
  intro x hx
  simp only [List.head?_cons, Option.some.injEq] at hx
  subst hx
  exact h

theorem batchFile_inj {dir : List Char} {d d' : Dir} {e e' k k' : Nat} (h : batchFile dir d e k = batchFile dir d' e' k') : d = d' ∧ e = e' ∧ k = k' := by
  rw [batchFile_eq, batchFile_eq] at h
  have h := List.append_cancel_left h
  simp only [List.cons.injEq, true_and] at h
  obtain ⟨h1, h2⟩ := digits_split (isDigit_num3 _) (isDigit_num3 _) (head_cons rfl) (head_cons rfl) h
  simp only [List.cons.injEq, true_and] at h2
  obtain ⟨h3, h4⟩ := digits_split (isDigit_num3 _) (isDigit_num3 _) (head_cons rfl) (head_cons rfl) h2
  have := num3_inj h1
  refine ⟨?_, by omega, num3_inj h3⟩
  cases d <;> cases d' <;> simp_all

theorem errFile_inj {dir : List Char} {e e' : Option Nat} {s s' : Nat} (h : errFile dir e s = errFile dir e' s') : e = e' ∧ s = s' := by
  rw [errFile_eq, errFile_eq] at h
  have h := List.append_cancel_left h
  simp only [List.cons.injEq, true_and] at h
  obtain ⟨h1, h2⟩ := digits_split (isDigit_num3 _) (isDigit_num3 _) (head_cons rfl) (head_cons rfl) h
  simp only [List.cons.injEq, true_and] at h2
  obtain ⟨h3, -⟩ := digits_split (toString_isDigit _) (toString_isDigit _) (head_cons rfl) (head_cons rfl) h2
  have h1 := num3_inj h1
  refine ⟨?_, by rw [← val_digits s, ← val_digits s', h3]⟩
  cases e <;> cases e' <;> simp_all

theorem batch_ne_err {dir : List Char} {d : Dir} {e k : Nat} {e' : Option Nat} {s : Nat} : batchFile dir d e k ≠ errFile dir e' s := by
  intro h
  rw [batchFile_eq, errFile_eq] at h
  have h := List.append_cancel_left h
  simp only [List.cons.injEq, true_and] at h
  obtain ⟨-, h2⟩ := digits_split (isDigit_num3 _) (isDigit_num3 _) (head_cons rfl) (head_cons rfl) h
  simp only [List.cons.injEq, true_and] at h2
  have hn : (num3 k).toList ≠ [] := by
    intro h0
    have := @digits_split (num3 k).toList [] ('_' :: []) ('_' :: []) (isDigit_num3 _) (by simp) (head_cons rfl) (head_cons rfl) (by rw [h0])
    have h1 := congrArg List.length (printf0_num3 k)
    rw [h0, printf0, if_neg (by omega), List.length_append] at h1
    have := digits_len k
    rw [Int.natAbs_natCast] at h1
    simp only [List.length_replicate, List.length_nil] at h1
    omega
  rcases hk : (num3 k).toList with _ | ⟨c, l⟩
  · exact hn hk
  · have hc := isDigit_num3 k c (by rw [hk]; exact List.mem_cons_self ..)
    rw [hk] at h2
    simp only [List.cons_append, List.cons.injEq] at h2
    rw [h2.1] at hc
    cases hc

theorem num3_len {n : Nat} (h : n < 1000) : (num3 n).toList.length = 3 := by
  rw [← printf0_num3, printf0, if_neg (by omega), List.length_append, List.length_replicate, Int.natAbs_natCast]
  have h3 : (digits n).length ≤ 3 := by
    rw [digits_eq]
    exact (Nat.length_toDigits_le_iff (by omega) (by omega)).2 (by omega)
  omega

theorem num3_len_ge (n : Nat) : 3 ≤ (num3 n).toList.length := by
  rw [← printf0_num3, printf0, if_neg (by omega), List.length_append, List.length_replicate, Int.natAbs_natCast]
  omega

theorem batchFile_len (dir : List Char) (d : Dir) (e k : Nat) : (batchFile dir d e k).length = dir.length + (num3 (e + 1)).toList.length + (num3 k).toList.length + 10 := by
  rw [batchFile_eq]
  simp only [List.length_append, List.length_cons, show ".mat".toList.length = 4 from rfl]
  omega

theorem errFile_len (dir : List Char) (e : Option Nat) (s : Nat) : (errFile dir e s).length = dir.length + (num3 (match e with | none => 0 | some e => e + 1)).toList.length + (toString s).toList.length + 12 := by
  rw [errFile_eq]
  simp only [List.length_append, List.length_cons, show ".mat".toList.length = 4 from rfl]
  omega

end Nntl.Dumper
