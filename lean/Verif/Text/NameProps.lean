import Verif.Text.Lemmas
/-! Names of layers and identifiers of their types. -/
namespace Nntl.Text

/-- C179. With assertions a custom name of 40 or more characters stops the program when it is set; any other is taken, and the name of the layer, with its
index (16 bits), is printed: `<name>_<index>`. -/
theorem layer_name_printed (name : Text) (idx : Nat) (hi : idx < 2 ^ 16) :
    (40 ≤ name.length → setCustom true name = none) ∧
    (name.length < 40 → setCustom true name = some name ∧ ∃ t, layerName name idx = some (name ++ "_".toList ++ t) ∧ ShowsInt t idx) := by
  refine ⟨fun h => ?_, fun h => ⟨?_, intText idx, print_some ?_, shows_int _⟩⟩
  · unfold setCustom; rw [if_pos]; simpa using h
  · unfold setCustom; rw [if_neg]; simpa using h
  · have l1 : ("_".toList).length = 1 := rfl
    have := intText_length 5 (by omega) (idx : Int) (by omega)
    rw [if_neg (by omega)] at this
    simp only [List.length_append]
    omega

/-- C179. Without assertions any name is taken when it is set. One of 48 or more characters ends the program when the name of the layer is
asked for. -/
theorem long_layer_name_aborts (name : Text) (idx : Nat) (h : 48 ≤ name.length) : setCustom false name = some name ∧ layerName name idx = none := by
  refine ⟨rfl, ?_⟩
  unfold layerName print
  rw [if_neg]
  have l1 : ("_".toList).length = 1 := rfl
  have : 1 ≤ (intText (idx : Int)).length := by rw [intText_nat]; exact Nat.length_toDigits_pos
  simp only [List.length_append]
  omega

theorem split_last {a b c d : Text} (hb : '_' ∉ b) (hd : '_' ∉ d) (h : a ++ '_' :: b = c ++ '_' :: d) : a = c ∧ b = d := by
  induction a generalizing c with
  | nil =>
    cases c with
    | nil => simp at h; exact ⟨rfl, h⟩
    | cons x c =>
      simp at h
      exact absurd (h.2 ▸ List.mem_append_right c (List.mem_cons_self)) hb
  | cons x a ih =>
    cases c with
    | nil =>
      simp at h
      exact absurd (h.2 ▸ List.mem_append_right a (List.mem_cons_self)) hd
    | cons y c =>
      simp at h
      have := ih h.2
      exact ⟨by rw [h.1, this.1], this.2⟩

/-- C179. Layers with different custom names or different indices have different names. -/
theorem layer_names_differ (name name' : Text) (idx idx' : Nat) (t : Text) (h : layerName name idx = some t) (h' : layerName name' idx' = some t) :
    name = name' ∧ idx = idx' := by
  unfold layerName print at h h'
  split at h
  · split at h'
    · have e := (Option.some.inj h).trans (Option.some.inj h').symm
      rw [intText_nat, intText_nat] at e
      have l1 : ("_".toList) = ['_'] := rfl
      rw [l1, List.append_assoc, List.append_assoc] at e
      have := split_last (Nat.underscore_not_in_toDigits) (Nat.underscore_not_in_toDigits) e
      refine ⟨this.1, ?_⟩
      have h2 := congrArg (fun l => Nat.ofDigitChars 10 l 0) this.2
      simpa [Nat.ofDigitChars_ten_toDigits] using h2
    · cases h'
  · cases h

theorem charId_ascii (c : Char) (h : c.toNat < 128) : charId c = c.toNat := by
  unfold charId
  rw [Nat.mod_eq_of_lt (by omega), if_pos h]

theorem typeIdOf_ascii (t : Text) (ht : Ascii t) (n : Nat) (hl : t.length ≤ n) (hn : n ≤ 8) : typeIdOf (t ++ ['\x00']) < 256 ^ n := by
  induction t generalizing n with
  | nil =>
    have : typeIdOf ([] ++ ['\x00']) = 0 := by decide
    rw [this]
    exact Nat.pow_pos (by omega)
  | cons c t ih =>
    obtain ⟨m, rfl⟩ : ∃ m, n = m + 1 := ⟨n - 1, by simp at hl; omega⟩
    have h1 := ih (fun c hc => ht c (List.mem_cons_of_mem _ hc)) m (by simp at hl; omega) (by omega)
    have h2 := ht c List.mem_cons_self
    show charId c ||| (typeIdOf (t ++ ['\x00']) * 256 % 2 ^ 64) < _
    have h3 : 256 ^ m ≤ 256 ^ 7 := Nat.pow_le_pow_right (by omega) (by omega)
    rw [charId_ascii c h2.2, Nat.mod_eq_of_lt (by omega), Nat.or_comm, Nat.mul_comm _ 256]
    have h4 := Nat.two_pow_add_eq_or_of_lt (i := 8) (b := c.toNat) (by omega) (typeIdOf (t ++ ['\x00']))
    rw [show 256 = 2 ^ 8 from rfl, ← h4]
    rw [show (2 ^ 8) ^ (m + 1) = 256 ^ m * 256 from rfl]
    omega

theorem typeIdOf_cons (c : Char) (t : Text) (ht : Ascii (c :: t)) (hl : (c :: t).length ≤ 8) :
    typeIdOf ((c :: t) ++ ['\x00']) = 256 * typeIdOf (t ++ ['\x00']) + c.toNat := by
  have h1 := typeIdOf_ascii t (fun c hc => ht c (List.mem_cons_of_mem _ hc)) 7 (by simp at hl; omega) (by omega)
  have h2 := ht c List.mem_cons_self
  show charId c ||| (typeIdOf (t ++ ['\x00']) * 256 % 2 ^ 64) = _
  rw [charId_ascii c h2.2, Nat.mod_eq_of_lt (by omega), Nat.or_comm, Nat.mul_comm _ 256]
  exact (Nat.two_pow_add_eq_or_of_lt (i := 8) (b := c.toNat) (by omega) (typeIdOf (t ++ ['\x00']))).symm

theorem typeIdOf_inj (t u : Text) (ht : Ascii t) (hu : Ascii u) (hl : t.length ≤ 8) (hl' : u.length ≤ 8)
    (h : typeIdOf (t ++ ['\x00']) = typeIdOf (u ++ ['\x00'])) : t = u := by
  have h0 : typeIdOf ([] ++ ['\x00']) = 0 := by decide
  induction t generalizing u with
  | nil =>
    cases u with
    | nil => rfl
    | cons c u =>
      rw [typeIdOf_cons c u hu hl', h0] at h
      have := hu c List.mem_cons_self
      omega
  | cons c t ih =>
    have hc := ht c List.mem_cons_self
    cases u with
    | nil =>
      rw [typeIdOf_cons c t ht hl, h0] at h
      omega
    | cons d u =>
      have hd := hu d List.mem_cons_self
      rw [typeIdOf_cons c t ht hl, typeIdOf_cons d u hu hl'] at h
      have e1 : c.toNat = d.toNat := by omega
      have e2 := ih u (fun c hc => ht c (List.mem_cons_of_mem _ hc)) (fun c hc => hu c (List.mem_cons_of_mem _ hc)) (by simp at hl; omega) (by simp at hl'; omega)
        (by omega)
      rw [e2, Char.toNat_inj.mp e1]

/-- C179. The identifier of a type of layers, which its default name of up to 8 ASCII characters gives, is its own: layers with the same identifier have
the same default name. Longer names do not compile. -/
theorem type_ids_differ (t u : Text) (ht : Ascii t) (hu : Ascii u) : (8 < t.length → typeId t = none) ∧
    (t.length ≤ 8 → u.length ≤ 8 → ∃ i j, typeId t = some i ∧ typeId u = some j ∧ i < 2 ^ 64 ∧ (i = j ↔ t = u)) := by
  refine ⟨fun h => if_neg (by omega), fun hl hl' => ⟨_, _, if_pos hl, if_pos hl', ?_, typeIdOf_inj t u ht hu hl hl', fun h => by rw [h]⟩⟩
  exact typeIdOf_ascii t ht 8 hl (by omega)

end Nntl.Text
