import Verif.Utils.Mixins
import Mathlib.Data.List.Nodup
import Mathlib.Algebra.BigOperators.Group.List.Basic
/-!
C58: options of mixins do not alias, for any number of mixins and any numbers of options.
-/
namespace Nntl.Utils.Mx

theorem refIndex_spec (n : Nat) : ∀ (l : List Nat) (k m : Nat), l.Nodup → l[k]? = some m → l.length ≤ n → refIndex m n l.length l = some (n - l.length + 1 + k)
  | [], k, m, _, hk, _ => by simp at hk
  | [h], k, m, _, hk, hn => by
    have : k = 0 := by
      have := (List.getElem?_eq_some_iff.1 hk).1
      simp at this; exact this
    subst this
    show refIndex m n 1 [h] = _
    unfold refIndex
    simp only [List.length_singleton] at hn ⊢
    congr 1
    omega
  | h :: h2 :: tl, k, m, hd, hk, hn => by
    rw [List.nodup_cons] at hd
    show refIndex m n (tl.length + 1 + 1) (h :: h2 :: tl) = _
    rw [refIndex]
    · cases k with
      | zero =>
        simp only [List.getElem?_cons_zero, Option.some.injEq] at hk
        rw [if_pos hk.symm]
        simp
      | succ k =>
        rw [List.getElem?_cons_succ] at hk
        have hm : m ≠ h := by
          rintro rfl
          exact hd.1 (List.mem_of_getElem? hk)
        rw [if_neg hm]
        have := refIndex_spec n (h2 :: tl) k m hd.2 hk (by simp at hn ⊢; omega)
        simp only [List.length_cons] at this hn ⊢
        rw [show tl.length + 1 + 1 - 1 = tl.length + 1 by omega, this]
        congr 1
        omega
    · simp

theorem countVec_eq (root : Nat) (cnt : Nat → Nat) (l : List Nat) : countVec root cnt l = root :: l.map cnt := by
  have : ∀ (l : List Nat) (a : List Nat), l.foldl (fun st m => st ++ [cnt m]) a = a ++ l.map cnt := by
    intro l
    induction l with
    | nil => simp
    | cons x l ih => intro a; simp [ih]
  exact this l [root]

theorem cumsum_eq (l : List Nat) : cumsum l = l.sum := by
  have : ∀ (l : List Nat) (a : Nat), l.foldl (fun a b => a + b) a = a + l.sum := by
    intro l
    induction l with
    | nil => simp
    | cons x l ih => intro a; simp [ih, Nat.add_assoc]
  rw [cumsum, this, Nat.zero_add]

theorem cumsumVec_get (l : List Nat) (k : Nat) (hk : k ≤ l.length) : (cumsumVec l)[k]? = some (l.take k).sum := by
  have key : ∀ (l st : List Nat) (x : Nat), ∀ k, k ≤ l.length →
      (l.foldl (fun st c => st ++ [st.getLastD 0 + c]) (st ++ [x]))[st.length + k]? = some (x + (l.take k).sum) := by
    intro l
    induction l with
    | nil => intro st x k hk; simp at hk; subst hk; simp
    | cons c l ih =>
      intro st x k hk
      rw [List.foldl_cons]
      have hlast : (st ++ [x]).getLastD 0 = x := by simp
      rw [hlast]
      cases k with
      | zero =>
        have hpre : ∀ (l : List Nat) (a b : List Nat), (l.foldl (fun st c => st ++ [st.getLastD 0 + c]) a)[b.length]? = a[b.length]? ∨ a.length ≤ b.length := by
          intro l
          induction l with
          | nil => intro a b; exact Or.inl rfl
          | cons y l ih2 =>
            intro a b
            rw [List.foldl_cons]
            rcases ih2 (a ++ [a.getLastD 0 + y]) b with h | h
            · by_cases hb : b.length < a.length
              · left; rw [h, List.getElem?_append_left hb]
              · right; omega
            · right; simp at h; omega
        rcases hpre l (st ++ [x] ++ [x + c]) st with h | h
        · simp only [Nat.add_zero, h]
          simp
        · simp at h; omega
      | succ k =>
        have := ih (st ++ [x]) (x + c) k (by simpa using hk)
        simp only [List.length_append, List.length_singleton] at this
        rw [show st.length + (k + 1) = st.length + 1 + k by omega, this]
        simp [Nat.add_assoc]
  have := key l [] 0 k hk
  simpa [cumsumVec] using this

/-- The number of options an accessor has. -/
def Cls.opts (c : Cls) : Who → Nat
  | .root => c.root
  | .mixin p => ((c.mixins[p]?).map c.cnt).getD 0

/-- The accessor exists and has the option. -/
def Cls.Has (c : Cls) (w : Who) (o : Nat) : Prop := o < c.opts w

/-- Where the accessor's counts stand in the list of counts. -/
def Who.pos : Who → Nat
  | .root => 0
  | .mixin p => p + 1

theorem opts_eq (c : Cls) (w : Who) : c.opts w = ((c.root :: c.mixins.map c.cnt)[w.pos]?).getD 0 := by
  cases w with
  | root => simp [Cls.opts, Who.pos]
  | mixin p => simp [Cls.opts, Who.pos]

theorem idx_spec (c : Cls) (hd : c.mixins.Nodup) {w : Who} {o : Nat} (h : c.Has w o) : c.idx w = some w.pos ∧ w.pos ≤ c.mixins.length := by
  cases w with
  | root => exact ⟨rfl, Nat.zero_le _⟩
  | mixin p =>
    have h : o < ((c.mixins[p]?).map c.cnt).getD 0 := h
    cases hp : c.mixins[p]? with
    | none => rw [hp] at h; simp at h
    | some m =>
      have hlt := (List.getElem?_eq_some_iff.1 hp).1
      refine ⟨?_, hlt⟩
      show ((mixinVec c.mixins)[p]?).join = _
      unfold mixinVec
      rw [List.getElem?_map, hp, Option.map_some, Option.join_some, refIndex_spec _ _ p m hd hp (Nat.le_refl _)]
      show some _ = some (p + 1)
      congr 1
      omega

/-- The address of an option: injective and inside the storage. -/
def addr (l : List Nat) (k o : Nat) : Nat := o + (l.take k).sum

theorem addr_lt {l : List Nat} {k o : Nat} (h : o < (l[k]?).getD 0) : addr l k o < l.sum := by
  cases hk : l[k]? with
  | none => rw [hk] at h; simp at h
  | some c =>
    rw [hk] at h
    have hlt := (List.getElem?_eq_some_iff.1 hk).1
    have h1 : (l.take (k + 1)).sum = (l.take k).sum + c := by
      rw [List.take_add_one, hk]; simp
    have h2 : (l.take (k + 1)).sum ≤ l.sum := by
      conv_rhs => rw [← List.take_append_drop (k + 1) l]
      rw [List.sum_append]; omega
    unfold addr
    simp at h
    omega

theorem addr_inj {l : List Nat} {k o k' o' : Nat} (h : o < (l[k]?).getD 0) (h' : o' < (l[k']?).getD 0) (he : addr l k o = addr l k' o') : k = k' ∧ o = o' := by
  have key : ∀ {k o k' o' : Nat}, o < (l[k]?).getD 0 → k < k' → addr l k o < addr l k' o' := by
    intro k o k' o' h hk
    cases hc : l[k]? with
    | none => rw [hc] at h; simp at h
    | some c =>
      rw [hc] at h
      have h1 : (l.take (k + 1)).sum = (l.take k).sum + c := by
        rw [List.take_add_one, hc]; simp
      have h2 : (l.take (k + 1)).sum ≤ (l.take k').sum := by
        have : l.take (k + 1) = (l.take k').take (k + 1) := by rw [List.take_take]; congr 1; omega
        rw [this]
        conv_rhs => rw [← List.take_append_drop (k + 1) (l.take k')]
        rw [List.sum_append]; omega
      unfold addr
      simp at h
      omega
  rcases Nat.lt_trichotomy k k' with hk | hk | hk
  · have := key (o' := o') h hk; omega
  · subst hk
    unfold addr at he
    exact ⟨rfl, by omega⟩
  · have := key (o' := o) h' hk; omega

theorem access (c : Cls) (hd : c.mixins.Nodup) {w : Who} {o : Nat} (h : c.Has w o) (bits : List Bool) (hb : bits.length = c.fresh.length) :
    (∃ b, bits[addr (c.root :: c.mixins.map c.cnt) w.pos o]? = some b ∧ c.getOpt bits w o = .ok b) ∧
    ∀ v, c.setOpt bits w o v = .ok (bits.set (addr (c.root :: c.mixins.map c.cnt) w.pos o) v) := by
  obtain ⟨hi, hp⟩ := idx_spec c hd h
  have hofs : c.ofs[w.pos]? = some ((c.root :: c.mixins.map c.cnt).take w.pos).sum := by
    unfold Cls.ofs
    rw [countVec_eq]
    exact cumsumVec_get _ _ (by simp; omega)
  have hlen : bits.length = (c.root :: c.mixins.map c.cnt).sum := by
    rw [hb]; unfold Cls.fresh; rw [List.length_replicate, countVec_eq, cumsum_eq]
  unfold Cls.Has at h
  rw [opts_eq] at h
  have hlt := addr_lt h
  rw [← hlen] at hlt
  constructor
  · refine ⟨bits[addr (c.root :: c.mixins.map c.cnt) w.pos o], List.getElem?_eq_getElem hlt, ?_⟩
    unfold Cls.getOpt
    rw [hi]
    show get _ _ _ _ = _
    unfold get
    rw [hofs]
    dsimp only
    have := List.getElem?_eq_getElem hlt
    unfold addr at this ⊢
    rw [this]
  · intro v
    unfold Cls.setOpt
    rw [hi]
    show set _ _ _ _ _ = _
    unfold set
    rw [hofs]
    dsimp only
    unfold addr at hlt ⊢
    rw [if_pos hlt]

/-- Specification: the last value set through accessor `w` for option `o`. -/
def lastSet (w : Who) (o : Nat) (cur : Bool) : List (Who × Nat × Bool) → Bool
  | [] => cur
  | (w', o', b) :: l => lastSet w o (if w' = w ∧ o' = o then b else cur) l

theorem Who.pos_inj {w w' : Who} (h : w.pos = w'.pos) : w = w' := by
  cases w <;> cases w' <;> simp_all [Who.pos]

theorem run_spec (c : Cls) (hd : c.mixins.Nodup) : ∀ (l : List (Who × Nat × Bool)) (bits : List Bool), bits.length = c.fresh.length →
    (∀ e ∈ l, c.Has e.1 e.2.1) → ∃ bits', c.run bits l = .ok bits' ∧ bits'.length = c.fresh.length ∧
      ∀ w o b, c.Has w o → c.getOpt bits w o = .ok b → c.getOpt bits' w o = .ok (lastSet w o b l)
  | [], bits, hb, _ => ⟨bits, rfl, hb, fun _ _ _ _ h => h⟩
  | (w', o', v) :: l, bits, hb, hl => by
    have hh' : c.Has w' o' := hl _ List.mem_cons_self
    obtain ⟨-, hset⟩ := access c hd hh' bits hb
    have hb1 : (bits.set (addr (c.root :: c.mixins.map c.cnt) w'.pos o') v).length = c.fresh.length := by rw [List.length_set]; exact hb
    obtain ⟨bits', e, hb', hg⟩ := run_spec c hd l _ hb1 (fun e he => hl e (List.mem_cons_of_mem _ he))
    refine ⟨bits', ?_, hb', ?_⟩
    · show (match c.setOpt bits w' o' v with | .ok b => c.run b l | .ub => .ub) = _
      rw [hset v]
      exact e
    · intro w o b hh hgo
      refine hg w o _ hh ?_
      obtain ⟨⟨b0, h0, h1⟩, -⟩ := access c hd hh bits hb
      obtain ⟨⟨b2, h2, h3⟩, -⟩ := access c hd hh _ hb1
      rw [h3]
      rw [h1] at hgo
      cases hgo
      by_cases hs : w' = w ∧ o' = o
      · obtain ⟨rfl, rfl⟩ := hs
        rw [List.getElem?_set_self (List.getElem?_eq_some_iff.1 h0).1] at h2
        cases h2
        simp
      · rw [if_neg hs]
        rw [List.getElem?_set_ne] at h2
        · rw [h0] at h2; cases h2; rfl
        · intro he
          unfold Cls.Has at hh hh'
          rw [opts_eq] at hh hh'
          obtain ⟨p1, p2⟩ := addr_inj hh' hh he
          exact hs ⟨Who.pos_inj p1, p2⟩

/-- **C58.** A class built from a root and any list of distinct mixins with any numbers of options: after any sequence of option writes through the root and
the mixins nothing was accessed outside the storage, and every option read through any accessor is the last value written *through the same accessor to the same
option* (initially false). -/
theorem options_independent (c : Cls) (hd : c.mixins.Nodup) (l : List (Who × Nat × Bool)) (hl : ∀ e ∈ l, c.Has e.1 e.2.1) :
    ∃ bits, c.run c.fresh l = .ok bits ∧ ∀ w o, c.Has w o → c.getOpt bits w o = .ok (lastSet w o false l) := by
  obtain ⟨bits, e, -, hg⟩ := run_spec c hd l c.fresh rfl hl
  refine ⟨bits, e, fun w o h => hg w o false h ?_⟩
  obtain ⟨⟨b, hb, hg⟩, -⟩ := access c hd h c.fresh rfl
  rw [hg]
  have := List.mem_of_getElem? hb
  unfold Cls.fresh at this
  rw [List.eq_of_mem_replicate this]

/-- Distinctness is needed: the same template twice gives both occurrences the same index (the language forbids the duplicate base class). -/
theorem duplicate_index : mixinVec [5, 5, 7] = [some 1, some 1, some 3] := rfl

/-- A concrete class: 3 root options, mixins with 2, 0 and 4 options. -/
example : ∃ c : Cls, c.mixins.Nodup ∧ c.Has .root 2 ∧ c.Has (.mixin 0) 1 ∧ c.Has (.mixin 2) 3 ∧ ¬ c.Has (.mixin 1) 0 ∧ c.ofs = [0, 3, 5, 5, 9] :=
  ⟨⟨3, fun t => if t = 10 then 2 else if t = 11 then 0 else 4, [10, 11, 12]⟩, by decide, by unfold Cls.Has; decide, by unfold Cls.Has; decide,
    by unfold Cls.Has; decide, by unfold Cls.Has; decide, by decide⟩

end Nntl.Utils.Mx
