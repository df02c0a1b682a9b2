import Verif.LossAdd.Spec
/-! Regularisers of the weights: settings (C173), value and gradient (C174). -/
namespace Nntl.LossAdd
open Nntl.Matrix

/-! ### Settings -/

theorem scaleAt_get (i j : Nat) (x : Rat) (as : List Add) :
    (scaleAt i x as)[j]? = (as[j]?).map fun a => if j = i then { a with scale := x } else a := by
  unfold scaleAt
  rw [List.getElem?_modify]
  by_cases h : i = j
  · subst h; simp
  · simp [h, Ne.symm h]

theorem scaleAt_length (i : Nat) (x : Rat) (as : List Add) : (scaleAt i x as).length = as.length := by
  unfold scaleAt; simp

theorem typeIdx_of {as : List Add} (hn : (as.map fun a => a.kind.id).Nodup) {i : Nat} {a : Add} (h : as[i]? = some a) :
    typeIdx a.kind.id as = i := by
  induction as generalizing i with
  | nil => simp at h
  | cons b bs ih =>
    simp only [List.map_cons, List.nodup_cons, List.mem_map, not_exists, not_and] at hn
    cases i with
    | zero =>
      simp only [List.getElem?_cons_zero, Option.some.injEq] at h
      subst h
      simp [typeIdx]
    | succ i =>
      simp only [List.getElem?_cons_succ] at h
      have hm : a ∈ bs := List.mem_of_getElem? h
      have : b.kind.id ≠ a.kind.id := fun e => hn.1 a hm e.symm
      simp only [typeIdx, this, if_false, ih hn.2 h]
      omega

theorem typeIdx_none {as : List Add} {t : Nat} (h : ∀ a ∈ as, a.kind.id ≠ t) : typeIdx t as = as.length := by
  induction as with
  | nil => rfl
  | cons b bs ih =>
    simp only [typeIdx, h b (List.mem_cons_self ..), if_false, List.length_cons,
      ih fun a ha => h a (List.mem_cons_of_mem _ ha)]
    omega

theorem onceIn_of {as : List Add} (hn : (as.map fun a => a.kind.id).Nodup) {a : Add} (h : a ∈ as) : onceIn a.kind.id as = true := by
  unfold onceIn
  simp only [decide_eq_true_eq]
  induction as with
  | nil => cases h
  | cons b bs ih =>
    simp only [List.map_cons, List.nodup_cons, List.mem_map, not_exists, not_and] at hn
    by_cases e : b.kind.id = a.kind.id
    · have : bs.filter (fun x => decide (x.kind.id = a.kind.id)) = [] := by
        rw [List.filter_eq_nil_iff]
        intro x hx
        simp only [decide_eq_true_eq]
        intro e2
        exact hn.1 x hx (e2.trans e.symm)
      simp [e, this]
    · rcases List.mem_cons.1 h with rfl | h
      · exact absurd rfl e
      · simp only [List.filter_cons, e, decide_false]
        exact ih hn.2 h

/-- The state says what `sc` and `fl` say. -/
structure Says (ks : List Kind) (r : Reg) (sc : Nat → Rat) (fl : Nat → Bool) : Prop where
  len : r.adds.length = ks.length
  adds : ∀ i k, ks[i]? = some k → r.adds[i]? = some (⟨k, sc i, none⟩ : Add)
  flags : ∀ i k, ks[i]? = some k → r.flags i = fl i

theorem Says.ids {ks r sc fl} (h : Says ks r sc fl) : (r.adds.map fun a => a.kind.id) = ks.map Kind.id := by
  apply List.ext_getElem?
  intro i
  rw [List.getElem?_map, List.getElem?_map]
  cases e : ks[i]? with
  | none =>
    have : r.adds[i]? = none := by
      rw [List.getElem?_eq_none_iff] at e ⊢
      rw [h.len]; exact e
    rw [this]; rfl
  | some k => rw [h.adds i k e]; rfl

theorem Says.get {ks r sc fl} (h : Says ks r sc fl) {i : Nat} {a : Add} (e : r.adds[i]? = some a) :
    ∃ k, ks[i]? = some k ∧ a = (⟨k, sc i, none⟩ : Add) := by
  cases e2 : ks[i]? with
  | none =>
    rw [List.getElem?_eq_none_iff, ← h.len, ← List.getElem?_eq_none_iff] at e2
    rw [e2] at e; cases e
  | some k =>
    rw [h.adds i k e2] at e
    cases e
    exact ⟨k, rfl, rfl⟩

theorem Says.scale {ks r sc fl} (h : Says ks r sc fl) {i : Nat} {x : Rat} {r' : Reg} (e : r.scaleAt i x = some r') :
    Says ks r' (fun j => if j = i then x else sc j) fl := by
  unfold Reg.scaleAt at e
  split at e
  · cases e
    refine ⟨by simp [scaleAt_length, h.len], fun j k hk => ?_, h.flags⟩
    rw [scaleAt_get, h.adds j k hk]
    by_cases e : j = i <;> simp [e]
  · cases e

theorem Says.ignore {ks r sc fl} (h : Says ks r sc fl) {i : Nat} {b : Bool} {r' : Reg} (e : r.ignoreAt i b = some r') :
    Says ks r' sc (fun j => if j = i then b else fl j) := by
  unfold Reg.ignoreAt at e
  split at e
  · cases e
    refine ⟨h.len, h.adds, fun j k hk => ?_⟩
    simp only [h.flags j k hk]
  · cases e

theorem Says.typeIdx {ks r sc fl} (h : Says ks r sc fl) (hd : Distinct ks) {i : Nat} {k : Kind} (hk : ks[i]? = some k) :
    typeIdx k.id r.adds = i := by
  have hn : (r.adds.map fun a => a.kind.id).Nodup := by rw [h.ids]; exact hd
  exact typeIdx_of hn (h.adds i k hk)

theorem Says.congr {ks r sc fl sc' fl'} (h : Says ks r sc fl) (h1 : ∀ i k, ks[i]? = some k → sc' i = sc i)
    (h2 : ∀ i k, ks[i]? = some k → fl' i = fl i) : Says ks r sc' fl' :=
  ⟨h.len, fun i k hk => by rw [h.adds i k hk, h1 i k hk], fun i k hk => by rw [h.flags i k hk, h2 i k hk]⟩

/-- The index of a type is that of the addendum of this type. -/
theorem Says.typeIdx_iff {ks r sc fl} (h : Says ks r sc fl) (hd : Distinct ks) {i : Nat} {k : Kind} (hk : ks[i]? = some k) (t : Nat) :
    i = LossAdd.typeIdx t r.adds ↔ t = k.id := by
  constructor
  · intro e
    refine Classical.byContradiction fun ht => ?_
    by_cases hx : ∃ a ∈ r.adds, a.kind.id = t
    · obtain ⟨a, ha, rfl⟩ := hx
      obtain ⟨j, hj⟩ := List.getElem?_of_mem ha
      obtain ⟨k', hk', rfl⟩ := h.get hj
      have := h.typeIdx hd hk'
      simp only at e ht
      rw [this] at e
      subst e
      rw [hk] at hk'
      cases hk'
      exact ht rfl
    · have := typeIdx_none (as := r.adds) (t := t) fun a ha e => hx ⟨a, ha, e⟩
      rw [this, h.len] at e
      have := (List.getElem?_eq_some_iff.1 hk).1
      omega
  · rintro rfl; exact (h.typeIdx hd hk).symm

def scNext (ks : List Kind) (sc : Nat → Rat) (o : Op) : Nat → Rat := fun i =>
  match ks[i]? with | some k => scaleStep i k.id (sc i) o | none => 0
def flNext (ks : List Kind) (fl : Nat → Bool) (o : Op) : Nat → Bool := fun i =>
  match ks[i]? with | some k => ignoreStep i k.id (fl i) o | none => false

theorem Says.scaleOf {ks r sc fl} (h : Says ks r sc fl) (hd : Distinct ks) {t : Nat} {x : Rat} {r' : Reg} (e : r.scaleOf t x = some r') :
    Says ks r' (fun j => match ks[j]? with | some k => if t = k.id then x else sc j | none => 0) fl := by
  unfold Reg.scaleOf at e
  split at e
  · refine (h.scale e).congr (fun i k hk => ?_) fun i k hk => rfl
    rw [hk]
    have := h.typeIdx_iff hd hk t
    by_cases ht : t = k.id
    · simp only [ht, if_true]; rw [if_pos]; rw [← ht]; exact this.2 ht
    · simp only [ht, if_false]; rw [if_neg]; exact fun e => ht (this.1 e)
  · cases e

theorem Says.ignoreOf {ks r sc fl} (h : Says ks r sc fl) (hd : Distinct ks) {t : Nat} {b : Bool} {r' : Reg} (e : r.ignoreOf t b = some r') :
    Says ks r' sc (fun j => match ks[j]? with | some k => if t = k.id then b else fl j | none => false) := by
  unfold Reg.ignoreOf at e
  refine (h.ignore e).congr (fun i k hk => rfl) fun i k hk => ?_
  rw [hk]
  have := h.typeIdx_iff hd hk t
  by_cases ht : t = k.id
  · simp only [ht, if_true]; rw [if_pos]; rw [← ht]; exact this.2 ht
  · simp only [ht, if_false]; rw [if_neg]; exact fun e => ht (this.1 e)

theorem Says.step {ks r sc fl} (h : Says ks r sc fl) (hd : Distinct ks) {o : Op} {r' : Reg} (e : r.step o = some r') :
    Says ks r' (scNext ks sc o) (flNext ks fl o) := by
  cases o with
  | scaleAt i x =>
    refine (h.scale e).congr (fun j k hk => ?_) fun j k hk => by simp only [flNext, hk, ignoreStep]
    simp only [scNext, hk, scaleStep]
    by_cases hj : j = i
    · simp [hj]
    · simp [hj, Ne.symm hj]
  | scaleOf t x =>
    exact (h.scaleOf hd e).congr (fun j k hk => by simp only [scNext, hk, scaleStep]) fun j k hk => by simp only [flNext, hk, ignoreStep]
  | ignoreAt i b =>
    refine (h.ignore e).congr (fun j k hk => by simp only [scNext, hk, scaleStep]) fun j k hk => ?_
    simp only [flNext, hk, ignoreStep]
    by_cases hj : j = i
    · simp [hj]
    · simp [hj, Ne.symm hj]
  | ignoreOf t b =>
    exact (h.ignoreOf hd e).congr (fun j k hk => by simp only [scNext, hk, scaleStep]) fun j k hk => by simp only [flNext, hk, ignoreStep]
  | set t x b =>
    simp only [Reg.step, Option.bind_eq_some_iff] at e
    obtain ⟨r1, e1, e2⟩ := e
    exact ((h.scaleOf hd e1).ignoreOf hd e2).congr (fun j k hk => by simp only [scNext, hk, scaleStep])
      fun j k hk => by simp only [flNext, hk, ignoreStep]

theorem Says.run {ks r sc fl} (h : Says ks r sc fl) (hd : Distinct ks) {os : List Op} {r' : Reg} (e : r.run os = some r') :
    Says ks r' (fun i => match ks[i]? with | some k => os.foldl (scaleStep i k.id) (sc i) | none => 0)
      (fun i => match ks[i]? with | some k => os.foldl (ignoreStep i k.id) (fl i) | none => false) := by
  induction os generalizing r sc fl with
  | nil =>
    cases e
    exact h.congr (fun i k hk => by simp [hk]) fun i k hk => by simp [hk]
  | cons o os ih =>
    simp only [Reg.run, Option.bind_eq_some_iff] at e
    obtain ⟨r1, e1, e2⟩ := e
    refine (ih (h.step hd e1) e2).congr (fun i k hk => ?_) fun i k hk => ?_
    · simp [hk, scNext]
    · simp [hk, flNext]

theorem Says.construct (ks : List Kind) : Says ks (construct ks) (fun _ => 0) (fun _ => true) := by
  refine ⟨by simp [LossAdd.construct], fun i k hk => by simp [LossAdd.construct, hk, Add.fresh], fun i k hk => ?_⟩
  have := (List.getElem?_eq_some_iff.1 hk).1
  simp [LossAdd.construct, this]

theorem says_asked {ks : List Kind} (hd : Distinct ks) {ops : List Op} {r : Reg} (e : (construct ks).run ops = some r) :
    Says ks r (fun i => match ks[i]? with | some k => askedScale ops i k.id | none => 0)
      (fun i => match ks[i]? with | some k => askedIgnore ops i k.id | none => false) :=
  (Says.construct ks).run hd e

/-- **C173** Settings are those asked for last. In a tuple of addendums of different types, after any accepted sequence of calls, each addendum has the
scale and the mode of biases that the last call naming it (by its index, by its type or as `L1(..)`, `L2(..)`) asked for; calls that
name others change nothing of it. -/
theorem settings_last {ks : List Kind} (hd : Distinct ks) {ops : List Op} {r : Reg} (e : (construct ks).run ops = some r)
    {i : Nat} {k : Kind} (hk : ks[i]? = some k) :
    (∃ a, r.adds[i]? = some a ∧ a.kind = k ∧ a.scale = askedScale ops i k.id) ∧ r.flags i = askedIgnore ops i k.id := by
  have h := says_asked hd e
  have h1 := h.adds i k hk
  have h2 := h.flags i k hk
  simp only [hk] at h1 h2
  exact ⟨⟨_, h1, rfl, rfl⟩, h2⟩

theorem Says.accepts {ks r sc fl} (h : Says ks r sc fl) (hd : Distinct ks) {o : Op} (ho : Names ks o) : ∃ r', r.step o = some r' := by
  have hn : (r.adds.map fun a => a.kind.id).Nodup := by rw [h.ids]; exact hd
  have byType : ∀ {r sc fl}, Says ks r sc fl → ∀ t, (∃ k ∈ ks, k.id = t) → (∃ x, onceIn t r.adds = x ∧ x = true) ∧ LossAdd.typeIdx t r.adds < r.adds.length := by
    intro r sc fl h t ht
    have hn : (r.adds.map fun a => a.kind.id).Nodup := by rw [h.ids]; exact hd
    obtain ⟨k, hk, rfl⟩ := ht
    obtain ⟨i, hi⟩ := List.getElem?_of_mem hk
    have := h.adds i k hi
    refine ⟨⟨_, rfl, onceIn_of (a := ⟨k, sc i, none⟩) hn (List.mem_of_getElem? this)⟩, ?_⟩
    rw [h.typeIdx hd hi, h.len]
    exact (List.getElem?_eq_some_iff.1 hi).1
  cases o with
  | scaleAt i x => exact ⟨_, by simp only [Reg.step, Reg.scaleAt]; rw [if_pos (by rw [h.len]; exact ho)]⟩
  | ignoreAt i b => exact ⟨_, by simp only [Reg.step, Reg.ignoreAt]; rw [if_pos (by rw [h.len]; exact ho)]⟩
  | scaleOf t x =>
    obtain ⟨⟨_, rfl, h1⟩, h2⟩ := byType h t ho
    exact ⟨_, by simp only [Reg.step, Reg.scaleOf, Reg.scaleAt]; rw [if_pos h1, if_pos h2]⟩
  | ignoreOf t b =>
    obtain ⟨-, h2⟩ := byType h t ho
    exact ⟨_, by simp only [Reg.step, Reg.ignoreOf, Reg.ignoreAt]; rw [if_pos h2]⟩
  | set t x b =>
    obtain ⟨⟨_, rfl, h1⟩, h2⟩ := byType h t ho
    have e1 : r.scaleOf t x = some { r with adds := LossAdd.scaleAt (LossAdd.typeIdx t r.adds) x r.adds } := by
      simp only [Reg.scaleOf, Reg.scaleAt]; rw [if_pos h1, if_pos h2]
    obtain ⟨-, h3⟩ := byType (h.scaleOf hd e1) t ho
    simp only [Reg.step, e1, Option.bind_some, Reg.ignoreOf, Reg.ignoreAt]
    rw [if_pos h3]
    exact ⟨_, rfl⟩

/-- **C173** Calls that name addendums of the tuple are accepted in any order. -/
theorem settings_accepted {ks : List Kind} (hd : Distinct ks) {ops : List Op} (ho : ∀ o ∈ ops, Names ks o) :
    ∃ r, (construct ks).run ops = some r := by
  have : ∀ (os : List Op) r sc fl, Says ks r sc fl → (∀ o ∈ os, Names ks o) → ∃ r', r.run os = some r' := by
    intro os
    induction os with
    | nil => intro r _ _ _ _; exact ⟨r, rfl⟩
    | cons o os ih =>
      intro r sc fl h ho
      obtain ⟨r1, e1⟩ := h.accepts hd (ho o (List.mem_cons_self ..))
      obtain ⟨r2, e2⟩ := ih r1 _ _ (h.step hd e1) fun x hx => ho x (List.mem_cons_of_mem _ hx)
      exact ⟨r2, by simp only [Reg.run, e1, Option.bind_some, e2]⟩
  exact this ops _ _ _ (Says.construct ks) ho

theorem hasAny_iff (as : List Add) : hasAny as = true ↔ ∃ a ∈ as, a.scale ≠ 0 := by
  have : ∀ (as : List Add) b, as.foldl (fun b a => b || a.on) b = true ↔ b = true ∨ ∃ a ∈ as, a.scale ≠ 0 := by
    intro as
    induction as with
    | nil => intro b; simp
    | cons a as ih =>
      intro b
      rw [List.foldl_cons, ih]
      simp [Add.on, or_assoc]
  unfold hasAny
  rw [this]
  simp

/-- **C173** The object says it has an addendum exactly if the scale asked for last is not zero for one of them. -/
theorem has_addendum {ks : List Kind} (hd : Distinct ks) {ops : List Op} {r : Reg} (e : (construct ks).run ops = some r) :
    hasAny r.adds = true ↔ ∃ i k, ks[i]? = some k ∧ askedScale ops i k.id ≠ 0 := by
  have h := says_asked hd e
  rw [hasAny_iff]
  constructor
  · rintro ⟨a, ha, hs⟩
    obtain ⟨i, hi⟩ := List.getElem?_of_mem ha
    obtain ⟨k, hk, rfl⟩ := h.get hi
    simp only [hk] at hs
    exact ⟨i, k, hk, hs⟩
  · rintro ⟨i, k, hk, hs⟩
    have := h.adds i k hk
    simp only [hk] at this
    exact ⟨_, List.mem_of_getElem? this, hs⟩

/-! ### Value and gradient -/

theorem hide_ok {w : Mtx Rat} (h : IsWeights w) : w.hideLastCol = some { w with cols := w.cols - 1 } := by
  unfold Mtx.hideLastCol
  rw [if_pos ⟨by simp [Mtx.empty, h.1], h.2.2.1⟩]

theorem restore_ok {w : Mtx Rat} (h : IsWeights w) (d : Nat → Rat) :
    ({ w with cols := w.cols - 1, data := d } : Mtx Rat).restoreLastCol = some { w with data := d } := by
  have hc := h.2.2.1
  have e : w.cols - 1 + 1 = w.cols := by omega
  unfold Mtx.restoreLastCol
  rw [if_pos]
  · simp only [e]
  · refine ⟨by simp [Mtx.empty, h.1], by show w.cols - 1 ≥ 1; omega, ?_⟩
    show w.maxSize ≥ w.rows * (w.cols - 1 + 1)
    rw [e]; exact h.2.2.2

theorem valueOne_eq (r : Reg) (a : Add) (x : Rat) {w : Mtx Rat} (h : IsWeights w) :
    r.valueOne a (x, w) = some (x + a.scale * a.kind.val w.rows (w.cols - (r.flagOf a).toNat) (entry w), w) := by
  unfold Reg.valueOne
  by_cases hon : a.on = true
  · rw [if_pos hon]
    cases hf : r.flagOf a with
    | true =>
      simp only [if_true, hide_ok h, Option.bind_some]
      rw [show ({ w with cols := w.cols - 1 } : Mtx Rat).restoreLastCol = some w from restore_ok h w.data]
      rfl
    | false => rfl
  · rw [if_neg hon]
    have : a.scale = 0 := by simpa [Add.on] using hon
    rw [this, Rat.zero_mul, Rat.add_zero]

theorem valueAll_eq (r : Reg) (as : List Add) (x : Rat) {w : Mtx Rat} (h : IsWeights w) :
    r.valueAll as (x, w) =
      some (x + (as.map fun a => a.scale * a.kind.val w.rows (w.cols - (r.flagOf a).toNat) (entry w)).sum, w) := by
  induction as generalizing x with
  | nil => simp [Reg.valueAll, Rat.add_zero]
  | cons a as ih =>
    simp only [Reg.valueAll, valueOne_eq r a x h, Option.bind_some, ih, List.map_cons, List.sum_cons]
    rw [Rat.add_assoc]

theorem Says.flagOf {ks r sc fl} (h : Says ks r sc fl) (hd : Distinct ks) {i : Nat} {k : Kind} (hk : ks[i]? = some k) (s : Rat) :
    r.flagOf ⟨k, s, none⟩ = fl i := by
  unfold Reg.flagOf
  rw [h.typeIdx hd hk, h.flags i k hk]

/-- A list of what the addendums are, by their index. -/
theorem Says.map {ks r sc fl} (h : Says ks r sc fl) {β : Type} (f : Add → β) (g : Kind × Nat → β)
    (hfg : ∀ i k, ks[i]? = some k → f ⟨k, sc i, none⟩ = g (k, i)) : r.adds.map f = ks.zipIdx.map g := by
  apply List.ext_getElem?
  intro i
  rw [List.getElem?_map, List.getElem?_map, List.getElem?_zipIdx]
  cases e : ks[i]? with
  | none =>
    have : r.adds[i]? = none := by
      rw [List.getElem?_eq_none_iff] at e ⊢
      rw [h.len]; exact e
    rw [this]; rfl
  | some k => rw [h.adds i k e]; simp [hfg i k e]

/-- **C174** Value of the regularisers: the sum, over the addendums of the tuple, of the scale asked for last times what its class computes of the
weights — without the column of biases if that was asked for last. The matrix of weights is what it was. -/
theorem loss_value {ks : List Kind} (hd : Distinct ks) {ops : List Op} {r : Reg} (e : (construct ks).run ops = some r)
    {w : Mtx Rat} (hw : IsWeights w) :
    r.lossAddendum w = some ((ks.zipIdx.map fun p =>
      askedScale ops p.2 p.1.id * p.1.val w.rows (if askedIgnore ops p.2 p.1.id then w.cols - 1 else w.cols) (entry w)).sum, w) := by
  have h := says_asked hd e
  unfold Reg.lossAddendum
  rw [valueAll_eq r _ _ hw, Rat.zero_add]
  congr 3
  apply h.map
  intro i k hk
  rw [h.flagOf hd hk]
  simp only [hk]
  cases askedIgnore ops i k.id <;> rfl

theorem app_eq (nz : Bool) (s d t : Rat) : app nz s d t = appended nz s t d := by
  unfold app appended
  cases nz <;> simp

theorem cellDiv {R r c : Nat} (hr : r < R) : (r + R * c) % R = r ∧ (r + R * c) / R = c := by
  constructor
  · rw [Nat.add_mul_mod_self_left, Nat.mod_eq_of_lt hr]
  · rw [Nat.add_mul_div_left _ _ (by omega : 0 < R), Nat.div_eq_of_lt hr, Nat.zero_add]

theorem cell_lt {R C r c : Nat} (hr : r < R) (hc : c < C) : r + R * c < R * C := by
  have : R * (c + 1) ≤ R * C := Nat.mul_le_mul_left _ hc
  rw [Nat.mul_add] at this
  omega

theorem appendTo_entry (nz : Bool) (s : Rat) (t : Nat → Nat → Rat) (g : Mtx Rat) {r c : Nat} (hr : r < g.rows) (hc : c < g.cols) :
    entry (appendTo nz s t g) r c = appended nz s (t r c) (entry g r c) := by
  unfold entry appendTo
  simp only
  rw [if_pos (show r + g.rows * c < g.numel from cell_lt hr hc), (cellDiv hr).1, (cellDiv hr).2, app_eq]

theorem appendTo_out (nz : Bool) (s : Rat) (t : Nat → Nat → Rat) (g : Mtx Rat) {p : Nat} (hp : g.rows * g.cols ≤ p) :
    (appendTo nz s t g).data p = g.data p := by
  unfold appendTo
  simp only
  rw [if_neg (by unfold Mtx.numel; omega)]

/-- What one addendum does to an element of the gradient in row `r`, column `c`. -/
def grow (w : Mtx Rat) (k : Kind) (s : Rat) (ign : Bool) (r c : Nat) (d : Rat) : Rat :=
  if ign = true ∧ c + 1 = w.cols then d
  else appended k.nz s (k.term w.rows (if ign then w.cols - 1 else w.cols) (entry w) r c) d

theorem appended_zero (nz : Bool) (t d : Rat) : appended nz 0 t d = d := by
  unfold appended
  split
  · rfl
  · rw [Rat.zero_mul, Rat.add_zero]

theorem dLossAdd_eq (a : Add) (hk : a.kind.onFprop = false) {x y : Mtx Rat} (h1 : x.emul = false) (h2 : y.emul = false)
    (h3 : y.rows = x.rows) (h4 : y.cols = x.cols) :
    a.dLossAdd x y = some (appendTo a.kind.nz a.scale (a.kind.term x.rows x.cols (els x)) y) := by
  simp [Add.dLossAdd, h1, h2, h3, h4, hk]

theorem gradOne_eq (r : Reg) (a : Add) {w g : Mtx Rat} (hk : a.kind.onFprop = false) (hw : IsWeights w) (hg : IsWeights g)
    (hr : g.rows = w.rows) (hc : g.cols = w.cols) :
    ∃ g', r.gradOne a (w, g) = some (w, g') ∧ SameBut g g' ∧
      ∀ i < w.rows, ∀ j < w.cols, entry g' i j = grow w a.kind a.scale (r.flagOf a) i j (entry g i j) := by
  unfold Reg.gradOne
  by_cases hon : a.on = true
  · simp only [hon, if_true]
    cases hf : r.flagOf a with
    | false =>
      simp only [Bool.false_eq_true, if_false, Option.bind_some, dLossAdd_eq a hk hw.2.1 hg.2.1 hr hc]
      refine ⟨appendTo a.kind.nz a.scale (a.kind.term w.rows w.cols (els w)) g, rfl, ⟨rfl, fun p hp => appendTo_out _ _ _ _ hp⟩, ?_⟩
      intro i hi j hj
      rw [appendTo_entry _ _ _ _ (by rw [hr]; exact hi) (by rw [hc]; exact hj)]
      simp [grow]
      rfl
    | true =>
      simp only [if_true, hide_ok hg, hide_ok hw, Option.bind_some]
      let W : Mtx Rat := { w with cols := w.cols - 1 }
      let G : Mtx Rat := { g with cols := g.cols - 1 }
      let G' : Mtx Rat := appendTo a.kind.nz a.scale (a.kind.term w.rows (w.cols - 1) (els W)) G
      have e0 : a.dLossAdd W G = some G' := dLossAdd_eq a hk hw.2.1 hg.2.1 hr (by show g.cols - 1 = w.cols - 1; rw [hc])
      have e1 : G'.restoreLastCol = some { g with data := G'.data } := restore_ok hg G'.data
      have e2 : W.restoreLastCol = some w := restore_ok hw w.data
      refine ⟨{ g with data := G'.data }, ?_, ⟨rfl, fun p hp => ?_⟩, ?_⟩
      · show ((a.dLossAdd W G).bind _) = _
        rw [e0]
        simp only [Option.bind_some, e1]
        show (W.restoreLastCol.bind _) = _
        rw [e2]
        rfl
      · have hle : g.rows * (g.cols - 1) ≤ g.rows * g.cols := Nat.mul_le_mul_left _ (by omega)
        exact appendTo_out _ _ _ G (Nat.le_trans hle hp)
      · intro i hi j hj
        unfold grow
        by_cases hl : j + 1 = w.cols
        · rw [if_pos ⟨rfl, hl⟩]
          show G'.data (i + g.rows * j) = _
          rw [appendTo_out]
          · rfl
          · show g.rows * (g.cols - 1) ≤ _
            have : g.cols - 1 = j := by omega
            rw [this]; omega
        · rw [if_neg (by simp [hl])]
          exact appendTo_entry a.kind.nz a.scale _ G (by show i < g.rows; omega) (by show j < g.cols - 1; omega)
  · simp only [hon]
    have : a.scale = 0 := by simpa [Add.on] using hon
    refine ⟨g, rfl, ⟨rfl, fun _ _ => rfl⟩, fun i _ j _ => ?_⟩
    unfold grow
    rw [this, appended_zero]
    simp

theorem SameBut.weights {a b : Mtx Rat} (h : SameBut a b) (ha : IsWeights a) : IsWeights b := by rw [h.1]; exact ha
theorem SameBut.rows {a b : Mtx Rat} (h : SameBut a b) : b.rows = a.rows := by rw [h.1]
theorem SameBut.cols {a b : Mtx Rat} (h : SameBut a b) : b.cols = a.cols := by rw [h.1]
theorem SameBut.trans {a b c : Mtx Rat} (h : SameBut a b) (h' : SameBut b c) : SameBut a c :=
  ⟨by rw [h'.1, h.1], fun p hp => by rw [h'.2 p (by rw [h.rows, h.cols]; exact hp), h.2 p hp]⟩

theorem gradAll_eq (r : Reg) (as : List Add) {w g : Mtx Rat} (hk : ∀ a ∈ as, a.kind.onFprop = false) (hw : IsWeights w) (hg : IsWeights g)
    (hr : g.rows = w.rows) (hc : g.cols = w.cols) :
    ∃ g', r.gradAll as (w, g) = some (w, g') ∧ SameBut g g' ∧
      ∀ i < w.rows, ∀ j < w.cols, entry g' i j = (as.map fun a => grow w a.kind a.scale (r.flagOf a) i j).foldl (fun d f => f d) (entry g i j) := by
  induction as generalizing g with
  | nil => exact ⟨g, rfl, ⟨rfl, fun _ _ => rfl⟩, fun _ _ _ _ => rfl⟩
  | cons a as ih =>
    obtain ⟨g1, e1, s1, v1⟩ := gradOne_eq r a (hk a (List.mem_cons_self ..)) hw hg hr hc
    obtain ⟨g2, e2, s2, v2⟩ := ih (fun x hx => hk x (List.mem_cons_of_mem _ hx)) (s1.weights hg) (by rw [s1.rows, hr]) (by rw [s1.cols, hc])
    refine ⟨g2, by simp only [Reg.gradAll, e1, Option.bind_some, e2], s1.trans s2, fun i hi j hj => ?_⟩
    rw [v2 i hi j hj, v1 i hi j hj]
    rfl

/-- **C174** Gradient of the regularisers: each addendum in the order of the tuple appends its multiple to each element (if it appends to non-zero
elements only: unless the element is zero when its turn comes), the column of biases being left out if that was asked for last. Weights,
sizes, flags and memory behind the matrix are what they were. -/
theorem loss_gradient {ks : List Kind} (hd : Distinct ks) (hf : ∀ k ∈ ks, k.onFprop = false) {ops : List Op} {r : Reg}
    (e : (construct ks).run ops = some r) {w g : Mtx Rat} (hw : IsWeights w) (hg : IsWeights g) (hr : g.rows = w.rows) (hc : g.cols = w.cols) :
    ∃ g', r.apply w g = some (w, g') ∧ SameBut g g' ∧ ∀ i < w.rows, ∀ j < w.cols,
      entry g' i j = ks.zipIdx.foldl (fun d p =>
        if askedIgnore ops p.2 p.1.id = true ∧ j + 1 = w.cols then d
        else appended p.1.nz (askedScale ops p.2 p.1.id)
          (p.1.term w.rows (if askedIgnore ops p.2 p.1.id then w.cols - 1 else w.cols) (entry w) i j) d) (entry g i j) := by
  have h := says_asked hd e
  obtain ⟨g', e1, s1, v1⟩ := gradAll_eq r r.adds (w := w) (g := g) (fun a ha => by
    obtain ⟨i, hi⟩ := List.getElem?_of_mem ha
    obtain ⟨k, hk, rfl⟩ := h.get hi
    exact hf k (List.mem_of_getElem? hk)) hw hg hr hc
  refine ⟨g', e1, s1, fun i hi j hj => ?_⟩
  rw [v1 i hi j hj, h.map _ (fun p => grow w p.1 (askedScale ops p.2 p.1.id) (askedIgnore ops p.2 p.1.id) i j), List.foldl_map]
  · rfl
  · intro n k hk
    rw [h.flagOf hd hk]
    simp only [hk]

theorem foldl_plain {β : Type} (l : List β) (f : β → Rat → Rat) (t : β → Rat) (hf : ∀ b ∈ l, ∀ d, f b d = d + t b) (d : Rat) :
    l.foldl (fun d b => f b d) d = d + (l.map t).sum := by
  induction l generalizing d with
  | nil => simp [Rat.add_zero]
  | cons b l ih =>
    rw [List.foldl_cons, ih (fun x hx => hf x (List.mem_cons_of_mem _ hx)), hf b (List.mem_cons_self ..), List.map_cons, List.sum_cons, Rat.add_assoc]

/-- **C174** If no addendum is of the kind that is appended to non-zero elements only (the default), the gradient grows by the sum over the addendums. -/
theorem loss_gradient_sum {ks : List Kind} (hd : Distinct ks) (hf : ∀ k ∈ ks, k.onFprop = false ∧ k.nz = false) {ops : List Op} {r : Reg}
    (e : (construct ks).run ops = some r) {w g : Mtx Rat} (hw : IsWeights w) (hg : IsWeights g) (hr : g.rows = w.rows) (hc : g.cols = w.cols) :
    ∃ g', r.apply w g = some (w, g') ∧ SameBut g g' ∧ ∀ i < w.rows, ∀ j < w.cols,
      entry g' i j = entry g i j + (ks.zipIdx.map fun p =>
        if askedIgnore ops p.2 p.1.id = true ∧ j + 1 = w.cols then 0
        else askedScale ops p.2 p.1.id *
          p.1.term w.rows (if askedIgnore ops p.2 p.1.id then w.cols - 1 else w.cols) (entry w) i j).sum := by
  obtain ⟨g', e1, s1, v1⟩ := loss_gradient hd (fun k hk => (hf k hk).1) e hw hg hr hc
  refine ⟨g', e1, s1, fun i hi j hj => ?_⟩
  rw [v1 i hi j hj]
  apply foldl_plain ks.zipIdx
  rintro ⟨k, n⟩ hp d
  have hk : k ∈ ks := by
    have := List.mem_zipIdx hp
    obtain ⟨-, -, h3⟩ := this
    rw [h3]; exact List.getElem_mem _
  split
  · rw [Rat.add_zero]
  · simp [appended, (hf k hk).2]

end Nntl.LossAdd
