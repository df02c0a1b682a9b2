import Verif.WInit.Spec
import Verif.Norm.LoopLemmas
import Mathlib.Tactic.Ring
import Mathlib.Tactic.SplitIfs
/-! Lemmas about the initialisation of weights. -/
namespace Nntl.WInit
open Nntl.Kernel Nntl.Threads Nntl.Norm
variable {K : Type} [Field K] [LinearOrder K]

theorem put_same {α : Type} (w : Nat → α) (k v) : put w k v k = v := by simp [put]
theorem put_ne {α : Type} (w : Nat → α) {k i} (v) (h : i ≠ k) : put w k v i = w i := by simp [put, h]

/-! ### Writes -/

theorem genVector_at (xi : Nat → K) : ∀ (n p i : Nat) (w : Nat → K) (k : Nat),
    genVector xi n p i w k = if p ≤ k ∧ k < p + n then xi (i + (k - p)) else w k := by
  intro n
  induction n with
  | zero => intro p i w k; rw [if_neg (by omega)]; rfl
  | succ n ih =>
    intro p i w k
    rw [genVector, ih]
    by_cases h1 : p + 1 ≤ k ∧ k < p + 1 + n
    · rw [if_pos h1, if_pos (by omega)]; congr 1; omega
    · rw [if_neg h1]
      by_cases h2 : k = p
      · subst h2; rw [put_same, if_pos (by omega)]; congr 1; omega
      · rw [put_ne _ _ h2, if_neg (by omega)]

theorem fillSeq_at (v : K) : ∀ (n p : Nat) (w : Nat → K) (k : Nat), fillSeq v n p w k = if p ≤ k ∧ k < p + n then v else w k := by
  intro n
  induction n with
  | zero => intro p w k; rw [if_neg (by omega)]; rfl
  | succ n ih =>
    intro p w k
    rw [fillSeq, ih]
    by_cases h1 : p + 1 ≤ k ∧ k < p + 1 + n
    · rw [if_pos h1, if_pos (by omega)]
    · rw [if_neg h1]
      by_cases h2 : k = p
      · subst h2; rw [put_same, if_pos (by omega)]
      · rw [put_ne _ _ h2, if_neg (by omega)]

theorem addLoop_at (v : K) : ∀ (n p : Nat) (w : Nat → K) (k : Nat), addLoop v n p w k = if p ≤ k ∧ k < p + n then w k + v else w k := by
  intro n
  induction n with
  | zero => intro p w k; rw [if_neg (by omega)]; rfl
  | succ n ih =>
    intro p w k
    rw [addLoop, ih]
    by_cases h1 : p + 1 ≤ k ∧ k < p + 1 + n
    · rw [if_pos h1, if_pos (by omega), put_ne _ _ (by omega)]
    · rw [if_neg h1]
      by_cases h2 : k = p
      · subst h2; rw [put_same, if_pos (by omega)]
      · rw [put_ne _ _ h2, if_neg (by omega)]

theorem strideMul_at (ld e : Nat) (mv : K) (hl : 0 < ld) : ∀ (n p : Nat) (w : Nat → K) (k : Nat), e - p ≤ n →
    strideMul ld e mv p w k = if p ≤ k ∧ k < e ∧ k % ld = p % ld then w k * mv else w k := by
  intro n
  induction n with
  | zero =>
    intro p w k h
    rw [strideMul, dif_neg (by omega), if_neg (by omega)]
  | succ n ih =>
    intro p w k h
    rw [strideMul]
    by_cases hp : p < e
    · rw [dif_pos ⟨hp, hl⟩, ih _ _ _ (by omega), Nat.add_mod_right]
      by_cases h2 : k = p
      · subst h2; rw [if_neg (by omega), if_pos (by simp [hp]), put_same]
      · rw [put_ne _ _ h2]
        by_cases h3 : p + ld ≤ k ∧ k < e ∧ k % ld = p % ld
        · rw [if_pos h3, if_pos ⟨by omega, h3.2⟩]
        · rw [if_neg h3, if_neg]
          rintro ⟨a, b, c⟩
          apply h3
          refine ⟨?_, b, c⟩
          by_contra hc
          have : k = p := by
            have h5 : (k - p) % ld = 0 := Nat.sub_mod_eq_zero_of_mod_eq c
            rw [Nat.mod_eq_of_lt (by omega)] at h5
            omega
          exact h2 this
    · rw [dif_neg (by omega), if_neg (by omega)]

/-! ### Rescaling -/

theorem Rescaled.refl (rows cols : Nat) (w : Nat → K) : Rescaled rows cols (fun _ => 1) (fun _ => 0) w w :=
  ⟨fun r _ c _ => by simp, fun _ _ => rfl⟩

theorem Rescaled.trans {rows cols : Nat} {a b a' b' : Nat → K} {w w1 w2 : Nat → K} (h1 : Rescaled rows cols a b w w1) (h2 : Rescaled rows cols a' b' w1 w2) :
    Rescaled rows cols (fun r => a' r * a r) (fun r => a' r * b r + b' r) w w2 := by
  refine ⟨fun r hr c hc => ?_, fun k hk => by rw [h2.rest k hk, h1.rest k hk]⟩
  rw [h2.cell r hr c hc, h1.cell r hr c hc]
  split_ifs <;> ring

theorem cell_lt {rows cols r c : Nat} (hr : r < rows) (hc : c < cols) : r + rows * c < rows * cols := by
  have : rows * (c + 1) ≤ rows * cols := Nat.mul_le_mul_left _ hc
  rw [Nat.mul_add] at this
  omega

theorem cell_mod {rows r c : Nat} (hr : r < rows) : (r + rows * c) % rows = r := by
  rw [Nat.add_mul_mod_self_left, Nat.mod_eq_of_lt hr]

theorem cell_inj {rows r c r' c' : Nat} (hr : r < rows) (hr' : r' < rows) (h : r + rows * c = r' + rows * c') : r = r' ∧ c = c' := by
  have h1 := congrArg (· % rows) h
  simp only [cell_mod hr, cell_mod hr'] at h1
  subst h1
  have h2 : rows * c = rows * c' := by omega
  exact ⟨rfl, Nat.eq_of_mul_eq_mul_left (by omega) h2⟩

theorem last_col {rows cols r c : Nat} (hr : r < rows) (hc : c < cols) : rows * (cols - 1) ≤ r + rows * c ↔ c + 1 = cols := by
  constructor
  · intro h
    by_contra hne
    have := cell_lt (cols := cols - 1) hr (show c < cols - 1 by omega)
    omega
  · intro h
    have : cols - 1 = c := by omega
    rw [this]; omega

theorem normWhole_rescaled {ex : Exec} (hex : ex.Ok) {rows cols : Nat} (h0 : 0 < rows) (h1 : 0 < cols) {s : Setts K} {act sv cv : K} {bS bC : Bool}
    {w w' : Nat → K} (h : normWhole ex rows cols s act sv cv bS bC w w') :
    Rescaled rows cols (fun _ => if bS then s.targetScale / sv else 1)
      (fun _ => if bC then (s.targetCentral - cv) * act * (if bS then s.targetScale / sv else 1) else 0) w w' := by
  have hpos := Nat.mul_pos h0 h1
  have hend : rows * (cols - 1) + rows = rows * cols := by
    rw [← Nat.mul_succ]; congr 1; omega
  unfold normWhole at h
  simp only at h
  obtain ⟨w1, e1, e2⟩ := h
  have f1 : ∀ k, w1 k = if k < rows * cols then (if bS then s.targetScale / sv else 1) * w k else w k := by
    intro k
    cases bS
    · simp only [Bool.false_eq_true, if_false] at e1 ⊢; rw [e1]; simp
    · simp only [if_true] at e1 ⊢
      rw [each_result ex hex _ hpos _ e1 k, mul_comm (w k)]
  have f2 : ∀ k, w' k = if rows * (cols - 1) ≤ k ∧ k < rows * cols then
      w1 k + (if bC then (s.targetCentral - cv) * act * (if bS then s.targetScale / sv else 1) else 0) else w1 k := by
    intro k
    rw [e2]
    cases bC
    · simp
    · simp only [if_true]
      rw [addLoop_at]
      have : rows * (cols - 1) + (rows * cols - rows * (cols - 1)) = rows * cols := by omega
      rw [this]
  constructor
  · intro r hr c hc
    have hl := cell_lt hr hc
    rw [f2, f1, if_pos hl]
    by_cases hlast : c + 1 = cols
    · rw [if_pos ⟨(last_col hr hc).2 hlast, hl⟩, if_pos hlast]
    · rw [if_neg (fun h => hlast ((last_col hr hc).1 h.1)), if_neg hlast, add_zero]
  · intro k hk
    rw [f2, if_neg (by omega), f1, if_neg (by omega)]

theorem normRow_rescaled {rows cols : Nat} {col : Nat} (hcol : col < rows) (h1 : 0 < cols) (s : Setts K) (act sv cv : K) (bS bC : Bool) (w : Nat → K) :
    Rescaled rows cols (fun r => if r = col ∧ bS = true then s.targetScale / sv else 1)
      (fun r => if r = col ∧ bC = true then (s.targetCentral - cv) * act * (if bS then s.targetScale / sv else 1) else 0) w
      (normRow rows cols s act col sv cv bS bC w) := by
  have h0 : 0 < rows := by omega
  have f1 : ∀ k, (if bS then strideMul rows (rows * cols) (if bS then s.targetScale / sv else 1) col w else w) k =
      if k < rows * cols ∧ k % rows = col then (if bS then s.targetScale / sv else 1) * w k else w k := by
    intro k
    cases bS
    · simp
    · simp only [if_true]
      rw [strideMul_at rows _ _ h0 _ _ _ _ le_rfl, Nat.mod_eq_of_lt hcol]
      by_cases h : k < rows * cols ∧ k % rows = col
      · rw [if_pos h, if_pos ⟨by rw [← h.2]; exact Nat.mod_le _ _, h⟩, mul_comm]
      · rw [if_neg h, if_neg (fun hh => h hh.2)]
  have hlast := cell_lt (cols := cols) hcol (show cols - 1 < cols by omega)
  have f2 : ∀ k, normRow rows cols s act col sv cv bS bC w k = (if k < rows * cols ∧ k % rows = col then (if bS then s.targetScale / sv else 1) * w k else w k)
      + if k = col + rows * (cols - 1) ∧ bC = true then (s.targetCentral - cv) * act * (if bS then s.targetScale / sv else 1) else 0 := by
    intro k
    unfold normRow
    cases bC
    · simp only [Bool.false_eq_true, if_false, and_false, add_zero]; exact f1 k
    · simp only [if_true, and_true]
      by_cases h : k = col + rows * (cols - 1)
      · subst h; rw [put_same, f1, if_pos rfl]
      · rw [put_ne _ _ h, f1, if_neg h, add_zero]
  constructor
  · intro r hr c hc
    have hl := cell_lt hr hc
    rw [f2, cell_mod hr]
    by_cases hrc : r = col
    · subst hrc
      simp only [hl, true_and, if_true]
      by_cases hlst : c + 1 = cols
      · have : c = cols - 1 := by omega
        subst this
        simp [hlst]
      · have : ¬ (r + rows * c = r + rows * (cols - 1)) := fun h => by
          have := (cell_inj hr hr h).2
          omega
        simp only [hlst, this, false_and, if_false]
    · have : ¬ (r + rows * c = col + rows * (cols - 1)) := fun h => hrc (cell_inj hr hcol h).1
      simp [hrc, this]
  · intro k hk
    rw [f2, if_neg (by omega), if_neg (by omega), add_zero]

/-- The weights of neuron `n` are the same. -/
def SameRow (rows cols n : Nat) (w w' : Nat → K) : Prop := ∀ c < cols, w (n + rows * c) = w' (n + rows * c)

theorem normRow_other {rows cols : Nat} {col : Nat} (hcol : col < rows) (h1 : 0 < cols) (s : Setts K) (act sv cv : K) (bS bC : Bool) (w : Nat → K)
    {n : Nat} (hn : n < rows) (hne : n ≠ col) : SameRow rows cols n w (normRow rows cols s act col sv cv bS bC w) := by
  intro c hc
  rw [(normRow_rescaled hcol h1 s act sv cv bS bC w).cell n hn c hc]
  simp [hne]

/-! ### The loops -/

/-- What a successful or unsuccessful attempt gives: acceptable statistics on success, rescaled weights always. -/
structure WholeRight (rows cols : Nat) (s : Setts K) (m : (Nat → K) → Meas K) (w : Nat → K) (r : Bool × (Nat → K)) : Prop where
  accept : r.1 = true → Acceptable s (m r.2)
  scaled : ∃ a b : K, Rescaled rows cols (fun _ => a) (fun _ => b) w r.2

theorem wholeTries_right {ex : Exec} (hex : ex.Ok) {rows cols : Nat} (h0 : 0 < rows) (h1 : 0 < cols) (s : Setts K) (act : K) (m : (Nat → K) → Meas K) :
    ∀ (n : Nat) (w : Nat → K) (r : Bool × (Nat → K)), wholeTries ex rows cols s act m n w r → WholeRight rows cols s m w r := by
  intro n
  induction n with
  | zero => intro w r h; cases h; exact ⟨fun h => (by cases h), 1, 0, Rescaled.refl _ _ _⟩
  | succ n ih =>
    intro w r h
    rw [wholeTries] at h
    split at h
    · cases h; exact ⟨fun h => (by cases h), 1, 0, Rescaled.refl _ _ _⟩
    · obtain ⟨w1, e1, e2⟩ := h
      have hr : ∃ a b : K, Rescaled rows cols (fun _ => a) (fun _ => b) w w1 := by
        split at e1
        · exact ⟨_, _, normWhole_rescaled hex h0 h1 e1⟩
        · subst e1; exact ⟨1, 0, Rescaled.refl _ _ _⟩
      split at e2
      · next hst =>
        subst e2
        refine ⟨fun _ => ?_, hr⟩
        have hacc := (stop_iff s (m w)).1 hst
        have := (accept_iff s (m w)).1 hacc
        rw [this.1, this.2] at e1
        simp only [Bool.or_self, Bool.false_eq_true, if_false] at e1
        show Acceptable s (m w1)
        rw [e1]; exact hacc
      · obtain ⟨h3, a', b', h4⟩ := ih _ _ e2
        obtain ⟨a, b, h5⟩ := hr
        exact ⟨h3, _, _, h5.trans h4⟩

structure RowsRight (rows cols : Nat) (s : Setts K) (m : Nat → Meas K) (cs : List Nat) (w : Nat → K) (ok : Nat → Bool) (all : Bool)
    (r : (Nat → K) × (Nat → Bool) × Bool × Bool) : Prop where
  other : ∀ c, c ∉ cs → r.2.1 c = ok c ∧ (c < rows → SameRow rows cols c w r.1)
  kept : ∀ c, ok c = true → r.2.1 c = true ∧ (c < rows → SameRow rows cols c w r.1)
  fresh : ∀ c ∈ cs, ok c = false → r.2.1 c = true → Acceptable s (m c) ∧ SameRow rows cols c w r.1
  all : r.2.2.2 = false → r.2.2.1 = true → all = true ∧ ∀ c ∈ cs, r.2.1 c = true
  scaled : ∃ a b, Rescaled rows cols a b w r.1

theorem SameRow.trans {rows cols n : Nat} {w w1 w2 : Nat → K} (h : SameRow rows cols n w w1) (h2 : SameRow rows cols n w1 w2) : SameRow rows cols n w w2 :=
  fun c hc => (h c hc).trans (h2 c hc)

theorem rowTries_right {rows cols : Nat} (h1 : 0 < cols) (s : Setts K) (act : K) (m : Nat → Meas K) :
    ∀ (cs : List Nat) (w : Nat → K) (ok : Nat → Bool) (all : Bool), cs.Nodup → (∀ c ∈ cs, c < rows) →
    RowsRight rows cols s m cs w ok all (rowTries rows cols s act m cs w ok all) := by
  intro cs
  induction cs with
  | nil =>
    intro w ok all _ _
    exact ⟨fun c _ => ⟨rfl, fun _ _ _ => rfl⟩, fun c h => ⟨h, fun _ _ _ => rfl⟩, fun c hc => (by cases hc), fun _ h => ⟨h, fun c hc => (by cases hc)⟩,
      _, _, Rescaled.refl _ _ _⟩
  | cons c cs ih =>
    intro w ok all hn hb
    rw [List.nodup_cons] at hn
    have hc : c < rows := hb c (by simp)
    have hb' : ∀ c ∈ cs, c < rows := fun x hx => hb x (by simp [hx])
    rw [rowTries]
    split
    · next hok =>
      have H := ih w ok all hn.2 hb'
      refine ⟨fun x hx => H.other x (by simp at hx; exact hx.2), H.kept, fun x hx h => ?_, fun ha hl => ?_, H.scaled⟩
      · rcases List.mem_cons.1 hx with rfl | hx
        · rw [hok] at h; cases h
        · exact H.fresh x hx h
      · obtain ⟨a, b⟩ := H.all ha hl
        refine ⟨a, fun x hx => ?_⟩
        rcases List.mem_cons.1 hx with rfl | hx
        · exact (H.kept x hok).1
        · exact b x hx
    · next hok =>
      simp only
      split
      · refine ⟨fun x _ => ⟨rfl, fun _ _ _ => rfl⟩, fun x h => ⟨h, fun _ _ _ => rfl⟩, fun x hx h h' => ?_, fun ha => (by cases ha), _, _, Rescaled.refl _ _ _⟩
        rw [show ok x = true from h'] at h; cases h
      · generalize hw1 : (if (doScale s (m c) || doCentral s (m c)) = true then
            normRow rows cols s act c (m c).scale (m c).central (doScale s (m c)) (doCentral s (m c)) w else w) = w1
        generalize ht : ((!doScale s (m c) || scaleOk s (m c)) && (!doCentral s (m c) || centralOk s (m c))) = t
        have hoth : ∀ x, x < rows → x ≠ c → SameRow rows cols x w w1 := by
          intro x hx hne
          rw [← hw1]
          split
          · exact normRow_other hc h1 s act _ _ _ _ w hx hne
          · exact fun _ _ => rfl
        have hresc : ∃ a b, Rescaled rows cols a b w w1 := by
          rw [← hw1]
          split
          · exact ⟨_, _, normRow_rescaled hc h1 s act _ _ _ _ w⟩
          · exact ⟨_, _, Rescaled.refl _ _ _⟩
        have H := ih w1 (put ok c t) (all && t) hn.2 hb'
        have hcc : (rowTries rows cols s act m cs w1 (put ok c t) (all && t)).2.1 c = t := by
          rw [(H.other c hn.1).1, put_same]
        refine ⟨fun x hx => ?_, fun x hx => ?_, fun x hx h h' => ?_, fun ha hl => ?_, ?_⟩
        · simp only [List.mem_cons, not_or] at hx
          obtain ⟨a, b⟩ := H.other x hx.2
          exact ⟨by rw [a, put_ne _ _ hx.1], fun hr => (hoth x hr hx.1).trans (b hr)⟩
        · have hne : x ≠ c := fun h => by subst h; exact hok hx
          obtain ⟨a, b⟩ := H.kept x (by rw [put_ne _ _ hne]; exact hx)
          exact ⟨a, fun hr => (hoth x hr hne).trans (b hr)⟩
        · rcases List.mem_cons.1 hx with hxc | hx
          · rw [hxc] at h' ⊢
            rw [hcc] at h'
            rw [h'] at ht
            have hacc := (stop_iff s (m c)).1 ht
            refine ⟨hacc, ?_⟩
            have h2 := (accept_iff s (m c)).1 hacc
            rw [h2.1, h2.2] at hw1
            simp only [Bool.or_self, Bool.false_eq_true, if_false] at hw1
            subst hw1
            exact (H.other c hn.1).2 hc
          · have hne : x ≠ c := fun hh => hn.1 (hh ▸ hx)
            obtain ⟨a, b⟩ := H.fresh x hx (by rw [put_ne _ _ hne]; exact h) h'
            exact ⟨a, (hoth x (hb' x hx) hne).trans b⟩
        · obtain ⟨a, b⟩ := H.all ha hl
          rw [Bool.and_eq_true] at a
          refine ⟨a.1, fun x hx => ?_⟩
          rcases List.mem_cons.1 hx with hxc | hx
          · rw [hxc, hcc]; exact a.2
          · exact b x hx
        · obtain ⟨a, b, h3⟩ := hresc
          obtain ⟨a', b', h4⟩ := H.scaled
          exact ⟨_, _, h3.trans h4⟩

structure CwRight (rows cols : Nat) (s : Setts K) (m : (Nat → K) → Nat → Meas K) (w : Nat → K) (r : Bool × (Nat → K)) : Prop where
  accept : r.1 = true → ∀ n < rows, Acceptable s (m r.2 n)
  scaled : ∃ a b, Rescaled rows cols a b w r.2

theorem cwTries_right {rows cols : Nat} (h1 : 0 < cols) (s : Setts K) (act : K) (m : (Nat → K) → Nat → Meas K)
    (hm : ∀ w w' n, n < rows → SameRow rows cols n w w' → m w n = m w' n) :
    ∀ (n : Nat) (w : Nat → K) (ok : Nat → Bool), (∀ c < rows, ok c = true → Acceptable s (m w c)) → CwRight rows cols s m w (cwTries rows cols s act m n w ok) := by
  intro n
  induction n with
  | zero => intro w ok _; exact ⟨fun h => (by cases h), _, _, Rescaled.refl _ _ _⟩
  | succ n ih =>
    intro w ok hok
    have H := rowTries_right h1 s act (m w) (List.range rows) w ok true List.nodup_range (fun c hc => List.mem_range.1 hc)
    rw [cwTries]
    generalize rowTries rows cols s act (m w) (List.range rows) w ok true = p at H
    have key : ∀ c < rows, p.2.1 c = true → Acceptable s (m p.1 c) := by
      intro c hc h
      cases hb : ok c with
      | true =>
        rw [← hm w p.1 c hc ((H.kept c hb).2 hc)]
        exact hok c hc hb
      | false =>
        obtain ⟨a, b⟩ := H.fresh c (by simp [hc]) hb h
        rw [← hm w p.1 c hc b]
        exact a
    split
    · exact ⟨fun h => (by cases h), H.scaled⟩
    · next hab =>
      split
      · next hal =>
        refine ⟨fun _ c hc => key c hc ?_, H.scaled⟩
        exact (H.all (by simpa using hab) hal).2 c (by simp [hc])
      · obtain ⟨h3, a', b', h4⟩ := ih p.1 p.2.1 key
        obtain ⟨a, b, h5⟩ := H.scaled
        exact ⟨h3, _, _, h5.trans h4⟩

/-! ### Walking over the layers -/

/-- The layers one after another. -/
def steps (N : Net K) : List Nat → St K → St K → Prop
  | [], s, s' => s' = s
  | k :: ks, s, s' => ∃ s1, processLayer N k s s1 ∧ steps N ks s1 s'

theorem steps_append (N : Net K) : ∀ (l l' : List Nat) (s s' : St K), steps N (l ++ l') s s' ↔ ∃ s1, steps N l s s1 ∧ steps N l' s1 s' := by
  intro l
  induction l with
  | nil => intro l' s s'; simp [steps]
  | cons k l ih =>
    intro l' s s'
    simp only [List.cons_append, steps, ih]
    constructor
    · rintro ⟨a, h1, b, h2, h3⟩; exact ⟨b, ⟨a, h1, h2⟩, h3⟩
    · rintro ⟨b, ⟨a, h1, h2⟩, h3⟩; exact ⟨a, h1, b, h2, h3⟩

mutual
theorem walk_steps (N : Net K) : ∀ (t : Tree) (s s' : St K), walk N t s s' ↔ steps N t.order s s'
  | .node k inner, s, s' => by
    rw [walk, Tree.order, steps_append]
    constructor
    · rintro ⟨a, h1, h2⟩; exact ⟨a, (walkAll_steps N inner s a).1 h1, s', h2, rfl⟩
    · rintro ⟨a, h1, b, h2, h3⟩
      rw [steps] at h3; subst h3
      exact ⟨a, (walkAll_steps N inner s a).2 h1, h2⟩
theorem walkAll_steps (N : Net K) : ∀ (ts : List Tree) (s s' : St K), walkAll N ts s s' ↔ steps N (orderAll ts) s s'
  | [], s, s' => by rw [walkAll, orderAll, steps]
  | t :: ts, s, s' => by
    rw [walkAll, orderAll, steps_append]
    constructor
    · rintro ⟨a, h1, h2⟩; exact ⟨a, (walk_steps N t s a).1 h1, (walkAll_steps N ts a s').1 h2⟩
    · rintro ⟨a, h1, h2⟩; exact ⟨a, (walk_steps N t s a).2 h1, (walkAll_steps N ts a s').2 h2⟩
end

theorem attempts_ok {N : Net K} {k : Nat} {act : K} {s : St K} : ∀ {n : Nat} {w : Nat → K} {r : Bool × (Nat → K)}, attempts N k act s n w r → r.1 = true →
    ∃ w0, process N k act s w0 r := by
  intro n
  induction n with
  | zero => intro w r h hr; rw [attempts] at h; subst h; cases hr
  | succ n ih =>
    intro w r h hr
    rw [attempts] at h
    obtain ⟨p, h1, h2⟩ := h
    split at h2
    · subst h2; exact ⟨w, h1⟩
    · obtain ⟨w1, _, h3⟩ := h2
      exact ih h3 hr

end Nntl.WInit
