import Verif.GradCheck.Spec
import Mathlib.Tactic.Ring

/-! The calls of the inspector in a pass through a network: lemmas. -/
namespace Nntl.GradCheck

variable {R S G : Type}

theorem set_self (m : Mat R) (c : Nat × Nat) : m.set c (m c.1 c.2) = m := by
  funext i j
  unfold Mat.set
  split
  · next h => rw [← h]
  · rfl

theorem set_set (m : Mat R) (c : Nat × Nat) (x y : R) : (m.set c x).set c y = m.set c y := by
  funext i j
  unfold Mat.set
  split <;> rfl

theorem put_same {α : Type} (f : Nat → α) (l : Nat) (a : α) : put f l a l = a := if_pos rfl

theorem put_put {α : Type} (f : Nat → α) (l : Nat) (a b : α) : put (put f l a) l b = put f l b := by
  funext k
  unfold put
  split <;> rfl

theorem put_self {α : Type} (f : Nat → α) (l : Nat) : put f l (f l) = f := by
  funext k
  unfold put
  split
  · next h => rw [h]
  · rfl

theorem put_other {α : Type} (f : Nat → α) {l k : Nat} (a : α) (h : k ≠ l) : put f l a k = f k := if_neg h

/-- The weights that the forward pass works with. -/
def effW (A : Arith R) (i : Insp R) (w : Nat → Mat R) : Nat → Mat R :=
  if i.group = .dLdW ∧ i.phase ≠ .analytical then changeW A w i.toCheck i.coord (i.shift A) else w

/-- The change of activations in the forward pass. -/
def effA (A : Arith R) (i : Insp R) : Option (Nat × (Nat × Nat) × R) :=
  if i.group = .dLdA ∧ i.phase ≠ .analytical then some (i.toCheck, i.coord, i.shift A) else none

/-- The layers of `n` are not the one on the top of the stack. -/
def Apart (i : Insp R) (n : Node R) : Prop := ∀ k ∈ n.ids, i.stack.head? ≠ some k

theorem outermost_cons {i : Insp R} {k : Nat} {r : List Nat} (hs : i.stack = k :: r) (h : r.head? ≠ some k) : i.outermost = true := by
  unfold Insp.outermost
  rw [hs]
  cases r with
  | nil => rfl
  | cons b r =>
    simp only [List.head?_cons, ne_eq, Option.some.injEq] at h
    simp only [decide_eq_true_eq, ne_eq]
    exact fun e => h e.symm

theorem eval_acts (A : Arith R) {i : Insp R} {k : Nat} {r : List Nat} (hs : i.stack = k :: r) (h0 : i.toCheck ≠ 0) (h : r.head? ≠ some k) (a : Acts R) (m : Mem R S) :
    ∃ rb, St.acts A a ⟨i, m⟩ = (changeA A (effA A i) k a, ⟨{ i with realBs := rb }, m⟩) ∧ (i.group = .dLdW → rb = i.realBs) := by
  unfold St.acts effA
  by_cases hc : i.group = .dLdA ∧ i.phase ≠ .analytical
  · rw [if_pos hc]
    by_cases hk : k = i.toCheck
    · have h1 : (i.here && decide (i.group = .dLdA) && decide (i.phase ≠ .analytical) && i.outermost) = true := by
        simp [Insp.here, hs, h0, hk, hc.1, hc.2, outermost_cons (hk ▸ hs) (hk ▸ h)]
      rw [if_pos h1]
      refine ⟨a.rows, ?_, fun hg => by rw [hc.1] at hg; cases hg⟩
      simp only [changeA, hk, if_true]
    · have h1 : ¬ (i.here && decide (i.group = .dLdA) && decide (i.phase ≠ .analytical) && i.outermost) = true := by
        simp [Insp.here, hs, hk]
      rw [if_neg h1]
      refine ⟨i.realBs, ?_, fun _ => rfl⟩
      simp only [changeA, if_neg hk]
  · rw [if_neg hc]
    have h1 : ¬ (i.here && decide (i.group = .dLdA) && decide (i.phase ≠ .analytical) && i.outermost) = true := by
      simp only [Bool.and_eq_true, decide_eq_true_eq, not_and]
      intro h2 _
      exact absurd ⟨h2.1.2, h2.2⟩ hc
    rw [if_neg h1]
    exact ⟨i.realBs, rfl, fun _ => rfl⟩

/-- The product of a layer with its weights: the weight is changed before it and has its value again after it. -/
theorem weights_step (A : Arith R) {i : Insp R} {k : Nat} {r : List Nat} (hs : i.stack = k :: r) (h0 : i.toCheck ≠ 0) (hch : i.changed = none) (rows : Nat) (m : Mem R S) :
    (St.makePre A k rows ⟨i, m⟩).mem.w k = effW A i m.w k ∧
      ∃ og, (St.makePre A k rows ⟨i, m⟩).preAct =
        ⟨{ i with orig := og, realBs := if i.group = .dLdW ∧ i.phase ≠ .analytical ∧ k = i.toCheck then rows else i.realBs }, m⟩ := by
  unfold St.makePre effW
  by_cases hc : i.group = .dLdW ∧ i.phase ≠ .analytical
  · rw [if_pos hc]
    by_cases hk : k = i.toCheck
    · have h1 : (i.here && decide (i.group = .dLdW) && decide (i.phase ≠ .analytical)) = true := by
        simp [Insp.here, hs, h0, hk, hc.1, hc.2]
      rw [if_pos h1]
      refine ⟨by simp only [changeW, hk], m.w k i.coord.1 i.coord.2, ?_⟩
      unfold St.preAct
      have h2 : (Insp.here { i with changed := some (k, i.coord), orig := m.w k i.coord.1 i.coord.2, realBs := rows } && decide (i.group = .dLdW) && decide (i.phase ≠ .analytical)) = true := h1
      simp only [h2, if_true]
      rw [put_same, put_put, set_set, set_self, put_self]
      simp [hc.1, hc.2, hk, ← hch]
    · have h1 : ¬ (i.here && decide (i.group = .dLdW) && decide (i.phase ≠ .analytical)) = true := by
        simp [Insp.here, hs, hk]
      rw [if_neg h1]
      refine ⟨by simp only [changeW]; rw [put_other _ _ hk], i.orig, ?_⟩
      unfold St.preAct
      rw [if_neg h1, if_neg (by simp [hk])]
  · rw [if_neg hc]
    have h1 : ¬ (i.here && decide (i.group = .dLdW) && decide (i.phase ≠ .analytical)) = true := by
      simp only [Bool.and_eq_true, decide_eq_true_eq, not_and]
      intro h2 h3
      exact absurd ⟨h2.2, h3⟩ hc
    rw [if_neg h1]
    refine ⟨rfl, i.orig, ?_⟩
    unfold St.preAct
    rw [if_neg h1, if_neg (fun h => hc ⟨h.1, h.2.1⟩)]

theorem push_eq {i : Insp R} (h0 : i.toCheck ≠ 0) (k : Nat) : i.push k = { i with stack := k :: i.stack } := if_neg h0

theorem pop_eq {i : Insp R} (h0 : i.toCheck ≠ 0) : i.pop = { i with stack := i.stack.tail } := if_neg h0

/-- The state after a forward pass while a weight or an activation is checked, and what is known of the batch size that is remembered. -/
def After (i : Insp R) (us : List Nat) (rb : Nat) : Prop := i.group = .dLdW → i.phase ≠ .analytical → rb = us.getLast?.getD i.realBs

theorem after_append {i : Insp R} {us vs : List Nat} {rb rc : Nat} (h1 : After i us rb) (h2 : ∀ og, After { i with realBs := rb, orig := og } vs rc) : After i (us ++ vs) rc := by
  intro hg hp
  rw [h2 i.orig hg hp]
  cases vs with
  | nil => simpa using h1 hg hp
  | cons v vs =>
    rw [List.getLast?_append, h1 hg hp]
    simp [List.getLast?_cons]

/-- The forward pass with the inspector: what it calculates is what a network calculates whose weight or activation has another value; the weights are the same after it as before it. -/
theorem fprop_eq (E : Env R S) (hE : E.blocked = true) (om : Nat → Mat R) : ∀ (n : Node R) (x : Acts R) (i : Insp R) (m : Mem R S), n.Wf → i.toCheck ≠ 0 → i.changed = none → Apart i n →
    ∃ rb og, n.fprop E om x ⟨i, m⟩ = ((n.eval E.A om (effA E.A i) (effW E.A i m.w) x).1, (n.eval E.A om (effA E.A i) (effW E.A i m.w) x).2,
        ⟨{ i with realBs := rb, orig := og }, m⟩) ∧
      After i (n.uses E.A om (effW E.A i m.w) i.toCheck x) rb := by
  intro n
  induction n with
  | fc idx k inc out upd pre act dz prev dw =>
    intro x i m _ h0 hch hap
    have hap' : i.stack.head? ≠ some idx := hap idx (by simp [Node.ids])
    have hb : St.begin idx (⟨i, m⟩ : St R S) = ⟨{ i with stack := idx :: i.stack }, m⟩ := by
      unfold St.begin
      rw [push_eq h0]
    have hd : ∀ s : St R S, E.doPre idx s = s := by
      intro s
      unfold Env.doPre
      simp [hE]
    obtain ⟨hw, og, hp⟩ := weights_step (S := S) E.A (i := { i with stack := idx :: i.stack }) (k := idx) (r := i.stack) rfl h0 hch x.rows m
    have hact := fun a => eval_acts (S := S) E.A (i := { i with stack := idx :: i.stack, orig := og, realBs := if i.group = .dLdW ∧ i.phase ≠ .analytical ∧ idx = i.toCheck then x.rows else i.realBs })
      (k := idx) (r := i.stack) rfl h0 hap' a m
    simp only [Node.fprop, hb, hd, Node.eval]
    rw [hp, hw]
    obtain ⟨rb, ha, hr⟩ := hact (act (pre (effW E.A { i with stack := idx :: i.stack } m.w idx) x))
    rw [ha]
    refine ⟨rb, og, ?_, ?_⟩
    · simp only [St.finish]
      rw [pop_eq (by exact h0)]
      rfl
    · intro hg hph
      rw [hr hg]
      simp only [Node.uses, hg, hph, ne_eq, not_false_eq_true, true_and]
      by_cases hk : idx = i.toCheck
      · simp [hk]
      · simp [hk]
  | plain idx k f b =>
    intro x i m _ h0 hch hap
    have hap' : i.stack.head? ≠ some idx := hap idx (by simp [Node.ids])
    have hb : St.begin idx (⟨i, m⟩ : St R S) = ⟨{ i with stack := idx :: i.stack }, m⟩ := by
      unfold St.begin
      rw [push_eq h0]
    obtain ⟨rb, ha, hr⟩ := eval_acts (S := S) E.A (i := { i with stack := idx :: i.stack }) (k := idx) (r := i.stack) rfl h0 hap' (f x) m
    simp only [Node.fprop, hb, Node.eval]
    rw [ha]
    refine ⟨rb, i.orig, ?_, ?_⟩
    · simp only [St.finish]
      rw [pop_eq (by exact h0)]
      rfl
    · intro hg hph
      rw [hr hg]
      rfl
  | ext idx post pen back a ih =>
    intro x i m hwf h0 hch hap
    obtain ⟨rb, og, he, hr⟩ := ih x i m hwf.2 h0 hch hap
    refine ⟨rb, og, ?_, hr⟩
    simp only [Node.fprop, Node.eval, he]
  | seq l u ihl ihu =>
    intro x i m hwf h0 hch hap
    obtain ⟨rb, og, he, hr⟩ := ihl x i m hwf.1 h0 hch (fun k hk => hap k (List.mem_append_left _ hk))
    have hmid : ∀ y, ∃ rc oh, u.fprop E om y ⟨{ i with realBs := rb, orig := og }, m⟩ = ((u.eval E.A om (effA E.A i) (effW E.A i m.w) y).1,
        (u.eval E.A om (effA E.A i) (effW E.A i m.w) y).2, ⟨{ i with realBs := rc, orig := oh }, m⟩) ∧
        After { i with realBs := rb, orig := og } (u.uses E.A om (effW E.A i m.w) i.toCheck y) rc :=
      fun y => ihu y { i with realBs := rb, orig := og } m hwf.2 h0 hch (fun k hk => hap k (List.mem_append_right _ hk))
    obtain ⟨rc, oh, he2, hr2⟩ := hmid (l.eval E.A om (effA E.A i) (effW E.A i m.w) x).1
    refine ⟨rc, oh, ?_, ?_⟩
    · simp only [Node.fprop, Node.eval, he, he2]
    · intro hg hph
      have hA : effA E.A i = none := by unfold effA; rw [hg]; simp
      rw [hA] at hr2
      exact after_append hr (fun _ => hr2) hg hph
  | par f g mix fb gb sum a b iha ihb =>
    intro x i m hwf h0 hch hap
    obtain ⟨rb, og, he, hr⟩ := iha (f x) i m hwf.1 h0 hch (fun k hk => hap k (List.mem_append_left _ hk))
    have hmid : ∃ rc oh, b.fprop E om (g x) ⟨{ i with realBs := rb, orig := og }, m⟩ = ((b.eval E.A om (effA E.A i) (effW E.A i m.w) (g x)).1,
        (b.eval E.A om (effA E.A i) (effW E.A i m.w) (g x)).2, ⟨{ i with realBs := rc, orig := oh }, m⟩) ∧
        After { i with realBs := rb, orig := og } (b.uses E.A om (effW E.A i m.w) i.toCheck (g x)) rc :=
      ihb (g x) { i with realBs := rb, orig := og } m hwf.2 h0 hch (fun k hk => hap k (List.mem_append_right _ hk))
    obtain ⟨rc, oh, he2, hr2⟩ := hmid
    refine ⟨rc, oh, ?_, after_append hr fun _ => hr2⟩
    simp only [Node.fprop, Node.eval, he, he2]
  | map f g gb fb a ih =>
    intro x i m hwf h0 hch hap
    obtain ⟨rb, og, he, hr⟩ := ih (f x) i m hwf h0 hch hap
    refine ⟨rb, og, ?_, hr⟩
    simp only [Node.fprop, Node.eval, he]
  | gate run dflt bdflt a ih =>
    intro x i m hwf h0 hch hap
    by_cases hx : run x = true
    · obtain ⟨rb, og, he, hr⟩ := ih x i m hwf h0 hch hap
      refine ⟨rb, og, ?_, ?_⟩
      · simp only [Node.fprop, Node.eval, he, hx, if_true]
      · simp only [Node.uses, hx, if_true]
        exact hr
    · refine ⟨i.realBs, i.orig, ?_, ?_⟩
      · simp only [Node.fprop, Node.eval, hx]
        rfl
      · simp only [Node.uses, hx]
        intro _ _
        rfl
  | pack idx k a ih =>
    intro x i m hwf h0 hch hap
    have hap' : i.stack.head? ≠ some idx := hap idx (by simp [Node.ids])
    have hb : St.begin idx (⟨i, m⟩ : St R S) = ⟨{ i with stack := idx :: i.stack }, m⟩ := by
      unfold St.begin
      rw [push_eq h0]
    obtain ⟨rb, og, he, hr⟩ := ih x { i with stack := idx :: i.stack } m hwf.2 h0 hch (by
      intro k hk
      simp only [List.head?_cons, ne_eq, Option.some.injEq]
      exact fun e => hwf.1 (e ▸ hk))
    obtain ⟨rc, ha, hrc⟩ := eval_acts (S := S) E.A (i := { i with stack := idx :: i.stack, realBs := rb, orig := og }) (k := idx) (r := i.stack) rfl h0 hap'
      (a.eval E.A om (effA E.A i) (effW E.A i m.w) x).1 m
    refine ⟨rc, og, ?_, ?_⟩
    · simp only [Node.fprop, hb, Node.eval]
      rw [he]
      simp only
      have : (a.eval E.A om (effA E.A { i with stack := idx :: i.stack }) (effW E.A { i with stack := idx :: i.stack } m.w) x).1 = (a.eval E.A om (effA E.A i) (effW E.A i m.w) x).1 := rfl
      rw [this, ha]
      simp only [St.finish]
      rw [pop_eq (by exact h0)]
      rfl
    · intro hg hph
      rw [hrc hg]
      exact hr hg hph

end Nntl.GradCheck
