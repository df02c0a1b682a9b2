import Verif.GradCheck.Insp

/-! The calls of the inspector in a backward pass: lemmas. -/
namespace Nntl.GradCheck

variable {R S G : Type}

/-- The value recorded after the gradients `vA` of activations and `vW` of weights of the layer were seen. -/
def Rec (i : Insp R) (vA vW : List (Mat R)) (an : R) : Prop :=
  (i.group = .dLdA → i.phase = .analytical → an = (vA.getLast?.map fun (m : Mat R) => m i.coord.1 i.coord.2).getD i.an) ∧
    (i.group = .dLdW → i.phase = .analytical → an = (vW.getLast?.map fun (m : Mat R) => m i.coord.1 i.coord.2).getD i.an)

theorem last_append {α β : Type} (us vs : List α) (f : α → β) (d : β) :
    ((us ++ vs).getLast?.map f).getD d = (vs.getLast?.map f).getD ((us.getLast?.map f).getD d) := by
  cases vs with
  | nil => simp
  | cons v vs =>
    rw [List.getLast?_append]
    simp [List.getLast?_cons]

theorem Rec.append {i : Insp R} {vA vW uA uW : List (Mat R)} {a b : R} {rb : Nat} (h1 : Rec i vA vW a) (h2 : Rec { i with an := a, realBs := rb } uA uW b) :
    Rec i (vA ++ uA) (vW ++ uW) b := by
  refine ⟨fun hg hp => ?_, fun hg hp => ?_⟩
  · rw [h2.1 hg hp, last_append, h1.1 hg hp]
  · rw [h2.2 hg hp, last_append, h1.2 hg hp]

theorem Rec.nil (i : Insp R) : Rec i [] [] i.an := ⟨fun _ _ => rfl, fun _ _ => rfl⟩

theorem finaldLdA_eq {i : Insp R} {k : Nat} {r : List Nat} (hs : i.stack = k :: r) (h0 : i.toCheck ≠ 0) (own : Bool) (h1 : own = true → r.head? ≠ some k)
    (h2 : own = false → r.head? = some k) (d : Acts R) (m : Mem R S) :
    ∃ a rb, St.finaldLdA d ⟨i, m⟩ = ⟨{ i with an := a, realBs := rb }, m⟩ ∧ Rec i (if own = true ∧ k = i.toCheck then [d.v] else []) [] a := by
  unfold St.finaldLdA
  by_cases hc : (i.here && decide (i.group = .dLdA) && decide (i.phase = .analytical) && i.outermost) = true
  · rw [if_pos hc]
    refine ⟨_, _, rfl, ?_⟩
    simp only [Bool.and_eq_true, decide_eq_true_eq] at hc
    obtain ⟨⟨⟨ht, hg⟩, hp⟩, ho⟩ := hc
    have hk : k = i.toCheck := by
      simp only [Insp.here, hs, List.head?_cons, Option.some.injEq, Bool.and_eq_true, decide_eq_true_eq] at ht
      exact ht.2
    have how : own = true := by
      cases own with
      | true => rfl
      | false =>
        exfalso
        have := h2 rfl
        unfold Insp.outermost at ho
        rw [hs] at ho
        cases r with
        | nil => simp at this
        | cons b r =>
          simp only [List.head?_cons, Option.some.injEq] at this
          simp [this] at ho
    refine ⟨fun _ _ => ?_, fun hg' _ => by rw [hg] at hg'; cases hg'⟩
    rw [if_pos ⟨how, hk⟩]
    rfl
  · rw [if_neg hc]
    refine ⟨i.an, i.realBs, rfl, fun hg hp => ?_, fun _ _ => rfl⟩
    by_cases hk : own = true ∧ k = i.toCheck
    · exfalso
      apply hc
      simp [Insp.here, hs, h0, hk.2, hg, hp, outermost_cons (hk.2 ▸ hs) (hk.2 ▸ h1 hk.1)]
    · rw [if_neg hk]
      rfl

theorem dLdW_eq {i : Insp R} {k : Nat} {r : List Nat} (hs : i.stack = k :: r) (h0 : i.toCheck ≠ 0) (rows : Nat) (g : Mat R) (m : Mem R S) :
    ∃ a rb, St.dLdW rows g ⟨i, m⟩ = ⟨{ i with an := a, realBs := rb }, m⟩ ∧ Rec i [] (if k = i.toCheck then [g] else []) a := by
  unfold St.dLdW
  by_cases hc : (i.here && decide (i.group = .dLdW) && decide (i.phase = .analytical)) = true
  · rw [if_pos hc]
    refine ⟨_, _, rfl, ?_⟩
    simp only [Bool.and_eq_true, decide_eq_true_eq] at hc
    obtain ⟨⟨ht, hg⟩, hp⟩ := hc
    have hk : k = i.toCheck := by
      simp only [Insp.here, hs, List.head?_cons, Option.some.injEq, Bool.and_eq_true, decide_eq_true_eq] at ht
      exact ht.2
    refine ⟨fun hg' _ => absurd (hg.symm.trans hg') (by simp), fun _ _ => ?_⟩
    rw [if_pos hk]
    rfl
  · rw [if_neg hc]
    refine ⟨i.an, i.realBs, rfl, fun _ _ => rfl, fun hg hp => ?_⟩
    by_cases hk : k = i.toCheck
    · exfalso
      apply hc
      simp [Insp.here, hs, h0, hk, hg, hp]
    · rw [if_neg hk]
      rfl

/-- The top of the stack: not a layer of `n`, or (inside of dropout and penalties) the layer `n` itself. -/
def Fit (i : Insp R) (own : Bool) (n : Node R) : Prop := (own = true → Apart i n) ∧ (own = false → ∃ k, n.top = some k ∧ i.stack.head? = some k)

theorem top_mem : ∀ {n : Node R} {k : Nat}, n.Wf → n.top = some k → k ∈ n.ids
  | .fc .., _, _, h => by cases h; simp [Node.ids]
  | .plain .., _, _, h => by cases h; simp [Node.ids]
  | .ext _ _ _ _ a, _, hw, h => by
    cases h
    exact top_mem (n := a) hw.2 hw.1
  | .pack .., _, _, h => by cases h; simp [Node.ids]

theorem Fit.own {i : Insp R} {own : Bool} {n : Node R} (h : Fit i own n) (hw : n.Wf) {k : Nat} (hk : n.top = some k) :
    (own = true → i.stack.head? ≠ some k) ∧ (own = false → i.stack.head? = some k) := by
  refine ⟨fun ho => h.1 ho k (top_mem hw hk), fun ho => ?_⟩
  obtain ⟨j, hj, he⟩ := h.2 ho
  rw [hk] at hj
  cases hj
  exact he

/-- The backward pass with the inspector: what it calculates, what is recorded, and that nothing else changes if learning is blocked. -/
theorem bprop_eq (E : Env R S) (hE : E.blocked = true) (om : Nat → Mat R) : ∀ (n : Node R) (own : Bool) (x d : Acts R) (i : Insp R) (m : Mem R S), n.Wf → i.toCheck ≠ 0 → Fit i own n →
    ∃ a rb, n.bprop E om x d ⟨i, m⟩ = (n.back om m.w x d, ⟨{ i with an := a, realBs := rb }, m⟩) ∧
      Rec i (n.gradA om m.w i.toCheck own x d) (n.gradW om m.w i.toCheck x d) a := by
  intro n
  induction n with
  | fc idx k inc out upd pre act dz prev dw =>
    intro own x d i m hwf h0 hfit
    obtain ⟨hf1, hf2⟩ := hfit.own hwf (k := idx) rfl
    have hb : St.begin idx (⟨i, m⟩ : St R S) = ⟨{ i with stack := idx :: i.stack }, m⟩ := by
      unfold St.begin
      rw [push_eq h0]
    have hd : ∀ (g : Mat R) (s : St R S), E.doApp idx g s = s := by
      intro g s
      unfold Env.doApp
      simp [hE]
    have hfin : ∃ a rb, (if out = true then (⟨{ i with stack := idx :: i.stack }, m⟩ : St R S) else St.finaldLdA d ⟨{ i with stack := idx :: i.stack }, m⟩) =
        ⟨{ i with stack := idx :: i.stack, an := a, realBs := rb }, m⟩ ∧ Rec i (if own = true ∧ idx = i.toCheck ∧ out = false then [d.v] else []) [] a := by
      cases out with
      | true =>
        refine ⟨i.an, i.realBs, rfl, ?_⟩
        simp only [Bool.true_eq_false, and_false, if_false]
        exact Rec.nil i
      | false =>
        obtain ⟨a, rb, he, hr⟩ := finaldLdA_eq (S := S) (i := { i with stack := idx :: i.stack }) (k := idx) (r := i.stack) rfl h0 own hf1 hf2 d m
        refine ⟨a, rb, by simpa using he, ?_⟩
        simp only [and_true]
        exact hr
    obtain ⟨a, rb, he, hr⟩ := hfin
    have hw : ∀ z : Acts R, ∃ a2 rb2, (if upd = true then E.doApp idx (dw z x) (St.dLdW z.rows (dw z x) (⟨{ i with stack := idx :: i.stack, an := a, realBs := rb }, m⟩ : St R S)) else
        (⟨{ i with stack := idx :: i.stack, an := a, realBs := rb }, m⟩ : St R S)) = ⟨{ i with stack := idx :: i.stack, an := a2, realBs := rb2 }, m⟩ ∧
        Rec { i with an := a, realBs := rb } [] (if idx = i.toCheck ∧ upd = true then [dw z x] else []) a2 := by
      intro z
      cases upd with
      | false =>
        refine ⟨a, rb, rfl, ?_⟩
        simp only [Bool.false_eq_true, and_false, if_false]
        exact Rec.nil { i with an := a, realBs := rb }
      | true =>
        obtain ⟨a2, rb2, he2, hr2⟩ := dLdW_eq (S := S) (i := { i with stack := idx :: i.stack, an := a, realBs := rb }) (k := idx) (r := i.stack) rfl h0 z.rows (dw z x) m
        refine ⟨a2, rb2, ?_, ?_⟩
        · rw [if_pos rfl, hd, he2]
        · simp only [and_true]
          exact hr2
    obtain ⟨a2, rb2, he2, hr2⟩ := hw (dz (act (pre (m.w idx) x)) d)
    refine ⟨a2, rb2, ?_, ?_⟩
    · simp only [Node.bprop, hb, he, he2]
      simp only [St.finish]
      rw [pop_eq (by exact h0)]
      rfl
    · have := hr.append hr2
      simpa [Node.gradA, Node.gradW] using this
  | plain idx k f b =>
    intro own x d i m hwf h0 hfit
    obtain ⟨hf1, hf2⟩ := hfit.own hwf (k := idx) rfl
    have hb : St.begin idx (⟨i, m⟩ : St R S) = ⟨{ i with stack := idx :: i.stack }, m⟩ := by
      unfold St.begin
      rw [push_eq h0]
    obtain ⟨a, rb, he, hr⟩ := finaldLdA_eq (S := S) (i := { i with stack := idx :: i.stack }) (k := idx) (r := i.stack) rfl h0 own hf1 hf2 d m
    refine ⟨a, rb, ?_, hr⟩
    simp only [Node.bprop, hb, he, St.finish]
    rw [pop_eq (by exact h0)]
    rfl
  | ext idx post pen back n ih =>
    intro own x d i m hwf h0 hfit
    obtain ⟨hf1, hf2⟩ := hfit.own hwf (k := idx) rfl
    have hb : St.begin idx (⟨i, m⟩ : St R S) = ⟨{ i with stack := idx :: i.stack }, m⟩ := by
      unfold St.begin
      rw [push_eq h0]
    obtain ⟨a, rb, he, hr⟩ := finaldLdA_eq (S := S) (i := { i with stack := idx :: i.stack }) (k := idx) (r := i.stack) rfl h0 own hf1 hf2 (back (om idx) (n.keep om m.w x) d) m
    obtain ⟨a2, rb2, he2, hr2⟩ := ih false x (back (om idx) (n.keep om m.w x) d) { i with stack := idx :: i.stack, an := a, realBs := rb } m hwf.2 h0
      ⟨fun h => absurd h (by simp), fun _ => ⟨idx, hwf.1, rfl⟩⟩
    refine ⟨a2, rb2, ?_, ?_⟩
    · simp only [Node.bprop, hb, he, he2, St.finish]
      rw [pop_eq (by exact h0)]
      rfl
    · have : Rec { i with an := a, realBs := rb } (n.gradA om m.w i.toCheck false x (back (om idx) (n.keep om m.w x) d)) (n.gradW om m.w i.toCheck x (back (om idx) (n.keep om m.w x) d)) a2 := hr2
      exact Rec.append (i := i) hr this
  | seq l u ihl ihu =>
    intro own x d i m hwf h0 hfit
    have hown : own = true := by
      cases own with
      | true => rfl
      | false =>
        obtain ⟨k, hk, -⟩ := hfit.2 rfl
        cases hk
    obtain ⟨a, rb, he, hr⟩ := ihu true (l.keep om m.w x) d i m hwf.2 h0 ⟨fun _ k hk => hfit.1 hown k (List.mem_append_right _ hk), fun h => absurd h (by simp)⟩
    obtain ⟨a2, rb2, he2, hr2⟩ := ihl true x (u.back om m.w (l.keep om m.w x) d) { i with an := a, realBs := rb } m hwf.1 h0
      ⟨fun _ k hk => hfit.1 hown k (List.mem_append_left _ hk), fun h => absurd h (by simp)⟩
    refine ⟨a2, rb2, ?_, hr.append hr2⟩
    simp only [Node.bprop, he, he2]
    rfl
  | par f g mix fb gb sum p q ihp ihq =>
    intro own x d i m hwf h0 hfit
    have hown : own = true := by
      cases own with
      | true => rfl
      | false =>
        obtain ⟨k, hk, -⟩ := hfit.2 rfl
        cases hk
    obtain ⟨a, rb, he, hr⟩ := ihp true (f x) (fb d) i m hwf.1 h0 ⟨fun _ k hk => hfit.1 hown k (List.mem_append_left _ hk), fun h => absurd h (by simp)⟩
    obtain ⟨a2, rb2, he2, hr2⟩ := ihq true (g x) (gb d) { i with an := a, realBs := rb } m hwf.2 h0
      ⟨fun _ k hk => hfit.1 hown k (List.mem_append_right _ hk), fun h => absurd h (by simp)⟩
    refine ⟨a2, rb2, ?_, hr.append hr2⟩
    simp only [Node.bprop, he, he2]
    rfl
  | map f g gb fb n ih =>
    intro own x d i m hwf h0 hfit
    have hown : own = true := by
      cases own with
      | true => rfl
      | false =>
        obtain ⟨k, hk, -⟩ := hfit.2 rfl
        cases hk
    obtain ⟨a, rb, he, hr⟩ := ih true (f x) (gb d) i m hwf h0 ⟨fun _ k hk => hfit.1 hown k hk, fun h => absurd h (by simp)⟩
    refine ⟨a, rb, ?_, hr⟩
    simp only [Node.bprop, he]
    rfl
  | gate run dflt bdflt n ih =>
    intro own x d i m hwf h0 hfit
    have hown : own = true := by
      cases own with
      | true => rfl
      | false =>
        obtain ⟨k, hk, -⟩ := hfit.2 rfl
        cases hk
    by_cases hx : run x = true
    · obtain ⟨a, rb, he, hr⟩ := ih true x d i m hwf h0 ⟨fun _ k hk => hfit.1 hown k hk, fun h => absurd h (by simp)⟩
      refine ⟨a, rb, ?_, ?_⟩
      · simp only [Node.bprop, Node.back, hx, if_true, he]
      · simp only [Node.gradA, Node.gradW, hx, if_true]
        exact hr
    · refine ⟨i.an, i.realBs, ?_, ?_⟩
      · simp only [Node.bprop, Node.back, hx]
        rfl
      · simp only [Node.gradA, Node.gradW, hx]
        exact Rec.nil i
  | pack idx k n ih =>
    intro own x d i m hwf h0 hfit
    obtain ⟨hf1, hf2⟩ := hfit.own hwf (k := idx) rfl
    have hb : St.begin idx (⟨i, m⟩ : St R S) = ⟨{ i with stack := idx :: i.stack }, m⟩ := by
      unfold St.begin
      rw [push_eq h0]
    obtain ⟨a, rb, he, hr⟩ := finaldLdA_eq (S := S) (i := { i with stack := idx :: i.stack }) (k := idx) (r := i.stack) rfl h0 own hf1 hf2 d m
    obtain ⟨a2, rb2, he2, hr2⟩ := ih true x d { i with stack := idx :: i.stack, an := a, realBs := rb } m hwf.2 h0
      ⟨fun _ k hk => by
        simp only [List.head?_cons, ne_eq, Option.some.injEq]
        exact fun e => hwf.1 (e ▸ hk), fun h => absurd h (by simp)⟩
    refine ⟨a2, rb2, ?_, ?_⟩
    · simp only [Node.bprop, hb, he, he2, St.finish]
      rw [pop_eq (by exact h0)]
      rfl
    · have : Rec { i with an := a, realBs := rb } (n.gradA om m.w i.toCheck true x d) (n.gradW om m.w i.toCheck x d) a2 := hr2
      exact Rec.append (i := i) hr this

end Nntl.GradCheck
