import Verif.Fwd.Spec
namespace Nntl.Fwd

variable {S A R : Type}

theorem bind_ok {α β : Type} {o : Out α} {f : α → Out β} {b : β} (h : o.bind f = .ok b) :
    ∃ a, o = .ok a ∧ f a = .ok b := by
  cases o with
  | ok a => exact ⟨a, rfl, h⟩
  | ub => cases h
  | reject => cases h

theorem ok_inj {α : Type} {a b : α} (h : Out.ok a = Out.ok b) : a = b := by cases h; rfl

theorem accepts_iff (e : Env S A R) (T : FType S A R) (c : Cat) : accepts e T c = true ↔ Compiles e T c := by
  unfold accepts Compiles
  cases hk : e.kind <;> cases c <;> simp [and_assoc, and_comm, and_left_comm]

theorem wrap_iff (e : Env S A R) (T : FType S A R) : wrap e T = .itself ↔ Small e T := by
  unfold wrap Small
  cases hk : e.kind
  · by_cases h : T.size ≤ e.N
    · simp [h]
    · simp [h]
  · by_cases h : T.trivial = true ∧ T.size ≤ e.N
    · simp [h]
    · simp only [if_neg h]
      constructor
      · intro hh; split at hh <;> cases hh
      · intro hh; exact absurd ⟨hh.2 (by first | rfl | trivial), hh.1⟩ h

theorem wrap_small {e : Env S A R} {T : FType S A R} (h : Small e T) : wrap e T = .itself := (wrap_iff e T).2 h

theorem wrap_big {e : Env S A R} {T : FType S A R} (h : ¬ Small e T) : wrap e T = .byRef := by
  cases hw : wrap e T with
  | itself => exact absurd ((wrap_iff e T).1 hw) h
  | byRef => rfl

theorem give_small {e : Env S A R} {o : Obj S} {a : Nat} {c : Cat} (h : Small e (e.ty o.ty)) :
    giveHandle e o a c = assignVal e o.ty o.st c := by
  unfold giveHandle; rw [wrap_small h]

theorem give_big {e : Env S A R} {o : Obj S} {a : Nat} {c : Cat} (h : ¬ Small e (e.ty o.ty)) :
    giveHandle e o a c = assignRef e o.ty a := by
  unfold giveHandle; rw [wrap_big h]

theorem assignVal_ok {e : Env S A R} {t : Nat} {s : S} {c : Cat} {x : Handle S}
    (h : assignVal e t s c = .ok x) : x = ⟨some (.val t), .bytes s⟩ := by
  unfold assignVal at h
  split at h
  · split at h
    · exact (ok_inj h).symm
    · cases h
  · cases h

theorem assignRef_ok {e : Env S A R} {t a : Nat} {x : Handle S}
    (h : assignRef e t a = .ok x) : x = ⟨some (.ref t), .addr a⟩ := by
  unfold assignRef at h
  split at h
  · split at h
    · exact (ok_inj h).symm
    · cases h
  · cases h

theorem callAt_ok {e : Env S A R} {w : World S} {t a : Nat} {x : A} {p : World S × R}
    (h : callAt e w t a x = .ok p) :
    ∃ s, w.objs a = some ⟨t, s⟩ ∧ p = (setObj w a (some ⟨t, ((e.ty t).call s x).1⟩), ((e.ty t).call s x).2) := by
  unfold callAt at h
  cases ho : w.objs a with
  | none => rw [ho] at h; cases h
  | some o =>
    rw [ho] at h
    by_cases ht : o.ty = t
    · simp only [if_pos ht] at h
      obtain ⟨ty, st⟩ := o
      cases ht
      exact ⟨st, rfl, (ok_inj h).symm⟩
    · simp only [if_neg ht] at h; cases h

theorem callAt_eq {e : Env S A R} {w : World S} {t a : Nat} {s : S} (x : A) (h : w.objs a = some ⟨t, s⟩) :
    callAt e w t a x = .ok (setObj w a (some ⟨t, ((e.ty t).call s x).1⟩), ((e.ty t).call s x).2) := by
  unfold callAt; rw [h]; simp

theorem callHandle_own {e : Env S A R} {w : World S} {h t : Nat} {s : S} (x : A)
    (hh : w.hs h = ⟨some (.val t), .bytes s⟩) :
    callHandle e w h x =
      .ok (setH w h ⟨some (.val t), .bytes ((e.ty t).call s x).1⟩, ((e.ty t).call s x).2) := by
  unfold callHandle; rw [hh]

theorem callHandle_ref {e : Env S A R} {w : World S} {h t a : Nat} (x : A)
    (hh : w.hs h = ⟨some (.ref t), .addr a⟩) : callHandle e w h x = callAt e w t a x := by
  unfold callHandle; rw [hh]

/-- A call of a handle changes a functor object or the bytes of that handle. -/
theorem callHandle_hs {e : Env S A R} {w : World S} {h : Nat} {x : A} {p : World S × R}
    (hc : callHandle e w h x = .ok p) : ∀ k, k ≠ h → p.1.hs k = w.hs k := by
  intro k hk
  unfold callHandle at hc
  split at hc
  · cases hc; simp [setH, hk]
  · obtain ⟨s, _, rfl⟩ := callAt_ok hc; rfl
  · cases hc

/-- An operation that does not replace the functor of `h` leaves `h` alone unless it calls it. -/
theorem step_keeps {e : Env S A R} {w : World S} {op : Op S A} {p : World S × Obs R} {h : Nat}
    (hs : step e w op = .ok p) (hr : ¬ Replaces h op) (hc : ∀ x, op ≠ .callH h x) : p.1.hs h = w.hs h := by
  cases op with
  | new a t s =>
    simp only [step] at hs
    split at hs
    · cases hs
    · cases hs; rfl
  | kill a =>
    simp only [step] at hs
    split at hs
    · cases hs; rfl
    · cases hs
  | callObj a x =>
    simp only [step] at hs
    split at hs
    · obtain ⟨q, hq, h2⟩ := bind_ok hs
      obtain ⟨s, _, rfl⟩ := callAt_ok hq
      cases h2; rfl
    · cases hs
  | assign k a c =>
    have hk : ¬ k = h := hr
    have hk' : ¬ h = k := fun x => hk x.symm
    simp only [step] at hs
    split at hs
    · obtain ⟨q, _, h2⟩ := bind_ok hs
      cases h2; simp [setH, hk']
    · cases hs
  | give k a c =>
    have hk : ¬ k = h := hr
    have hk' : ¬ h = k := fun x => hk x.symm
    simp only [step] at hs
    split at hs
    · obtain ⟨q, _, h2⟩ := bind_ok hs
      cases h2; simp [setH, hk']
    · cases hs
  | null k =>
    have hk : ¬ k = h := hr
    have hk' : ¬ h = k := fun x => hk x.symm
    simp only [step] at hs
    split at hs
    · cases hs; simp [setH, hk']
    · cases hs
  | reset k =>
    have hk : ¬ k = h := hr
    have hk' : ¬ h = k := fun x => hk x.symm
    simp only [step] at hs
    cases hs; simp [setH, hk']
  | copy k l =>
    have hk : ¬ k = h := hr
    have hk' : ¬ h = k := fun x => hk x.symm
    simp only [step] at hs
    cases hs; simp [setH, hk']
  | swap k l =>
    have hk : ¬ (k = h ∨ l = h) := hr
    have hk' : ¬ h = k := fun x => hk (.inl x.symm)
    have hl' : ¬ h = l := fun x => hk (.inr x.symm)
    simp only [step] at hs
    cases hs; simp [setH, hk', hl']
  | callH k x =>
    have hk : h ≠ k := fun hh => hc x (by rw [hh])
    simp only [step] at hs
    obtain ⟨q, hq, h2⟩ := bind_ok hs
    cases h2
    exact callHandle_hs hq h hk
  | test k => simp only [step] at hs; cases hs; rfl

/-- An object that is not ended keeps its type. -/
theorem step_type {e : Env S A R} {w : World S} {op : Op S A} {p : World S × Obs R} {a t : Nat} {s : S}
    (hs : step e w op = .ok p) (ho : w.objs a = some ⟨t, s⟩) (hk : op ≠ .kill a) :
    ∃ s', p.1.objs a = some ⟨t, s'⟩ := by
  have call : ∀ {b t' : Nat} {x : A} {q : World S × R}, callAt e w t' b x = .ok q →
      ∃ s', q.1.objs a = some ⟨t, s'⟩ := by
    intro b t' x q hq
    obtain ⟨s1, h1, rfl⟩ := callAt_ok hq
    by_cases hb : a = b
    · subst hb
      rw [ho] at h1
      cases h1
      exact ⟨((e.ty t).call s x).1, by simp [setObj]⟩
    · exact ⟨s, by simp [setObj, hb, ho]⟩
  cases op with
  | new b t' s' =>
    simp only [step] at hs
    by_cases hb : a = b
    · subst hb; rw [ho] at hs; cases hs
    · split at hs
      · cases hs
      · cases hs; exact ⟨s, by simp [setObj, hb, ho]⟩
  | kill b =>
    have hb : ¬ a = b := fun hh => hk (by rw [hh])
    simp only [step] at hs
    split at hs
    · cases hs; exact ⟨s, by simp [setObj, hb, ho]⟩
    · cases hs
  | callObj b x =>
    simp only [step] at hs
    split at hs
    · obtain ⟨q, hq, h2⟩ := bind_ok hs
      cases h2
      exact call hq
    · cases hs
  | assign k b c =>
    simp only [step] at hs
    split at hs
    · obtain ⟨q, _, h2⟩ := bind_ok hs
      cases h2; exact ⟨s, ho⟩
    · cases hs
  | give k b c =>
    simp only [step] at hs
    split at hs
    · obtain ⟨q, _, h2⟩ := bind_ok hs
      cases h2; exact ⟨s, ho⟩
    · cases hs
  | null k =>
    simp only [step] at hs
    split at hs
    · cases hs; exact ⟨s, ho⟩
    · cases hs
  | reset k => simp only [step] at hs; cases hs; exact ⟨s, ho⟩
  | copy k l => simp only [step] at hs; cases hs; exact ⟨s, ho⟩
  | swap k l => simp only [step] at hs; cases hs; exact ⟨s, ho⟩
  | callH k x =>
    simp only [step] at hs
    obtain ⟨q, hq, h2⟩ := bind_ok hs
    cases h2
    unfold callHandle at hq
    split at hq
    · cases hq; exact ⟨s, ho⟩
    · exact call hq
    · cases hq
  | test k => simp only [step] at hs; cases hs; exact ⟨s, ho⟩

/-! ### Programs -/

theorem run_cons {e : Env S A R} {w : World S} {op : Op S A} {ops : List (Op S A)} {p : World S × List (Obs R)}
    (h : run e w (op :: ops) = .ok p) :
    ∃ q, step e w op = .ok q ∧ ∃ r, run e q.1 ops = .ok r ∧ p = (r.1, q.2 :: r.2) := by
  simp only [run] at h
  obtain ⟨q, hq, h2⟩ := bind_ok h
  obtain ⟨r, hr, h3⟩ := bind_ok h2
  exact ⟨q, hq, r, hr, (ok_inj h3).symm⟩

theorem argsOf_callH (h : Nat) (x : A) (l : List (Op S A)) : argsOf h (.callH h x :: l) = x :: argsOf h l := by
  simp [argsOf]

theorem argsOf_other {h : Nat} {op : Op S A} (l : List (Op S A)) (ho : ∀ x, op ≠ .callH h x) :
    argsOf h (op :: l) = argsOf h l := by
  cases op with
  | callH k x =>
    have hk : ¬ k = h := fun hh => ho x (by rw [hh])
    simp [argsOf, hk]
  | _ => rfl

/-- A handle with a functor of its own: after a program that does not replace it, its functor has seen the calls of the
program. -/
theorem run_own {e : Env S A R} (h t : Nat) : ∀ (ops : List (Op S A)) (w : World S) (s : S)
    (p : World S × List (Obs R)), w.hs h = ⟨some (.val t), .bytes s⟩ → run e w ops = .ok p →
    (∀ op ∈ ops, ¬ Replaces h op) →
    p.1.hs h = ⟨some (.val t), .bytes (stateAfter (e.ty t) s (argsOf h ops))⟩ := by
  intro ops
  induction ops with
  | nil => intro w s p hw hr _; simp only [run] at hr; cases hr; exact hw
  | cons op l ih =>
    intro w s p hw hr hn
    obtain ⟨q, hq, r, hr', rfl⟩ := run_cons hr
    have hn' : ∀ op ∈ l, ¬ Replaces h op := fun o ho => hn o (List.mem_cons_of_mem _ ho)
    by_cases hc : ∃ x, op = .callH h x
    · obtain ⟨x, rfl⟩ := hc
      simp only [step] at hq
      rw [callHandle_own x hw] at hq
      cases hq
      have := ih _ ((e.ty t).call s x).1 r (by simp [setH]) hr' hn'
      rw [this, argsOf_callH]
      rfl
    · have hc' : ∀ x, op ≠ .callH h x := fun x hx => hc ⟨x, hx⟩
      have h1 := step_keeps hq (hn op List.mem_cons_self) hc'
      have := ih q.1 s r (by rw [h1, hw]) hr' hn'
      rw [this, argsOf_other l hc']

/-- A handle with somebody's functor keeps referring to it. -/
theorem run_ref {e : Env S A R} (h t a : Nat) : ∀ (ops : List (Op S A)) (w : World S)
    (p : World S × List (Obs R)), w.hs h = ⟨some (.ref t), .addr a⟩ → run e w ops = .ok p →
    (∀ op ∈ ops, ¬ Replaces h op) → p.1.hs h = ⟨some (.ref t), .addr a⟩ := by
  intro ops
  induction ops with
  | nil => intro w p hw hr _; simp only [run] at hr; cases hr; exact hw
  | cons op l ih =>
    intro w p hw hr hn
    obtain ⟨q, hq, r, hr', rfl⟩ := run_cons hr
    have hn' : ∀ op ∈ l, ¬ Replaces h op := fun o ho => hn o (List.mem_cons_of_mem _ ho)
    by_cases hc : ∃ x, op = .callH h x
    · obtain ⟨x, rfl⟩ := hc
      simp only [step] at hq
      rw [callHandle_ref x hw] at hq
      obtain ⟨y, hy, h2⟩ := bind_ok hq
      obtain ⟨s, _, rfl⟩ := callAt_ok hy
      cases h2
      exact ih (setObj w a (some ⟨t, ((e.ty t).call s x).1⟩)) r hw hr' hn'
    · have hc' : ∀ x, op ≠ .callH h x := fun x hx => hc ⟨x, hx⟩
      have h1 := step_keeps hq (hn op List.mem_cons_self) hc'
      exact ih q.1 r (by rw [h1, hw]) hr' hn'

theorem run_type {e : Env S A R} (a t : Nat) : ∀ (ops : List (Op S A)) (w : World S) (s : S)
    (p : World S × List (Obs R)), w.objs a = some ⟨t, s⟩ → run e w ops = .ok p →
    (∀ op ∈ ops, op ≠ .kill a) → ∃ s', p.1.objs a = some ⟨t, s'⟩ := by
  intro ops
  induction ops with
  | nil => intro w s p hw hr _; simp only [run] at hr; cases hr; exact ⟨s, hw⟩
  | cons op l ih =>
    intro w s p hw hr hn
    obtain ⟨q, hq, r, hr', rfl⟩ := run_cons hr
    obtain ⟨s', hs'⟩ := step_type hq hw (hn op List.mem_cons_self)
    exact ih q.1 s' r hs' hr' (fun o ho => hn o (List.mem_cons_of_mem _ ho))

/-! ### Worlds that differ in one handle -/

/-- Worlds that are the same but for the state of the functor kept in `h`. -/
structure Same (h t : Nat) (w v : World S) : Prop where
  objs : w.objs = v.objs
  hs : ∀ k, k ≠ h → w.hs k = v.hs k
  left : ∃ s, w.hs h = ⟨some (.val t), .bytes s⟩
  right : ∃ s, v.hs h = ⟨some (.val t), .bytes s⟩

theorem Same.setObj {h t : Nat} {w v : World S} (hs : Same h t w v) (a : Nat) (o : Option (Obj S)) :
    Same h t (setObj w a o) (setObj v a o) :=
  ⟨by simp [Fwd.setObj, hs.objs], hs.hs, hs.left, hs.right⟩

theorem Same.setH {h t : Nat} {w v : World S} (hs : Same h t w v) {k : Nat} (hk : k ≠ h) (x : Handle S) :
    Same h t (setH w k x) (setH v k x) := by
  have hk' : ¬ h = k := fun y => hk y.symm
  refine ⟨hs.objs, ?_, ?_, ?_⟩
  · intro l hl
    by_cases h1 : l = k
    · simp [Fwd.setH, h1]
    · simp [Fwd.setH, h1, hs.hs l hl]
  · obtain ⟨s, e⟩ := hs.left; exact ⟨s, by simp [Fwd.setH, hk', e]⟩
  · obtain ⟨s, e⟩ := hs.right; exact ⟨s, by simp [Fwd.setH, hk', e]⟩

theorem callAt_same {e : Env S A R} {h t : Nat} {w v : World S} (hs : Same h t w v) {t' a : Nat} {x : A}
    {p : World S × R} (hc : callAt e w t' a x = .ok p) : ∃ v', callAt e v t' a x = .ok (v', p.2) ∧ Same h t p.1 v' := by
  obtain ⟨s, ho, rfl⟩ := callAt_ok hc
  rw [hs.objs] at ho
  exact ⟨_, callAt_eq x ho, hs.setObj _ _⟩

theorem step_same {e : Env S A R} {h t : Nat} {w v : World S} (hs : Same h t w v) {op : Op S A}
    {p : World S × Obs R} (hp : step e w op = .ok p) (hr : ¬ Replaces h op) (hf : ¬ CopiesFrom h op)
    (hc : ∀ x, op ≠ .callH h x) : ∃ v', step e v op = .ok (v', p.2) ∧ Same h t p.1 v' := by
  cases op with
  | new a t' s =>
    simp only [step] at hp ⊢
    rw [hs.objs] at hp
    split at hp
    · cases hp
    · rename_i heq
      cases hp
      exact ⟨_, rfl, hs.setObj _ _⟩
  | kill a =>
    simp only [step] at hp ⊢
    rw [hs.objs] at hp
    split at hp
    · rename_i heq
      cases hp
      exact ⟨_, rfl, hs.setObj _ _⟩
    · cases hp
  | callObj a x =>
    simp only [step] at hp ⊢
    rw [hs.objs] at hp
    split at hp
    · rename_i o heq
      obtain ⟨q, hq, h2⟩ := bind_ok hp
      obtain ⟨v', hv', hs'⟩ := callAt_same hs hq
      cases h2
      exact ⟨v', by simp only [hv']; rfl, hs'⟩
    · cases hp
  | assign k a c =>
    simp only [step] at hp ⊢
    rw [hs.objs] at hp
    split at hp
    · rename_i o heq
      obtain ⟨q, hq, h2⟩ := bind_ok hp
      cases h2
      exact ⟨_, by simp only [hq]; rfl, hs.setH hr _⟩
    · cases hp
  | give k a c =>
    simp only [step] at hp ⊢
    rw [hs.objs] at hp
    split at hp
    · rename_i o heq
      obtain ⟨q, hq, h2⟩ := bind_ok hp
      cases h2
      exact ⟨_, by simp only [hq]; rfl, hs.setH hr _⟩
    · cases hp
  | null k =>
    simp only [step] at hp ⊢
    have hk : k ≠ h := hr
    split at hp
    · cases hp
      rw [hs.hs k hk]
      exact ⟨_, rfl, hs.setH hk _⟩
    · cases hp
  | reset k =>
    simp only [step] at hp ⊢
    have hk : k ≠ h := hr
    cases hp
    rw [hs.hs k hk]
    exact ⟨_, rfl, hs.setH hk _⟩
  | copy k l =>
    simp only [step] at hp ⊢
    have hk : k ≠ h := hr
    have hl : l ≠ h := hf
    cases hp
    rw [hs.hs l hl]
    exact ⟨_, rfl, hs.setH hk _⟩
  | swap k l =>
    simp only [step] at hp ⊢
    have hk : k ≠ h := fun y => hr (.inl y)
    have hl : l ≠ h := fun y => hr (.inr y)
    cases hp
    rw [hs.hs l hl, hs.hs k hk]
    exact ⟨_, rfl, (hs.setH hk _).setH hl _⟩
  | callH k x =>
    have hk : k ≠ h := fun hh => hc x (by rw [hh])
    simp only [step] at hp ⊢
    obtain ⟨q, hq, h2⟩ := bind_ok hp
    cases h2
    unfold callHandle at hq
    rw [hs.hs k hk] at hq
    split at hq
    · rename_i t' s h1 h2
      cases hq
      refine ⟨_, ?_, hs.setH hk _⟩
      unfold callHandle
      rw [h1, h2]
      rfl
    · rename_i t' a h1 h2
      obtain ⟨v', hv', hs'⟩ := callAt_same hs hq
      refine ⟨v', ?_, hs'⟩
      unfold callHandle
      rw [h1, h2]
      simp only [hv']
      rfl
    · cases hq
  | test k =>
    simp only [step] at hp ⊢
    cases hp
    refine ⟨v, ?_, hs⟩
    by_cases hk : k = h
    · subst hk
      obtain ⟨s1, e1⟩ := hs.left
      obtain ⟨s2, e2⟩ := hs.right
      rw [e1, e2]
      rfl
    · rw [hs.hs k hk]

theorem without_other {h : Nat} {op : Op S A} (l : List (Op S A)) (ho : ∀ x, op ≠ .callH h x) :
    withoutCalls h (op :: l) = op :: withoutCalls h l := by
  cases op with
  | callH k x =>
    have hk : ¬ k = h := fun hh => ho x (by rw [hh])
    simp [withoutCalls, hk]
  | _ => rfl

theorem run_same {e : Env S A R} (h t : Nat) : ∀ (ops : List (Op S A)) (w v : World S) (p : World S × List (Obs R)),
    Same h t w v → run e w ops = .ok p → (∀ op ∈ ops, ¬ Replaces h op ∧ ¬ CopiesFrom h op) →
    ∃ q, run e v (withoutCalls h ops) = .ok q ∧ Same h t p.1 q.1 := by
  intro ops
  induction ops with
  | nil => intro w v p hs hr _; simp only [run] at hr; cases hr; exact ⟨(v, []), rfl, hs⟩
  | cons op l ih =>
    intro w v p hs hr hn
    obtain ⟨q, hq, r, hr', rfl⟩ := run_cons hr
    have hn' : ∀ op ∈ l, ¬ Replaces h op ∧ ¬ CopiesFrom h op := fun o ho => hn o (List.mem_cons_of_mem _ ho)
    by_cases hc : ∃ x, op = .callH h x
    · obtain ⟨x, rfl⟩ := hc
      obtain ⟨s, hsl⟩ := hs.left
      simp only [step] at hq
      rw [callHandle_own x hsl] at hq
      cases hq
      have hs' : Same h t (setH w h ⟨some (.val t), .bytes ((e.ty t).call s x).1⟩) v := by
        refine ⟨hs.objs, ?_, ⟨((e.ty t).call s x).1, by simp [setH]⟩, hs.right⟩
        intro k hk
        have : ¬ k = h := hk
        simp [setH, this, hs.hs k hk]
      obtain ⟨y, hy, hys⟩ := ih _ v r hs' hr' hn'
      refine ⟨y, ?_, hys⟩
      simp [withoutCalls, hy]
    · have hc' : ∀ x, op ≠ .callH h x := fun x hx => hc ⟨x, hx⟩
      obtain ⟨v', hv', hs'⟩ := step_same hs hq (hn op List.mem_cons_self).1 (hn op List.mem_cons_self).2 hc'
      obtain ⟨y, hy, hys⟩ := ih q.1 v' r hs' hr' hn'
      refine ⟨(y.1, q.2 :: y.2), ?_, hys⟩
      rw [without_other l hc']
      simp only [run, hv', Out.bind, hy]

/-! ### The meaning of the raw handles -/

/-- The raw handle stands for the meaning. -/
def Stands (x : Handle S) : Mean S → Prop
  | .empty => x.stub = none
  | .own t s => x = ⟨some (.val t), .bytes s⟩
  | .other t a => x = ⟨some (.ref t), .addr a⟩

structure Sim (w : World S) (v : SWorld S) : Prop where
  objs : w.objs = v.objs
  hs : ∀ k, Stands (w.hs k) (v.mean k)

theorem Sim.setObj {w : World S} {v : SWorld S} (hs : Sim w v) (a : Nat) (o : Option (Obj S)) :
    Sim (setObj w a o) (sObj v a o) :=
  ⟨by simp [Fwd.setObj, sObj, hs.objs], hs.hs⟩

theorem Sim.setH {w : World S} {v : SWorld S} (hs : Sim w v) (h : Nat) {x : Handle S} {m : Mean S}
    (hx : Stands x m) : Sim (setH w h x) (sSet v h m) := by
  refine ⟨hs.objs, ?_⟩
  intro k
  by_cases hk : k = h
  · simp only [Fwd.setH, sSet, hk, if_true]; exact hx
  · simp only [Fwd.setH, sSet, hk, if_false]; exact hs.hs k

/-- Outcomes that agree. -/
inductive Agree {α β : Type} (r : α → β → Prop) : Out α → Out β → Prop where
  | ok {a : α} {b : β} : r a b → Agree r (.ok a) (.ok b)
  | ub : Agree r .ub .ub
  | reject : Agree r .reject .reject

theorem assignVal_sim (e : Env S A R) (o : Obj S) (c : Cat) :
    Agree Stands (assignVal e o.ty o.st c) (sPut e o c) := by
  unfold assignVal sPut
  by_cases h : accepts e (e.ty o.ty) c = true
  · rw [if_pos h, if_pos ((accepts_iff _ _ _).1 h)]
    by_cases h2 : (e.ty o.ty).align ≤ e.al
    · rw [if_pos h2, if_pos h2]; exact .ok rfl
    · rw [if_neg h2, if_neg h2]; exact .ub
  · rw [if_neg h, if_neg (fun x => h ((accepts_iff _ _ _).2 x))]; exact .reject

theorem give_sim (e : Env S A R) (o : Obj S) (a : Nat) (c : Cat) :
    Agree Stands (giveHandle e o a c) (sGive e o a c) := by
  unfold sGive
  by_cases h : Small e (e.ty o.ty)
  · rw [if_pos h, give_small h]; exact assignVal_sim e o c
  · rw [if_neg h, give_big h]
    unfold assignRef
    by_cases h1 : e.ptr ≤ e.storeSize
    · rw [if_pos h1, if_pos h1]
      by_cases h2 : e.ptr ≤ e.al
      · rw [if_pos h2, if_pos h2]; exact .ok rfl
      · rw [if_neg h2, if_neg h2]; exact .ub
    · rw [if_neg h1, if_neg h1]; exact .reject

/-- Worlds agree and so does what the program sees. -/
def Both (p : World S × Obs R) (q : SWorld S × Obs R) : Prop := Sim p.1 q.1 ∧ p.2 = q.2

theorem set_sim {w : World S} {v : SWorld S} (hs : Sim w v) (h : Nat) {x : Out (Handle S)} {m : Out (Mean S)}
    (hx : Agree Stands x m) :
    Agree (Both (R := R)) (x.bind fun y => .ok (setH w h y, .none)) (m.bind fun y => .ok (sSet v h y, .none)) := by
  cases hx with
  | ok h1 => exact .ok ⟨hs.setH h h1, rfl⟩
  | ub => exact .ub
  | reject => exact .reject

theorem step_sim (e : Env S A R) {w : World S} {v : SWorld S} (hs : Sim w v) (op : Op S A) :
    Agree Both (step e w op) (sStep e v op) := by
  cases op with
  | new a t s =>
    simp only [step, sStep]
    rw [hs.objs]
    cases v.objs a with
    | none => exact .ok ⟨hs.setObj _ _, rfl⟩
    | some o => exact .ub
  | kill a =>
    simp only [step, sStep]
    rw [hs.objs]
    cases v.objs a with
    | none => exact .ub
    | some o => exact .ok ⟨hs.setObj _ _, rfl⟩
  | callObj a x =>
    simp only [step, sStep]
    rw [hs.objs]
    cases ho : v.objs a with
    | none => exact .ub
    | some o =>
      have ho' : w.objs a = some ⟨o.ty, o.st⟩ := by rw [hs.objs]; exact ho
      simp only [callAt_eq x ho']
      exact .ok ⟨hs.setObj _ _, rfl⟩
  | assign h a c =>
    simp only [step, sStep]
    rw [hs.objs]
    cases v.objs a with
    | none => exact .ub
    | some o => exact set_sim hs h (assignVal_sim e o c)
  | give h a c =>
    simp only [step, sStep]
    rw [hs.objs]
    cases v.objs a with
    | none => exact .ub
    | some o => exact set_sim hs h (give_sim e o a c)
  | null h =>
    simp only [step, sStep]
    cases e.kind with
    | cmc => exact .ok ⟨hs.setH h (m := .empty) rfl, rfl⟩
    | fwd => exact .reject
  | reset h => exact .ok ⟨hs.setH h (m := .empty) rfl, rfl⟩
  | copy h k => exact .ok ⟨hs.setH h (hs.hs k), rfl⟩
  | swap h k => exact .ok ⟨(hs.setH h (hs.hs k)).setH k (hs.hs h), rfl⟩
  | callH h x =>
    simp only [step, sStep]
    have hh := hs.hs h
    cases hm : v.mean h with
    | empty =>
      rw [hm] at hh
      have hh' : (w.hs h).stub = none := hh
      have : callHandle e w h x = .ub := by
        unfold callHandle
        rw [hh']
      rw [this]; exact .ub
    | own t s =>
      rw [hm] at hh
      rw [callHandle_own x hh]
      exact .ok ⟨hs.setH h (m := .own t ((e.ty t).call s x).1) rfl, rfl⟩
    | other t a =>
      rw [hm] at hh
      rw [callHandle_ref x hh]
      simp only
      unfold callAt
      rw [hs.objs]
      cases v.objs a with
      | none => exact .ub
      | some o =>
        simp only
        by_cases ht : o.ty = t
        · rw [if_pos ht, if_pos ht]
          exact .ok ⟨hs.setObj _ _, rfl⟩
        · rw [if_neg ht, if_neg ht]; exact .ub
  | test h =>
    simp only [step, sStep]
    refine .ok ⟨hs, ?_⟩
    have hh := hs.hs h
    unfold isSet
    cases hm : v.mean h with
    | empty =>
      rw [hm] at hh
      have hh' : (w.hs h).stub = none := hh
      rw [hh']; rfl
    | own t s => rw [hm] at hh; rw [show w.hs h = _ from hh]; rfl
    | other t a => rw [hm] at hh; rw [show w.hs h = _ from hh]; rfl

theorem run_sim (e : Env S A R) : ∀ (ops : List (Op S A)) (w : World S) (v : SWorld S), Sim w v →
    seen (run e w ops) = sRun e v ops := by
  intro ops
  induction ops with
  | nil => intro w v _; rfl
  | cons op l ih =>
    intro w v hs
    have h := step_sim e hs op
    simp only [run, sRun]
    generalize step e w op = a at h
    generalize sStep e v op = b at h
    cases h with
    | ok hb =>
      rename_i p q
      have := ih p.1 q.1 hb.1
      simp only [Out.bind]
      rw [← this, hb.2]
      cases run e p.1 l <;> rfl
    | ub => rfl
    | reject => rfl

theorem start_sim : Sim (World.start : World S) SWorld.start := ⟨rfl, fun _ => rfl⟩

end Nntl.Fwd
