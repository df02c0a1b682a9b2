import Verif.Life.Spec
/-! Who destroys what. -/
namespace Nntl.Life

theorem bind_ok {α β : Type} {a : Out α} {f : α → Out β} {b : β} (h : a.bind f = .ok b) : ∃ x, a = .ok x ∧ f x = .ok b := by
  cases a with
  | ok x => exact ⟨x, rfl, h⟩
  | abort => cases h
  | ub => cases h

theorem bind_ok' {α β : Type} {a : Out α} {f : α → Out β} {b : β} (h : (a >>= f) = .ok b) : ∃ x, a = .ok x ∧ f x = .ok b := bind_ok h

theorem mathAt_inv {w : World} {p : Option Nat} {r : Nat × MathO} (h : w.mathAt p = .ok r) :
    p = some r.1 ∧ w.maths r.1 = some r.2 ∧ r.2.alive = true := by
  cases p with
  | none => cases h
  | some i =>
    unfold World.mathAt at h
    cases hm : w.maths i with
    | none => simp [hm] at h
    | some m =>
      by_cases ha : m.alive = true
      · simp [hm, ha] at h; subst h; exact ⟨rfl, hm, ha⟩
      · simp [hm, ha] at h

theorem rngAt_inv {w : World} {p : Option Nat} {r : Nat × RngO} (h : w.rngAt p = .ok r) :
    p = some r.1 ∧ w.rngs r.1 = some r.2 ∧ r.2.alive = true := by
  cases p with
  | none => cases h
  | some i =>
    unfold World.rngAt at h
    cases hm : w.rngs i with
    | none => simp [hm] at h
    | some m =>
      by_cases ha : m.alive = true
      · simp [hm, ha] at h; subst h; exact ⟨rfl, hm, ha⟩
      · simp [hm, ha] at h

theorem inspAt_inv {w : World} {p : Option Nat} {r : Nat × InspO} (h : w.inspAt p = .ok r) :
    p = some r.1 ∧ w.insps r.1 = some r.2 ∧ r.2.alive = true := by
  cases p with
  | none => cases h
  | some i =>
    unfold World.inspAt at h
    cases hm : w.insps i with
    | none => simp [hm] at h
    | some m =>
      by_cases ha : m.alive = true
      · simp [hm, ha] at h; subst h; exact ⟨rfl, hm, ha⟩
      · simp [hm, ha] at h

theorem netAt_inv {w : World} {p : Nat} {r : NetO} (h : w.netAt p = .ok r) : w.nets p = some r ∧ r.alive = true := by
  unfold World.netAt at h
  cases hm : w.nets p with
  | none => simp [hm] at h
  | some m =>
    by_cases ha : m.alive = true
    · simp [hm, ha] at h; subst h; exact ⟨rfl, ha⟩
    · simp [hm, ha] at h

theorem layAt_inv {w : World} {p : Nat} {r : LayO} (h : w.layAt p = .ok r) : w.lays p = some r ∧ r.alive = true := by
  unfold World.layAt at h
  cases hm : w.lays p with
  | none => simp [hm] at h
  | some m =>
    by_cases ha : m.alive = true
    · simp [hm, ha] at h; subst h; exact ⟨rfl, ha⟩
    · simp [hm, ha] at h

/-! The part of the world that matters for ownership. -/

/-- (alive, made by) of the objects, and (alive, owned objects) of networks. -/
structure View where
  m : Nat → Option (Bool × Option Nat)
  r : Nat → Option (Bool × Option Nat)
  i : Nat → Option (Bool × Option Nat)
  n : Nat → Option (Bool × Option (Option Nat) × Option (Option Nat) × Option (Option Nat))

def own (b : Bool) (p : Option Nat) : Option (Option Nat) := if b then some p else none

def view (w : World) : View :=
  { m := fun i => (w.maths i).map fun m => (m.alive, m.by_)
    r := fun i => (w.rngs i).map fun m => (m.alive, m.by_)
    i := fun i => (w.insps i).map fun m => (m.alive, m.by_)
    n := fun i => (w.nets i).map fun x => (x.alive, own x.ownM x.math, own x.ownR x.rng, own x.ownI x.insp) }

theorem put_same {α β : Type} (f : Nat → Option α) (i : Nat) (x : α) (g : α → β) (h : (f i).map g = some (g x)) :
    (fun j => (put f i x j).map g) = fun j => (f j).map g := by
  funext j
  unfold put
  by_cases hj : j = i
  · rw [if_pos hj, hj, h]; rfl
  · rw [if_neg hj]

theorem put_self {α : Type} (f : Nat → Option α) (i : Nat) (x : α) : put f i x i = some x := if_pos rfl
theorem put_ne {α : Type} (f : Nat → Option α) {i j : Nat} (x : α) (h : j ≠ i) : put f i x j = f j := if_neg h

theorem attach_view {dbg : Bool} {w w' : World} {mt : Bool} {p q : Option Nat} (h : w.attach dbg mt p q = .ok w') : view w' = view w ∧ w'.nN = w.nN ∧
    w'.nM = w.nM ∧ w'.nR = w.nR ∧ w'.nI = w.nI := by
  unfold World.attach at h
  by_cases hm : mt = true
  · rw [if_pos hm] at h
    obtain ⟨r, hr, h⟩ := bind_ok' h
    obtain ⟨m, _, h⟩ := bind_ok' h
    by_cases ht : r.2.thr.isSome = true
    · rw [if_pos ht] at h
      by_cases hd : dbg = true
      · rw [if_pos hd] at h; cases h
      · rw [if_neg hd] at h; cases h; exact ⟨rfl, rfl, rfl, rfl, rfl⟩
    · rw [if_neg ht] at h
      cases h
      obtain ⟨_, hr2, _⟩ := rngAt_inv hr
      refine ⟨?_, rfl, rfl, rfl, rfl⟩
      unfold view
      simp only [View.mk.injEq, and_true, true_and]
      exact put_same _ _ _ _ (by rw [hr2]; rfl)
  · rw [if_neg hm] at h; cases h; exact ⟨rfl, rfl, rfl, rfl, rfl⟩

theorem deinit_view {w w' : World} {n : Nat} (h : deinit w n = .ok w') : view w' = view w ∧ w'.nN = w.nN ∧ w'.nM = w.nM ∧ w'.nR = w.nR ∧ w'.nI = w.nI := by
  unfold deinit at h
  obtain ⟨x, hx, h⟩ := bind_ok' h
  obtain ⟨l, hl, h⟩ := bind_ok' h
  obtain ⟨r, hr, h⟩ := bind_ok' h
  obtain ⟨m, hm, h⟩ := bind_ok' h
  cases h
  obtain ⟨_, hm2, _⟩ := mathAt_inv hm
  obtain ⟨hx2, _⟩ := netAt_inv hx
  refine ⟨?_, rfl, rfl, rfl, rfl⟩
  unfold view
  simp only [View.mk.injEq, true_and]
  exact ⟨put_same _ _ _ _ (by rw [hm2]; rfl), put_same _ _ _ _ (by rw [hx2]; rfl)⟩

theorem fullInit_view {dbg : Bool} {w w' : World} {n : Nat} (h : fullInit dbg w n = .ok w') :
    view w' = view w ∧ w'.nN = w.nN ∧ w'.nM = w.nM ∧ w'.nR = w.nR ∧ w'.nI = w.nI := by
  unfold fullInit at h
  obtain ⟨x, hx, h⟩ := bind_ok' h
  obtain ⟨_, _, h⟩ := bind_ok' h
  obtain ⟨l, hl, h⟩ := bind_ok' h
  by_cases hd : (dbg && l.cd.isSome) = true
  · rw [if_pos hd] at h; cases h
  · rw [if_neg hd] at h
    obtain ⟨m, hm, h⟩ := bind_ok' h
    obtain ⟨_, _, h⟩ := bind_ok' h
    cases h
    obtain ⟨_, hm2, _⟩ := mathAt_inv hm
    obtain ⟨hx2, _⟩ := netAt_inv hx
    refine ⟨?_, rfl, rfl, rfl, rfl⟩
    unfold view
    simp only [View.mk.injEq, true_and]
    exact ⟨put_same _ _ _ _ (by rw [hm2]; rfl), put_same _ _ _ _ (by rw [hx2]; rfl)⟩

theorem initNet_view {dbg : Bool} {w w' : World} {n : Nat} {again : Bool} (h : initNet dbg w n again = .ok w') :
    view w' = view w ∧ w'.nN = w.nN ∧ w'.nM = w.nM ∧ w'.nR = w.nR ∧ w'.nI = w.nI := by
  unfold initNet at h
  obtain ⟨x, hx, h⟩ := bind_ok' h
  by_cases hd : (x.init && !again) = true
  · rw [if_pos hd] at h
    obtain ⟨m, hm, h⟩ := bind_ok' h
    obtain ⟨_, _, h⟩ := bind_ok' h
    cases h
    obtain ⟨_, hm2, _⟩ := mathAt_inv hm
    refine ⟨?_, rfl, rfl, rfl, rfl⟩
    unfold view
    simp only [View.mk.injEq, and_true]
    exact put_same _ _ _ _ (by rw [hm2]; rfl)
  · rw [if_neg hd] at h
    obtain ⟨u, hu, h⟩ := bind_ok' h
    obtain ⟨a1, a2, a3, a4, a5⟩ := deinit_view hu
    obtain ⟨b1, b2, b3, b4, b5⟩ := fullInit_view h
    exact ⟨b1.trans a1, b2.trans a2, b3.trans a3, b4.trans a4, b5.trans a5⟩

theorem pass_view {dbg : Bool} {w w' : World} {n : Nat} {again : Bool} (h : pass dbg w n again = .ok w') :
    view w' = view w ∧ w'.nN = w.nN ∧ w'.nM = w.nM ∧ w'.nR = w.nR ∧ w'.nI = w.nI := by
  unfold pass at h
  obtain ⟨u, hu, h⟩ := bind_ok' h
  obtain ⟨x, _, h⟩ := bind_ok' h
  obtain ⟨l, _, h⟩ := bind_ok' h
  have hv := initNet_view hu
  cases hc : l.cd with
  | none =>
    rw [hc] at h
    by_cases hd : dbg = true
    · rw [if_pos hd] at h; cases h
    · rw [if_neg hd] at h; cases h
  | some k =>
    rw [hc] at h
    obtain ⟨y, _, h⟩ := bind_ok' h
    obtain ⟨m, _, h⟩ := bind_ok' h
    by_cases h0 : (dbg && decide (m.2.stor < m.2.min)) = true
    · rw [if_pos h0] at h; cases h
    rw [if_neg h0] at h
    by_cases hd : m.2.min < l.req
    · rw [if_pos hd] at h; cases h
    rw [if_neg hd] at h
    by_cases h2 : m.2.stor < l.req
    · rw [if_pos h2] at h; cases h
    · rw [if_neg h2] at h
      obtain ⟨_, _, h⟩ := bind_ok' h
      obtain ⟨_, _, h⟩ := bind_ok' h
      cases h
      exact hv

end Nntl.Life
