import Verif.Sync.Props
/-! C114: priorities. -/
namespace Nntl.Sync

theorem setWk_ok {ok : Nat → Bool} {w : Prio} (h : ok w.calls = true) (i : Nat) (v : Int) :
    setWk ok i v w = (true, { w with wk := upd w.wk i v, calls := w.calls + 1 }) := by unfold setWk; rw [if_pos h]
theorem setWk_fail {ok : Nat → Bool} {w : Prio} (h : ok w.calls = false) (i : Nat) (v : Int) :
    setWk ok i v w = (false, { w with calls := w.calls + 1 }) := by unfold setWk; rw [h]; rfl

/-- The loop when every request is granted. -/
theorem raise_ok (ok : Nat → Bool) (v : Int) : ∀ (k i : Nat) (w : Prio), (∀ j, w.calls ≤ j → j < w.calls + k → ok j = true) →
    raise ok v k i w = (i + k, ⟨w.cls, w.main, fun j => if i ≤ j ∧ j < i + k then v else w.wk j, w.calls + k⟩) := by
  intro k
  induction k with
  | zero =>
    intro i w _
    have : (fun j => if i ≤ j ∧ j < i + 0 then v else w.wk j) = w.wk := by funext j; rw [if_neg (by omega)]
    rw [this]; rfl
  | succ k ih =>
    intro i w h
    unfold raise
    rw [setWk_ok (h _ (Nat.le_refl _) (by omega))]
    simp only [if_true]
    rw [ih]
    · have : (fun j => if i + 1 ≤ j ∧ j < i + 1 + k then v else upd w.wk i v j) = (fun j => if i ≤ j ∧ j < i + (k + 1) then v else w.wk j) := by
        funext j; unfold upd
        by_cases e : j = i
        · subst e; rw [if_neg (by omega), if_pos rfl, if_pos (by omega)]
        · by_cases e2 : i + 1 ≤ j ∧ j < i + 1 + k
          · rw [if_pos e2, if_pos (by omega)]
          · rw [if_neg e2, if_neg e, if_neg (by omega)]
      simp only [this, Prod.mk.injEq, Prio.mk.injEq, true_and]
      omega
    · intro j h1 h2; simp only at h1 h2; exact h j (by omega) (by omega)

theorem lower_ok (ok : Nat → Bool) (v : Int) : ∀ (k i : Nat) (w : Prio), (∀ j, w.calls ≤ j → j < w.calls + k → ok j = true) →
    lower ok v k i w = ⟨w.cls, w.main, fun j => if i ≤ j ∧ j < i + k then v else w.wk j, w.calls + k⟩ := by
  intro k
  induction k with
  | zero =>
    intro i w _
    have : (fun j => if i ≤ j ∧ j < i + 0 then v else w.wk j) = w.wk := by funext j; rw [if_neg (by omega)]
    rw [this]; rfl
  | succ k ih =>
    intro i w h
    unfold lower
    rw [setWk_ok (h _ (Nat.le_refl _) (by omega))]
    simp only
    rw [ih]
    · have : (fun j => if i + 1 ≤ j ∧ j < i + 1 + k then v else upd w.wk i v j) = (fun j => if i ≤ j ∧ j < i + (k + 1) then v else w.wk j) := by
        funext j; unfold upd
        by_cases e : j = i
        · subst e; rw [if_neg (by omega), if_pos rfl, if_pos (by omega)]
        · by_cases e2 : i + 1 ≤ j ∧ j < i + 1 + k
          · rw [if_pos e2, if_pos (by omega)]
          · rw [if_neg e2, if_neg e, if_neg (by omega)]
      simp only [this, Prio.mk.injEq, true_and]
      omega
    · intro j h1 h2; simp only at h1 h2; exact h j (by omega) (by omega)

/-- The loop when request number `f` is the first one that is refused. -/
theorem raise_fail (ok : Nat → Bool) (v : Int) : ∀ (k i a : Nat) (w : Prio), a < k → (∀ j, w.calls ≤ j → j < w.calls + a → ok j = true) →
    ok (w.calls + a) = false →
    raise ok v k i w = (i + a, ⟨w.cls, w.main, fun j => if i ≤ j ∧ j < i + a then v else w.wk j, w.calls + a + 1⟩) := by
  intro k
  induction k with
  | zero => intro i a w h; omega
  | succ k ih =>
    intro i a w ha h hf
    unfold raise
    cases a with
    | zero =>
      rw [setWk_fail (by simpa using hf)]
      have : (fun j => if i ≤ j ∧ j < i + 0 then v else w.wk j) = w.wk := by funext j; rw [if_neg (by omega)]
      rw [this]; rfl
    | succ a =>
      rw [setWk_ok (h _ (Nat.le_refl _) (by omega))]
      simp only [if_true]
      rw [ih (i + 1) a _ (by omega)]
      · have : (fun j => if i + 1 ≤ j ∧ j < i + 1 + a then v else upd w.wk i v j) = (fun j => if i ≤ j ∧ j < i + (a + 1) then v else w.wk j) := by
          funext j; unfold upd
          by_cases e : j = i
          · subst e; rw [if_neg (by omega), if_pos rfl, if_pos (by omega)]
          · by_cases e2 : i + 1 ≤ j ∧ j < i + 1 + a
            · rw [if_pos e2, if_pos (by omega)]
            · rw [if_neg e2, if_neg e, if_neg (by omega)]
        simp only [this, Prod.mk.injEq, Prio.mk.injEq, true_and]
        omega
      · intro j h1 h2; simp only at h1 h2; exact h j (by omega) (by omega)
      · simp only; rw [show w.calls + 1 + a = w.calls + (a + 1) by omega]; exact hf

/-- All requests granted. -/
def allOk : Nat → Bool := fun _ => true

/-- **C114a.** When the operating system grants everything: the mode is set for the process, the main thread and (if asked for) the pool. -/
theorem priorities_set (cnt c : Nat) (p : Int) (all : Bool) (w : Prio) (hc : w.cls ≠ 0) (hm : w.main ≠ errorReturn) :
    let x := construct allOk cnt c p all w
    x.1.restore = true ∧ x.2.cls = c ∧ x.2.main = p ∧ (all = true → ∀ i, i < cnt → x.2.wk i = p) ∧ (all = false → x.2.wk = w.wk) := by
  have hr := raise_ok allOk p cnt 0 ⟨c, p, w.wk, w.calls + 1 + 1⟩ (fun _ _ _ => rfl)
  have okk : ∀ k, allOk k = true := fun _ => rfl
  simp only [construct, setCls, setMain, okk, if_true, hc, hm, ne_eq, not_false_eq_true, and_self]
  cases all with
  | true =>
    simp only [if_true]

    rw [hr]
    simp only [Nat.zero_add, if_true, BEq.rfl]
    refine ⟨trivial, trivial, trivial, ?_, fun h => by cases h⟩
    intro _ i hi
    rw [if_pos ⟨Nat.zero_le _, hi⟩]
  | false =>
    simp

/-- **C114b.** Then the object's end gives back the class and the priority of the main thread, and gives the pool the priority of the *main*
thread: everything is as it was if the pool had that priority before. `all = false`: the pool is not touched. -/
theorem priorities_restored_partial (cnt c : Nat) (p : Int) (all : Bool) (w : Prio) (hc : w.cls ≠ 0) (hm : w.main ≠ errorReturn) :
    let x := construct allOk cnt c p all w
    let w' := destroy allOk cnt x.1 x.2
    w'.cls = w.cls ∧ w'.main = w.main ∧ (all = true → ∀ i, i < cnt → w'.wk i = w.main) ∧ (all = false → w'.wk = w.wk) ∧
    ((all = false ∨ ∀ i, i < cnt → w.wk i = w.main) → Same cnt w' w) := by
  have okk : ∀ k, allOk k = true := fun _ => rfl
  have hr := raise_ok allOk p cnt 0 ⟨c, p, w.wk, w.calls + 1 + 1⟩ (fun _ _ _ => rfl)
  simp only [construct, destroy, setCls, setMain, okk, if_true, hc, hm, ne_eq, not_false_eq_true, and_self]
  cases all with
  | true =>
    simp only [if_true]
    rw [hr]
    simp only [Nat.zero_add, if_true, BEq.rfl]
    rw [lower_ok allOk _ _ _ _ (fun _ _ _ => rfl)]
    have k : ∀ i, i < cnt → (if 0 ≤ i ∧ i < 0 + cnt then w.main else (if 0 ≤ i ∧ i < cnt then p else w.wk i)) = w.main := by
      intro i hi; rw [if_pos ⟨Nat.zero_le _, by omega⟩]
    refine ⟨rfl, rfl, fun _ => k, (fun h => by cases h), ?_⟩
    rintro (h | h)
    · cases h
    · exact ⟨rfl, rfl, fun i hi => by rw [h i hi]; exact k i hi⟩
  | false =>
    simp [Same]

/-- **C114c.** A pool with another priority does not get it back. -/
theorem pool_priority_lost : ∃ (w : Prio), ¬ Same 1 (destroy allOk 1 (construct allOk 1 128 15 true w).1 (construct allOk 1 128 15 true w).2) w := by
  refine ⟨⟨32, 0, fun _ => -1, 0⟩, ?_⟩
  intro h
  have := h.2.2 0 (by omega)
  revert this
  decide

/-- **C114d.** One refused request at any point of the construction: all that was done before is undone (for a pool that had the priority of the main
thread), the object knows that it has nothing to give back. -/
theorem refused_request_undone (cnt c : Nat) (p : Int) (all : Bool) (w : Prio) (f : Nat) (hf1 : w.calls ≤ f)
    (hf2 : f < w.calls + 2 + if all then cnt else 0) (hpool : ∀ i, i < cnt → w.wk i = w.main) (ok : Nat → Bool) (hok : ∀ k, ok k = true ↔ k ≠ f) :
    let x := construct ok cnt c p all w
    x.1.restore = false ∧ Same cnt x.2 w ∧ destroy ok cnt x.1 x.2 = x.2 := by
  intro x
  have hrest : x.1.restore = false ∧ Same cnt x.2 w := by
    have okT : ∀ k, k ≠ f → ok k = true := fun k h => (hok k).2 h
    have okF : ok f = false := by
      cases h : ok f with
      | false => rfl
      | true => exact absurd rfl ((hok f).1 h)
    by_cases hg : w.cls ≠ 0 ∧ w.main ≠ errorReturn
    · by_cases e0 : f = w.calls
      · have o0 : ok w.calls = false := e0 ▸ okF
        have : x = (⟨w.cls, w.main, false, all⟩, { w with calls := w.calls + 1 }) := by
          show construct ok cnt c p all w = _
          unfold construct setCls
          simp only
          rw [if_pos hg, o0]
          rfl
        rw [this]
        exact ⟨rfl, rfl, rfl, fun _ _ => rfl⟩
      · have o0 : ok w.calls = true := okT _ (Ne.symm e0)
        by_cases e1 : f = w.calls + 1
        · have o1 : ok (w.calls + 1) = false := e1 ▸ okF
          have o2 : ok (w.calls + 1 + 1) = true := okT _ (by omega)
          have : x = (⟨w.cls, w.main, false, all⟩, ⟨w.cls, w.main, w.wk, w.calls + 1 + 1 + 1⟩) := by
            show construct ok cnt c p all w = _
            simp only [construct, setCls, setMain, o0, o1, o2, if_true, Bool.false_eq_true, if_false]
            rw [if_pos hg]
          rw [this]
          exact ⟨rfl, rfl, rfl, fun _ _ => rfl⟩
        · have o1 : ok (w.calls + 1) = true := okT _ (Ne.symm e1)
          cases all with
          | false => simp at hf2; omega
          | true =>
            simp only [if_true] at hf2
            have hr := raise_fail ok p cnt 0 (f - (w.calls + 2)) ⟨c, p, w.wk, w.calls + 1 + 1⟩ (by omega)
              (fun j h1 h2 => okT j (by simp only at h1 h2; omega)) (by simp only; rw [show w.calls + 1 + 1 + (f - (w.calls + 2)) = f by omega]; exact okF)
            simp only [Nat.zero_add, Nat.zero_le, true_and] at hr
            generalize ha : f - (w.calls + 2) = a at hr
            have hl := lower_ok ok w.main a 0 ⟨c, p, fun j => if j < a then p else w.wk j, w.calls + 1 + 1 + a + 1⟩
              (fun j h1 h2 => okT j (by simp only at h1 h2; omega))
            simp only [Nat.zero_add, Nat.zero_le, true_and] at hl
            have o3 : ok (w.calls + 1 + 1 + a + 1 + a) = true := okT _ (by omega)
            have o4 : ok (w.calls + 1 + 1 + a + 1 + a + 1) = true := okT _ (by omega)
            have hne : ¬ a = cnt := by omega
            have hneb : (a == cnt) = false := by simpa using hne
            have : x = (⟨w.cls, w.main, false, true⟩, ⟨w.cls, w.main, fun j => if j < a then w.main else (if j < a then p else w.wk j),
                w.calls + 1 + 1 + a + 1 + a + 1 + 1⟩) := by
              show construct ok cnt c p true w = _
              simp only [construct, setCls, setMain, o0, o1, if_true, hr, hneb, hne, if_false, Bool.false_eq_true, hl, o3, o4]
              rw [if_pos hg]
            rw [this]
            refine ⟨rfl, rfl, rfl, ?_⟩
            intro i hi
            simp only
            by_cases h : i < a
            · rw [if_pos h, hpool i hi]
            · rw [if_neg h, if_neg h]
    · have : x = (⟨w.cls, w.main, false, all⟩, w) := by
        show construct ok cnt c p all w = _
        unfold construct
        simp only
        rw [if_neg hg]
      rw [this]
      exact ⟨rfl, rfl, rfl, fun _ _ => rfl⟩
  refine ⟨hrest.1, hrest.2, ?_⟩
  unfold destroy
  rw [hrest.1]
  rfl

/-- **C114e.** Nested objects (a network in training inside a performance test): when both have ended, everything is as it was before. -/
theorem nested_priorities_restored (cnt c1 c2 : Nat) (p1 p2 : Int) (w : Prio) (hc : w.cls ≠ 0) (hm : w.main ≠ errorReturn) (hc1 : c1 ≠ 0)
    (hp1 : p1 ≠ errorReturn) (hpool : ∀ i, i < cnt → w.wk i = w.main) :
    let x := construct allOk cnt c1 p1 true w
    let y := construct allOk cnt c2 p2 true x.2
    let u := destroy allOk cnt y.1 y.2
    Same cnt u x.2 ∧ Same cnt (destroy allOk cnt x.1 u) w := by
  intro x y u
  obtain ⟨s1, s2, s3, s4, _⟩ := priorities_set cnt c1 p1 true w hc hm
  obtain ⟨r1, r2, r3, _, r5⟩ := priorities_restored_partial cnt c2 p2 true x.2 (by rw [show x.2.cls = c1 from s2]; exact hc1)
    (by rw [show x.2.main = p1 from s3]; exact hp1)
  have hu : Same cnt u x.2 := r5 (Or.inr fun i hi => by rw [show x.2.wk i = p1 from s4 rfl i hi, show x.2.main = p1 from s3])
  refine ⟨hu, ?_⟩
  have e : x.1 = ⟨w.cls, w.main, true, true⟩ := by
    have e1 : x.1.restore = true := s1
    have key : ∀ g : Guard, g.cls = w.cls ∧ g.main = w.main ∧ g.all = true → g.restore = true → g = ⟨w.cls, w.main, true, true⟩ := by
      rintro ⟨a, b, c, d⟩ ⟨h1, h2, h3⟩ h4
      simp only at h1 h2 h3 h4
      rw [h1, h2, h3, h4]
    refine key x.1 ?_ e1
    show (construct allOk cnt c1 p1 true w).1.cls = _ ∧ (construct allOk cnt c1 p1 true w).1.main = _ ∧ (construct allOk cnt c1 p1 true w).1.all = true
    unfold construct
    simp only
    repeat' split
    all_goals exact ⟨rfl, rfl, rfl⟩
  rw [e]
  have okk : ∀ k, allOk k = true := fun _ => rfl
  simp only [destroy, setCls, setMain, okk, if_true]
  rw [lower_ok allOk _ _ _ _ (fun _ _ _ => rfl)]
  refine ⟨rfl, rfl, ?_⟩
  intro i hi
  simp only
  rw [if_pos ⟨Nat.zero_le _, by omega⟩, hpool i hi]

/-- **C114f.** `ChangeThreadsPriorities`: with all requests granted it returns `true` and the pool is `less` below the main thread; with one refused
request it returns `false`, threads before the refused one have the priority of the main thread and the others the one they had. -/
theorem change_threads_priorities (cnt : Nat) (less : Int) (w : Prio) :
    ((changeThreads allOk cnt less w).1 = true ∧ (changeThreads allOk cnt less w).2.cls = w.cls ∧ (changeThreads allOk cnt less w).2.main = w.main ∧
      ∀ i, i < cnt → (changeThreads allOk cnt less w).2.wk i = w.main - less) ∧
    ∀ (ok : Nat → Bool) (a : Nat), a < cnt → (∀ k, ok k = true ↔ k ≠ w.calls + a) →
      (changeThreads ok cnt less w).1 = false ∧ (changeThreads ok cnt less w).2.main = w.main ∧
      ∀ i, (changeThreads ok cnt less w).2.wk i = if i < a then w.main else w.wk i := by
  refine ⟨?_, ?_⟩
  · have hr := raise_ok allOk (w.main - less) cnt 0 w (fun _ _ _ => rfl)
    simp only [changeThreads]
    rw [hr]
    simp only [Nat.zero_add, BEq.rfl, if_true]
    refine ⟨trivial, trivial, trivial, ?_⟩
    intro i hi
    rw [if_pos ⟨Nat.zero_le _, hi⟩]
  · intro ok a ha hok
    have okT : ∀ k, k ≠ w.calls + a → ok k = true := fun k h => (hok k).2 h
    have okF : ok (w.calls + a) = false := by
      cases h : ok (w.calls + a) with
      | false => rfl
      | true => exact absurd rfl ((hok _).1 h)
    have hr := raise_fail ok (w.main - less) cnt 0 a w ha (fun j h1 h2 => okT j (by omega)) okF
    simp only [Nat.zero_add, Nat.zero_le, true_and] at hr
    have hl := lower_ok ok w.main a 0 ⟨w.cls, w.main, fun j => if j < a then w.main - less else w.wk j, w.calls + a + 1⟩
      (fun j h1 h2 => okT j (by simp only at h1 h2; omega))
    simp only [Nat.zero_add, Nat.zero_le, true_and] at hl
    have hne : ¬ a = cnt := by omega
    have hneb : (a == cnt) = false := by simpa using hne
    simp only [changeThreads, hr, hneb, hne, if_false, hl, true_and]
    intro i
    by_cases h : i < a
    · rw [if_pos h, if_pos h]
    · rw [if_neg h, if_neg h, if_neg h]

/- Non-vacuity: a pool of three threads, the request for the second one is refused. -/
example : let w : Prio := ⟨32, 0, fun _ => 0, 0⟩
    let x := construct (fun k => k != 3) 3 128 15 true w
    x.1.restore = false ∧ x.2.cls = 32 ∧ x.2.main = 0 ∧ x.2.wk 0 = 0 ∧ x.2.calls = 7 := by decide

end Nntl.Sync
