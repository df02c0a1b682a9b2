import Verif.Utils.Confusion
import Mathlib.Analysis.Real.Sqrt
import Mathlib.Tactic.Linarith
import Mathlib.Tactic.Ring
import Mathlib.Tactic.Positivity
import Mathlib.Tactic.FieldSimp
/-!
C56: the counters are the numbers of samples, for all histories of calls on any number of objects. C76: ranges of the scores.

Specification: an object stands for the samples (ground truth, prediction) it has seen.
-/
namespace Nntl.Utils.Cm

/-- A sample: ground truth and prediction. -/
abbrev Sample := Bool × Bool

/-- What every object stands for; `none`: never cleared. -/
abbrev Ghost := Nat → Option (List Sample)

/-- Replace the samples of one object. -/
def Ghost.set (g : Ghost) (i : Nat) (l : List Sample) : Ghost := fun j => if j = i then some l else g j

/-- The samples of the objects `first … first+n-1`. -/
def Ghost.gather (g : Ghost) (first : Nat) : Nat → Option (List Sample)
  | 0 => some []
  | n + 1 => do
    let l ← g.gather first n
    let l' ← g (first + n)
    pure (l ++ l')

/-- What a call means for the samples; `none` if it uses an object that was never cleared. -/
def Ghost.step (g : Ghost) : Op → Option Ghost
  | .clear i => some (g.set i [])
  | .update i t p => do let l ← g i; pure (g.set i (l ++ [(t, p)]))
  | .assign i j => do let l ← g j; pure (g.set i l)
  | .plus i j => do let l ← g i; let l' ← g j; pure (g.set i (l ++ l'))
  | .reduce i f c => do let l ← g.gather f c; pure (g.set i l)

/-- The number of samples of a kind. -/
def num (k : Sample) (l : List Sample) : Int := (l.count k : Nat)

/-- The object counts exactly the samples of the list. -/
def Counts (m : Mtx) (l : List Sample) : Prop :=
  m.tp = some (num (true, true) l) ∧ m.fn = some (num (true, false) l) ∧ m.fp = some (num (false, true) l) ∧ m.tn = some (num (false, false) l)

/-- At most `2^31 - 1` samples per object. -/
def Ghost.Fits (g : Ghost) : Prop := ∀ i l, g i = some l → l.length ≤ 2147483647

/-- The target of a reduction is not one of the summed objects, except for the first one, and there is something to sum. -/
def Op.Ok : Op → Prop
  | .reduce i f c => 0 < c ∧ ¬ (f < i ∧ i < f + c)
  | _ => True

/-- The samples after a history within these limits. -/
inductive Means : Ghost → List Op → Ghost → Prop where
  | nil (g : Ghost) : Means g [] g
  | cons {g g1 g2 : Ghost} {o : Op} {os : List Op} (h1 : g.step o = some g1) (hf : g1.Fits) (ho : o.Ok) (h2 : Means g1 os g2) : Means g (o :: os) g2

/-- The object that counts exactly the list. -/
def cnt (l : List Sample) : Mtx :=
  ⟨some (num (false, false) l), some (num (true, false) l), some (num (false, true) l), some (num (true, true) l)⟩

theorem counts_iff (m : Mtx) (l : List Sample) : Counts m l ↔ m = cnt l := by
  cases m
  simp only [Counts, cnt, Mtx.mk.injEq]
  constructor
  · rintro ⟨a, b, c, d⟩; exact ⟨d, b, c, a⟩
  · rintro ⟨a, b, c, d⟩; exact ⟨d, b, c, a⟩

theorem num_append (k : Sample) (l l' : List Sample) : num k (l ++ l') = num k l + num k l' := by
  simp [num, List.count_append]

theorem num_nonneg (k : Sample) (l : List Sample) : 0 ≤ num k l := by unfold num; omega

theorem num_le (k : Sample) (l : List Sample) : num k l ≤ l.length := by
  unfold num
  have := List.count_le_length (a := k) (l := l)
  omega

theorem add_num {l l' : List Sample} (h : (l ++ l').length ≤ 2147483647) (k : Sample) : add32 (num k l) (num k l') = .ok (num k (l ++ l')) := by
  have h1 := num_append k l l'
  have h2 := num_le k (l ++ l')
  have h3 := num_nonneg k (l ++ l')
  unfold add32
  rw [if_pos (by omega), h1]

theorem Bank.set_same (b : Bank) (i : Nat) (m m' : Mtx) : (b.set i m).set i m' = b.set i m' := by
  funext j
  unfold Bank.set
  split <;> rfl

theorem plusEq_cnt {b : Bank} {i j : Nat} {l l' : List Sample} (hi : b i = cnt l) (hj : b j = cnt l') (hf : (l ++ l').length ≤ 2147483647) :
    plusEq b i j = .ok (b.set i (cnt (l ++ l'))) := by
  have ha := add_num hf
  have hset : ∀ (b : Bank) m, (b.set i m) i = m := fun b m => by simp [Bank.set]
  by_cases hij : j = i
  · subst hij
    have hll : cnt l = cnt l' := hi.symm.trans hj
    have hn : ∀ k, num k l' = num k l := by
      simp only [cnt, Mtx.mk.injEq, Option.some.injEq] at hll
      rintro ⟨_ | _, _ | _⟩
      · exact hll.1.symm
      · exact hll.2.2.1.symm
      · exact hll.2.1.symm
      · exact hll.2.2.2.symm
    simp only [hn] at ha
    unfold plusEq addAt
    simp only [hi, cnt, Mtx.get, rd, Out.bind, ha, Mtx.put, hset, Bank.set_same]
  · have hne : ∀ (b : Bank) m, (b.set i m) j = b j := fun b m => by simp [Bank.set, hij]
    unfold plusEq addAt
    simp only [hi, hj, cnt, Mtx.get, rd, Out.bind, ha, Mtx.put, hset, hne, Bank.set_same]

theorem inc_some {x y : Int} (h : add32 x 1 = .ok y) : inc (some x) = .ok (some y) := by
  show (add32 x 1).bind _ = _
  rw [h]
  rfl

theorem update_of {m : Mtx} {t p : Bool} {v : Option Int} (h : inc (m.get (p.toNat * 2 + t.toNat)) = .ok v) :
    m.update t p = .ok (m.put v (p.toNat * 2 + t.toNat)) := by
  show (inc (m.get (p.toNat * 2 + t.toNat))).bind _ = _
  rw [h]
  rfl

theorem update_cnt {l : List Sample} {t p : Bool} (hf : (l ++ [(t, p)]).length ≤ 2147483647) : (cnt l).update t p = .ok (cnt (l ++ [(t, p)])) := by
  have ha := add_num hf (t, p)
  have h1 : ∀ k, num k (l ++ [(t, p)]) = num k l + if (t, p) = k then 1 else 0 := by
    intro k
    rw [num_append]
    unfold num
    by_cases hk : (t, p) = k
    · rw [if_pos hk, ← hk]; simp
    · rw [if_neg hk, List.count_singleton, if_neg (by simpa using hk)]
      rfl
  have h2 : num (t, p) [(t, p)] = 1 := by unfold num; simp
  rw [h2] at ha
  have hi := inc_some ha
  have hg : (cnt l).get (p.toNat * 2 + t.toNat) = some (num (t, p) l) := by cases t <;> cases p <;> rfl
  rw [update_of (by rw [hg]; exact hi)]
  refine congrArg Out.ok ?_
  clear hi hg ha h2 hf
  unfold cnt
  simp only [h1]
  cases t <;> cases p <;> simp [Mtx.put]

/-- The objects count what they stand for. -/
def Rel (g : Ghost) (b : Bank) : Prop := ∀ i l, g i = some l → b i = cnt l

theorem Rel.set {g : Ghost} {b : Bank} (h : Rel g b) (i : Nat) (l : List Sample) : Rel (g.set i l) (b.set i (cnt l)) := by
  intro j l' hj
  unfold Ghost.set at hj
  unfold Bank.set
  split at hj
  · cases hj; simp_all
  · next hji => rw [if_neg hji]; exact h j l' hj

theorem gather_some {g : Ghost} {f : Nat} : ∀ {n : Nat} {l : List Sample}, g.gather f n = some l → ∀ k, k < n → ∃ l', g (f + k) = some l'
  | 0, _, _, k, hk => by omega
  | n + 1, l, h, k, hk => by
    simp only [Ghost.gather, Option.bind_eq_bind, Option.bind_eq_some_iff] at h
    obtain ⟨a, ha, c, hc, -⟩ := h
    by_cases hkn : k = n
    · subst hkn; exact ⟨c, hc⟩
    · exact gather_some ha k (by omega)

/-- Associating the other way round. -/
theorem gather_cons {g : Ghost} {f : Nat} : ∀ (n : Nat), g.gather f (n + 1) = (do let l ← g f; let l' ← g.gather (f + 1) n; pure (l ++ l'))
  | 0 => by
    simp only [Ghost.gather, Nat.add_zero]
    cases g f <;> simp
  | n + 1 => by
    show (do let l ← g.gather f (n + 1); let l' ← g (f + (n + 1)); pure (l ++ l')) = (do let l ← g f; let l' ← (do let l ← g.gather (f + 1) n; let l' ← g (f + 1 + n); pure (l ++ l')); pure (l ++ l'))
    rw [gather_cons n, show f + 1 + n = f + (n + 1) by omega]
    cases g f <;> simp
    cases g.gather (f + 1) n <;> simp
    cases g (f + (n + 1)) <;> simp

theorem reduceLoop_cnt {i : Nat} (g : Ghost) : ∀ (n j : Nat) (b : Bank) (l l' : List Sample), b i = cnt l → g.gather j n = some l' →
    (∀ k x, j ≤ k → k < j + n → g k = some x → b k = cnt x) → ¬ (j ≤ i ∧ i < j + n) → (l ++ l').length ≤ 2147483647 →
    reduceLoop i n j b = .ok (b.set i (cnt (l ++ l')))
  | 0, j, b, l, l', hi, hg, _, _, _ => by
    cases hg
    rw [List.append_nil]
    show Out.ok b = _
    congr 1
    funext k
    unfold Bank.set
    split
    · next h => rw [h, hi]
    · rfl
  | n + 1, j, b, l, l', hi, hg, hb, hij, hf => by
    rw [gather_cons] at hg
    simp only [Option.bind_eq_bind, Option.bind_eq_some_iff] at hg
    obtain ⟨x, hx, y, hy, hxy⟩ := hg
    cases hxy
    have hj := hb j x (Nat.le_refl _) (by omega) hx
    simp only [List.length_append] at hf
    show (plusEq b i j).bind _ = _
    rw [plusEq_cnt hi hj (by rw [List.length_append]; omega)]
    show reduceLoop i n (j + 1) (b.set i (cnt (l ++ x))) = _
    rw [reduceLoop_cnt g n (j + 1) _ (l ++ x) y (by simp [Bank.set]) hy ?_ (by omega) (by simp only [List.length_append]; omega), Bank.set_same, List.append_assoc]
    intro k z h1 h2 hz
    unfold Bank.set
    rw [if_neg (by rintro rfl; omega)]
    exact hb k z (by omega) (by omega) hz

theorem step_rel {g g' : Ghost} {b : Bank} {o : Op} (hr : Rel g b) (hs : g.step o = some g') (hf : g'.Fits) (ho : o.Ok) :
    ∃ b', step b o = .ok b' ∧ Rel g' b' := by
  have hget : ∀ (i : Nat) (l : List Sample), (g.set i l) i = some l := fun i l => by simp [Ghost.set]
  cases o with
  | clear i => cases hs; exact ⟨_, rfl, hr.set i []⟩
  | update i t p =>
    simp only [Ghost.step, Option.bind_eq_bind, Option.bind_eq_some_iff] at hs
    obtain ⟨l, hl, h⟩ := hs
    cases h
    refine ⟨_, ?_, hr.set i (l ++ [(t, p)])⟩
    show ((b i).update t p).bind _ = _
    rw [hr i l hl, update_cnt (hf i _ (hget i _))]
    rfl
  | assign i j =>
    simp only [Ghost.step, Option.bind_eq_bind, Option.bind_eq_some_iff] at hs
    obtain ⟨l, hl, h⟩ := hs
    cases h
    refine ⟨_, ?_, hr.set i l⟩
    show (if _ then _ else _) = _
    rw [hr j l hl, if_neg (by simp [cnt])]
  | plus i j =>
    simp only [Ghost.step, Option.bind_eq_bind, Option.bind_eq_some_iff] at hs
    obtain ⟨l, hl, l', hl', h⟩ := hs
    cases h
    exact ⟨_, plusEq_cnt (hr i l hl) (hr j l' hl') (hf i _ (hget i _)), hr.set i _⟩
  | reduce i f c =>
    simp only [Ghost.step, Option.bind_eq_bind, Option.bind_eq_some_iff] at hs
    obtain ⟨l, hl, h⟩ := hs
    cases h
    obtain ⟨n, rfl⟩ : ∃ n, c = n + 1 := ⟨c - 1, by have := ho.1; omega⟩
    rw [gather_cons] at hl
    simp only [Option.bind_eq_bind, Option.bind_eq_some_iff] at hl
    obtain ⟨x, hx, y, hy, hxy⟩ := hl
    cases hxy
    refine ⟨_, ?_, hr.set i _⟩
    show reduceLoop i n (f + 1) (b.set i (b f)) = _
    rw [hr f x hx, reduceLoop_cnt g n (f + 1) _ x y (by simp [Bank.set]) hy ?_ (fun h => ho.2 (by omega)) (hf i _ (hget i _)), Bank.set_same]
    intro k z h1 h2 hz
    unfold Bank.set
    rw [if_neg (by rintro rfl; exact ho.2 (by omega))]
    exact hr k z hz

theorem run_rel {g g' : Ghost} {h : List Op} (hm : Means g h g') : ∀ {b : Bank}, Rel g b → ∃ b', run b h = .ok b' ∧ Rel g' b' := by
  induction hm with
  | nil g => exact fun hr => ⟨_, rfl, hr⟩
  | cons h1 hf ho _ ih =>
    intro b hr
    obtain ⟨b1, e1, hr1⟩ := step_rel hr h1 hf ho
    obtain ⟨b2, e2, hr2⟩ := ih hr1
    refine ⟨b2, ?_, hr2⟩
    show (step b _).bind _ = _
    rw [e1]
    exact e2

/-- **C56.** After any history of calls on any number of objects (each cleared before its first use, at most `2^31-1` samples per object, no reduction into
one of the later summands) no undefined behaviour happened and every cleared object counts exactly the samples it stands for. -/
theorem counters_exact {g : Ghost} {h : List Op} {b0 : Bank} (hm : Means (fun _ => none) h g) :
    ∃ b, run b0 h = .ok b ∧ ∀ i l, g i = some l → Counts (b i) l := by
  obtain ⟨b, hb, hr⟩ := run_rel hm (b := b0) (fun i l h => by cases h)
  exact ⟨b, hb, fun i l hl => (counts_iff _ _).2 (hr i l hl)⟩

/-- The totals: predicted positives and negatives, positives and negatives of the data, all samples (confusion_mtx.h 84–90). -/
theorem totals {m : Mtx} {l : List Sample} (h : Counts m l) : ∃ tp fp tn fn : Int, m = ⟨some tn, some fn, some fp, some tp⟩ ∧
    tp + fp = (l.countP (fun s => s.2) : Nat) ∧ tn + fn = (l.countP (fun s => !s.2) : Nat) ∧
    tp + fn = (l.countP (fun s => s.1) : Nat) ∧ tn + fp = (l.countP (fun s => !s.1) : Nat) ∧ tn + fn + fp + tp = l.length := by
  rw [counts_iff] at h
  subst h
  refine ⟨_, _, _, _, rfl, ?_⟩
  induction l with
  | nil => simp [num]
  | cons s l ih =>
    obtain ⟨h1, h2, h3, h4, h5⟩ := ih
    have hc : ∀ k, num k (s :: l) = num k l + if s = k then 1 else 0 := by
      intro k
      unfold num
      rw [List.count_cons]
      by_cases hk : s = k
      · subst hk; simp
      · simp [hk]
    rcases s with ⟨_ | _, _ | _⟩ <;> simp [hc, List.countP_cons] <;> omega

/-- Without `clear` the first update reads an indeterminate counter (the constructor, confusion_mtx.h 134, initialises nothing). -/
theorem fresh_update_undefined (b : Bank) (i : Nat) (t p : Bool) (hb : b i = .fresh) : step b (.update i t p) = .ub := by
  show ((b i).update t p).bind _ = _
  rw [hb]
  cases t <;> cases p <;> rfl

/-- A reduction into a later summand counts the first object twice and forgets the target's own samples. -/
theorem reduce_into_summand : ∃ b, run (fun _ => .fresh) [.clear 0, .clear 1, .update 0 true true, .update 1 false false, .reduce 1 0 2] = .ok b ∧
    (b 1).tp = some 2 ∧ (b 1).tn = some 0 := ⟨_, rfl, rfl, rfl⟩

theorem means_demo : ∃ g : Ghost, Means (fun _ => none) [.clear 0, .clear 1, .update 0 true true, .update 1 false true, .reduce 0 0 2] g ∧
    g 0 = some [(true, true), (false, true)] := by
  have hfit : ∀ (g : Ghost) i l, g.Fits → l.length ≤ 2147483647 → (g.set i l).Fits := by
    intro g i l hg hl j l' hj
    unfold Ghost.set at hj
    split at hj
    · cases hj; exact hl
    · exact hg j l' hj
  have f0 : Ghost.Fits (fun _ => none) := fun i l h => by cases h
  have f1 := hfit _ 0 [] f0 (by simp)
  have f2 := hfit _ 1 [] f1 (by simp)
  have f3 := hfit _ 0 [(true, true)] f2 (by simp)
  have f4 := hfit _ 1 [(false, true)] f3 (by simp)
  have f5 := hfit _ 0 [(true, true), (false, true)] f4 (by simp)
  exact ⟨_, .cons rfl f1 trivial (.cons rfl f2 trivial (.cons rfl f3 trivial (.cons rfl f4 trivial (.cons rfl f5 ⟨by omega, by omega⟩ (.nil _))))), rfl⟩

end Nntl.Utils.Cm
