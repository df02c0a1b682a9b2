import Verif.Utils.Holder
import Mathlib.Data.List.Nodup
import Mathlib.Data.List.Perm.Basic
import Mathlib.Data.List.Perm.Subperm
/-!
C59 (mini-batches between two reshuffles) and C77 (safety, pairing and reported indices of the data holder), for all histories of calls, sizes and shuffles.
-/
namespace Nntl.Utils.Dh

/-- The call is within the documented limits: batch sizes are positive and not above the announced maximum, or the full one; a shuffle permutes. -/
def Op.Ok (rows maxB : Nat) : Op → Prop
  | .prepare b => b = rows ∨ (0 < b ∧ b ≤ maxB)
  | .next sh => ∀ l, (sh l).Perm l

/-- What always holds. -/
structure Inv (R M : Nat) (Y : Bool) (s : St) : Prop where
  rows : s.rows = R
  maxB : s.maxB = M
  hasY : s.hasY = Y
  perm : s.idxs.Perm (List.range R)
  next : s.next ≤ R
  cur : if s.full then s.curB = R else 0 < s.curB ∧ s.curB < R
  shown : s.batchX = [] ∨ (s.batchX.length = s.curB ∨ s.full = true) ∧ s.batchX.Nodup ∧ (∀ r ∈ s.batchX, r < R)
  pair : s.batchX = [] ∨ (Y = true → s.batchY = s.batchX)

theorem Inv.len {rows maxB : Nat} {hasY : Bool} {s : St} (h : Inv rows maxB hasY s) : s.idxs.length = rows := by
  rw [h.perm.length_eq, List.length_range]

theorem init_inv {rows maxB : Nat} {hasY : Bool} (hm : maxB < rows) : ∃ s, St.init rows hasY maxB = .ok s ∧ Inv rows maxB hasY s := by
  unfold St.init
  by_cases h0 : maxB = 0
  · subst h0
    simp only [if_true, St.prepare, Nat.le_refl]
    exact ⟨_, rfl, rfl, rfl, rfl, List.Perm.refl _, Nat.le_refl _, rfl, Or.inl rfl, Or.inl rfl⟩
  · simp only [h0, if_false, St.prepare, Nat.not_le.2 hm, false_or, Nat.lt_irrefl]
    refine ⟨_, rfl, rfl, rfl, rfl, List.Perm.refl _, Nat.le_refl _, ?_, Or.inl rfl, Or.inl rfl⟩
    show 0 < maxB ∧ maxB < rows
    omega

theorem prepare_inv {rows maxB b : Nat} {hasY : Bool} {s : St} (h : Inv rows maxB hasY s) (hm : maxB < rows) (hb : b = rows ∨ (0 < b ∧ b ≤ maxB)) :
    ∃ s', s.prepare b = .ok s' ∧ Inv rows maxB hasY s' := by
  unfold St.prepare
  rw [h.rows, h.maxB]
  by_cases hr : rows ≤ b
  · rw [if_pos hr]
    refine ⟨_, rfl, rfl, rfl, h.hasY, h.perm, h.next, rfl, ?_, h.pair⟩
    rcases h.shown with h | ⟨-, h2, h3⟩
    · exact Or.inl h
    · exact Or.inr ⟨Or.inr rfl, h2, h3⟩
  · rw [if_neg hr, if_neg (by omega)]
    refine ⟨_, rfl, rfl, rfl, h.hasY, h.perm, h.next, ?_, Or.inl rfl, Or.inl rfl⟩
    show 0 < b ∧ b < rows
    omega

/-- What one mini-batch call does. -/
theorem next_mini {rows maxB : Nat} {hasY : Bool} {s : St} {sh : List Nat → List Nat} (h : Inv rows maxB hasY s) (hf : s.full = false) (hsh : ∀ l, (sh l).Perm l) :
    ∃ p n, p.Perm (List.range rows) ∧ n + s.curB ≤ rows ∧ (if wraps s then p = sh s.idxs ∧ n = 0 else p = s.idxs ∧ n = s.next) ∧
      s.nextBatch sh = .ok { s with idxs := p, next := n + s.curB, batchX := (p.drop n).take s.curB, batchY := if s.hasY then (p.drop n).take s.curB else s.batchY } := by
  have hc := h.cur
  rw [hf] at hc
  simp only [Bool.false_eq_true, if_false] at hc
  have hl := h.len
  have hw : wraps s = decide (rows ≤ s.next + s.curB) := by unfold wraps; rw [hl]
  by_cases hwr : rows ≤ s.next + s.curB
  · have hw1 : wraps s = true := by rw [hw]; simpa using hwr
    have hp : (sh s.idxs).Perm (List.range rows) := (hsh _).trans h.perm
    have hpl : (sh s.idxs).length = rows := by rw [hp.length_eq, List.length_range]
    refine ⟨sh s.idxs, 0, hp, by omega, by rw [if_pos hw1]; exact ⟨rfl, rfl⟩, ?_⟩
    unfold St.nextBatch
    rw [hf, if_neg (by simp), if_neg (by omega), hw1]
    simp only [if_true, extract, hpl]
    rw [if_pos (by omega)]
  · have hw0 : wraps s = false := by rw [hw]; simpa using hwr
    refine ⟨s.idxs, s.next, h.perm, by omega, by rw [hw0]; exact ⟨rfl, rfl⟩, ?_⟩
    unfold St.nextBatch
    rw [hf, if_neg (by simp), if_neg (by omega), hw0]
    simp only [Bool.false_eq_true, if_false, extract, hl]
    rw [if_pos (by omega)]
    simp only [hf]

theorem chunk_nodup {rows : Nat} {p : List Nat} (hp : p.Perm (List.range rows)) (n b : Nat) : ((p.drop n).take b).Nodup ∧ ∀ r ∈ (p.drop n).take b, r < rows := by
  have hs : List.Sublist ((p.drop n).take b) p := (List.take_sublist _ _).trans (List.drop_sublist _ _)
  refine ⟨(hp.nodup_iff.2 List.nodup_range).sublist hs, fun r hr => ?_⟩
  exact List.mem_range.1 (hp.mem_iff.1 (hs.subset hr))

theorem next_inv {rows maxB : Nat} {hasY : Bool} {s : St} {sh : List Nat → List Nat} (h : Inv rows maxB hasY s) (hsh : ∀ l, (sh l).Perm l) :
    ∃ s', s.nextBatch sh = .ok s' ∧ Inv rows maxB hasY s' ∧ s'.curB = s.curB ∧ s'.full = s.full ∧
      (s.full = false → s'.batchX.length = s.curB ∧ s'.curIdxs = .ok s'.batchX) := by
  by_cases hf : s.full = true
  · refine ⟨s, ?_, h, rfl, rfl, ?_⟩
    · unfold St.nextBatch; rw [hf]; rfl
    · intro hc; rw [hf] at hc; cases hc
  · have hf : s.full = false := by simpa using hf
    obtain ⟨p, n, hp, hn, -, he⟩ := next_mini h hf hsh
    have hlen : ((p.drop n).take s.curB).length = s.curB := by
      rw [List.length_take, List.length_drop, hp.length_eq, List.length_range]; omega
    obtain ⟨hnd, hlt⟩ := chunk_nodup hp n s.curB
    refine ⟨_, he, ⟨h.rows, h.maxB, h.hasY, hp, hn, h.cur, Or.inr ⟨Or.inl hlen, hnd, hlt⟩, Or.inr ?_⟩, rfl, rfl, fun _ => ⟨hlen, ?_⟩⟩
    · intro hy
      have : s.hasY = true := by rw [h.hasY]; exact hy
      simp [this]
    · unfold St.curIdxs
      rw [if_pos (Nat.le_add_left _ _)]
      simp

theorem run_inv {rows maxB : Nat} {hasY : Bool} (hm : maxB < rows) : ∀ (os : List Op) (s : St), Inv rows maxB hasY s → (∀ o ∈ os, o.Ok rows maxB) →
    ∃ s', s.run os = .ok s' ∧ Inv rows maxB hasY s'
  | [], s, h, _ => ⟨s, rfl, h⟩
  | o :: os, s, h, ho => by
    have h1 : ∃ s1, s.step o = .ok s1 ∧ Inv rows maxB hasY s1 := by
      cases o with
      | prepare b => exact prepare_inv h hm (ho _ List.mem_cons_self)
      | next sh =>
        obtain ⟨s', e, hi, -⟩ := next_inv h (ho _ List.mem_cons_self)
        exact ⟨s', e, hi⟩
    obtain ⟨s1, e1, hi1⟩ := h1
    obtain ⟨s2, e2, hi2⟩ := run_inv hm os s1 hi1 (fun o h => ho o (List.mem_cons_of_mem _ h))
    refine ⟨s2, ?_, hi2⟩
    show (match s.step o with | .ok s' => s'.run os | .ub => .ub) = _
    rw [e1]
    exact e2

/-- **C77.** After initialisation and any history of batch size changes and batches within the documented limits nothing is accessed out of bounds, and a further
`nextBatch` shows as many distinct rows of the data as the current batch size says, the labels of the same rows in the same order, and (in mini-batch mode) reports the indices
of exactly these rows. -/
theorem holder_batches (rows maxB : Nat) (hasY : Bool) (hm : maxB < rows) (os : List Op) (ho : ∀ o ∈ os, o.Ok rows maxB)
    (sh : List Nat → List Nat) (hsh : ∀ l, (sh l).Perm l) :
    ∃ s0 s s', St.init rows hasY maxB = .ok s0 ∧ s0.run os = .ok s ∧ s.nextBatch sh = .ok s' ∧
      s'.shownX.length = s.curB ∧ s'.shownX.Nodup ∧ (∀ r ∈ s'.shownX, r < rows) ∧ (hasY = true → s'.shownY = s'.shownX) ∧
      (s.full = false → s'.curIdxs = .ok s'.shownX) := by
  obtain ⟨s0, e0, h0⟩ := init_inv (hasY := hasY) hm
  obtain ⟨s, e, h⟩ := run_inv hm os s0 h0 ho
  obtain ⟨s', e', h', hc, hf, hx⟩ := next_inv h hsh
  refine ⟨s0, s, s', e0, e, e', ?_⟩
  by_cases hfull : s.full = true
  · have hf' : s'.full = true := by rw [hf, hfull]
    have hcur := h.cur
    rw [if_pos hfull] at hcur
    unfold St.shownX St.shownY
    rw [if_pos hf', if_pos hf', h'.rows, hcur]
    exact ⟨List.length_range, List.nodup_range, fun r hr => List.mem_range.1 hr, fun _ => rfl, fun hc => by rw [hfull] at hc; cases hc⟩
  · have hfull : s.full = false := by simpa using hfull
    obtain ⟨hl, hcu⟩ := hx hfull
    have hf' : ¬ s'.full = true := by rw [hf, hfull]; simp
    have hcur := h.cur
    rw [hfull] at hcur
    simp only [Bool.false_eq_true, if_false] at hcur
    have hne : s'.batchX ≠ [] := by
      intro hn
      rw [hn] at hl
      simp at hl
      omega
    unfold St.shownX St.shownY
    rw [if_neg hf', if_neg hf']
    rcases h'.shown with hn | ⟨-, hnd, hlt⟩
    · exact absurd hn hne
    rcases h'.pair with hn | hp
    · exact absurd hn hne
    exact ⟨hl, hnd, hlt, hp, fun _ => hcu⟩

/-- The reported indices are wrong (before the beginning of the vector) after switching from mini-batches to the full batch. -/
theorem reported_indices_full_batch : ∃ s0 s, St.init 10 true 3 = .ok s0 ∧ s0.run [.next id, .prepare 10, .next id] = .ok s ∧ s.shownX.length = 10 ∧ s.curIdxs = .ub :=
  ⟨_, _, rfl, rfl, rfl, rfl⟩

/-- The batches of a period: the first call reshuffles (to `p`), the following ones do not, and show consecutive pieces of `p`. -/
theorem batches_run {rows maxB : Nat} {hasY : Bool} {sh : Nat → List Nat → List Nat} (hsh : ∀ k l, (sh k l).Perm l) : ∀ (k : Nat) (s : St), Inv rows maxB hasY s → s.full = false →
    s.next + k * s.curB < rows → ∃ ls s', s.batches sh k = .ok (ls, s') ∧ Inv rows maxB hasY s' ∧ s'.full = false ∧ s'.curB = s.curB ∧ s'.idxs = s.idxs ∧
      s'.next = s.next + k * s.curB ∧ ls.length = k ∧ (∀ b ∈ ls, b.length = s.curB) ∧ ls.flatten = (s.idxs.drop s.next).take (k * s.curB)
  | 0, s, h, hf, _ => ⟨[], s, rfl, h, hf, rfl, rfl, by simp, rfl, by simp, by simp⟩
  | k + 1, s, h, hf, hlt => by
    rw [Nat.succ_mul] at hlt
    obtain ⟨p, n, hp, hn, hw, he⟩ := next_mini h hf (hsh k)
    have hw0 : wraps s = false := by unfold wraps; rw [h.len]; simp; omega
    rw [hw0] at hw
    obtain ⟨rfl, rfl⟩ := hw
    obtain ⟨s1, e1, h1, hc1, hf1, hx1⟩ := next_inv h (hsh k)
    have hs1 : s1.idxs = s.idxs ∧ s1.next = s.next + s.curB ∧ s1.batchX = (s.idxs.drop s.next).take s.curB := by
      rw [he] at e1; cases e1; exact ⟨rfl, rfl, rfl⟩
    rw [hf] at hf1
    obtain ⟨ls, s', e, h', hf', hc', hi', hn', hl, hb, hfl⟩ := batches_run (sh := sh) hsh k s1 h1 hf1 (by rw [hs1.2.1, hc1]; omega)
    have hsx : s1.shownX = (s.idxs.drop s.next).take s.curB := by unfold St.shownX; rw [hf1, ← hs1.2.2]; rfl
    refine ⟨s1.shownX :: ls, s', ?_, h', hf', by rw [hc', hc1], by rw [hi', hs1.1], ?_, by simp [hl], ?_, ?_⟩
    · show (match s.nextBatch (sh k) with | .ub => (Out.ub : Out (List (List Nat) × St)) | .ok s1 => match s1.batches sh k with | .ub => Out.ub | .ok (l, s2) => Out.ok (s1.shownX :: l, s2)) = _
      rw [e1]
      dsimp only
      rw [e]
    · rw [hn', hs1.2.1, hc1, Nat.succ_mul]; omega
    · intro b hbm
      rcases List.mem_cons.1 hbm with rfl | hbm
      · unfold St.shownX
        rw [hf1]
        exact (hx1 hf).1
      · rw [← hc1]; exact hb b hbm
    · rw [List.flatten_cons, hfl, hsx, hs1.1, hs1.2.1, hc1, ← List.drop_drop, Nat.succ_mul, Nat.add_comm (k * s.curB), List.take_add]

/-- Any history that leaves the holder at a reshuffle point in mini-batch mode (`s`, for instance right after `init`), the permutation `p` chosen by the reshuffle, and the number
`K` of batches with `K·b < rows ≤ (K+1)·b`: the next `K` calls show the first `K·b` entries of `p` in consecutive batches of `b`, and the call after them reshuffles. -/
theorem period {rows maxB : Nat} {hasY : Bool} {s : St} (h : Inv rows maxB hasY s) (hf : s.full = false) (hw : wraps s = true) {sh : Nat → List Nat → List Nat}
    (hsh : ∀ k l, (sh k l).Perm l) (k : Nat) (hk : (k + 1) * s.curB < rows ∨ k = 0) :
    ∃ ls s', s.batches sh (k + 1) = .ok (ls, s') ∧ ls.length = k + 1 ∧ (∀ b ∈ ls, b.length = s.curB) ∧ ls.flatten = (sh k s.idxs).take ((k + 1) * s.curB) ∧
      (wraps s' = true ↔ rows ≤ (k + 2) * s.curB) := by
  obtain ⟨p, n, hp, hn, hpw, he⟩ := next_mini h hf (hsh k)
  rw [if_pos hw] at hpw
  obtain ⟨rfl, rfl⟩ := hpw
  obtain ⟨s1, e1, h1, hc1, hf1, hx1⟩ := next_inv h (hsh k)
  have hs1 : s1.idxs = sh k s.idxs ∧ s1.next = s.curB ∧ s1.batchX = (sh k s.idxs).take s.curB := by
    rw [he] at e1; cases e1; exact ⟨rfl, Nat.zero_add _, rfl⟩
  rw [hf] at hf1
  have hcur := h.cur
  rw [hf] at hcur
  simp only [Bool.false_eq_true, if_false] at hcur
  obtain ⟨ls, s', e, h', hf', hc', hi', hn', hl, hb, hfl⟩ := batches_run (sh := sh) hsh k s1 h1 hf1
    (by rw [hs1.2.1, hc1]; rcases hk with hk | rfl
        · rw [Nat.succ_mul] at hk; omega
        · rw [Nat.zero_mul]; omega)
  have hsx : s1.shownX = (sh k s.idxs).take s.curB := by unfold St.shownX; rw [hf1, ← hs1.2.2]; rfl
  refine ⟨s1.shownX :: ls, s', ?_, by simp [hl], ?_, ?_, ?_⟩
  · show (match s.nextBatch (sh k) with | .ub => (Out.ub : Out (List (List Nat) × St)) | .ok s1 => match s1.batches sh k with | .ub => Out.ub | .ok (l, s2) => Out.ok (s1.shownX :: l, s2)) = _
    rw [e1]
    dsimp only
    rw [e]
  · intro b hbm
    rcases List.mem_cons.1 hbm with rfl | hbm
    · unfold St.shownX
      rw [hf1]
      exact (hx1 hf).1
    · rw [← hc1]; exact hb b hbm
  · rw [List.flatten_cons, hfl, hsx, hs1.1, hs1.2.1, hc1, Nat.succ_mul, Nat.add_comm (k * s.curB), List.take_add]
  · unfold wraps
    rw [h'.len, hn', hs1.2.1, hc1, hc', hc1]
    simp only [decide_eq_true_eq]
    have : (k + 2) * s.curB = s.curB + k * s.curB + s.curB := by rw [Nat.add_mul]; omega
    rw [this]

/-- **C59, sizes that do not divide.** If the batch size does not divide the number of rows, then between two reshuffles exactly `rows / b` batches are shown — all full
mini-batches of the permutation —, they are pairwise disjoint, and the next call reshuffles. -/
theorem all_full_batches_partial {rows maxB : Nat} {hasY : Bool} {s : St} (h : Inv rows maxB hasY s) (hf : s.full = false) (hw : wraps s = true)
    {sh : Nat → List Nat → List Nat} (hsh : ∀ k l, (sh k l).Perm l) (hd : rows % s.curB ≠ 0) :
    ∃ (ls : List (List Nat)) (s' : St) (p : List Nat), s.batches sh (rows / s.curB) = .ok (ls, s') ∧ p.Perm (List.range rows) ∧ ls.length = rows / s.curB ∧ (∀ b ∈ ls, b.length = s.curB) ∧
      ls.flatten = p.take (rows / s.curB * s.curB) ∧ ls.flatten.Nodup ∧ wraps s' = true := by
  have hcur := h.cur
  rw [hf] at hcur
  simp only [Bool.false_eq_true, if_false] at hcur
  have hdm := Nat.div_add_mod rows s.curB
  have hmod := Nat.mod_lt rows hcur.1
  have hq : 1 ≤ rows / s.curB := Nat.div_pos (by omega) hcur.1
  obtain ⟨k, hk⟩ : ∃ k, rows / s.curB = k + 1 := ⟨rows / s.curB - 1, by omega⟩
  rw [hk, Nat.mul_comm] at hdm
  obtain ⟨ls, s', e, hl, hb, hfl, hwr⟩ := period h hf hw hsh k (Or.inl (by omega))
  rw [hk]
  have hp : (sh k s.idxs).Perm (List.range rows) := (hsh _ _).trans h.perm
  refine ⟨ls, s', sh k s.idxs, e, hp, hl, hb, hfl, ?_, hwr.2 ?_⟩
  · rw [hfl]
    exact (hp.nodup_iff.2 List.nodup_range).sublist (List.take_sublist _ _)
  · have : (k + 2) * s.curB = (k + 1) * s.curB + s.curB := by rw [← Nat.succ_mul]
    omega

/-- **C59 is false when the batch size divides the number of rows** (and is not the full one): between two reshuffles only `rows / b - 1` batches are shown and the last
mini-batch of the permutation is skipped, although it is full. For `rows = 2·b` every call reshuffles. -/
theorem last_full_batch_skipped {rows maxB : Nat} {hasY : Bool} {s : St} (h : Inv rows maxB hasY s) (hf : s.full = false) (hw : wraps s = true)
    {sh : Nat → List Nat → List Nat} (hsh : ∀ k l, (sh k l).Perm l) (hd : rows % s.curB = 0) :
    ∃ (ls : List (List Nat)) (s' : St) (p : List Nat), s.batches sh (rows / s.curB - 1) = .ok (ls, s') ∧ p.Perm (List.range rows) ∧ ls.length = rows / s.curB - 1 ∧
      ls.flatten = p.take (rows - s.curB) ∧ (∀ r ∈ p.drop (rows - s.curB), r ∉ ls.flatten) ∧ (p.drop (rows - s.curB)).length = s.curB ∧ wraps s' = true := by
  have hcur := h.cur
  rw [hf] at hcur
  simp only [Bool.false_eq_true, if_false] at hcur
  have hdm := Nat.div_add_mod rows s.curB
  rw [hd, Nat.add_zero] at hdm
  have hq : 2 ≤ rows / s.curB := by
    generalize rows / s.curB = q at hdm
    by_contra hc
    have : q = 0 ∨ q = 1 := by omega
    rcases this with h0 | h0
    · rw [h0, Nat.mul_zero] at hdm; omega
    · rw [h0, Nat.mul_one] at hdm; omega
  obtain ⟨k, hk⟩ : ∃ k, rows / s.curB = k + 2 := ⟨rows / s.curB - 2, by omega⟩
  rw [hk, Nat.mul_comm] at hdm
  have e2 : (k + 2) * s.curB = (k + 1) * s.curB + s.curB := by rw [← Nat.succ_mul]
  obtain ⟨ls, s', e, hl, hb, hfl, hwr⟩ := period h hf hw hsh k (Or.inl (by omega))
  rw [hk, show k + 2 - 1 = k + 1 by omega]
  have hp : (sh k s.idxs).Perm (List.range rows) := (hsh _ _).trans h.perm
  have e3 : (k + 1) * s.curB = rows - s.curB := by omega
  rw [e3] at hfl
  have hpl : (sh k s.idxs).length = rows := by rw [hp.length_eq, List.length_range]
  refine ⟨ls, s', sh k s.idxs, e, hp, hl, hfl, ?_, by rw [List.length_drop, hpl]; omega, hwr.2 (by omega)⟩
  intro r hr hc
  rw [hfl] at hc
  have hnd : (sh k s.idxs).Nodup := hp.nodup_iff.2 List.nodup_range
  rw [← List.take_append_drop (rows - s.curB) (sh k s.idxs), List.nodup_append] at hnd
  exact hnd.2.2 r hc r hr rfl

/-- The number of batches the holder announces is one more than it shows between two reshuffles then. -/
theorem announced_count_overstates : ∃ s, St.init 6 false 2 = .ok s ∧ wraps s = true ∧ s.batchesCount = 3 ∧
    ∃ ls s', s.batches (fun _ l => l) 2 = .ok (ls, s') ∧ ls = [[0, 1], [2, 3]] ∧ wraps s' = true := ⟨_, rfl, rfl, rfl, _, _, rfl, rfl, rfl⟩

/-- The hypotheses of the theorems about a period are met right after `init`. -/
theorem init_at_reshuffle {rows maxB : Nat} {hasY : Bool} (h0 : 0 < maxB) (hm : maxB < rows) :
    ∃ s, St.init rows hasY maxB = .ok s ∧ Inv rows maxB hasY s ∧ s.full = false ∧ s.curB = maxB ∧ wraps s = true := by
  obtain ⟨s, e, h⟩ := init_inv (hasY := hasY) hm
  have e' := e
  unfold St.init at e'
  simp only [Nat.pos_iff_ne_zero.1 h0, if_false, St.prepare, Nat.not_le.2 hm, false_or, Nat.lt_irrefl] at e'
  cases e'
  refine ⟨_, e, h, rfl, rfl, ?_⟩
  unfold wraps
  simp

end Nntl.Utils.Dh
