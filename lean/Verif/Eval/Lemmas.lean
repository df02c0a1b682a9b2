import Verif.Eval.Model
import Verif.Eval.Spec
import Verif.Kernel.RowProps
import Mathlib.Tactic.Ring
/-! Lemmas about the evaluators. -/
namespace Nntl.Eval
open Nntl.Matrix Nntl.Kernel Nntl.Threads
variable {α : Type} [LinearOrder α]

theorem mem_binRow (frac : α) (src : Nat → α) (pD pS n : Nat) (p : Nat × Bool) :
    p ∈ binRow frac src pD pS n ↔ ∃ r, r < n ∧ p = (pD + r, decide (src (pS + r) > frac)) := by
  unfold binRow
  simp only [List.mem_map, List.mem_range]
  constructor <;> rintro ⟨i, h, he⟩ <;> exact ⟨i, h, he.symm⟩

theorem binCols_ptr (frac : α) (src : Nat → α) (R ofs : Nat) : ∀ (n pD pS : Nat),
    (binCols frac src R ofs n pD pS).2 = (pD + n * (R + ofs), pS + n * R) := by
  intro n
  induction n with
  | zero => intro pD pS; simp [binCols]
  | succ n ih =>
    intro pD pS
    simp only [binCols]
    rw [ih, Nat.succ_mul, Nat.succ_mul]
    congr 1 <;> omega

theorem mem_binCols (frac : α) (src : Nat → α) (R ofs : Nat) (p : Nat × Bool) : ∀ (n pD pS : Nat),
    p ∈ (binCols frac src R ofs n pD pS).1 ↔
      ∃ c r, c < n ∧ r < R ∧ p = (pD + c * (R + ofs) + r, decide (src (pS + c * R + r) > frac)) := by
  intro n
  induction n with
  | zero => intro pD pS; simp [binCols]
  | succ n ih =>
    intro pD pS
    simp only [binCols, List.mem_append]
    rw [ih, mem_binRow]
    constructor
    · rintro (⟨r, hr, he⟩ | ⟨c, r, hc, hr, he⟩)
      · exact ⟨0, r, by omega, hr, by simpa using he⟩
      · refine ⟨c + 1, r, by omega, hr, ?_⟩
        rw [he, Nat.succ_mul, Nat.succ_mul]
        congr 1
        · omega
        · congr 3; omega
    · rintro ⟨c, r, hc, hr, he⟩
      cases c with
      | zero => left; exact ⟨r, hr, by simpa using he⟩
      | succ c =>
        right
        refine ⟨c, r, by omega, hr, ?_⟩
        rw [he, Nat.succ_mul, Nat.succ_mul]
        congr 1
        · omega
        · congr 3; omega

/-- The kernel writes exactly the elements `[b,e)`, each to its place. -/
theorem mem_binBatchKernel (D start : Nat) (src : Mtx α) (frac : α) (hR : 0 < src.rows) (hD : src.rows ≤ D) (b e : Nat) (hbe : b < e)
    (p : Nat × Bool) : p ∈ binBatchKernel D start src frac b e ↔
      ∃ k, b ≤ k ∧ k < e ∧ p = (start + k % src.rows + D * (k / src.rows), decide (src.data k > frac)) := by
  unfold binBatchKernel
  dsimp only
  generalize hRR : src.rows = R at *
  have hb := Nat.div_add_mod b R
  have he := Nat.div_add_mod e R
  have hbr := Nat.mod_lt b hR
  have her := Nat.mod_lt e hR
  have hle : b / R ≤ e / R := Nat.div_le_div_right (by omega)
  -- column and row of an element given as `R*c + r`
  have hdm : ∀ c r, r < R → (R * c + r) / R = c ∧ (R * c + r) % R = r := by
    intro c r hr
    constructor
    · rw [Nat.add_comm, Nat.add_mul_div_left _ _ hR, Nat.div_eq_of_lt hr, Nat.zero_add]
    · rw [Nat.add_comm, Nat.add_mul_mod_self_left, Nat.mod_eq_of_lt hr]
  generalize hbc : b / R = bc at *
  generalize hbrr : b % R = br at *
  generalize hec : e / R = ec at *
  generalize herr : e % R = er at *
  have hofs : R + (D - R) = D := by omega
  simp only [List.mem_append]
  by_cases hcase : bc = ec
  · subst hcase
    simp only [if_true, ne_eq, not_true, if_false, List.not_mem_nil, or_false]
    have h0 : bc - (bc + 1) = 0 := by omega
    rw [h0, mem_binRow]
    simp only [binCols, List.not_mem_nil, or_false]
    constructor
    · rintro ⟨r, hr, hp⟩
      obtain ⟨q1, q2⟩ := hdm bc (br + r) (by omega)
      refine ⟨R * bc + (br + r), by omega, by omega, ?_⟩
      rw [hp, q1, q2]
      congr 1
      · omega
      · congr 3; omega
    · rintro ⟨k, h1, h2, hp⟩
      obtain ⟨q1, q2⟩ := hdm bc (k - R * bc) (by omega)
      have hk : R * bc + (k - R * bc) = k := by omega
      rw [hk] at q1 q2
      refine ⟨k - b, by omega, ?_⟩
      rw [hp, q1, q2]
      congr 1
      · omega
      · congr 3; omega
  · have hlt : bc < ec := by omega
    simp only [ne_eq, hcase, not_false_eq_true, if_true, if_false]
    rw [mem_binRow, mem_binCols, mem_binRow, binCols_ptr, hofs]
    have hmul : R * ec = R * (bc + 1) + R * (ec - (bc + 1)) := by rw [← Nat.mul_add]; congr 1; omega
    have hmulD : D * ec = D * (bc + 1) + D * (ec - (bc + 1)) := by rw [← Nat.mul_add]; congr 1; omega
    have hs : R * (bc + 1) = R * bc + R := by rw [Nat.mul_add]; omega
    have hsD : D * (bc + 1) = D * bc + D := by rw [Nat.mul_add]; omega
    constructor
    · rintro ((⟨r, hr, hp⟩ | ⟨c, r, hc, hr, hp⟩) | ⟨r, hr, hp⟩)
      · obtain ⟨q1, q2⟩ := hdm bc (br + r) (by omega)
        refine ⟨R * bc + (br + r), by omega, by omega, ?_⟩
        rw [hp, q1, q2]
        congr 1
        · omega
        · congr 3; omega
      · obtain ⟨q1, q2⟩ := hdm (bc + 1 + c) r hr
        have hm : R * (bc + 1 + c) = R * (bc + 1) + R * c := Nat.mul_add _ _ _
        have hmD : D * (bc + 1 + c) = D * (bc + 1) + D * c := Nat.mul_add _ _ _
        have hc' : R * (c + 1) ≤ R * (ec - (bc + 1)) := Nat.mul_le_mul_left _ (by omega)
        have hc1 : R * (c + 1) = R * c + R := by rw [Nat.mul_add]; omega
        refine ⟨R * (bc + 1 + c) + r, by omega, by omega, ?_⟩
        rw [hp, q1, q2]
        congr 1
        · rw [Nat.mul_comm c D]; omega
        · rw [Nat.mul_comm c R]; congr 3; omega
      · obtain ⟨q1, q2⟩ := hdm ec r (by omega)
        refine ⟨R * ec + r, by omega, by omega, ?_⟩
        rw [hp, q1, q2]
        congr 1
        · rw [Nat.mul_comm _ D]; omega
        · rw [Nat.mul_comm _ R]; congr 3; omega
    · rintro ⟨k, h1, h2, hp⟩
      have hk := Nat.div_add_mod k R
      have hkr := Nat.mod_lt k hR
      have hk1 : bc ≤ k / R := by rw [← hbc]; exact Nat.div_le_div_right h1
      have hk2 : k / R ≤ ec := by rw [← hec]; exact Nat.div_le_div_right (by omega)
      generalize k / R = kc at *
      generalize k % R = kr at *
      rw [hp]
      by_cases e1 : kc = bc
      · subst e1
        left; left
        refine ⟨kr - br, by omega, ?_⟩
        congr 1
        · omega
        · congr 3; omega
      · by_cases e2 : kc = ec
        · subst e2
          right
          refine ⟨kr, by omega, ?_⟩
          congr 1
          · rw [Nat.mul_comm _ D]; omega
          · rw [Nat.mul_comm _ R]; congr 3; omega
        · left; right
          have hm : R * kc = R * (bc + 1) + R * (kc - (bc + 1)) := by rw [← Nat.mul_add]; congr 1; omega
          have hmD : D * kc = D * (bc + 1) + D * (kc - (bc + 1)) := by rw [← Nat.mul_add]; congr 1; omega
          refine ⟨kc - (bc + 1), kr, by omega, hkr, ?_⟩
          congr 1
          · rw [Nat.mul_comm _ D]; omega
          · rw [Nat.mul_comm _ R]; congr 3; omega

/-- Result of `ewBinarizeBatch` in every order of the writes. -/
theorem binBatch_result (ex : Exec) (hex : ex.Ok) (D start : Nat) (src : Mtx α) (frac : α) (hR : 0 < src.rows)
    (hD : start + src.rows ≤ D) {d d' : Nat → Bool} (h : Outcome (ewBinarizeBatch ex D start src frac) d d') :
    (∀ r c, r < src.rows → c < src.cols → d' (start + r + D * c) = decide (src.data (r + src.rows * c) > frac)) ∧
    ∀ r c, r < D → (r < start ∨ start + src.rows ≤ r) → d' (r + D * c) = d (r + D * c) := by
  obtain ⟨ws', hperm, rfl⟩ := h
  have hDp : 0 < D := by omega
  have hmem : ∀ p, p ∈ ws' ↔ ∃ k, k < src.rows * src.cols ∧
      p = (start + k % src.rows + D * (k / src.rows), decide (src.data k > frac)) := by
    intro p
    rw [hperm.mem_iff]
    by_cases hc : 0 < src.rows * src.cols
    · exact mem_writes ex hex _ hc _ (fun k p => p = (start + k % src.rows + D * (k / src.rows), decide (src.data k > frac)))
        (fun b e hbe _ p => mem_binBatchKernel D start src frac hR (by omega) b e hbe p) p
    · have h0 : src.rows * src.cols = 0 := by omega
      have : src.cols = 0 := by
        rcases Nat.mul_eq_zero.1 h0 with h | h <;> omega
      unfold ewBinarizeBatch
      constructor
      · intro hp
        unfold Exec.writes at hp
        obtain ⟨r, hr, hp⟩ := List.mem_flatMap.1 hp
        rw [h0] at hr
        cases ex with
        | st =>
          simp only [Exec.calls, List.mem_singleton] at hr
          subst hr
          simp [binBatchKernel, binRow, binCols] at hp
        | mt rs =>
          exfalso
          simp only [Exec.calls, List.mem_map] at hr
          obtain ⟨q, hq, rfl⟩ := hr
          simp [runCalls] at hq
          subst hq
          simp [binBatchKernel, binRow, binCols] at hp
      · rintro ⟨k, hk, -⟩; omega
  have hdm : ∀ c r, r < D → (r + D * c) / D = c ∧ (r + D * c) % D = r := by
    intro c r hr
    exact ⟨by rw [Nat.add_mul_div_left _ _ hDp, Nat.div_eq_of_lt hr, Nat.zero_add],
      by rw [Nat.add_mul_mod_self_left, Nat.mod_eq_of_lt hr]⟩
  let g : Nat → Bool := fun a => decide (src.data ((a % D - start) + src.rows * (a / D)) > frac)
  have hfun : ∀ p ∈ ws', p.2 = g p.1 := by
    intro p hp
    obtain ⟨k, hk, rfl⟩ := (hmem p).1 hp
    have hkr := Nat.mod_lt k hR
    obtain ⟨q1, q2⟩ := hdm (k / src.rows) (start + k % src.rows) (by omega)
    simp only [g]
    rw [q1, q2]
    have := Nat.div_add_mod k src.rows
    congr 3; omega
  constructor
  · intro r c hr hc
    have hk : (r + src.rows * c) / src.rows = c ∧ (r + src.rows * c) % src.rows = r :=
      ⟨by rw [Nat.add_mul_div_left _ _ hR, Nat.div_eq_of_lt hr, Nat.zero_add], by rw [Nat.add_mul_mod_self_left, Nat.mod_eq_of_lt hr]⟩
    have hin : r + src.rows * c < src.rows * src.cols := by
      have : src.rows * (c + 1) ≤ src.rows * src.cols := Nat.mul_le_mul_left _ hc
      rw [Nat.mul_add] at this; omega
    rw [(applyW_spec g ws' hfun d (start + r + D * c)).1 ⟨_, (hmem _).2 ⟨r + src.rows * c, hin, by rw [hk.1, hk.2]⟩⟩]
    obtain ⟨q1, q2⟩ := hdm c (start + r) (by omega)
    simp only [g]
    rw [q1, q2]
    congr 4; omega
  · intro r c hr ho
    refine (applyW_spec g ws' hfun d (r + D * c)).2 ?_
    intro v hv
    obtain ⟨k, hk, he⟩ := (hmem _).1 hv
    have hkr := Nat.mod_lt k hR
    have he1 : r + D * c = start + k % src.rows + D * (k / src.rows) := congrArg Prod.fst he
    obtain ⟨-, q2⟩ := hdm c r hr
    obtain ⟨-, q4⟩ := hdm (k / src.rows) (start + k % src.rows) (by omega)
    rw [he1, q4] at q2
    omega

theorem binarize_result (ex : Exec) (hex : ex.Ok) (src : Mtx α) (frac : α) {d d' : Nat → Bool}
    (h : Outcome (ewBinarize ex src frac) d d') (k : Nat) (hk : k < src.rows * src.cols) : d' k = decide (src.data k > frac) := by
  obtain ⟨ws', hperm, rfl⟩ := h
  have hmem : ∀ p, p ∈ ws' ↔ ∃ k, k < src.rows * src.cols ∧ p = (k, decide (src.data k > frac)) := by
    intro p
    rw [hperm.mem_iff]
    exact mem_writes ex hex _ (by omega) _ (fun k p => p = (k, decide (src.data k > frac)))
      (fun b e hbe _ p => by
        simp only [List.mem_map, List.mem_range'_1]
        constructor
        · rintro ⟨k, hk, rfl⟩; exact ⟨k, hk.1, by omega, rfl⟩
        · rintro ⟨k, h1, h2, rfl⟩; exact ⟨k, by omega, rfl⟩) p
  let g : Nat → Bool := fun a => decide (src.data a > frac)
  have hfun : ∀ p ∈ ws', p.2 = g p.1 := by
    intro p hp
    obtain ⟨k, -, rfl⟩ := (hmem p).1 hp
    rfl
  exact (applyW_spec g ws' hfun d k).1 ⟨_, (hmem _).2 ⟨k, hk, rfl⟩⟩

theorem fold_count (f : Nat → Bool) : ∀ (l : List Nat) (a : Nat), l.foldl (fun ret i => ret + (f i).toNat) a = a + l.countP f := by
  intro l
  induction l with
  | nil => intro a; rfl
  | cons x l ih =>
    intro a
    rw [List.foldl_cons, ih, List.countP_cons]
    cases f x <;> simp <;> omega

theorem countSame_eq {β : Type} [DecidableEq β] (A : Nat → β) (ofs : Nat) (B : Nat → β) (n : Nat) :
    countSame A ofs B n = (List.range n).countP fun i => decide (A (ofs + i) = B i) := by
  unfold countSame
  rw [fold_count (fun i => decide (A (ofs + i) = B i)), Nat.zero_add]

theorem countSameBatch_eq {β : Type} [DecidableEq β] (A B : Nat → β) (aR bR : Nat) : ∀ (n pA pB ret : Nat),
    countSameBatch A B aR bR n pA pB ret =
      ret + ((List.range n).map fun c => (List.range bR).countP fun r => decide (A (pA + aR * c + r) = B (pB + bR * c + r))).sum := by
  intro n
  induction n with
  | zero => intro pA pB ret; simp [countSameBatch]
  | succ n ih =>
    intro pA pB ret
    rw [countSameBatch, ih, fold_count (fun r => decide (A (pA + r) = B (pB + r))), List.range_succ_eq_map]
    simp only [List.map_cons, List.map_map, List.sum_cons, Nat.mul_zero, Nat.add_zero, Function.comp_def]
    rw [← Nat.add_assoc]
    congr 3
    funext c
    have h1 : aR * (c + 1) = aR * c + aR := by rw [Nat.mul_add]; omega
    have h2 : bR * (c + 1) = bR * c + bR := by rw [Nat.mul_add]; omega
    simp only [Nat.succ_eq_add_one, h1, h2]
    congr 1
    funext r
    congr 3 <;> omega

/-- Counting by columns or by rows gives the same. -/
theorem sum_countP_comm (f : Nat → Nat → Bool) (R : Nat) : ∀ (C : Nat),
    ((List.range C).map fun c => (List.range R).countP fun r => f r c).sum =
      ((List.range R).map fun r => (List.range C).countP fun c => f r c).sum := by
  intro C
  induction C with
  | zero => simp
  | succ C ih =>
    rw [List.range_succ, List.map_append, List.sum_append, ih]
    have : ∀ R, ((List.range R).map fun r => (List.range C ++ [C]).countP fun c => f r c).sum =
        ((List.range R).map fun r => (List.range C).countP fun c => f r c).sum + (List.range R).countP fun r => f r C := by
      intro R
      induction R with
      | zero => simp
      | succ R ihR =>
        rw [List.range_succ, List.map_append, List.sum_append, ihR, List.map_append, List.sum_append, List.countP_append]
        simp only [List.map_cons, List.map_nil, List.sum_cons, List.sum_nil, List.countP_append, Nat.add_zero, List.countP_cons,
          List.countP_nil, Nat.zero_add]
        omega
    rw [this]
    simp

theorem range_add_map {β : Type} (f : Nat → β) (a b : Nat) :
    (List.range (a + b)).map f = (List.range a).map f ++ (List.range b).map fun i => f (a + i) := by
  rw [List.range_add, List.map_append, List.map_map]; rfl

theorem batches_le {Y : Nat → Nat → α} {C : Nat} : ∀ {ms : List (Mtx α)} {s t : Nat}, Batches Y C s ms t → s ≤ t := by
  intro ms
  induction ms with
  | nil => intro s t h; exact Nat.le_of_eq h
  | cons m ms ih => intro s t h; have := ih h.2; omega

/-- The cache holds the binarised samples. -/
theorem fillCache_result (D : Nat) (frac : α) (Y : Nat → Nat → α) (C : Nat) : ∀ (bs : List (Exec × Mtx α)) (s t : Nat) (d d' : Nat → Bool),
    (∀ b ∈ bs, b.1.Ok) → Batches Y C s (bs.map (·.2)) t → t ≤ D → fillCache D frac bs s d d' →
    (∀ i c, s ≤ i → i < t → c < C → d' (i + D * c) = decide (Y i c > frac)) ∧
    ∀ i c, i < s → i < D → d' (i + D * c) = d (i + D * c) := by
  intro bs
  induction bs with
  | nil =>
    intro s t d d' _ hb _ hf
    have : s = t := hb
    have hf : d' = d := hf
    subst hf
    exact ⟨fun i c h1 h2 _ => by omega, fun i c _ _ => rfl⟩
  | cons b bs ih =>
    intro s t d d' hex hb ht hf
    obtain ⟨d1, ho, hf⟩ := hf
    have hm : IsBatch Y C s b.2 := hb.1
    have hb : Batches Y C (s + b.2.rows) (bs.map (·.2)) t := hb.2
    have hle := batches_le hb
    obtain ⟨i1, i2⟩ := ih (s + b.2.rows) t d1 d' (fun x hx => hex x (List.mem_cons_of_mem _ hx)) hb ht hf
    obtain ⟨r1, r2⟩ := binBatch_result b.1 (hex b (List.mem_cons_self ..)) D s b.2 frac hm.1 (by omega) ho
    constructor
    · intro i c h1 h2 hc
      by_cases hi : s + b.2.rows ≤ i
      · exact i1 i c hi h2 hc
      · rw [i2 i c (by omega) (by omega)]
        have := r1 (i - s) c (by omega) (by rw [hm.2.1]; exact hc)
        rw [hm.2.2 _ _ (by omega) hc, show s + (i - s) = i by omega] at this
        exact this
    · intro i c hi hiD
      rw [i2 i c (by omega) hiD]
      exact r2 i c hiD (Or.inl hi)

end Nntl.Eval
