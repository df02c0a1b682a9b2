import Verif.Istor.Spec
import Mathlib.Tactic.Ring
/-! Property theorems C38 (scratch storage) and C68 (announced scratch memory suffices). -/
namespace Nntl.Istor
open Nntl.Kernel

/-! ### C38 -/

/-- The live blocks are stacked: from `cur` down to 0 without gaps. -/
def Stacked : Nat → List Block → Prop
  | top, [] => top = 0
  | top, b :: bs => b.ptr + b.len = top ∧ Stacked b.ptr bs

theorem Stacked.bound : ∀ {bs : List Block} {top : Nat}, Stacked top bs → ∀ b ∈ bs, b.ptr + b.len ≤ top := by
  intro bs
  induction bs with
  | nil => intro _ _ b hb; cases hb
  | cons a bs ih =>
    intro top h b hb
    obtain ⟨h1, h2⟩ := h
    rcases List.mem_cons.1 hb with rfl | hb
    · omega
    · have := ih h2 b hb
      omega

theorem Stacked.pairwise : ∀ {bs : List Block} {top : Nat}, Stacked top bs → bs.Pairwise Block.Disjoint := by
  intro bs
  induction bs with
  | nil => intro _ _; exact List.Pairwise.nil
  | cons a bs ih =>
    intro top h
    obtain ⟨h1, h2⟩ := h
    refine List.Pairwise.cons ?_ (ih h2)
    intro b hb k
    have := h2.bound b hb
    omega

/-- With blocks of positive size only the most recent live block can be given back. -/
theorem free_only_top {s : Istor} {bs : List Block} (h : Stacked s.cur bs) (hpos : ∀ b ∈ bs, 0 < b.len) {i : Nat} {b : Block}
    (hi : bs[i]? = some b) : (s.free b.ptr b.len).isSome ↔ i = 0 := by
  have hb := h.bound b (List.mem_of_getElem? hi)
  unfold Istor.free
  rw [if_neg (by omega)]
  cases bs with
  | nil => simp at hi
  | cons a bs =>
    obtain ⟨h1, h2⟩ := h
    constructor
    · intro hs
      by_contra hne
      obtain ⟨j, rfl⟩ : ∃ j, i = j + 1 := ⟨i - 1, by omega⟩
      rw [List.getElem?_cons_succ] at hi
      have hb' := h2.bound b (List.mem_of_getElem? hi)
      have ha := hpos a (List.mem_cons_self ..)
      rw [if_pos (by omega)] at hs
      cases hs
    · rintro rfl
      simp only [List.getElem?_cons_zero, Option.some.injEq] at hi
      subst hi
      rw [if_neg (by omega)]
      rfl

/-- The invariant of histories with blocks of positive size. -/
theorem runOps_inv (os : List Op) (hos : ∀ o ∈ os, ∀ n, o = .take n → 0 < n) : ∀ {s s' : Istor} {live live' : List Block},
    Stacked s.cur live → (∀ b ∈ live, 0 < b.len) → s.cur ≤ s.min → runOps os s live = some (s', live') →
    Stacked s'.cur live' ∧ (∀ b ∈ live', 0 < b.len) ∧ s'.cur ≤ s'.min ∧ s'.min = s.min ∧ s'.size = s.size := by
  induction os with
  | nil =>
    intro s s' live live' h1 h2 h3 h
    simp only [runOps, Option.some.injEq, Prod.mk.injEq] at h
    obtain ⟨rfl, rfl⟩ := h
    exact ⟨h1, h2, h3, rfl, rfl⟩
  | cons o os ih =>
    intro s s' live live' h1 h2 h3 h
    have ho := hos o (List.mem_cons_self ..)
    have hos' : ∀ o ∈ os, ∀ n, o = .take n → 0 < n := fun x hx => hos x (List.mem_cons_of_mem _ hx)
    simp only [runOps, Option.bind_eq_some_iff] at h
    obtain ⟨⟨s1, l1⟩, hstep, h⟩ := h
    have key : Stacked s1.cur l1 ∧ (∀ b ∈ l1, 0 < b.len) ∧ s1.cur ≤ s1.min ∧ s1.min = s.min ∧ s1.size = s.size := by
      cases o with
      | take n =>
        have hn := ho n rfl
        unfold step Istor.alloc at hstep
        by_cases hc : s.min < n + s.cur
        · simp [hc] at hstep
        · simp only [hc, if_false, Option.map_some, Option.some.injEq, Prod.mk.injEq] at hstep
          obtain ⟨rfl, rfl⟩ := hstep
          refine ⟨⟨rfl, h1⟩, ?_, by simp only; omega, rfl, rfl⟩
          intro b hb
          rcases List.mem_cons.1 hb with rfl | hb
          · exact hn
          · exact h2 b hb
      | release i =>
        simp only [step] at hstep
        cases hi : live[i]? with
        | none =>
          rw [hi] at hstep
          simp only [Option.some.injEq, Prod.mk.injEq] at hstep
          obtain ⟨rfl, rfl⟩ := hstep
          exact ⟨h1, h2, h3, rfl, rfl⟩
        | some b =>
          rw [hi] at hstep
          simp only [Option.map_eq_some_iff, Prod.mk.injEq] at hstep
          obtain ⟨s2, hf, rfl, rfl⟩ := hstep
          have h0 : i = 0 := (free_only_top h1 h2 hi).1 (by rw [hf]; rfl)
          subst h0
          cases live with
          | nil => simp at hi
          | cons a bs =>
            simp only [List.getElem?_cons_zero, Option.some.injEq] at hi
            subst hi
            obtain ⟨g1, g2⟩ := h1
            unfold Istor.free at hf
            rw [if_neg (by omega), if_neg (by omega)] at hf
            have hf := (Option.some.inj hf).symm
            subst hf
            refine ⟨?_, ?_, ?_, rfl, rfl⟩
            · simp only [List.eraseIdx_cons_zero]
              rw [show s.cur - a.len = a.ptr by omega]
              exact g2
            · intro b hb
              simp only [List.eraseIdx_cons_zero] at hb
              exact h2 b (List.mem_cons_of_mem _ hb)
            · simp only; omega
    obtain ⟨k1, k2, k3, k4, k5⟩ := key
    obtain ⟨r1, r2, r3, r4, r5⟩ := ih hos' k1 k2 k3 h
    exact ⟨r1, r2, r3, r4.trans k4, r5.trans k5⟩

/-- **C38.** For every history of taking and giving back blocks after `preinit` and `init`: the live blocks are pairwise disjoint and
inside the storage. -/
theorem live_blocks_disjoint_inside (s0 : Istor) (os : List Op) (hos : ∀ o ∈ os, ∀ n, o = .take n → 0 < n) {s' : Istor} {live : List Block}
    (h : runOps os s0.init [] = some (s', live)) :
    live.Pairwise Block.Disjoint ∧ ∀ b ∈ live, b.ptr + b.len ≤ s'.size := by
  obtain ⟨h1, -, h3, h4, h5⟩ := runOps_inv os hos (s := s0.init) (live := []) (by simp [Stacked, Istor.init])
    (fun b hb => by cases hb) (by simp [Istor.init]) h
  refine ⟨h1.pairwise, fun b hb => ?_⟩
  have := h1.bound b hb
  have hsz : s0.init.min ≤ s0.init.size := by
    simp only [Istor.init]; split <;> omega
  omega

/-- **C38.** After everything is given back the full capacity is available: a block of the announced size can be taken. -/
theorem full_capacity_after_release (s0 : Istor) (os : List Op) (hos : ∀ o ∈ os, ∀ n, o = .take n → 0 < n) {s' : Istor}
    (h : runOps os s0.init [] = some (s', [])) : s'.cur = 0 ∧ ∀ n, (s'.alloc n).isSome ↔ n ≤ s0.min := by
  obtain ⟨h1, -, -, h4, -⟩ := runOps_inv os hos (s := s0.init) (live := []) (by simp [Stacked, Istor.init])
    (fun b hb => by cases hb) (by simp [Istor.init]) h
  have hc : s'.cur = 0 := h1
  refine ⟨hc, fun n => ?_⟩
  have hm : s'.min = s0.min := h4
  unfold Istor.alloc
  rw [hc, hm]
  by_cases hn : s0.min < n + 0
  · rw [if_pos hn]; simp; omega
  · rw [if_neg hn]; simp; omega

/-- **C38.** Overflow is detected: taking a block aborts the program iff it does not fit into what is left of the announced size. -/
theorem overflow_detected (s0 : Istor) (os : List Op) (hos : ∀ o ∈ os, ∀ n, o = .take n → 0 < n) {s' : Istor} {live : List Block}
    (h : runOps os s0.init [] = some (s', live)) (n : Nat) :
    step s' live (.take n) = none ↔ s0.min < (live.map Block.len).sum + n := by
  obtain ⟨h1, -, -, h4, -⟩ := runOps_inv os hos (s := s0.init) (live := []) (by simp [Stacked, Istor.init])
    (fun b hb => by cases hb) (by simp [Istor.init]) h
  have hsum : ∀ (bs : List Block) (top : Nat), Stacked top bs → (bs.map Block.len).sum = top := by
    intro bs
    induction bs with
    | nil => intro top h; simp [Stacked] at h; simp [h]
    | cons b bs ih =>
      intro top h
      rw [List.map_cons, List.sum_cons, ih _ h.2]
      have := h.1
      omega
  rw [hsum live _ h1]
  have hm : s'.min = s0.min := h4
  simp only [step, Istor.alloc, hm, Option.map_eq_none_iff]
  by_cases hc : s0.min < n + s'.cur
  · simp [hc]; omega
  · simp [hc]; omega

/-- **C38.** Giving back a block which is not the most recent one is detected: it aborts the program, and only that does. -/
theorem out_of_order_release_detected (s0 : Istor) (os : List Op) (hos : ∀ o ∈ os, ∀ n, o = .take n → 0 < n) {s' : Istor}
    {live : List Block} (h : runOps os s0.init [] = some (s', live)) (i : Nat) (hi : i < live.length) :
    step s' live (.release i) = none ↔ 0 < i := by
  obtain ⟨h1, h2, -, -, -⟩ := runOps_inv os hos (s := s0.init) (live := []) (by simp [Stacked, Istor.init])
    (fun b hb => by cases hb) (by simp [Istor.init]) h
  have hb : live[i]? = some live[i] := List.getElem?_eq_getElem hi
  have := free_only_top h1 h2 hb
  simp only [step, hb, Option.map_eq_none_iff]
  cases hf : s'.free live[i].ptr live[i].len with
  | none => rw [hf] at this; simp at this; simp; omega
  | some x => rw [hf] at this; simp at this; simp; omega

/-- Non-vacuity: three blocks, one given back; what is left, what is detected. -/
example : runOps [.take 3, .take 4, .release 0, .take 2] (Istor.new.preinit 10).init [] = some (⟨10, 10, 5⟩, [⟨3, 2⟩, ⟨0, 3⟩]) ∧
    step ⟨10, 10, 5⟩ [⟨3, 2⟩, ⟨0, 3⟩] (.take 6) = none ∧ step ⟨10, 10, 5⟩ [⟨3, 2⟩, ⟨0, 3⟩] (.release 1) = none := by decide

/-- Blocks of size zero escape: with an empty block on top, the block below can be given back first. (Nothing overlaps, but the empty
block can not be given back any more.) -/
example : runOps [.take 3, .take 0, .release 1] (Istor.new.preinit 10).init [] = some (⟨10, 10, 0⟩, [⟨3, 0⟩]) ∧
    step ⟨10, 10, 0⟩ [⟨3, 0⟩] (.release 0) = none := by decide

/-- **C38 needs `init` after the last `preinit`**: otherwise a block outside the storage is given out (a debug assertion only). -/
theorem preinit_without_init_gives_block_outside : ∃ (s s' : Istor) (p : Nat), (s.init.preinit 20).alloc 20 = some (p, s') ∧ s'.size < p + 20 :=
  ⟨⟨0, 5, 0⟩, ⟨5, 20, 20⟩, 0, by decide, by decide⟩

/-- The rounded size is at least the asked size, and with a base aligned to a cache line the elements of two arrays of that size placed
one after another never share a cache line. -/
theorem rounded_arrays_do_not_share_lines (sz n : Nat) (hs : 0 < sz) : n ≤ roundCount sz n ∧
    ∀ i j, i < n * sz → roundCount sz n * sz ≤ j → i / 64 < j / 64 := by
  have hm : ∀ L, L ≤ (L + (sz - 1)) / sz * sz := by
    intro L
    have h1 := Nat.div_add_mod (L + (sz - 1)) sz
    have h2 := Nat.mod_lt (L + (sz - 1)) hs
    rw [Nat.mul_comm] at h1
    omega
  have hl : n * sz ≤ (n * sz + 63) / 64 * 64 := by omega
  have hk := hm ((n * sz + 63) / 64 * 64)
  constructor
  · unfold roundCount
    rw [Nat.le_div_iff_mul_le hs]
    omega
  · intro i j hi hj
    unfold roundCount at hj
    generalize n * sz = a at *
    generalize ((a + 63) / 64 * 64 + (sz - 1)) / sz * sz = b at *
    omega

/-! ### C68 -/

/-- A routine runs without being aborted iff the storage announced has room for the most memory it holds at one time; then it leaves the
storage as it was. -/
theorem use_runs_iff (u : Use) : ∀ s : Istor, s.cur ≤ s.min →
    (s.cur + u.peak ≤ s.min → u.run s = some s) ∧ (s.min < s.cur + u.peak → u.run s = none) := by
  induction u with
  | skip => intro s hs; exact ⟨fun _ => rfl, fun h => by simp [Use.peak] at h; omega⟩
  | seq a b iha ihb =>
    intro s hs
    simp only [Use.peak]
    constructor
    · intro h
      simp [Use.run, (iha s hs).1 (by omega), (ihb s hs).1 (by omega)]
    · intro h
      by_cases ha : s.min < s.cur + a.peak
      · simp [Use.run, (iha s hs).2 ha]
      · simp [Use.run, (iha s hs).1 (by omega), (ihb s hs).2 (by omega)]
  | hold n body ih =>
    intro s hs
    simp only [Use.peak, Use.run, Istor.alloc]
    by_cases hc : s.min < n + s.cur
    · rw [if_pos hc]
      exact ⟨fun h => by omega, fun _ => rfl⟩
    · rw [if_neg hc]
      have ih' := ih { s with cur := s.cur + n } (by simp only; omega)
      simp only at ih'
      constructor
      · intro h
        simp [ih'.1 (by omega), Istor.free]
      · intro h
        simp [ih'.2 (by omega)]

/-- **C68, nested announcements.** Announcing with `preinit_push`/`preinit_pop` reserves exactly the most memory held at one time, if that
is more than what was announced before. -/
theorem announce_reserves_peak (u : Use) : ∀ s : Istor, (u.announce s).min = max s.min u.peak := by
  induction u with
  | skip => intro s; simp [Use.announce, Use.peak]
  | seq a b iha ihb => intro s; simp [Use.announce, Use.peak, iha, ihb, Nat.max_assoc]
  | hold n body ih =>
    intro s
    simp only [Use.announce, Use.peak, Istor.pop, Istor.push, ih]
    omega

theorem threadsForCols_le (per cols workers : Nat) : threadsForCols per cols workers ≤ workers := by
  unfold threadsForCols
  dsimp only
  split <;> omega

variable (g : Cfg)

theorem cwNeed_ge (sz2 rows : Nat) : rows * g.workers ≤ processCwNeed g sz2 rows := Nat.le_add_right _ _

theorem cwNeed_mono (sz2 : Nat) {rows rows' : Nat} (h : rows ≤ rows') : processCwNeed g sz2 rows ≤ processCwNeed g sz2 rows' := by
  unfold processCwNeed; dsimp only
  have h1 : rows * g.workers ≤ rows' * g.workers := Nat.mul_le_mul_right _ h
  have h2 : (rows * g.workers * sz2 + g.szReal - 1) / g.szReal ≤ (rows' * g.workers * sz2 + g.szReal - 1) / g.szReal := by
    apply Nat.div_le_div_right
    have := Nat.mul_le_mul_right sz2 h1
    omega
  omega

theorem cw2_peak_le (szIdx per rows cols : Nat) (hsz : szIdx ≤ g.szReal) :
    (processCw2 g szIdx per rows cols).peak ≤ processCwNeed g g.szReal rows := by
  unfold processCw2 processCwNeed
  simp only [Use.peak, Nat.add_zero]
  have h1 : rows * threadsForCols per cols g.workers ≤ rows * g.workers := Nat.mul_le_mul_left _ (threadsForCols_le ..)
  have h2 : (rows * threadsForCols per cols g.workers * szIdx + g.szReal - 1) / g.szReal ≤
      (rows * g.workers * g.szReal + g.szReal - 1) / g.szReal := by
    apply Nat.div_le_div_right
    have := Nat.mul_le_mul h1 hsz
    omega
  omega

/-- **C68, argmax of rows** (used by the one-hot evaluator): the memory announced for the biggest batch is enough for every smaller batch
with any number of columns, provided the type of indices is not bigger than the real type. -/
theorem idxsOfMax_memory (szIdx rows cols maxRows : Nat) (hsz : szIdx ≤ g.szReal) (hr : rows ≤ maxRows) (s : Istor) (h0 : s.cur = 0)
    (hs : idxsOfMaxNeed g maxRows ≤ s.min) : (idxsOfMax g szIdx rows cols).run s = some s := by
  refine (use_runs_iff _ s (by omega)).1 ?_
  have h1 := cwNeed_mono g g.szReal hr
  have h2 := cw2_peak_le g szIdx g.idxCols rows cols hsz
  unfold idxsOfMaxNeed at hs
  unfold idxsOfMax
  split
  · simp only [Use.peak]; omega
  · split
    · omega
    · simp only [Use.peak]; omega

/-- **C68, row sums.** -/
theorem mrwSum_memory (rows cols : Nat) (s : Istor) (h0 : s.cur = 0) (hs : sumNeed g rows ≤ s.min) :
    (mrwSum g rows cols).run s = some s := by
  refine (use_runs_iff _ s (by omega)).1 ?_
  have h1 := cwNeed_ge g g.szReal rows
  unfold sumNeed at hs
  unfold mrwSum
  repeat' split
  · simp only [Use.peak]; omega
  · simp only [Use.peak]; omega
  · simp only [Use.peak]; omega
  · simp only [processCw, Use.peak]
    have : rows * threadsForCols g.sumCols cols g.workers ≤ rows * g.workers := Nat.mul_le_mul_left _ (threadsForCols_le ..)
    omega

/-- **C68, softmax**: the memory announced for the biggest batch is enough for every smaller batch. -/
theorem softmax_memory (rows maxRows cols : Nat) (hr : rows ≤ maxRows) (s : Istor) (h0 : s.cur = 0)
    (hs : softmaxNeed g maxRows cols ≤ s.min) : (softmax g rows cols).run s = some s := by
  refine (use_runs_iff _ s (by omega)).1 ?_
  have h1 : softmaxOwn g rows cols ≤ softmaxOwn g maxRows cols := Nat.mul_le_mul_right _ hr
  unfold softmaxNeed at hs
  simp only [softmax, Use.peak]
  omega

/-- **C68, max-norm.** -/
theorem checkNormalize_memory (rows cols : Nat) (s : Istor) (h0 : s.cur = 0) (hs : checkNormalizeNeed g rows ≤ s.min) :
    (checkNormalize g rows cols).run s = some s := by
  refine (use_runs_iff _ s (by omega)).1 ?_
  have hw : rows ≤ rows * g.workers := Nat.le_mul_of_pos_right _ g.workersPos
  unfold checkNormalizeNeed at hs
  unfold checkNormalize
  split <;> simp only [Use.peak] <;> omega

/-- **C68, individual learning rates.** -/
theorem applyIlr_memory (rows cols : Nat) (s : Istor) (h0 : s.cur = 0) (hs : applyIlrNeed rows cols ≤ s.min) :
    (applyIlr g (rows * cols)).run s = some s := by
  refine (use_runs_iff _ s (by omega)).1 ?_
  unfold applyIlrNeed at hs
  unfold applyIlr
  repeat' split
  all_goals (simp only [Use.peak]; omega)

/-- **C68, DeCov addendum**: loss and gradient, for every smaller batch. -/
theorem deCov_memory (training onFprop : Bool) (rows maxRows cols : Nat) (hr : rows ≤ maxRows) (s : Istor) (h0 : s.cur = 0)
    (hs : deCovNeed training onFprop maxRows cols ≤ s.min) :
    (deCov rows cols).run s = some s ∧ (training = true → onFprop = false → (deCovGrad rows cols).run s = some s) := by
  have h1 : rows * cols ≤ maxRows * cols := Nat.mul_le_mul_right _ hr
  unfold deCovNeed at hs
  constructor
  · refine (use_runs_iff _ s (by omega)).1 ?_
    simp only [deCov, Use.peak]
    split at hs <;> omega
  · rintro rfl rfl
    simp only [Bool.not_false, Bool.and_self, if_true] at hs
    refine (use_runs_iff _ s (by omega)).1 ?_
    simp only [deCovGrad, deCov, Use.peak]
    omega

/-- **C68, gradient works (partial).** With the options `gw_init` was called with, neither the preparation of the forward pass nor the
application of the gradient runs out of memory, whatever else was announced (`s.min` may be bigger). Missing: options switched during
training, see `gw_option_switch_aborts`. -/
theorem gw_memory_partial (o : Gw) (rows cols : Nat) (s0 s : Istor) (h0 : s.cur = 0) (hs : (gwInit g o rows cols s0).min ≤ s.min)
    (firstRun : Bool) :
    (gwPreFprop g o rows cols).run s = some s ∧ (gwApplyGrad g o firstRun rows cols).run s = some s := by
  have hmin : (if o.ilr then rows * cols else 0) ≤ s.min ∧
      rows * cols * (1 + if o.nesterov && o.lrdNesterov && o.lrd then 1 else 0) ≤ s.min ∧ checkNormalizeNeed g rows ≤ s.min := by
    unfold gwInit applyIlrNeed at hs
    simp only [Istor.preinit] at hs
    refine ⟨?_, by omega, by omega⟩
    split at hs <;> simp_all <;> omega
  obtain ⟨m1, m2, m3⟩ := hmin
  have hnorm := checkNormalize_memory g rows cols s h0 m3
  have hone : rows * cols ≤ s.min := by
    rw [Nat.mul_add] at m2; omega
  have hold1 : (Use.hold (rows * cols) .skip).run s = some s := (use_runs_iff _ s (by omega)).1 (by simp only [Use.peak]; omega)
  have hilr := applyIlr_memory g rows cols s h0 hone
  constructor
  · unfold gwPreFprop
    split
    · rename_i hn
      have hfirst : (if o.lrd && o.lrdNesterov then Use.hold (rows * cols) (.hold (rows * cols) .skip) else .skip).run s = some s := by
        split
        · rename_i hl
          simp only [Bool.and_eq_true] at hl
          simp only [hn, hl.1, hl.2, Bool.and_self, if_true] at m2
          exact (use_runs_iff _ s (by omega)).1 (by simp only [Use.peak]; omega)
        · rfl
      have hsecond : (if o.maxNorm then checkNormalize g rows cols else .skip).run s = some s := by
        split
        · exact hnorm
        · rfl
      simp only [Use.run, hfirst, Option.bind_some, hsecond]
    · rfl
  · unfold gwApplyGrad
    have a1 : (if o.ilr && !firstRun then applyIlr g (rows * cols) else .skip).run s = some s := by
      split
      · exact hilr
      · rfl
    have a2 : (if !(o.momentum && !o.nesterov && !o.lrd) && o.lrd then Use.hold (rows * cols) .skip else .skip).run s = some s := by
      split
      · exact hold1
      · rfl
    have a3 : (if o.maxNorm then checkNormalize g rows cols else .skip).run s = some s := by
      split
      · exact hnorm
      · rfl
    simp only [Use.run, a1, Option.bind_some, a2, a3]

/-- Example configuration. -/
def demoCfg : Cfg := ⟨4, 2, by decide, by decide, 10, 20, 3, 10, 10, 3, 10, 10, 5, 50, 100⟩

/-- **C68 is false of gradient works when the dropout of learning rates is switched on after initialisation** with Nesterov momentum (the
comment in `gw_init` says that it can be switched safely): the program is aborted in the next training step, for every matrix of
weights with more columns than four times the number of workers, if nobody announced more. -/
theorem gw_option_switch_aborts (rows cols : Nat) (hr : 0 < rows) (hc : 4 * g.workers < cols) :
    let o : Gw := { nesterov := true, lrd := false, lrdNesterov := true, momentum := true, maxNorm := false, ilr := false }
    (gwPreFprop g { o with lrd := true } rows cols).run (gwInit g o rows cols Istor.new).init = none := by
  intro o
  refine (use_runs_iff _ _ ?_).2 ?_
  · simp [Istor.init]
  · have h1 : checkNormalizeNeed g rows = 3 * (rows * g.workers) := by
      unfold checkNormalizeNeed sumNeed processCwNeed
      dsimp only
      have : (rows * g.workers * g.szReal + g.szReal - 1) / g.szReal = rows * g.workers := by
        have hp := g.szRealPos
        rw [Nat.add_sub_assoc hp, Nat.mul_comm, Nat.mul_add_div hp, Nat.div_eq_of_lt (by omega), Nat.add_zero]
      rw [this]; omega
    have h2 : rows * (4 * g.workers) < rows * cols := Nat.mul_lt_mul_of_pos_left hc hr
    have h3 : rows * (4 * g.workers) = 4 * (rows * g.workers) := by ring
    have hpk : (gwPreFprop g { o with lrd := true } rows cols).peak = rows * cols + rows * cols := by
      simp [gwPreFprop, o, Use.peak]
    have hmn : (gwInit g o rows cols Istor.new).init.min = max (rows * cols) (checkNormalizeNeed g rows) := by
      simp [gwInit, o, Istor.init, Istor.preinit, Istor.new]
    have hcu : (gwInit g o rows cols Istor.new).init.cur = 0 := rfl
    rw [hpk, hmn, hcu]
    omega

/-- Non-vacuity: with the same options the training step succeeds, with the switched option it is aborted. -/
example : let o : Gw := { nesterov := true, lrd := false, lrdNesterov := true, momentum := true, maxNorm := true, ilr := true }
    (gwPreFprop demoCfg o 2 9).run (gwInit demoCfg o 2 9 Istor.new).init = some ⟨18, 18, 0⟩ ∧
    (gwApplyGrad demoCfg o false 2 9).run (gwInit demoCfg o 2 9 Istor.new).init = some ⟨18, 18, 0⟩ ∧
    (gwPreFprop demoCfg { o with lrd := true } 2 9).run (gwInit demoCfg o 2 9 Istor.new).init = none := by decide

example : (softmax demoCfg 2 3).run (Istor.new.preinit (softmaxNeed demoCfg 4 3)).init = some ⟨40, 40, 0⟩ ∧
    (idxsOfMax demoCfg 4 4 8).run (Istor.new.preinit (idxsOfMaxNeed demoCfg 4)).init = some ⟨16, 16, 0⟩ ∧
    (deCovGrad 2 3).run (Istor.new.preinit (deCovNeed true false 2 3)).init = some ⟨21, 21, 0⟩ ∧
    (Use.seq (.hold 3 (.hold 4 .skip)) (.hold 6 .skip)).run
      ((Use.seq (.hold 3 (.hold 4 .skip)) (.hold 6 .skip)).announce (Istor.new.preinit 5)).init = some ⟨7, 7, 0⟩ := by decide

end Nntl.Istor
