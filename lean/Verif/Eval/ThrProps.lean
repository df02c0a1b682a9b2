import Verif.Eval.ThrModel
import Verif.Eval.Props
/-! C185 (threshold of the evaluator for binary answers) and C186 (counting equal elements). -/
namespace Nntl.Eval
open Nntl.Matrix Nntl.Kernel Nntl.Threads
variable {α : Type} [LinearOrder α]

/-- The threshold in force after the calls: the one set last, the initial one if none was. -/
def thrAfter (t0 : α) : List (EOp α) → α
  | [] => t0
  | .setThreshold t :: os => thrAfter t os
  | _ :: os => thrAfter t0 os

/-- The calls change the threshold only. -/
def OnlyThresholds (os : List (EOp α)) : Prop := ∀ o ∈ os, ∃ t, o = .setThreshold t

theorem run_append (xs ys : List (EOp α)) : ∀ (e e' : Ev α), EOp.run (xs ++ ys) e e' ↔ ∃ e1, EOp.run xs e e1 ∧ EOp.run ys e1 e' := by
  induction xs with
  | nil => intro e e'; simp [EOp.run]
  | cons o os ih =>
    intro e e'
    simp only [List.cons_append, EOp.run, ih]
    constructor
    · rintro ⟨e1, h1, e2, h2, h3⟩; exact ⟨e2, ⟨e1, h1, h2⟩, h3⟩
    · rintro ⟨e2, ⟨e1, h1, h2⟩, h3⟩; exact ⟨e1, h1, e2, h2, h3⟩

theorem run_thr (os : List (EOp α)) : ∀ (e e' : Ev α), EOp.run os e e' → e'.thr = thrAfter e.thr os := by
  induction os with
  | nil => intro e e' h; have h : e' = e := h; rw [h]; rfl
  | cons o os ih =>
    intro e e' h
    obtain ⟨e1, h1, h2⟩ := h
    rw [ih e1 e' h2]
    cases o with
    | setThreshold t => have h1 : e1 = { e with thr := t } := h1; rw [h1]; rfl
    | init ds bs => obtain ⟨d, d', _, h3⟩ := h1; rw [h3]; rfl
    | deinit => have h1 : e1 = { e with cache := fun _ => none } := h1; rw [h1]; rfl

theorem run_only (os : List (EOp α)) (ho : OnlyThresholds os) : ∀ (e e' : Ev α), EOp.run os e e' → e'.cache = e.cache := by
  induction os with
  | nil => intro e e' h; have h : e' = e := h; rw [h]
  | cons o os ih =>
    intro e e' h
    obtain ⟨e1, h1, h2⟩ := h
    rw [ih (fun o h => ho o (List.mem_cons_of_mem _ h)) e1 e' h2]
    obtain ⟨t, rfl⟩ := ho o (List.mem_cons_self ..)
    have h1 : e1 = { e with thr := t } := h1
    rw [h1]

theorem binAccuracy2_add (fy fp : α) (Y P : Nat → Nat → α) (C s n : Nat) :
    binAccuracy2 fy fp Y P (s + n) C = binAccuracy2 fy fp Y P s C +
      ((List.range n).map fun r => (List.range C).countP fun c => decide (Y (s + r) c > fy) == decide (P (s + r) c > fp)).sum := by
  unfold binAccuracy2
  rw [range_add_map, List.sum_append]

theorem bin_batch_cached2 (fy fp : α) (Y P : Nat → Nat → α) (C D s : Nat) (yd : Nat → Bool) (b : Rep α) (hex : b.exP.Ok)
    (hP : IsBatch P C s b.act) (hyd : ∀ r c, r < b.act.rows → c < C → yd (s + r + D * c) = decide (Y (s + r) c > fy))
    {ret cur' : Nat} (h : binCorrect fp (some (D, yd)) s b ret cur') :
    ret = ((List.range b.act.rows).map fun r => (List.range C).countP fun c =>
      decide (Y (s + r) c > fy) == decide (P (s + r) c > fp)).sum ∧ cur' = s + b.act.rows := by
  obtain ⟨p0, p, ho, hret, hcur⟩ := h
  obtain ⟨hr, hc, hv⟩ := hP
  refine ⟨?_, hcur⟩
  rw [hret, countSameBatch_eq, Nat.zero_add, hc]
  refine Eq.trans ?_ (sum_countP_comm (fun r c => decide (Y (s + r) c > fy) == decide (P (s + r) c > fp)) b.act.rows C)
  congr 1
  apply List.map_congr_left
  intro c hc'
  have hcl := List.mem_range.1 hc'
  apply List.countP_congr
  intro r hr'
  have hrl := List.mem_range.1 hr'
  have hk : r + b.act.rows * c < b.act.rows * b.act.cols := by
    have : b.act.rows * (c + 1) ≤ b.act.rows * b.act.cols := Nat.mul_le_mul_left _ (by omega)
    rw [Nat.mul_add] at this; omega
  have h1 := binarize_result b.exP hex b.act fp ho _ hk
  rw [hv r c hrl hcl] at h1
  have h2 := hyd r c hrl hcl
  rw [show s + D * c + r = s + r + D * c by omega, show 0 + b.act.rows * c + r = r + b.act.rows * c by omega, h1, h2]
  simp

theorem accuracy_binary2 (fy fp : α) (Y P : Nat → Nat → α) (C D N N' : Nat) (init : List (Exec × Mtx α)) (d yd : Nat → Bool)
    (hinit : Batches Y C 0 (init.map (·.2)) N) (hexi : ∀ b ∈ init, b.1.Ok) (hND : N ≤ D) (hfill : fillCache D fy init 0 d yd)
    (reps : List (Rep α)) (hrep : Batches P C 0 (reps.map (·.act)) N') (hN : N' ≤ N)
    (hex : ∀ b ∈ reps, b.exP.Ok ∧ b.y.rows = b.act.rows ∧ b.y.cols = C)
    {c' : Cnt} (h : binReport fp (some (D, yd)) reps c') :
    c'.total = N' * C ∧ c'.correct = binAccuracy2 fy fp Y P N' C := by
  have hcache := (fillCache_result D fy Y C init 0 N d yd hexi hinit hND hfill).1
  have key : ∀ (reps : List (Rep α)) (s t : Nat) (c c' : Cnt), Batches P C s (reps.map (·.act)) t → t ≤ N →
      (∀ b ∈ reps, b.exP.Ok ∧ b.y.rows = b.act.rows ∧ b.y.cols = C) → c.cur = s → c.total = s * C →
      c.correct = binAccuracy2 fy fp Y P s C →
      reports (fun y => y.rows * y.cols) (binCorrect fp (some (D, yd))) reps c c' →
      c'.total = t * C ∧ c'.correct = binAccuracy2 fy fp Y P t C := by
    intro reps
    induction reps with
    | nil =>
      intro s t c c' hb _ _ _ h1 h2 h
      have hb : s = t := hb
      have h : c' = c := h
      subst hb h
      exact ⟨h1, h2⟩
    | cons b bs ih =>
      intro s t c c' hb ht he hcur h1 h2 h
      obtain ⟨ret, cur', hcl, h⟩ := h
      have hm : IsBatch P C s b.act := hb.1
      have hb : Batches P C (s + b.act.rows) (bs.map (·.act)) t := hb.2
      have hle := batches_le hb
      obtain ⟨e1, e2, e3⟩ := he b (List.mem_cons_self ..)
      rw [hcur] at hcl
      obtain ⟨r1, r2⟩ := bin_batch_cached2 fy fp Y P C D s yd b e1 hm
        (fun r c hr hc => hcache (s + r) c (Nat.zero_le _) (by omega) hc) hcl
      refine ih (s + b.act.rows) t _ c' hb ht (fun x hx => he x (List.mem_cons_of_mem _ hx)) r2 ?_ ?_ h
      · simp only
        rw [h1, e2, e3, Nat.add_mul]
      · simp only
        rw [h2, r1, binAccuracy2_add]
  exact key reps 0 N' Cnt.begin c' hrep hN hex rfl (by simp [Cnt.begin]) (by simp [Cnt.begin, binAccuracy2]) h

/-- C185: whatever was done with the evaluator before (`pre`), after `init` and any changes of the threshold a report of the training or test set (`s`)
judges the labels by the threshold that was in force at `init` and the predictions by the present one. -/
theorem labels_judged_by_threshold_of_init (half : α) (pre post : List (EOp α)) (ho : OnlyThresholds post) (ds : Bool → Nat)
    (bs : Bool → List (Exec × Mtx α)) (e : Ev α) (hrun : EOp.run (pre ++ .init ds bs :: post) (Ev.fresh half) e)
    (s : Bool) (Y P : Nat → Nat → α) (C N N' : Nat) (hinit : Batches Y C 0 ((bs s).map (·.2)) N) (hexi : ∀ b ∈ bs s, b.1.Ok) (hND : N ≤ ds s)
    (reps : List (Rep α)) (hrep : Batches P C 0 (reps.map (·.act)) N') (hN : N' ≤ N)
    (hex : ∀ b ∈ reps, b.exP.Ok ∧ b.y.rows = b.act.rows ∧ b.y.cols = C) {c' : Cnt} (h : e.report s reps c') :
    c'.total = N' * C ∧ c'.correct = binAccuracy2 (thrAfter half pre) (thrAfter half (pre ++ post)) Y P N' C := by
  rw [run_append] at hrun
  obtain ⟨e1, h1, e2, h2, h3⟩ := hrun
  have t1 := run_thr pre _ _ h1
  obtain ⟨d, d', hf, he2⟩ := h2
  have t3 := run_thr post _ _ h3
  have c3 := run_only post ho _ _ h3
  obtain ⟨ch, hch, hb⟩ := h
  rw [c3, he2] at hch
  simp only [Option.some.injEq] at hch
  subst hch
  have tt : e.thr = thrAfter half (pre ++ post) := by
    rw [t3, he2]
    show thrAfter e1.thr post = _
    rw [t1]
    show thrAfter (thrAfter half pre) post = _
    clear * -
    generalize half = t0
    induction pre generalizing t0 with
    | nil => rfl
    | cons o os ih => cases o <;> exact ih _
  rw [tt] at hb
  have hfs := hf s
  rw [t1] at hfs
  exact accuracy_binary2 _ _ Y P C (ds s) N N' (bs s) (d s) (d' s) hinit hexi hND hfs reps hrep hN hex hb

/-- C185: if the threshold is left alone after `init`, truth and predictions are judged by the same threshold, the one in force (C30). -/
theorem threshold_set_before_init_partial (half : α) (pre : List (EOp α)) (ds : Bool → Nat)
    (bs : Bool → List (Exec × Mtx α)) (e : Ev α) (hrun : EOp.run (pre ++ [.init ds bs]) (Ev.fresh half) e)
    (s : Bool) (Y P : Nat → Nat → α) (C N N' : Nat) (hinit : Batches Y C 0 ((bs s).map (·.2)) N) (hexi : ∀ b ∈ bs s, b.1.Ok) (hND : N ≤ ds s)
    (reps : List (Rep α)) (hrep : Batches P C 0 (reps.map (·.act)) N') (hN : N' ≤ N)
    (hex : ∀ b ∈ reps, b.exP.Ok ∧ b.y.rows = b.act.rows ∧ b.y.cols = C) {c' : Cnt} (h : e.report s reps c') :
    c'.total = N' * C ∧ c'.correct = binAccuracy (thrAfter half pre) Y P N' C := by
  have := labels_judged_by_threshold_of_init half pre [] (by intro o h; cases h) ds bs e hrun s Y P C N N' hinit hexi hND reps hrep hN hex h
  rw [List.append_nil] at this
  exact this

/-- C185. Reports of the training and of the test set need labels that were prepared: there are some exactly if `init` was called and `deinit` was not called since. -/
theorem labels_prepared_iff (half : α) (ops : List (EOp α)) (e : Ev α) (hrun : EOp.run ops (Ev.fresh half) e) (s : Bool) :
    (e.cache s).isSome ↔ ∃ pre ds bs post, ops = pre ++ .init ds bs :: post ∧ EOp.deinit ∉ post := by
  have key : ∀ (ops : List (EOp α)) (e0 : Ev α), EOp.run ops e0 e → ((e.cache s).isSome ↔
      (∃ pre ds bs post, ops = pre ++ .init ds bs :: post ∧ EOp.deinit ∉ post) ∨ ((e0.cache s).isSome ∧ EOp.deinit ∉ ops)) := by
    intro ops
    induction ops with
    | nil =>
      intro e0 h
      have h : e = e0 := h
      subst h
      simp
    | cons o os ih =>
      intro e0 h
      obtain ⟨e1, h1, h2⟩ := h
      rw [ih e1 h2]
      have split : (∃ pre ds bs post, o :: os = pre ++ .init ds bs :: post ∧ EOp.deinit ∉ post) ↔
          (∃ pre ds bs post, os = pre ++ .init ds bs :: post ∧ EOp.deinit ∉ post) ∨ ((∃ ds bs, o = .init ds bs) ∧ EOp.deinit ∉ os) := by
        constructor
        · rintro ⟨pre, ds, bs, post, h, hn⟩
          cases pre with
          | nil => cases h; exact .inr ⟨⟨ds, bs, rfl⟩, hn⟩
          | cons p pre => cases h; exact .inl ⟨pre, ds, bs, post, rfl, hn⟩
        · rintro (⟨pre, ds, bs, post, h, hn⟩ | ⟨⟨ds, bs, rfl⟩, hn⟩)
          · exact ⟨o :: pre, ds, bs, post, by rw [h]; rfl, hn⟩
          · exact ⟨[], ds, bs, os, rfl, hn⟩
      rw [split]
      cases o with
      | setThreshold t =>
        have h1 : e1 = { e0 with thr := t } := h1
        rw [h1]
        simp
      | init ds bs =>
        obtain ⟨d, d', _, h3⟩ := h1
        rw [h3]
        simp
        intro _ h; exact .inr h
      | deinit =>
        have h1 : e1 = { e0 with cache := fun _ => none } := h1
        rw [h1]
        simp
  rw [key ops _ hrun]
  constructor
  · rintro (h | h)
    · exact h
    · exact absurd h.1 (by simp [Ev.fresh])
  · exact .inl

/-- C185: sets that are not prepared by `init` are judged by the present threshold altogether. -/
theorem other_sets_judged_by_present_threshold (half : α) (ops : List (EOp α)) (e : Ev α) (hrun : EOp.run ops (Ev.fresh half) e)
    (Y P : Nat → Nat → α) (C N' : Nat) (reps : List (Rep α))
    (hrepY : Batches Y C 0 (reps.map (·.y)) N') (hrep : Batches P C 0 (reps.map (·.act)) N')
    (hex : ∀ b ∈ reps, b.exP.Ok ∧ b.exY.Ok ∧ b.y.rows = b.act.rows) {c' : Cnt} (h : e.reportOther reps c') :
    c'.total = N' * C ∧ c'.correct = binAccuracy (thrAfter half ops) Y P N' C := by
  have t := run_thr ops _ _ hrun
  unfold Ev.reportOther at h
  rw [t] at h
  exact accuracy_binary_other _ Y P C N' reps hrepY hrep hex h

/-- C185 is false of the code if the threshold is changed after `init`: with the threshold raised from 0 to 1, a network that gives exactly the answers
(all of them 0 and 1, a single one 1) is right about all four as another data set, but not as the training set. -/
theorem threshold_changed_after_init :
    ∃ (e : Ev Int) (c c2 : Cnt),
      EOp.run [.init (fun _ => 1) (fun _ => [(.st, mtxOf tieY 1)]), .setThreshold 1] (Ev.fresh 0) e ∧
      e.report true [⟨.st, .st, mtxOf tieY 1, mtxOf tieY 1⟩] c ∧ e.reportOther [⟨.st, .st, mtxOf tieY 1, mtxOf tieY 1⟩] c2 ∧
      c.total = 4 ∧ c2.total = 4 ∧ c2.correct = 4 ∧ c.correct = 3 := by
  have hY : ∀ i j c, tieY i c = tieY j c := fun _ _ _ => rfl
  have b1 : Batches tieY 4 0 [mtxOf tieY 1] 1 := ⟨mtxOf_batch tieY hY _ 1 (by omega), rfl⟩
  have h1 : ∃ yd, fillCache 1 0 [(.st, mtxOf tieY 1)] 0 (fun _ => false) yd := ⟨_, _, outcome_program_order _ _, rfl⟩
  obtain ⟨yd, hyd⟩ := h1
  let e : Ev Int := ⟨1, fun _ => some (1, yd)⟩
  have hrun : EOp.run [.init (fun _ => 1) (fun _ => [(.st, mtxOf tieY 1)]), .setThreshold 1] (Ev.fresh 0) e :=
    ⟨⟨0, fun _ => some (1, yd)⟩, ⟨fun _ _ => false, fun _ => yd, fun _ => hyd, rfl⟩, e, rfl, rfl⟩
  have h2 : ∃ c, e.report true [⟨.st, .st, mtxOf tieY 1, mtxOf tieY 1⟩] c :=
    ⟨_, (1, yd), rfl, _, _, ⟨fun _ => false, _, outcome_program_order _ _, rfl, rfl⟩, rfl⟩
  have h3 : ∃ c, e.reportOther [⟨.st, .st, mtxOf tieY 1, mtxOf tieY 1⟩] c :=
    ⟨_, _, _, ⟨fun _ => false, _, outcome_program_order _ _, fun _ => false, _, outcome_program_order _ _, rfl, rfl⟩, rfl⟩
  obtain ⟨c, hc⟩ := h2
  obtain ⟨c2, hc2⟩ := h3
  have r1 := labels_judged_by_threshold_of_init (0 : Int) [] [.setThreshold 1] (by intro o h; exact ⟨1, by simpa using h⟩) _ _ e hrun true tieY tieY 4 1 1 b1
    (by intro b hb; simp only [List.mem_singleton] at hb; subst hb; trivial) (Nat.le_refl _) [⟨.st, .st, mtxOf tieY 1, mtxOf tieY 1⟩] b1
    (Nat.le_refl _) (by intro b hb; simp only [List.mem_singleton] at hb; subst hb; exact ⟨trivial, rfl, rfl⟩) hc
  have r2 := other_sets_judged_by_present_threshold (0 : Int) _ e hrun tieY tieY 4 1 [⟨.st, .st, mtxOf tieY 1, mtxOf tieY 1⟩] b1 b1
    (by intro b hb; simp only [List.mem_singleton] at hb; subst hb; exact ⟨trivial, trivial, rfl⟩) hc2
  refine ⟨e, c, c2, hrun, hc, hc2, r1.1, r2.1, r2.2.trans (by decide), r1.2.trans (by decide)⟩

/-- C186: the counter of equal elements, run by one thread or by any pool, gives the number of positions with equal elements, counted from `ofs` in the
first vector. -/
theorem count_same_counts {β : Type} [DecidableEq β] (ex : Exec) (hex : ex.Ok) (A : Nat → β) (ofs : Nat) (B : Nat → β) (n : Nat) :
    countSame A ofs B n = (List.range n).countP (fun i => decide (A (ofs + i) = B i)) ∧
    countSameMt ex A ofs B n = (List.range n).countP (fun i => decide (A (ofs + i) = B i)) := by
  have e : ∀ l : List Nat, (l.map fun i => (decide (A (ofs + i) = B i)).toNat).sum = l.countP fun i => decide (A (ofs + i) = B i) := by
    intro l
    induction l with
    | nil => rfl
    | cons x l ih =>
      rw [List.map_cons, List.sum_cons, ih, List.countP_cons]
      by_cases h : A (ofs + x) = B x <;> simp [h, Nat.add_comm]
  refine ⟨?_, ?_⟩
  · unfold countSame
    rw [foldl_add, Nat.zero_add, e]
  · unfold countSameMt
    rw [reduceSum_eq ex hex, e]

/-- C186: the counter for a part of a matrix compares row `ofs + r` of the big matrix with row `r` of the small one, in all columns. -/
theorem count_same_batch_counts {β : Type} [DecidableEq β] (A B : Nat → β) (aRows bRows ofs C : Nat) :
    countSameBatch A B aRows bRows C ofs 0 0 =
      ((List.range C).map fun c => (List.range bRows).countP fun r => decide (A ((ofs + r) + aRows * c) = B (r + bRows * c))).sum := by
  rw [countSameBatch_eq, Nat.zero_add]
  congr 1
  apply List.map_congr_left
  intro c _
  apply List.countP_congr
  intro r _
  rw [show ofs + aRows * c + r = ofs + r + aRows * c by omega, show 0 + bRows * c + r = r + bRows * c by omega]

example : countSameMt (.mt (initRanges 3)) (fun i => i % 3) 2 (fun i => i % 2) 7 = 2 := by decide

end Nntl.Eval
