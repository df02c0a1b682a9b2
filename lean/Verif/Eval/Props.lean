import Verif.Eval.Lemmas
import Verif.TrainData.InitProps
import Mathlib.Algebra.Order.Ring.Rat
import Mathlib.Tactic.FieldSimp
import Mathlib.Tactic.NormNum
/-! Property theorems C29 (loss) and C30 (accuracy). -/
namespace Nntl.Eval
open Nntl.Matrix Nntl.Kernel Nntl.Threads
variable {α : Type} [LinearOrder α]

/-! ### C30: binary evaluator -/

theorem binAccuracy_add (frac : α) (Y P : Nat → Nat → α) (C s n : Nat) :
    binAccuracy frac Y P (s + n) C = binAccuracy frac Y P s C +
      ((List.range n).map fun r => (List.range C).countP fun c => decide (Y (s + r) c > frac) == decide (P (s + r) c > frac)).sum := by
  unfold binAccuracy
  rw [range_add_map, List.sum_append]

theorem bin_batch_cached (frac : α) (Y P : Nat → Nat → α) (C D s : Nat) (yd : Nat → Bool) (b : Rep α) (hex : b.exP.Ok)
    (hP : IsBatch P C s b.act) (hyd : ∀ r c, r < b.act.rows → c < C → yd (s + r + D * c) = decide (Y (s + r) c > frac))
    {ret cur' : Nat} (h : binCorrect frac (some (D, yd)) s b ret cur') :
    ret = ((List.range b.act.rows).map fun r => (List.range C).countP fun c =>
      decide (Y (s + r) c > frac) == decide (P (s + r) c > frac)).sum ∧ cur' = s + b.act.rows := by
  obtain ⟨p0, p, ho, hret, hcur⟩ := h
  obtain ⟨hr, hc, hv⟩ := hP
  refine ⟨?_, hcur⟩
  rw [hret, countSameBatch_eq, Nat.zero_add, hc]
  refine Eq.trans ?_ (sum_countP_comm (fun r c => decide (Y (s + r) c > frac) == decide (P (s + r) c > frac)) b.act.rows C)
  congr 1
  apply List.map_congr_left
  intro c hc'
  have hcl := List.mem_range.1 hc'
  apply List.countP_congr
  intro r hr'
  have hrl := List.mem_range.1 hr'
  have hk : r + b.act.rows * c < b.act.rows * b.act.cols := by
    have : b.act.rows * (c + 1) ≤ b.act.rows * b.act.cols := Nat.mul_le_mul_left _ (by omega)
    rw [Nat.mul_add] at this; omega
  have h1 := binarize_result b.exP hex b.act frac ho _ hk
  rw [hv r c hrl hcl] at h1
  have h2 := hyd r c hrl hcl
  rw [show s + D * c + r = s + r + D * c by omega, show 0 + b.act.rows * c + r = r + b.act.rows * c by omega, h1, h2]
  simp

theorem count_flat (f : Nat → Bool) (R : Nat) : ∀ C, (List.range (R * C)).countP f =
    ((List.range C).map fun c => (List.range R).countP fun r => f (r + R * c)).sum := by
  intro C
  induction C with
  | zero => simp
  | succ C ih =>
    rw [Nat.mul_succ, List.range_add, List.countP_append, ih, List.range_succ, List.map_append, List.sum_append, List.countP_map]
    simp only [List.map_cons, List.map_nil, List.sum_cons, List.sum_nil, Nat.add_zero]
    congr 2
    funext r
    simp [Function.comp_def, Nat.add_comm]

theorem bin_batch_other (frac : α) (Y P : Nat → Nat → α) (C s cur : Nat) (b : Rep α) (hex : b.exP.Ok) (hey : b.exY.Ok)
    (hP : IsBatch P C s b.act) (hY : IsBatch Y C s b.y) (hrows : b.y.rows = b.act.rows)
    {ret cur' : Nat} (h : binCorrect frac none cur b ret cur') :
    ret = ((List.range b.act.rows).map fun r => (List.range C).countP fun c =>
      decide (Y (s + r) c > frac) == decide (P (s + r) c > frac)).sum := by
  obtain ⟨p0, p, ho, q0, q, hq, hret, hcur⟩ := h
  obtain ⟨hr, hc, hv⟩ := hP
  obtain ⟨hr', hc', hv'⟩ := hY
  rw [hret, countSame_eq, count_flat, hc]
  refine Eq.trans ?_ (sum_countP_comm (fun r c => decide (Y (s + r) c > frac) == decide (P (s + r) c > frac)) b.act.rows C)
  congr 1
  apply List.map_congr_left
  intro c hcm
  have hcl := List.mem_range.1 hcm
  apply List.countP_congr
  intro r hrm
  have hrl := List.mem_range.1 hrm
  have hk : r + b.act.rows * c < b.act.rows * b.act.cols := by
    have : b.act.rows * (c + 1) ≤ b.act.rows * b.act.cols := Nat.mul_le_mul_left _ (by omega)
    rw [Nat.mul_add] at this; omega
  have h1 := binarize_result b.exP hex b.act frac ho _ hk
  have h2 := binarize_result b.exY hey b.y frac hq (r + b.act.rows * c) (by rw [hrows, hc', ← hc]; exact hk)
  rw [hv r c hrl hcl] at h1
  have h3 := hv' r c (by omega) hcl
  rw [hrows] at h3
  rw [h3] at h2
  rw [Nat.zero_add, h1, h2]
  simp

/-- **C30, binary evaluator, training and test sets.** However the labels were split into batches when the evaluator was initialised
(`init`) and however the set is split into batches when it is reported (`reps`), and whatever the thread pool does: the number of
elements and of correct answers are those of the whole set. `D` is the number of samples in the set; the walks may stop before its end
(C15), then the numbers are those of the samples reported. -/
theorem accuracy_binary (frac : α) (Y P : Nat → Nat → α) (C D N N' : Nat) (init : List (Exec × Mtx α)) (d yd : Nat → Bool)
    (hinit : Batches Y C 0 (init.map (·.2)) N) (hexi : ∀ b ∈ init, b.1.Ok) (hND : N ≤ D) (hfill : fillCache D frac init 0 d yd)
    (reps : List (Rep α)) (hrep : Batches P C 0 (reps.map (·.act)) N') (hN : N' ≤ N)
    (hex : ∀ b ∈ reps, b.exP.Ok ∧ b.y.rows = b.act.rows ∧ b.y.cols = C)
    {c' : Cnt} (h : binReport frac (some (D, yd)) reps c') :
    c'.total = N' * C ∧ c'.correct = binAccuracy frac Y P N' C := by
  have hcache := (fillCache_result D frac Y C init 0 N d yd hexi hinit hND hfill).1
  have key : ∀ (reps : List (Rep α)) (s t : Nat) (c c' : Cnt), Batches P C s (reps.map (·.act)) t → t ≤ N →
      (∀ b ∈ reps, b.exP.Ok ∧ b.y.rows = b.act.rows ∧ b.y.cols = C) → c.cur = s → c.total = s * C →
      c.correct = binAccuracy frac Y P s C →
      reports (fun y => y.rows * y.cols) (binCorrect frac (some (D, yd))) reps c c' →
      c'.total = t * C ∧ c'.correct = binAccuracy frac Y P t C := by
    intro reps
    induction reps with
    | nil =>
      intro s t c c' hb _ _ _ h1 h2 h
      have hb : s = t := hb
      have h : c' = c := h
      subst hb h
      exact ⟨h1, h2⟩
    | cons b bs ih =>
      intro s t c c' hb ht he hcur h1 h2 h
      obtain ⟨ret, cur', hcl, h⟩ := h
      have hm : IsBatch P C s b.act := hb.1
      have hb : Batches P C (s + b.act.rows) (bs.map (·.act)) t := hb.2
      have hle := batches_le hb
      obtain ⟨e1, e2, e3⟩ := he b (List.mem_cons_self ..)
      rw [hcur] at hcl
      obtain ⟨r1, r2⟩ := bin_batch_cached frac Y P C D s yd b e1 hm
        (fun r c hr hc => hcache (s + r) c (Nat.zero_le _) (by omega) hc) hcl
      refine ih (s + b.act.rows) t _ c' hb ht (fun x hx => he x (List.mem_cons_of_mem _ hx)) r2 ?_ ?_ h
      · simp only
        rw [h1, e2, e3, Nat.add_mul]
      · simp only
        rw [h2, r1, binAccuracy_add]
  exact key reps 0 N' Cnt.begin c' hrep hN hex rfl (by simp [Cnt.begin]) (by simp [Cnt.begin, binAccuracy]) h

/-- **C30, binary evaluator, other sets** (not cached: labels are taken from the batch). -/
theorem accuracy_binary_other (frac : α) (Y P : Nat → Nat → α) (C N' : Nat) (reps : List (Rep α))
    (hrepY : Batches Y C 0 (reps.map (·.y)) N') (hrep : Batches P C 0 (reps.map (·.act)) N')
    (hex : ∀ b ∈ reps, b.exP.Ok ∧ b.exY.Ok ∧ b.y.rows = b.act.rows)
    {c' : Cnt} (h : binReport frac none reps c') :
    c'.total = N' * C ∧ c'.correct = binAccuracy frac Y P N' C := by
  have key : ∀ (reps : List (Rep α)) (s t : Nat) (c c' : Cnt), Batches Y C s (reps.map (·.y)) t → Batches P C s (reps.map (·.act)) t →
      (∀ b ∈ reps, b.exP.Ok ∧ b.exY.Ok ∧ b.y.rows = b.act.rows) → c.total = s * C →
      c.correct = binAccuracy frac Y P s C →
      reports (fun y => y.rows * y.cols) (binCorrect frac none) reps c c' →
      c'.total = t * C ∧ c'.correct = binAccuracy frac Y P t C := by
    intro reps
    induction reps with
    | nil =>
      intro s t c c' _ hb _ h1 h2 h
      have hb : s = t := hb
      have h : c' = c := h
      subst hb h
      exact ⟨h1, h2⟩
    | cons b bs ih =>
      intro s t c c' hbY hb he h1 h2 h
      obtain ⟨ret, cur', hcl, h⟩ := h
      have hm : IsBatch P C s b.act := hb.1
      have hmY : IsBatch Y C s b.y := hbY.1
      have hb : Batches P C (s + b.act.rows) (bs.map (·.act)) t := hb.2
      have hbY : Batches Y C (s + b.y.rows) (bs.map (·.y)) t := hbY.2
      obtain ⟨e1, e2, e3⟩ := he b (List.mem_cons_self ..)
      rw [e3] at hbY
      have r1 := bin_batch_other frac Y P C s c.cur b e1 e2 hm hmY e3 hcl
      refine ih (s + b.act.rows) t _ c' hbY hb (fun x hx => he x (List.mem_cons_of_mem _ hx)) ?_ ?_ h
      · simp only
        rw [h1, e3, hmY.2.1, Nat.add_mul]
      · simp only
        rw [h2, r1, binAccuracy_add]
  exact key reps 0 N' Cnt.begin c' hrepY hrep hex (by simp [Cnt.begin]) (by simp [Cnt.begin, binAccuracy]) h

/-! ### C30: one-hot evaluator -/

theorem idxs_someMax (cfg : MathCfg) (hok : RangesOk cfg.rs) (Y : Nat → Nat → α) (C s : Nat) (hC : 0 < C) (A : Mtx α) (hA : IsBatch Y C s A)
    {v : Nat → Nat} (h : idxs cfg A v) (r : Nat) (hr : r < A.rows) : IsSomeMax (Y (s + r)) C (v r) := by
  obtain ⟨h1, h2, h3⟩ := hA
  have hs := (argmax_is_max_partial cfg.rs hok cfg.thr cfg.thrRows cfg.per A h1 (by omega) h r hr).1
  rw [h2] at hs
  refine ⟨hs.1, fun j hj => ?_⟩
  have := hs.2 j hj
  unfold Mtx.rowOf Mtx.cell at this
  rw [h3 r j hr hj, h3 r _ hr hs.1] at this
  exact this

theorem fillIdxs_result (Y : Nat → Nat → α) (C : Nat) (hC : 0 < C) : ∀ (bs : List (MathCfg × Mtx α)) (s t : Nat) (d d' : Nat → Nat),
    (∀ b ∈ bs, RangesOk b.1.rs) → Batches Y C s (bs.map (·.2)) t → fillIdxs bs s d d' →
    (∀ i, s ≤ i → i < t → IsSomeMax (Y i) C (d' i)) ∧ ∀ i, i < s → d' i = d i := by
  intro bs
  induction bs with
  | nil =>
    intro s t d d' _ hb hf
    have : s = t := hb
    have hf : d' = d := hf
    subst hf
    exact ⟨fun i h1 h2 => by omega, fun i _ => rfl⟩
  | cons b bs ih =>
    intro s t d d' hex hb hf
    obtain ⟨v, hv, hf⟩ := hf
    have hm : IsBatch Y C s b.2 := hb.1
    have hb : Batches Y C (s + b.2.rows) (bs.map (·.2)) t := hb.2
    obtain ⟨i1, i2⟩ := ih (s + b.2.rows) t _ d' (fun x hx => hex x (List.mem_cons_of_mem _ hx)) hb hf
    constructor
    · intro i h1 h2
      by_cases hi : s + b.2.rows ≤ i
      · exact i1 i hi h2
      · rw [i2 i (by omega)]
        rw [if_pos (by omega)]
        have := idxs_someMax b.1 (hex b (List.mem_cons_self ..)) Y C s hC b.2 hm hv (i - s) (by omega)
        rwa [show s + (i - s) = i by omega] at this
    · intro i hi
      rw [i2 i (by omega)]
      rw [if_neg (by omega)]

/-- **C30, one-hot evaluator, training and test sets (partial).** If the truth and the prediction of every sample have their maximum in
one column only, the numbers are those of the whole set, whatever the batches, the variants of the kernels and the thread pool. Missing:
samples with several equal maxima, see `accuracy_depends_on_batching`. -/
theorem accuracy_one_hot_partial (Y P : Nat → Nat → α) (C N N' : Nat) (hC : 0 < C) (init : List (MathCfg × Mtx α)) (d yd : Nat → Nat)
    (hinit : Batches Y C 0 (init.map (·.2)) N) (hexi : ∀ b ∈ init, RangesOk b.1.rs) (hfill : fillIdxs init 0 d yd)
    (reps : List (Rep α)) (hrep : Batches P C 0 (reps.map (·.act)) N') (hN : N' ≤ N)
    (hex : ∀ b ∈ reps, b.y.rows = b.act.rows) (cfg : MathCfg) (hcfg : RangesOk cfg.rs)
    (hYu : UniqueMax Y N C) (hPu : UniqueMax P N' C)
    {c' : Cnt} (h : hotReport cfg (some yd) reps c') : c'.total = N' ∧ IsHotAccuracy Y P N' C c'.correct := by
  classical
  have hcache := (fillIdxs_result Y C hC init 0 N d yd hexi hinit hfill).1
  let good : Nat → Bool := fun i => decide (∃ a, IsSomeMax (Y i) C a ∧ IsSomeMax (P i) C a)
  have key : ∀ (reps : List (Rep α)) (s t : Nat) (c c' : Cnt), Batches P C s (reps.map (·.act)) t → t ≤ N' →
      (∀ b ∈ reps, b.y.rows = b.act.rows) → c.cur = s → c.total = s → c.correct = (List.range s).countP good →
      reports (fun y => y.rows) (hotCorrect cfg (some yd)) reps c c' →
      c'.total = t ∧ c'.correct = (List.range t).countP good := by
    intro reps
    induction reps with
    | nil =>
      intro s t c c' hb _ _ _ h1 h2 h
      have hb : s = t := hb
      have h : c' = c := h
      subst hb h
      exact ⟨h1, h2⟩
    | cons b bs ih =>
      intro s t c c' hb ht he hcur h1 h2 h
      obtain ⟨ret, cur', ⟨p, hp, hret, hcur'⟩, h⟩ := h
      have hm : IsBatch P C s b.act := hb.1
      have hb : Batches P C (s + b.act.rows) (bs.map (·.act)) t := hb.2
      have hle := batches_le hb
      have e1 := he b (List.mem_cons_self ..)
      refine ih (s + b.act.rows) t _ c' hb ht (fun x hx => he x (List.mem_cons_of_mem _ hx)) (by rw [hcur', hcur]) ?_ ?_ h
      · simp only
        rw [h1, e1]
      · simp only
        rw [h2, hret, countSame_eq, hcur, List.range_add, List.countP_append, List.countP_map]
        congr 1
        apply List.countP_congr
        intro r hr
        have hrl := List.mem_range.1 hr
        have m1 := idxs_someMax cfg hcfg P C s hC b.act hm hp r hrl
        have m2 := hcache (s + r) (Nat.zero_le _) (by omega)
        simp only [decide_eq_true_eq, Function.comp_apply, good]
        constructor
        · intro he
          exact ⟨_, m2, he ▸ m1⟩
        · rintro ⟨a, ha1, ha2⟩
          rw [hYu (s + r) (by omega) _ _ m2 ha1, hPu (s + r) (by omega) _ _ m1 ha2]
  have := key reps 0 N' Cnt.begin c' hrep (Nat.le_refl _) hex rfl rfl rfl h
  exact ⟨this.1, good, fun i _ => by simp [good], this.2⟩

/-- **C30, one-hot evaluator, other sets (partial).** -/
theorem accuracy_one_hot_other_partial (Y P : Nat → Nat → α) (C N' : Nat) (hC : 0 < C)
    (reps : List (Rep α)) (hrepY : Batches Y C 0 (reps.map (·.y)) N') (hrep : Batches P C 0 (reps.map (·.act)) N')
    (hex : ∀ b ∈ reps, b.y.rows = b.act.rows) (cfg : MathCfg) (hcfg : RangesOk cfg.rs)
    (hYu : UniqueMax Y N' C) (hPu : UniqueMax P N' C)
    {c' : Cnt} (h : hotReport cfg none reps c') : c'.total = N' ∧ IsHotAccuracy Y P N' C c'.correct := by
  classical
  let good : Nat → Bool := fun i => decide (∃ a, IsSomeMax (Y i) C a ∧ IsSomeMax (P i) C a)
  have key : ∀ (reps : List (Rep α)) (s t : Nat) (c c' : Cnt), Batches Y C s (reps.map (·.y)) t → Batches P C s (reps.map (·.act)) t →
      t ≤ N' → (∀ b ∈ reps, b.y.rows = b.act.rows) → c.total = s → c.correct = (List.range s).countP good →
      reports (fun y => y.rows) (hotCorrect cfg none) reps c c' →
      c'.total = t ∧ c'.correct = (List.range t).countP good := by
    intro reps
    induction reps with
    | nil =>
      intro s t c c' _ hb _ _ h1 h2 h
      have hb : s = t := hb
      have h : c' = c := h
      subst hb h
      exact ⟨h1, h2⟩
    | cons b bs ih =>
      intro s t c c' hbY hb ht he h1 h2 h
      obtain ⟨ret, cur', ⟨p, hp, q, hq, hret, hcur'⟩, h⟩ := h
      have hm : IsBatch P C s b.act := hb.1
      have hmY : IsBatch Y C s b.y := hbY.1
      have hb : Batches P C (s + b.act.rows) (bs.map (·.act)) t := hb.2
      have hbY : Batches Y C (s + b.y.rows) (bs.map (·.y)) t := hbY.2
      have hle := batches_le hb
      have e1 := he b (List.mem_cons_self ..)
      rw [e1] at hbY
      refine ih (s + b.act.rows) t _ c' hbY hb ht (fun x hx => he x (List.mem_cons_of_mem _ hx)) ?_ ?_ h
      · simp only
        rw [h1, e1]
      · simp only
        rw [h2, hret, countSame_eq, List.range_add, List.countP_append, List.countP_map]
        congr 1
        apply List.countP_congr
        intro r hr
        have hrl := List.mem_range.1 hr
        have m1 := idxs_someMax cfg hcfg P C s hC b.act hm hp r hrl
        have m2 := idxs_someMax cfg hcfg Y C s hC b.y hmY hq r (by omega)
        simp only [decide_eq_true_eq, Function.comp_apply, good, Nat.zero_add]
        constructor
        · intro he
          exact ⟨_, m2, he ▸ m1⟩
        · rintro ⟨a, ha1, ha2⟩
          rw [hYu (s + r) (by omega) _ _ m2 ha1, hPu (s + r) (by omega) _ _ m1 ha2]
  have := key reps 0 N' Cnt.begin c' hrepY hrep (Nat.le_refl _) hex rfl rfl h
  exact ⟨this.1, good, fun i _ => by simp [good], this.2⟩

/-! ### The batches are those of the training data object -/

section Walk
open Nntl.TrainData
variable {γ : Type}

/-- The labels of a set with samples in rows. -/
def labels (d : Data γ α) (s : SetId) : Nat → Nat → α := fun i c => (d.Y s).data (i + (d.Y s).rows * c)

/-- A walk over a set (C15) delivers batches of labels as the evaluators expect them, for every batch size. Together with
`accuracy_binary` this covers initialisation and reports with different batch sizes. -/
theorem walk_label_batches [OfNat γ 1] [OfNat α 1] {vmax : Nat} {d : Data γ α} (hd : d.Ok) {t t1 : TD γ α} (hr : Reach vmax d t) {s : SetId}
    {cd n : Nat} {arg : Int} {exclX : Bool} (hw : walkOverSet t s cd arg exclX false = some (t1, n)) (hbir : (d.Y .train).bir = false)
    (run : Nat → TD γ α) (h0 : run 0 = t1) (hrun : SubsetRun run n) :
    ∃ (ys : Nat → Mtx α) (N : Nat), (∀ i, i < n → batchY (run (i + 1)) = some (ys i)) ∧
      Batches (labels d s) d.yW 0 ((List.range n).map ys) N ∧ d.count s - 1 ≤ N ∧ N ≤ d.count s := by
  obtain ⟨b0, b, hb0, heff, hb, hn, start, hs0, hsn, hvis⟩ := walk_visits hd hr hw run h0 hrun
  obtain ⟨hI, hdd⟩ := reach_inv hd hr
  obtain ⟨hI1, hd1⟩ := inv_walk hI hw
  rw [← h0] at hI1
  have hframe := subsetRun_frame hI1 hrun
  have hcnt := hd.count s
  have hbp : 0 < b := by omega
  -- the pointer to the labels never is null, and points to a matrix with samples in rows and without biases
  have hY : ∀ i, i < n → ∃ y, batchY (run (i + 1)) = some y ∧ y.emul = false ∧ y.bir = false := by
    intro i hi
    obtain ⟨f1, f2, f3, f4, f5, f6⟩ := hframe (i + 1) (by omega)
    rw [h0] at f2 f3 f4 f6
    obtain ⟨b0', hb0', heff', -, hds, b', hb', hn', hcase⟩ := walkOverSet_cases hw
    rcases hcase with ⟨hlt, bx, bY, px, py, -, hYc, rfl⟩ | ⟨hbe, rfl⟩
    · rw [hdd] at hYc hb' hds
      rcases hYc with ⟨h, -⟩ | ⟨-, h, -⟩ | ⟨-, -, hpy, -⟩
      · cases h
      · rw [hbir] at h; cases h
      · simp only at f3 f4 f6
        have hp := f1.ptrY s f3
        have hpos : (0 : Int) < (run (i + 1)).cur := by rw [f4]; omega
        rcases hp.2 hpos with h | ⟨h1, h2, h3⟩ | ⟨h, -⟩
        · rw [f6, hpy] at h; cases h
        · have hsh := f1.byOk h3
          exact ⟨_, by rw [batchY, h1], hsh.emul, by rw [hsh.bir, h2]⟩
        · rw [f6, hpy] at h; cases h
    · simp only [Bool.false_eq_true, if_false] at f6
      refine ⟨(run (i + 1)).d.Y s, by rw [batchY, f6], ?_, ?_⟩
      · rw [f2]; simp only [hdd]; exact hd.emulY s
      · rw [f2]; simp only [hdd]; rw [hd.birY s, hbir]
  have hchoice : ∃ ys : Nat → Mtx α, ∀ i, i < n → batchY (run (i + 1)) = some (ys i) ∧ (ys i).emul = false ∧ (ys i).bir = false := by
    classical
    refine ⟨fun i => if h : i < n then (hY i h).choose else d.Y s, fun i hi => ?_⟩
    simp only [dif_pos hi]
    exact (hY i hi).choose_spec
  obtain ⟨ys, hys⟩ := hchoice
  refine ⟨ys, start n, fun i hi => (hys i hi).1, ?_, ?_, ?_⟩
  · have hone : ∀ i, i < n → IsBatch (labels d s) d.yW (start i) (ys i) ∧ start i + (ys i).rows = start (i + 1) := by
      intro i hi
      obtain ⟨g1, g2, g3⟩ := hys i hi
      obtain ⟨v1, -, v2⟩ := hvis i hi
      obtain ⟨v3, v4⟩ := v2 _ g1
      have hbs : (ys i).batchSize = (ys i).rows := by simp [Mtx.batchSize, g3]
      have hss : (ys i).sampleSize = (ys i).cols := by simp [Mtx.sampleSize, Mtx.colsNoBias, g2, g3]
      have hbir' : (d.Y s).bir = false := by rw [hd.birY s, hbir]
      rw [hbs] at v3 v4
      have hpos : 0 < (ys i).rows := by omega
      have hw : (ys i).cols = d.yW := by
        rw [← hss, (v4 0 hpos).1, hd.widthY s]
      refine ⟨⟨hpos, hw, ?_⟩, v3⟩
      intro r c hr hc
      obtain ⟨w1, w2, w3, w4⟩ := v4 r hr
      obtain ⟨w5, w6⟩ := w4 c (by omega)
      have hYs : (d.Y s).batchSize = (d.Y s).rows := by simp [Mtx.batchSize, hbir']
      have hcc : (d.Y s).cols = d.yW := by
        have := hd.widthY s
        simpa [Mtx.sampleSize, Mtx.colsNoBias, hd.emulY s, hbir'] using this
      unfold sampleAt at w5
      rw [g3, hbir'] at w5
      simp only [Bool.false_eq_true, if_false, Mtx.get] at w5
      rw [if_pos ⟨hr, by omega⟩, if_pos ⟨by omega, by omega⟩] at w5
      have := Option.some.inj w5
      simpa [Mtx.cell, labels] using this
    have hall : ∀ k, k ≤ n → Batches (labels d s) d.yW (start (n - k)) ((List.range' (n - k) k).map ys) (start n) := by
      intro k
      induction k with
      | zero => intro _; show start (n - 0) = start n; rfl
      | succ k ih =>
        intro hk
        rw [List.range'_succ, List.map_cons]
        obtain ⟨o1, o2⟩ := hone (n - (k + 1)) (by omega)
        refine ⟨o1, ?_⟩
        have := ih (by omega)
        rw [show n - (k + 1) + 1 = n - k by omega] at *
        rw [o2]
        exact this
    have := hall n (Nat.le_refl _)
    rw [Nat.sub_self, hs0, ← List.range_eq_range'] at this
    exact this
  · rw [hsn]
    have hdm := Nat.div_add_mod (d.count s) b
    have hmod := Nat.mod_lt (d.count s) hbp
    rw [hn, Nat.add_mul, Nat.mul_comm (d.count s / b) b]
    split <;> omega
  · rw [hsn]; omega

end Walk

/-! ### C30 fails on ties -/

/-- Two samples with a tie in the prediction, `1 0 1 0` twice; the truth is `1 0 0 0` twice. -/
def tieP : Nat → Nat → Int := fun _ c => if c = 0 ∨ c = 2 then 1 else 0
def tieY : Nat → Nat → Int := fun _ c => if c = 0 then 1 else 0
/-- The matrix of `n` samples. -/
def mtxOf (Y : Nat → Nat → Int) (n : Nat) : Mtx Int :=
  { data := fun k => Y (k % n) (k / n), cap := n * 4, rows := n, cols := 4, emul := false, ext := false, holey := false, bir := false,
    maxSize := n * 4 }
/-- One worker thread; matrices of at least 5 elements are processed by several threads. -/
def tieCfg : MathCfg := ⟨initRanges 1, 5, 20, 3⟩

theorem mtxOf_batch (Y : Nat → Nat → Int) (hY : ∀ i j c, Y i c = Y j c) (s n : Nat) (hn : 0 < n) : IsBatch Y 4 s (mtxOf Y n) := by
  refine ⟨hn, rfl, ?_⟩
  intro r c hr _
  show Y ((r + n * c) % n) ((r + n * c) / n) = Y (s + r) c
  rw [Nat.add_mul_div_left _ _ hn, Nat.div_eq_of_lt (show r < n from hr), Nat.zero_add]
  exact hY _ _ _

/-- The single-threaded result. -/
theorem idxs_small (A : Mtx Int) (cfg : MathCfg) (h : A.numel < cfg.thr) :
    idxs cfg A fun r => (runSteps (fun _ => (0, 0)) (Exec.threads .st A.rows (idxRw false A 0 A.cols)).flatten r).2 := by
  unfold idxs mrwIdxsOfMax
  rw [if_pos h]
  exact ⟨fun _ => (0, 0), _, ⟨_, interleaves_flatten _, rfl⟩, fun r _ => rfl⟩

/-- The column-threaded result in one possible interleaving. -/
theorem idxs_cw (A : Mtx Int) (cfg : MathCfg) (h : ¬ A.numel < cfg.thr) (h2 : A.rows < cfg.thrRows ∧ A.cols > cfg.per) :
    idxs cfg A fun r => (idxMerge (runSteps (fun _ => (0, 0)) (cwThreads cfg.rs A cfg.per fun cb ce =>
      idxRw true A cb ce 0 A.rows).flatten) A.rows
      (threadsUsed cfg.rs.length A.cols (threadsForCols cfg.per A.cols (cfg.rs.length + 1)) - 1) A.rows r
      (runSteps (fun _ => (0, 0)) (cwThreads cfg.rs A cfg.per fun cb ce => idxRw true A cb ce 0 A.rows).flatten r)).2 := by
  unfold idxs mrwIdxsOfMax
  rw [if_neg h, if_pos h2]
  exact ⟨fun _ => (0, 0), _, interleaves_flatten _, fun r _ => rfl⟩

/-- **C30 is false of the one-hot evaluator**: the same two samples, the same cached truth and the same thread pool; reported in
batches of one sample both are counted as correct, reported as one batch none is. -/
theorem accuracy_depends_on_batching : ∃ (yd : Nat → Nat) (reps1 reps2 : List (Rep Int)) (c1 c2 : Cnt),
    RangesOk tieCfg.rs ∧ (∀ d, ∃ yd', fillIdxs [(tieCfg, mtxOf tieY 1), (tieCfg, mtxOf tieY 1)] 0 d yd' ∧ ∀ i, i < 2 → yd' i = yd i) ∧
    Batches tieY 4 0 [mtxOf tieY 1, mtxOf tieY 1] 2 ∧
    Batches tieP 4 0 (reps1.map (·.act)) 2 ∧ Batches tieP 4 0 (reps2.map (·.act)) 2 ∧
    hotReport tieCfg (some yd) reps1 c1 ∧ hotReport tieCfg (some yd) reps2 c2 ∧
    c1.total = 2 ∧ c1.correct = 2 ∧ c2.total = 2 ∧ c2.correct = 0 := by
  have hP : ∀ i j c, tieP i c = tieP j c := fun _ _ _ => rfl
  have hY : ∀ i j c, tieY i c = tieY j c := fun _ _ _ => rfl
  refine ⟨fun _ => 0, [⟨.st, .st, mtxOf tieY 1, mtxOf tieP 1⟩, ⟨.st, .st, mtxOf tieY 1, mtxOf tieP 1⟩],
    [⟨.st, .st, mtxOf tieY 2, mtxOf tieP 2⟩], ⟨2, 2, 2⟩, ⟨2, 0, 2⟩, initRanges_ok 1, ?_,
    ⟨mtxOf_batch tieY hY _ 1 (by omega), mtxOf_batch tieY hY _ 1 (by omega), rfl⟩,
    ⟨mtxOf_batch tieP hP _ 1 (by omega), mtxOf_batch tieP hP _ 1 (by omega), rfl⟩, ⟨mtxOf_batch tieP hP _ 2 (by omega), rfl⟩, ?_, ?_,
    rfl, rfl, rfl, rfl⟩
  · intro d
    refine ⟨_, ⟨_, idxs_small (mtxOf tieY 1) tieCfg (by decide), _, idxs_small (mtxOf tieY 1) tieCfg (by decide), rfl⟩, ?_⟩
    intro i hi
    rcases (by omega : i = 0 ∨ i = 1) with rfl | rfl
    · exact (if_neg (by decide)).trans ((if_pos (by decide)).trans (by decide))
    · exact (if_pos (by decide)).trans (by decide)
  · refine ⟨1, 1, ⟨_, idxs_small (mtxOf tieP 1) tieCfg (by decide), by decide, rfl⟩, 1, 2,
      ⟨_, idxs_small (mtxOf tieP 1) tieCfg (by decide), by decide, rfl⟩, rfl⟩
  · refine ⟨0, 2, ⟨_, idxs_cw (mtxOf tieP 2) tieCfg (by decide) (by decide), by decide, rfl⟩, rfl⟩

/-- Non-vacuity of `accuracy_binary`: two label batches, one report batch, threshold 0. -/
example : ∃ (yd : Nat → Bool) (c' : Cnt), fillCache 2 0 [(.mt (initRanges 2), mtxOf tieY 1), (.st, mtxOf tieY 1)] 0 (fun _ => false) yd ∧
    binReport 0 (some (2, yd)) [⟨.mt (initRanges 3), .st, mtxOf tieY 2, mtxOf tieP 2⟩] c' ∧ c' = ⟨8, 6, 2⟩ := by
  have hP : ∀ i j c, tieP i c = tieP j c := fun _ _ _ => rfl
  have hY : ∀ i j c, tieY i c = tieY j c := fun _ _ _ => rfl
  have h1 : ∃ yd, fillCache 2 0 [(.mt (initRanges 2), mtxOf tieY 1), (.st, mtxOf tieY 1)] 0 (fun _ => false) yd :=
    ⟨_, _, outcome_program_order _ _, _, outcome_program_order _ _, rfl⟩
  obtain ⟨yd, hyd⟩ := h1
  have h2 : ∃ c', binReport 0 (some (2, yd)) [⟨.mt (initRanges 3), .st, mtxOf tieY 2, mtxOf tieP 2⟩] c' ∧ c'.cur = 2 :=
    ⟨_, ⟨_, _, ⟨fun _ => false, _, outcome_program_order _ _, rfl, rfl⟩, rfl⟩, rfl⟩
  obtain ⟨c', hc, hcur⟩ := h2
  refine ⟨yd, c', hyd, hc, ?_⟩
  have := accuracy_binary (0 : Int) tieY tieP 4 2 2 2 [(.mt (initRanges 2), mtxOf tieY 1), (.st, mtxOf tieY 1)] (fun _ => false) yd
    ⟨mtxOf_batch tieY hY 0 1 (by omega), mtxOf_batch tieY hY 1 1 (by omega), rfl⟩
    (by intro b hb
        simp only [List.mem_cons, List.not_mem_nil, or_false] at hb
        rcases hb with rfl | rfl
        · exact initRanges_ok 2
        · trivial) (Nat.le_refl _) hyd
    [⟨.mt (initRanges 3), .st, mtxOf tieY 2, mtxOf tieP 2⟩]
    ⟨mtxOf_batch tieP hP 0 2 (by omega), rfl⟩ (Nat.le_refl _)
    (by intro b hb
        simp only [List.mem_cons, List.not_mem_nil, or_false] at hb
        subst hb
        exact ⟨initRanges_ok 3, rfl, rfl⟩) hc
  cases c'
  simp only at this hcur
  rw [this.1, this.2, hcur]
  decide

/-! ### C29: loss -/

theorem reportedLoss_eq (a : Option ℚ) (bs : List (List ℚ)) : reportedLoss a bs = (bs.map meanLoss).sum + a.getD 0 := by
  have : ∀ (bs : List (List ℚ)) (x : ℚ), bs.foldl (fun lossVal b => lossVal + b.sum / (b.length : ℚ)) x = x + (bs.map meanLoss).sum := by
    intro bs
    induction bs with
    | nil => intro x; simp
    | cons b bs ih => intro x; rw [List.foldl_cons, ih, List.map_cons, List.sum_cons, meanLoss, add_assoc]
  unfold reportedLoss
  cases a <;> simp [this]

/-- **C29 (partial).** A set reported as one batch: the mean of the losses of its samples plus the addendum. -/
theorem loss_one_batch_partial (a : ℚ) (l : List ℚ) : reportedLoss (some a) [l] = meanLoss l + a := by
  rw [reportedLoss_eq]; simp

/-- **C29 (partial).** `n` batches of equal size: `n` times the mean plus the addendum. So the reported number is the mean only for a
single batch. -/
theorem loss_equal_batches_partial (a : ℚ) (bs : List (List ℚ)) (b : Nat) (hb : 0 < b) (hbs : ∀ l ∈ bs, l.length = b) :
    reportedLoss (some a) bs = bs.length * meanLoss bs.flatten + a := by
  rw [reportedLoss_eq]
  simp only [Option.getD_some]
  congr 1
  have hlen : bs.flatten.length = bs.length * b := by
    rw [List.length_flatten]
    have : bs.map List.length = bs.map fun _ => b := List.map_congr_left hbs
    rw [this]; simp
  have hsum : (bs.map meanLoss).sum = bs.flatten.sum / b := by
    have : bs.map meanLoss = bs.map fun l => l.sum / (b : ℚ) := by
      apply List.map_congr_left
      intro l hl
      rw [meanLoss, hbs l hl]
    rw [this]
    clear this hlen hbs
    induction bs with
    | nil => simp
    | cons l bs ih => rw [List.map_cons, List.sum_cons, ih, List.flatten_cons, List.sum_append, add_div]
  rw [hsum, meanLoss, hlen]
  by_cases h0 : bs = []
  · subst h0; simp
  · have h1 : (bs.length : ℚ) ≠ 0 := by
      have : bs.length ≠ 0 := by simpa using h0
      exact_mod_cast this
    have h2 : (b : ℚ) ≠ 0 := by exact_mod_cast (by omega : b ≠ 0)
    push_cast
    field_simp

/-- **C29 is false**: the same four samples reported in one batch or in two batches give different numbers, although all samples have
the same loss. -/
theorem loss_depends_on_batching : ∃ (b1 b2 : List (List ℚ)), b1.flatten = b2.flatten ∧ (∀ b ∈ b1, b ≠ []) ∧ (∀ b ∈ b2, b ≠ []) ∧
    reportedLoss (some 0) b1 ≠ reportedLoss (some 0) b2 ∧ reportedLoss (some 0) b2 ≠ meanLoss b2.flatten := by
  refine ⟨[[1, 1, 1, 1]], [[1, 1], [1, 1]], rfl, by simp, by simp, ?_, ?_⟩
  · rw [reportedLoss_eq, reportedLoss_eq]
    norm_num [meanLoss]
  · rw [reportedLoss_eq]
    norm_num [meanLoss]

end Nntl.Eval
