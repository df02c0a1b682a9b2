import Verif.Grad.Spec
import Verif.Num.Softmax
import Mathlib.Tactic.Linarith
/-! What every kernel and every stage of `apply_grad` calculates: the relations of the model are functions of the memory, whatever the threads do. -/
namespace Nntl.Grad
open Nntl.Kernel Nntl.Matrix Nntl.Threads Nntl.Num

/-- `f` applied to the first `n` elements. -/
def each {σ : Type} (n : Nat) (f : Nat → σ → σ) (m : Nat → σ) : Nat → σ := fun i => if i < n then f i (m i) else m i

theorem exec_ok {E : Env} (h : E.Ok) (t : Thr) (n : Nat) : (E.exec t n).Ok := by
  unfold Env.exec; split
  · trivial
  · exact h

theorem runs_each {σ : Type} {ex : Exec} (h : ex.Ok) {n : Nat} (hn : 0 < n) (f : Nat → σ → σ) (m m' : Nat → σ) :
    Runs ex n (eachSteps f) m m' ↔ m' = each n f m := by
  constructor
  · intro hr; funext k; exact each_result ex h n hn f hr k
  · intro he
    obtain ⟨x, hx⟩ := runs_exists ex n (eachSteps f) m
    have : x = each n f m := by funext k; exact each_result ex h n hn f hx k
    rw [he, ← this]; exact hx

theorem pair_eq (a b : Nat → ℝ) (f : Nat → ℝ × ℝ) : (fun i => (a i, b i)) = f ↔ a = (fun i => (f i).1) ∧ b = (fun i => (f i).2) := by
  constructor
  · intro h; subst h; exact ⟨rfl, rfl⟩
  · rintro ⟨rfl, rfl⟩; rfl

theorem triple_eq (a b c : Nat → ℝ) (f : Nat → ℝ × ℝ × ℝ) : (fun i => (a i, b i, c i)) = f ↔
    a = (fun i => (f i).1) ∧ b = (fun i => (f i).2.1) ∧ c = (fun i => (f i).2.2) := by
  constructor
  · intro h; subst h; exact ⟨rfl, rfl, rfl⟩
  · rintro ⟨rfl, rfl, rfl⟩; rfl

section kernels
variable {E : Env} (hE : E.Ok) {n : Nat} (hn : 0 < n)
include hE hn

theorem evMulCIp_iff (b : ℝ) (A A' : Nat → ℝ) : evMulCIp E n b A A' ↔ A' = each n (fun _ v => v * b) A := runs_each (exec_ok hE _ _) hn _ _ _
theorem evAddIp_iff (B A A' : Nat → ℝ) : evAddIp E n B A A' ↔ A' = each n (fun i v => v + B i) A := runs_each (exec_ok hE _ _) hn _ _ _
theorem evSubIp_iff (B A A' : Nat → ℝ) : evSubIp E n B A A' ↔ A' = each n (fun i v => v - B i) A := runs_each (exec_ok hE _ _) hn _ _ _
theorem evAddScaledIp_iff (c : ℝ) (B A A' : Nat → ℝ) : evAddScaledIp E n c B A A' ↔ A' = each n (fun i v => v + c * B i) A :=
  runs_each (exec_ok hE _ _) hn _ _ _
theorem evAddScaledSignIp_iff (c : ℝ) (B A A' : Nat → ℝ) : evAddScaledSignIp E n c B A A' ↔ A' = each n (fun i v => v + c * sgn (B i)) A :=
  runs_each (exec_ok hE _ _) hn _ _ _
theorem evSquare_iff (src A A' : Nat → ℝ) : evSquare E n src A A' ↔ A' = each n (fun i _ => src i * src i) A := runs_each (exec_ok hE _ _) hn _ _ _
theorem evAbs_iff (src A A' : Nat → ℝ) : evAbs E n src A A' ↔ A' = each n (fun i _ => |src i|) A := runs_each (exec_ok hE _ _) hn _ _ _
theorem applyMomentum_iff (mom : ℝ) (dW V V' : Nat → ℝ) : applyMomentum E n mom dW V V' ↔ V' = each n (fun i v => mom * v + dW i) V :=
  runs_each (exec_ok hE _ _) hn _ _ _
theorem rProp_iff (lr : ℝ) (A A' : Nat → ℝ) : rProp E n lr A A' ↔ A' = each n (fun _ v => lr * sgn v) A := runs_each (exec_ok hE _ _) hn _ _ _
theorem applyDropoutMask_iff (p : ℝ) (draw A A' : Nat → ℝ) : applyDropoutMask E n p draw A A' ↔
    A' = each n (fun i v => v * (if draw i < p then 1 else 0)) A := runs_each (exec_ok hE _ _) hn _ _ _

theorem evMulCIpSubIp_iff (mom : ℝ) (V W V' W' : Nat → ℝ) : evMulCIpSubIp E n mom V W V' W' ↔
    V' = each n (fun _ v => v * mom) V ∧ W' = each n (fun i w => w - V i * mom) W := by
  refine (runs_each (exec_ok hE _ _) hn _ _ _).trans ((pair_eq _ _ _).trans ?_)
  unfold each
  refine and_congr (Eq.congr_right ?_) (Eq.congr_right ?_) <;> (funext i; dsimp only; split <;> rfl)

theorem runs_pair (t : Thr) (f : ℝ × ℝ → ℝ × ℝ) (a b a' b' : Nat → ℝ) :
    Runs (E.exec t n) n (eachSteps fun _ => f) (fun i => (a i, b i)) (fun i => (a' i, b' i)) ↔
    a' = each n (fun i _ => (f (a i, b i)).1) a ∧ b' = each n (fun i _ => (f (a i, b i)).2) b := by
  refine (runs_each (exec_ok hE _ _) hn _ _ _).trans ((pair_eq _ _ _).trans ?_)
  unfold each
  refine and_congr (Eq.congr_right ?_) (Eq.congr_right ?_) <;> (funext i; dsimp only; split <;> rfl)

theorem runs_triple (t : Thr) (f : ℝ × ℝ × ℝ → ℝ × ℝ × ℝ) (a b c a' b' c' : Nat → ℝ) :
    Runs (E.exec t n) n (eachSteps fun _ => f) (fun i => (a i, b i, c i)) (fun i => (a' i, b' i, c' i)) ↔
    a' = each n (fun i _ => (f (a i, b i, c i)).1) a ∧ b' = each n (fun i _ => (f (a i, b i, c i)).2.1) b ∧
    c' = each n (fun i _ => (f (a i, b i, c i)).2.2) c := by
  refine (runs_each (exec_ok hE _ _) hn _ _ _).trans ((triple_eq _ _ _ _).trans ?_)
  unfold each
  refine and_congr (Eq.congr_right ?_) (and_congr (Eq.congr_right ?_) (Eq.congr_right ?_)) <;> (funext i; dsimp only; split <;> rfl)

end kernels

/-! ### Individual gains -/

theorem ilrVec_at (decr incr capLow capHigh : ℝ) (prev : Nat → ℝ) (b e k : Nat) :
    ((ilrVec decr incr capLow capHigh prev b e).filter fun s => s.1 == k).map (·.2) = if b ≤ k ∧ k < e then
      [fun c => (c.1, c.2.1, c.1 * prev k), fun c => (c.1, c.2.1 * gainFactor decr incr capLow capHigh c.2.2 c.2.1, c.2.2),
       fun c => (c.1 * c.2.1, c.2.1, c.2.2)] else [] := by
  unfold ilrVec
  simp only [List.filter_append, List.map_append, eachSteps_at]
  by_cases h : b ≤ k ∧ k < e
  · simp only [if_pos h]; rfl
  · simp only [if_neg h]; rfl

/-- All four variants do the same. -/
theorem applyILR_sound {E : Env} (hE : E.Ok) {n : Nat} (hn : 0 < n) (decr incr capLow capHigh : ℝ) (prev dW gain dW' gain' : Nat → ℝ) :
    applyILR E n decr incr capLow capHigh prev dW gain dW' gain' →
    gain' = each n (fun i g => g * gainFactor decr incr capLow capHigh (prev i * dW i) g) gain ∧ dW' = each n (fun i d => d * gain' i) dW := by
  have naive : ∀ (ex : Exec), ex.Ok → ∀ tmp tmp' : Nat → ℝ, Runs ex n (eachSteps (ilrNaive decr incr capLow capHigh prev)) (fun i => (dW i, gain i, tmp i))
      (fun i => (dW' i, gain' i, tmp' i)) → gain' = each n (fun i g => g * gainFactor decr incr capLow capHigh (prev i * dW i) g) gain ∧
      dW' = each n (fun i d => d * gain' i) dW := by
    intro ex hex tmp tmp' h
    rw [runs_each hex hn, triple_eq] at h
    obtain ⟨h1, h2, _⟩ := h
    constructor
    · rw [h2]; funext i; unfold each ilrNaive; dsimp only; split <;> rfl
    · rw [h1, h2]; funext i; unfold each ilrNaive; dsimp only; split <;> rfl
  have vec : ∀ (ex : Exec), ex.Ok → ∀ tmp tmp' : Nat → ℝ, Runs ex n (ilrVec decr incr capLow capHigh prev) (fun i => (dW i, gain i, tmp i))
      (fun i => (dW' i, gain' i, tmp' i)) → gain' = each n (fun i g => g * gainFactor decr incr capLow capHigh (prev i * dW i) g) gain ∧
      dW' = each n (fun i d => d * gain' i) dW := by
    intro ex hex tmp tmp' h
    have key := fun k => runs_result ex hex n hn _ id _ (fun b e _ _ k => ilrVec_at decr incr capLow capHigh prev b e k) h k
    have hg : gain' = each n (fun i g => g * gainFactor decr incr capLow capHigh (prev i * dW i) g) gain := by
      funext k
      have := congrArg (fun c => c.2.1) (key k)
      dsimp only [id] at this
      rw [this]
      unfold each
      by_cases hk : k < n
      · rw [if_pos hk, if_pos hk]; simp only [List.foldl_cons, List.foldl_nil]; rw [mul_comm (dW k)]
      · rw [if_neg hk, if_neg hk]
    refine ⟨hg, ?_⟩
    funext k
    have := congrArg (fun c => c.1) (key k)
    dsimp only [id] at this
    rw [this, hg]
    unfold each
    by_cases hk : k < n
    · rw [if_pos hk, if_pos hk]; simp only [List.foldl_cons, List.foldl_nil, if_pos hk]; rw [mul_comm (dW k) (prev k)]
    · rw [if_neg hk, if_neg hk]
  rintro ⟨tmp, tmp', h⟩
  by_cases h1 : n < E.thr .ilr
  · simp only [if_pos h1] at h
    split at h
    · exact vec .st trivial tmp tmp' h
    · exact naive .st trivial tmp tmp' h
  · simp only [if_neg h1] at h
    split at h
    · exact vec (.mt E.rs) hE tmp tmp' h
    · exact naive (.mt E.rs) hE tmp tmp' h

theorem applyILR_iff {E : Env} (hE : E.Ok) {n : Nat} (hn : 0 < n) (decr incr capLow capHigh : ℝ) (prev dW gain dW' gain' : Nat → ℝ) :
    applyILR E n decr incr capLow capHigh prev dW gain dW' gain' ↔
    gain' = each n (fun i g => g * gainFactor decr incr capLow capHigh (prev i * dW i) g) gain ∧ dW' = each n (fun i d => d * gain' i) dW := by
  refine ⟨applyILR_sound hE hn _ _ _ _ _ _ _ _ _, fun ⟨h1, h2⟩ => ?_⟩
  obtain ⟨x, hx⟩ := runs_exists (if n < E.thr .ilr then .st else .mt E.rs) n
    (if n < E.thr .ilr then
      if n ≤ E.thr .ilrStVec then ilrVec decr incr capLow capHigh prev else eachSteps (ilrNaive decr incr capLow capHigh prev)
    else
      if n ≤ E.thr .ilrMtVec ∨ E.thr .ilrMtVec2 ≤ n then ilrVec decr incr capLow capHigh prev
      else eachSteps (ilrNaive decr incr capLow capHigh prev)) (fun i => (dW i, gain i, (0 : ℝ)))
  have hr : applyILR E n decr incr capLow capHigh prev dW gain (fun i => (x i).1) (fun i => (x i).2.1) := ⟨fun _ => 0, fun i => (x i).2.2, hx⟩
  obtain ⟨g1, g2⟩ := applyILR_sound hE hn _ _ _ _ _ _ _ _ _ hr
  have e1 : (fun i => (x i).2.1) = gain' := by rw [g1, h1]
  have e2 : (fun i => (x i).1) = dW' := by
    rw [g2, h2]
    congr 1
    funext i d
    exact congrArg (d * ·) (congrFun e1 i)
  rw [e1, e2] at hr
  exact hr

/-! ### Norms of rows -/

/-- Squared L2 norm of a row over the first `cols` columns. -/
noncomputable def rowNorm2 (d : Nat → ℝ) (rows cols r : Nat) : ℝ := ((List.range cols).map fun c => d (r + rows * c) * d (r + rows * c)).sum

theorem softVec_mt_sum (rs : List ParRange) (hok : RangesOk rs) (per : Nat) (exs : Exec) (hexs : exs.Ok) (cws : Bool) (N : Mtx ℝ) (hr : 0 < N.rows)
    (hc : 0 < N.cols) {den den' : Nat → ℝ} {w : List (Step ℝ)} (hw : Interleaves (cwThreads rs N per fun cb ce => softVec N cb ce 0 N.rows) w)
    (hsum : mrwSumIp exs cws (finMtx N (runSteps den w) (threadsUsed rs.length N.cols (threadsForCols per N.cols (rs.length + 1)))) den') :
    ∀ r, r < N.rows → den' r = ((List.range N.cols).map (Mtx.rowOf N r)).sum := by
  have hrows : ∀ cb ce, ∀ s ∈ softVec N cb ce 0 N.rows, s.1 < N.rows := by
    intro cb ce s hs
    apply Decidable.byContradiction
    intro hn
    have h := softVec_steps N cb ce 0 N.rows s.1
    rw [if_neg (by omega)] at h
    have : s ∈ (softVec N cb ce 0 N.rows).filter fun s' => s'.1 == s.1 := List.mem_filter.2 ⟨hs, by simp⟩
    rw [List.map_eq_nil_iff.1 h] at this
    cases this
  have hres := cwThreads_result rs hok N per _ hrows hw den
  have htids := (run_tids rs N.cols (threadsForCols per N.cols (rs.length + 1)) hok).1
  have hperm := runCalls_perm rs N.cols (threadsForCols per N.cols (rs.length + 1)) hok
  generalize hN : threadsUsed rs.length N.cols (threadsForCols per N.cols (rs.length + 1)) = K at *
  generalize hcalls : runCalls rs N.cols (threadsForCols per N.cols (rs.length + 1)) = calls at *
  have hlen : calls.length = K := by
    have := congrArg List.length htids
    simpa using this
  have hN1 : 0 < K := by
    rw [← hN]; unfold threadsUsed; split <;> omega
  have hfin := row_sum_ip exs hexs cws (finMtx N (runSteps den w) K) hr hN1 hsum
  intro r hr'
  rw [hfin.1 r hr']
  have h1 : (List.range K).map (Mtx.rowOf (finMtx N (runSteps den w) K) r) =
      calls.map fun pr => ((items pr).map (Mtx.rowOf N r)).sum := by
    apply List.ext_getElem
    · simp [hlen]
    · intro t ht1 ht2
      have ht : t < calls.length := by simpa using ht2
      rw [List.getElem_map, List.getElem_map, List.getElem_range]
      show runSteps den w (r + N.rows * t) = _
      rw [hres r hr' t ht, softVec_steps, if_pos ⟨Nat.zero_le _, hr'⟩, softVec_fold]
      unfold items
      rw [Nat.add_sub_cancel_left]
  show ((List.range K).map _).sum = _
  rw [h1]
  have h2 : (calls.map fun pr => ((items pr).map (Mtx.rowOf N r)).sum) =
      (calls.map items).map fun x => (x.map (Mtx.rowOf N r)).sum := by
    rw [List.map_map]; rfl
  rw [h2, ← sum_flatMap]
  have h3 : (calls.map items).flatten = calls.flatMap items := rfl
  rw [h3, (hperm.map _).sum_eq]

theorem l2NormSquared_result {E : Env} (hE : E.Ok) (exs : Exec) (hexs : exs.Ok) (cws st : Bool) (A : Mtx ℝ) (hr : 0 < A.rows) (hc : 0 < A.cols)
    {v v' : Nat → ℝ} (h : l2NormSquared E exs cws st A v v') (r : Nat) (hr' : r < A.rows) : v' r = rowNorm2 A.data A.rows A.cols r := by
  unfold l2NormSquared at h
  split at h
  · have key := runs_result .st trivial A.rows hr _ id _ (fun b e _ _ k => softVec_steps (sqOf A) 0 A.cols b e k) h r
    rw [key, if_pos (show id r < A.rows from hr'), softVec_fold, List.range_eq_range'.symm, Nat.sub_zero]
    rfl
  · obtain ⟨w, hw, hs⟩ := h
    exact softVec_mt_sum E.rs hE _ exs hexs cws (sqOf A) hr hc hw hs r hr'

theorem l2NormSquared_exists (E : Env) (exs : Exec) (cws st : Bool) (A : Mtx ℝ) (v : Nat → ℝ) : ∃ v', l2NormSquared E exs cws st A v v' := by
  unfold l2NormSquared
  split
  · exact runs_exists _ _ _ _
  · obtain ⟨v', hv⟩ := runs_exists exs A.rows (mrwSumIpSt cws (finMtx A (runSteps v (cwThreads E.rs A (E.thr .l2normCols) fun cb ce => l2Vec A cb ce 0 A.rows).flatten)
      (threadsUsed E.rs.length A.cols (threadsForCols (E.thr .l2normCols) A.cols (E.rs.length + 1)))))
      (runSteps v (cwThreads E.rs A (E.thr .l2normCols) fun cb ce => l2Vec A cb ce 0 A.rows).flatten)
    exact ⟨v', _, interleaves_flatten _, hv⟩

/-- Every element is multiplied by the factor of its row. -/
noncomputable def scaleRows (rows cols : Nat) (f : Nat → ℝ) (d : Nat → ℝ) : Nat → ℝ := fun k => if k < rows * cols then d k * f (k % rows) else d k

theorem mulByVec_result {E : Env} (hE : E.Ok) (st : Bool) (A : Mtx ℝ) (hr : 0 < A.rows) (hc : 0 < A.cols) (v d d' : Nat → ℝ)
    (h : mulByVec E st A v d d') : d' = scaleRows A.rows A.cols v d := by
  funext k
  unfold mulByVec at h
  have hsh : (if st = true ∨ A.numel < E.thr .mulByVec then Share.byRows .st
      else if A.rows < E.thr .mulByVecMtRows then .byCols (.mt E.rs) else .byRows (.mt E.rs)).Ok := by
    split
    · trivial
    · split <;> exact hE
  rw [elem_result _ hsh _ _ hr hc h k]
  unfold scaleRows
  have : k / A.rows < A.cols ↔ k < A.rows * A.cols := by rw [Nat.div_lt_iff_lt_mul hr, Nat.mul_comm]
  simp only [this]

/-- The matrix after the rows were checked; `cols` is the number of columns the norm is calculated over. -/
noncomputable def normRows (maxNorm2 : ℝ) (rows cols colsNorm : Nat) (d : Nat → ℝ) : Nat → ℝ :=
  scaleRows rows cols (fun r => normCoef maxNorm2 (rowNorm2 d rows colsNorm r)) d

theorem hide_restore {W : Mtx ℝ} (h : WeightsOk W) : W.hideLastCol = some { W with cols := W.cols - 1 } ∧
    ∀ d, ({ W with cols := W.cols - 1, data := d } : Mtx ℝ).restoreLastCol = some { W with data := d } := by
  constructor
  · unfold Mtx.hideLastCol
    rw [if_pos ⟨by simp [h.nonempty], h.cols⟩]
  · intro d
    have h2 := h.cols
    have h3 := h.room
    have h4 : W.cols - 1 + 1 = W.cols := by omega
    unfold Mtx.restoreLastCol
    rw [if_pos]
    · simp only [h4]
    · refine ⟨?_, by show 1 ≤ W.cols - 1; omega, ?_⟩
      · have := h.nonempty
        unfold Mtx.empty at *
        simpa using this
      · show W.rows * (W.cols - 1 + 1) ≤ W.maxSize
        rw [h4]; exact h3

theorem checkNormalizeRows_iff {E : Env} (hE : E.Ok) (maxNorm2 : ℝ) (incl : Bool) (W : Mtx ℝ) (h : WeightsOk W) (o : Option (Mtx ℝ)) :
    checkNormalizeRows E maxNorm2 incl W o ↔
    o = some { W with data := normRows maxNorm2 W.rows W.cols (if incl then W.cols else W.cols - 1) W.data } := by
  obtain ⟨hh, hrs⟩ := hide_restore h
  have hcols := h.cols
  -- what any execution gives
  have sound : ∀ (B : Mtx ℝ) (exs : Exec) (cws st : Bool) (v0 v d' : Nat → ℝ), B.rows = W.rows → B.data = W.data → 0 < B.cols → exs.Ok →
      l2NormSquared E exs cws st B v0 v →
      mulByVec E st W (fun r => if r < W.rows then normCoef maxNorm2 (v r) else v r) W.data d' → d' = normRows maxNorm2 W.rows W.cols B.cols W.data := by
    intro B exs cws st v0 v d' hB hd hc hex hv hm
    rw [mulByVec_result hE st W h.rows (by omega) _ _ _ hm]
    unfold normRows scaleRows
    funext k
    split
    · have hk : k % W.rows < W.rows := Nat.mod_lt _ h.rows
      dsimp only
      rw [if_pos hk, l2NormSquared_result hE exs hex cws st B (by rw [hB]; exact h.rows) hc hv _ (by rw [hB]; exact hk), hB, hd]
    · rfl
  have hexs : ∀ exs : Exec, (exs = .st ∨ exs = .mt E.rs) → exs.Ok := by
    rintro exs (rfl | rfl)
    · trivial
    · exact hE
  -- there is one
  have ex : ∀ (B : Mtx ℝ) (st : Bool), ∃ v d', l2NormSquared E .st true st B (fun _ => 0) v ∧
      mulByVec E st W (fun r => if r < W.rows then normCoef maxNorm2 (v r) else v r) W.data d' := by
    intro B st
    obtain ⟨v, hv⟩ := l2NormSquared_exists E .st true st B fun _ => 0
    obtain ⟨d', hd⟩ := elemRuns_exists (if st = true ∨ W.numel < E.thr .mulByVec then Share.byRows .st
      else if W.rows < E.thr .mulByVecMtRows then .byCols (.mt E.rs) else .byRows (.mt E.rs)) (decide (¬ W.rows < E.thr .mulByVecStRows))
      (fun r _ a => a * (if r < W.rows then normCoef maxNorm2 (v r) else v r)) W.rows W.cols W.data
    exact ⟨v, d', hv, hd⟩
  unfold checkNormalizeRows
  cases incl with
  | true =>
    simp only [if_true]
    constructor
    · rintro ⟨exs, cws, v0, v, d', hx, hv, hm, ho⟩
      rw [ho, sound W exs cws _ v0 v d' rfl rfl (by omega) (hexs _ hx) hv hm]
    · intro ho
      obtain ⟨v, d', hv, hm⟩ := ex W (decide (W.numel < E.thr .normRows))
      refine ⟨.st, true, _, v, d', Or.inl rfl, hv, hm, ?_⟩
      rw [ho, sound W .st true _ _ v d' rfl rfl (by omega) trivial hv hm]
  | false =>
    simp only [Bool.false_eq_true, if_false]
    have hr2 : ({ W with cols := W.cols - 1 } : Mtx ℝ).restoreLastCol = some W := hrs W.data
    rw [hh]
    simp only [hr2]
    constructor
    · rintro ⟨exs, cws, v0, v, d', hx, hv, hm, ho⟩
      rw [ho, sound { W with cols := W.cols - 1 } exs cws _ v0 v d' rfl rfl (by show 0 < W.cols - 1; omega) (hexs _ hx) hv hm]
    · intro ho
      obtain ⟨v, d', hv, hm⟩ := ex { W with cols := W.cols - 1 } (decide (W.numel < E.thr .normRows))
      refine ⟨.st, true, _, v, d', Or.inl rfl, hv, hm, ?_⟩
      rw [ho, sound { W with cols := W.cols - 1 } .st true _ _ v d' rfl rfl (by show 0 < W.cols - 1; omega) trivial hv hm]

end Nntl.Grad
