import Verif.Backprop.LexSpec

/-! Derivatives through dropout and penalties. -/
namespace Nntl.Backprop

open Nntl.Pass Nntl.Layers
open Finset

/-! ### Penalties -/

theorem l2_correct (b : Bool) (scale : ℝ) : (l2Pen b scale).Correct where
  local_ := fun R n A B h r hr c hc => h r hr c hc
  adds := fun d x => by simp [l2Pen]
  deriv := fun R n A A' _ hA => by
    have h1 : HasDerivAt (fun t => ∑ r ∈ range R, ∑ c ∈ range n, A t r c ^ 2) (∑ r ∈ range R, ∑ c ∈ range n, (2 : ℕ) * A 0 r c ^ (2 - 1) * A' r c) 0 :=
      HasDerivAt.fun_sum fun r hr => HasDerivAt.fun_sum fun c hc => (hA r (mem_range.1 hr) c (mem_range.1 hc)).pow 2
    refine (h1.const_mul (scale * (1 / 2))).congr_deriv ?_
    simp only [l2Pen, inner, mul_sum]
    exact sum_congr rfl fun r _ => sum_congr rfl fun c _ => by push_cast; ring

theorem l1_correct (b : Bool) (scale : ℝ) : (l1Pen b scale).Correct where
  local_ := fun R n A B h r hr c hc => by
    simp only [l1Pen]
    cases b
    · exact h r hr c hc
    · simp only [if_true]; rw [h r hr c hc]
  adds := fun d x => by simp only [l1Pen]; split <;> ring
  deriv := fun R n A A' hz hA => by
    have h1 : HasDerivAt (fun t => ∑ r ∈ range R, ∑ c ∈ range n, |A t r c|) (∑ r ∈ range R, ∑ c ∈ range n, Grad.sgn (A 0 r c) * A' r c) 0 :=
      HasDerivAt.fun_sum fun r hr => HasDerivAt.fun_sum fun c hc =>
        HasDerivAt.comp (0 : ℝ) (h₂ := fun y : ℝ => |y|) (h := fun t => A t r c)
          (Grad.hasDerivAt_abs_sgn _ (hz r (mem_range.1 hr) c (mem_range.1 hc))) (hA r (mem_range.1 hr) c (mem_range.1 hc))
    refine (h1.const_mul scale).congr_deriv ?_
    simp only [l1Pen, inner, mul_sum]
    refine sum_congr rfl fun r _ => sum_congr rfl fun c _ => ?_
    cases b <;> simp <;> ring

theorem deCov_congr {R n : ℕ} {A B : Mat ℝ} (h : ∀ r < R, ∀ c < n, A r c = B r c) :
    DeCov.penalty R n A = DeCov.penalty R n B ∧ ∀ r < R, ∀ c < n, DeCov.slope R n A r c = DeCov.slope R n B r c := by
  have hc : ∀ i < n, ∀ j < n, DeCov.cov R A i j = DeCov.cov R B i j := fun i hi j hj => DeCov.cov_congr (k := n) (fun r i hr hi => h r hr i hi) hi hj
  refine ⟨?_, fun r hr a ha => ?_⟩
  · unfold DeCov.penalty
    congr 2
    refine sum_congr rfl fun i hi => sum_congr rfl fun j hj => ?_
    rw [hc i (mem_range.1 hi) j (mem_range.1 (mem_of_mem_erase hj))]
  · unfold DeCov.slope
    congr 1
    refine sum_congr rfl fun j hj => ?_
    have hj := mem_range.1 (mem_of_mem_erase hj)
    rw [hc a ha j hj, h r hr j hj, DeCov.mu_congr fun r hr => h r hr j hj]

theorem deCov_correct (b : Bool) (scale : ℝ) : (deCovPen b scale).Correct where
  local_ := fun R n A B h r hr c hc => (deCov_congr h).2 r hr c hc
  adds := fun d x => by simp [deCovPen]
  deriv := fun R n A A' _ hA => by
    have h1 := DeCov.penalty_deriv R n (fun t r c => if r < R ∧ c < n then A t r c else 0) (fun r c => if r < R ∧ c < n then A' r c else 0) 0
      (fun r c => by
        by_cases h : r < R ∧ c < n
        · simp only [if_pos h]; exact hA r h.1 c h.2
        · simp only [if_neg h]; exact hasDerivAt_const _ _)
    have e : ∀ t, ∀ r < R, ∀ c < n, (if r < R ∧ c < n then A t r c else 0) = A t r c := fun t r hr c hc => if_pos ⟨hr, hc⟩
    refine ((h1.const_mul scale).congr_deriv ?_).congr_of_eventuallyEq (Filter.Eventually.of_forall fun t => ?_)
    · simp only [deCovPen, inner, mul_sum]
      refine sum_congr rfl fun r hr => sum_congr rfl fun c hc => ?_
      have hr := mem_range.1 hr
      have hc := mem_range.1 hc
      rw [(deCov_congr (e 0)).2 r hr c hc, if_pos ⟨hr, hc⟩]
      ring
    · show scale * DeCov.penalty R n (A t) = scale * DeCov.penalty R n (fun r c => if r < R ∧ c < n then A t r c else 0)
      rw [(deCov_congr (e t)).1]

/-! ### Dropout -/

theorem cellOf_eq {k : Dropout.Kind} {p : ℝ} (h0 : 0 < p) (h1 : p < 1) (hv : ∀ al mean var, k = .alpha al mean var → 0 < var) (x u : ℝ) :
    cellOf k p x u = (Dropout.dropped k p u x, Dropout.slope k p u) := by
  cases k with
  | classical => exact Dropout.dropCell_eq p u x
  | alpha al mean var =>
    simp only [cellOf, Dropout.coeffs_eq]
    exact Dropout.alphaCell_eq al mean var p u x (Dropout.alphaA_pos (hv _ _ _ rfl) h0 h1.le).ne'

theorem dropped_deriv (k : Dropout.Kind) (p u x : ℝ) : HasDerivAt (Dropout.dropped k p u) (Dropout.slope k p u) x := by
  cases k with
  | classical =>
    unfold Dropout.dropped Dropout.slope
    by_cases h : u < p
    · simp only [if_pos h]; simpa using (hasDerivAt_id x).div_const p
    · simp only [if_neg h]; exact hasDerivAt_const _ _
  | alpha al mean var =>
    unfold Dropout.dropped Dropout.slope
    by_cases h : u < p
    · simp only [if_pos h]
      simpa using ((hasDerivAt_id x).const_mul (Dropout.alphaA al mean var p)).add_const (Dropout.alphaB al mean var p)
    · simp only [if_neg h]; exact hasDerivAt_const _ _

/-- The mask holds the derivatives of the changed activations. -/
theorem cellOf_deriv {k : Dropout.Kind} {p : ℝ} (h0 : 0 < p) (h1 : p < 1) (hv : ∀ al mean var, k = .alpha al mean var → 0 < var) (x u : ℝ) :
    HasDerivAt (fun x => (cellOf k p x u).1) (cellOf k p x u).2 x := by
  simp only [cellOf_eq h0 h1 hv]
  exact dropped_deriv k p u x

/-! ### The wrapped layer -/

theorem foldl_pens (R n : ℕ) (Y : Mat ℝ) (r c : ℕ) : (ps : List Pen) → (∀ p ∈ ps, p.Correct) → (d : ℝ) →
    (ps.map Pen.add).foldl (fun d a => a.app d (a.term R n Y r c)) d = d + (ps.map fun p => p.add.app 0 (p.add.term R n Y r c)).sum
  | [], _, d => by simp
  | p :: ps, h, d => by
    simp only [List.map_cons, List.foldl_cons, List.sum_cons]
    rw [foldl_pens R n Y r c ps (fun q hq => h q (List.mem_cons_of_mem _ hq)), (h p List.mem_cons_self).adds d]
    ring

theorem inner_pens {R n : ℕ} (Y Y' : Mat ℝ) : (ps : List Pen) →
    inner R n (fun r c => (ps.map fun p => p.add.app 0 (p.add.term R n Y r c)).sum) Y' =
      (ps.map fun p => inner R n (fun r c => p.add.app 0 (p.add.term R n Y r c)) Y').sum
  | [] => by simp [inner]
  | p :: ps => by
    simp only [List.map_cons, List.sum_cons]
    rw [← inner_pens Y Y' ps]
    unfold inner
    rw [← sum_add_distrib]
    refine sum_congr rfl fun r _ => ?_
    rw [← sum_add_distrib]
    exact sum_congr rfl fun c _ => by ring

theorem pens_deriv {R n : ℕ} {Y : ℝ → Mat ℝ} {Y' : Mat ℝ} (hY : ∀ r < R, ∀ c < n, HasDerivAt (fun t => Y t r c) (Y' r c) 0) : (ps : List Pen) →
    (∀ p ∈ ps, p.Correct) → (∀ p ∈ ps, p.ok R n (Y 0)) → HasDerivAt (fun t => (ps.map fun p => p.val R n (Y t)).sum)
      (ps.map fun p => inner R n (fun r c => p.add.app 0 (p.add.term R n (Y 0) r c)) Y').sum 0
  | [], _, _ => by simpa using hasDerivAt_const (0 : ℝ) (0 : ℝ)
  | p :: ps, h, ho => by
    simp only [List.map_cons, List.sum_cons]
    exact ((h p List.mem_cons_self).deriv R n Y Y' (ho p List.mem_cons_self) hY).add
      (pens_deriv hY ps (fun q hq => h q (List.mem_cons_of_mem _ hq)) fun q hq => ho q (List.mem_cons_of_mem _ hq))

/-- A wrapped layer calculates derivatives if the layer does. -/
theorem lex_isDiff {x : LexCfg ℝ} {ps : List Pen} {o : Obj ℝ} {L : Law o} {D : Diff L} (hD : IsDiff D) (hx : x.adds = ps.map Pen.add)
    (hm : ∀ a b, x.mul a b = a * b) (hcell : ∀ cell, x.drop = some cell → ∀ y u, HasDerivAt (fun y => (cell y u).1) (cell y u).2 y)
    (hg : x.gate ≤ o.neurons) (hp : ∀ p ∈ ps, p.Correct) : IsDiff (lexDiff x ps D) where
  line_zero := fun s V => by simp only [lexDiff, hD.line_zero]; rfl
  upd := fun R s X G s' hs h => ⟨hD.upd _ _ _ _ _ hs.1 h.1, h.2⟩
  step_congr := fun s g g' s' e h => ⟨hD.step_congr _ _ _ _ e h.1, h.2⟩
  deriv := fun R s V X X' G h0 hs hX => by
    obtain ⟨hs1, hs2⟩ := hs
    have hY := hD.comp V h0 hs1 hX
    have e0 : L.fwd R (D.line s.1 V 0) (X 0) = L.fwd R s.1 (X 0) := by rw [hD.line_zero]
    set Y : ℝ → Mat ℝ := fun t => L.fwd R (D.line s.1 V t) (X t) with hYd
    set Y' : Mat ℝ := fun r c => deriv (fun t => Y t r c) 0 with hYd'
    have e0' : Y 0 = L.fwd R s.1 (X 0) := e0
    -- through dropout
    have d1 : HasDerivAt (fun t => inner R o.neurons G (x.dropped s.2 R (Y t))) (inner R o.neurons (x.masked s.2 R (Y 0) G) Y') 0 := by
      unfold LexCfg.dropped LexCfg.masked
      cases ha : x.active s.2 with
      | none => exact hasDerivAt_inner G hY
      | some cell =>
        have hc : x.drop = some cell := by
          unfold LexCfg.active at ha
          by_cases ht : s.2.training = true
          · rwa [if_pos ht] at ha
          · rw [if_neg ht] at ha; cases ha
        refine (hasDerivAt_inner (Y := fun t r c => (cell (Y t r c) (x.last s.2 (r + R * c))).1) G fun r hr c hcc =>
          HasDerivAt.comp (0 : ℝ) (h₂ := fun y => (cell y (x.last s.2 (r + R * c))).1) (h := fun t => Y t r c) (hcell cell hc _ _) (hY r hr c hcc)).congr_deriv ?_
        refine inner_congr fun r _ c _ => ?_
        simp only [hm]
        ring
    -- the penalties
    have d2 : HasDerivAt (fun t => (ps.map fun p => p.val R (o.neurons - x.gate) (colsFrom x.gate (Y t))).sum)
        (ps.map fun p => inner R (o.neurons - x.gate) (fun r c => p.add.app 0 (p.add.term R (o.neurons - x.gate) (colsFrom x.gate (Y 0)) r c))
          (colsFrom x.gate Y')).sum 0 :=
      pens_deriv (Y := fun t => colsFrom x.gate (Y t)) (fun r hr c hc => hY r hr _ (by omega)) ps hp (by rw [e0']; exact hs2)
    -- the layer itself
    have d3 := (hD.deriv R s.1 V X X' (x.down s.2 R o.neurons (L.fwd R s.1 (X 0)) G) h0 hs1 hX).sub
      (hasDerivAt_inner (x.down s.2 R o.neurons (L.fwd R s.1 (X 0)) G) hY)
    simp only [Pi.sub_def, hYd, add_sub_cancel_left] at d3
    refine (((d1.add d2).add d3).congr_deriv ?_).congr_of_eventuallyEq (Filter.Eventually.of_forall fun t => ?_)
    · have key : inner R o.neurons (x.down s.2 R o.neurons (L.fwd R s.1 (X 0)) G) Y' = inner R o.neurons (x.masked s.2 R (Y 0) G) Y' +
          (ps.map fun p => inner R (o.neurons - x.gate) (fun r c => p.add.app 0 (p.add.term R (o.neurons - x.gate) (colsFrom x.gate (Y 0)) r c))
            (colsFrom x.gate Y')).sum := by
        rw [← inner_pens, ← e0']
        obtain ⟨q, hq⟩ := Nat.exists_eq_add_of_le hg
        rw [show o.neurons - x.gate = q by omega]
        conv_lhs => rw [hq, inner_split]
        conv_rhs => rw [hq, inner_split]
        rw [add_assoc]
        congr 1
        · refine inner_congr fun r _ c hc => ?_
          simp only [LexCfg.down, LexCfg.penalised, if_pos hc]
        · unfold inner
          rw [← sum_add_distrib]
          refine sum_congr rfl fun r _ => ?_
          rw [← sum_add_distrib]
          refine sum_congr rfl fun c _ => ?_
          simp only [colsFrom, LexCfg.down, LexCfg.penalised, if_neg (show ¬ x.gate + c < x.gate by omega)]
          rw [hx, foldl_pens _ _ _ _ _ ps hp]
          simp only [Nat.add_sub_cancel_left]
          rw [← add_mul]
      show _ = inner R o.inc (L.bwd R s.1 (X 0) (x.down s.2 R o.neurons (L.fwd R s.1 (X 0)) G)) X' +
        R * pairing D.ws (D.grad R s.1 (X 0) (x.down s.2 R o.neurons (L.fwd R s.1 (X 0)) G)) V
      simp only [hYd'] at key ⊢
      linarith
    · show inner R o.neurons G (x.dropped s.2 R (Y t)) +
        (D.pen R (D.line s.1 V t) (X t) + (ps.map fun p => p.val R (o.neurons - x.gate) (colsFrom x.gate (Y t))).sum) =
        inner R o.neurons G (x.dropped s.2 R (Y t)) + (ps.map fun p => p.val R (o.neurons - x.gate) (colsFrom x.gate (Y t))).sum +
        D.pen R (D.line s.1 V t) (X t)
      ring

theorem Ext.cell_deriv {e : Ext} (he : e.Ok) (cell : ℝ → ℝ → ℝ × ℝ) (h : e.cfg.drop = some cell) (y u : ℝ) :
    HasDerivAt (fun y => (cell y u).1) (cell y u).2 y := by
  unfold Ext.cfg at h
  cases hd : e.drop with
  | none => simp [hd] at h
  | some d =>
    obtain ⟨k, p⟩ := d
    simp only [hd, Option.map_some, Option.some.injEq] at h
    subst h
    exact cellOf_deriv (he.prob k p hd).1 (he.prob k p hd).2 (fun al mean var hk => he.var al mean var p (by rw [hd, hk])) y u

theorem exDiff_ok {gw : ℕ → ℕ → ℕ → GradWorks ℝ} {act : ℕ → Act.Act} {upd : ℕ → Bool} {e : ℕ → Ext} (he : ∀ id, (e id).Ok) (l : Leaf) :
    LeafDiff (exDiff gw act upd e) l where
  sizes := fun _ _ _ => ⟨rfl, rfl⟩
  diff := fun id _ _ => lex_isDiff (fc_isDiff _ _ _ _ _ _ _) rfl (fun _ _ => rfl) (Ext.cell_deriv (he id)) (Nat.zero_le _) (he id).pens

end Nntl.Backprop
