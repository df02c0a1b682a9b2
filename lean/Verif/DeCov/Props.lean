import Verif.DeCov.Lemmas
import Mathlib.Tactic.Positivity
import Mathlib.Algebra.Order.BigOperators.Group.Finset

/-!
C84: the DeCov regulariser. The value is half of the sum of the squared covariances of different neurons, divided by the number of
neurons less one; the gradient is its derivative; the loss addendum adds the scaled gradient.

`Gemm.val V b i` is the activation of neuron `i` for sample `b`.
-/
namespace Nntl.DeCov

open Nntl.Matrix
open Nntl.Kernel
open Finset

/-- A batch of activations in the default layout that lies in its storage, with at least two neurons and no holes in the biases. -/
structure Batch (V : Mtx ℝ) : Prop where
  layout : V.bir = false
  rows : 0 < V.rows
  neurons : 1 < V.colsNoBias
  holes : ¬ (V.emul ∧ V.holey)

theorem Batch.acts_eq {V : Mtx ℝ} (h : Batch V) : acts V = Gemm.val V := by
  funext r c
  unfold acts Gemm.val Cols.el
  rw [h.layout]
  rfl

theorem Batch.noBir {V : Mtx ℝ} (h : Batch V) : ¬ (V.emul ∧ V.bir) := by rw [h.layout]; simp

/-- **C84**: the value of the loss. -/
theorem loss_value (H : How) (hH : H.Ok) (lower ns : Bool) (jd jc : ℕ → ℝ) (V : Mtx ℝ) (x : ℝ) (hV : Batch V)
    (h : lossDeCov H lower ns jd jc V x) : x = penalty V.rows V.colsNoBias (Gemm.val V) := by
  obtain ⟨-, hc, DM, C, s, h1, h2, rfl⟩ := h
  obtain ⟨-, -, -, -, -, c1, c2, -, c4⟩ := centred_result H hH lower ns jd jc V DM C h1 hV.noBir hV.rows hc
  rw [Cols.triangle_sum H.sum hH.2.1 lower ns C (by rw [c1, c2]) (by rw [c1]; exact hc)] at h2
  obtain rfl := Option.some.inj h2
  rw [c1, penalty, ← hV.acts_eq, ← triangle_half lower V.colsNoBias (fun i j => cov V.rows (acts V) i j ^ 2) (fun i j => by rw [cov_comm]),
    Nat.cast_sub (by omega), Nat.cast_one]
  congr 1
  refine sum_congr rfl fun p hp => ?_
  unfold Cols.triangle at hp
  rw [mem_filter, mem_product, mem_range, mem_range] at hp
  rw [c4 p.1 p.2 hp.1.1 hp.1.2]
  cases lower
  · simp only [Bool.false_eq_true, if_false] at hp ⊢; omega
  · simp only [if_true] at hp ⊢; omega

/-- The loss can be calculated for every batch, whatever the temporary buffers contained. -/
theorem loss_runs (H : How) (hH : H.Ok) (lower ns : Bool) (jd jc : ℕ → ℝ) (V : Mtx ℝ) (hV : Batch V) :
    ∃ x, lossDeCov H lower ns jd jc V x := by
  obtain ⟨DM, C, h1⟩ := centred_runs H lower ns jd jc V hV.noBir hV.rows hV.neurons
  obtain ⟨-, -, -, -, -, c1, c2, -, -⟩ := centred_result H hH lower ns jd jc V DM C h1 hV.noBir hV.rows hV.neurons
  exact ⟨_, hV.holes, hV.neurons, DM, C, _, h1,
    Cols.triangle_sum H.sum hH.2.1 lower ns C (by rw [c1, c2]) (by rw [c1]; exact hV.neurons), rfl⟩

/-- **C84**: the loss is never negative and vanishes for uncorrelated neurons only. -/
theorem penalty_zero_iff (N k : ℕ) (hk : 1 < k) (X : ℕ → ℕ → ℝ) :
    0 ≤ penalty N k X ∧ (penalty N k X = 0 ↔ ∀ i j, i < k → j < k → i ≠ j → cov N X i j = 0) := by
  have hk' : (0 : ℝ) < (k : ℝ) - 1 := by
    have : (1 : ℝ) < k := by exact_mod_cast hk
    linarith
  have hnn : 0 ≤ ∑ i ∈ range k, ∑ j ∈ (range k).erase i, cov N X i j ^ 2 :=
    sum_nonneg fun i _ => sum_nonneg fun j _ => sq_nonneg _
  refine ⟨by unfold penalty; positivity, ?_⟩
  unfold penalty
  rw [div_eq_zero_iff, div_eq_zero_iff, sum_eq_zero_iff_of_nonneg fun i _ => sum_nonneg fun j _ => sq_nonneg _]
  constructor
  · rintro ((h | h) | h) i j hi hj hij
    · have := (sum_eq_zero_iff_of_nonneg fun j _ => sq_nonneg (cov N X i j)).1 (h i (mem_range.2 hi)) j
        (mem_erase.2 ⟨Ne.symm hij, mem_range.2 hj⟩)
      exact pow_eq_zero_iff (two_ne_zero) |>.1 this
    · exact absurd h two_ne_zero
    · exact absurd h hk'.ne'
  · intro h
    refine Or.inl (Or.inl fun i hi => sum_eq_zero fun j hj => ?_)
    rw [mem_erase] at hj
    rw [h i j (mem_range.1 hi) (mem_range.1 hj.2) (Ne.symm hj.1)]
    ring

/-- **C84**: the gradient that `dLoss_deCov_ip` leaves in place of the values. -/
theorem gradient_in_place (H : How) (hH : H.Ok) (lower ns : Bool) (jd jc : ℕ → ℝ) (scale : ℝ) (V V' : Mtx ℝ) (hV : Batch V)
    (hcap : V.rows * V.cols ≤ V.cap) (h : dLossDeCovIp H lower ns jd jc scale V V') :
    V'.rows = V.rows ∧ V'.cols = V.cols ∧ V'.emul = false ∧ V'.cap = V.cap ∧ (∀ k, V.rows * V.cols ≤ k → V'.data k = V.data k) ∧
    ∀ r c, r < V.rows → c < V.cols → Cols.el V' r c = scale * slope V.rows V.cols (Gemm.val V) r c := by
  obtain ⟨he, DM, C, V1, V2, d, h1, h2, h3, h4, rfl⟩ := h
  have hcols : V.colsNoBias = V.cols := by
    unfold Mtx.colsNoBias
    rw [show V.emul = false by simpa using he]; rfl
  have hn := hV.neurons
  rw [hcols] at hn
  have hr := hV.rows
  obtain ⟨m1, m2, m3, m4, m5, c1, c2, c3, c4⟩ := centred_result H hH lower ns jd jc V DM C h1 hV.noBir hV.rows hV.neurons
  rw [hcols] at m2 m4 m5 c1 c2 c3 c4
  rw [cloneTo_same DM V (by rw [m3]; simp) m1.symm m2.symm (by omega) (by omega)] at h2
  have h2 := (Prod.mk.inj (Option.some.inj h2)).1
  have v1r : V1.rows = V.rows := by rw [← h2]
  have v1c : V1.cols = V.cols := by rw [← h2]
  have v1e : V1.emul = false := by rw [← h2]
  have v1k : V1.cap = V.cap := by rw [← h2]
  have v1d : ∀ k, V1.data k = if k < V.rows * V.cols then DM.data k else V.data k := by
    intro k
    rw [← h2]
    show copyN V.data DM.data DM.numel k = _
    rw [copyN_apply]
    unfold Mtx.numel
    rw [m1, m2]
  obtain ⟨g1, g2, g3⟩ := Cols.mulDiag_result H.diag hH.2.2.1 V1 C V2 (by omega) h3
  have v2r : V2.rows = V.rows := by rw [g1]; exact v1r
  have v2c : V2.cols = V.cols := by rw [g1]; exact v1c
  have v2k : V2.cap = V.cap := by rw [g1]; exact v1k
  obtain ⟨d', e1, e2, e3⟩ := symmRight_spec lower V.rows V.cols (2 * scale / ((V.rows * V.cols - V.rows : ℕ) : ℝ))
    (-(2 * scale / ((V.rows * V.cols - V.rows : ℕ) : ℝ))) (Gemm.buf C) (Gemm.buf DM) (Gemm.buf V2) hr (by omega)
    (by show _ ≤ C.cap; rw [c3]) (by show _ ≤ DM.cap; rw [m4]) (by show _ ≤ V2.cap; rw [v2k]; exact hcap)
  rw [e1] at h4
  obtain rfl := Option.some.inj h4
  refine ⟨v2r, v2c, by rw [g1]; exact v1e, v2k, ?_, ?_⟩
  · intro k hk
    show d' k = _
    rw [e3 k hk]
    show V2.data k = _
    rw [g2 k (by rw [v1r, v1c]; exact hk), v1d, if_neg (by omega)]
  · intro r c hr' hc'
    show d' (r + V2.rows * c) = _
    rw [v2r, e2 r c hr' hc']
    have hd : Cols.el V2 r c = Cols.el DM r c * cov V.rows (acts V) c c := by
      rw [g3 r c (by omega) (by omega)]
      show Cols.el V1 r c * Cols.el C c c = _
      rw [c4 c c hc' hc' (by simp)]
      congr 1
      show V1.data (r + V1.rows * c) = DM.data (r + DM.rows * c)
      rw [v1r, m1, v1d, if_pos (cell_lt hr' hc')]
    have hsum : ∑ l ∈ range V.cols, DM.data (r + V.rows * l) * symAt lower C.data V.cols l c =
        ∑ l ∈ range V.cols, (acts V r l - mu V.rows (acts V) l) * cov V.rows (acts V) c l := by
      refine sum_congr rfl fun l hl => ?_
      have hl' := mem_range.1 hl
      rw [symAt_eq lower C.data V.cols (fun i j => cov V.rows (acts V) i j) (fun i j => cov_comm _ _ _ _)
        (fun i j hi hj hij => by have := c4 i j hi hj hij; rw [← this]; show _ = C.data (i + C.rows * j); rw [c1]) l c hl' hc',
        cov_comm V.rows (acts V) c l, ← m5 r l hr' hl']
      show _ = DM.data (r + DM.rows * l) * _
      rw [m1]
    have hpos : ((V.rows * V.cols - V.rows : ℕ) : ℝ) = V.rows * ((V.cols : ℝ) - 1) := by
      rw [Nat.cast_sub (Nat.le_mul_of_pos_right _ (by omega)), Nat.cast_mul]; ring
    show _ * (∑ l ∈ range V.cols, DM.data (r + V.rows * l) * symAt lower C.data V.cols l c) + _ * V2.data (r + V.rows * c) = _
    have hv2 : V2.data (r + V.rows * c) = Cols.el V2 r c := by show _ = V2.data (r + V2.rows * c); rw [v2r]
    rw [hsum, hv2, hd, m5 r c hr' hc', hpos, slope, ← hV.acts_eq,
      ← add_sum_erase (range V.cols) (fun l => (acts V r l - mu V.rows (acts V) l) * cov V.rows (acts V) c l) (mem_range.2 hc')]
    rw [sum_congr rfl fun (j : ℕ) _ => mul_comm (cov V.rows (acts V) c j) (acts V r j - mu V.rows (acts V) j)]
    ring

/-- **C84**: the gradient that `dLoss_deCov` stores into another matrix, whose header and whose memory behind the matrix stay. -/
theorem gradient_value (H : How) (hH : H.Ok) (lower ns : Bool) (jd jc : ℕ → ℝ) (scale : ℝ) (V D D' : Mtx ℝ) (hV : Batch V)
    (hcap : D.rows * D.cols ≤ D.cap) (h : dLossDeCov H lower ns jd jc scale V D D') :
    D'.rows = D.rows ∧ D'.cols = D.cols ∧ D'.emul = false ∧ D'.cap = D.cap ∧ (∀ k, D.rows * D.cols ≤ k → D'.data k = D.data k) ∧
    ∀ r c, r < V.rows → c < V.colsNoBias → Cols.el D' r c = scale * slope V.rows V.colsNoBias (Gemm.val V) r c := by
  obtain ⟨h1, h2, -, h4, h5, d1, h6, h7⟩ := h
  rw [clone_same V D hV.noBir h2.symm h1.symm h5 hV.rows (by omega)] at h6
  have h6 := (Prod.mk.inj (Option.some.inj h6)).1
  have e1 : d1.rows = D.rows := by rw [← h6]
  have e2 : d1.cols = D.cols := by rw [← h6]
  have e3 : d1.emul = false := by rw [← h6]
  have e4 : d1.cap = D.cap := by rw [← h6]
  have e5 : d1.bir = false := by rw [← h6]; exact hV.layout
  have e6 : ∀ k, d1.data k = if k < V.rows * V.colsNoBias then V.data k else D.data k := by
    intro k
    rw [← h6]
    show copyN D.data V.data V.numelNoBias k = _
    rw [copyN_apply]
    unfold Mtx.numelNoBias Mtx.rowsNoBias
    rw [hV.layout, Bool.and_false]
    rfl
  have e7 : d1.colsNoBias = D.cols := by unfold Mtx.colsNoBias; rw [e3, e2]; rfl
  have hB : Batch d1 := ⟨e5, by rw [e1, ← h2]; exact hV.rows, by rw [e7, ← h1]; exact h4, by rw [e3]; simp⟩
  obtain ⟨g1, g2, g3, g4, g5, g6⟩ := gradient_in_place H hH lower ns jd jc scale d1 D' hB (by rw [e1, e2, e4]; exact hcap) h7
  rw [e1] at g1 g5 g6
  rw [e2] at g2 g5 g6
  refine ⟨g1, g2, g3, by rw [g4, e4], ?_, ?_⟩
  · intro k hk
    rw [g5 k hk, e6, if_neg (by rw [h1, h2]; omega)]
  · intro r c hr hc
    rw [g6 r c (by omega) (by omega), ← h1, ← h2]
    have hX : ∀ q i, q < V.rows → i < V.colsNoBias → Gemm.val d1 q i = Gemm.val V q i := by
      intro q i hq hi
      unfold Gemm.val
      rw [e5, hV.layout]
      show d1.data (q + d1.rows * i) = V.data (q + V.rows * i)
      rw [e1, ← h2, e6, if_pos (cell_lt hq hi)]
    unfold slope
    congr 2
    refine sum_congr rfl fun j hj => ?_
    have hj' := mem_range.1 (mem_erase.1 hj).2
    rw [cov_congr hX hc hj', hX r j hr hj', mu_congr fun q hq => hX q j hq hj']

/-- The gradient can be calculated for every batch. -/
theorem gradient_runs (H : How) (hH : H.Ok) (lower ns : Bool) (jd jc : ℕ → ℝ) (scale : ℝ) (V D : Mtx ℝ) (hV : Batch V)
    (hcap : D.rows * D.cols ≤ D.cap) (h1 : V.colsNoBias = D.cols) (h2 : V.rows = D.rows) (h3 : ¬ D.emul) :
    ∃ D', dLossDeCov H lower ns jd jc scale V D D' := by
  have hr := hV.rows
  have hn := hV.neurons
  have h6 := clone_same V D hV.noBir h2.symm h1.symm h3 hV.rows (by omega)
  generalize hd1 : ({ D with emul := false, holey := false, bir := V.bir, data := copyN D.data V.data V.numelNoBias } : Mtx ℝ) = d1 at h6
  have e1 : d1.rows = D.rows := by rw [← hd1]
  have e2 : d1.cols = D.cols := by rw [← hd1]
  have e3 : d1.emul = false := by rw [← hd1]
  have e4 : d1.cap = D.cap := by rw [← hd1]
  have e5 : d1.bir = false := by rw [← hd1]; exact hV.layout
  have e7 : d1.colsNoBias = D.cols := by unfold Mtx.colsNoBias; rw [e3, e2]; rfl
  obtain ⟨DM, C, g⟩ := centred_runs H lower ns jd jc d1 (by rw [e5]; simp) (by omega) (by omega)
  obtain ⟨m1, m2, m3, m4, m5, c1, c2, c3, -⟩ := centred_result H hH lower ns jd jc d1 DM C g (by rw [e5]; simp) (by omega) (by omega)
  have g2 := cloneTo_same DM d1 (by rw [m3]; simp) m1.symm (by rw [m2, e7, e2]) (by omega) (by omega)
  generalize hv1 : ({ d1 with emul := false, holey := DM.holey, bir := DM.bir, data := copyN d1.data DM.data DM.numel } : Mtx ℝ) = V1 at g2
  have f1 : V1.rows = D.rows := by rw [← hv1]; exact e1
  have f2 : V1.cols = D.cols := by rw [← hv1]; exact e2
  have f3 : V1.cap = D.cap := by rw [← hv1]; exact e4
  obtain ⟨V2, g3⟩ := Cols.mulDiag_runs H.diag V1 C (by rw [c1, c2]) (by rw [f2, c2, e7])
  have k1 : V2.cap = D.cap := by
    obtain ⟨-, -, cs, -, rfl⟩ := g3
    exact f3
  obtain ⟨d', e1', -⟩ := symmRight_spec lower d1.rows d1.cols (2 * scale / ((d1.rows * d1.cols - d1.rows : ℕ) : ℝ))
    (-(2 * scale / ((d1.rows * d1.cols - d1.rows : ℕ) : ℝ))) (Gemm.buf C) (Gemm.buf DM) (Gemm.buf V2) (by omega) (by omega)
    (by show _ ≤ C.cap; rw [c3, e7, e2]) (by show _ ≤ DM.cap; rw [m4, e7, e2]) (by show _ ≤ V2.cap; rw [k1, e1, e2]; exact hcap)
  exact ⟨_, h1, h2, hV.holes, hV.neurons, h3, d1, h6, by rw [e3]; simp, DM, C, V1, V2, d', g, g2, g3, e1', rfl⟩

/-- **C84**: the gradient is the derivative of the loss. The batch moves along any differentiable path `data`; at each time `s` the loss
is calculated (`loss s`), at time `t` the gradient is. -/
theorem gradient_is_derivative (H : How) (hH : H.Ok) (lower ns : Bool) (jd jc : ℕ → ℝ) (scale : ℝ) (V D D' : Mtx ℝ) (hV : Batch V)
    (hcap : D.rows * D.cols ≤ D.cap) (data : ℝ → ℕ → ℝ) (data' : ℕ → ℝ) (t : ℝ) (hd : ∀ k, HasDerivAt (fun s => data s k) (data' k) t)
    (loss : ℝ → ℝ) (hl : ∀ s, lossDeCov H lower ns jd jc { V with data := data s } (loss s))
    (h : dLossDeCov H lower ns jd jc scale { V with data := data t } D D') :
    HasDerivAt (fun s => scale * loss s) (∑ r ∈ range V.rows, ∑ c ∈ range V.colsNoBias, Cols.el D' r c * data' (V.cell r c)) t := by
  have hB : ∀ d, Batch { V with data := d } := fun d => ⟨hV.layout, hV.rows, hV.neurons, hV.holes⟩
  obtain ⟨-, -, -, -, -, g⟩ := gradient_value H hH lower ns jd jc scale _ D D' (hB (data t)) hcap h
  have h1 : ∀ s, loss s = penalty V.rows V.colsNoBias (fun r c => data s (V.cell r c)) := by
    intro s
    rw [loss_value H hH lower ns jd jc _ _ (hB (data s)) (hl s), ← (hB (data s)).acts_eq]
    rfl
  have h2 := (penalty_deriv V.rows V.colsNoBias (fun s r c => data s (V.cell r c)) (fun r c => data' (V.cell r c)) t
    fun r i => hd _).const_mul scale
  simp only [← h1] at h2
  refine h2.congr_deriv ?_
  rw [mul_sum]
  refine sum_congr rfl fun r hr => ?_
  rw [mul_sum]
  refine sum_congr rfl fun c hc => ?_
  rw [g r c (mem_range.1 hr) (mem_range.1 hc), ← (hB (data t)).acts_eq, mul_assoc]
  rfl

/-! ### The loss addendum -/

/-- The addendum to the loss. -/
theorem addendum_loss (a : Addendum) (H : How) (hH : H.Ok) (jd jc : ℕ → ℝ) (V : Mtx ℝ) (x : ℝ) (hV : Batch V)
    (h : a.lossAdd H jd jc V x) : x = a.scale * penalty V.rows V.cols (Gemm.val V) := by
  obtain ⟨he, y, h1, rfl⟩ := h
  have hcols : V.colsNoBias = V.cols := by
    unfold Mtx.colsNoBias
    rw [show V.emul = false by simpa using he]; rfl
  rw [loss_value H hH _ _ jd jc V y hV h1, hcols]

theorem append_result (a : Addendum) (H : How) (hH : H.Ok) (G N G' : Mtx ℝ) (hn : 0 < G.rows * G.cols) (h : a.append H G N G') :
    Cols.Becomes G G' (fun r c => if a.nz ∧ Cols.el G r c = 0 then 0 else Cols.el G r c + a.scale * Cols.el N r c) := by
  classical
  obtain ⟨h1, h2, d, h3, rfl⟩ := h
  refine ⟨rfl, fun k hk => ?_, fun r c hr hc => ?_⟩
  · show d k = _
    rw [each_result H.add hH.2.2.2 _ hn _ h3 k, if_neg (by omega)]
  · show d (G.cell r c) = _
    rw [each_result H.add hH.2.2.2 _ hn _ h3 _, if_pos (show G.cell r c < G.rows * G.cols from cell_lt hr hc)]
    have : N.data (G.cell r c) = Cols.el N r c := by show N.data (r + G.rows * c) = N.data (r + N.rows * c); rw [h1]
    rw [this]
    show (if a.nz = true then _ else _) = _
    cases a.nz
    · simp only [Bool.false_eq_true, if_false, false_and]; rfl
    · simp only [if_true, true_and]; rfl

/-- **C84**: what the addendum adds to the gradient of the activations: its own gradient with the scale. With `bAppendToNZGrad` elements
whose gradient is zero stay zero. -/
theorem addendum_gradient (a : Addendum) (H : How) (hH : H.Ok) (jd jc jm : ℕ → ℝ) (V G G' : Mtx ℝ) (hV : Batch V)
    (h : a.dLossAdd H jd jc jm V G G') :
    Cols.Becomes G G' (fun r c =>
      if a.nz ∧ Cols.el G r c = 0 then 0 else Cols.el G r c + a.scale * slope V.rows V.cols (Gemm.val V) r c) := by
  obtain ⟨he, -, N, h1, h2⟩ := h
  have hcols : V.colsNoBias = V.cols := by
    unfold Mtx.colsNoBias
    rw [show V.emul = false by simpa using he]; rfl
  have hr := hV.rows
  have hn := hV.neurons
  have hs1 : V.colsNoBias = G.cols := h1.1
  have hs2 : V.rows = G.rows := h1.2.1
  obtain ⟨-, -, -, -, -, g⟩ := gradient_value H hH _ _ jd jc 1 V _ N hV (le_refl _) h1
  obtain ⟨k1, k2, k3⟩ := append_result a H hH G N G' (Nat.mul_pos (by omega) (by omega)) h2
  refine ⟨k1, k2, fun r c hr' hc' => ?_⟩
  rw [k3 r c hr' hc']
  simp only [g r c (by omega) (by omega), one_mul, hcols]

/-- **C84**: keeping the gradient during the forward pass and adding it during the backward pass gives the same, even if the
activations are changed in between (by dropout): the gradient is that of the activations `V` of the forward pass. -/
theorem addendum_gradient_stored (a : Addendum) (H H' : How) (hH : H.Ok) (hH' : H'.Ok) (jd jc jm : ℕ → ℝ) (V M V2 G G' : Mtx ℝ)
    (hV : Batch V) (h1 : a.onFprop H jd jc jm V M) (h2 : a.dLossAddStored H' M V2 G G') :
    Cols.Becomes G G' (fun r c =>
      if a.nz ∧ Cols.el G r c = 0 then 0 else Cols.el G r c + a.scale * slope V.rows V.cols (Gemm.val V) r c) := by
  obtain ⟨he, h1⟩ := h1
  obtain ⟨-, -, s1, s2, s3, s4, h2⟩ := h2
  have hcols : V.colsNoBias = V.cols := by
    unfold Mtx.colsNoBias
    rw [show V.emul = false by simpa using he]; rfl
  have hr := hV.rows
  have hn := hV.neurons
  obtain ⟨g1, g2, -, -, -, g⟩ := gradient_value H hH _ _ jd jc 1 V _ M hV (le_refl _) h1
  have g1 : M.rows = V.rows := g1
  have g2 : M.cols = V.cols := g2
  obtain ⟨k1, k2, k3⟩ := append_result a H' hH' G M G' (Nat.mul_pos (by omega) (by omega)) h2
  refine ⟨k1, k2, fun r c hr' hc' => ?_⟩
  rw [k3 r c hr' hc']
  simp only [g r c (by omega) (by omega), one_mul, hcols]

/-! ### Samples in columns -/

/-- **C84**, what is false: nothing checks the layout. For a matrix with samples in columns the covariances are those of the samples. Two
neurons that are perfectly correlated, `0, 2` for both samples: the loss is not the penalty of the batch. -/
theorem layout_ignored :
    let V : Mtx ℝ := { data := fun k => if k < 2 then 0 else 2, cap := 4, rows := 2, cols := 2, emul := false, ext := false, holey := false, bir := true, maxSize := 4 }
    penalty V.cols V.rows (Gemm.val V) = 1 ∧ lossDeCov ⟨.st, .st, .st, .st⟩ true false (fun _ => 0) (fun _ => 0) V 0 := by
  intro V
  have hok : How.Ok ⟨.st, .st, .st, .st⟩ := ⟨trivial, trivial, trivial, trivial⟩
  refine ⟨?_, by simp [V], by decide, ?_⟩
  · have hv : ∀ b i, Gemm.val V b i = if i + 2 * b < 2 then 0 else 2 := fun b i => rfl
    have e0 : (range 2).erase 0 = {1} := by decide
    have e1 : (range 2).erase 1 = {0} := by decide
    have hm : ∀ i, i < 2 → mu 2 (Gemm.val V) i = 1 := by
      intro i hi
      unfold mu
      rw [sum_range_succ, sum_range_succ, sum_range_zero, hv, hv, if_pos (by omega), if_neg (by omega)]
      norm_num
    have hc : ∀ i j, i < 2 → j < 2 → cov 2 (Gemm.val V) i j = 1 := by
      intro i j hi hj
      unfold cov
      rw [sum_range_succ, sum_range_succ, sum_range_zero, hm i hi, hm j hj, hv 0 i, hv 1 i, hv 0 j, hv 1 j,
        if_pos (show i + 2 * 0 < 2 by omega), if_neg (show ¬ i + 2 * 1 < 2 by omega), if_pos (show j + 2 * 0 < 2 by omega),
        if_neg (show ¬ j + 2 * 1 < 2 by omega)]
      norm_num
    show penalty 2 2 (Gemm.val V) = 1
    unfold penalty
    rw [sum_range_succ, sum_range_succ, sum_range_zero, e0, e1, sum_singleton, sum_singleton, hc 0 1 (by omega) (by omega),
      hc 1 0 (by omega) (by omega)]
    norm_num
  · obtain ⟨DM, C, h1⟩ := centred_runs ⟨.st, .st, .st, .st⟩ true false (fun _ => 0) (fun _ => 0) V (by simp [V]) (by simp [V]) (by decide)
    obtain ⟨-, -, -, -, -, c1, c2, -, c4⟩ := centred_result _ hok true false (fun _ => 0) (fun _ => 0) V DM C h1 (by simp [V]) (by simp [V]) (by decide)
    have k2 : V.colsNoBias = 2 := rfl
    have ht := Cols.triangle_sum .st trivial true false C (by rw [c1, c2]) (by rw [c1, k2]; omega)
    refine ⟨DM, C, _, h1, ht, ?_⟩
    rw [c1, k2, show Cols.triangle true 2 = {(1, 0)} by decide, sum_singleton, c4 1 0 (by decide) (by decide) (by simp)]
    have ha : ∀ r c, r < 2 → acts V r c = if c = 0 then 0 else 2 := by
      intro r c hr
      show (if r + 2 * c < 2 then (0 : ℝ) else 2) = _
      by_cases h : c = 0
      · rw [if_pos h, if_pos (by omega)]
      · rw [if_neg h, if_neg (by omega)]
    have hm : ∀ i, mu 2 (acts V) i = if i = 0 then 0 else 2 := by
      intro i
      unfold mu
      rw [sum_range_succ, sum_range_succ, sum_range_zero, ha 0 i (by omega), ha 1 i (by omega)]
      split <;> norm_num
    have : cov 2 (acts V) 1 0 = 0 := by
      unfold cov
      rw [sum_range_succ, sum_range_succ, sum_range_zero, hm, hm, ha 0 1 (by omega), ha 0 0 (by omega), ha 1 1 (by omega), ha 1 0 (by omega)]
      norm_num
    show (0 : ℝ) = cov 2 (acts V) 1 0 ^ 2 / _
    rw [this]
    norm_num

/-! ### Cases that meet the hypotheses -/

/-- Two samples, two neurons and a column of biases. -/
noncomputable def exV : Mtx ℝ :=
  { data := fun k => ([0, 2, 0, 4, 1, 1] : List ℝ).getD k 0, cap := 6, rows := 2, cols := 3, emul := true, ext := false, holey := false, bir := false, maxSize := 6 }

example : Batch exV := ⟨rfl, by decide, by decide, by simp [exV]⟩

/-- For this batch the neurons have the covariance `2`, the loss is `4`. -/
example : ∃ x, lossDeCov ⟨.st, .st, .st, .st⟩ false true (fun _ => 7) (fun _ => 9) exV x ∧ x = 4 := by
  have hB : Batch exV := ⟨rfl, by decide, by decide, by simp [exV]⟩
  have hok : How.Ok ⟨.st, .st, .st, .st⟩ := ⟨trivial, trivial, trivial, trivial⟩
  obtain ⟨x, h⟩ := loss_runs ⟨.st, .st, .st, .st⟩ hok false true (fun _ => 7) (fun _ => 9) exV hB
  refine ⟨x, h, ?_⟩
  rw [loss_value _ hok _ _ _ _ _ _ hB h]
  show penalty 2 2 (Gemm.val exV) = 4
  have e0 : (range 2).erase 0 = {1} := by decide
  have e1 : (range 2).erase 1 = {0} := by decide
  simp only [penalty, sum_range_succ, sum_range_zero, e0, e1, sum_singleton, cov, mu]
  norm_num [Gemm.val, exV, Mtx.cell]

/-- The gradient of this batch exists and, being centred, has the sum zero over the samples. -/
example : ∃ D', dLossDeCov ⟨.st, .st, .st, .st⟩ false true (fun _ => 7) (fun _ => 9) 3 exV (scratch (fun _ => 5) 2 2) D' ∧
    ∑ r ∈ range 2, Cols.el D' r 0 = 0 := by
  have hB : Batch exV := ⟨rfl, by decide, by decide, by simp [exV]⟩
  have hok : How.Ok ⟨.st, .st, .st, .st⟩ := ⟨trivial, trivial, trivial, trivial⟩
  obtain ⟨D', h⟩ := gradient_runs ⟨.st, .st, .st, .st⟩ hok false true (fun _ => 7) (fun _ => 9) 3 exV (scratch (fun _ => 5) 2 2) hB
    (le_refl _) rfl rfl (by simp [scratch])
  refine ⟨D', h, ?_⟩
  obtain ⟨-, -, -, -, -, g⟩ := gradient_value _ hok _ _ _ _ 3 exV _ D' hB (le_refl _) h
  show ∑ r ∈ range exV.rows, _ = _
  rw [sum_congr rfl fun r hr => g r 0 (mem_range.1 hr) (by decide), ← mul_sum]
  show 3 * ∑ r ∈ range exV.rows, slope exV.rows exV.colsNoBias (Gemm.val exV) r 0 = 0
  rw [slope_centred, mul_zero]

end Nntl.DeCov
