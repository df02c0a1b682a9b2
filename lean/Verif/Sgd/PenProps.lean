import Verif.Sgd.AnyProps
import Verif.Sgd.AnyOpts

/-! C205: gradient descent with L1 and L2 penalties of weights is gradient descent on the mean loss plus the penalties. Property theorems. -/
namespace Nntl.Sgd

open Nntl.Layers Nntl.Pass Nntl.Backprop Nntl.Grad Nntl.Matrix Nntl.Kernel
open Finset

/-! ### Specification -/

/-- Penalties of weights: `l1 |w| + l2 w² / 2`; with `ign1`, `ign2` biases are free. -/
structure Penalty where
  l1 : ℝ
  l2 : ℝ
  ign1 : Bool
  ign2 : Bool

/-- The penalty of one weight. -/
noncomputable def Penalty.cost (p : Penalty) (bias : Bool) (w : ℝ) : ℝ :=
  (if p.ign1 && bias then 0 else p.l1 * |w|) + if p.ign2 && bias then 0 else p.l2 * w ^ 2 / 2

/-- The penalty of a matrix with `m` rows and `k` columns; the last column has the biases. -/
noncomputable def Penalty.total (p : Penalty) (m k : ℕ) (W : Mat ℝ) : ℝ := ∑ c ∈ range m, ∑ j ∈ range k, p.cost (decide (j + 1 = k)) (W c j)

/-- Penalties of the layers by their identifiers, and of the output layer. -/
structure Penalties where
  body : ℕ → Penalty
  out : Penalty

/-- The mean loss plus the penalties of all weights. The weights of a layer inside of a tile pack count once for each tile. -/
noncomputable def Shape.penalised (S : Shape) (p : Penalties) (R : ℕ) (X Y : Mat ℝ) (W : Weights) : ℝ :=
  S.meanLoss R X Y W + (∑ i ∈ range (mats S.tree S.inputs).length,
    (((mats S.tree S.inputs)[i]?.map fun m => (m.tiles : ℝ) * (p.body m.id).total m.rows m.cols (W.body i)).getD 0) +
      p.out.total S.outputs (S.tree.neurons + 1) W.out)

/-- The mean loss plus what the layers report as penalties: a tile pack reports those of its layers once (`/repo/nntl/layer/pack_tile.h` 220–224). -/
noncomputable def Shape.reported (S : Shape) (p : Penalties) (R : ℕ) (X Y : Mat ℝ) (W : Weights) : ℝ :=
  S.meanLoss R X Y W + (∑ i ∈ range (mats S.tree S.inputs).length, (((mats S.tree S.inputs)[i]?.map fun m => (p.body m.id).total m.rows m.cols (W.body i)).getD 0) +
      p.out.total S.outputs (S.tree.neurons + 1) W.out)

/-- One step of gradient descent on the penalised loss; its derivatives exist. -/
def Shape.PenStep (S : Shape) (η : Rates) (p : Penalties) (R : ℕ) (X Y : Mat ℝ) (W W' : Weights) : Prop :=
  (∀ i m, (mats S.tree S.inputs)[i]? = some m → ∀ c < m.rows, ∀ j < m.cols, DifferentiableAt ℝ (fun t => S.penalised p R X Y (W.bumpBody i c j t)) 0 ∧
    W'.body i c j = W.body i c j - η.body m.id * (deriv (fun t => S.penalised p R X Y (W.bumpBody i c j t)) 0 / m.tiles)) ∧
  ∀ c < S.outputs, ∀ j < S.tree.neurons + 1, DifferentiableAt ℝ (fun t => S.penalised p R X Y (W.bumpOut c j t)) 0 ∧
    W'.out c j = W.out c j - η.out * deriv (fun t => S.penalised p R X Y (W.bumpOut c j t)) 0

def Shape.PenPath (S : Shape) (η : Rates) (p : Penalties) : List (ℕ × Mat ℝ × Mat ℝ) → Weights → Weights → Prop
  | [], W, W' => S.Same W W'
  | b :: bs, W, W' => ∃ W1, S.PenStep η p b.1 b.2.1 b.2.2 W W1 ∧ S.PenPath η p bs W1 W'

/-- Where the penalty of a weight has a derivative. -/
def Penalty.Smooth (p : Penalty) (bias : Bool) (w : ℝ) : Prop := p.l1 = 0 ∨ (p.ign1 = true ∧ bias = true) ∨ w ≠ 0

/-- No weight with an L1 penalty is 0. -/
def Shape.Penalisable (S : Shape) (p : Penalties) (W : Weights) : Prop :=
  (∀ i m, (mats S.tree S.inputs)[i]? = some m → ∀ c < m.rows, ∀ j < m.cols, (p.body m.id).Smooth (decide (j + 1 = m.cols)) (W.body i c j)) ∧
  ∀ c < S.outputs, ∀ j < S.tree.neurons + 1, p.out.Smooth (decide (j + 1 = S.tree.neurons + 1)) (W.out c j)

/-- Some derivative of the penalised loss with respect to a weight that is trained is not 0. -/
def Shape.PenSlope (S : Shape) (η : Rates) (p : Penalties) (R : ℕ) (X Y : Mat ℝ) (W : Weights) : Prop :=
  (∃ i m c j, (mats S.tree S.inputs)[i]? = some m ∧ c < m.rows ∧ j < m.cols ∧ 0 < η.body m.id ∧ deriv (fun t => S.penalised p R X Y (W.bumpBody i c j t)) 0 ≠ 0) ∨
  ∃ c j, c < S.outputs ∧ j < S.tree.neurons + 1 ∧ 0 < η.out ∧ deriv (fun t => S.penalised p R X Y (W.bumpOut c j t)) 0 ≠ 0

/-- Settings of gradient works: plain gradient descent with these penalties. -/
structure Decays (c : Call) (lr : ℝ) (p : Penalty) : Prop where
  quiet : Quiet c
  type : c.cfg.type = .classicalConstant
  mom : c.cfg.useMom = false
  lr : c.cfg.lr = lr
  l1 : c.cfg.l1 = p.l1
  l2 : c.cfg.l2 = p.l2
  ign1 : c.cfg.l1IgnBias = p.ign1
  ign2 : c.cfg.l2IgnBias = p.ign2

/-! ### Derivatives of penalties -/

noncomputable def Penalty.slope (p : Penalty) : Bool → ℝ → ℝ := penaltySlope p.l1 p.l2 p.ign1 p.ign2

theorem hasDerivAt_abs_add {w : ℝ} (hw : w ≠ 0) : HasDerivAt (fun t => |w + t|) ((if 0 < w then 1 else 0) - if w < 0 then 1 else 0) 0 := by
  have h0 : HasDerivAt (fun t : ℝ => w + t) 1 0 := (hasDerivAt_id (0 : ℝ)).const_add w
  rcases lt_or_gt_of_ne hw with h | h
  · have h1 : HasDerivAt (fun x : ℝ => |x|) (-1) (w + 0) := by rw [add_zero]; exact hasDerivAt_abs_neg h
    refine (h1.comp (0 : ℝ) h0).congr_deriv ?_
    rw [if_neg (not_lt.2 h.le), if_pos h]
    norm_num
  · have h1 : HasDerivAt (fun x : ℝ => |x|) 1 (w + 0) := by rw [add_zero]; exact hasDerivAt_abs_pos h
    refine (h1.comp (0 : ℝ) h0).congr_deriv ?_
    rw [if_pos h, if_neg (not_lt.2 h.le)]
    norm_num

theorem Penalty.cost_slope {p : Penalty} {bias : Bool} {w : ℝ} (h : p.Smooth bias w) : HasDerivAt (fun t => p.cost bias (w + t)) (p.slope bias w) 0 := by
  have h0 : HasDerivAt (fun t : ℝ => w + t) 1 0 := (hasDerivAt_id (0 : ℝ)).const_add w
  unfold Penalty.cost Penalty.slope penaltySlope
  refine HasDerivAt.fun_add ?_ ?_
  · by_cases hb : (p.ign1 && bias) = true
    · simp only [hb, if_true]
      exact hasDerivAt_const _ _
    · simp only [hb]
      rcases h with h | h | h
      · simp only [h, zero_mul]
        exact hasDerivAt_const _ _
      · exact absurd (by rw [h.1, h.2]; rfl) hb
      · exact (hasDerivAt_abs_add h).const_mul _
  · by_cases hb : (p.ign2 && bias) = true
    · simp only [hb, if_true]
      exact hasDerivAt_const _ _
    · simp only [hb]
      refine (((h0.fun_pow 2).const_mul p.l2).div_const 2).congr_deriv ?_
      simp
      ring

theorem hasDerivAt_sum_one {n i : ℕ} (hi : i < n) {f : ℕ → ℝ → ℝ} {d : ℝ} (h : HasDerivAt (f i) d 0) (hc : ∀ q, q ≠ i → ∀ t, f q t = f q 0) :
    HasDerivAt (fun t => ∑ q ∈ range n, f q t) d 0 := by
  have h1 : HasDerivAt (fun t => ∑ q ∈ range n, f q t) (∑ q ∈ range n, if q = i then d else 0) 0 := by
    refine HasDerivAt.fun_sum fun q _ => ?_
    by_cases e : q = i
    · rw [if_pos e, e]
      exact h
    · rw [if_neg e, show f q = fun _ => f q 0 from funext (hc q e)]
      exact hasDerivAt_const _ _
  refine h1.congr_deriv ?_
  rw [sum_ite_eq' (range n) i fun _ => d, if_pos (mem_range.2 hi)]

theorem Penalty.total_slope {p : Penalty} {m k c j : ℕ} (hc : c < m) (hj : j < k) {W : Mat ℝ} (h : p.Smooth (decide (j + 1 = k)) (W c j)) :
    HasDerivAt (fun t => p.total m k (bump c j t W)) (p.slope (decide (j + 1 = k)) (W c j)) 0 := by
  unfold Penalty.total
  refine hasDerivAt_sum_one hc (hasDerivAt_sum_one hj ?_ fun q hq t => ?_) fun q hq t => sum_congr rfl fun b _ => ?_
  · simp only [bump, and_self, if_true]
    exact Penalty.cost_slope h
  · simp only [bump, hq, and_false, if_false]
  · simp only [bump, hq, false_and, if_false]

variable {S : Shape}

theorem penalised_body {p : Penalties} {R : ℕ} {X Y : Mat ℝ} {W : Weights} (hp : S.Penalisable p W) {i : ℕ} {m : MatInfo} (hm : (mats S.tree S.inputs)[i]? = some m)
    {c j : ℕ} (hc : c < m.rows) (hj : j < m.cols) (hd : DifferentiableAt ℝ (fun t => S.meanLoss R X Y (W.bumpBody i c j t)) 0) :
    HasDerivAt (fun t => S.penalised p R X Y (W.bumpBody i c j t)) (S.dBody R X Y W i c j + m.tiles * (p.body m.id).slope (decide (j + 1 = m.cols)) (W.body i c j)) 0 := by
  unfold Shape.penalised
  refine HasDerivAt.fun_add hd.hasDerivAt ?_
  have h1 : HasDerivAt (fun t => ∑ q ∈ range (mats S.tree S.inputs).length,
      (((mats S.tree S.inputs)[q]?.map fun m => (m.tiles : ℝ) * (p.body m.id).total m.rows m.cols ((W.bumpBody i c j t).body q)).getD 0))
      (m.tiles * (p.body m.id).slope (decide (j + 1 = m.cols)) (W.body i c j)) 0 := by
    refine hasDerivAt_sum_one (lt_of_getElem? hm) ?_ fun q hq t => ?_
    · simp only [hm, Option.map_some, Option.getD_some, Weights.bumpBody, if_true]
      exact (Penalty.total_slope hc hj (hp.1 i m hm c hc j hj)).const_mul _
    · simp only [Weights.bumpBody, hq, if_false]
  exact h1.add_const (p.out.total S.outputs (S.tree.neurons + 1) W.out)

theorem penalised_out {p : Penalties} {R : ℕ} {X Y : Mat ℝ} {W : Weights} (hp : S.Penalisable p W) {c j : ℕ} (hc : c < S.outputs) (hj : j < S.tree.neurons + 1)
    (hd : DifferentiableAt ℝ (fun t => S.meanLoss R X Y (W.bumpOut c j t)) 0) :
    HasDerivAt (fun t => S.penalised p R X Y (W.bumpOut c j t)) (S.dOut R X Y W c j + p.out.slope (decide (j + 1 = S.tree.neurons + 1)) (W.out c j)) 0 := by
  unfold Shape.penalised
  refine HasDerivAt.fun_add hd.hasDerivAt ?_
  exact (Penalty.total_slope hc hj (hp.2 c hc j hj)).const_add (∑ i ∈ range (mats S.tree S.inputs).length,
    (((mats S.tree S.inputs)[i]?.map fun m => (m.tiles : ℝ) * (p.body m.id).total m.rows m.cols (W.body i)).getD 0))

/-! ### Optimisers -/

/-- Gradient works that subtract `η` times the gradient with the derivatives of penalties. -/
structure Decaying (gw : GradWorks ℝ) (m k : ℕ) (η : ℝ) (p : Penalty) : Prop where
  pre : ∀ g w, Agree m k (gw.pre g w).2 w
  apply : ∀ g w d, Agree m k (gw.apply g w d).2.1 fun c j => w c j - η * (d c j + p.slope (decide (j + 1 = k)) (w c j))

/-- C205. Gradient works of type `ClassicalConstant` with penalties. -/
theorem gradWorks_decaying (o : Opt) (m k : ℕ) (lr : ℝ) (p : Penalty) (hp : ∀ t, (o.pre t).cfg.useMom = false) (ha : ∀ t, Decays (o.app t) lr p) :
    Decaying (gradWorks o m k) m k lr p where
  pre := fun g w c hc j hj => by
    rw [pre_still o m k g (by rw [hp]; rfl) w]
    exact matOf_memOf hc w j
  apply := fun g w d c hc j hj => by
    obtain ⟨hq, h1, h2, h3, h4, h5, h6, h7⟩ := ha g.t
    show (applyF (o.app g.t).cfg (o.app g.t).blocked (o.app g.t).draw { g.s with W := mtxOf m k w, G := mtxOf m k d }).W.data (c + m * j) = _
    obtain ⟨D, hD, e⟩ := applyF_quiet hq g.s m k w d
    have hlt := cell_lt hc hj
    have hs : slopes (o.app g.t).cfg = p.slope := by
      funext b
      unfold slopes Penalty.slope
      rw [h4, h5, h6, h7]
    rw [hs] at hD
    rw [e]
    show _ = w c j - lr * (d c j + p.slope (decide (j + 1 = k)) (w c j))
    rw [← hD c hc j hj]
    unfold updF subF optF firstF optCell
    simp only [h1, h2, maskF_quiet hq, if_true]
    simp only [St.setW, St.setG, each, St.ran, St.n, St.cell, mtxOf, hlt, if_true, memOf_cell hc]
    rw [h3]
    ring

theorem cell_decays {C : Cell} {gw : GradWorks ℝ} {m k : ℕ} {η : ℝ} {p : Penalty} (h : Decaying gw m k η p) (e : C.gw = gw) :
    Agree m k C.pre.w C.w ∧ ∀ d, Agree m k (C.pre.apply d).w fun c j => C.w c j - η * (d c j + p.slope (decide (j + 1 = k)) (C.w c j)) := by
  obtain ⟨gw', g, w⟩ := C
  dsimp only at e
  subst e
  refine ⟨h.pre g w, fun d c hc j hj => ?_⟩
  have h1 := h.apply (gw'.pre g w).1 (gw'.pre g w).2 d c hc j hj
  dsimp only at h1
  rw [h.pre g w c hc j hj] at h1
  exact h1

variable {P : Plan} {η : Rates} {p : Penalties}

/-- All layers use plain gradient descent with penalties; layers that are not trained have the learning rate 0. -/
structure Plan.Decaying (P : Plan) (η : Rates) (p : Penalties) : Prop where
  body : ∃ ρ : ℕ → ℝ, (∀ id m k, Sgd.Decaying (P.gw id m k) m k (ρ id) (p.body id)) ∧ ∀ id, η.body id = if P.upd id then ρ id else 0
  out : ∃ ρ : ℝ, Sgd.Decaying P.go P.outputs (P.tree.neurons + 1) ρ p.out ∧ η.out = if P.uo then ρ else 0

theorem pre_same (ho : P.Ok) (hp : P.Decaying η p) (s : NetS P.net) : P.shape.Same (P.cells s).pre.weights (P.weights s) := by
  obtain ⟨ρ, h1, _⟩ := hp.body
  obtain ⟨ρo, h2, _⟩ := hp.out
  have hc : P.shape.Same (P.cells s).pre.weights (P.cells s).weights :=
    ⟨fun i m hm => (cell_decays (h1 m.id m.rows m.cols) (ho.isNet.reads.own s.body i m hm)).1, (cell_decays (C := (P.cells s).out) h2 rfl).1⟩
  exact hc.trans (cells_weights ho s)

/-- What a training step subtracts. -/
theorem penalised_step (ho : P.Ok) (hp : P.Decaying η p) (s0 : NetS P.net) (hi : P.Inv s0) (us : List (Use ℝ)) (hus : ∀ u ∈ us, P.Fits u) (R : ℕ)
    (X Y : Mem ℝ) (hu : P.Fits (.train R X Y)) (hr : P.shape.Regular P.dz R (matOf R X) (matOf R Y) (P.weights (P.net.run s0 us))) :
    let W := P.weights (P.net.run s0 us)
    let W' := P.weights (P.net.step (P.net.run s0 us) (.train R X Y)).1
    (∀ i m, (mats P.shape.tree P.shape.inputs)[i]? = some m → ∀ c < m.rows, ∀ j < m.cols,
      DifferentiableAt ℝ (fun t => P.shape.meanLoss R (matOf R X) (matOf R Y) (W.bumpBody i c j t)) 0 ∧ W'.body i c j = W.body i c j - η.body m.id *
        (P.shape.dBody R (matOf R X) (matOf R Y) W i c j / m.tiles + (p.body m.id).slope (decide (j + 1 = m.cols)) (W.body i c j))) ∧
    ∀ c < P.shape.outputs, ∀ j < P.shape.tree.neurons + 1,
      DifferentiableAt ℝ (fun t => P.shape.meanLoss R (matOf R X) (matOf R Y) (W.bumpOut c j t)) 0 ∧ W'.out c j = W.out c j - η.out *
        (P.shape.dOut R (matOf R X) (matOf R Y) W c j + p.out.slope (decide (j + 1 = P.shape.tree.neurons + 1)) (W.out c j)) := by
  have hs := pre_same ho hp (P.net.run s0 us)
  obtain ⟨⟨t1, t2⟩, d1, d2⟩ := every_optimiser_gets_the_derivatives ho s0 hi us hus R X Y hu (ho.shape.regular_congr hs.symm hr)
  have hw := cells_weights ho (P.net.run s0 us)
  have hw' := cells_weights ho (P.net.step (P.net.run s0 us) (.train R X Y)).1
  obtain ⟨ρ, hρ, eρ⟩ := hp.body
  obtain ⟨ρo, hρo, eρo⟩ := hp.out
  generalize P.net.step (P.net.run s0 us) (.train R X Y) = s2 at *
  generalize P.net.run s0 us = s at *
  intro W W'
  refine ⟨fun i m hm c hc j hj => ?_, fun c hc j hj => ?_⟩
  · have hd := d1 i m hm c hc j hj
    simp only [ho.shape.meanLoss_congr (same_bumpBody hs i c j _)] at hd
    refine ⟨hd, ?_⟩
    show (P.weights s2.1).body i c j = (P.weights s).body i c j - η.body m.id * (P.shape.dBody R (matOf R X) (matOf R Y) (P.weights s) i c j / m.tiles +
      (p.body m.id).slope (decide (j + 1 = m.cols)) ((P.weights s).body i c j))
    rw [← hw'.1 i m hm c hc j hj, ← hw.1 i m hm c hc j hj, eρ]
    obtain ⟨k1, k2⟩ := cell_decays (hρ m.id m.rows m.cols) (ho.isNet.reads.own s.body i m hm)
    have ht := t1 i m hm
    by_cases hup : P.upd m.id = true
    · rw [if_pos hup] at ht ⊢
      obtain ⟨d, hd1, hd2⟩ := ht
      show ((P.cells s2.1).body i).w c j = _
      rw [hd2]
      refine (k2 d c hc j hj).trans ?_
      dsimp only
      rw [hd1 c hc j hj, ho.shape.dBody_congr hs]
      rfl
    · rw [if_neg hup] at ht ⊢
      show ((P.cells s2.1).body i).w c j = _
      rw [ht, zero_mul, sub_zero]
      exact k1 c hc j hj
  · have hd := d2 c hc j hj
    simp only [ho.shape.meanLoss_congr (same_bumpOut hs c j _)] at hd
    refine ⟨hd, ?_⟩
    show (P.weights s2.1).out c j = (P.weights s).out c j - η.out * (P.shape.dOut R (matOf R X) (matOf R Y) (P.weights s) c j +
      p.out.slope (decide (j + 1 = P.shape.tree.neurons + 1)) ((P.weights s).out c j))
    rw [← hw'.2 c hc j hj, ← hw.2 c hc j hj, eρo]
    obtain ⟨k1, k2⟩ := cell_decays (C := (P.cells s).out) hρo rfl
    by_cases hup : P.uo = true
    · rw [if_pos hup] at t2 ⊢
      obtain ⟨d, hd1, hd2⟩ := t2
      show (P.cells s2.1).out.w c j = _
      rw [hd2]
      refine (k2 d c hc j hj).trans ?_
      dsimp only
      rw [hd1 c hc j hj, ho.shape.dOut_congr hs]
      rfl
    · rw [if_neg hup] at t2 ⊢
      show (P.cells s2.1).out.w c j = _
      rw [t2, zero_mul, sub_zero]
      exact k1 c hc j hj

/-- C205. One training step after any history is one step of gradient descent on the mean loss of the batch plus the penalties of the weights. -/
theorem penalised_step_is_descent (ho : P.Ok) (hp : P.Decaying η p) (s0 : NetS P.net) (hi : P.Inv s0) (us : List (Use ℝ)) (hus : ∀ u ∈ us, P.Fits u) (R : ℕ)
    (X Y : Mem ℝ) (hu : P.Fits (.train R X Y)) (hr : P.shape.Regular P.dz R (matOf R X) (matOf R Y) (P.weights (P.net.run s0 us)))
    (hz : P.shape.Penalisable p (P.weights (P.net.run s0 us))) :
    P.shape.PenStep η p R (matOf R X) (matOf R Y) (P.weights (P.net.run s0 us)) (P.weights (P.net.step (P.net.run s0 us) (.train R X Y)).1) := by
  obtain ⟨h1, h2⟩ := penalised_step ho hp s0 hi us hus R X Y hu hr
  refine ⟨fun i m hm c hc j hj => ?_, fun c hc j hj => ?_⟩
  · obtain ⟨hd, e⟩ := h1 i m hm c hc j hj
    have key := penalised_body (S := P.shape) (R := R) (X := matOf R X) (Y := matOf R Y) hz hm hc hj hd
    refine ⟨key.differentiableAt, ?_⟩
    rw [key.deriv, add_div, mul_div_cancel_left₀ _ (tiles_ne ho.packs hm)]
    exact e
  · obtain ⟨hd, e⟩ := h2 c hc j hj
    have key := penalised_out (S := P.shape) (R := R) (X := matOf R X) (Y := matOf R Y) hz hc hj hd
    refine ⟨key.differentiableAt, ?_⟩
    rw [key.deriv]
    exact e

section
variable {act : ℕ → Act.Act}

theorem Penalty.total_congr (p : Penalty) {m k : ℕ} {W W' : Mat ℝ} (h : Agree m k W W') : p.total m k W = p.total m k W' :=
  sum_congr rfl fun c hc => sum_congr rfl fun j hj => by rw [h c (mem_range.1 hc) j (mem_range.1 hj)]

theorem Shape.Ok.penalised_congr (h : S.Ok act) {p : Penalties} {W W' : Weights} (hw : S.Same W W') (R : ℕ) (X Y : Mat ℝ) :
    S.penalised p R X Y W = S.penalised p R X Y W' := by
  unfold Shape.penalised
  rw [h.meanLoss_congr hw, p.out.total_congr hw.2]
  congr 2
  refine sum_congr rfl fun i _ => ?_
  cases e : (mats S.tree S.inputs)[i]? with
  | none => rfl
  | some m => simp only [Option.map_some, Option.getD_some, (p.body m.id).total_congr (hw.1 i m e)]

theorem Shape.Ok.penStep_congr (h : S.Ok act) {R : ℕ} {X Y : Mat ℝ} {W W' V : Weights} (hw : S.Same W W') (hd : S.PenStep η p R X Y W V) : S.PenStep η p R X Y W' V := by
  refine ⟨fun i m hm c hc j hj => ?_, fun c hc j hj => ?_⟩
  · have e : (fun t => S.penalised p R X Y (W'.bumpBody i c j t)) = fun t => S.penalised p R X Y (W.bumpBody i c j t) :=
      funext fun t => (h.penalised_congr (same_bumpBody hw i c j t) R X Y).symm
    rw [e, ← hw.1 i m hm c hc j hj]
    exact hd.1 i m hm c hc j hj
  · have e : (fun t => S.penalised p R X Y (W'.bumpOut c j t)) = fun t => S.penalised p R X Y (W.bumpOut c j t) :=
      funext fun t => (h.penalised_congr (same_bumpOut hw c j t) R X Y).symm
    rw [e, ← hw.2 c hc j hj]
    exact hd.2 c hc j hj

theorem Shape.Ok.penPath_congr (h : S.Ok act) : ∀ (bs : List (ℕ × Mat ℝ × Mat ℝ)) {W W' V : Weights}, S.Same W W' → S.PenPath η p bs W V → S.PenPath η p bs W' V
  | [], _, _, _, hw, hp => hw.symm.trans hp
  | _ :: _, _, _, _, hw, ⟨W1, h1, h2⟩ => ⟨W1, h.penStep_congr hw h1, h2⟩

theorem Shape.Ok.penPath_unique (h : S.Ok act) : ∀ (bs : List (ℕ × Mat ℝ × Mat ℝ)) {W W' V V' : Weights}, S.Same W W' → S.PenPath η p bs W V →
    S.PenPath η p bs W' V' → S.Same V V'
  | [], _, _, _, _, hw, hp, hp' => hp.symm.trans (hw.trans hp')
  | _ :: bs, _, _, _, _, hw, ⟨_, h1, h2⟩, ⟨_, h1', h2'⟩ => by
    have h1' := h.penStep_congr hw.symm h1'
    exact penPath_unique h bs ⟨fun i m hm c hc j hj => (h1.1 i m hm c hc j hj).2.trans (h1'.1 i m hm c hc j hj).2.symm,
      fun c hc j hj => (h1.2 c hc j hj).2.trans (h1'.2 c hc j hj).2.symm⟩ h2 h2'

end

/-- C205. Any history of evaluations and training steps. -/
theorem penalised_training_is_gradient_descent (ho : P.Ok) (hp : P.Decaying η p) : ∀ (us : List (Use ℝ)) (s0 : NetS P.net), P.Inv s0 → (∀ u ∈ us, P.Fits u) →
    (∀ pre R X Y post, us = pre ++ Use.train R X Y :: post → P.shape.Regular P.dz R (matOf R X) (matOf R Y) (P.weights (P.net.run s0 pre)) ∧
      P.shape.Penalisable p (P.weights (P.net.run s0 pre))) →
    P.shape.PenPath η p (batches us) (P.weights s0) (P.weights (P.net.run s0 us))
  | [], s0, _, _, _ => Shape.Same.refl _ _
  | u :: us, s0, hi, hus, hr => by
    have hi1 : P.Inv (P.net.step s0 u).1 := run_inv ho.trains ho.outLawful ho.net_ok ho.sizes [u] s0 hi fun v hv => by
      obtain rfl := List.mem_singleton.1 hv
      exact (hus v List.mem_cons_self).ok ho
    have ih := penalised_training_is_gradient_descent ho hp us (P.net.step s0 u).1 hi1 (fun v hv => hus v (List.mem_cons_of_mem _ hv))
      fun pre R X Y post e => hr (u :: pre) R X Y post (by rw [e]; rfl)
    have e : P.net.run s0 (u :: us) = P.net.run (P.net.step s0 u).1 us := rfl
    rw [e]
    cases u with
    | eval R X =>
      have h1 := SameCells.weights (evaluation_keeps_cells ho s0 hi R X (hus _ List.mem_cons_self))
      exact ho.shape.penPath_congr _ ((cells_weights ho _).symm.trans (h1.trans (cells_weights ho _))) ih
    | train R X Y =>
      obtain ⟨r1, r2⟩ := hr [] R X Y us rfl
      exact ⟨_, penalised_step_is_descent ho hp s0 hi [] (fun _ h => by cases h) R X Y (hus _ List.mem_cons_self) r1 r2, ih⟩

/-- C205. Two networks that calculate the same function, with the same learning rates, penalties and first weights, trained on the same batches, have the same weights. -/
theorem same_penalised_training_same_weights {P Q : Plan} (ho : P.Ok) (hoQ : Q.Ok) (hp : P.Decaying η p) (hpQ : Q.Decaying η p) (hS : P.shape = Q.shape) (s : NetS P.net)
    (t : NetS Q.net) (hs : P.Inv s) (ht : Q.Inv t) (us vs : List (Use ℝ)) (hus : ∀ u ∈ us, P.Fits u) (hvs : ∀ u ∈ vs, Q.Fits u)
    (hb : batches us = batches vs) (hw : P.shape.Same (P.weights s) (Q.weights t))
    (hr : ∀ pre R X Y post, us = pre ++ Use.train R X Y :: post → P.shape.Regular P.dz R (matOf R X) (matOf R Y) (P.weights (P.net.run s pre)) ∧
      P.shape.Penalisable p (P.weights (P.net.run s pre)))
    (hrQ : ∀ pre R X Y post, vs = pre ++ Use.train R X Y :: post → Q.shape.Regular Q.dz R (matOf R X) (matOf R Y) (Q.weights (Q.net.run t pre)) ∧
      Q.shape.Penalisable p (Q.weights (Q.net.run t pre))) :
    P.shape.Same (P.weights (P.net.run s us)) (Q.weights (Q.net.run t vs)) := by
  have h1 := penalised_training_is_gradient_descent ho hp us s hs hus hr
  have h2 := penalised_training_is_gradient_descent hoQ hpQ vs t ht hvs hrQ
  rw [← hS, ← hb] at h2
  exact ho.shape.penPath_unique _ hw h1 h2

theorem Penalty.total_along {p : Penalty} {m k : ℕ} {W : Mat ℝ} (V : Mat ℝ) (h : ∀ c < m, ∀ j < k, p.Smooth (decide (j + 1 = k)) (W c j)) :
    HasDerivAt (fun t => p.total m k fun c j => W c j + t * V c j) (∑ c ∈ range m, ∑ j ∈ range k, p.slope (decide (j + 1 = k)) (W c j) * V c j) 0 := by
  unfold Penalty.total
  refine HasDerivAt.fun_sum fun c hc => HasDerivAt.fun_sum fun j hj => ?_
  have h1 := Penalty.cost_slope (h c (mem_range.1 hc) j (mem_range.1 hj))
  have h2 : HasDerivAt (fun t : ℝ => t * V c j) (V c j) 0 := by simpa using (hasDerivAt_id (0 : ℝ)).mul_const (V c j)
  exact HasDerivAt.comp_of_eq (0 : ℝ) h1 h2 (by simp)

theorem pairing_as_maps : ∀ (L : List MatInfo) (g V : ℕ → Mat ℝ), pairing (L.map toWt) g V =
    ∑ i ∈ range L.length, ((L[i]?.map fun m => (m.tiles : ℝ) * Backprop.inner m.rows m.cols (g i) (V i)).getD 0)
  | [], _, _ => rfl
  | m :: L, g, V => by
    rw [List.length_cons, sum_range_succ', List.map_cons, pairing, pairing_as_maps L]
    rw [add_comm]
    rfl

theorem penalised_along {act : ℕ → Act.Act} (hS : S.Ok act) {R : ℕ} {X Y : Mat ℝ} {W : Weights} (hz : S.Penalisable p W) {g : ℕ → Mat ℝ} {h : Mat ℝ}
    (hsl : Slopes S R X Y W g h) (V : Weights) : HasDerivAt (fun t => S.penalised p R X Y (W.move V t))
      ((∑ i ∈ range (mats S.tree S.inputs).length, ((mats S.tree S.inputs)[i]?.map fun m => (m.tiles : ℝ) * Backprop.inner m.rows m.cols
          (fun c j => g i c j + (p.body m.id).slope (decide (j + 1 = m.cols)) (W.body i c j)) (V.body i)).getD 0) +
        ∑ c ∈ range S.outputs, ∑ j ∈ range (S.tree.neurons + 1), (h c j + p.out.slope (decide (j + 1 = S.tree.neurons + 1)) (W.out c j)) * V.out c j) 0 := by
  unfold Shape.penalised
  have h1 := hsl.all V
  have h2 : HasDerivAt (fun t => ∑ i ∈ range (mats S.tree S.inputs).length,
      (((mats S.tree S.inputs)[i]?.map fun m => (m.tiles : ℝ) * (p.body m.id).total m.rows m.cols ((W.move V t).body i)).getD 0))
      (∑ i ∈ range (mats S.tree S.inputs).length, ((mats S.tree S.inputs)[i]?.map fun m => (m.tiles : ℝ) * Backprop.inner m.rows m.cols
          (fun c j => (p.body m.id).slope (decide (j + 1 = m.cols)) (W.body i c j)) (V.body i)).getD 0) 0 := by
    refine HasDerivAt.fun_sum fun i _ => ?_
    cases e : (mats S.tree S.inputs)[i]? with
    | none => exact hasDerivAt_const _ _
    | some m =>
      simp only [Option.map_some, Option.getD_some]
      exact (Penalty.total_along (V.body i) (hz.1 i m e)).const_mul _
  have h3 := Penalty.total_along V.out hz.2
  refine (h1.fun_add (h2.fun_add h3)).congr_deriv ?_
  rw [pairing_as_maps, add_add_add_comm, ← sum_add_distrib, ← sum_add_distrib]
  congr 1
  · refine sum_congr rfl fun i _ => ?_
    cases e : (mats S.tree S.inputs)[i]? with
    | none => exact add_zero 0
    | some m =>
      simp only [Option.map_some, Option.getD_some, Backprop.inner]
      rw [← mul_add, ← sum_add_distrib]
      congr 1
      refine sum_congr rfl fun c _ => ?_
      rw [← sum_add_distrib]
      exact sum_congr rfl fun j _ => by ring
  · refine sum_congr rfl fun c _ => ?_
    rw [← sum_add_distrib]
    exact sum_congr rfl fun j _ => by ring

/-- C205. With learning rates that are small enough, a step lowers the penalised loss of the batch, unless all its derivatives with respect to weights that are trained
are 0. -/
theorem small_penalised_step_lowers {act : ℕ → Act.Act} (hS : S.Ok act) {dz : ℝ → ℝ → ℝ} {R : ℕ} (h0 : 0 < R) {X Y : Mat ℝ} {W : Weights}
    (hr : S.Regular dz R X Y W) (hz : S.Penalisable p W) (hη : (∀ id, 0 ≤ η.body id) ∧ 0 ≤ η.out) (hs : S.PenSlope η p R X Y W) :
    ∃ ε0 > 0, ∀ ε, 0 < ε → ε < ε0 → ∀ W', S.PenStep (η.times ε) p R X Y W W' → S.penalised p R X Y W' < S.penalised p R X Y W := by
  obtain ⟨g, h, hsl⟩ := hS.slopes h0 hr
  obtain ⟨k1, k2⟩ := hsl.single hS
  let dB : MatInfo → ℕ → Mat ℝ := fun m i c j => g i c j + (p.body m.id).slope (decide (j + 1 = m.cols)) (W.body i c j)
  let dO : Mat ℝ := fun c j => h c j + p.out.slope (decide (j + 1 = S.tree.neurons + 1)) (W.out c j)
  let V : Weights := ⟨fun i c j => (((mats S.tree S.inputs)[i]?.map fun m => -(η.body m.id * dB m i c j)).getD 0), fun c j => -(η.out * dO c j)⟩
  have hV := penalised_along hS hz hsl V
  have hdB : ∀ i m, (mats S.tree S.inputs)[i]? = some m → ∀ c < m.rows, ∀ j < m.cols,
      deriv (fun t => S.penalised p R X Y (W.bumpBody i c j t)) 0 / m.tiles = dB m i c j := fun i m hm c hc j hj => by
    have hk := k1 i m hm c hc j hj
    rw [(penalised_body hz hm hc hj hk.differentiableAt).deriv]
    unfold Shape.dBody
    rw [hk.deriv, ← mul_add, mul_div_cancel_left₀ _ (tiles_ne hS.packs hm)]
  have hdO : ∀ c < S.outputs, ∀ j < S.tree.neurons + 1, deriv (fun t => S.penalised p R X Y (W.bumpOut c j t)) 0 = dO c j := fun c hc j hj => by
    have hk := k2 c hc j hj
    rw [(penalised_out hz hc hj hk.differentiableAt).deriv]
    unfold Shape.dOut
    rw [hk.deriv]
  have hVb : ∀ i m, (mats S.tree S.inputs)[i]? = some m → ∀ c j, V.body i c j = -(η.body m.id * dB m i c j) := fun i m hm c j => by
    show (((mats S.tree S.inputs)[i]?.map fun m => -(η.body m.id * dB m i c j)).getD 0) = _
    rw [hm]
    rfl
  have bt : ∀ i m, (mats S.tree S.inputs)[i]? = some m → ∀ c j, dB m i c j * V.body i c j ≤ 0 := fun i m hm c j => by
    rw [hVb i m hm c j]
    nlinarith [mul_nonneg (hη.1 m.id) (mul_self_nonneg (dB m i c j))]
  have ot : ∀ c j : ℕ, dO c j * V.out c j ≤ 0 := fun c j => by
    show dO c j * -(_ * dO c j) ≤ 0
    nlinarith [mul_nonneg hη.2 (mul_self_nonneg (dO c j))]
  have bi : ∀ i, ((mats S.tree S.inputs)[i]?.map fun m => (m.tiles : ℝ) * Backprop.inner m.rows m.cols (dB m i) (V.body i)).getD 0 ≤ 0 := fun i => by
    cases e : (mats S.tree S.inputs)[i]? with
    | none => exact le_refl (0 : ℝ)
    | some m => exact mul_nonpos_of_nonneg_of_nonpos (Nat.cast_nonneg _) (sum_nonpos fun c _ => sum_nonpos fun j _ => bt i m e c j)
  have bs := sum_nonpos fun i (_ : i ∈ range (mats S.tree S.inputs).length) => bi i
  have os : ∑ c ∈ range S.outputs, ∑ j ∈ range (S.tree.neurons + 1), dO c j * V.out c j ≤ 0 := sum_nonpos fun c _ => sum_nonpos fun j _ => ot c j
  have neg : (∑ i ∈ range (mats S.tree S.inputs).length, ((mats S.tree S.inputs)[i]?.map fun m => (m.tiles : ℝ) * Backprop.inner m.rows m.cols (dB m i) (V.body i)).getD 0) +
      ∑ c ∈ range S.outputs, ∑ j ∈ range (S.tree.neurons + 1), dO c j * V.out c j < 0 := by
    rcases hs with ⟨i, m, c, j, hm, hc, hj, hpos, hne⟩ | ⟨c, j, hc, hj, hpos, hne⟩
    · have hg : dB m i c j ≠ 0 := fun e => hne (by
        have := hdB i m hm c hc j hj
        rw [e, div_eq_zero_iff] at this
        exact this.resolve_right (tiles_ne hS.packs hm))
      refine add_neg_of_neg_of_nonpos (sum_neg' (fun i _ => bi i) ⟨i, mem_range.2 (lt_of_getElem? hm), ?_⟩) os
      rw [hm]
      have ht : (0 : ℝ) < m.tiles := Nat.cast_pos.2 (tiles_pos _ _ hS.packs m (List.mem_of_getElem? hm))
      refine mul_neg_of_pos_of_neg ht (sum_neg' (fun c _ => sum_nonpos fun j _ => bt i m hm c j) ⟨c, mem_range.2 hc,
        sum_neg' (fun j _ => bt i m hm c j) ⟨j, mem_range.2 hj, ?_⟩⟩)
      rw [hVb i m hm c j]
      nlinarith [mul_pos hpos (mul_self_pos.2 hg)]
    · have hh : dO c j ≠ 0 := fun e => hne (by rw [hdO c hc j hj, e])
      refine add_neg_of_nonpos_of_neg bs (sum_neg' (fun c _ => sum_nonpos fun j _ => ot c j) ⟨c, mem_range.2 hc, sum_neg' (fun j _ => ot c j) ⟨j, mem_range.2 hj, ?_⟩⟩)
      show dO c j * -(η.out * dO c j) < 0
      nlinarith [mul_pos hpos (mul_self_pos.2 hh)]
  obtain ⟨ε0, hε0, hlow⟩ := lower_near hV neg
  refine ⟨ε0, hε0, fun ε hε hlt W' hd => ?_⟩
  have e0 : S.Same (W.move V 0) W := ⟨fun _ _ _ _ _ _ _ => by simp only [Weights.move, zero_mul, add_zero], fun _ _ _ _ => by
    simp only [Weights.move, zero_mul, add_zero]⟩
  have e1 : S.Same W' (W.move V ε) := by
    refine ⟨fun i m hm c hc j hj => ?_, fun c hc j hj => ?_⟩
    · rw [(hd.1 i m hm c hc j hj).2, hdB i m hm c hc j hj]
      show _ = W.body i c j + ε * V.body i c j
      rw [hVb i m hm c j]
      show W.body i c j - ε * η.body m.id * dB m i c j = _
      ring
    · rw [(hd.2 c hc j hj).2, hdO c hc j hj]
      show W.out c j - ε * η.out * dO c j = W.out c j + ε * -(η.out * dO c j)
      ring
  rw [hS.penalised_congr e1, ← hS.penalised_congr e0]
  exact hlow ε hε hlt

/-- C205. The same for networks. -/
theorem small_rates_lower_the_penalised_loss {act : ℕ → Act.Act} (hS : S.Ok act) {dz : ℝ → ℝ → ℝ} {R : ℕ} {X Y : Mem ℝ} {W : Weights} (h0 : 0 < R)
    (hr : S.Regular dz R (matOf R X) (matOf R Y) W) (hz : S.Penalisable p W) (hη : (∀ id, 0 ≤ η.body id) ∧ 0 ≤ η.out)
    (hs : S.PenSlope η p R (matOf R X) (matOf R Y) W) :
    ∃ ε0 > 0, ∀ ε, 0 < ε → ε < ε0 → ∀ P : Plan, P.Ok → P.Decaying (η.times ε) p → P.shape = S → P.dz = dz → ∀ s0 : NetS P.net, P.Inv s0 →
      ∀ us : List (Use ℝ), (∀ u ∈ us, P.Fits u) → P.Fits (.train R X Y) → S.Same (P.weights (P.net.run s0 us)) W →
      S.penalised p R (matOf R X) (matOf R Y) (P.weights (P.net.step (P.net.run s0 us) (.train R X Y)).1) < S.penalised p R (matOf R X) (matOf R Y) W := by
  obtain ⟨ε0, hε0, h⟩ := small_penalised_step_lowers hS h0 hr hz hη hs
  refine ⟨ε0, hε0, fun ε hε hlt P ho hp hPS hdz s0 hi us hus hu hw => h ε hε hlt _ ?_⟩
  subst hPS hdz
  refine ho.shape.penStep_congr hw (penalised_step_is_descent ho hp s0 hi us hus R X Y hu (ho.shape.regular_congr hw.symm hr) ⟨fun i m hm c hc j hj => ?_, fun c hc j hj => ?_⟩)
  · rw [hw.1 i m hm c hc j hj]
    exact hz.1 i m hm c hc j hj
  · rw [hw.2 c hc j hj]
    exact hz.2 c hc j hj

/-- C205. Without tile packs the penalised loss is the one that is reported. -/
theorem penalised_is_reported (h : ∀ m ∈ mats S.tree S.inputs, m.tiles = 1) (R : ℕ) (X Y : Mat ℝ) (W : Weights) : S.penalised p R X Y W = S.reported p R X Y W := by
  unfold Shape.penalised Shape.reported
  congr 2
  refine sum_congr rfl fun i _ => ?_
  cases e : (mats S.tree S.inputs)[i]? with
  | none => rfl
  | some m => simp only [Option.map_some, Option.getD_some, h m (List.mem_of_getElem? e), Nat.cast_one, one_mul]

theorem reported_body {R : ℕ} {X Y : Mat ℝ} {W : Weights} (hp : S.Penalisable p W) {i : ℕ} {m : MatInfo} (hm : (mats S.tree S.inputs)[i]? = some m)
    {c j : ℕ} (hc : c < m.rows) (hj : j < m.cols) (hd : DifferentiableAt ℝ (fun t => S.meanLoss R X Y (W.bumpBody i c j t)) 0) :
    HasDerivAt (fun t => S.reported p R X Y (W.bumpBody i c j t)) (S.dBody R X Y W i c j + (p.body m.id).slope (decide (j + 1 = m.cols)) (W.body i c j)) 0 := by
  unfold Shape.reported
  refine HasDerivAt.fun_add hd.hasDerivAt ?_
  have h1 : HasDerivAt (fun t => ∑ q ∈ range (mats S.tree S.inputs).length,
      (((mats S.tree S.inputs)[q]?.map fun m => (p.body m.id).total m.rows m.cols ((W.bumpBody i c j t).body q)).getD 0))
      ((p.body m.id).slope (decide (j + 1 = m.cols)) (W.body i c j)) 0 := by
    refine hasDerivAt_sum_one (lt_of_getElem? hm) ?_ fun q hq t => ?_
    · simp only [hm, Option.map_some, Option.getD_some, Weights.bumpBody, if_true]
      exact Penalty.total_slope hc hj (hp.1 i m hm c hc j hj)
    · simp only [Weights.bumpBody, hq, if_false]
  exact h1.add_const (p.out.total S.outputs (S.tree.neurons + 1) W.out)

/-- C205. In a tile pack a step is not along the derivatives of the reported loss: each weight moves by the additional part `1 - 1 / tiles` of the derivative of its
penalty. -/
theorem tiled_layers_decay_more (ho : P.Ok) (hp : P.Decaying η p) (s0 : NetS P.net) (hi : P.Inv s0) (us : List (Use ℝ)) (hus : ∀ u ∈ us, P.Fits u) (R : ℕ)
    (X Y : Mem ℝ) (hu : P.Fits (.train R X Y)) (h0 : 0 < R) (hr : P.shape.Regular P.dz R (matOf R X) (matOf R Y) (P.weights (P.net.run s0 us)))
    (hz : P.shape.Penalisable p (P.weights (P.net.run s0 us))) {i : ℕ} {m : MatInfo} (hm : (mats P.shape.tree P.shape.inputs)[i]? = some m)
    {c j : ℕ} (hc : c < m.rows) (hj : j < m.cols) :
    let W := P.weights (P.net.run s0 us)
    (P.weights (P.net.step (P.net.run s0 us) (.train R X Y)).1).body i c j = W.body i c j - η.body m.id *
      (deriv (fun t => P.shape.reported p R (matOf R X) (matOf R Y) (W.bumpBody i c j t)) 0 / m.tiles +
        (1 - 1 / m.tiles) * deriv (fun t => (p.body m.id).cost (decide (j + 1 = m.cols)) (W.body i c j + t)) 0) := by
  intro W
  obtain ⟨g, h, hsl⟩ := ho.shape.slopes h0 hr
  obtain ⟨k1, _⟩ := hsl.single ho.shape
  have hd := (k1 i m hm c hc j hj).differentiableAt
  rw [((penalised_step_is_descent ho hp s0 hi us hus R X Y hu hr hz).1 i m hm c hc j hj).2, (penalised_body hz hm hc hj hd).deriv, (reported_body hz hm hc hj hd).deriv,
    (Penalty.cost_slope (hz.1 i m hm c hc j hj)).deriv]
  have ht := tiles_ne ho.packs hm
  field_simp
  ring

end Nntl.Sgd
