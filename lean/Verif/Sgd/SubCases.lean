import Verif.Sgd.SubProps
import Verif.Sgd.PenCases

/-! C205, C206: the hypotheses are met. -/
namespace Nntl.Sgd

open Nntl.Layers Nntl.Pass Nntl.Backprop Nntl.Grad Nntl.Matrix Nntl.Kernel
open Finset

theorem demoPenalties_real {a : ℝ} (ha : 0 ≤ a) : (demoPenalties a).Real := ⟨fun _ => ⟨ha, show (0 : ℝ) ≤ 1 / 4 by norm_num⟩, ha, show (0 : ℝ) ≤ 1 / 4 by norm_num⟩

/-- At 0 all numbers from `-1/2` to `1/2` are subgradients; the least one is 0. -/
example (ξ : ℝ) : ((⟨1 / 2, 0, true, true⟩ : Penalty).Sub false 0 ξ ↔ |ξ| ≤ 1 / 2) ∧ ((⟨1 / 2, 0, true, true⟩ : Penalty).Least false 0 ξ ↔ ξ = 0) := by
  have h : ∀ ξ, (⟨1 / 2, 0, true, true⟩ : Penalty).Sub false 0 ξ ↔ |ξ| ≤ 1 / 2 := fun ξ => by
    unfold Penalty.Sub Penalty.cost
    simp only [Bool.and_false, Bool.false_eq_true, if_false, abs_zero, mul_zero, zero_mul, zero_div, add_zero, sub_zero, zero_add]
    refine ⟨fun h => abs_le.2 ⟨?_, ?_⟩, fun h v => ?_⟩
    · have := h (-1)
      rw [abs_neg, abs_one] at this
      linarith
    · have := h 1
      rw [abs_one] at this
      linarith
    · calc ξ * v ≤ |ξ * v| := le_abs_self _
        _ = |ξ| * |v| := abs_mul _ _
        _ ≤ 1 / 2 * |v| := mul_le_mul_of_nonneg_right h (abs_nonneg _)
  refine ⟨h ξ, fun hl => ?_, fun e => ⟨(h ξ).2 (by rw [e, abs_zero]; norm_num), fun ξ' _ => by rw [e, abs_zero]; exact abs_nonneg _⟩⟩
  have := hl.2 0 ((h 0).2 (by rw [abs_zero]; norm_num))
  rw [abs_zero] at this
  exact abs_nonpos_iff.1 this

/-- C206 for the example: L1 and L2 penalties, any history of evaluations and training steps from any state. -/
example (lr a : ℝ) (ha : 0 ≤ a) (us : List (Use ℝ)) (hus : ∀ u ∈ us, (demoPen lr a).Fits u) (s0 : NetS (demoPen lr a).net) (hi : (demoPen lr a).Inv s0) :
    (demoPen lr a).shape.SubPath ⟨fun _ => lr, lr⟩ (demoPenalties a) (batches us) ((demoPen lr a).weights s0) ((demoPen lr a).weights ((demoPen lr a).net.run s0 us)) :=
  penalised_training_is_subgradient_descent (demoPen_ok lr a) (demoPen_decaying lr a) (demoPenalties_real ha) us s0 hi hus fun _ _ _ _ _ _ => demoPlan_regular 1 _ _ _ _

/-- C205, C206 for the example: two epochs of two batches of three out of seven samples. There is such a training, and it descends. -/
example (lr a : ℝ) (ha : 0 ≤ a) : ∃ (tr : List Train.Ev) (cd' : Train.CD) (w w' : World (demoPen lr a)) (ords : List (ℕ → ℕ)),
    Train.train (Train.demoOpts [true, true] 0) (Train.demoEnv (fun _ => some 1) fun _ => true) ⟨7, 3, 0, false⟩ = some (cd', tr, .success) ∧
    Plays (demoPen lr a) 1000 tr w w' ∧ ords.length = 2 ∧ (∀ ord ∈ ords, Shuffled 7 3 ord) ∧
    (demoPen lr a).shape.SubPath ⟨fun _ => lr, lr⟩ (demoPenalties a) (ords.flatMap (epochBatches (demoReal 7) 3)) ((demoPen lr a).weights w.net)
      ((demoPen lr a).weights w'.net) ∧
    (a = 0 → ∃ ords' : List (ℕ → ℕ), (demoPen lr a).shape.PenPath ⟨fun _ => lr, lr⟩ (demoPenalties a) (ords'.flatMap (epochBatches (demoReal 7) 3))
      ((demoPen lr a).weights w.net) ((demoPen lr a).weights w'.net)) := by
  obtain ⟨t, ht1, ht2⟩ := demoReal_prepared
  obtain ⟨s, hs, _⟩ := demoPen_state lr a
  obtain ⟨q1, q2, q3, q4, q5, q6⟩ := demoReal_suits 1 7 (by decide)
  have hrun : ∃ r, Train.train (Train.demoOpts [true, true] 0) (Train.demoEnv (fun _ => some 1) fun _ => true) ⟨7, 3, 0, false⟩ = some r ∧ r.2.2 = .success :=
    ⟨_, rfl, by decide⟩
  obtain ⟨⟨cd', tr, err⟩, hrun, herr⟩ := hrun
  obtain rfl : err = .success := herr
  let w : World (demoPen lr a) := ⟨t, s, 0, 0, fun _ => 0⟩
  obtain ⟨w', hw'⟩ := whole_training_exists (P := demoPen lr a) q1 (Train.demo_starts _ _) hrun (by decide) (fun _ _ _ => rfl) (w := w) rfl ht1 ht2
  obtain ⟨ords, h1, h2, h3, h4⟩ := whole_penalised_training_is_subgradient_descent (P := demoPen lr a) (demoPen_ok lr a) (demoPen_decaying lr a) (demoPenalties_real ha)
    (demoPlan_looks 1) ⟨q1, q2, q3, q4, q5, q6⟩ (Train.demo_starts _ _) hrun (show 3 ≤ 4 by decide) (w := w) rfl ht1 hs
    (fun bs W _ _ k _ => demoPlan_regular 1 1 (fun _ => feature _ k) (fun _ => label _ k) W 0 (by decide)) hw'
  refine ⟨tr, cd', w, w', ords, hrun, hw', h2 rfl fun _ => rfl, h3, h4, fun h0 => ?_⟩
  obtain ⟨ords', _, _, _, k4⟩ := whole_penalised_training (P := demoPen lr a) (demoPen_ok lr a) (demoPen_decaying lr a)
    (demoPlan_looks 1) ⟨q1, q2, q3, q4, q5, q6⟩ (Train.demo_starts _ _) hrun (show 3 ≤ 4 by decide) (w := w) rfl ht1 hs
    (fun bs W _ _ => ⟨fun k _ => demoPlan_regular 1 1 (fun _ => feature _ k) (fun _ => label _ k) W 0 (by decide), fun _ _ _ _ _ _ _ => .inl h0, fun _ _ _ _ => .inl h0⟩) hw'
  exact ⟨ords', k4⟩

end Nntl.Sgd
