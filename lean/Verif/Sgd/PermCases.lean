import Verif.Sgd.PermProps
import Verif.Sgd.OrderCases
import Verif.Sgd.SymCases

/-! C209: the hypotheses are met. -/
namespace Nntl.Sgd

open Nntl.Layers Nntl.Pass Nntl.Backprop Nntl.Grad Nntl.Matrix Nntl.Kernel
open Finset

/-- States of the network of three layers with the weights of the example in other places. -/
theorem deepWith_moved (ty : ℕ → GradType) (tyo : GradType) (π σ : Equiv.Perm ℕ) : ∃ s : NetS (deepWith ty tyo).net, (deepWith ty tyo).Inv s ∧
    (deepWith ty tyo).Stores (fun id m k => stands m k (ty id) (9 / 10) (99 / 100) 0) (stands 2 (deepTree.neurons + 1) tyo (9 / 10) (99 / 100) 0)
      ((deepWith ty tyo).cells s) (Relabel.stock ⟨fun _ => 1, fun k => if k = 0 then π else 1, σ, 1⟩ twinStock) := by
  obtain ⟨s, hi, h1, h2⟩ := state_with (deepWith_ok ty tyo) (fun _ _ _ => demoGw) (fun id _ _ => if id = 4 then moved 1 π twinW else twinW) demoGw (moved σ 1 twinW)
  refine ⟨s, hi, fun i m hm => ⟨demoGw, if m.id = 4 then moved 1 π twinW else twinW, (h1 i m hm).trans ?_, fun c _ j _ => ?_,
    new_works_stand _ _ _ _ _ _ _ rfl fun _ => rfl⟩, demoGw, moved σ 1 twinW, h2, fun _ _ _ _ => rfl, new_works_stand _ _ _ _ _ _ _ rfl fun _ => rfl⟩
  · show (match (mats (deepWith ty tyo).tree (deepWith ty tyo).inputs)[i]? with
        | some m => (⟨(deepWith ty tyo).gw m.id m.rows m.cols, demoGw, if m.id = 4 then moved 1 π twinW else twinW⟩ : Cell)
        | none => ⟨bare, (), fun _ _ => 0⟩) = _
    rw [hm]
  · have e : mats (deepWith ty tyo).tree (deepWith ty tyo).inputs = [⟨4, 7, 6, 1⟩, ⟨5, 4, 8, 1⟩, ⟨6, 3, 5, 1⟩] := rfl
    rw [e] at hm
    match i, hm with
    | 0, hm => obtain rfl := Option.some.inj hm; rfl
    | 1, hm => obtain rfl := Option.some.inj hm; rfl
    | 2, hm => obtain rfl := Option.some.inj hm; rfl
    | _ + 3, hm => simp at hm

/-- The two samples with the second and the third feature in each other's place, and with the two expected answers in each other's place. -/
noncomputable def twoXf : Mem ℝ := fun p => twoX (p % 2 + 2 * Equiv.swap 1 2 (p / 2))
noncomputable def twoYf : Mem ℝ := fun p => twoY (p % 2 + 2 * Equiv.swap 0 1 (p / 2))

theorem two_parts (r j : ℕ) (hr : r < 2) : (r + 2 * j) % 2 = r ∧ (r + 2 * j) / 2 = j := by omega

theorem swap_above {a b n : ℕ} (ha : a < n) (hb : b < n) : ∀ c, n ≤ c → Equiv.swap a b c = c := fun _ h => Equiv.swap_apply_of_ne_of_ne (by omega) (by omega)

theorem two_ones_f : Ones 2 5 twoXf := fun r hr => by
  obtain ⟨e1, e2⟩ := two_parts r 5 hr
  show twoX ((r + 2 * 5) % 2 + 2 * Equiv.swap 1 2 ((r + 2 * 5) / 2)) = 1
  rw [e1, e2, swap_above (n := 3) (by decide) (by decide) 5 (by decide)]
  exact two_ones.1 r hr

theorem two_features (S : Shape) : OtherFeatures S (Equiv.swap 1 2) (2, matOf 2 twoX, matOf 2 twoY) (2, matOf 2 twoXf, matOf 2 twoY) := by
  refine ⟨rfl, fun r hr => ⟨fun j _ => ?_, fun _ _ => rfl⟩⟩
  obtain ⟨e1, e2⟩ := two_parts r j hr
  show twoX ((r + 2 * j) % 2 + 2 * Equiv.swap 1 2 ((r + 2 * j) / 2)) = twoX (r + 2 * Equiv.swap 1 2 j)
  rw [e1, e2]

theorem two_outputs (S : Shape) : OtherOutputs S (Equiv.swap 0 1) (2, matOf 2 twoX, matOf 2 twoY) (2, matOf 2 twoX, matOf 2 twoYf) := by
  refine ⟨rfl, fun r hr => ⟨fun _ _ => rfl, fun c _ => ?_⟩⟩
  obtain ⟨e1, e2⟩ := two_parts r c hr
  show twoY ((r + 2 * c) % 2 + 2 * Equiv.swap 0 1 ((r + 2 * c) / 2)) = twoY (r + 2 * Equiv.swap 0 1 c)
  rw [e1, e2]

/-- The samples are not the same. -/
theorem two_differ : twoXf 2 ≠ twoX 2 ∧ twoYf 0 ≠ twoY 0 := by
  have h1 : Equiv.swap 1 2 (2 / 2) = 2 := by decide
  have h2 : Equiv.swap 0 1 (0 / 2) = 1 := by decide
  constructor
  · show twoX (2 % 2 + 2 * Equiv.swap 1 2 (2 / 2)) ≠ twoX 2
    rw [h1]
    norm_num [twoX]
  · show twoY (0 % 2 + 2 * Equiv.swap 0 1 (0 / 2)) ≠ twoY 0
    rw [h2]
    norm_num [twoY]

theorem deep_fair : Fair deepPlan.shape := fair_elementwise (f := Act.Out.sigmXent.act.f) (g := Act.Out.sigmXent.ideal) rfl rfl

theorem deep_lowest : LowestFull deepPlan.tree := ⟨4, fcLeaf 7, _, rfl⟩

/-- C209 for the example: three layers with any methods, two training steps, the second and the third feature in each other's place. -/
example (ty : ℕ → GradType) (tyo : GradType) : ∃ s t : NetS (deepWith ty tyo).net, (deepWith ty tyo).Inv s ∧ (deepWith ty tyo).Inv t ∧
    ∀ x, ∀ c < 2,
      deepPlan.shape.answer ((deepWith ty tyo).weights ((deepWith ty tyo).net.run t [.train 2 twoXf twoY, .train 2 twoXf twoY])) (fun j => x (Equiv.swap 1 2 j)) c =
      deepPlan.shape.answer ((deepWith ty tyo).weights ((deepWith ty tyo).net.run s [.train 2 twoX twoY, .eval 2 twoX, .train 2 twoX twoY])) x c := by
  obtain ⟨s, hi, hh⟩ := deepWith_state ty tyo
  obtain ⟨t, hit, hht⟩ := deepWith_moved ty tyo (Equiv.swap 1 2) 1
  refine ⟨s, t, hi, hit, (order_of_features_is_irrelevant (P := deepPlan) (fun id => deepOpt (ty id)) (deepOpt tyo) ty (fun _ => 9 / 10) (fun _ => 99 / 100) (fun _ => 0) tyo
    (9 / 10) (99 / 100) 0 (deepWith_ok ty tyo) (fun id => deepOpt_stays _) (deepOpt_stays _) (fun id => deepOpt_undropped _) (deepOpt_undropped _) (demoPlan_looks 1) deep_lowest
    (Equiv.swap 1 2) (swap_above (n := 5) (by decide) (by decide)) [.train 2 twoX twoY, .eval 2 twoX, .train 2 twoX twoY] [.train 2 twoXf twoY, .train 2 twoXf twoY]
    (.cons (two_features _) (.cons (two_features _) .nil)) s t hi hit ?_ ?_
    (fun _ _ _ _ _ _ => deepPlan_regular _ _ _ _) (fun _ _ _ _ _ _ => deepPlan_regular _ _ _ _) twinStock hh hht).2⟩
  · intro u hu
    simp only [List.mem_cons, List.not_mem_nil, or_false] at hu
    rcases hu with rfl | rfl | rfl
    exacts [⟨by decide, show 2 ≤ 4 by decide, two_ones.1⟩, ⟨by decide, show 2 ≤ 8 by decide, two_ones.1⟩, ⟨by decide, show 2 ≤ 4 by decide, two_ones.1⟩]
  · intro u hu
    simp only [List.mem_cons, List.not_mem_nil, or_false, or_self] at hu
    subst hu
    exact ⟨by decide, show 2 ≤ 4 by decide, two_ones_f⟩

/-- C209 for the example: the two outputs in each other's place. -/
example (ty : ℕ → GradType) (tyo : GradType) : ∃ s t : NetS (deepWith ty tyo).net, (deepWith ty tyo).Inv s ∧ (deepWith ty tyo).Inv t ∧
    ∀ x, ∀ c < 2,
      deepPlan.shape.answer ((deepWith ty tyo).weights ((deepWith ty tyo).net.run t [.train 2 twoX twoYf, .train 2 twoX twoYf])) x c =
      deepPlan.shape.answer ((deepWith ty tyo).weights ((deepWith ty tyo).net.run s [.train 2 twoX twoY, .eval 2 twoX, .train 2 twoX twoY])) x (Equiv.swap 0 1 c) := by
  obtain ⟨s, hi, hh⟩ := deepWith_state ty tyo
  obtain ⟨t, hit, hht⟩ := deepWith_moved ty tyo 1 (Equiv.swap 0 1)
  have e : (⟨fun _ => 1, fun k => if k = 0 then 1 else 1, Equiv.swap 0 1, 1⟩ : Relabel) = Relabel.outputs (Equiv.swap 0 1) := by
    unfold Relabel.outputs
    congr 1
    funext k
    exact ite_self _
  rw [e] at hht
  refine ⟨s, t, hi, hit, (order_of_outputs_is_irrelevant (P := deepPlan) (fun id => deepOpt (ty id)) (deepOpt tyo) ty (fun _ => 9 / 10) (fun _ => 99 / 100) (fun _ => 0) tyo
    (9 / 10) (99 / 100) 0 (deepWith_ok ty tyo) (fun id => deepOpt_stays _) (deepOpt_stays _) (fun id => deepOpt_undropped _) (deepOpt_undropped _) (demoPlan_looks 1) deep_fair
    (Equiv.swap 0 1) (swap_above (n := 2) (by decide) (by decide)) [.train 2 twoX twoY, .eval 2 twoX, .train 2 twoX twoY] [.train 2 twoX twoYf, .train 2 twoX twoYf]
    (.cons (two_outputs _) (.cons (two_outputs _) .nil)) s t hi hit ?_ ?_
    (fun _ _ _ _ _ _ => deepPlan_regular _ _ _ _) (fun _ _ _ _ _ _ => deepPlan_regular _ _ _ _) twinStock hh hht).2⟩
  · intro u hu
    simp only [List.mem_cons, List.not_mem_nil, or_false] at hu
    rcases hu with rfl | rfl | rfl
    exacts [⟨by decide, show 2 ≤ 4 by decide, two_ones.1⟩, ⟨by decide, show 2 ≤ 8 by decide, two_ones.1⟩, ⟨by decide, show 2 ≤ 4 by decide, two_ones.1⟩]
  · intro u hu
    simp only [List.mem_cons, List.not_mem_nil, or_false, or_self] at hu
    subst hu
    exact ⟨by decide, show 2 ≤ 4 by decide, two_ones.1⟩

end Nntl.Sgd
