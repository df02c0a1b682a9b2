import Verif.Sgd.ScaleMore
import Verif.Sgd.ScaleWholeCases

/-! C212: the hypotheses are met. -/
namespace Nntl.Sgd

open Nntl.Layers Nntl.Pass Nntl.Backprop Nntl.Grad Nntl.Matrix Nntl.Kernel
open Finset

/-- RProp, plain gradient descent, and the Adam family. -/
def NotRms (ty : GradType) : Prop := ty ≠ .rmsHinton ∧ ty ≠ .rmsGraves ∧ ty ≠ .modprop

/-- The settings of `restOpt` with the numbers that balance a factor `q` of the loss. -/
noncomputable def evenOpt (q : ℝ) (ty : GradType) : Opt :=
  { restOpt ty with app := fun t => match ty with
    | .rprop => (restOpt ty).app t
    | .classicalConstant => { (restOpt ty).app t with cfg := { ((restOpt ty).app t).cfg with lr := ((restOpt ty).app t).cfg.lr / q } }
    | _ => { (restOpt ty).app t with cfg := { ((restOpt ty).app t).cfg with eps := q * ((restOpt ty).app t).cfg.eps } } }

theorem evenOpt_stays (q : ℝ) (ty : GradType) : Stays (evenOpt q ty) ty (9 / 10) (99 / 100) := by
  cases ty <;> exact ⟨fun _ => rfl, fun _ => rfl, fun _ => rfl⟩

theorem evenOpt_evened (q : ℝ) (ty : GradType) (h : NotRms ty) : Evened q ty (restOpt ty) (evenOpt q ty) := by
  obtain ⟨h1, h2, h3⟩ := h
  cases ty with
  | classicalConstant => exact .inl ⟨fun _ => ⟨rfl, rfl⟩, rfl, .inr ⟨rfl, rfl⟩⟩
  | rprop => exact .inl ⟨fun _ => ⟨rfl, rfl⟩, rfl, .inl ⟨rfl, rfl⟩⟩
  | rmsHinton => exact absurd rfl h1
  | rmsGraves => exact absurd rfl h2
  | modprop => exact absurd rfl h3
  | adam => exact .inr ⟨fun _ => ⟨rfl, rfl⟩, rfl, .inl rfl, rfl⟩
  | adamax => exact .inr ⟨fun _ => ⟨rfl, rfl⟩, rfl, .inr (.inl rfl), rfl⟩
  | nadam => exact .inr ⟨fun _ => ⟨rfl, rfl⟩, rfl, .inr (.inr (.inl rfl)), rfl⟩
  | radam => exact .inr ⟨fun _ => ⟨rfl, rfl⟩, rfl, .inr (.inr (.inr rfl)), rfl⟩

theorem new_times (q : ℝ) (ty : GradType) : LayerMemo.times q ty ⟨0, 0, fun _ _ => ⟨0, 0, 0, 0, 1, 0⟩⟩ = ⟨0, 0, fun _ _ => ⟨0, 0, 0, 0, 1, 0⟩⟩ := by
  cases ty <;> simp [LayerMemo.times, Memo.times]

/-- Memories of new optimisers stay as they are. -/
theorem twinStock_times (S : Shape) (q : ℝ) (ty : ℕ → GradType) (tyo : GradType) : twinStock.times S q ty tyo = twinStock := by
  unfold Stock.times twinStock
  simp only [new_times]
  congr 1
  funext i
  split <;> rfl

/-- C212 for the example: in every one of three layers and in the output layer RProp, plain gradient descent or a method of the Adam family, any uses. -/
theorem even_same {q : ℝ} (hq : 0 < q) (ty : ℕ → GradType) (tyo : GradType) (hty : ∀ id, NotRms (ty id)) (htyo : NotRms tyo) (us : List (Use ℝ))
    (hus : ∀ u ∈ us, (deepPlan.using (fun id => restOpt (ty id)) (restOpt tyo)).Fits u) :
    ∃ (s : NetS (deepPlan.using (fun id => restOpt (ty id)) (restOpt tyo)).net)
      (t : NetS ((deepPlan.times q).using (fun id => evenOpt q (ty id)) (evenOpt q tyo)).net),
      (deepPlan.using (fun id => restOpt (ty id)) (restOpt tyo)).Inv s ∧ ((deepPlan.times q).using (fun id => evenOpt q (ty id)) (evenOpt q tyo)).Inv t ∧
      deepPlan.shape.Same
        (((deepPlan.times q).using (fun id => evenOpt q (ty id)) (evenOpt q tyo)).weights (((deepPlan.times q).using (fun id => evenOpt q (ty id)) (evenOpt q tyo)).net.run t us))
        ((deepPlan.using (fun id => restOpt (ty id)) (restOpt tyo)).weights ((deepPlan.using (fun id => restOpt (ty id)) (restOpt tyo)).net.run s us)) := by
  obtain ⟨s, hi, hh⟩ := new_state (unscaled_ok (fun id => restOpt (ty id)) (restOpt tyo)) ty tyo
  obtain ⟨t, hit, hht⟩ := new_state (scaled_ok q (fun id => evenOpt q (ty id)) (evenOpt q tyo)) ty tyo
  exact ⟨s, t, hi, hit, scale_of_the_loss_for_adam hq (fun id => restOpt (ty id)) (fun id => evenOpt q (ty id)) (restOpt tyo) (evenOpt q tyo)
    ty (fun _ => 9 / 10) (fun _ => 99 / 100) (fun _ => 0) tyo (9 / 10) (99 / 100) 0
    (fun id => evenOpt_evened q (ty id) (hty id)) (evenOpt_evened q tyo htyo) (unscaled_ok _ _) (scaled_ok q _ _) (fun id => restOpt_stays _) (restOpt_stays _)
    (fun id => evenOpt_stays q (ty id)) (evenOpt_stays q tyo) us s t hi hit hus (fun _ _ _ _ _ _ => deepPlan_regular _ _ _ _) (fun _ _ _ _ _ _ => deepPlan_regular _ _ _ _)
    twinStock hh (by rw [twinStock_times]; exact hht)⟩

/-- C212 for the example: whole calls of `train()`. -/
theorem even_same_in_training {q : ℝ} (hq : 0 < q) (ty : ℕ → GradType) (tyo : GradType) (hty : ∀ id, NotRms (ty id)) (htyo : NotRms tyo) (tr : List Train.Ev) (cd cd' : Train.CD)
    (opts : Train.Opts (Option ℤ)) (en : Train.Env (Option ℤ)) (hv : Train.Starts en) (hrun : Train.train opts en cd = some (cd', tr, .success)) (hbs : cd.trainBs ≤ 4)
    (w w' : World (deepPlan.using (fun id => restOpt (ty id)) (restOpt tyo))) (hcu : w.cur = cd.cur)
    (ht : TrainData.Reach 1000 demoZero w.td) (hi : (deepPlan.using (fun id => restOpt (ty id)) (restOpt tyo)).Inv w.net)
    (hh : (deepPlan.using (fun id => restOpt (ty id)) (restOpt tyo)).Stores (fun id m k => stands m k (ty id) (9 / 10) (99 / 100) 0)
      (stands 2 (deepTree.neurons + 1) tyo (9 / 10) (99 / 100) 0) ((deepPlan.using (fun id => restOpt (ty id)) (restOpt tyo)).cells w.net) twinStock)
    (hP : Plays (deepPlan.using (fun id => restOpt (ty id)) (restOpt tyo)) 1000 tr w w') :
    ∃ ords : List (ℕ → ℕ), ords.length = (Train.begunOf tr).length ∧ (∀ ord ∈ ords, Shuffled (demoZero.count .train) cd.trainBs ord) ∧
      ∃ h', (deepPlan.times q).shape.MatPath deepPlan.upd deepPlan.uo (fun id => ruleOf (evenOpt q (ty id)) (ty id) (9 / 10) (99 / 100) 0)
        (ruleOf (evenOpt q tyo) tyo (9 / 10) (99 / 100) 0 2 (deepTree.neurons + 1))
        (ords.flatMap (epochBatches demoZero cd.trainBs)) twinStock h' ∧ deepPlan.shape.Same h'.W ((deepPlan.using (fun id => restOpt (ty id)) (restOpt tyo)).weights w'.net) := by
  obtain ⟨p1, p2, p3, p4, p5, p6⟩ := demoZero_suits
  have := scale_of_the_loss_for_adam_in_whole_training (P := deepPlan) hq (fun id => restOpt (ty id)) (fun id => evenOpt q (ty id)) (restOpt tyo) (evenOpt q tyo)
    ty (fun _ => 9 / 10) (fun _ => 99 / 100) (fun _ => 0) tyo (9 / 10) (99 / 100) 0
    (fun id => evenOpt_evened q (ty id) (hty id)) (evenOpt_evened q tyo htyo) (unscaled_ok _ _) (fun id => restOpt_stays _) (restOpt_stays _)
    (demoPlan_looks 1) ⟨p1, p2, p3, p4, p5, p6⟩ hv hrun hbs hcu ht hi twinStock hh
    (fun bs h L _ _ _ k _ => deepPlan_regular 1 (fun _ => feature _ k) (fun _ => label _ k) L 0 (by decide)) hP
  rw [twinStock_times] at this
  exact this

/-- Adam, AdaMax and plain gradient descent may be together in a network. -/
example : ∀ id : ℕ, NotRms (if id = 4 then .adam else if id = 5 then .adamax else .classicalConstant) := by
  intro id
  unfold NotRms
  split
  · decide
  · split <;> decide

/-- C212. RMSProp is left out for its first step, which is a plain one: with any small constants it grows with the loss, and later steps do not. -/
theorem first_step_of_rms_grows (η β1 β2 ε ε' γ : ℝ) (hη : η ≠ 0) : (method .rmsHinton ⟨η, β1, β2, ε', γ⟩ 0 0 0 (2 * 1)).2 ≠ (method .rmsHinton ⟨η, β1, β2, ε, γ⟩ 0 0 0 1).2 := by
  simp only [method, if_true]
  intro h
  apply hη
  linarith

end Nntl.Sgd
