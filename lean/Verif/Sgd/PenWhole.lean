import Verif.Sgd.PenProps
import Verif.Sgd.WholeAny

/-! C205: whole calls of `train()` with penalties of weights. -/
namespace Nntl.Sgd

open Nntl.Layers Nntl.Pass Nntl.Matrix Nntl.Kernel
open Finset

/-! ### Specification -/

/-- Training on the samples goes well: wherever gradient descent on penalised losses of batches of training samples leads from `W0`, derivatives exist for all samples, and
no weight with an L1 penalty is 0. -/
def PenGoesWell (P : Plan) (η : Rates) (p : Penalties) (d : TrainData.Data ℝ ℝ) (W0 : Weights) : Prop :=
  ∀ bs W, (∀ b ∈ bs, Drawn d b) → P.shape.PenPath η p bs W0 W →
    (∀ k < d.count .train, P.shape.RegularAt P.dz (feature d k) (label d k) W) ∧ P.shape.Penalisable p W

/-! ### Paths -/

section
variable {S : Shape} {act : ℕ → Act.Act} {η : Rates} {p : Penalties}

theorem Shape.Ok.penStep_like (h : S.Ok act) (hl : LossLooks S) {b b' : ℕ × Mat ℝ × Mat ℝ} (hb : Like S b b') {W W' : Weights}
    (hd : S.PenStep η p b.1 b.2.1 b.2.2 W W') : S.PenStep η p b'.1 b'.2.1 b'.2.2 W W' := by
  unfold Shape.PenStep Shape.penalised at hd ⊢
  simp only [h.meanLoss_like hl hb] at hd
  exact hd

theorem Shape.Ok.penPath_append (h : S.Ok act) : ∀ (as bs : List (ℕ × Mat ℝ × Mat ℝ)) {U V W : Weights}, S.PenPath η p as U V → S.PenPath η p bs V W →
    S.PenPath η p (as ++ bs) U W
  | [], bs, _, _, _, h1, h2 => h.penPath_congr bs h1.symm h2
  | _ :: as, bs, _, _, _, ⟨W1, h1, h2⟩, h3 => ⟨W1, h1, penPath_append h as bs h2 h3⟩

theorem Shape.PenPath.same : ∀ (bs : List (ℕ × Mat ℝ × Mat ℝ)) {U V W : Weights}, S.PenPath η p bs U V → S.Same V W → S.PenPath η p bs U W
  | [], _, _, _, h1, h2 => h1.trans h2
  | _ :: bs, _, _, _, ⟨W1, h1, h2⟩, h3 => ⟨W1, h1, same bs h2 h3⟩

end

variable {P : Plan} {η : Rates} {p : Penalties} {vmax : ℕ} {d : TrainData.Data ℝ ℝ} {L : Type}

theorem uses_penPath (ho : P.Ok) (hp : P.Decaying η p) (hl : LossLooks P.shape) {s0 : NetS P.net} (hi : P.Inv s0) (hg : PenGoesWell P η p d (P.weights s0))
    (us : List (Use ℝ)) : (∀ u ∈ us, P.Fits u) → ∀ bs, List.Forall₂ (Like P.shape) (batches us) bs → (∀ b ∈ bs, Drawn d b) →
    P.shape.PenPath η p bs (P.weights s0) (P.weights (P.net.run s0 us)) := by
  induction us using List.reverseRecOn with
  | nil =>
    intro _ bs hf _
    cases hf
    exact Shape.Same.refl _ _
  | append_singleton us u ih =>
    intro hus bs hf hd
    have hus1 : ∀ v ∈ us, P.Fits v := fun v hv => hus v (List.mem_append_left _ hv)
    have hu := hus u (List.mem_append_right _ List.mem_cons_self)
    have er : P.net.run s0 (us ++ [u]) = (P.net.step (P.net.run s0 us) u).1 := by unfold Net.run; rw [List.foldl_append]; rfl
    rw [er]
    rw [batches_append] at hf
    cases u with
    | eval R X =>
      rw [show batches [Use.eval R X] = [] from rfl, List.append_nil] at hf
      have h1 := SameCells.weights (evaluation_keeps_cells ho _ (run_inv ho.trains ho.outLawful ho.net_ok ho.sizes us s0 hi fun u hu => (hus1 u hu).ok ho) R X hu)
      exact (ih hus1 bs hf hd).same _ ((cells_weights ho _).symm.trans (h1.symm.trans (cells_weights ho _)))
    | train R X Y =>
      rw [show batches [Use.train R X Y] = [(R, matOf R X, matOf R Y)] from rfl] at hf
      obtain ⟨as, cs, h1, h2, rfl⟩ := forall₂_split hf
      have h2 : List.Forall₂ (Like P.shape) [(R, matOf R X, matOf R Y)] cs := h2
      cases h2 with
      | cons hb h3 =>
        cases h3
        rename_i b
        have ih := ih hus1 as h1 fun c hc => hd c (List.mem_append_left _ hc)
        have hb' := hd b (List.mem_append_right _ List.mem_cons_self)
        obtain ⟨g1, g2⟩ := hg as _ (fun c hc => hd c (List.mem_append_left _ hc)) ih
        refine ho.shape.penPath_append _ _ ih ⟨_, ho.shape.penStep_like hl hb
          (penalised_step_is_descent ho hp s0 hi us hus1 R X Y hu (fun r hr => ?_) g2), Shape.Same.refl _ _⟩
        obtain ⟨k, hk, e1, e2⟩ := hb' r (hb.1 ▸ hr)
        obtain ⟨q1, q2⟩ := hb.2 r hr
        exact ho.shape.regular_like hl (fun j hj => (congrFun e1 j).symm.trans (q1 j hj).symm) (fun j hj => (congrFun e2 j).symm.trans (q2 j hj).symm) (g1 k hk)

/-! ### Property theorems -/

/-- C205. A training that starts, with penalties of weights: there is an order of the training samples for every epoch that was begun, such that the weights at the end are
those of gradient descent on the penalised losses of the batches of these epochs, one after the other; a training that ends with success, without callbacks that stop
it, has as many epochs as were asked for. -/
theorem whole_penalised_training (ho : P.Ok) (hp : P.Decaying η p) (hl : LossLooks P.shape) (hs : Suits d P) {o : Train.Opts L} {v : Train.Env L} (hv : Train.Starts v)
    {cd cd' : Train.CD} {tr : List Train.Ev} {err : Train.Err} (ht : Train.train o v cd = some (cd', tr, err)) (hb : cd.trainBs ≤ P.bs.maxTrainBS)
    {w w' : World P} (hc : w.cur = cd.cur) (hr : TrainData.Reach vmax d w.td) (hi : P.Inv w.net) (hg : PenGoesWell P η p d (P.weights w.net))
    (hP : Plays P vmax tr w w') :
    ∃ ords : List (ℕ → ℕ), ords.length = (Train.begunOf tr).length ∧ (err = .success → (∀ e, v.cb e = true) → ords.length = o.flags.length) ∧
      (∀ ord ∈ ords, Shuffled (d.count .train) cd.trainBs ord) ∧
      P.shape.PenPath η p (ords.flatMap (epochBatches d cd.trainBs)) (P.weights w.net) (P.weights w'.net) := by
  obtain ⟨ords, h1, h2, h3, us, k1, k2, k3⟩ := whole_training_past hs hv ht hb hc hr hP
  refine ⟨ords, h1, fun he hcb => ?_, h2, ?_⟩
  · subst he
    obtain ⟨k, _, hk, _, hbg, _⟩ := Train.train_runs_epochs_partial hv ht
    rw [h1, hbg, List.length_range]
    rcases hk with hk | ⟨_, hk⟩
    · exact hk
    · rw [hcb] at hk; exact absurd hk (by decide)
  · rw [k3]
    exact uses_penPath ho hp hl hi hg us k1 _ k2 h3

end Nntl.Sgd
