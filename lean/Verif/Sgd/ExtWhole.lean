import Verif.Sgd.ExtWholeLemmas
import Verif.Sgd.ExtMatProps

/-! C200: `train()` with dropout and penalties on activations. Property theorems. -/
namespace Nntl.Sgd.Thin

open Nntl.Layers Nntl.Pass Nntl.Matrix Nntl.Kernel Nntl.Backprop Nntl.Grad
open Finset

/-! ### Specification -/

/-- Training on the samples goes well, if the first batch gets the draw number `k`: wherever the optimisers bring the network from `C0` over batches of training samples,
derivatives exist for all further batches, with the next draw, at the weights of the next forward pass. -/
def GoesWell (Q : XPlan) (d : TrainData.Data ℝ ℝ) (k : ℕ) (C0 : Cells) : Prop :=
  ∀ bs C, (∀ b ∈ bs, Drawn d b) → Q.shape.CourseOn Q.upd Q.uo (Q.shape.objectives Q.ext k bs) C0 C → ∀ b, 0 < b.1 → Drawn d b →
    Q.shape.RegularOn Q.ext Q.dz (k + bs.length) b.1 b.2.1 b.2.2 C.pre.weights

/-- The same for rules: derivatives exist wherever they are taken. -/
def GoesWellBy {σ : Type} (Q : XPlan) (d : TrainData.Data ℝ ℝ) (ρ : ℕ → ℕ → ℕ → MatRule σ) (ρo : MatRule σ) (k : ℕ) (h0 : Stock σ) : Prop :=
  ∀ bs h L, (∀ b ∈ bs, Drawn d b) → Q.shape.MatPathOn Q.upd Q.uo ρ ρo (Q.shape.objectives Q.ext k bs) h0 h → Q.shape.StartsAt ρ ρo h L → ∀ b, 0 < b.1 → Drawn d b →
    Q.shape.RegularOn Q.ext Q.dz (k + bs.length) b.1 b.2.1 b.2.2 L

/-! ### Batches that look the same -/

section
variable {S : Shape} {act : ℕ → Act.Act} {e : ℕ → Ext} {upd : ℕ → Bool} {uo : Bool}

theorem incB (h : S.Ok act) (he : ExtsOk act e) (inc : BS) : (sem (exLayers (fun _ _ _ => bare) act (fun _ => true) e) S.tree inc S.inputs).obj.inc = S.inputs :=
  (semDiff_ok (DI := exDiff (fun _ _ _ => bare) act (fun _ => true) e) S.tree inc S.inputs h.packs (allLeaves_of (exDiff_ok he.exts) _) h.noExtra).2.1

theorem rawOn_like (h : S.Ok act) (he : ExtsOk act e) (k : Option ℕ) (W : Weights) {R : ℕ} (h0 : 0 < R) {X X' : Mat ℝ} (hx : ∀ r < R, ∀ j < S.inputs, X r j = X' r j) {r : ℕ}
    (hr : r < R) : ∀ c < S.outputs, S.rawOn e k W R X r c = S.rawOn e k W R X' r c := by
  intro c hc
  refine neuron_congr (fun _ _ _ _ => rfl) (fun j hj => (h.isNetB he ⟨1, 1⟩).loc k _ _ R _ _ h0 (Sgd.Same.refl _ _) ?_ r hr j (by rw [h.sizesB he ⟨1, 1⟩]; exact hj)) hc
  rw [incB h he]
  exact hx

theorem thinLoss_like (h : S.Ok act) (he : ExtsOk act e) (hl : LossLooks S) {b b' : ℕ × Mat ℝ × Mat ℝ} (h0 : 0 < b.1) (hb : Like S b b') (k : ℕ) :
    S.thinLoss e k b.1 b.2.1 b.2.2 = S.thinLoss e k b'.1 b'.2.1 b'.2.2 := by
  obtain ⟨R, X, Y⟩ := b
  obtain ⟨R', X', Y'⟩ := b'
  obtain ⟨rfl, hb⟩ := hb
  have hx : ∀ r < R, ∀ j < S.inputs, X r j = X' r j := fun r hr => (hb r hr).1
  funext W
  unfold Shape.thinLoss
  congr 1
  · congr 1
    exact sum_congr rfl fun r hr => (h.loss _ _ _ (h.last _ _ (rawOn_like h he _ W h0 hx (mem_range.1 hr)))).trans (hl _ _ _ (hb r (mem_range.1 hr)).2)
  · congr 1
    exact (h.isNetB he ⟨1, 1⟩).penLoc _ _ _ R _ _ h0 (Sgd.Same.refl _ _) (by rw [incB h he]; exact hx)

theorem regularOn_like (h : S.Ok act) (he : ExtsOk act e) (hl : LossLooks S) {dz : ℝ → ℝ → ℝ} {b b' : ℕ × Mat ℝ × Mat ℝ} (h0 : 0 < b.1) (hb : Like S b b') {k : ℕ} {W : Weights}
    (hr : S.RegularOn e dz k b'.1 b'.2.1 b'.2.2 W) : S.RegularOn e dz k b.1 b.2.1 b.2.2 W := by
  obtain ⟨R, X, Y⟩ := b
  obtain ⟨R', X', Y'⟩ := b'
  obtain ⟨rfl, hb⟩ := hb
  have hx : ∀ r < R, ∀ j < S.inputs, X' r j = X r j := fun r hr j hj => ((hb r hr).1 j hj).symm
  refine ⟨(h.isNetB he ⟨1, 1⟩).smLoc _ _ _ R _ _ h0 (Sgd.Same.refl _ _) (by rw [incB h he]; exact hx) hr.1, fun r hr' z z' hz hd => ?_⟩
  have := h.lossGrad_congr (rawOn_like h he _ W h0 hx hr') (hr.2 r hr') z z' hz hd
  simp only [← hl _ _ _ (hb r hr').2] at this
  exact this.congr_deriv (sum_congr rfl fun c hc => by rw [(hb r hr').2 c (mem_range.1 hc)])

theorem objectives_append : ∀ (as bs : List (ℕ × Mat ℝ × Mat ℝ)) (k : ℕ), S.objectives e k (as ++ bs) = S.objectives e k as ++ S.objectives e (k + as.length) bs
  | [], _, _ => rfl
  | a :: as, bs, k => by
    show _ :: S.objectives e (k + 1) (as ++ bs) = _ :: (S.objectives e (k + 1) as ++ _)
    rw [objectives_append as bs (k + 1), List.length_cons, Nat.add_right_comm k 1, ← Nat.add_assoc]

theorem courseOn_append : ∀ (as bs : List (Weights → ℝ)) {C D E : Cells}, (∀ J ∈ bs, Respects S J) → S.CourseOn upd uo as C D → S.CourseOn upd uo bs D E →
    S.CourseOn upd uo (as ++ bs) C E
  | [], bs, _, _, _, hJ, h1, h2 => courseOn_congr bs hJ h1 h2
  | _ :: as, bs, _, _, _, hJ, ⟨C1, h1, h2⟩, h3 => ⟨C1, h1, courseOn_append as bs hJ h2 h3⟩

theorem courseOn_same : ∀ (bs : List (Weights → ℝ)) {C D E : Cells}, S.CourseOn upd uo bs C D → S.SameCells D E → S.CourseOn upd uo bs C E
  | [], _, _, _, h1, h2 => ⟨fun i m hm => (h2.1 i m hm).trans (h1.1 i m hm), h2.2.trans h1.2⟩
  | _ :: bs, _, _, _, ⟨C1, h1, h2⟩, h3 => ⟨C1, h1, courseOn_same bs h2 h3⟩

end

variable {Q : XPlan} {vmax : ℕ} {d : TrainData.Data ℝ ℝ} {L : Type}

theorem uses_course (ho : Q.Ok) (hl : LossLooks Q.shape) {s0 : NetS Q.net} (hi : Q.Inv s0) {k : ℕ} (hk : Q.Drawn k s0) (hg : GoesWell Q d k (Q.cells s0)) (us : List (Use ℝ)) :
    (∀ u ∈ us, Q.Fits u) → ∀ bs, List.Forall₂ (Like Q.shape) (batches us) bs → (∀ b ∈ bs, Drawn d b) →
    Q.shape.CourseOn Q.upd Q.uo (Q.shape.objectives Q.ext k bs) (Q.cells s0) (Q.cells (Q.net.run s0 us)) := by
  induction us using List.reverseRecOn with
  | nil =>
    intro _ bs hf _
    cases hf
    exact ⟨fun _ _ _ => rfl, rfl⟩
  | append_singleton us u ih =>
    intro hus bs hf hd
    have hus1 : ∀ v ∈ us, Q.Fits v := fun v hv => hus v (List.mem_append_left _ hv)
    have hu := hus u (List.mem_append_right _ List.mem_cons_self)
    have er : Q.net.run s0 (us ++ [u]) = (Q.net.step (Q.net.run s0 us) u).1 := by unfold Net.run; rw [List.foldl_append]; rfl
    rw [er]
    rw [batches_append] at hf
    cases u with
    | eval R X =>
      rw [show batches [Use.eval R X] = [] from rfl, List.append_nil] at hf
      exact courseOn_same _ (ih hus1 bs hf hd) (evaluation_draws_nothing ho _ (XPlan.run_inv ho s0 hi us hus1) _
        (one_draw_per_training_step ho us s0 hi hus1 k hk) R X hu).1
    | train R X Y =>
      rw [show batches [Use.train R X Y] = [(R, matOf R X, matOf R Y)] from rfl] at hf
      obtain ⟨as, cs, h1, h2, rfl⟩ := forall₂_split hf
      have h2 : List.Forall₂ (Like Q.shape) [(R, matOf R X, matOf R Y)] cs := h2
      cases h2 with
      | cons hb h3 =>
        cases h3
        rename_i b
        have ih := ih hus1 as h1 fun c hc => hd c (List.mem_append_left _ hc)
        have hb' := hd b (List.mem_append_right _ List.mem_cons_self)
        have h0 : 0 < R := hu.1
        have hlen : (batches us).length = as.length := h1.length_eq
        have hreg := hg as _ (fun c hc => hd c (List.mem_append_left _ hc)) ih b (hb.1 ▸ h0) hb'
        have hstep := (optimisers_get_derivatives_of_the_thinned_loss ho s0 hi k hk us hus1 R X Y hu
          (by rw [hlen]; exact regularOn_like ho.shape ho.exts hl h0 hb hreg)).1
        rw [hlen] at hstep
        have e := thinLoss_like ho.shape ho.exts hl h0 hb (k + as.length)
        have e : Q.shape.thinLoss Q.ext (k + as.length) R (matOf R X) (matOf R Y) = Q.shape.thinLoss Q.ext (k + as.length) b.1 b.2.1 b.2.2 := e
        rw [e] at hstep
        rw [objectives_append]
        refine courseOn_append _ _ (objectives_respect ho.shape ho.exts [b] _ fun c hc => ?_) ih ⟨_, hstep, fun _ _ _ => rfl, rfl⟩
        obtain rfl := List.mem_singleton.1 hc
        exact hb.1 ▸ h0

/-! ### Property theorems -/

/-- C200. A training that starts, of a network with dropout and penalties on activations: there is an order of the training samples for every epoch that was begun, such
that the weights at the end are those that the optimisers reach from the first state when each is given, batch after batch, epoch after epoch, the partial derivatives of
the penalised mean loss of the network thinned with the random numbers drawn for this batch. Every batch has its own draw, in the order of the batches; reports and
callbacks between them draw nothing. -/
theorem whole_training_on_thinned_losses (ho : Q.Ok) (hl : LossLooks Q.shape) (hs : Suits d Q.toPlan) {o : Train.Opts L} {v : Train.Env L} (hv : Train.Starts v)
    {cd cd' : Train.CD} {tr : List Train.Ev} {err : Train.Err} (ht : Train.train o v cd = some (cd', tr, err)) (hb : cd.trainBs ≤ Q.bs.maxTrainBS)
    {w w' : World Q} (hc : w.cur = cd.cur) (hr : TrainData.Reach vmax d w.td) (hi : Q.Inv w.net) {k : ℕ} (hk : Q.Drawn k w.net) (hg : GoesWell Q d k (Q.cells w.net))
    (hP : Plays Q vmax tr w w') :
    ∃ ords : List (ℕ → ℕ), ords.length = (Train.begunOf tr).length ∧ (∀ ord ∈ ords, Shuffled (d.count .train) cd.trainBs ord) ∧
      ∃ C, Q.shape.CourseOn Q.upd Q.uo (Q.shape.objectives Q.ext k (ords.flatMap (epochBatches d cd.trainBs))) (Q.cells w.net) C ∧
        Q.shape.Same C.weights (Q.weights w'.net) := by
  obtain ⟨ords, h1, h2, h3, us, k1, k2, k3⟩ := whole_training_past hs hv ht hb hc hr hP
  refine ⟨ords, h1, h2, _, uses_course ho hl hi hk hg us k1 _ k2 h3, ?_⟩
  rw [k3]
  exact XPlan.cells_weights ho _

section
variable {σ : Type} {rep : ∀ id m k, (Q.gw id m k).G → σ → Prop} {repo : Q.go.G → σ → Prop}

/-- C200. The same with rules: if the optimisers of all layers do what rules for matrices say, a training that starts follows these rules on the penalised losses of the
thinned networks; with success, and without callbacks that stop it, for as many epochs as were asked for. -/
theorem whole_training_on_thinned_losses_follows_the_mat_rules (ho : Q.Ok) (hl : LossLooks Q.shape) (hs : Suits d Q.toPlan) {ρ : ℕ → ℕ → ℕ → MatRule σ} {ρo : MatRule σ}
    (hb : ∀ id m k, Obeys (Q.gw id m k) m k (ρ id m k) (rep id m k)) (hout : Obeys Q.go Q.outputs (Q.tree.neurons + 1) ρo repo)
    {o : Train.Opts L} {v : Train.Env L} (hv : Train.Starts v)
    {cd cd' : Train.CD} {tr : List Train.Ev} {err : Train.Err} (ht : Train.train o v cd = some (cd', tr, err)) (hbs : cd.trainBs ≤ Q.bs.maxTrainBS)
    {w w' : World Q} (hc : w.cur = cd.cur) (hr : TrainData.Reach vmax d w.td) (hi : Q.Inv w.net) {k : ℕ} (hk : Q.Drawn k w.net) (h : Stock σ)
    (hh : Q.toPlan.Stores rep repo (Q.cells w.net) h) (hg : GoesWellBy Q d ρ ρo k h) (hP : Plays Q vmax tr w w') :
    ∃ ords : List (ℕ → ℕ), ords.length = (Train.begunOf tr).length ∧ (err = .success → (∀ e, v.cb e = true) → ords.length = o.flags.length) ∧
      (∀ ord ∈ ords, Shuffled (d.count .train) cd.trainBs ord) ∧
      ∃ h', Q.shape.MatPathOn Q.upd Q.uo ρ ρo (Q.shape.objectives Q.ext k (ords.flatMap (epochBatches d cd.trainBs))) h h' ∧ Q.shape.Same h'.W (Q.weights w'.net) := by
  have hw : GoesWell Q d k (Q.cells w.net) := by
    intro bs C hd hc b h0 hb'
    obtain ⟨h', k1, k2⟩ := mat_path_on hb hout _ hh hc
    exact hg bs h' C.pre.weights hd k2 (stored_looks hb hout k1) b h0 hb'
  obtain ⟨ords, h1, h2, C, h3, h4⟩ := whole_training_on_thinned_losses ho hl hs hv ht hbs hc hr hi hk hw hP
  obtain ⟨h', k1, k2⟩ := mat_path_on hb hout _ hh h3
  refine ⟨ords, h1, fun he hcb => ?_, h2, h', k2, k1.weights.symm.trans h4⟩
  subst he
  obtain ⟨k, _, hk, _, hbg, _⟩ := Train.train_runs_epochs_partial hv ht
  rw [h1, hbg, List.length_range]
  rcases hk with hk | ⟨_, hk⟩
  · exact hk
  · rw [hcb] at hk; exact absurd hk (by decide)

end

/-- C200. A whole call of `train()` for a network with dropout and penalties on activations, whose layers use any of the nine methods with any settings (momentum, gains,
penalties on weights, dropout of learning rates, limits of lengths, blocked learning), some of them not trained: the weights at the end are those that the rules of the
methods reach from the first ones over the batches of shuffled epochs, with the derivatives of the penalised mean loss of the network thinned for each batch. -/
theorem whole_dropout_training_with_every_setting (o : ℕ → Opt) (oo : Opt) (ty : ℕ → GradType) (β1 β2 γ : ℕ → ℝ) (tyo : GradType) (β1o β2o γo : ℝ)
    (ho : (Q.using o oo).Ok) (hb : ∀ id, Stays (o id) (ty id) (β1 id) (β2 id)) (hout : Stays oo tyo β1o β2o)
    (hl : LossLooks Q.shape) (hs : Suits d Q.toPlan) {opts : Train.Opts L} {v : Train.Env L} (hv : Train.Starts v)
    {cd cd' : Train.CD} {tr : List Train.Ev} {err : Train.Err} (ht : Train.train opts v cd = some (cd', tr, err)) (hbs : cd.trainBs ≤ Q.bs.maxTrainBS)
    {w w' : World (Q.using o oo)} (hc : w.cur = cd.cur) (hr : TrainData.Reach vmax d w.td) (hi : (Q.using o oo).Inv w.net) {k : ℕ} (hk : (Q.using o oo).Drawn k w.net)
    (h : Stock LayerMemo)
    (hh : (Q.using o oo).Stores (fun id m k => stands m k (ty id) (β1 id) (β2 id) (γ id)) (stands Q.outputs (Q.tree.neurons + 1) tyo β1o β2o γo)
      ((Q.using o oo).cells w.net) h)
    (hg : GoesWellBy Q d (fun id => ruleOf (o id) (ty id) (β1 id) (β2 id) (γ id)) (ruleOf oo tyo β1o β2o γo Q.outputs (Q.tree.neurons + 1)) k h)
    (hP : Plays (Q.using o oo) vmax tr w w') :
    ∃ ords : List (ℕ → ℕ), ords.length = (Train.begunOf tr).length ∧ (err = .success → (∀ e, v.cb e = true) → ords.length = opts.flags.length) ∧
      (∀ ord ∈ ords, Shuffled (d.count .train) cd.trainBs ord) ∧
      ∃ h', Q.shape.MatPathOn Q.upd Q.uo (fun id => ruleOf (o id) (ty id) (β1 id) (β2 id) (γ id)) (ruleOf oo tyo β1o β2o γo Q.outputs (Q.tree.neurons + 1))
        (Q.shape.objectives Q.ext k (ords.flatMap (epochBatches d cd.trainBs))) h h' ∧ Q.shape.Same h'.W ((Q.using o oo).weights w'.net) :=
  whole_training_on_thinned_losses_follows_the_mat_rules (Q := Q.using o oo) ho hl ⟨hs.ok, hs.rowsX, hs.rowsY, hs.ones, hs.inputs, hs.outputs⟩
    (fun id m k => gradWorks_obey (o id) m k (ty id) (β1 id) (β2 id) (γ id) fun t => ⟨(hb id).type t, (hb id).beta1 t, (hb id).beta2 t⟩)
    (gradWorks_obey oo _ _ tyo β1o β2o γo fun t => ⟨hout.type t, hout.beta1 t, hout.beta2 t⟩) hv ht hbs hc hr hi hk h hh hg hP

end Nntl.Sgd.Thin
