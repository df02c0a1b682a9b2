import Verif.Sgd.WholeProps
import Verif.Sgd.AnyRules

/-! C194: `train()` with any optimisers. -/
namespace Nntl.Sgd

open Nntl.Layers Nntl.Pass Nntl.Matrix Nntl.Kernel
open Finset

/-! ### Specification -/

/-- Training on the samples goes well: wherever the optimisers bring the network from `C0` over batches of training samples, derivatives exist for all samples at the
weights of the next forward pass. -/
def GoesWellWith (P : Plan) (d : TrainData.Data ℝ ℝ) (C0 : Cells) : Prop :=
  ∀ bs C, (∀ b ∈ bs, Drawn d b) → P.shape.Course P.upd P.uo bs C0 C → ∀ k < d.count .train, P.shape.RegularAt P.dz (feature d k) (label d k) C.pre.weights

/-- The weights where the rules take the derivatives. -/
def Shape.LooksAt {σ : Type} (S : Shape) (ρ : ℕ → Bool → Rule σ) (ρo : Bool → Rule σ) (h : Held σ) (L : Weights) : Prop :=
  (∀ i m, (mats S.tree S.inputs)[i]? = some m → ∀ c < m.rows, ∀ j < m.cols, L.body i c j = (ρ m.id (decide (j + 1 = m.cols))).look (h.body i c j) (h.W.body i c j)) ∧
  ∀ c < S.outputs, ∀ j < S.tree.neurons + 1, L.out c j = (ρo (decide (j = S.tree.neurons))).look (h.out c j) (h.W.out c j)

/-- The same for rules: derivatives exist wherever they are taken. -/
def GoesWellBy {σ : Type} (P : Plan) (d : TrainData.Data ℝ ℝ) (ρ : ℕ → Bool → Rule σ) (ρo : Bool → Rule σ) (h0 : Held σ) : Prop :=
  ∀ bs h L, (∀ b ∈ bs, Drawn d b) → P.shape.RulePath ρ ρo bs h0 h → P.shape.LooksAt ρ ρo h L →
    ∀ k < d.count .train, P.shape.RegularAt P.dz (feature d k) (label d k) L

/-! ### Courses -/

section
variable {S : Shape} {act : ℕ → Act.Act} {upd : ℕ → Bool} {uo : Bool}

theorem Shape.Ok.trained_like (h : S.Ok act) (hl : LossLooks S) {b b' : ℕ × Mat ℝ × Mat ℝ} (hb : Like S b b') {C C' : Cells}
    (ht : S.Trained upd uo b.1 b.2.1 b.2.2 C C') : S.Trained upd uo b'.1 b'.2.1 b'.2.2 C C' := by
  unfold Shape.Trained Shape.dBody Shape.dOut at ht ⊢
  simp only [h.meanLoss_like hl hb] at ht
  exact ht

theorem Shape.Ok.course_append (h : S.Ok act) : ∀ (as bs : List (ℕ × Mat ℝ × Mat ℝ)) {C D E : Cells}, S.Course upd uo as C D → S.Course upd uo bs D E →
    S.Course upd uo (as ++ bs) C E
  | [], bs, _, _, _, h1, h2 => h.course_congr bs h1 h2
  | _ :: as, bs, _, _, _, ⟨C1, h1, h2⟩, h3 => ⟨C1, h1, course_append h as bs h2 h3⟩

theorem Shape.Course.same : ∀ (bs : List (ℕ × Mat ℝ × Mat ℝ)) {C D E : Cells}, S.Course upd uo bs C D → S.SameCells D E → S.Course upd uo bs C E
  | [], _, _, _, h1, h2 => ⟨fun i m hm => (h2.1 i m hm).trans (h1.1 i m hm), h2.2.trans h1.2⟩
  | _ :: bs, _, _, _, ⟨C1, h1, h2⟩, h3 => ⟨C1, h1, same bs h2 h3⟩

end

variable {P : Plan} {vmax : ℕ} {d : TrainData.Data ℝ ℝ} {L : Type}

theorem uses_course (ho : P.Ok) (hl : LossLooks P.shape) {s0 : NetS P.net} (hi : P.Inv s0) (hg : GoesWellWith P d (P.cells s0)) (us : List (Use ℝ)) :
    (∀ u ∈ us, P.Fits u) → ∀ bs, List.Forall₂ (Like P.shape) (batches us) bs → (∀ b ∈ bs, Drawn d b) →
    P.shape.Course P.upd P.uo bs (P.cells s0) (P.cells (P.net.run s0 us)) := by
  induction us using List.reverseRecOn with
  | nil =>
    intro _ bs hf _
    cases hf
    exact ⟨fun _ _ _ => rfl, rfl⟩
  | append_singleton us u ih =>
    intro hus bs hf hd
    have hus1 : ∀ v ∈ us, P.Fits v := fun v hv => hus v (List.mem_append_left _ hv)
    have hu := hus u (List.mem_append_right _ List.mem_cons_self)
    have er : P.net.run s0 (us ++ [u]) = (P.net.step (P.net.run s0 us) u).1 := by unfold Net.run; rw [List.foldl_append]; rfl
    rw [er]
    rw [batches_append] at hf
    cases u with
    | eval R X =>
      rw [show batches [Use.eval R X] = [] from rfl, List.append_nil] at hf
      exact (ih hus1 bs hf hd).same _ (evaluation_keeps_cells ho _
        (run_inv ho.trains ho.outLawful ho.net_ok ho.sizes us s0 hi fun u hu => (hus1 u hu).ok ho) R X hu)
    | train R X Y =>
      rw [show batches [Use.train R X Y] = [(R, matOf R X, matOf R Y)] from rfl] at hf
      obtain ⟨as, cs, h1, h2, rfl⟩ := forall₂_split hf
      have h2 : List.Forall₂ (Like P.shape) [(R, matOf R X, matOf R Y)] cs := h2
      cases h2 with
      | cons hb h3 =>
        cases h3
        rename_i b
        have ih := ih hus1 as h1 fun c hc => hd c (List.mem_append_left _ hc)
        have hb' := hd b (List.mem_append_right _ List.mem_cons_self)
        refine ho.shape.course_append _ _ ih ⟨_, ho.shape.trained_like hl hb
          (every_optimiser_gets_the_derivatives ho s0 hi us hus1 R X Y hu fun r hr => ?_).1, fun _ _ _ => rfl, rfl⟩
        obtain ⟨k, hk, e1, e2⟩ := hb' r (hb.1 ▸ hr)
        obtain ⟨q1, q2⟩ := hb.2 r hr
        exact ho.shape.regular_like hl (fun j hj => (congrFun e1 j).symm.trans (q1 j hj).symm) (fun j hj => (congrFun e2 j).symm.trans (q2 j hj).symm)
          (hg as _ (fun c hc => hd c (List.mem_append_left _ hc)) ih k hk)

/-! ### Property theorems -/

/-- C194. A training that starts, with any optimisers: there is an order of the training samples for every epoch that was begun, such that the weights at the end are
those that the optimisers reach from the first state when each is given, batch after batch, epoch after epoch, the partial derivatives of the mean loss. -/
theorem whole_training_follows_the_optimisers (ho : P.Ok) (hl : LossLooks P.shape) (hs : Suits d P) {o : Train.Opts L} {v : Train.Env L} (hv : Train.Starts v)
    {cd cd' : Train.CD} {tr : List Train.Ev} {err : Train.Err} (ht : Train.train o v cd = some (cd', tr, err)) (hb : cd.trainBs ≤ P.bs.maxTrainBS)
    {w w' : World P} (hc : w.cur = cd.cur) (hr : TrainData.Reach vmax d w.td) (hi : P.Inv w.net) (hg : GoesWellWith P d (P.cells w.net))
    (hP : Plays P vmax tr w w') :
    ∃ ords : List (ℕ → ℕ), ords.length = (Train.begunOf tr).length ∧ (∀ ord ∈ ords, Shuffled (d.count .train) cd.trainBs ord) ∧
      ∃ C, P.shape.Course P.upd P.uo (ords.flatMap (epochBatches d cd.trainBs)) (P.cells w.net) C ∧ P.shape.Same C.weights (P.weights w'.net) := by
  obtain ⟨ords, h1, h2, h3, us, k1, k2, k3⟩ := whole_training_past hs hv ht hb hc hr hP
  refine ⟨ords, h1, h2, _, uses_course ho hl hi hg us k1 _ k2 h3, ?_⟩
  rw [k3]
  exact cells_weights ho _

variable {σ : Type} {rep : ∀ id m k, (P.gw id m k).G → (ℕ → ℕ → σ) → Prop} {repo : P.go.G → (ℕ → ℕ → σ) → Prop}

theorem goes_well_by (ho : P.Ok) {ρ : ℕ → Bool → Rule σ} {ρo : Bool → Rule σ} (hb : ∀ id m k, Follows (P.gw id m k) m k (ρ id) (rep id m k))
    (hout : Follows P.go P.outputs (P.tree.neurons + 1) ρo repo) (hu : ∀ id, P.upd id = true) (huo : P.uo = true) {C0 : Cells} {h : Held σ}
    (hh : P.Holds rep repo C0 h) (hg : GoesWellBy P d ρ ρo h) : GoesWellWith P d C0 := by
  intro bs C hd hc k hk
  obtain ⟨h', k1, k2⟩ := rule_path hb hout hu huo bs hh hc
  refine hg bs h' C.pre.weights hd k2 ⟨fun i m hm c hc j hj => ?_, fun c hc j hj => ?_⟩ k hk
  · obtain ⟨g, w, e, hw, hr⟩ := k1.1 i m hm
    show ((C.body i).pre).w c j = _
    rw [e]
    refine ((hb m.id m.rows m.cols).look g (h'.body i) w hr c hc j hj).trans ?_
    rw [hw c hc j hj]
  · obtain ⟨g, w, e, hw, hr⟩ := k1.2
    show (C.out.pre).w c j = _
    rw [e]
    refine (hout.look g h'.out w hr c hc j hj).trans ?_
    rw [hw c hc j hj, decide_bias]
    rfl

/-- C194. If the optimisers of all layers follow rules (C193: momentum, Nesterov's momentum, Adam, RMSProp), a training that starts follows these rules on the mean
losses of the batches of shuffled epochs, one epoch after the other; and so a training that ends with success, without callbacks that stop it, does it for as many
epochs as were asked for. -/
theorem whole_training_follows_the_rules (ho : P.Ok) (hl : LossLooks P.shape) (hs : Suits d P) {ρ : ℕ → Bool → Rule σ} {ρo : Bool → Rule σ}
    (hb : ∀ id m k, Follows (P.gw id m k) m k (ρ id) (rep id m k)) (hout : Follows P.go P.outputs (P.tree.neurons + 1) ρo repo) (hu : ∀ id, P.upd id = true)
    (huo : P.uo = true) {o : Train.Opts L} {v : Train.Env L} (hv : Train.Starts v)
    {cd cd' : Train.CD} {tr : List Train.Ev} {err : Train.Err} (ht : Train.train o v cd = some (cd', tr, err)) (hbs : cd.trainBs ≤ P.bs.maxTrainBS)
    {w w' : World P} (hc : w.cur = cd.cur) (hr : TrainData.Reach vmax d w.td) (hi : P.Inv w.net) (h : Held σ) (hh : P.Holds rep repo (P.cells w.net) h)
    (hg : GoesWellBy P d ρ ρo h) (hP : Plays P vmax tr w w') :
    ∃ ords : List (ℕ → ℕ), ords.length = (Train.begunOf tr).length ∧ (err = .success → (∀ e, v.cb e = true) → ords.length = o.flags.length) ∧
      (∀ ord ∈ ords, Shuffled (d.count .train) cd.trainBs ord) ∧
      ∃ h', P.shape.RulePath ρ ρo (ords.flatMap (epochBatches d cd.trainBs)) h h' ∧ P.shape.Same h'.W (P.weights w'.net) := by
  obtain ⟨ords, h1, h2, C, h3, h4⟩ := whole_training_follows_the_optimisers ho hl hs hv ht hbs hc hr hi (goes_well_by ho hb hout hu huo hh hg) hP
  obtain ⟨h', k1, k2⟩ := rule_path hb hout hu huo _ hh h3
  refine ⟨ords, h1, fun he hcb => ?_, h2, h', k2, Shape.Same.trans ⟨fun i m hm c hc j hj => ?_, fun c hc j hj => ?_⟩ h4⟩
  · subst he
    obtain ⟨k, _, hk, _, hbg, _⟩ := Train.train_runs_epochs_partial hv ht
    rw [h1, hbg, List.length_range]
    rcases hk with hk | ⟨_, hk⟩
    · exact hk
    · rw [hcb] at hk; exact absurd hk (by decide)
  · obtain ⟨g, w, e, hw, _⟩ := k1.1 i m hm
    show _ = (C.body i).w c j
    rw [e]
    exact (hw c hc j hj).symm
  · obtain ⟨g, w, e, hw, _⟩ := k1.2
    show _ = C.out.w c j
    rw [e]
    exact (hw c hc j hj).symm

end Nntl.Sgd
