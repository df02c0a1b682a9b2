import Verif.Sgd.MatSpec
import Verif.Sgd.WholeAny

/-! C196: networks whose optimisers follow rules for matrices. -/
namespace Nntl.Sgd

open Nntl.Layers Nntl.Pass Nntl.Backprop
open Finset

/-- An optimiser of a matrix with `m` rows and `k` columns does what a rule says; `rep g st`: the state `g` of the optimiser stands for the state `st` of the rule. -/
structure Obeys {σ : Type} (gw : GradWorks ℝ) (m k : ℕ) (ρ : MatRule σ) (rep : gw.G → σ → Prop) : Prop where
  before : ∀ g st w w', rep g st → Agree m k w w' → rep (gw.pre g w).1 (ρ.before st w').1 ∧ Agree m k (gw.pre g w).2 (ρ.before st w').2
  after : ∀ g st w w' d d', rep g st → Agree m k w w' → Agree m k d d' →
    rep (gw.apply g w d).1 (ρ.after st w' d').1 ∧ Agree m k (gw.apply g w d).2.1 (ρ.after st w' d').2

/-- The matrices `C` of a network hold the weights and the states of `h`. -/
def Plan.Stores {σ : Type} (P : Plan) (rep : ∀ id m k, (P.gw id m k).G → σ → Prop) (repo : P.go.G → σ → Prop) (C : Cells) (h : Stock σ) : Prop :=
  (∀ i m, (mats P.tree P.inputs)[i]? = some m → ∃ g w, C.body i = ⟨P.gw m.id m.rows m.cols, g, w⟩ ∧
    Agree m.rows m.cols w (h.W.body i) ∧ rep m.id m.rows m.cols g (h.body i)) ∧
  ∃ g w, C.out = ⟨P.go, g, w⟩ ∧ Agree P.outputs (P.tree.neurons + 1) w h.W.out ∧ repo g h.out

variable {P : Plan} {σ : Type} {rep : ∀ id m k, (P.gw id m k).G → σ → Prop} {repo : P.go.G → σ → Prop}

theorem Agree.refl (m k : ℕ) (w : Mat ℝ) : Agree m k w w := fun _ _ _ _ => rfl

theorem Plan.Stores.same {C C' : Cells} {h : Stock σ} (hs : P.shape.SameCells C C') (hh : P.Stores rep repo C h) : P.Stores rep repo C' h := by
  refine ⟨fun i m hm => ?_, ?_⟩
  · rw [hs.1 i m hm]
    exact hh.1 i m hm
  · rw [hs.2]
    exact hh.2

theorem Plan.Stores.weights {C : Cells} {h : Stock σ} (hh : P.Stores rep repo C h) : P.shape.Same C.weights h.W := by
  refine ⟨fun i m hm c hc j hj => ?_, fun c hc j hj => ?_⟩
  · obtain ⟨g, w, e, hw, _⟩ := hh.1 i m hm
    show (C.body i).w c j = _
    rw [e]
    exact hw c hc j hj
  · obtain ⟨g, w, e, hw, _⟩ := hh.2
    show C.out.w c j = _
    rw [e]
    exact hw c hc j hj

/-- Where the optimisers put the weights before the forward pass. -/
theorem stored_looks {ρ : ℕ → ℕ → ℕ → MatRule σ} {ρo : MatRule σ} (hb : ∀ id m k, Obeys (P.gw id m k) m k (ρ id m k) (rep id m k))
    (hout : Obeys P.go P.outputs (P.tree.neurons + 1) ρo repo) {C : Cells} {h : Stock σ} (hh : P.Stores rep repo C h) :
    (∀ i m, (mats P.tree P.inputs)[i]? = some m →
      Agree m.rows m.cols (C.pre.weights.body i) ((ρ m.id m.rows m.cols).before (h.body i) (h.W.body i)).2) ∧
    Agree P.outputs (P.tree.neurons + 1) C.pre.weights.out (ρo.before h.out h.W.out).2 := by
  refine ⟨fun i m hm => ?_, ?_⟩
  · obtain ⟨g, w, e, hw, hr⟩ := hh.1 i m hm
    show Agree _ _ ((C.body i).pre).w _
    rw [e]
    exact ((hb m.id m.rows m.cols).before g _ w _ hr hw).2
  · obtain ⟨g, w, e, hw, hr⟩ := hh.2
    show Agree _ _ (C.out.pre).w _
    rw [e]
    exact (hout.before g _ w _ hr hw).2

/-- The optimisers do one step of their rules. -/
theorem mat_step {ρ : ℕ → ℕ → ℕ → MatRule σ} {ρo : MatRule σ} (hb : ∀ id m k, Obeys (P.gw id m k) m k (ρ id m k) (rep id m k))
    (hout : Obeys P.go P.outputs (P.tree.neurons + 1) ρo repo) {upd : ℕ → Bool} {uo : Bool} {R : ℕ} {X Y : Mat ℝ}
    {C C' : Cells} {h : Stock σ} (hh : P.Stores rep repo C h) (ht : P.shape.Trained upd uo R X Y C C') :
    ∃ h', P.Stores rep repo C' h' ∧ P.shape.MatStep upd uo ρ ρo R X Y h h' := by
  obtain ⟨l1, l2⟩ := stored_looks hb hout hh
  obtain ⟨t1, t2⟩ := ht
  obtain ⟨h1, h2⟩ := hh
  let bf := fun (i : ℕ) (m : MatInfo) => (ρ m.id m.rows m.cols).before (h.body i) (h.W.body i)
  let mv := fun (i : ℕ) (m : MatInfo) => if upd m.id then (ρ m.id m.rows m.cols).after (bf i m).1 (bf i m).2
    (fun c j => P.shape.dBody R X Y C.pre.weights i c j / m.tiles) else bf i m
  let bo := ρo.before h.out h.W.out
  let mo := if uo then ρo.after bo.1 bo.2 (P.shape.dOut R X Y C.pre.weights) else bo
  let h' : Stock σ :=
    ⟨⟨fun i => match (mats P.tree P.inputs)[i]? with
        | some m => (mv i m).2
        | none => h.W.body i, mo.2⟩,
      fun i => match (mats P.tree P.inputs)[i]? with
        | some m => (mv i m).1
        | none => h.body i, mo.1⟩
  have eW : ∀ i m, (mats P.tree P.inputs)[i]? = some m → h'.W.body i = (mv i m).2 := fun i m hm => by
    show (match (mats P.tree P.inputs)[i]? with | some m => (mv i m).2 | none => h.W.body i) = _
    rw [hm]
  have eB : ∀ i m, (mats P.tree P.inputs)[i]? = some m → h'.body i = (mv i m).1 := fun i m hm => by
    show (match (mats P.tree P.inputs)[i]? with | some m => (mv i m).1 | none => h.body i) = _
    rw [hm]
  refine ⟨h', ⟨fun i m hm => ?_, ?_⟩, C.pre.weights, fun i m hm => ⟨l1 i m hm, eB i m hm, ?_⟩, l2, rfl, Agree.refl _ _ _⟩
  · obtain ⟨g, w, e, hw, hr⟩ := h1 i m hm
    obtain ⟨b1, b2⟩ := (hb m.id m.rows m.cols).before g _ w _ hr hw
    have ht := t1 i m hm
    rw [eW i m hm, eB i m hm]
    by_cases hu : upd m.id = true
    · rw [if_pos hu] at ht
      obtain ⟨d, hd, e'⟩ := ht
      rw [e] at e'
      have em : mv i m = (ρ m.id m.rows m.cols).after (bf i m).1 (bf i m).2 (fun c j => P.shape.dBody R X Y C.pre.weights i c j / m.tiles) := if_pos hu
      rw [em]
      obtain ⟨a1, a2⟩ := (hb m.id m.rows m.cols).after _ _ _ _ d (fun c j => P.shape.dBody R X Y C.pre.weights i c j / m.tiles) b1 b2 hd
      exact ⟨_, _, e', a2, a1⟩
    · rw [if_neg hu] at ht
      rw [e] at ht
      have em : mv i m = bf i m := if_neg hu
      rw [em]
      exact ⟨_, _, ht, b2, b1⟩
  · obtain ⟨g, w, e, hw, hr⟩ := h2
    obtain ⟨b1, b2⟩ := hout.before g _ w _ hr hw
    show ∃ g w, C'.out = ⟨P.go, g, w⟩ ∧ Agree _ _ w mo.2 ∧ repo g mo.1
    by_cases hu : uo = true
    · rw [if_pos hu] at t2
      obtain ⟨d, hd, e'⟩ := t2
      rw [e] at e'
      have em : mo = ρo.after bo.1 bo.2 (P.shape.dOut R X Y C.pre.weights) := if_pos hu
      rw [em]
      obtain ⟨a1, a2⟩ := hout.after _ _ _ _ d (P.shape.dOut R X Y C.pre.weights) b1 b2 hd
      exact ⟨_, _, e', a2, a1⟩
    · rw [if_neg hu] at t2
      rw [e] at t2
      have em : mo = bo := if_neg hu
      rw [em]
      exact ⟨_, _, t2, b2, b1⟩
  · rw [eW i m hm]
    exact Agree.refl _ _ _

theorem mat_path {ρ : ℕ → ℕ → ℕ → MatRule σ} {ρo : MatRule σ} (hb : ∀ id m k, Obeys (P.gw id m k) m k (ρ id m k) (rep id m k))
    (hout : Obeys P.go P.outputs (P.tree.neurons + 1) ρo repo) {upd : ℕ → Bool} {uo : Bool} :
    ∀ (bs : List (ℕ × Mat ℝ × Mat ℝ)) {C C' : Cells} {h : Stock σ}, P.Stores rep repo C h → P.shape.Course upd uo bs C C' →
      ∃ h', P.Stores rep repo C' h' ∧ P.shape.MatPath upd uo ρ ρo bs h h'
  | [], _, _, h, hh, hc => ⟨h, hh.same hc, Shape.Same.refl _ _, fun _ _ _ => rfl, rfl⟩
  | _ :: bs, _, _, _, hh, ⟨_, hc1, hc2⟩ => by
    obtain ⟨h1, k1, k2⟩ := mat_step hb hout hh hc1
    obtain ⟨h2, k3, k4⟩ := mat_path hb hout bs k1 hc2
    exact ⟨h2, k3, h1, k2, k4⟩

/-- If the optimisers of all layers do what rules for matrices say, training follows these rules on the mean losses. -/
theorem training_follows_the_mat_rules (ho : P.Ok) {ρ : ℕ → ℕ → ℕ → MatRule σ} {ρo : MatRule σ} (hb : ∀ id m k, Obeys (P.gw id m k) m k (ρ id m k) (rep id m k))
    (hout : Obeys P.go P.outputs (P.tree.neurons + 1) ρo repo) (us : List (Use ℝ)) (s0 : NetS P.net)
    (hi : P.Inv s0) (hus : ∀ u ∈ us, P.Fits u)
    (hr : ∀ pre R X Y post, us = pre ++ Use.train R X Y :: post → P.shape.Regular P.dz R (matOf R X) (matOf R Y) (P.cells (P.net.run s0 pre)).pre.weights)
    (h : Stock σ) (hh : P.Stores rep repo (P.cells s0) h) :
    ∃ h' : Stock σ, P.shape.MatPath P.upd P.uo ρ ρo (batches us) h h' ∧ P.shape.Same (P.weights (P.net.run s0 us)) h'.W ∧
      P.Stores rep repo (P.cells (P.net.run s0 us)) h' := by
  obtain ⟨h', k1, k2⟩ := mat_path hb hout (batches us) hh (training_follows_the_optimisers ho us s0 hi hus hr)
  exact ⟨h', k2, (cells_weights ho _).symm.trans k1.weights, k1⟩

/-- The weights `L` where derivatives are taken from `h` on. -/
def Shape.StartsAt (S : Shape) (ρ : ℕ → ℕ → ℕ → MatRule σ) (ρo : MatRule σ) (h : Stock σ) (L : Weights) : Prop :=
  (∀ i m, (mats S.tree S.inputs)[i]? = some m → Agree m.rows m.cols (L.body i) ((ρ m.id m.rows m.cols).before (h.body i) (h.W.body i)).2) ∧
  Agree S.outputs (S.tree.neurons + 1) L.out (ρo.before h.out h.W.out).2

/-- From `h0` on, whatever samples of the data `d` the batches are made of, the derivatives exist where they are taken. -/
def GoesWellIn (P : Plan) (d : TrainData.Data ℝ ℝ) (ρ : ℕ → ℕ → ℕ → MatRule σ) (ρo : MatRule σ) (h0 : Stock σ) : Prop :=
  ∀ bs h L, (∀ b ∈ bs, Drawn d b) → P.shape.MatPath P.upd P.uo ρ ρo bs h0 h → P.shape.StartsAt ρ ρo h L →
    ∀ k < d.count .train, P.shape.RegularAt P.dz (feature d k) (label d k) L

/-- The same for a whole call of `train()`. -/
theorem whole_training_follows_the_mat_rules {vmax : ℕ} {d : TrainData.Data ℝ ℝ} {A : Type} (ho : P.Ok) (hl : LossLooks P.shape) (hs : Suits d P)
    {ρ : ℕ → ℕ → ℕ → MatRule σ} {ρo : MatRule σ}
    (hb : ∀ id m k, Obeys (P.gw id m k) m k (ρ id m k) (rep id m k)) (hout : Obeys P.go P.outputs (P.tree.neurons + 1) ρo repo)
    {o : Train.Opts A} {v : Train.Env A} (hv : Train.Starts v)
    {cd cd' : Train.CD} {tr : List Train.Ev} {err : Train.Err} (ht : Train.train o v cd = some (cd', tr, err)) (hbs : cd.trainBs ≤ P.bs.maxTrainBS)
    {w w' : World P} (hc : w.cur = cd.cur) (hr : TrainData.Reach vmax d w.td) (hi : P.Inv w.net) (h : Stock σ) (hh : P.Stores rep repo (P.cells w.net) h)
    (hg : GoesWellIn P d ρ ρo h) (hP : Plays P vmax tr w w') :
    ∃ ords : List (ℕ → ℕ), ords.length = (Train.begunOf tr).length ∧ (err = .success → (∀ e, v.cb e = true) → ords.length = o.flags.length) ∧
      (∀ ord ∈ ords, Shuffled (d.count .train) cd.trainBs ord) ∧
      ∃ h', P.shape.MatPath P.upd P.uo ρ ρo (ords.flatMap (epochBatches d cd.trainBs)) h h' ∧ P.shape.Same h'.W (P.weights w'.net) := by
  have hw : GoesWellWith P d (P.cells w.net) := by
    intro bs C hd hc k hk
    obtain ⟨h', k1, k2⟩ := mat_path hb hout bs hh hc
    exact hg bs h' C.pre.weights hd k2 (stored_looks hb hout k1) k hk
  obtain ⟨ords, h1, h2, C, h3, h4⟩ := whole_training_follows_the_optimisers ho hl hs hv ht hbs hc hr hi hw hP
  obtain ⟨h', k1, k2⟩ := mat_path hb hout _ hh h3
  refine ⟨ords, h1, fun he hcb => ?_, h2, h', k2, k1.weights.symm.trans h4⟩
  subst he
  obtain ⟨k, _, hk, _, hbg, _⟩ := Train.train_runs_epochs_partial hv ht
  rw [h1, hbg, List.length_range]
  rcases hk with hk | ⟨_, hk⟩
  · exact hk
  · rw [hcb] at hk; exact absurd hk (by decide)

end Nntl.Sgd
