import Verif.Sgd.AllOpts
import Verif.Sgd.WholeAny

/-! C195: networks whose layers use any of the nine methods of the library. -/
namespace Nntl.Sgd

open Nntl.Layers Nntl.Pass Nntl.Backprop Nntl.Grad Nntl.Matrix Nntl.Kernel
open Finset

/-- The settings of the gradient works of a layer: the calls are neither blocked nor use limits of norms or dropout of learning rates; the type and the decays stay; both
calls of a step agree on whether the momentum is Nesterov's. -/
structure Uses (o : Opt) (ty : GradType) (β1 β2 : ℝ) : Prop where
  pre : ∀ t, Calm (o.pre t)
  app : ∀ t, Calm (o.app t)
  type : ∀ t, (o.app t).cfg.type = ty
  beta1 : ∀ t, (o.app t).cfg.beta1 = β1
  beta2 : ∀ t, (o.app t).cfg.beta2 = β2
  agree : ∀ t, ((o.pre t).cfg.useMom && (o.pre t).cfg.nesterov) = ((o.app t).cfg.useMom && (o.app t).cfg.nesterov)

/-- The network `P` with gradient works of the library: those of the layers by their identifiers, and those of the output layer. -/
noncomputable def Plan.using (P : Plan) (o : ℕ → Opt) (oo : Opt) : Plan :=
  { P with gw := fun id m k => gradWorks (o id) m k, go := gradWorks oo P.outputs (P.tree.neurons + 1) }

/-- The method of a layer as its settings tell, step after step. -/
noncomputable def methodOf (o : Opt) (ty : GradType) (β1 β2 γ : ℝ) (bias : Bool) : Rule (ℕ × Memo) :=
  .scheduled fun t => fullRule ty ⟨(o.app t).cfg.lr, β1, β2, (o.app t).cfg.eps, γ⟩
    (if (o.app t).cfg.useMom then (if (o.app t).cfg.nesterov then .nesterov (o.pre t).cfg.mom else .classical (o.app t).cfg.mom) else .off)
    (if (o.app t).cfg.useILR then
      some ⟨(o.app t).cfg.useMom && (o.app t).cfg.ilrToMom, (o.app t).cfg.decr, (o.app t).cfg.incr, (o.app t).cfg.capLow, (o.app t).cfg.capHigh⟩ else none)
    (penaltySlope (o.app t).cfg.l1 (o.app t).cfg.l2 (o.app t).cfg.l1IgnBias (o.app t).cfg.l2IgnBias bias)

/-- C195. Gradient works before their first use: no steps were made. -/
theorem new_works_remember (m k : ℕ) (ty : GradType) (β1 β2 γ : ℝ) (g : GwS) (h0 : g.p = 0) (h1 : g.t = 0) (hf : g.s.firstRun = true)
    (hg : ty = .radam → g.s.gamma = γ) :
    remembers m k ty β1 β2 γ g fun c j => (0, ⟨0, 0, 0, g.s.V (c + m * j), g.s.gain (c + m * j), g.s.prev (c + m * j)⟩) :=
  ⟨h0.trans h1.symm, hg, fun _ _ _ _ => ⟨h1.symm, rfl, rfl, rfl, .inl ⟨hf, rfl, rfl, rfl⟩⟩⟩

variable {P : Plan} {vmax : ℕ} {d : TrainData.Data ℝ ℝ} {L : Type}

/-- C195. Any history of evaluations and training steps of a network whose layers use any of the nine methods, each with or without momentum or Nesterov's momentum,
gains and penalties: the weights at the end are those that the formulas of the methods reach from the first ones. -/
theorem training_follows_the_methods (o : ℕ → Opt) (oo : Opt) (ty : ℕ → GradType) (β1 β2 γ : ℕ → ℝ) (tyo : GradType) (β1o β2o γo : ℝ)
    (ho : (P.using o oo).Ok) (hb : ∀ id, Uses (o id) (ty id) (β1 id) (β2 id)) (hout : Uses oo tyo β1o β2o) (hu : ∀ id, P.upd id = true) (huo : P.uo = true)
    (us : List (Use ℝ)) (s0 : NetS (P.using o oo).net) (hi : (P.using o oo).Inv s0) (hus : ∀ u ∈ us, (P.using o oo).Fits u)
    (hr : ∀ pre R X Y post, us = pre ++ Use.train R X Y :: post →
      P.shape.Regular P.dz R (matOf R X) (matOf R Y) ((P.using o oo).cells ((P.using o oo).net.run s0 pre)).pre.weights)
    (h : Held (ℕ × Memo))
    (hh : (P.using o oo).Holds (fun id m k => remembers m k (ty id) (β1 id) (β2 id) (γ id)) (remembers P.outputs (P.tree.neurons + 1) tyo β1o β2o γo)
      ((P.using o oo).cells s0) h) :
    ∃ h', P.shape.RulePath (fun id => methodOf (o id) (ty id) (β1 id) (β2 id) (γ id)) (methodOf oo tyo β1o β2o γo) (batches us) h h' ∧
      P.shape.Same ((P.using o oo).weights ((P.using o oo).net.run s0 us)) h'.W := by
  obtain ⟨h', k1, k2, _⟩ := training_follows_the_rules (P := P.using o oo) ho
    (fun id m k => gradWorks_methods (o id) m k (ty id) (β1 id) (β2 id) (γ id) (hb id).pre
      (fun t => ⟨(hb id).app t, (hb id).type t, (hb id).beta1 t, (hb id).beta2 t⟩) (hb id).agree)
    (gradWorks_methods oo _ _ tyo β1o β2o γo hout.pre (fun t => ⟨hout.app t, hout.type t, hout.beta1 t, hout.beta2 t⟩) hout.agree) hu huo us s0 hi hus hr h hh
  exact ⟨h', k1, k2⟩

/-- C195. The same for a whole call of `train()`: the batches are those of shuffled epochs. -/
theorem whole_training_follows_the_methods (o : ℕ → Opt) (oo : Opt) (ty : ℕ → GradType) (β1 β2 γ : ℕ → ℝ) (tyo : GradType) (β1o β2o γo : ℝ)
    (ho : (P.using o oo).Ok) (hb : ∀ id, Uses (o id) (ty id) (β1 id) (β2 id)) (hout : Uses oo tyo β1o β2o) (hu : ∀ id, P.upd id = true) (huo : P.uo = true)
    (hl : LossLooks P.shape) (hs : Suits d P) {opts : Train.Opts L} {v : Train.Env L} (hv : Train.Starts v)
    {cd cd' : Train.CD} {tr : List Train.Ev} {err : Train.Err} (ht : Train.train opts v cd = some (cd', tr, err)) (hbs : cd.trainBs ≤ P.bs.maxTrainBS)
    {w w' : World (P.using o oo)} (hc : w.cur = cd.cur) (hr : TrainData.Reach vmax d w.td) (hi : (P.using o oo).Inv w.net) (h : Held (ℕ × Memo))
    (hh : (P.using o oo).Holds (fun id m k => remembers m k (ty id) (β1 id) (β2 id) (γ id)) (remembers P.outputs (P.tree.neurons + 1) tyo β1o β2o γo)
      ((P.using o oo).cells w.net) h)
    (hg : GoesWellBy P d (fun id => methodOf (o id) (ty id) (β1 id) (β2 id) (γ id)) (methodOf oo tyo β1o β2o γo) h) (hP : Plays (P.using o oo) vmax tr w w') :
    ∃ ords : List (ℕ → ℕ), ords.length = (Train.begunOf tr).length ∧ (err = .success → (∀ e, v.cb e = true) → ords.length = opts.flags.length) ∧
      (∀ ord ∈ ords, Shuffled (d.count .train) cd.trainBs ord) ∧
      ∃ h', P.shape.RulePath (fun id => methodOf (o id) (ty id) (β1 id) (β2 id) (γ id)) (methodOf oo tyo β1o β2o γo)
        (ords.flatMap (epochBatches d cd.trainBs)) h h' ∧ P.shape.Same h'.W ((P.using o oo).weights w'.net) :=
  whole_training_follows_the_rules (P := P.using o oo) ho hl ⟨hs.ok, hs.rowsX, hs.rowsY, hs.ones, hs.inputs, hs.outputs⟩
    (fun id m k => gradWorks_methods (o id) m k (ty id) (β1 id) (β2 id) (γ id) (hb id).pre
      (fun t => ⟨(hb id).app t, (hb id).type t, (hb id).beta1 t, (hb id).beta2 t⟩) (hb id).agree)
    (gradWorks_methods oo _ _ tyo β1o β2o γo hout.pre (fun t => ⟨hout.app t, hout.type t, hout.beta1 t, hout.beta2 t⟩) hout.agree) hu huo hv ht hbs hc hr hi h hh hg hP

end Nntl.Sgd
