import Verif.Backprop.Works
import Verif.Backprop.LexProps
import Verif.Pass.DetProps
import Verif.Grad.Exists
/-! C100: training is reproducible. Property theorems for networks of fully connected layers with dropout and penalties and the gradient works of
the library. -/
namespace Nntl.Backprop

open Nntl.Pass Nntl.Layers Nntl.Grad Nntl.Matrix

/-! ### The optimiser -/

theorem mtxOf_ok {m k : ℕ} (hm : 0 < m) (hk : 2 ≤ k) (w : Mat ℝ) : WeightsOk (mtxOf m k w) := by
  refine ⟨?_, rfl, hm, hk, Nat.le_refl _⟩
  simp only [Mtx.empty, mtxOf]
  have : 0 < m * k := Nat.mul_pos hm (by omega)
  simp
  omega

/-- C100. `pre` of `gradWorks` is what `pre_training_fprop` does, on any number of threads and however they are interleaved. -/
theorem gradWorks_pre {E : Env} (hE : E.Ok) (o : Opt) {m k : ℕ} (hm : 0 < m) (hk : 2 ≤ k) (g : GwS) (w : Mat ℝ) (hr : Ready (o.pre g.p).cfg g.s)
    (out : Option St) :
    preTrainingFprop E (o.pre g.p).cfg (o.pre g.p).blocked (o.pre g.p).draw { g.s with W := mtxOf m k w } out ↔
      out = some ((gradWorks o m k).pre g w).1.s :=
  preTrainingFprop_iff hE _ _ _ (s := { g.s with W := mtxOf m k w }) (mtxOf_ok hm hk w) ⟨hr.a, hr.b, hr.v, hr.gain, hr.prev⟩ out

/-- C100. `apply` of `gradWorks` is what `apply_grad` does, on any number of threads and however they are interleaved. -/
theorem gradWorks_apply {E : Env} (hE : E.Ok) (o : Opt) {m k : ℕ} (hm : 0 < m) (hk : 2 ≤ k) (g : GwS) (w d : Mat ℝ) (hr : Ready (o.app g.t).cfg g.s)
    (out : Option St) :
    applyGrad E (o.app g.t).cfg (o.app g.t).blocked (o.app g.t).draw { g.s with W := mtxOf m k w, G := mtxOf m k d } out ↔
      out = some ((gradWorks o m k).apply g w d).1.s :=
  applyGrad_iff hE _ _ _ (s := { g.s with W := mtxOf m k w, G := mtxOf m k d }) ⟨mtxOf_ok hm hk w, mtxOf_ok hm hk d, rfl, rfl⟩
    ⟨hr.a, hr.b, hr.v, hr.gain, hr.prev⟩ out

/-- C100. Two layers after `gw_init` are twins: what is in the matrices that `gw_init` does not fill makes no difference. -/
theorem fresh_twins {K : Cfg} {m k : ℕ} {W W' : Mtx ℝ} (hW : W.rows = m ∧ W.cols = k ∧ W'.rows = m ∧ W'.cols = k) {s t : St} (hs : GwInit K W s)
    (ht : GwInit K W' t) (hg : s.gamma = t.gamma) : GwTwin K (m * k) ⟨0, 0, s⟩ ⟨0, 0, t⟩ := by
  obtain ⟨-, -, s3, -, -, -, -, s8, s9⟩ := hs
  obtain ⟨-, -, t3, -, -, -, -, t8, t9⟩ := ht
  rw [hW.1, hW.2.1] at s3 s8
  rw [hW.2.2.1, hW.2.2.2] at t3 t8
  refine ⟨rfl, rfl, ⟨s9.trans t9.symm, hg, fun h i hi => (s3 h i hi).trans (t3 h i hi).symm, ?_, ?_, ?_, ?_,
    fun h i hi => (s8 h i hi).trans (t8 h i hi).symm, ?_⟩⟩ <;>
  · intro h
    rw [show _ = true from s9] at h
    cases h

/-! ### Networks -/

/-- Twin states of the elementary layers: same weights, same state of the optimiser, the same number of random numbers drawn for dropout. -/
def exTwin (o : ℕ → Opt) (act : ℕ → Act.Act) (upd : ℕ → Bool) (e : ℕ → Ext) :
    ∀ id l inc n, Twin (exLayers (fun id => gradWorks (o id)) act upd e id l inc n).obj := fun id l _ n =>
  ⟨fun s t => LexTwin (FcTwin l.neurons (n + 1) (GwTwin (o id).kind (l.neurons * (n + 1)))) s t⟩

theorem exTwin_det {o : ℕ → Opt} (ho : ∀ id, (o id).Ok) {act : ℕ → Act.Act} {upd : ℕ → Bool} {e : ℕ → Ext} (he : ∀ id, (e id).Ok) (l : Leaf) :
    LeafDet (exTwin o act upd e) l where
  sizes := fun _ _ _ => ⟨rfl, rfl⟩
  det := fun id inc n => lex_det (fc_det realArith_ok (gradWorks_local (ho id) _ _)) (Nat.zero_le _) fun a ha => by
    obtain ⟨p, hp, rfl⟩ := List.mem_map.1 ha
    exact ((he id).pens p hp).local_

/-- C100. A network of fully connected layers in vertical, horizontal and tile packs, with dropout and penalties and any optimisers of the library, in two
copies with the same weights and optimiser states. The copies may differ in everything else: mode, batch size, activations, masks, gradients, temporary
memory. They are used differently, but the training steps are the same, in the same order, with the same random numbers. Then they have the same weights
and optimiser states again, and give the same outputs for every batch, in inference mode and in training mode. -/
theorem training_is_reproducible (o : ℕ → Opt) (ho : ∀ id, (o id).Ok) (act : ℕ → Act.Act) (upd : ℕ → Bool) (e : ℕ → Ext) (he : ∀ id, (e id).Ok)
    (l : Layer) (inc : BS) (n : ℕ) (d : Lid) (hd : layerInit true l inc n = some d) (hT : inc.maxTrainBS ≤ inc.maxBS)
    (hp : l.AllPacks FieldsInside Divisible n) (hl : l.AllLeaves (LeafOk (exLayers (fun id => gradWorks (o id)) act upd e))) (hx : NoExtra l)
    (oo : Opt) (hoo : oo.Ok) (uo : Bool) (out : (ℕ → ℝ) → ℕ → ℝ) (dz : ℝ → ℝ → ℝ) (m : ℕ)
    (hout : ∀ z z', (∀ i < m, z i = z' i) → ∀ i < m, out z i = out z' i) :
    let L := (sem (exLayers (fun id => gradWorks (o id)) act upd e) l inc n).law
    let w : Net ℝ := ⟨(sem (exLayers (fun id => gradWorks (o id)) act upd e) l inc n).obj,
      outLayer realArith (gradWorks oo m (l.neurons + 1)) out dz uo l.neurons m⟩
    let U := outLaw realArith (gradWorks oo m (l.neurons + 1)) out dz uo l.neurons m
    let Same := fun s t : NetS w => (treeTwin (exTwin o act upd e) l inc n).E s.body t.body ∧
      FcTwin m (l.neurons + 1) (GwTwin oo.kind (m * (l.neurons + 1))) s.out t.out
    ∀ s t : NetS w, NetInv L U s → NetInv L U t → Same s t →
    ∀ us vs : List (Use ℝ), (∀ u ∈ us, u.Ok inc.maxBS inc.maxTrainBS n) → (∀ u ∈ vs, u.Ok inc.maxBS inc.maxTrainBS n) → trainings us = trainings vs →
    Same (w.run s us) (w.run t vs) ∧
    ∀ (b : Bool) (R : ℕ) (X : Mem ℝ), 0 < R → R ≤ inc.maxBS → Ones R n X → ∀ r < R, ∀ c < m,
      matOf R (w.fprop (w.to b R (w.run s us)) X).1.ao r c = matOf R (w.fprop (w.to b R (w.run t vs)) X).1.ao r c := by
  intro L w U Same s t hs ht est us vs hus hvs huv
  obtain ⟨_, h2, h3, _, _, h6⟩ := sem_ok l inc n d hd hT hp hl hx
  have hD := (tree_det (E := exTwin o act upd e) l inc n hp (allLeaves_of (exTwin_det (act := act) (upd := upd) ho he) l) hx).1
  refine ⟨reproducible hD (gradWorks_local hoo _ _) realArith_ok hout h6.trains h3.symm hT us vs (by rw [h2]; exact hus) (by rw [h2]; exact hvs) huv s t hs
    ht est, fun b R X h0 hR hX => ?_⟩
  exact reproducible_outputs hD (gradWorks_local hoo _ _) realArith_ok hout h6.trains h3.symm hT us vs (by rw [h2]; exact hus)
    (by rw [h2]; exact hvs) huv s t hs ht est b R h0 hR X (by rw [h2]; exact hX)

/-- C100. Evaluations between training steps have no influence on training: the weights, the optimiser states and the outputs are those of a network
that was only trained. -/
theorem evaluations_do_not_influence_training (o : ℕ → Opt) (ho : ∀ id, (o id).Ok) (act : ℕ → Act.Act) (upd : ℕ → Bool) (e : ℕ → Ext)
    (he : ∀ id, (e id).Ok) (l : Layer) (inc : BS) (n : ℕ) (d : Lid) (hd : layerInit true l inc n = some d) (hT : inc.maxTrainBS ≤ inc.maxBS)
    (hp : l.AllPacks FieldsInside Divisible n) (hl : l.AllLeaves (LeafOk (exLayers (fun id => gradWorks (o id)) act upd e))) (hx : NoExtra l)
    (oo : Opt) (hoo : oo.Ok) (uo : Bool) (out : (ℕ → ℝ) → ℕ → ℝ) (dz : ℝ → ℝ → ℝ) (m : ℕ)
    (hout : ∀ z z', (∀ i < m, z i = z' i) → ∀ i < m, out z i = out z' i) :
    let L := (sem (exLayers (fun id => gradWorks (o id)) act upd e) l inc n).law
    let w : Net ℝ := ⟨(sem (exLayers (fun id => gradWorks (o id)) act upd e) l inc n).obj,
      outLayer realArith (gradWorks oo m (l.neurons + 1)) out dz uo l.neurons m⟩
    let U := outLaw realArith (gradWorks oo m (l.neurons + 1)) out dz uo l.neurons m
    ∀ s : NetS w, NetInv L U s → ∀ us : List (Use ℝ), (∀ u ∈ us, u.Ok inc.maxBS inc.maxTrainBS n) →
    (treeTwin (exTwin o act upd e) l inc n).E (w.run s us).body (w.run s (trainings us)).body ∧
    (∀ c < m, ∀ j < l.neurons + 1, (w.run s us).out.w c j = (w.run s (trainings us)).out.w c j) ∧
    ∀ (b : Bool) (R : ℕ) (X : Mem ℝ), 0 < R → R ≤ inc.maxBS → Ones R n X → ∀ r < R, ∀ c < m,
      matOf R (w.fprop (w.to b R (w.run s us)) X).1.ao r c = matOf R (w.fprop (w.to b R (w.run s (trainings us))) X).1.ao r c := by
  intro L w U s hs us hus
  have hD := (tree_det (E := exTwin o act upd e) l inc n hp (allLeaves_of (exTwin_det (act := act) (upd := upd) ho he) l) hx).1
  obtain ⟨h1, h2⟩ := training_is_reproducible o ho act upd e he l inc n d hd hT hp hl hx oo hoo uo out dz m hout s s hs hs
    (NetTwin.refl hD (gradWorks_local hoo _ _) s) us (trainings us) hus (fun u hu => hus u (List.mem_filter.1 hu).1)
    (by unfold trainings; rw [List.filter_filter]; congr 1; funext u; cases u <;> rfl)
  exact ⟨h1.1, h1.2.2, h2⟩

/-! ### The hypotheses are met -/

/-- Adam with Nesterov momentum in layer 4, RMSProp in layer 5, a gradient descent with momentum elsewhere; learning is blocked in the first step. -/
noncomputable def demoOpt (id : ℕ) : Opt :=
  let c := if id = 4 then demoCfg .adam true true else if id = 5 then demoCfg .rmsHinton false false else demoCfg .classicalConstant true false
  ⟨c, fun t => ⟨c, t == 0, fun _ => 0⟩, fun t => ⟨{ c with lr := 1 / (t + 1) }, t == 0, fun _ => 0⟩⟩

theorem demoOpt_ok (id : ℕ) : (demoOpt id).Ok := ⟨fun _ => ⟨rfl, rfl, rfl, rfl⟩, fun _ => ⟨rfl, rfl, rfl, rfl⟩⟩

noncomputable def demoWorks : ℕ → Leaf → BS → ℕ → Sem ℝ :=
  exLayers (fun id => gradWorks (demoOpt id)) (fun id => if id = 6 then .softsign 1000000 1000000 else .sigm) (fun _ => true) demoExt

/-- All hypotheses of the two theorems hold for the tree of `Pass.demoTree` with the extensions of `demoExt` and these optimisers. -/
example : (∃ d, layerInit true demoTree ⟨8, 4⟩ 5 = some d) ∧ demoTree.AllPacks FieldsInside Divisible 5 ∧ demoTree.AllLeaves (LeafOk demoWorks) ∧
    NoExtra demoTree ∧ (∀ id, (demoExt id).Ok) ∧ (∀ id, (demoOpt id).Ok) ∧
    ∃ s : NetS (⟨(sem demoWorks demoTree ⟨8, 4⟩ 5).obj, outLayer realArith (gradWorks (demoOpt 0) 1 (demoTree.neurons + 1))
        (fun z c => Act.Out.sigmXent.act.f (z c)) (fun a y => Act.Out.sigmXent.dLdZ y a) true demoTree.neurons 1⟩ : Net ℝ),
      NetInv (sem demoWorks demoTree ⟨8, 4⟩ 5).law (outLaw realArith (gradWorks (demoOpt 0) 1 (demoTree.neurons + 1))
        (fun z c => Act.Out.sigmXent.act.f (z c)) (fun a y => Act.Out.sigmXent.dLdZ y a) true demoTree.neurons 1) s := by
  obtain ⟨h1, h2, _, h4, _⟩ := demoTree_ok
  have hl : ∀ m, LeafOk demoWorks (fcLeaf m) := exLayers_ok fun id => (demoExt_ok id).1
  have g : GwS := ⟨0, 0, initState (demoCfg .adam true true) demoW 0⟩
  refine ⟨h1, h2, ?_, h4, fun id => (demoExt_ok id).1, demoOpt_ok, ?_⟩
  · simp only [demoTree, Layer.AllLeaves, Stack.AllLeaves, Fields.AllLeaves, hl, and_self]
  · obtain ⟨s, hs⟩ := sem_state (b := true) (I := demoWorks) (fun id l _ n _ =>
      ⟨((⟨fun _ _ => 0, g, true⟩, ⟨true, fun _ => 0, fun _ => 0, 0, fun _ _ _ => 0⟩) : FcS (gradWorks (demoOpt id) l.neurons (n + 1)) × LexS ℝ), rfl, rfl⟩)
      demoTree ⟨8, 4⟩ 5 4
    exact ⟨⟨true, 4, s, ⟨fun _ => 1, 4⟩, ⟨fun _ _ => 0, g, true⟩, fun _ => 0, fun _ => 0, fun _ => 0, fun _ => 0⟩, hs, rfl, rfl, fun _ _ => rfl⟩

/-- Fresh layers with other contents of the matrices of the optimiser are twins. -/
example : GwTwin (demoCfg .adam true true) (2 * 3) ⟨0, 0, initState (demoCfg .adam true true) demoW 0⟩
    ⟨0, 0, { initState (demoCfg .adam true true) demoW 0 with A := fun i => i, B := fun _ => 1, b1t := 0 }⟩ :=
  fresh_twins (W := demoW) (W' := demoW) ⟨rfl, rfl, rfl, rfl⟩ (initState_ok _ _ _) ⟨rfl, rfl, fun _ _ _ => rfl, rfl, rfl, rfl, rfl, fun _ _ _ => rfl, rfl⟩ rfl

end Nntl.Backprop
