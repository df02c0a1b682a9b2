import Verif.Sgd.ExtMatProps
import Verif.Sgd.MatCases
import Verif.Backprop.LexProps

/-! C198, C199: the hypotheses are met. -/
namespace Nntl.Sgd

open Nntl.Layers Nntl.Pass Nntl.Backprop Nntl.Grad Nntl.Matrix Nntl.Kernel
open Finset

/-! ### The penalties of the library look at nothing but the activations -/

theorem l2_penLocal (b : Bool) (scale : ℝ) : PenLocal (l2Pen b scale) where
  val := fun R n A B h => by
    simp only [l2Pen]
    exact congrArg _ (sum_congr rfl fun r hr => sum_congr rfl fun c hc => by rw [h r (mem_range.1 hr) c (mem_range.1 hc)])
  ok := fun _ _ _ _ _ _ => trivial

theorem l1_penLocal (b : Bool) (scale : ℝ) : PenLocal (l1Pen b scale) where
  val := fun R n A B h => by
    simp only [l1Pen]
    exact congrArg _ (sum_congr rfl fun r hr => sum_congr rfl fun c hc => by rw [h r (mem_range.1 hr) c (mem_range.1 hc)])
  ok := fun R n A B h hA r hr c hc => by
    rw [← h r hr c hc]
    exact hA r hr c hc

theorem deCov_penLocal (b : Bool) (scale : ℝ) : PenLocal (deCovPen b scale) where
  val := fun R n A B h => by
    simp only [deCovPen]
    rw [(deCov_congr h).1]
  ok := fun _ _ _ _ _ _ => trivial

/-! ### Batches that can be trained on -/

mutual
theorem smoothOn_of {act : ℕ → ℝ → ℝ} {e : ℕ → Ext} (h : ∀ id z, DifferentiableAt ℝ (act id) z) (he : ∀ id, (e id).Everywhere) (k : Option ℕ) (l : Layer) (n : ℕ)
    (W : ℕ → Mat ℝ) (R : ℕ) (X : Mat ℝ) : SmoothOn act e k l n W R X := by
  match l with
  | .leaf id _ => exact ⟨fun _ _ _ _ => h id _, fun p hp => he id p hp _ _ _⟩
  | .vert _ f r => exact ⟨smoothOn_of h he k f _ _ _ _, smoothOnS_of h he k r _ _ _ _⟩
  | .horiz _ _ fs => exact smoothOnF_of h he k fs _ _ _
  | .tile _ _ l => exact smoothOn_of h he k l _ _ _ _
theorem smoothOnS_of {act : ℕ → ℝ → ℝ} {e : ℕ → Ext} (h : ∀ id z, DifferentiableAt ℝ (act id) z) (he : ∀ id, (e id).Everywhere) (k : Option ℕ) (r : Stack) (n : ℕ)
    (W : ℕ → Mat ℝ) (R : ℕ) (X : Mat ℝ) : SmoothOnS act e k r n W R X := by
  match r with
  | .nil => trivial
  | .cons l r => exact ⟨smoothOn_of h he k l _ _ _ _, smoothOnS_of h he k r _ _ _ _⟩
theorem smoothOnF_of {act : ℕ → ℝ → ℝ} {e : ℕ → Ext} (h : ∀ id z, DifferentiableAt ℝ (act id) z) (he : ∀ id, (e id).Everywhere) (k : Option ℕ) (fs : Fields)
    (W : ℕ → Mat ℝ) (R : ℕ) (X : Mat ℝ) : SmoothOnF act e k fs W R X := by
  match fs with
  | .nil => trivial
  | .cons _ _ l r => exact ⟨smoothOn_of h he k l _ _ _ _, smoothOnF_of h he k r _ _ _⟩
end

/-- C198. Batches can be trained on with any weights and any draws, if the activation functions and the penalties have derivatives everywhere, and the last layer is an
elementwise one as in C81. -/
theorem regularOn_elementwise {S : Shape} {e : ℕ → Ext} (o : Act.Out) (hoa : o.Args) (hr : ∀ y z, o.Regular y (o.act.fn z))
    (hact : ∀ id z, DifferentiableAt ℝ (S.act id) z) (he : ∀ id, (e id).Everywhere)
    (h1 : S.last = fun z c => o.act.f (z c)) (h2 : S.loss = fun a y => ∑ c ∈ range S.outputs, o.ideal (y c) (a c)) (k R : ℕ) (X Y : Mat ℝ) (W : Weights) :
    S.RegularOn e (fun a y => o.dLdZ y a) k R X Y W := by
  refine ⟨smoothOn_of hact he _ _ _ _ _ _, fun r _ => ?_⟩
  rw [h1, h2]
  exact elementwise_lossGrad o hoa S.outputs _ _ fun c _ => hr _ _

/-! ### States -/

section
variable {gw : ℕ → ℕ → ℕ → GradWorks ℝ} {act : ℕ → Act.Act} {upd : ℕ → Bool} {e : ℕ → Ext} (he : ∀ id, (e id).Ok) (g0 : ∀ id m k, (gw id m k).G)
  (w0 : ℕ → ℕ → ℕ → Mat ℝ)
include he

mutual
/-- Every tree of layers has a state with the given contents of all matrices, where nothing was drawn yet. -/
theorem tree_stateB (b : Bool) (l : Layer) (inc : BS) (n R : ℕ) (hp : l.AllPacks FieldsInside Divisible n) (hx : NoExtra l) :
    ∃ s, (sem (exLayers gw act upd e) l inc n).law.Inv b R s ∧ Has g0 w0 (treeGetB gw act upd e l inc n).toReader (mats l n) s ∧
      (treeGetB gw act upd e l inc n).noted b 0 s := by
  match l with
  | .leaf id l =>
    refine ⟨(((⟨w0 id l.neurons (n + 1), g0 id l.neurons (n + 1), b⟩ : FcS (gw id l.neurons (n + 1))), (⟨b, fun _ => 0, fun _ => 0, 0, fun _ _ _ => 0⟩ : LexS ℝ)) :
      FcS (gw id l.neurons (n + 1)) × LexS ℝ), ⟨rfl, rfl⟩, fun i mm hi => ?_, rfl, fun _ => rfl⟩
    have := lt_of_getElem? hi
    simp only [mats, List.length_cons, List.length_nil] at this
    obtain rfl : i = 0 := by omega
    simp only [mats, List.getElem?_cons_zero, Option.some.injEq] at hi
    subst hi
    rfl
  | .vert id f r =>
    obtain ⟨_, h2, h3⟩ := semDiff_ok (DI := exDiff gw act upd e) f inc n hp.1 (allLeaves_of (exDiff_ok he) f) hx.1
    exact stack_stateB b r inc f.neurons R hp.2 hx.2 (sem (exLayers gw act upd e) f inc n) h3 (treeGetB gw act upd e f inc n) _ (tree_stateB b f inc n R hp.1 hx.1)
  | .horiz id add fs =>
    simp only [Layer.AllPacks] at hp
    exact fields_stateB b fs inc R hp.2 hx.2
  | .tile id k l =>
    obtain ⟨⟨hk, hm⟩, hp⟩ := hp
    obtain ⟨s, hs, h, hn⟩ := tree_stateB b l (inc.mul k) (n / k) (k * R) hp hx
    exact ⟨(s, ⟨fun _ => 1, k * R⟩, ⟨fun _ => 1, k * R⟩), ⟨hs, rfl, fun _ _ => rfl⟩, each_retile.2 h, hn⟩
theorem stack_stateB (b : Bool) (r : Stack) (inc : BS) (m R : ℕ) (hp : r.AllPacks FieldsInside Divisible m) (hx : NoExtraS r) (acc : Sem ℝ)
    (hm : acc.obj.neurons = m) (A : BReader acc.obj.S) (ms : List MatInfo) (h : ∃ s, acc.law.Inv b R s ∧ Has g0 w0 A.toReader ms s ∧ A.noted b 0 s) :
    ∃ s, (semStack (exLayers gw act upd e) r inc acc).law.Inv b R s ∧ Has g0 w0 (stackGetB gw act upd e r inc acc ms.length A).toReader (ms ++ matsS r m) s ∧
      (stackGetB gw act upd e r inc acc ms.length A).noted b 0 s := by
  match r with
  | .nil =>
    simp only [matsS, List.append_nil]
    exact h
  | .cons l r =>
    subst hm
    obtain ⟨_, h2, h3⟩ := semDiff_ok (DI := exDiff gw act upd e) l inc acc.obj.neurons hp.1 (allLeaves_of (exDiff_ok he) l) hx.1
    obtain ⟨s, hs, h, hn⟩ := h
    obtain ⟨t, ht, h', hn'⟩ := tree_stateB b l inc acc.obj.neurons R hp.1 hx.1
    have := stack_stateB b r inc l.neurons R hp.2 hx.2
      ⟨over acc.obj (sem (exLayers gw act upd e) l inc acc.obj.neurons).obj, overLaw acc.law (sem (exLayers gw act upd e) l inc acc.obj.neurons).law⟩ h3
      (A.over ms.length (treeGetB gw act upd e l inc acc.obj.neurons) (fun s : acc.obj.S × Stor ℝ × (sem (exLayers gw act upd e) l inc acc.obj.neurons).obj.S => s.1)
        fun s => s.2.2) (ms ++ mats l acc.obj.neurons) ⟨(s, ⟨fun _ => 1, R⟩, t), ⟨hs, ht, rfl, fun _ _ => rfl⟩, has_over g0 w0 h h', hn, hn'⟩
    rw [List.append_assoc, List.length_append] at this
    exact this
theorem fields_stateB (b : Bool) (fs : Fields) (inc : BS) (R : ℕ) (hp : fs.AllPacks FieldsInside Divisible) (hx : NoExtraF fs) :
    ∃ s, fInv b R (semFields (exLayers gw act upd e) fs inc).fs (semFields (exLayers gw act upd e) fs inc).laws s ∧
      Has g0 w0 (fieldsGetB gw act upd e fs inc).toReader (matsF fs) s ∧ (fieldsGetB gw act upd e fs inc).noted b 0 s := by
  match fs with
  | .nil => exact ⟨(), trivial, (fun i m hi => by cases hi), trivial⟩
  | .cons ofs cnt l r =>
    obtain ⟨s, hs, h, hn⟩ := tree_stateB b l inc cnt R hp.1 hx.1
    obtain ⟨t, ht, h', hn'⟩ := fields_stateB b r inc R hp.2 hx.2
    exact ⟨(s, t), ⟨hs, ht⟩, has_over g0 w0 h h', hn, hn'⟩
end
end

/-- Every network with dropout and penalties has a state with given contents of all matrices and given states of all optimisers, where nothing was drawn yet. -/
theorem XPlan.state_with {Q : XPlan} (ho : Q.Ok) (g0 : ∀ id m k, (Q.gw id m k).G) (w0 : ℕ → ℕ → ℕ → Mat ℝ) (go : Q.go.G) (wo : Mat ℝ) :
    ∃ s : NetS Q.net, Q.Inv s ∧ Q.Drawn 0 s ∧ Q.shape.SameCells
      ⟨fun i => match (mats Q.tree Q.inputs)[i]? with
        | some m => ⟨Q.gw m.id m.rows m.cols, g0 m.id m.rows m.cols, w0 m.id m.rows m.cols⟩
        | none => ⟨bare, (), fun _ _ => 0⟩, ⟨Q.go, go, wo⟩⟩ (Q.cells s) := by
  obtain ⟨s, hs, h, hn⟩ := tree_stateB (act := Q.act) (upd := Q.upd) ho.exts.exts g0 w0 true Q.tree Q.bs Q.inputs 1 ho.packs ho.noExtra
  refine ⟨⟨true, 1, s, ⟨fun _ => 1, 1⟩, (⟨wo, go, true⟩ : FcS Q.go), fun _ => 0, fun _ => 0, fun _ => 0, fun _ => 0⟩, ⟨hs, rfl, rfl, fun _ _ => rfl⟩, hn,
    fun i m hm => ?_, rfl⟩
  refine (h i m hm).trans ?_
  show _ = match (mats Q.tree Q.inputs)[i]? with
        | some m => (⟨Q.gw m.id m.rows m.cols, g0 m.id m.rows m.cols, w0 m.id m.rows m.cols⟩ : Cell)
        | none => ⟨bare, (), fun _ _ => 0⟩
  have hm : (mats Q.tree Q.inputs)[i]? = some m := hm
  rw [hm]

/-! ### An example -/

theorem demoExt_penLocal (id : ℕ) : ∀ p ∈ (demoExt id).pens, PenLocal p := by
  unfold demoExt
  split
  · simp [l2_penLocal]
  split
  · simp
  split
  · simp [l2_penLocal, deCov_penLocal]
  · simp

/-- The network of `demoPart` with dropout and L2 for layer 4, alpha dropout for layer 5, DeCov and L2 for layer 6. -/
noncomputable def demoThin : XPlan := ⟨demoPart, demoExt⟩

noncomputable def demoThinWith (ty : ℕ → GradType) (tyo : GradType) (b : ℕ → Bool := fun t => decide (t = 5)) : XPlan :=
  demoThin.using (fun id => demoEvery (ty id) b) (demoEvery tyo b)

theorem demoThin_ok (ty : ℕ → GradType) (tyo : GradType) (b : ℕ → Bool) : (demoThinWith ty tyo b).Ok := by
  obtain ⟨h1, h2, _, h4, _⟩ := demoTree_ok
  refine ⟨h1, show 4 ≤ 8 by decide, h2, ?_, h4, ⟨fun id => (demo_smooth id).1, fun id => (demoExt_ok id).1, demoExt_penLocal⟩, (demoPlan_ok 1).last, (demoPlan_ok 1).loss⟩
  show demoTree.AllLeaves _
  have h := exLayers_ok (gw := (demoThinWith ty tyo b).gw) (act := (demoThinWith ty tyo b).act) (e := demoExt) fun id => (demoExt_ok id).1
  exact ⟨⟨⟨h 7, h 4, trivial⟩, h 2, trivial⟩, h 3, trivial⟩

theorem demoThin_regular (k R : ℕ) (X Y : Mat ℝ) (W : Weights) : demoThin.shape.RegularOn demoThin.ext demoThin.dz k R X Y W := by
  have ha : Act.Out.sigmXent.Args := by simp [Act.Out.Args, Act.Out.act, Act.Act.Args]
  exact regularOn_elementwise .sigmXent ha (fun y z => Act.act_regular _ ha z (.inl rfl) y) (fun id z => (demo_smooth id).2 z) (fun id => (demoExt_ok id).2) rfl rfl k R X Y W

/-- A new network: all weights are `1`, nothing was drawn. -/
theorem demoThin_state (ty : ℕ → GradType) (tyo : GradType) (b : ℕ → Bool) : ∃ s : NetS (demoThinWith ty tyo b).net, (demoThinWith ty tyo b).Inv s ∧
    (demoThinWith ty tyo b).Drawn 0 s ∧
    (demoThinWith ty tyo b).Stores (fun id m k => stands m k (ty id) (9 / 10) (99 / 100) 0) (stands 2 (demoTree.neurons + 1) tyo (9 / 10) (99 / 100) 0)
      ((demoThinWith ty tyo b).cells s) demoStock := by
  obtain ⟨s, hi, hd, h1, h2⟩ := XPlan.state_with (demoThin_ok ty tyo b) (fun _ _ _ => demoGw) (fun _ _ _ _ _ => 1) demoGw fun _ _ => 1
  refine ⟨s, hi, hd, fun i m hm => ⟨demoGw, fun _ _ => 1, (h1 i m hm).trans ?_, fun _ _ _ _ => rfl, new_works_stand _ _ _ _ _ _ _ rfl fun _ => rfl⟩,
    demoGw, fun _ _ => 1, h2, fun _ _ _ _ => rfl, new_works_stand _ _ _ _ _ _ _ rfl fun _ => rfl⟩
  show (match (mats (demoThinWith ty tyo b).tree (demoThinWith ty tyo b).inputs)[i]? with
        | some m => (⟨(demoThinWith ty tyo b).gw m.id m.rows m.cols, demoGw, fun _ _ => 1⟩ : Cell)
        | none => ⟨bare, (), fun _ _ => 0⟩) = _
  rw [hm]

/-- C198, C199 for the example: any types in the layers, any history of evaluations and training steps. -/
example (ty : ℕ → GradType) (tyo : GradType) (b : ℕ → Bool) : ∃ s0 : NetS (demoThinWith ty tyo b).net, (demoThinWith ty tyo b).Inv s0 ∧
    ∀ us : List (Use ℝ), (∀ u ∈ us, (demoThinWith ty tyo b).Fits u) →
      (demoThinWith ty tyo b).Drawn (batches us).length ((demoThinWith ty tyo b).net.run s0 us) ∧
      demoThin.shape.CourseOn (fun _ => true) false (demoThin.shape.objectives demoExt 0 (batches us)) ((demoThinWith ty tyo b).cells s0)
        ((demoThinWith ty tyo b).cells ((demoThinWith ty tyo b).net.run s0 us)) ∧
      ∃ h', demoThin.shape.MatPathOn (fun _ => true) false (fun id => ruleOf (demoEvery (ty id) b) (ty id) (9 / 10) (99 / 100) 0)
        (ruleOf (demoEvery tyo b) tyo (9 / 10) (99 / 100) 0 2 (demoTree.neurons + 1)) (demoThin.shape.objectives demoExt 0 (batches us)) demoStock h' ∧
        demoThin.shape.Same ((demoThinWith ty tyo b).weights ((demoThinWith ty tyo b).net.run s0 us)) h'.W := by
  obtain ⟨s0, hi, hd, hh⟩ := demoThin_state ty tyo b
  refine ⟨s0, hi, fun us hus => ⟨?_, ?_, ?_⟩⟩
  · have := one_draw_per_training_step (demoThin_ok ty tyo b) us s0 hi hus 0 hd
    rw [Nat.zero_add] at this
    exact this
  · exact training_descends_on_thinned_losses (demoThin_ok ty tyo b) us s0 0 hi hd hus fun _ _ _ _ _ _ => demoThin_regular _ _ _ _ _
  · exact dropout_training_with_every_setting (Q := demoThin) (fun id => demoEvery (ty id) b) (demoEvery tyo b) ty (fun _ => 9 / 10) (fun _ => 99 / 100) (fun _ => 0) tyo
      (9 / 10) (99 / 100) 0 (demoThin_ok ty tyo b) (fun _ => demoEvery_stays _ _) (demoEvery_stays _ _) us s0 hi 0 hd hus (fun _ _ _ _ _ _ => demoThin_regular _ _ _ _ _) _ hh

/-- Uses that fit. -/
example (ty : ℕ → GradType) (tyo : GradType) (b : ℕ → Bool) :
    ∀ u ∈ [Use.eval 7 (fun _ => 1), .train 3 (fun _ => 1) fun _ => 0, .train 4 (fun _ => 1) fun _ => 1], (demoThinWith ty tyo b).Fits u := by
  intro u hu
  simp only [List.mem_cons, List.not_mem_nil, or_false] at hu
  rcases hu with rfl | rfl | rfl
  · exact ⟨by decide, show 7 ≤ 8 by decide, fun _ _ => rfl⟩
  · exact ⟨by decide, show 3 ≤ 4 by decide, fun _ _ => rfl⟩
  · exact ⟨by decide, show 4 ≤ 4 by decide, fun _ _ => rfl⟩

/-- The thinned network is another one than the whole network, and differs from draw to draw: an activation `1` of layer 4 in the first row becomes 0 or 2 in training,
and stays in evaluation. -/
example : thinned (demoExt 4) (some 0) 1 0 0 1 ≠ thinned (demoExt 4) (some 1) 1 0 0 1 ∧ thinned (demoExt 4) none 1 0 0 1 = 1 := by
  refine ⟨?_, by simp [thinned]⟩
  simp [thinned, demoExt, Dropout.dropped]
  try norm_num

end Nntl.Sgd
