import Verif.Sgd.AnyOpts

/-! C192, C193: the hypotheses are met. -/
namespace Nntl.Sgd

open Nntl.Layers Nntl.Pass Nntl.Backprop Nntl.Grad
open Finset

/-- The network of `demoPlan` with the given gradient works in all layers. -/
noncomputable def optPlan (o : Opt) : Plan :=
  { demoPlan 1 with gw := fun _ m k => gradWorks o m k, go := gradWorks o 2 (demoTree.neurons + 1) }

theorem optPlan_ok (o : Opt) : (optPlan o).Ok := by
  obtain ⟨h1, h2, _, h4, _⟩ := demoTree_ok
  refine ⟨h1, show 4 ≤ 8 by decide, h2, ?_, h4, fun id => (demo_smooth id).1, (demoPlan_ok 1).last, (demoPlan_ok 1).loss⟩
  show demoTree.AllLeaves _
  have h := fcLayers_leaf (optPlan o).gw (optPlan o).act
  exact ⟨⟨⟨h 7, h 4, trivial⟩, h 2, trivial⟩, h 3, trivial⟩

/-- Learning rates that fall: `1 / (t + 1)`. Adam with a penalty on weights that are not biases. -/
noncomputable def demoAdam : Opt :=
  let c := fun t : ℕ => ({ demoCfg (1 / ((t : ℝ) + 1)) with type := .adam, beta1 := 9 / 10, beta2 := 999 / 1000, eps := 1 / 100000000, l2 := 1 / 10 } : Cfg)
  ⟨c 0, fun t => ⟨c t, false, fun _ => 0⟩, fun t => ⟨c t, false, fun _ => 0⟩⟩

/-- Nesterov's momentum. -/
noncomputable def demoNesterov : Opt :=
  let c : Cfg := { demoCfg (1 / 10) with useMom := true, nesterov := true, mom := 9 / 10, l1 := 1 / 100, l1IgnBias := false }
  ⟨c, fun _ => ⟨c, false, fun _ => 0⟩, fun _ => ⟨c, false, fun _ => 0⟩⟩

theorem demo_drop (c : Cfg) (h : c.lrDrop = 1) : c.bLRDropout = false := by simp [Cfg.bLRDropout, h]

theorem demoAdam_follows (m k : ℕ) : Follows (gradWorks demoAdam m k) m k
    (fun bias => .scheduled fun t => adamRule (1 / ((t : ℝ) + 1)) (9 / 10) (999 / 1000) (1 / 100000000) (penaltySlope 0 (1 / 10) true true bias))
    (moments m k (9 / 10) (999 / 1000)) :=
  gradWorks_adam demoAdam m k _ _ (fun _ => rfl) fun _ => ⟨⟨rfl, rfl, rfl, demo_drop _ rfl⟩, rfl, rfl, rfl, rfl⟩

theorem demoNesterov_follows (m k : ℕ) : Follows (gradWorks demoNesterov m k) m k
    (fun bias => .scheduled fun _ => nesterovRule (1 / 10) (9 / 10) (penaltySlope (1 / 100) 0 false true bias)) (velocities m k) :=
  gradWorks_nesterov demoNesterov m k (fun _ => ⟨⟨rfl, rfl, rfl, demo_drop _ rfl⟩, rfl, rfl⟩) fun _ => ⟨⟨rfl, rfl, rfl, demo_drop _ rfl⟩, rfl, rfl, rfl⟩

section
variable {gw : ℕ → ℕ → ℕ → GradWorks ℝ} {act : ℕ → Act.Act} {upd : ℕ → Bool} (g0 : ∀ id m k, (gw id m k).G) (w0 : ℕ → ℕ → ℕ → Mat ℝ)

/-- The matrices have the given contents, and their optimisers the given states. -/
def Has {S : Type} (A : Reader S) (ms : List MatInfo) (s : S) : Prop :=
  ∀ i m, ms[i]? = some m → A.cells s i = ⟨gw m.id m.rows m.cols, g0 m.id m.rows m.cols, w0 m.id m.rows m.cols⟩

theorem has_over {S T U : Type} {A : Reader S} {B : Reader T} {ms ms' : List MatInfo} {f : U → S} {g : U → T} {s : U} (h : Has g0 w0 A ms (f s))
    (h' : Has g0 w0 B ms' (g s)) : Has g0 w0 (A.over ms.length B f g) (ms ++ ms') s :=
  each_append.2 ⟨fun i m hi => by
    simp only [Reader.over, join, if_pos (lt_of_getElem? hi)]
    exact h i m hi, fun i m hi => by
    simp only [Reader.over, join, if_neg (show ¬ ms.length + i < ms.length by omega), show ms.length + i - ms.length = i by omega]
    exact h' i m hi⟩

mutual
/-- Every tree of layers has a state with the given contents of all matrices. -/
theorem tree_state (b : Bool) (l : Layer) (inc : BS) (n R : ℕ) (hp : l.AllPacks FieldsInside Divisible n) (hx : NoExtra l) :
    ∃ s, (sem (fcLayers gw act upd) l inc n).law.Inv b R s ∧ Has g0 w0 (treeGet gw act upd l inc n) (mats l n) s := by
  match l with
  | .leaf id l =>
    refine ⟨(⟨w0 id l.neurons (n + 1), g0 id l.neurons (n + 1), b⟩ : FcS (gw id l.neurons (n + 1))), rfl, fun i mm hi => ?_⟩
    have := lt_of_getElem? hi
    simp only [mats, List.length_cons, List.length_nil] at this
    obtain rfl : i = 0 := by omega
    simp only [mats, List.getElem?_cons_zero, Option.some.injEq] at hi
    subst hi
    rfl
  | .vert id f r =>
    obtain ⟨_, h2, h3⟩ := semDiff_ok (DI := fcDiffs gw act upd) f inc n hp.1 (allLeaves_of fcDiffs_ok f) hx.1
    exact stack_state b r inc f.neurons R hp.2 hx.2 (sem (fcLayers gw act upd) f inc n) h3 (treeGet gw act upd f inc n) _ (tree_state b f inc n R hp.1 hx.1)
  | .horiz id add fs =>
    simp only [Layer.AllPacks] at hp
    exact fields_state b fs inc R hp.2 hx.2
  | .tile id k l =>
    obtain ⟨⟨hk, hm⟩, hp⟩ := hp
    obtain ⟨s, hs, h⟩ := tree_state b l (inc.mul k) (n / k) (k * R) hp hx
    exact ⟨(s, ⟨fun _ => 1, k * R⟩, ⟨fun _ => 1, k * R⟩), ⟨hs, rfl, fun _ _ => rfl⟩, each_retile.2 h⟩
theorem stack_state (b : Bool) (r : Stack) (inc : BS) (m R : ℕ) (hp : r.AllPacks FieldsInside Divisible m) (hx : NoExtraS r) (acc : Sem ℝ)
    (hm : acc.obj.neurons = m) (A : Reader acc.obj.S) (ms : List MatInfo) (h : ∃ s, acc.law.Inv b R s ∧ Has g0 w0 A ms s) :
    ∃ s, (semStack (fcLayers gw act upd) r inc acc).law.Inv b R s ∧ Has g0 w0 (stackGet gw act upd r inc acc ms.length A) (ms ++ matsS r m) s := by
  match r with
  | .nil =>
    simp only [matsS, List.append_nil]
    exact h
  | .cons l r =>
    subst hm
    obtain ⟨_, h2, h3⟩ := semDiff_ok (DI := fcDiffs gw act upd) l inc acc.obj.neurons hp.1 (allLeaves_of fcDiffs_ok l) hx.1
    obtain ⟨s, hs, h⟩ := h
    obtain ⟨t, ht, h'⟩ := tree_state b l inc acc.obj.neurons R hp.1 hx.1
    have := stack_state b r inc l.neurons R hp.2 hx.2
      ⟨over acc.obj (sem (fcLayers gw act upd) l inc acc.obj.neurons).obj, overLaw acc.law (sem (fcLayers gw act upd) l inc acc.obj.neurons).law⟩ h3
      (A.over ms.length (treeGet gw act upd l inc acc.obj.neurons) (fun s : acc.obj.S × Stor ℝ × (sem (fcLayers gw act upd) l inc acc.obj.neurons).obj.S => s.1)
        fun s => s.2.2) (ms ++ mats l acc.obj.neurons) ⟨(s, ⟨fun _ => 1, R⟩, t), ⟨hs, ht, rfl, fun _ _ => rfl⟩, has_over g0 w0 h h'⟩
    rw [List.append_assoc, List.length_append] at this
    exact this
theorem fields_state (b : Bool) (fs : Fields) (inc : BS) (R : ℕ) (hp : fs.AllPacks FieldsInside Divisible) (hx : NoExtraF fs) :
    ∃ s, fInv b R (semFields (fcLayers gw act upd) fs inc).fs (semFields (fcLayers gw act upd) fs inc).laws s ∧
      Has g0 w0 (fieldsGet gw act upd fs inc) (matsF fs) s := by
  match fs with
  | .nil => exact ⟨(), trivial, fun i m hi => by cases hi⟩
  | .cons ofs cnt l r =>
    obtain ⟨s, hs, h⟩ := tree_state b l inc cnt R hp.1 hx.1
    obtain ⟨t, ht, h'⟩ := fields_state b r inc R hp.2 hx.2
    exact ⟨(s, t), ⟨hs, ht⟩, has_over g0 w0 h h'⟩
end
end

/-- Every network has a state with given contents of all matrices and given states of all optimisers. -/
theorem state_with {P : Plan} (ho : P.Ok) (g0 : ∀ id m k, (P.gw id m k).G) (w0 : ℕ → ℕ → ℕ → Mat ℝ) (go : P.go.G) (wo : Mat ℝ) :
    ∃ s : NetS P.net, P.Inv s ∧ P.shape.SameCells
      ⟨fun i => match (mats P.tree P.inputs)[i]? with
        | some m => ⟨P.gw m.id m.rows m.cols, g0 m.id m.rows m.cols, w0 m.id m.rows m.cols⟩
        | none => ⟨bare, (), fun _ _ => 0⟩, ⟨P.go, go, wo⟩⟩ (P.cells s) := by
  obtain ⟨s, hs, h⟩ := tree_state (act := P.act) (upd := P.upd) g0 w0 true P.tree P.bs P.inputs 1 ho.packs ho.noExtra
  refine ⟨⟨true, 1, s, ⟨fun _ => 1, 1⟩, (⟨wo, go, true⟩ : FcS P.go), fun _ => 0, fun _ => 0, fun _ => 0, fun _ => 0⟩, ⟨hs, rfl, rfl, fun _ _ => rfl⟩,
    fun i m hm => ?_, rfl⟩
  refine (h i m hm).trans ?_
  show _ = match (mats P.tree P.inputs)[i]? with
        | some m => (⟨P.gw m.id m.rows m.cols, g0 m.id m.rows m.cols, w0 m.id m.rows m.cols⟩ : Cell)
        | none => ⟨bare, (), fun _ _ => 0⟩
  have hm : (mats P.tree P.inputs)[i]? = some m := hm
  rw [hm]

/-- A new network: all weights are `1`, and all gradient works are before their first use. -/
theorem optPlan_state (o : Opt) {σ : Type} (z : σ) (rep : ∀ _ _ : ℕ, GwS → (ℕ → ℕ → σ) → Prop) (hz : ∀ m k, rep m k demoGw fun _ _ => z) :
    ∃ s : NetS (optPlan o).net, (optPlan o).Inv s ∧ (optPlan o).Holds (fun _ m k => rep m k) (rep 2 (demoTree.neurons + 1)) ((optPlan o).cells s)
      ⟨⟨fun _ _ _ => 1, fun _ _ => 1⟩, fun _ _ _ => z, fun _ _ => z⟩ := by
  obtain ⟨s, hi, h1, h2⟩ := state_with (optPlan_ok o) (fun _ _ _ => demoGw) (fun _ _ _ _ _ => 1) demoGw fun _ _ => 1
  refine ⟨s, hi, fun i m hm => ⟨demoGw, fun _ _ => 1, (h1 i m hm).trans ?_, fun _ _ _ _ => rfl, hz _ _⟩, demoGw, fun _ _ => 1, h2, fun _ _ _ _ => rfl, hz _ _⟩
  show (match (mats (optPlan o).tree (optPlan o).inputs)[i]? with
        | some m => (⟨(optPlan o).gw m.id m.rows m.cols, demoGw, fun _ _ => 1⟩ : Cell)
        | none => ⟨bare, (), fun _ _ => 0⟩) = _
  rw [hm]

/-- C193 for the example with Adam: any history of evaluations and training steps of a new network. -/
example : ∃ s0 : NetS (optPlan demoAdam).net, (optPlan demoAdam).Inv s0 ∧ ∀ us : List (Use ℝ), (∀ u ∈ us, (optPlan demoAdam).Fits u) →
    ∃ h' : Held (ℕ × ℕ × ℝ × ℝ), (optPlan demoAdam).shape.RulePath
      (fun _ bias => .scheduled fun t => adamRule (1 / ((t : ℝ) + 1)) (9 / 10) (999 / 1000) (1 / 100000000) (penaltySlope 0 (1 / 10) true true bias))
      (fun bias => .scheduled fun t => adamRule (1 / ((t : ℝ) + 1)) (9 / 10) (999 / 1000) (1 / 100000000) (penaltySlope 0 (1 / 10) true true bias))
      (batches us) ⟨⟨fun _ _ _ => 1, fun _ _ => 1⟩, fun _ _ _ => (0, 0, 0, 0), fun _ _ => (0, 0, 0, 0)⟩ h' ∧
      (optPlan demoAdam).shape.Same ((optPlan demoAdam).weights ((optPlan demoAdam).net.run s0 us)) h'.W := by
  obtain ⟨s0, hi, hh⟩ := optPlan_state demoAdam ((0, 0, 0, 0) : ℕ × ℕ × ℝ × ℝ) (fun m k => moments m k (9 / 10) (999 / 1000))
    fun m k => .inl ⟨rfl, fun _ _ _ _ => rfl⟩
  refine ⟨s0, hi, fun us hus => ?_⟩
  obtain ⟨h', k1, k2, _⟩ := training_follows_the_rules (optPlan_ok demoAdam) (fun _ m k => demoAdam_follows m k) (demoAdam_follows _ _) (fun _ => rfl) rfl us s0 hi
    hus (fun _ _ _ _ _ _ => demoPlan_regular 1 _ _ _ _) _ hh
  exact ⟨h', k1, k2⟩

/-- The same with Nesterov's momentum. -/
example : ∃ s0 : NetS (optPlan demoNesterov).net, (optPlan demoNesterov).Inv s0 ∧ ∀ us : List (Use ℝ), (∀ u ∈ us, (optPlan demoNesterov).Fits u) →
    ∃ h' : Held (ℕ × ℝ), (optPlan demoNesterov).shape.RulePath
      (fun _ bias => .scheduled fun _ => nesterovRule (1 / 10) (9 / 10) (penaltySlope (1 / 100) 0 false true bias))
      (fun bias => .scheduled fun _ => nesterovRule (1 / 10) (9 / 10) (penaltySlope (1 / 100) 0 false true bias))
      (batches us) ⟨⟨fun _ _ _ => 1, fun _ _ => 1⟩, fun _ _ _ => (0, 0), fun _ _ => (0, 0)⟩ h' ∧
      (optPlan demoNesterov).shape.Same ((optPlan demoNesterov).weights ((optPlan demoNesterov).net.run s0 us)) h'.W := by
  obtain ⟨s0, hi, hh⟩ := optPlan_state demoNesterov ((0, 0) : ℕ × ℝ) velocities fun m k => ⟨rfl, fun _ _ _ _ => rfl⟩
  refine ⟨s0, hi, fun us hus => ?_⟩
  obtain ⟨h', k1, k2, _⟩ := training_follows_the_rules (optPlan_ok demoNesterov) (fun _ m k => demoNesterov_follows m k) (demoNesterov_follows _ _) (fun _ => rfl)
    rfl us s0 hi hus (fun _ _ _ _ _ _ => demoPlan_regular 1 _ _ _ _) _ hh
  exact ⟨h', k1, k2⟩

/-- Settings with momentum, and with RMSProp, that the theorems accept. -/
example (m k : ℕ) : Follows (gradWorks ⟨demoCfg 1, fun _ => ⟨demoCfg 1, false, fun _ => 0⟩, fun _ => ⟨{ demoCfg 1 with useMom := true, mom := 1 / 2 }, false, fun _ => 0⟩⟩ m k)
    m k (fun bias => .scheduled fun _ => momentumRule 1 (1 / 2) (penaltySlope 0 0 true true bias)) (velocities m k) :=
  gradWorks_momentum _ m k (fun _ => rfl) fun _ => ⟨⟨rfl, rfl, rfl, demo_drop _ rfl⟩, rfl, rfl, rfl⟩
example (m k : ℕ) : Follows (gradWorks ⟨demoCfg 1, fun _ => ⟨demoCfg 1, false, fun _ => 0⟩,
      fun _ => ⟨{ demoCfg 1 with type := .rmsHinton, beta1 := 9 / 10, eps := 1 / 1000 }, false, fun _ => 0⟩⟩ m k)
    m k (fun bias => .scheduled fun _ => rmsRule 1 (9 / 10) (1 / 1000) (penaltySlope 0 0 true true bias)) (squares m k) :=
  gradWorks_rmsprop _ m k (fun _ => rfl) fun _ => ⟨⟨rfl, rfl, rfl, demo_drop _ rfl⟩, rfl, rfl⟩

end Nntl.Sgd
