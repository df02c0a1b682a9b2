import Verif.Sgd.ExtMatProps
import Verif.Sgd.ExtWhole

/-! C201: what optimisers get in a training step, if derivatives need not exist. -/
namespace Nntl.Sgd

open Nntl.Layers Nntl.Pass Nntl.Backprop Nntl.Grad
open Finset

/-- The second state is that after the optimisers of trained layers were given some gradients. -/
def Led {S : Type} (A : Reader S) (ms : List MatInfo) (upd : ℕ → Bool) (s s' : S) : Prop :=
  ∀ i m, ms[i]? = some m → ∃ d : Mat ℝ, A.cells s' i = if upd m.id then (A.cells s i).apply d else A.cells s i

theorem led_over {S T U : Type} {A : Reader S} {B : Reader T} {ms ms' : List MatInfo} {f : U → S} {g : U → T} {upd : ℕ → Bool} {s s' : U}
    (h : Led A ms upd (f s) (f s')) (h' : Led B ms' upd (g s) (g s')) : Led (A.over ms.length B f g) (ms ++ ms') upd s s' :=
  each_append.2 ⟨fun i m hi => by
    simp only [Reader.over, join, if_pos (lt_of_getElem? hi)]
    exact h i m hi, fun i m hi => by
    simp only [Reader.over, join, if_neg (show ¬ ms.length + i < ms.length by omega), show ms.length + i - ms.length = i by omega]
    exact h' i m hi⟩

section
variable {gw : ℕ → ℕ → ℕ → GradWorks ℝ} {act : ℕ → Act.Act} {upd : ℕ → Bool} {e : ℕ → Ext}

theorem leaf_led (id : ℕ) (l : Leaf) (inc : BS) (n : ℕ) (R : ℕ) (need : Bool) (s : (sem (exLayers gw act upd e) (.leaf id l) inc n).obj.S) (I T O G P : Mem ℝ) :
    Led (treeGetB gw act upd e (.leaf id l) inc n).toReader [⟨id, l.neurons, n + 1, 1⟩] upd s
      ((sem (exLayers gw act upd e) (.leaf id l) inc n).obj.bprop R need s I T O G P).s := by
  intro i m hi
  have hl := lt_of_getElem? hi
  simp only [List.length_cons, List.length_nil] at hl
  obtain rfl : i = 0 := by omega
  simp only [List.getElem?_cons_zero, Option.some.injEq] at hi
  subst hi
  have key : ∀ (gw : GradWorks ℝ) (f df : ℝ → ℝ) (u : Bool) (NT m : ℕ) (s : FcS gw) (I T O G P : Mem ℝ), ∃ d : Mat ℝ,
      (fcReader gw).cells ((fc realArith gw f df u NT n m).bprop R need s I T O G P).s 0 =
        if u then ((fcReader gw).cells s 0).apply d else (fcReader gw).cells s 0 := by
    intro gw f df u NT m s I T O G P
    cases u
    · exact ⟨fun _ _ => 0, rfl⟩
    · exact ⟨_, rfl⟩
  exact key _ _ _ _ _ _ _ _ _ _ _ _

mutual
/-- In a backward pass every optimiser of a trained layer is given one gradient; others are left as they are. -/
theorem tree_led (ha : ExtsOk act e) (l : Layer) (inc : BS) (n : ℕ) (hp : l.AllPacks FieldsInside Divisible n) (hx : NoExtra l) (R : ℕ) (need : Bool)
    (s : (sem (exLayers gw act upd e) l inc n).obj.S) (I T O G P : Mem ℝ) :
    Led (treeGetB gw act upd e l inc n).toReader (mats l n) upd s ((sem (exLayers gw act upd e) l inc n).obj.bprop R need s I T O G P).s := by
  match l with
  | .leaf id l => exact leaf_led id l inc n R need s I T O G P
  | .vert _ f r =>
    obtain ⟨_, h2, h3⟩ := semDiff_ok (DI := exDiff gw act upd e) f inc n hp.1 (allLeaves_of (exDiff_ok ha.exts) f) hx.1
    exact stack_led ha r inc f.neurons hp.2 hx.2 (sem (exLayers gw act upd e) f inc n) h3 (treeGetB gw act upd e f inc n) (mats f n)
      (fun R need s I T O G P => tree_led ha f inc n hp.1 hx.1 R need s I T O G P) R need s I T O G P
  | .horiz _ add fs =>
    simp only [Layer.AllPacks] at hp
    exact fields_led ha fs inc hp.2 hx.2 R n inc.biggest _ need 0 s I T O G _
  | .tile id k l =>
    obtain ⟨⟨hk, hm⟩, hp⟩ := hp
    exact each_retile.2 fun i m hi => tree_led ha l (inc.mul k) (n / k) hp hx (k * R) need s.1 _ _ _ _ _ i m hi
theorem stack_led (ha : ExtsOk act e) (r : Stack) (inc : BS) (m : ℕ) (hp : r.AllPacks FieldsInside Divisible m) (hx : NoExtraS r) (acc : Sem ℝ)
    (hm : acc.obj.neurons = m) (get : BReader acc.obj.S) (ms : List MatInfo)
    (h : ∀ R need s I T O G P, Led get.toReader ms upd s (acc.obj.bprop R need s I T O G P).s) (R : ℕ) (need : Bool)
    (s : (semStack (exLayers gw act upd e) r inc acc).obj.S) (I T O G P : Mem ℝ) :
    Led (stackGetB gw act upd e r inc acc ms.length get).toReader (ms ++ matsS r m) upd s
      ((semStack (exLayers gw act upd e) r inc acc).obj.bprop R need s I T O G P).s := by
  match r with
  | .nil =>
    simp only [matsS, List.append_nil]
    exact h R need s I T O G P
  | .cons l r =>
    subst hm
    obtain ⟨_, h2, h3⟩ := semDiff_ok (DI := exDiff gw act upd e) l inc acc.obj.neurons hp.1 (allLeaves_of (exDiff_ok ha.exts) l) hx.1
    have := stack_led ha r inc l.neurons hp.2 hx.2
      ⟨over acc.obj (sem (exLayers gw act upd e) l inc acc.obj.neurons).obj, overLaw acc.law (sem (exLayers gw act upd e) l inc acc.obj.neurons).law⟩ h3
      (get.over ms.length (treeGetB gw act upd e l inc acc.obj.neurons) (fun s : acc.obj.S × Stor ℝ × (sem (exLayers gw act upd e) l inc acc.obj.neurons).obj.S => s.1)
        fun s => s.2.2) (ms ++ mats l acc.obj.neurons) (fun R need s I T O G P => led_over (by
          simp only [over]
          split
          · exact h _ _ _ _ _ _ _ _
          · exact h _ _ _ _ _ _ _ _) (tree_led ha l inc acc.obj.neurons hp.1 hx.1 R true s.2.2 s.2.1.m T O G P)) R need s I T O G P
    rw [List.append_assoc, List.length_append] at this
    exact this
theorem fields_led (ha : ExtsOk act e) (fs : Fields) (inc : BS) (hp : fs.AllPacks FieldsInside Divisible) (hx : NoExtraF fs) (R n bias buf : ℕ) (need : Bool)
    (fo : ℕ) (s : FState (semFields (exLayers gw act upd e) fs inc).fs) (I T O G P : Mem ℝ) :
    Led (fieldsGetB gw act upd e fs inc).toReader (matsF fs) upd s (fBprop R n bias buf need (semFields (exLayers gw act upd e) fs inc).fs fo s I T O G P).s := by
  match fs with
  | .nil => exact fun i m hi => absurd (lt_of_getElem? hi) (Nat.not_lt_zero _)
  | .cons ofs cnt l r =>
    exact led_over (f := fun s : (sem (exLayers gw act upd e) l inc cnt).obj.S × FState (semFields (exLayers gw act upd e) r inc).fs => s.1) (g := fun s => s.2)
      (tree_led ha l inc cnt hp.1 hx.1 R need s.1 _ _ _ _ _) (fields_led ha r inc hp.2 hx.2 R n bias buf need _ s.2 I T O G P)
end

end

/-! ### Gradients that are those of some objective -/

theorem inner_line (m n : ℕ) (g A V : Mat ℝ) (t : ℝ) : inner m n g (fun c j => A c j + t * V c j) = inner m n g A + t * inner m n g V := by
  simp only [Backprop.inner, mul_add, sum_add_distrib, mul_sum]
  congr 1
  exact sum_congr rfl fun _ _ => sum_congr rfl fun _ _ => by ring

theorem pairing_line : ∀ (ws : List Wt) (g A V : ℕ → Mat ℝ) (t : ℝ), pairing ws g (fun i c j => A i c j + t * V i c j) = pairing ws g A + t * pairing ws g V
  | [], _, _, _, _ => by simp [pairing]
  | w :: ws, g, A, V, t => by
    simp only [pairing]
    rw [inner_line, pairing_line ws (fun i => g (i + 1)) (fun i => A (i + 1)) (fun i => V (i + 1)) t]
    ring

theorem pairing_same : ∀ (ms : List MatInfo) (g V V' : ℕ → Mat ℝ), Same ms V V' → pairing (ms.map toWt) g V = pairing (ms.map toWt) g V'
  | [], _, _, _, _ => rfl
  | m :: ms, g, V, V', h => by
    simp only [List.map_cons, pairing]
    rw [pairing_same ms (fun i => g (i + 1)) (fun i => V (i + 1)) (fun i => V' (i + 1)) fun i m' hi => h (i + 1) m' hi]
    congr 2
    exact sum_congr rfl fun c hc => sum_congr rfl fun j hj => by rw [h 0 m rfl c (mem_range.1 hc) j (mem_range.1 hj)]

/-- The linear function with given slopes. -/
noncomputable def Shape.linear (S : Shape) (g : ℕ → Mat ℝ) (h : Mat ℝ) (W : Weights) : ℝ :=
  pairing ((mats S.tree S.inputs).map toWt) g W.body + inner S.outputs (S.tree.neurons + 1) h W.out

theorem linear_respects (S : Shape) (g : ℕ → Mat ℝ) (h : Mat ℝ) : Respects S (S.linear g h) := fun W W' hw => by
  unfold Shape.linear
  congr 1
  · exact pairing_same _ _ _ _ hw.1
  · exact sum_congr rfl fun c hc => sum_congr rfl fun j hj => by rw [hw.2 c (mem_range.1 hc) j (mem_range.1 hj)]

theorem linear_slopes (S : Shape) (g : ℕ → Mat ℝ) (h : Mat ℝ) (W : Weights) : SlopesOn S (S.linear g h) W g h := ⟨fun V => by
  have e : (fun t => S.linear g h (W.move V t)) = fun t => S.linear g h W + t * S.linear g h V := by
    funext t
    unfold Shape.linear Weights.move
    rw [pairing_line, inner_line]
    ring
  rw [e]
  have := ((hasDerivAt_id (0 : ℝ)).mul_const (S.linear g h V)).const_add (S.linear g h W)
  rw [one_mul] at this
  exact this⟩

section
variable {Q : XPlan}

/-- A training step, whatever the activation functions and losses are: there is an objective the derivatives of which the optimisers are given. -/
theorem step_on_some_objective (ho : Q.Ok) (s : NetS Q.net) (hi : Q.Inv s) (R : ℕ) (X Y : Mem ℝ) (hu : Q.Fits (.train R X Y)) :
    ∃ J, Respects Q.shape J ∧ Q.shape.TrainedOn Q.upd Q.uo J (Q.cells s) (Q.cells (Q.net.step s (.train R X Y)).1) := by
  have hc := XPlan.fprop_cells ho true R (Nat.le_trans hu.2.1 ho.sizes) s hi X
  have hl : ∀ s1 : NetS Q.net, ∀ X, Led (treeGetB Q.gw Q.act Q.upd Q.ext Q.tree Q.bs Q.inputs).toReader (mats Q.tree Q.inputs) Q.upd s1.body (Q.net.bprop s1 X Y).1.body :=
    fun s1 X => tree_led ho.exts Q.tree Q.bs Q.inputs ho.packs ho.noExtra s1.R false s1.body _ _ _ _ _
  have key : ∀ (s : FcS Q.go) (R : ℕ) (A T O Y' P : Mem ℝ), ∃ d : Mat ℝ, (fcReader Q.go).cells ((outLayer realArith Q.go Q.last Q.dz Q.uo Q.tree.neurons Q.outputs).bprop
      R s A T O Y' P).s 0 = if Q.uo then ((fcReader Q.go).cells s 0).apply d else (fcReader Q.go).cells s 0 := by
    intro s R A T O Y' P
    cases hup : Q.uo
    · exact ⟨fun _ _ => 0, rfl⟩
    · exact ⟨_, rfl⟩
  have hlo : ∀ s1 : NetS Q.net, ∀ X, ∃ d : Mat ℝ, (Q.cells (Q.net.bprop s1 X Y).1).out = if Q.uo then (Q.cells s1).out.apply d else (Q.cells s1).out :=
    fun s1 X => key s1.out s1.R s1.ab.m s1.T s1.ao Y s1.m0
  show ∃ J, Respects Q.shape J ∧ Q.shape.TrainedOn Q.upd Q.uo J (Q.cells s) (Q.cells (Q.net.bprop (Q.net.fprop (Q.net.to true R s) X).1
    (Q.net.fprop (Q.net.to true R s) X).2 Y).1)
  generalize (Q.net.fprop (Q.net.to true R s) X).2 = X' at *
  generalize (Q.net.fprop (Q.net.to true R s) X).1 = s1 at *
  simp only [if_true] at hc
  have hl := hl s1 X'
  obtain ⟨h, ho1⟩ := hlo s1 X'
  generalize (Q.net.bprop s1 X' Y).1 = s2 at *
  have : ∃ g : ℕ → Mat ℝ, ∀ i m, (mats Q.tree Q.inputs)[i]? = some m → (Q.cells s2).body i = if Q.upd m.id then ((Q.cells s).body i).pre.apply (g i) else ((Q.cells s).body i).pre := by
    refine (Classical.skolem (p := fun i g => ∀ m, (mats Q.tree Q.inputs)[i]? = some m → (Q.cells s2).body i =
      if Q.upd m.id then ((Q.cells s).body i).pre.apply g else ((Q.cells s).body i).pre)).1 fun i => ?_
    cases hm : (mats Q.tree Q.inputs)[i]? with
    | none => exact ⟨fun _ _ => 0, fun _ h => nomatch h⟩
    | some m =>
      obtain ⟨d, hd⟩ := hl i m hm
      have e1 : (treeGetB Q.gw Q.act Q.upd Q.ext Q.tree Q.bs Q.inputs).cells s1.body i = ((Q.cells s).body i).pre := hc.1 i m hm
      rw [e1] at hd
      refine ⟨d, fun m' h => ?_⟩
      cases h
      exact hd
  obtain ⟨g, hg⟩ := this
  refine ⟨Q.shape.linear g h, linear_respects _ _ _, ?_⟩
  obtain ⟨k1, k2⟩ := (linear_slopes Q.shape g h (Q.cells s).pre.weights).single (linear_respects _ _ _)
  refine ⟨fun i m hm => ?_, ?_⟩
  · have := hg i m hm
    split
    next hup =>
      rw [if_pos hup] at this
      refine ⟨g i, fun c hc j hj => ?_, this⟩
      unfold partBody
      rw [(k1 i m hm c hc j hj).deriv, mul_div_cancel_left₀ _ (tiles_ne ho.packs hm)]
    next hup =>
      rw [if_neg hup] at this
      exact this
  · have e1 : (Q.cells s1).out = (Q.cells s).out.pre := hc.2
    rw [e1] at ho1
    split
    next hup =>
      rw [if_pos hup] at ho1
      exact ⟨h, fun c hc j hj => (k2 c hc j hj).deriv.symm, ho1⟩
    next hup =>
      rw [if_neg hup] at ho1
      exact ho1

/-- The same for histories. -/
theorem course_on_some_objectives (ho : Q.Ok) : ∀ (us : List (Use ℝ)) (s0 : NetS Q.net), Q.Inv s0 → (∀ u ∈ us, Q.Fits u) →
    ∃ Js, Js.length = (batches us).length ∧ (∀ J ∈ Js, Respects Q.shape J) ∧ Q.shape.CourseOn Q.upd Q.uo Js (Q.cells s0) (Q.cells (Q.net.run s0 us))
  | [], s0, _, _ => ⟨[], rfl, fun J h => absurd h List.not_mem_nil, fun _ _ _ => rfl, rfl⟩
  | u :: us, s0, hi, hus => by
    have hi1 : Q.Inv (Q.net.step s0 u).1 := XPlan.run_inv ho s0 hi [u] fun v hv => by
      obtain rfl := List.mem_singleton.1 hv
      exact hus v List.mem_cons_self
    obtain ⟨Js, h1, h2, h3⟩ := course_on_some_objectives ho us (Q.net.step s0 u).1 hi1 fun v hv => hus v (List.mem_cons_of_mem _ hv)
    have hu := hus u List.mem_cons_self
    have e : Q.net.run s0 (u :: us) = Q.net.run (Q.net.step s0 u).1 us := rfl
    rw [e]
    cases u with
    | eval R X => exact ⟨Js, h1, h2, courseOn_congr Js h2 (XPlan.fprop_cells ho false R hu.2.1 s0 hi X) h3⟩
    | train R X Y =>
      obtain ⟨J, j1, j2⟩ := step_on_some_objective ho s0 hi R X Y hu
      exact ⟨J :: Js, congrArg (· + 1) h1, fun J' hJ => by
        rcases List.mem_cons.1 hJ with rfl | hJ
        · exact j1
        · exact h2 J' hJ, _, j2, h3⟩

end

end Nntl.Sgd
