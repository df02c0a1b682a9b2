import Verif.Sgd.ExtLemmas
import Verif.Sgd.AnyProps

/-! Networks of fully connected layers with dropout and penalties on activations. -/
namespace Nntl.Sgd

open Nntl.Layers Nntl.Pass Nntl.Backprop
open Finset

/-- A network as it is made by a user, with an extension (dropout, penalties on activations) for every layer below the output layer. -/
structure XPlan extends Plan where
  ext : ℕ → Ext

noncomputable def XPlan.body (Q : XPlan) : Sem ℝ := sem (exLayers Q.gw Q.act Q.upd Q.ext) Q.tree Q.bs Q.inputs

/-- The network: fully connected layers with `LPA<LDo<…>>` (see `Pass.lex`) in packs below an output layer. -/
noncomputable def XPlan.net (Q : XPlan) : Net ℝ := ⟨Q.body.obj, outLayer realArith Q.go Q.last Q.dz Q.uo Q.tree.neurons Q.outputs⟩

/-- Its states are consistent. -/
def XPlan.Inv (Q : XPlan) (s : NetS Q.net) : Prop := NetInv (w := Q.net) Q.body.law (outLaw realArith Q.go Q.last Q.dz Q.uo Q.tree.neurons Q.outputs) s

/-- The weights in a state. -/
noncomputable def XPlan.weights (Q : XPlan) (s : NetS Q.net) : Weights :=
  ⟨(treeGetB Q.gw Q.act Q.upd Q.ext Q.tree Q.bs Q.inputs).get s.body, FcS.w (gw := Q.go) s.out⟩

/-- The matrices of a network in a state. -/
noncomputable def XPlan.cells (Q : XPlan) (s : NetS Q.net) : Cells :=
  ⟨(treeGetB Q.gw Q.act Q.upd Q.ext Q.tree Q.bs Q.inputs).cells s.body, ⟨Q.go, FcS.g (gw := Q.go) s.out, FcS.w (gw := Q.go) s.out⟩⟩

/-- In the state every dropout has drawn `k` times, and all layers are in the mode of the network. -/
def XPlan.Drawn (Q : XPlan) (k : ℕ) (s : NetS Q.net) : Prop := (treeGetB Q.gw Q.act Q.upd Q.ext Q.tree Q.bs Q.inputs).noted s.training k s.body

/-- As `Plan.Ok`; the extensions are as C99 wants them. -/
structure XPlan.Ok (Q : XPlan) : Prop where
  init : ∃ d, layerInit true Q.tree Q.bs Q.inputs = some d
  sizes : Q.bs.maxTrainBS ≤ Q.bs.maxBS
  packs : Q.tree.AllPacks FieldsInside Divisible Q.inputs
  leaves : Q.tree.AllLeaves (LeafOk (exLayers Q.gw Q.act Q.upd Q.ext))
  noExtra : NoExtra Q.tree
  exts : ExtsOk Q.act Q.ext
  last : ∀ z z', (∀ i < Q.outputs, z i = z' i) → ∀ i < Q.outputs, Q.last z i = Q.last z' i
  loss : ∀ a a' y, (∀ i < Q.outputs, a i = a' i) → Q.loss a y = Q.loss a' y

/-- Uses with batches of allowed sizes. -/
def XPlan.Fits (Q : XPlan) (u : Use ℝ) : Prop := u.Ok Q.bs.maxBS Q.bs.maxTrainBS Q.inputs

variable {Q : XPlan}

theorem XPlan.Ok.shape (h : Q.Ok) : Q.shape.Ok Q.act := ⟨rfl, h.exts.args, h.packs, h.noExtra, h.last, h.loss⟩

theorem XPlan.Ok.isNet (ho : Q.Ok) :
    BIsNet (semDiff (exDiff Q.gw Q.act Q.upd Q.ext) Q.tree Q.bs Q.inputs) (treeGetB Q.gw Q.act Q.upd Q.ext Q.tree Q.bs Q.inputs) (mats Q.tree Q.inputs)
      (fun k => batchFn Q.shape.act Q.ext k Q.tree Q.inputs) (fun k => penalties Q.shape.act Q.ext k Q.tree Q.inputs)
      (fun k => SmoothOn Q.shape.act Q.ext k Q.tree Q.inputs) Q.gw Q.upd :=
  tree_isNetB ho.exts _ _ _ ho.packs ho.noExtra

theorem XPlan.Ok.diff (ho : Q.Ok) : IsDiff (semDiff (exDiff Q.gw Q.act Q.upd Q.ext) Q.tree Q.bs Q.inputs) ∧ Q.body.obj.inc = Q.inputs ∧
    Q.body.obj.neurons = Q.tree.neurons := semDiff_ok _ _ _ ho.packs (allLeaves_of (exDiff_ok ho.exts.exts) _) ho.noExtra

theorem XPlan.Ok.trains (ho : Q.Ok) : Trains Q.bs.maxBS Q.bs.maxTrainBS Q.body.obj Q.body.law := by
  obtain ⟨d, hd⟩ := ho.init
  obtain ⟨_, _, _, _, _, h6⟩ := sem_ok Q.tree Q.bs Q.inputs d hd ho.sizes ho.packs ho.leaves ho.noExtra
  exact h6.trains

theorem XPlan.Ok.outLawful (ho : Q.Ok) : OutLawful Q.bs.maxBS Q.bs.maxTrainBS Q.net.out (outLaw realArith Q.go Q.last Q.dz Q.uo Q.tree.neurons Q.outputs) :=
  outLayer_lawful realArith_ok _ _ _ _ _ _ _ _ ho.last

theorem XPlan.Ok.net_ok (ho : Q.Ok) : Q.net.out.inc = Q.net.body.neurons := ho.diff.2.2.symm

theorem XPlan.Fits.ok (ho : Q.Ok) {u : Use ℝ} (h : Q.Fits u) : u.Ok Q.bs.maxBS Q.bs.maxTrainBS Q.net.body.inc := by
  have e : Q.net.body.inc = Q.inputs := ho.diff.2.1
  rw [e]; exact h

/-! ### Objectives -/

section
variable {S : Shape} {act : ℕ → Act.Act} {e : ℕ → Ext}

/-- A function of the weights that looks at nothing else. -/
def Respects (S : Shape) (J : Weights → ℝ) : Prop := ∀ W W', S.Same W W' → J W = J W'

theorem Respects.partBody {J : Weights → ℝ} (h : Respects S J) {W W' : Weights} (hw : S.Same W W') (i c j : ℕ) :
    Sgd.partBody J W i c j = Sgd.partBody J W' i c j := by
  unfold Sgd.partBody
  congr 1
  funext t
  exact h _ _ (same_bumpBody hw i c j t)

theorem Respects.partOut {J : Weights → ℝ} (h : Respects S J) {W W' : Weights} (hw : S.Same W W') (c j : ℕ) :
    Sgd.partOut J W c j = Sgd.partOut J W' c j := by
  unfold Sgd.partOut
  congr 1
  funext t
  exact h _ _ (same_bumpOut hw c j t)

theorem Shape.Ok.isNetB (h : S.Ok act) (he : ExtsOk act e) (inc : BS) :
    BIsNet (semDiff (exDiff (fun _ _ _ => bare) act (fun _ => true) e) S.tree inc S.inputs) (treeGetB (fun _ _ _ => bare) act (fun _ => true) e S.tree inc S.inputs)
      (mats S.tree S.inputs) (fun k => batchFn S.act e k S.tree S.inputs) (fun k => penalties S.act e k S.tree S.inputs)
      (fun k => SmoothOn S.act e k S.tree S.inputs) (fun _ _ _ => bare) fun _ => true := by
  rw [h.eq]
  exact tree_isNetB he _ _ _ h.packs h.noExtra

theorem Shape.Ok.sizesB (h : S.Ok act) (he : ExtsOk act e) (inc : BS) : (sem (exLayers (fun _ _ _ => bare) act (fun _ => true) e) S.tree inc S.inputs).obj.neurons = S.tree.neurons :=
  (semDiff_ok (DI := exDiff (fun _ _ _ => bare) act (fun _ => true) e) S.tree inc S.inputs h.packs (allLeaves_of (exDiff_ok he.exts) _) h.noExtra).2.2

theorem Shape.Ok.rawOn_congr (h : S.Ok act) (he : ExtsOk act e) {W W' : Weights} (hw : S.Same W W') (k : Option ℕ) {R : ℕ} (X : Mat ℝ) {r : ℕ} (hr : r < R) :
    ∀ c < S.outputs, S.rawOn e k W R X r c = S.rawOn e k W' R X r c := by
  intro c hc
  have h2 := h.sizesB he ⟨1, 1⟩
  exact neuron_congr hw.2 (fun j hj => (h.isNetB he ⟨1, 1⟩).loc k _ _ R _ _ (Nat.pos_of_ne_zero fun e => by omega) hw.1 (fun _ _ _ _ => rfl) r hr j
    (by rw [h2]; exact hj)) hc

theorem Shape.Ok.answerOn_congr (h : S.Ok act) (he : ExtsOk act e) {W W' : Weights} (hw : S.Same W W') (k : Option ℕ) {R : ℕ} (X : Mat ℝ) {r : ℕ} (hr : r < R) :
    ∀ c < S.outputs, S.answerOn e k W R X r c = S.answerOn e k W' R X r c := h.last _ _ (h.rawOn_congr he hw k X hr)

theorem Shape.Ok.thinLoss_respects (h : S.Ok act) (he : ExtsOk act e) (k : ℕ) {R : ℕ} (h0 : 0 < R) (X Y : Mat ℝ) : Respects S (S.thinLoss e k R X Y) := by
  intro W W' hw
  unfold Shape.thinLoss
  congr 1
  · congr 1
    exact sum_congr rfl fun r hr => h.loss _ _ _ (h.answerOn_congr he hw _ X (mem_range.1 hr))
  · congr 1
    exact (h.isNetB he ⟨1, 1⟩).penLoc _ _ _ R _ _ h0 hw.1 fun _ _ _ _ => rfl

theorem Shape.Ok.regularOn_congr (h : S.Ok act) (he : ExtsOk act e) {dz : ℝ → ℝ → ℝ} {k R : ℕ} (h0 : 0 < R) {X Y : Mat ℝ} {W W' : Weights} (hw : S.Same W W')
    (hr : S.RegularOn e dz k R X Y W) : S.RegularOn e dz k R X Y W' :=
  ⟨(h.isNetB he ⟨1, 1⟩).smLoc _ _ _ R _ _ h0 hw.1 (fun _ _ _ _ => rfl) hr.1, fun r hr' => h.lossGrad_congr (h.rawOn_congr he hw _ X hr') (hr.2 r hr')⟩

/-- Derivatives along all directions. -/
structure SlopesOn (S : Shape) (J : Weights → ℝ) (W : Weights) (g : ℕ → Mat ℝ) (h : Mat ℝ) : Prop where
  all : ∀ V : Weights, HasDerivAt (fun t => J (W.move V t))
    (pairing ((mats S.tree S.inputs).map toWt) g V.body + ∑ c ∈ range S.outputs, ∑ j ∈ range (S.tree.neurons + 1), h c j * V.out c j) 0

theorem SlopesOn.congr {J : Weights → ℝ} (hJ : Respects S J) {W W' : Weights} {g : ℕ → Mat ℝ} {h : Mat ℝ} (hw : S.Same W W') (hs : SlopesOn S J W g h) :
    SlopesOn S J W' g h := ⟨fun V => by
  have := hs.all V
  simp only [hJ _ _ (same_move hw V _)] at this
  exact this⟩

theorem SlopesOn.single {J : Weights → ℝ} (hJ : Respects S J) {W : Weights} {g : ℕ → Mat ℝ} {h : Mat ℝ} (hs : SlopesOn S J W g h) :
    (∀ i m, (mats S.tree S.inputs)[i]? = some m → ∀ c < m.rows, ∀ j < m.cols, HasDerivAt (fun t => J (W.bumpBody i c j t)) (m.tiles * g i c j) 0) ∧
    ∀ c < S.outputs, ∀ j < S.tree.neurons + 1, HasDerivAt (fun t => J (W.bumpOut c j t)) (h c j) 0 := by
  obtain ⟨h1, h2⟩ := single_weights (f := fun V O t => J (W.move ⟨V, O⟩ t)) fun V O => hs.all ⟨V, O⟩
  refine ⟨fun i m hi c hc j hj => ?_, fun c hc j hj => ?_⟩
  · have := h1 i (toWt m) (by rw [List.getElem?_map, hi]; rfl) c hc j hj
    simp only [hJ _ _ same_move_body] at this
    exact this
  · have := h2 c hc j hj
    simp only [hJ _ _ same_move_out] at this
    exact this

end

theorem shownB {o : Obj ℝ} {L : Law o} {D : Diff L} {A : BReader o.S} {ms : List MatInfo} {F : Option ℕ → (ℕ → Mat ℝ) → ℕ → Mat ℝ → Mat ℝ}
    {Pn : Option ℕ → (ℕ → Mat ℝ) → ℕ → Mat ℝ → ℝ} {Sm : Option ℕ → (ℕ → Mat ℝ) → ℕ → Mat ℝ → Prop} {gw : ℕ → ℕ → ℕ → GradWorks ℝ} {upd : ℕ → Bool}
    (h : BIsNet D A ms F Pn Sm gw upd) {b : Bool} {k p R : ℕ} (hp : o.neurons = p) (h0 : 0 < R) (sb : o.S) (hk : A.noted b k sb) (so X : Mat ℝ) {r : ℕ} (hr : r < R) :
    preAct realArith p so (L.fwd R sb X) r = neuron p so (F (lastDraw b k) (A.get sb) R X r) := by
  subst hp
  funext c
  rw [preAct_neuron]
  unfold neuron
  congr 1
  exact sum_congr rfl fun j hj => congrArg (so c j * ·) (h.fwd b k R sb X h0 hk r hr j (mem_range.1 hj))

/-- In a state of a network after a forward pass in training the gradients given to the optimisers are the derivatives of the thinned loss along all directions. -/
theorem slopesOn_of_state {S : Shape} {act : ℕ → Act.Act} {e : ℕ → Ext} (hS : S.Ok act) (he : ExtsOk act e) {o : Obj ℝ} {L : Law o} {D : Diff L} (hD : IsDiff D)
    {A : BReader o.S} {gws : ℕ → ℕ → ℕ → GradWorks ℝ} {upds : ℕ → Bool}
    (h : BIsNet D A (mats S.tree S.inputs) (fun k => batchFn S.act e k S.tree S.inputs) (fun k => penalties S.act e k S.tree S.inputs)
      (fun k => SmoothOn S.act e k S.tree S.inputs) gws upds) (hp : o.neurons = S.tree.neurons)
    {gw : GradWorks ℝ} {dz : ℝ → ℝ → ℝ} {R : ℕ} (h0 : 0 < R) (upd : Bool) (k : ℕ) (sb : o.S) (hk : A.noted true (k + 1) sb) (so : FcS gw) (X Y : Mat ℝ)
    (hr : S.RegularOn e dz k R X Y ⟨A.get sb, so.w⟩) :
    D.Smooth R sb X ∧ SlopesOn S (S.thinLoss e k R X Y) ⟨A.get sb, so.w⟩
      (D.grad R sb X ((outLaw realArith gw S.last dz upd S.tree.neurons S.outputs).grad R so (L.fwd R sb X) Y))
      (gradW realArith R S.tree.neurons (L.fwd R sb X) fun r c => dz (S.last (preAct realArith S.tree.neurons so.w (L.fwd R sb X) r) c) (Y r c)) := by
  have hs : D.Smooth R sb X := h.smooth true (k + 1) R sb X h0 hk hr.1
  refine ⟨hs, ⟨fun V => ?_⟩⟩
  have := meanLoss_deriv (gw := gw) (act := S.last) (loss := S.loss) (dz := dz) (upd := upd) (m := S.outputs) hD.weak hp.symm h0 sb so X Y hs (fun r hr' => by
    rw [shownB h hp h0 sb hk so.w X hr']
    exact hr.2 r hr') V.body V.out
  rw [← h.ws]
  refine HasDerivAt.congr_of_eventuallyEq (f₁ := fun t => S.thinLoss e k R X Y (Weights.move ⟨A.get sb, so.w⟩ V t)) this (Filter.Eventually.of_forall fun t => ?_)
  have hkt := h.lineN true (k + 1) sb V.body t hk
  have e1 : S.thinLoss e k R X Y (Weights.move ⟨A.get sb, so.w⟩ V t) = S.thinLoss e k R X Y ⟨A.get (D.line sb V.body t), (outLine so V.out t).w⟩ :=
    hS.thinLoss_respects he k h0 X Y _ _ (show S.Same (Weights.move ⟨A.get sb, so.w⟩ V t) ⟨A.get (D.line sb V.body t), (outLine so V.out t).w⟩ from
      ⟨(h.line sb V.body t).symm, fun _ _ _ _ => rfl⟩)
  show S.thinLoss e k R X Y (Weights.move ⟨A.get sb, so.w⟩ V t) = _
  rw [e1]
  unfold Shape.thinLoss Backprop.meanLoss
  congr 1
  · congr 1
    exact sum_congr rfl fun r hr' => by
      show S.loss (S.last (neuron _ _ _)) _ = S.loss (fun c => S.last (preAct realArith S.tree.neurons _ (L.fwd R (D.line sb V.body t) X) r) c) _
      rw [shownB h hp h0 (D.line sb V.body t) hkt _ X (mem_range.1 hr')]
      rfl
  · congr 1
    exact (h.pen true (k + 1) R (D.line sb V.body t) X h0 hkt).symm

/-! ### Without dropout -/

mutual
/-- In evaluation the activations of a layer are, row by row, the function of the layer. -/
theorem batchFn_none (act : ℕ → ℝ → ℝ) (e : ℕ → Ext) (l : Layer) (n : ℕ) (hp : l.AllPacks FieldsInside Divisible n) (hx : NoExtra l) (W : ℕ → Mat ℝ) (R : ℕ)
    (X : Mat ℝ) (x : ℕ → ℝ) (r : ℕ) (hr : r < R) (h : ∀ j < n, X r j = x j) : ∀ c < l.neurons, batchFn act e none l n W R X r c = netFn act l n W x c := by
  match l with
  | .leaf id l =>
    intro c hc
    exact congrArg (act id) (neuron_congr (m := c + 1) (fun _ _ _ _ => rfl) h (Nat.lt_succ_self c))
  | .vert _ f q => exact batchFnS_none act e q f.neurons hp.2 hx.2 _ R _ _ r hr (batchFn_none act e f n hp.1 hx.1 W R X x r hr h)
  | .horiz _ add fs =>
    simp only [Layer.AllPacks] at hp
    obtain ⟨h1, h2⟩ := hx
    subst h1
    exact batchFnF_none act e fs n hp.1 hp.2 h2 W R X x r hr h
  | .tile _ t l =>
    obtain ⟨⟨hk, hm⟩, hp⟩ := hp
    intro c hc
    have hc : c < t * l.neurons := hc
    have hl : 0 < l.neurons := Nat.pos_of_ne_zero fun e => by rw [e] at hc; omega
    have hq : c / l.neurons < t := Nat.div_lt_of_lt_mul (by rw [Nat.mul_comm]; exact hc)
    have hR : 0 < R := by omega
    have e1 : (c / l.neurons * R + r) % R = r := by rw [Nat.add_comm, Nat.add_mul_mod_self_right, Nat.mod_eq_of_lt hr]
    have e2 : (c / l.neurons * R + r) / R = c / l.neurons := by
      rw [Nat.add_comm, Nat.add_mul_div_right _ _ hR, Nat.div_eq_of_lt hr, Nat.zero_add]
    have h3 : c / l.neurons * R + r < t * R := Nat.lt_of_lt_of_le (by rw [Nat.succ_mul]; omega) (Nat.mul_le_mul_right R hq)
    refine batchFn_none act e l (n / t) hp hx W (t * R) _ _ (c / l.neurons * R + r) h3 (fun j hj => ?_) (c % l.neurons) (Nat.mod_lt _ hl)
    show X ((c / l.neurons * R + r) % R) ((c / l.neurons * R + r) / R * (n / t) + j) = _
    rw [e1, e2]
    refine h _ ?_
    have h4 : c / l.neurons * (n / t) + j < t * (n / t) := Nat.lt_of_lt_of_le (by rw [Nat.succ_mul]; omega) (Nat.mul_le_mul_right (n / t) hq)
    exact Nat.lt_of_lt_of_le h4 (Nat.mul_div_le n t)
theorem batchFnS_none (act : ℕ → ℝ → ℝ) (e : ℕ → Ext) (q : Stack) (n : ℕ) (hp : q.AllPacks FieldsInside Divisible n) (hx : NoExtraS q) (W : ℕ → Mat ℝ) (R : ℕ)
    (X : Mat ℝ) (x : ℕ → ℝ) (r : ℕ) (hr : r < R) (h : ∀ j < n, X r j = x j) : ∀ c < Stack.top n q, batchFnS act e none q n W R X r c = stackFn act q n W x c := by
  match q with
  | .nil => exact h
  | .cons l q => exact batchFnS_none act e q l.neurons hp.2 hx.2 _ R _ _ r hr (batchFn_none act e l n hp.1 hx.1 W R X x r hr h)
theorem batchFnF_none (act : ℕ → ℝ → ℝ) (e : ℕ → Ext) (fs : Fields) (n : ℕ) (hin : FieldsInside n fs.coords) (hp : fs.AllPacks FieldsInside Divisible)
    (hx : NoExtraF fs) (W : ℕ → Mat ℝ) (R : ℕ) (X : Mat ℝ) (x : ℕ → ℝ) (r : ℕ) (hr : r < R) (h : ∀ j < n, X r j = x j) :
    ∀ c < fs.neurons, batchFnF act e none fs W R X r c = fieldsFn act fs W x c := by
  match fs with
  | .nil => exact fun c hc => absurd hc (Nat.not_lt_zero _)
  | .cons ofs cnt l q =>
    intro c hc
    have hc : c < l.neurons + q.neurons := hc
    have hf : ofs + cnt ≤ n := hin (ofs, cnt) List.mem_cons_self
    simp only [batchFnF, fieldsFn]
    by_cases hcl : c < l.neurons
    · rw [if_pos hcl, if_pos hcl]
      exact batchFn_none act e l cnt hp.1 hx.1 W R (fun q j => X q (ofs + j)) (fun j => x (ofs + j)) r hr (fun j hj => h (ofs + j) (by omega)) c hcl
    · rw [if_neg hcl, if_neg hcl]
      exact batchFnF_none act e q n (fun c hc => hin c (List.mem_cons_of_mem _ hc)) hp.2 hx.2 _ R X x r hr h _ (by omega)
end

/-! ### Passes -/

theorem XPlan.to_drawn (ho : Q.Ok) (b : Bool) (R k : ℕ) (s : NetS Q.net) (hk : Q.Drawn k s) : Q.Drawn k (Q.net.to b R s) := by
  unfold Net.to
  split
  · exact hk
  · exact ho.isNet.resizeN _ _ R _ (ho.isNet.modeN _ b _ _ hk)

/-- A forward pass in training draws once for every dropout, in evaluation nothing is drawn. -/
theorem XPlan.fprop_drawn (ho : Q.Ok) (b : Bool) (R k : ℕ) (hR : R ≤ Q.bs.maxBS) (s : NetS Q.net) (hi : Q.Inv s) (hk : Q.Drawn k s) (X : Mem ℝ) :
    Q.Drawn (if b then k + 1 else k) (Q.net.fprop (Q.net.to b R s) X).1 ∧ (Q.net.fprop (Q.net.to b R s) X).1.training = b := by
  obtain ⟨_, _, h3⟩ := to_inv ho.trains ho.outLawful b hR hi
  have h := XPlan.to_drawn ho b R k s hk
  generalize Q.net.to b R s = t at *
  subst h3
  exact ⟨ho.isNet.fpropN _ _ t.R t.body X t.T t.ab.m h, rfl⟩

end Nntl.Sgd
