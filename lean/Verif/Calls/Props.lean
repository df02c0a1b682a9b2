import Verif.Calls.Steps
/-! C101. The passes of fully connected layers and of the output layer, as the sequences of calls they are. -/
namespace Nntl.Calls

open Nntl.Matrix Nntl.Kernel Nntl.Grad Nntl.Backprop Nntl.Gemm Nntl.Pass

variable {M : Mach} {K : Kind} {R : ℕ}

private theorem ones {prev : Mtx ℝ} (hp : Input K R prev) {r : ℕ} (hr : r < R) : prev.data (r + R * K.n) = 1 := by
  obtain ⟨h1, -, h3, -, -, h6⟩ := hp.biases
  have := h6 h3 r K.n (by rw [hp.rows]; exact hr) (by rw [hp.cols]; omega) (by unfold IsBias; rw [hp.layout, hp.cols]; exact ⟨h1, by simp⟩)
  unfold Mtx.get at this
  split at this
  · unfold Mtx.cell at this
    rw [hp.rows] at this
    exact Option.some.inj this
  · cases this

private theorem el_of {A : Mtx ℝ} (h : A.rows = R) (r c : ℕ) : el A r c = A.data (r + R * c) := by unfold el Mtx.cell; rw [h]

private theorem cell_lt {r c k : ℕ} (hr : r < R) (hc : c < k) : r + R * c < R * k := by
  have : R * c + R ≤ R * k := by rw [← Nat.mul_succ]; exact Nat.mul_le_mul_left _ hc
  omega

private theorem copy_cell {r c k : ℕ} (hr : r < R) (hc : c < k) (O : ℕ → ℝ) (f : Mat ℝ) : copy (R * k) O (memOf R f) (r + R * c) = f r c := by
  unfold copy
  rw [if_pos (cell_lt hr hc)]
  exact matOf_memOf hr

private theorem w_el {L : Layer} (hL : Good K R L) (c i : ℕ) : matOf K.m L.W.data c i = el L.W c i := by
  obtain ⟨w, hw⟩ := hL.w
  rw [el_of (by rw [hw]; rfl : L.W.rows = K.m)]
  rfl

private theorem sum_w {L : Layer} (hL : Good K R L) {prev : Mtx ℝ} (hp : Input K R prev) {r c : ℕ} (hr : r < R) :
    ∑ j ∈ Finset.range (K.n + 1), prev.data (r + R * j) * matOf K.m L.W.data c j =
      (∑ i ∈ Finset.range K.n, el prev r i * el L.W c i) + el L.W c K.n := by
  rw [Finset.sum_range_succ, ones hp hr, one_mul, w_el hL]
  simp only [w_el hL, el_of hp.rows]

private theorem prepared (hM : M.Ok) (ho : K.o.Ok) (hn : 0 < K.n) (hm : 0 < K.m) {L L' : Layer} (hL : Good K R L) (hL' : Good K R L')
    (hg : L'.g = ((gradWorks K.o K.m (K.n + 1)).pre L.g (matOf K.m L.W.data)).1)
    (hw : matOf K.m L'.W.data = ((gradWorks K.o K.m (K.n + 1)).pre L.g (matOf K.m L.W.data)).2) : Prepared M K L L' := by
  have hW := mtxOf_matOf hL.w
  have key := (gradWorks_pre hM.env K.o hm (by omega : 2 ≤ K.n + 1) L.g (matOf K.m L.W.data) (ready_of (ho.pre _) hL.ready) (some L'.g.s)).2 (by rw [hg])
  rw [← hW] at key
  refine ⟨key, ?_, by rw [hg]; rfl, by rw [hg]; rfl⟩
  have hs := (preF_same (K.o.pre L.g.p).cfg (K.o.pre L.g.p).blocked (K.o.pre L.g.p).draw { L.g.s with W := mtxOf K.m (K.n + 1) (matOf K.m L.W.data) }).w
  have e : L'.g.s.W = mtxOf K.m (K.n + 1) ((gradWorks K.o K.m (K.n + 1)).pre L.g (matOf K.m L.W.data)).2 := by
    rw [hg]
    exact mtxOf_matOf (same_mtxOf ⟨_, rfl⟩ hs)
  rw [e, ← hw]
  exact mtxOf_matOf hL'.w

private theorem descends (hM : M.Ok) (ho : K.o.Ok) (hn : 0 < K.n) (hm : 0 < K.m) {L L' : Layer} (hL : Good K R L) (hL' : Good K R L') {prev : Mtx ℝ}
    (hp : Input K R prev) {z : ℕ → ℕ → ℝ} {zd d : ℕ → ℝ} (hz : ∀ r < R, ∀ c < K.m, zd (r + R * c) = z r c)
    (hx : abs K L' = ⟨((gradWorks K.o K.m (K.n + 1)).apply L.g (matOf K.m L.W.data) (matOf K.m (copy (K.m * (K.n + 1)) d (memOf K.m fun c j =>
        1 / (R : ℝ) * ∑ r ∈ Finset.range R, zd (r + R * c) * prev.data (r + R * j))))).2.1, ((gradWorks K.o K.m (K.n + 1)).apply L.g (matOf K.m L.W.data)
        (matOf K.m (copy (K.m * (K.n + 1)) d (memOf K.m fun c j => 1 / (R : ℝ) * ∑ r ∈ Finset.range R, zd (r + R * c) * prev.data (r + R * j))))).1,
        L.training⟩) :
    Descends M K R prev z L L' := by
  have hW := mtxOf_matOf hL.w
  generalize hG : matOf K.m (copy (K.m * (K.n + 1)) d (memOf K.m fun c j => 1 / (R : ℝ) * ∑ r ∈ Finset.range R, zd (r + R * c) * prev.data (r + R * j))) =
    G at hx
  have hg : L'.g = ((gradWorks K.o K.m (K.n + 1)).apply L.g (matOf K.m L.W.data) G).1 := congrArg FcS.g hx
  have hw : matOf K.m L'.W.data = ((gradWorks K.o K.m (K.n + 1)).apply L.g (matOf K.m L.W.data) G).2.1 := congrArg FcS.w hx
  have hGe : ∀ c < K.m, ∀ j < K.n + 1, el (mtxOf K.m (K.n + 1) G) c j = (∑ r ∈ Finset.range R, z r c * prev.data (r + R * j)) / R := by
    intro c hc j hj
    have e1 : el (mtxOf K.m (K.n + 1) G) c j = G c j := matOf_memOf (w := G) hc
    have e2 : G c j = copy (K.m * (K.n + 1)) d (memOf K.m fun c j => 1 / (R : ℝ) * ∑ r ∈ Finset.range R, zd (r + R * c) * prev.data (r + R * j))
        (c + K.m * j) := by rw [← hG]; rfl
    rw [e1, e2, copy_cell hc hj, one_div, inv_mul_eq_div]
    congr 1
    exact Finset.sum_congr rfl fun r hr => by rw [hz r (Finset.mem_range.1 hr) c hc]
  have key := (gradWorks_apply hM.env K.o hm (by omega : 2 ≤ K.n + 1) L.g (matOf K.m L.W.data) G (ready_of (ho.app _) hL.ready) (some L'.g.s)).2 (by rw [hg])
  rw [← hW] at key
  refine ⟨mtxOf K.m (K.n + 1) G, mtxOf_ok hm (by omega) G, rfl, rfl, fun c hc i hi => ?_, fun c hc => ?_, key, ?_, by rw [hg]; rfl, by rw [hg]; rfl⟩
  · rw [hGe c hc i (by omega)]
    simp only [el_of hp.rows]
  · rw [hGe c hc K.n (by omega)]
    congr 1
    exact Finset.sum_congr rfl fun r hr => by rw [ones hp (Finset.mem_range.1 hr), mul_one]
  · have hs := (applyF_same (K.o.app L.g.t).cfg (K.o.app L.g.t).blocked (K.o.app L.g.t).draw
      { L.g.s with W := mtxOf K.m (K.n + 1) (matOf K.m L.W.data), G := mtxOf K.m (K.n + 1) G }).w
    have e : L'.g.s.W = mtxOf K.m (K.n + 1) ((gradWorks K.o K.m (K.n + 1)).apply L.g (matOf K.m L.W.data) G).2.1 := by
      rw [hg]
      exact mtxOf_matOf (same_mtxOf ⟨_, rfl⟩ hs)
    rw [e, ← hw]
    exact mtxOf_matOf hL'.w

/-- C101. The forward pass of a hidden layer has one outcome, whatever the threads do. The activations are `f(W x + b)` for the weights the layer has
afterwards, the column of ones and everything behind it is as before; these are the weights prepared by the optimiser in training mode, and the old ones
in inference mode. -/
theorem hidden_forward (hM : M.Ok) (ho : K.o.Ok) (hn : 0 < K.n) (hm : 0 < K.m) (hR : 0 < R) (a : Act.Act) (lin : Bool) {L : Layer} (hL : Hidden K R L)
    {prev : Mtx ℝ} (hp : Input K R prev) (hbs : R ≤ if L.training then K.maxTrainBS else K.maxBS) :
    ∃ L', (∀ out, lfcFprop M K true (hiddenF M a lin) prev L out ↔ out = some L') ∧
      (∀ r < R, ∀ c < K.m, el L'.act r c = actF a lin ((∑ i ∈ Finset.range K.n, el prev r i * el L'.W c i) + el L'.W c K.n)) ∧
      (∀ p, R * K.m ≤ p → L'.act.data p = L.act.data p) ∧ SameHeader L.act L'.act ∧
      (L.training = true → Prepared M K L L') ∧ (L.training = false → L'.W = L.W ∧ L'.g = L.g) ∧
      Hidden K R L' ∧ L'.valid = true ∧ L'.training = L.training ∧ L'.shared = L.shared := by
  obtain ⟨L', h1, h2, h3, h4, h5, h6, h7⟩ := hidden_fprop hM ho hn hm hR a lin hL hp hbs 0 fun _ => 0
  have hs := congrArg FOut.s h7
  have hO : _ = L'.act.data := congrArg FOut.O h7
  refine ⟨L', h1, fun r hr c hc => ?_, fun p hp' => ?_, h6, fun ht => ?_, fun ht => ?_, h2, h3, h4, h5⟩
  · rw [el_of h2.act.rows, ← hO]
    simp only [fc] at hs ⊢
    rw [copy_cell hr hc, hs]
    exact congrArg _ (sum_w h2.toGood hp hr)
  · rw [← hO]
    simp only [fc]
    unfold copy
    rw [if_neg (by omega)]
  · simp only [fc, abs, ht, if_true] at hs
    exact prepared hM ho hn hm hL.toGood h2.toGood (congrArg FcS.g hs).symm (congrArg FcS.w hs).symm
  · simp only [fc, abs, ht, Bool.false_eq_true, if_false] at hs
    refine ⟨?_, (congrArg FcS.g hs).symm⟩
    have e : matOf K.m L.W.data = matOf K.m L'.W.data := congrArg FcS.w hs
    rw [mtxOf_matOf hL.w, mtxOf_matOf h2.w, e]

/-- C101. The backward pass of a hidden layer has one outcome, whatever the threads do. With `z = f'(a)·dL/da`, the gradient `z W` for the weights before
the update is handed down if the lower layer asked for it, and the weights are changed by the optimiser with the mean gradient, if they are to be changed
at all. The matrix of the gradient, in which the gradient of the weights was made, has its old size again. -/
theorem hidden_backward (hM : M.Ok) (ho : K.o.Ok) (hn : 0 < K.n) (hm : 0 < K.m) (hR : 0 < R) (a : Act.Act) (lin : Bool) {L : Layer} (hL : Hidden K R L)
    (hv : L.valid = true) (ht : L.training = true) {prev D P : Mtx ℝ} {need : Bool} (hp : Input K R prev) (hD : Above K R D)
    (hP : need = true → Below K R P) (hbs : R ≤ K.maxTrainBS) :
    let z := fun r c => actDf a lin (el L.act r c) * el D r c
    ∃ L' D' P', (∀ out, lfcBprop M K a lin need prev L D P out ↔ out = some (L', D', P')) ∧
      (need = true → ∀ r < R, ∀ i < K.n, el P' r i = ∑ c ∈ Finset.range K.m, z r c * el L.W c i) ∧ (need = false → P' = P) ∧
      (K.upd = true → Descends M K R prev z L L') ∧ (K.upd = false → L'.W = L.W ∧ L'.g = L.g ∧ D' = D) ∧
      SameHeader D D' ∧ SameHeader P P' ∧ SameHeader L.act L'.act ∧ Hidden K R L' ∧ L'.valid = false ∧ L'.training = true ∧ L'.shared = L.shared := by
  intro z
  obtain ⟨L', d, p, h1, h2, h3, h4, h5, h6, h7⟩ := hidden_bprop hM ho hn hm hR a lin hL hv ht hp hD hP hbs 0 fun _ => 0
  have hs := congrArg BOut.s h7
  have hPe : _ = p := congrArg BOut.P h7
  have hDe : _ = d := congrArg BOut.D h7
  have hz : ∀ r < R, ∀ c < K.m, copy (R * K.m) L.act.data (fun p => actDf a lin (L.act.data p) * D.data p) (r + R * c) = z r c := by
    intro r hr c hc
    unfold copy
    rw [if_pos (cell_lt hr hc)]
    show _ = actDf a lin (el L.act r c) * el D r c
    rw [el_of hL.act.rows, el_of hD.rows]
  refine ⟨L', _, _, h1, fun hne r hr i hi => ?_, fun hne => ?_, fun hu => ?_, fun hu => ?_, rfl, rfl, h6, h2, h3, h4, h5⟩
  · rw [el_of (A := { P with data := p }) (hP hne).rows]
    show p _ = _
    rw [← hPe]
    simp only [fc, hne, if_true, apply_ite BOut.P, ite_self]
    rw [copy_cell hr hi]
    show ∑ c ∈ Finset.range K.m, copy (R * K.m) L.act.data (fun p => actDf a lin (L.act.data p) * D.data p) (r + R * c) * matOf K.m L.W.data c i = _
    refine Finset.sum_congr rfl fun c hc => ?_
    have hc := Finset.mem_range.1 hc
    rw [hz r hr c hc, w_el hL.toGood]
  · simp only [fc, hne, Bool.false_eq_true, if_false, apply_ite BOut.P, ite_self] at hPe
    rw [← hPe]
  · simp only [fc, hu, if_true] at hs
    exact descends hM ho hn hm hL.toGood h2.toGood hp hz hs.symm
  · simp only [fc, hu, Bool.false_eq_true, if_false] at hs hDe
    have e : matOf K.m L.W.data = matOf K.m L'.W.data := congrArg FcS.w hs
    exact ⟨by rw [mtxOf_matOf hL.w, mtxOf_matOf h2.w, e], (congrArg FcS.g hs).symm, by rw [← hDe]⟩

/-- C101. The forward pass of the output layer: `outRow` of the row of preactivations (softmax, or an element-wise activation). -/
theorem output_forward (hM : M.Ok) (ho : K.o.Ok) (hn : 0 < K.n) (hm : 0 < K.m) (hR : 0 < R) (a : OutAct) (lin : Bool) {L : Layer}
    (hL : IsOutput K R L) (hs : L.shared = false) {prev : Mtx ℝ} (hp : Input K R prev) (hbs : R ≤ if L.training then K.maxTrainBS else K.maxBS) :
    ∃ L', (∀ out, lfcFprop M K false (outF M a lin) prev L out ↔ out = some L') ∧
      (∀ r < R, ∀ c < K.m, el L'.act r c = outRow a lin K.m (fun c => (∑ i ∈ Finset.range K.n, el prev r i * el L'.W c i) + el L'.W c K.n) c) ∧
      (∀ p, R * K.m ≤ p → L'.act.data p = L.act.data p) ∧ SameHeader L.act L'.act ∧
      (L.training = true → Prepared M K L L') ∧ (L.training = false → L'.W = L.W ∧ L'.g = L.g) ∧
      IsOutput K R L' ∧ L'.valid = true ∧ L'.training = L.training ∧ L'.shared = false := by
  obtain ⟨L', h1, h2, h3, h4, h5, h6, h7⟩ := out_fprop hM ho hn hm hR a lin (fun _ _ => 0) hL hs hp hbs fun _ => 0
  have hs := congrArg FOut.s h7
  have hO : _ = L'.act.data := congrArg FOut.O h7
  refine ⟨L', h1, fun r hr c hc => ?_, fun p hp' => ?_, h6, fun ht => ?_, fun ht => ?_, h2, h3, h4, h5⟩
  · rw [el_of h2.act.rows, ← hO]
    simp only [outLayer] at hs ⊢
    rw [copy_cell hr hc, hs]
    refine congrFun (congrArg _ (funext fun c => ?_)) c
    exact sum_w h2.toGood hp hr
  · rw [← hO]
    simp only [outLayer]
    unfold copy
    rw [if_neg (by omega)]
  · simp only [outLayer, abs, ht, if_true] at hs
    exact prepared hM ho hn hm hL.toGood h2.toGood (congrArg FcS.g hs).symm (congrArg FcS.w hs).symm
  · simp only [outLayer, abs, ht, Bool.false_eq_true, if_false] at hs
    refine ⟨?_, (congrArg FcS.g hs).symm⟩
    have e : matOf K.m L.W.data = matOf K.m L'.W.data := congrArg FcS.w hs
    rw [mtxOf_matOf hL.w, mtxOf_matOf h2.w, e]

/-- C101. The backward pass of the output layer, where `z` is computed from activations and targets and clamped if so desired. -/
theorem output_backward (hM : M.Ok) (ho : K.o.Ok) (hn : 0 < K.n) (hm : 0 < K.m) (hR : 0 < R) (a : OutAct) (lin : Bool) (bnd : Option (ℝ × ℝ)) {L : Layer}
    (hL : IsOutput K R L) (hv : L.valid = true) (ht : L.training = true) {prev Y D P : Mtx ℝ} {need : Bool} (hp : Input K R prev) (hY : Targets K R Y)
    (hD : K.upd = true → GradW K D) (hP : need = true → Below K R P) (hbs : R ≤ K.maxTrainBS) :
    let z := fun r c => outDz a lin bnd (el L.act r c) (el Y r c)
    ∃ L' D' P', (∀ out, outBprop M K a lin bnd need prev L Y D P out ↔ out = some (L', D', P')) ∧
      (need = true → ∀ r < R, ∀ i < K.n, el P' r i = ∑ c ∈ Finset.range K.m, z r c * el L.W c i) ∧ (need = false → P' = P) ∧
      (K.upd = true → Descends M K R prev z L L') ∧ (K.upd = false → L'.W = L.W ∧ L'.g = L.g ∧ D' = D) ∧
      SameHeader D D' ∧ SameHeader P P' ∧ SameHeader L.act L'.act ∧ IsOutput K R L' ∧ L'.valid = false ∧ L'.training = true ∧ L'.shared = L.shared := by
  intro z
  obtain ⟨L', d, p, h1, h2, h3, h4, h5, h6, p', h7, hpp⟩ := out_bprop hM ho hn hm hR a lin bnd (fun _ _ => 0) hL hv ht hp hY hD hP hbs
  have hs := congrArg OutB.s h7
  have hPe : _ = p' := congrArg OutB.P h7
  have hDe : _ = d := congrArg OutB.T h7
  have hz : ∀ r < R, ∀ c < K.m, copy (R * K.m) L.act.data (fun p => outDz a lin bnd (L.act.data p) (Y.data p)) (r + R * c) = z r c := by
    intro r hr c hc
    unfold copy
    rw [if_pos (cell_lt hr hc)]
    show _ = outDz a lin bnd (el L.act r c) (el Y r c)
    rw [el_of hL.act.rows, el_of hY.rows]
  refine ⟨L', _, _, h1, fun hne r hr i hi => ?_, fun hne => ?_, fun hu => ?_, fun hu => ?_, rfl, rfl, h6, h2, h3, h4, h5⟩
  · rw [el_of (A := { P with data := p }) (hP hne).rows]
    show p _ = _
    rw [hpp, hne, if_pos rfl, ← hPe]
    simp only [outLayer, apply_ite OutB.P, ite_self]
    rw [copy_cell hr hi]
    show ∑ c ∈ Finset.range K.m, copy (R * K.m) L.act.data (fun p => outDz a lin bnd (L.act.data p) (Y.data p)) (r + R * c) * matOf K.m L.W.data c i = _
    refine Finset.sum_congr rfl fun c hc => ?_
    have hc := Finset.mem_range.1 hc
    rw [hz r hr c hc, w_el hL.toGood]
  · rw [hne] at hpp
    rw [hpp]
    rfl
  · simp only [outLayer, hu, if_true] at hs
    exact descends hM ho hn hm hL.toGood h2.toGood hp hz hs.symm
  · simp only [outLayer, hu, Bool.false_eq_true, if_false] at hs hDe
    have e : matOf K.m L.W.data = matOf K.m L'.W.data := congrArg FcS.w hs
    exact ⟨by rw [mtxOf_matOf hL.w, mtxOf_matOf h2.w, e], (congrArg FcS.g hs).symm, by rw [← hDe]⟩

/-! ### The hypotheses can be met -/

/-- Three threads, every kernel in all of them. -/
noncomputable def demoMach : Mach := ⟨demoEnv, 0, 0, 0, 0, 0, ⟨0, 0, 0, 0, 0, 0, 0, 0⟩, .st, false⟩
/-- Two inputs, two neurons, Adam with Nesterov momentum. -/
noncomputable def demoKind : Kind := ⟨2, 2, 8, 4, true, demoOpt 4⟩
/-- A matrix for two samples with the column of ones. -/
noncomputable def demoIn : Mtx ℝ :=
  { data := fun k => if 4 ≤ k then 1 else k, cap := 6, rows := 2, cols := 3, emul := true, ext := false, holey := false, bir := false, maxSize := 6 }
noncomputable def demoPlain (cap : ℕ) : Mtx ℝ :=
  { data := fun k => k, cap := cap, rows := 2, cols := 2, emul := false, ext := false, holey := false, bir := false, maxSize := cap }
noncomputable def demoLayer (A : Mtx ℝ) : Layer :=
  ⟨mtxOf 2 3 fun c j => c + j, A, ⟨0, 0, initState (demoCfg .adam true true) demoW 0⟩, true, false, false⟩

theorem demoIn_ones : BiasesStrict demoIn := by
  refine ⟨rfl, rfl, by decide, by decide, by decide, fun _ r c hr hc hb => ?_⟩
  have h2 : c = 2 := by simpa [IsBias, demoIn] using hb
  replace hr : r < 2 := hr
  unfold Mtx.get
  rw [if_pos ⟨by show r < 2; exact hr, hc⟩]
  show some (if 4 ≤ r + 2 * c then (1 : ℝ) else _) = _
  rw [if_pos (by omega)]

theorem demo_ready : Ready demoKind.o.kind (demoLayer demoIn).g.s := ready_init ⟨rfl, rfl, rfl, rfl⟩ (initState_ok _ _ _)

theorem demo_hyps : demoMach.Ok ∧ demoKind.o.Ok ∧ Hidden demoKind 2 (demoLayer demoIn) ∧ Input demoKind 2 demoIn ∧ Above demoKind 2 (demoPlain 6) ∧
    Below demoKind 2 (demoPlain 4) ∧ IsOutput demoKind 2 (demoLayer (demoPlain 4)) ∧ Targets demoKind 2 (demoPlain 4) :=
  ⟨⟨demoEnv_ok, trivial⟩, demoOpt_ok 4, ⟨⟨⟨_, rfl⟩, ⟨rfl, rfl, rfl, Nat.le_refl _⟩, demo_ready⟩, .inr demoIn_ones⟩,
    ⟨demoIn_ones, rfl, rfl, rfl, Nat.le_refl _⟩, ⟨rfl, rfl, rfl, rfl, by decide, fun _ => Nat.le_refl _, Nat.le_refl _⟩, ⟨rfl, rfl, rfl, rfl, Nat.le_refl _⟩,
    ⟨⟨⟨_, rfl⟩, ⟨rfl, rfl, rfl, Nat.le_refl _⟩, demo_ready⟩, rfl, Nat.le_refl _⟩, ⟨rfl, rfl, rfl⟩⟩

/-- A forward pass can be followed by a backward pass: the hypotheses of the second theorem hold for what the first one leaves behind. -/
example : ∃ L L' D P, lfcFprop demoMach demoKind true (hiddenF demoMach .sigm false) demoIn (demoLayer demoIn) (some L) ∧
    lfcBprop demoMach demoKind .sigm false true demoIn L (demoPlain 6) (demoPlain 4) (some (L', D, P)) := by
  obtain ⟨h1, h2, h3, h4, h5, h6, -, -⟩ := demo_hyps
  obtain ⟨L, e1, -, -, -, -, -, g1, g2, g3, -⟩ := hidden_forward h1 h2 (by decide) (by decide) (by decide) .sigm false h3 h4 (by decide)
  obtain ⟨L', D, P, e2, -⟩ := hidden_backward h1 h2 (by decide) (by decide) (by decide) .sigm false g1 g2 (g3.trans rfl) h4 h5 (fun _ => h6) (by decide) (need := true)
  exact ⟨L, L', D, P, (e1 _).2 rfl, (e2 _).2 rfl⟩

/-- The same for an output layer with softmax and restricted gradients. -/
example : ∃ L L' D P, lfcFprop demoMach demoKind false (outF demoMach .softmax false) demoIn (demoLayer (demoPlain 4)) (some L) ∧
    outBprop demoMach demoKind .softmax false (some (-1, 1)) true demoIn L (demoPlain 4) demoW (demoPlain 4) (some (L', D, P)) := by
  obtain ⟨h1, h2, -, h4, -, h6, h7, h8⟩ := demo_hyps
  obtain ⟨L, e1, -, -, -, -, -, g1, g2, g3, -⟩ := output_forward h1 h2 (by decide) (by decide) (by decide) .softmax false h7 rfl h4 (by decide)
  obtain ⟨L', D, P, e2, -⟩ := output_backward h1 h2 (by decide) (by decide) (by decide) .softmax false (some (-1, 1)) g1 g2 (g3.trans rfl) h4 h8
    (fun _ => ⟨rfl, rfl, rfl, rfl, Nat.le_refl _, Nat.le_refl _⟩) (fun _ => h6) (by decide) (D := demoW) (need := true)
  exact ⟨L, L', D, P, (e1 _).2 rfl, (e2 _).2 rfl⟩

end Nntl.Calls
