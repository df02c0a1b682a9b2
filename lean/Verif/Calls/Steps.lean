import Verif.Calls.Out
/-! The passes of the layers as functions. -/
namespace Nntl.Calls

open Nntl.Matrix Nntl.Kernel Nntl.Grad Nntl.Backprop Nntl.Gemm Nntl.Pass

variable {M : Mach} {K : Kind} {R : ℕ}

theorem matOf_mtxOf (m k : ℕ) (d : ℕ → ℝ) : matOf m (mtxOf m k (matOf m d)).data = matOf m d := by
  show matOf m (memOf m (matOf m d)) = _
  rw [memOf_matOf]

theorem ready_same {c : Cfg} {s t : St} (h : (t.hasV, t.hasA, t.hasB, t.hasGain, t.hasPrev) = (s.hasV, s.hasA, s.hasB, s.hasGain, s.hasPrev))
    (hr : Ready c s) : Ready c t := by
  simp only [Prod.mk.injEq] at h
  obtain ⟨h1, h2, h3, h4, h5⟩ := h
  exact ⟨by rw [h2]; exact hr.a, by rw [h3]; exact hr.b, by rw [h1]; exact hr.v, by rw [h4]; exact hr.gain, by rw [h5]; exact hr.prev⟩

theorem ready_pre (o : Opt) (m k : ℕ) {c : Cfg} (g : GwS) (w : Mat ℝ) (hr : Ready c g.s) : Ready c ((gradWorks o m k).pre g w).1.s :=
  ready_same (preF_same (o.pre g.p).cfg (o.pre g.p).blocked (o.pre g.p).draw { g.s with W := mtxOf m k w }).flags ⟨hr.a, hr.b, hr.v, hr.gain, hr.prev⟩

theorem ready_apply (o : Opt) (m k : ℕ) {c : Cfg} (g : GwS) (w d : Mat ℝ) (hr : Ready c g.s) : Ready c ((gradWorks o m k).apply g w d).1.s :=
  ready_same (applyF_same (o.app g.t).cfg (o.app g.t).blocked (o.app g.t).draw { g.s with W := mtxOf m k w, G := mtxOf m k d }).flags
    ⟨hr.a, hr.b, hr.v, hr.gain, hr.prev⟩

/-- Writing the values leaves the column of ones. -/
theorem biases_kept {A : Mtx ℝ} (hA : Outputs K R A) (f : ℕ → ℝ) (hb : BiasesStrict A) : BiasesStrict { A with data := copy (R * K.m) A.data f } := by
  obtain ⟨h1, h2, h3, h4, h5, h6⟩ := hb
  refine ⟨h1, h2, h3, h4, h5, fun h r c hr hc hbias => ?_⟩
  have := h6 h r c hr hc hbias
  unfold Mtx.get at this ⊢
  have hcell : R * K.m ≤ A.cell r c := by
    unfold IsBias at hbias
    rw [hA.layout, h1] at hbias
    simp only [Bool.false_eq_true, if_false, true_and] at hbias
    have hc' : c = K.m := by
      have := hA.cols
      rw [h1] at this
      simp at this
      omega
    unfold Mtx.cell
    rw [hA.rows, hc']
    omega
  have hcell' : Mtx.cell { A with data := copy (R * K.m) A.data f } r c = A.cell r c := rfl
  rw [hcell']
  split at this
  · rename_i hlt
    rw [if_pos hlt]
    have e : copy (R * K.m) A.data f (A.cell r c) = A.data (A.cell r c) := by unfold copy; rw [if_neg (by omega)]
    show some (copy (R * K.m) A.data f (A.cell r c)) = some 1
    rw [e]
    exact this
  · cases this

/-- C101. The calls of a forward pass of a hidden layer do what `Pass.fc` does to the contents of the memory. -/
theorem hidden_fprop (hM : M.Ok) (ho : K.o.Ok) (hn : 0 < K.n) (hm : 0 < K.m) (hR : 0 < R) (a : Act.Act) (lin : Bool) {L : Layer} (hL : Hidden K R L)
    {prev : Mtx ℝ} (hp : Input K R prev) (hbs : R ≤ if L.training then K.maxTrainBS else K.maxBS) (NT : ℕ) (T : ℕ → ℝ) :
    ∃ L', (∀ out, lfcFprop M K true (hiddenF M a lin) prev L out ↔ out = some L') ∧ Hidden K R L' ∧ L'.valid = true ∧ L'.training = L.training ∧
      L'.shared = L.shared ∧ L'.act = { L.act with data := L'.act.data } ∧
      (fc realArith (gradWorks K.o K.m (K.n + 1)) (actF a lin) (actDf a lin) K.upd NT K.n K.m).fprop R (abs K L) prev.data T L.act.data =
        ⟨abs K L', prev.data, T, L'.act.data⟩ := by
  have he : L.shared = true ∨ L.act.emul = true := hL.biases.imp_right And.left
  have key := lfcFprop_iff hM ho hn hm hR hL.toGood hp hbs (hidden := true) he (.inr hL.biases) (F := hiddenF M a lin)
    (rowF := fun z c => actF a lin (z c))
    (fun d out => hiddenF_rows hM hm hR a lin (A := { L.act with data := d }) ⟨hL.act.rows, hL.act.cols, hL.act.layout, hL.act.room⟩ out)
    (fun z z' h i hi => by show actF _ _ (z i) = _; rw [h i hi])
  refine ⟨_, key, ⟨⟨?_, ⟨hL.act.rows, hL.act.cols, hL.act.layout, hL.act.room⟩, ?_⟩, ?_⟩, rfl, ?_, ?_, rfl, ?_⟩
  · show ∃ w, (if L.training then _ else L).W = _
    split
    · exact ⟨_, rfl⟩
    · exact hL.w
  · show Ready _ (if L.training then _ else L).g.s
    split
    · exact ready_pre _ _ _ _ _ hL.ready
    · exact hL.ready
  · refine (hL.biases.imp ?_ (biases_kept hL.act _))
    intro h
    show (if L.training then _ else L).shared = true
    split <;> exact h
  · show (if L.training then _ else L).training = _
    split <;> rfl
  · show (if L.training then _ else L).shared = _
    split <;> rfl
  · unfold fc abs
    cases ht : L.training
    · simp only [Bool.false_eq_true, if_false, ht]
      rfl
    · simp only [if_true, ht]
      have : matOf K.m (mtxOf K.m (K.n + 1) ((gradWorks K.o K.m (K.n + 1)).pre L.g (matOf K.m L.W.data)).2).data =
          ((gradWorks K.o K.m (K.n + 1)).pre L.g (matOf K.m L.W.data)).2 := matOf_mtxOf _ _ _
      rw [this]
      rfl

theorem deform_some {A : Mtx ℝ} (h : A.cap ≠ 0) {r c : ℕ} (hr : r * c ≤ A.maxSize) : A.deform r c = some { A with rows := r, cols := c } := by
  unfold Mtx.deform
  rw [if_pos ⟨by simp [Mtx.empty, h], hr⟩]

/-- C101. The calls of a backward pass of a hidden layer do what `Pass.fc` does to the contents of the memory. -/
theorem hidden_bprop (hM : M.Ok) (ho : K.o.Ok) (hn : 0 < K.n) (hm : 0 < K.m) (hR : 0 < R) (a : Act.Act) (lin : Bool) {L : Layer} (hL : Hidden K R L)
    (hv : L.valid = true) (ht : L.training = true) {prev D P : Mtx ℝ} {need : Bool} (hp : Input K R prev) (hD : Above K R D)
    (hP : need = true → Below K R P) (hbs : R ≤ K.maxTrainBS) (NT : ℕ) (T : ℕ → ℝ) :
    ∃ L' d p, (∀ out, lfcBprop M K a lin need prev L D P out ↔ out = some (L', { D with data := d }, { P with data := p })) ∧ Hidden K R L' ∧
      L'.valid = false ∧ L'.training = true ∧ L'.shared = L.shared ∧ L'.act = { L.act with data := L'.act.data } ∧
      (fc realArith (gradWorks K.o K.m (K.n + 1)) (actF a lin) (actDf a lin) K.upd NT K.n K.m).bprop R need (abs K L) prev.data T L.act.data D.data P.data =
        ⟨true, abs K L', prev.data, T, L'.act.data, d, p⟩ := by
  have hps : prev.sampleSize = K.n := by simp [Mtx.sampleSize, Mtx.colsNoBias, hp.layout, hp.biases.1, hp.cols]
  have hpb : prev.batchSize = R := by simp [Mtx.batchSize, hp.layout, hp.rows]
  have hab : L.act.batchSize = R := by simp [Mtx.batchSize, hL.act.layout, hL.act.rows]
  have hpos : 0 < R * K.m := Nat.mul_pos hR hm
  have hcap : D.cap ≠ 0 := by have := hD.room; have := hD.cap; omega
  obtain ⟨Z, hz, hzd, hzi⟩ := hiddenZ_iff hM hm hR a lin hD (noBias_isZ hL.act)
  have hzd' : Z.data = copy (R * K.m) L.act.data fun p => actDf a lin (L.act.data p) * D.data p := hzd
  have hW := mtxOf_matOf hL.w
  have hpass := passDown_some hn hm hR hz (matOf K.m L.W.data) hP
  rw [← hW] at hpass
  generalize hpd : (if need then copy (R * K.n) P.data (memOf R fun r j => ∑ c ∈ Finset.range K.m, Z.data (r + R * c) * matOf K.m L.W.data c j) else P.data) = pd at hpass
  have hsz : need = true → size P = sizeNoBias prev ∧ P.bir = prev.bir := by
    intro h
    refine ⟨?_, by rw [(hP h).layout, hp.layout]⟩
    unfold size sizeNoBias
    rw [(hP h).rows, (hP h).cols]
    simp [Mtx.rowsNoBias, Mtx.colsNoBias, hp.biases.1, hp.layout, hp.rows, hp.cols]
  have hiff : ∀ out, lfcBprop M K a lin need prev L D P out ↔
      (if K.upd then
        andThen (call (deformLike D L.W)) (fun D1 =>
        andThen (call (mMulScaledDLdZPrevAct (1 / (L.act.batchSize : ℝ)) Z prev D1)) fun D2 =>
        andThen (applyCall M K L.g L.W D2) fun x =>
        andThen (call (deformLikeNoBias x.2.2 L.act)) fun D3 =>
        call (some ({ L with W := x.1, act := { L.act with data := Z.data }, g := x.2.1, valid := false }, D3, { P with data := pd })))
      else call (some ({ L with act := { L.act with data := Z.data }, valid := false }, D, { P with data := pd }))) out := by
    intro out
    unfold lfcBprop
    rw [asserting_pos ⟨hp.biases, hL.biases, hv, ht, by rw [hpb]; exact hbs, by rw [hab]; exact hbs, by rw [hpb, hab], hp.biases.1,
        hL.biases.imp_right And.left, by unfold size sizeNoBias; rw [out_rowsNoBias hL.act, out_colsNoBias hL.act, hD.rows, hD.cols], hps.symm, hsz,
        hL.act.layout, hD.layout⟩, andThen_some hzi, andThen_call hpass]
  have hact : Outputs K R { L.act with data := Z.data } := ⟨hL.act.rows, hL.act.cols, hL.act.layout, hL.act.room⟩
  have hbias : L.shared = true ∨ BiasesStrict { L.act with data := Z.data } := by
    rw [hzd']
    exact hL.biases.imp_right (biases_kept hL.act _)
  cases hu : K.upd with
  | false =>
    refine ⟨{ L with act := { L.act with data := Z.data }, valid := false }, D.data, pd, fun out => ?_, ⟨⟨hL.w, hact, hL.ready⟩, hbias⟩, rfl, ht, rfl, rfl, ?_⟩
    · rw [hiff, hu]
      simp only [Bool.false_eq_true, if_false]
      rw [call_iff rfl]
    · unfold fc abs
      simp only [Bool.false_eq_true, if_false, realArith, ← hzd', hpd]
  | true =>
    have hroom := hD.roomW hu
    have hwr : L.W.rows = K.m := by rw [hW]; rfl
    have hwc : L.W.cols = K.n + 1 := by rw [hW]; rfl
    have hwb : L.W.bir = false := by rw [hW]; rfl
    have e1 : deformLike D L.W = some { D with rows := K.m, cols := K.n + 1 } := by
      unfold deformLike
      rw [hwr, hwc, hwb, deform_some hcap hroom]
      show some _ = some _
      rw [← hD.layout]
    have e2 := gradient_some (D := { D with rows := K.m, cols := K.n + 1 }) hm hR hz hp rfl rfl hD.layout (Nat.le_trans hroom hD.cap) (1 / (L.act.batchSize : ℝ))
    rw [hab] at e2
    generalize hG : copy (K.m * (K.n + 1)) D.data (memOf K.m fun c j => 1 / (R : ℝ) * ∑ r ∈ Finset.range R, Z.data (r + R * c) * prev.data (r + R * j)) = G at e2
    have e3 := applyCall_iff hM ho hn hm hL.ready (matOf K.m L.W.data) (D := { D with rows := K.m, cols := K.n + 1, data := G })
      ⟨by simp [Mtx.empty, hcap], hD.layout, hm, by show 2 ≤ K.n + 1; omega, hroom⟩ rfl rfl
    rw [← hW] at e3
    generalize hx : (gradWorks K.o K.m (K.n + 1)).apply L.g (matOf K.m L.W.data) (matOf K.m G) = x at e3
    have e4 : deformLikeNoBias { D with rows := K.m, cols := K.n + 1, data := copy (K.m * (K.n + 1)) G (memOf K.m x.2.2) } L.act =
        some { D with data := copy (K.m * (K.n + 1)) G (memOf K.m x.2.2) } := by
      unfold deformLikeNoBias
      rw [out_rowsNoBias hL.act, out_colsNoBias hL.act, hL.act.layout,
        deform_some (A := { D with rows := K.m, cols := K.n + 1, data := copy (K.m * (K.n + 1)) G (memOf K.m x.2.2) }) hcap hD.room, ← hD.rows, ← hD.cols]
      show some _ = some _
      rw [← hD.layout]
    have hxr : Ready K.o.kind x.1.s := by rw [← hx]; exact ready_apply _ _ _ _ _ _ hL.ready
    refine ⟨{ L with W := mtxOf K.m (K.n + 1) x.2.1, act := { L.act with data := Z.data }, g := x.1, valid := false }, copy (K.m * (K.n + 1)) G (memOf K.m x.2.2), pd, fun out => ?_,
      ⟨⟨⟨_, rfl⟩, hact, hxr⟩, hbias⟩, rfl, ht, rfl, rfl, ?_⟩
    · rw [hiff, hu]
      simp only [if_true]
      rw [andThen_call e1, hab, andThen_call e2, andThen_some e3, andThen_call e4, call_iff rfl]
    · have hxw : matOf K.m (mtxOf K.m (K.n + 1) x.2.1).data = x.2.1 := by rw [← hx]; exact matOf_mtxOf _ _ _
      unfold fc abs
      simp only [if_true, realArith, ← hzd', hpd, hG, hx, hxw]

/-- C101. The calls of a forward pass of the output layer do what `Pass.outLayer` does to the contents of the memory. -/
theorem out_fprop (hM : M.Ok) (ho : K.o.Ok) (hn : 0 < K.n) (hm : 0 < K.m) (hR : 0 < R) (a : OutAct) (lin : Bool) (dz : ℝ → ℝ → ℝ) {L : Layer}
    (hL : IsOutput K R L) (hs : L.shared = false) {prev : Mtx ℝ} (hp : Input K R prev) (hbs : R ≤ if L.training then K.maxTrainBS else K.maxBS)
    (T : ℕ → ℝ) :
    ∃ L', (∀ out, lfcFprop M K false (outF M a lin) prev L out ↔ out = some L') ∧ IsOutput K R L' ∧ L'.valid = true ∧ L'.training = L.training ∧
      L'.shared = false ∧ L'.act = { L.act with data := L'.act.data } ∧
      (outLayer realArith (gradWorks K.o K.m (K.n + 1)) (outRow a lin K.m) dz K.upd K.n K.m).fprop R (abs K L) prev.data T L.act.data =
        ⟨abs K L', prev.data, T, L'.act.data⟩ := by
  have key := lfcFprop_iff hM ho hn hm hR hL.toGood hp hbs (hidden := false) (.inr hL.noBiases) (.inl rfl) (F := outF M a lin) (rowF := outRow a lin K.m)
    (fun d out => outF_iff hM hm hR a lin (A := { L.act with data := d }) ⟨hL.act.rows, hL.act.cols, hL.act.layout, hL.act.room⟩ hL.max out)
    (outRow_local a lin K.m)
  refine ⟨_, key, ⟨⟨?_, ⟨hL.act.rows, hL.act.cols, hL.act.layout, hL.act.room⟩, ?_⟩, hL.noBiases, hL.max⟩, rfl, ?_, ?_, rfl, ?_⟩
  · show ∃ w, (if L.training then _ else L).W = _
    split
    · exact ⟨_, rfl⟩
    · exact hL.w
  · show Ready _ (if L.training then _ else L).g.s
    split
    · exact ready_pre _ _ _ _ _ hL.ready
    · exact hL.ready
  · show (if L.training then _ else L).training = _
    split <;> rfl
  · show (if L.training then _ else L).shared = _
    split <;> exact hs
  · unfold outLayer abs
    cases ht : L.training
    · simp only [Bool.false_eq_true, if_false, ht]
      rfl
    · simp only [if_true, ht]
      have : matOf K.m (mtxOf K.m (K.n + 1) ((gradWorks K.o K.m (K.n + 1)).pre L.g (matOf K.m L.W.data)).2).data =
          ((gradWorks K.o K.m (K.n + 1)).pre L.g (matOf K.m L.W.data)).2 := matOf_mtxOf _ _ _
      rw [this]
      rfl

/-- C101. The calls of a backward pass of the output layer do what `Pass.outLayer` does to the contents of the memory. -/
theorem out_bprop (hM : M.Ok) (ho : K.o.Ok) (hn : 0 < K.n) (hm : 0 < K.m) (hR : 0 < R) (a : OutAct) (lin : Bool) (bnd : Option (ℝ × ℝ))
    (act : (ℕ → ℝ) → ℕ → ℝ) {L : Layer} (hL : IsOutput K R L) (hv : L.valid = true) (ht : L.training = true) {prev Y D P : Mtx ℝ} {need : Bool}
    (hp : Input K R prev) (hY : Targets K R Y) (hD : K.upd = true → GradW K D) (hP : need = true → Below K R P) (hbs : R ≤ K.maxTrainBS) :
    ∃ L' d p, (∀ out, outBprop M K a lin bnd need prev L Y D P out ↔ out = some (L', { D with data := d }, { P with data := p })) ∧ IsOutput K R L' ∧
      L'.valid = false ∧ L'.training = true ∧ L'.shared = L.shared ∧ L'.act = { L.act with data := L'.act.data } ∧
      ∃ p', (outLayer realArith (gradWorks K.o K.m (K.n + 1)) act (outDz a lin bnd) K.upd K.n K.m).bprop R (abs K L) prev.data D.data L.act.data
        Y.data P.data = ⟨abs K L', prev.data, d, L'.act.data, p'⟩ ∧ p = if need then p' else P.data := by
  have hps : prev.sampleSize = K.n := by simp [Mtx.sampleSize, Mtx.colsNoBias, hp.layout, hp.biases.1, hp.cols]
  have hpb : prev.batchSize = R := by simp [Mtx.batchSize, hp.layout, hp.rows]
  have hab : L.act.batchSize = R := by simp [Mtx.batchSize, hL.act.layout, hL.act.rows]
  have hzi := outZ_iff hM hm hR a lin bnd hL.act hL.noBiases hY
  generalize hzd : copy (R * K.m) L.act.data (fun p => outDz a lin bnd (L.act.data p) (Y.data p)) = zd at hzi
  have hc : L.act.cols = K.m := by rw [hL.act.cols, hL.noBiases]; rfl
  have hz : IsZ K R { L.act with data := zd } := ⟨hL.act.rows, hc, hL.noBiases, hL.act.layout, by
    have := hL.act.room
    rw [hL.act.rows, hc] at this
    exact this⟩
  have hW := mtxOf_matOf hL.w
  have hpass := passDown_some hn hm hR hz (matOf K.m L.W.data) hP
  rw [← hW] at hpass
  generalize hpd : (if need then copy (R * K.n) P.data (memOf R fun r j => ∑ c ∈ Finset.range K.m, ({ L.act with data := zd } : Mtx ℝ).data (r + R * c) *
    matOf K.m L.W.data c j) else P.data) = pd at hpass
  have hsz : need = true → size P = sizeNoBias prev ∧ P.bir = prev.bir := by
    intro h
    refine ⟨?_, by rw [(hP h).layout, hp.layout]⟩
    unfold size sizeNoBias
    rw [(hP h).rows, (hP h).cols]
    simp [Mtx.rowsNoBias, Mtx.colsNoBias, hp.biases.1, hp.layout, hp.rows, hp.cols]
  have hiff : ∀ out, outBprop M K a lin bnd need prev L Y D P out ↔
      (if K.upd then
        asserting (D.emul = false ∧ D.bir = false ∧ L.W.bir = false ∧ size D = size L.W)
        (andThen (call (mMulScaledDLdZPrevAct (1 / (L.act.rows : ℝ)) { L.act with data := zd } prev D)) fun D2 =>
        andThen (applyCall M K L.g L.W D2) fun x =>
        call (some ({ L with W := x.1, act := { L.act with data := zd }, g := x.2.1, valid := false }, x.2.2, { P with data := pd })))
      else call (some ({ L with act := { L.act with data := zd }, valid := false }, D, { P with data := pd }))) out := by
    intro out
    unfold outBprop
    rw [asserting_pos ⟨hp.biases, ht, by rw [hpb]; exact hbs, by rw [hab]; exact hbs, by rw [hpb, hab], hv, hps.symm, hsz⟩, andThen_some hzi,
      asserting_pos (by exact hL.act.layout), andThen_call hpass]
  have hact : Outputs K R { L.act with data := zd } := ⟨hL.act.rows, hL.act.cols, hL.act.layout, hL.act.room⟩
  cases hu : K.upd with
  | false =>
    refine ⟨{ L with act := { L.act with data := zd }, valid := false }, D.data, pd, fun out => ?_, ⟨⟨hL.w, hact, hL.ready⟩, hL.noBiases, hL.max⟩, rfl, ht,
      rfl, rfl, ?_⟩
    · rw [hiff, hu]
      simp only [Bool.false_eq_true, if_false]
      rw [call_iff rfl]
    · unfold outLayer abs
      simp only [Bool.false_eq_true, if_false, realArith, hzd]
      exact ⟨_, rfl, hpd.symm⟩
  | true =>
    have hD := hD hu
    have hwr : L.W.rows = K.m := by rw [hW]; rfl
    have hwc : L.W.cols = K.n + 1 := by rw [hW]; rfl
    have hwb : L.W.bir = false := by rw [hW]; rfl
    have hcap : D.cap ≠ 0 := by
      have := hD.room
      have := hD.cap
      have : 0 < K.m * (K.n + 1) := Nat.mul_pos hm (Nat.succ_pos K.n)
      omega
    have e2 := gradient_some (D := D) hm hR hz hp hD.rows hD.cols hD.layout (Nat.le_trans hD.room hD.cap) (1 / (L.act.rows : ℝ))
    generalize hG : copy (K.m * (K.n + 1)) D.data (memOf K.m fun c j => 1 / (L.act.rows : ℝ) * ∑ r ∈ Finset.range R,
      ({ L.act with data := zd } : Mtx ℝ).data (r + R * c) * prev.data (r + R * j)) = G at e2
    have e3 := applyCall_iff hM ho hn hm hL.ready (matOf K.m L.W.data) (D := { D with data := G })
      ⟨by simp [Mtx.empty, hcap], hD.layout, by show 0 < D.rows; rw [hD.rows]; exact hm, by show 2 ≤ D.cols; rw [hD.cols]; omega,
        by show D.rows * D.cols ≤ D.maxSize; rw [hD.rows, hD.cols]; exact hD.room⟩ hD.rows hD.cols
    rw [← hW] at e3
    generalize hx : (gradWorks K.o K.m (K.n + 1)).apply L.g (matOf K.m L.W.data) (matOf K.m G) = x at e3
    have hxr : Ready K.o.kind x.1.s := by rw [← hx]; exact ready_apply _ _ _ _ _ _ hL.ready
    refine ⟨{ L with W := mtxOf K.m (K.n + 1) x.2.1, act := { L.act with data := zd }, g := x.1, valid := false },
      copy (K.m * (K.n + 1)) G (memOf K.m x.2.2), pd, fun out => ?_, ⟨⟨⟨_, rfl⟩, hact, hxr⟩, hL.noBiases, hL.max⟩, rfl, ht, rfl, rfl, ?_⟩
    · rw [hiff, hu]
      simp only [if_true]
      rw [asserting_pos ⟨hD.biases, hD.layout, hwb, by unfold size; rw [hD.rows, hD.cols, hwr, hwc]⟩, andThen_call e2, andThen_some e3,
        call_iff rfl]
    · have hxw : matOf K.m (mtxOf K.m (K.n + 1) x.2.1).data = x.2.1 := by rw [← hx]; exact matOf_mtxOf _ _ _
      unfold outLayer abs
      simp only [if_true, realArith, hzd, hxw]
      refine ⟨_, ?_, hpd.symm⟩
      simp only [hL.act.rows] at hG
      simp only [hG, hx]

end Nntl.Calls
