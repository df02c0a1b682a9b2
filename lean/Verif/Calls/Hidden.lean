import Verif.Calls.Lemmas
/-! The activation calls, and the forward pass. -/
namespace Nntl.Calls

open Nntl.Matrix Nntl.Kernel Nntl.Grad Nntl.Backprop Nntl.Gemm Nntl.Pass
open Finset

variable {M : Mach} {K : Kind} {R : ℕ}

theorem exec_ok' (h : M.Ok) (n t : ℕ) : (if n < t then Exec.st else Exec.mt M.env.rs).Ok := by
  split
  · trivial
  · exact h.env

theorem each_copy (n : ℕ) (f : ℕ → ℝ → ℝ) (d : ℕ → ℝ) : each n f d = copy n d fun p => f p (d p) := rfl

theorem numel_out {A : Mtx ℝ} (hA : Outputs K R A) : A.numelNoBias = R * K.m := by
  unfold Mtx.numelNoBias Mtx.rowsNoBias Mtx.colsNoBias
  cases he : A.emul <;> simp [hA.rows, hA.cols, hA.layout, he]

theorem out_colsNoBias {A : Mtx ℝ} (hA : Outputs K R A) : A.colsNoBias = K.m := by
  unfold Mtx.colsNoBias
  cases he : A.emul <;> simp [hA.cols, hA.layout, he]

theorem out_rowsNoBias {A : Mtx ℝ} (hA : Outputs K R A) : A.rowsNoBias = R := by
  unfold Mtx.rowsNoBias
  simp [hA.rows, hA.layout]

/-- `_activation_fprop` has one outcome. -/
theorem hiddenF_iff (hM : M.Ok) (hm : 0 < K.m) (hR : 0 < R) (a : Act.Act) (lin : Bool) {A : Mtx ℝ} (hA : Outputs K R A) (out : Option (Mtx ℝ)) :
    hiddenF M a lin A out ↔ out = some { A with data := copy (R * K.m) A.data fun p => actF a lin (A.data p) } := by
  unfold hiddenF actF
  cases lin with
  | true =>
    simp only [if_true, id]
    have : copy (R * K.m) A.data (fun p => A.data p) = A.data := by funext p; unfold copy; split <;> rfl
    rw [this]
  | false =>
    simp only [Bool.false_eq_true, if_false]
    have hr := fun d => runs_each (exec_ok' hM A.numelNoBias M.f) (Nat.mul_pos hR hm : 0 < R * K.m) (fun _ v => a.f v) A.data d
    unfold Act.fRun
    rw [numel_out hA] at hr ⊢
    simp only [hr, exists_eq_left, each_copy]

theorem noBias_isZ {A : Mtx ℝ} (hA : Outputs K R A) : IsZ K R (noBias A) := by
  refine ⟨out_rowsNoBias hA, out_colsNoBias hA, rfl, hA.layout, ?_⟩
  refine Nat.le_trans ?_ hA.room
  rw [hA.rows, hA.cols]
  exact Nat.mul_le_mul_left _ (Nat.le_add_right _ _)

theorem IsZ.numel {Z : Mtx ℝ} (hz : IsZ K R Z) : Z.numel = R * K.m := by unfold Mtx.numel; rw [hz.rows, hz.cols]

theorem fillSeq_eq {α : Type} (d : ℕ → α) (v : α) : ∀ n, fillSeq d 0 v n = fun p => if p < n then v else d p := by
  intro n
  induction n with
  | zero => rfl
  | succ n ih =>
    funext p
    simp only [fillSeq, upd, ih]
    split
    · rw [if_pos (by omega)]
    · split
      · rw [if_pos (by omega)]
      · rw [if_neg (by omega)]

/-- `dL/dZ` has one outcome. -/
theorem hiddenZ_iff (hM : M.Ok) (hm : 0 < K.m) (hR : 0 < R) (a : Act.Act) (lin : Bool) {D Z : Mtx ℝ} (hD : Above K R D) (hz : IsZ K R Z) :
    ∃ Z', IsZ K R Z' ∧ Z'.data = copy (R * K.m) Z.data (fun p => actDf a lin (Z.data p) * D.data p) ∧
      ∀ out, hiddenZ M a lin D Z out ↔ out = some Z' := by
  have hpos : 0 < R * K.m := Nat.mul_pos hR hm
  unfold hiddenZ
  cases ha : isIdentity a with
  | true =>
    have hid : a = .identity := by cases a <;> first | rfl | cases ha
    have hdf : ∀ v, actDf a lin v = 1 := by intro v; rw [hid]; unfold actDf; split <;> rfl
    have hdn : D.numel = R * K.m := by unfold Mtx.numel; rw [hD.rows, hD.cols]
    have hc : D.copyTo Z = ({ Z with data := copyN Z.data D.data (R * K.m), holey := D.holey, rows := D.rows, cols := D.cols, bir := D.bir }, true) := by
      unfold Mtx.copyTo
      rw [if_neg (by rw [hz.numel, hdn, hz.biases, hD.biases]; simp), hdn]
    refine ⟨(D.copyTo Z).1, ?_, ?_, fun out => ?_⟩
    · rw [hc]; exact ⟨hD.rows, hD.cols, hz.biases, hD.layout, hz.room⟩
    · rw [hc]
      funext p
      simp only [Num.copyN_eq, copy, hdf, one_mul]
    · simp only [if_true]
      rw [asserting_pos (by rw [hc]), call_iff rfl]
  | false =>
    simp only [Bool.false_eq_true, if_false]
    have h1 : ∀ out, hiddenDf M a lin Z out ↔ out = some { Z with data := copy (R * K.m) Z.data fun p => actDf a lin (Z.data p) } := by
      intro out
      unfold hiddenDf actDf
      cases lin with
      | true =>
        simp only [if_true]
        rw [hz.numel, fillSeq_eq]
        rfl
      | false =>
        simp only [Bool.false_eq_true, if_false]
        have hr := fun d => runs_each (exec_ok' hM Z.numel M.df) hpos (fun _ v => a.df v) Z.data d
        unfold Act.dfRun
        rw [hz.numel] at hr ⊢
        simp only [hr, exists_eq_left, each_copy]
    refine ⟨{ Z with data := copy (R * K.m) Z.data fun p => actDf a lin (Z.data p) * D.data p }, ⟨hz.rows, hz.cols, hz.biases, hz.layout, hz.room⟩, rfl,
      fun out => ?_⟩
    rw [andThen_some h1]
    unfold evMulIp
    rw [asserting_pos (by unfold size; simp only [hz.rows, hz.cols, hD.rows, hD.cols])]
    have hn : ({ Z with data := copy (R * K.m) Z.data fun p => actDf a lin (Z.data p) } : Mtx ℝ).numel = R * K.m := hz.numel
    have hr := fun d => runs_each (exec_ok' hM (R * K.m) M.mul) hpos (fun i v => v * D.data i)
      (copy (R * K.m) Z.data fun p => actDf a lin (Z.data p)) d
    rw [hn]
    simp only [hr, exists_eq_left, each_copy]
    have : copy (R * K.m) (copy (R * K.m) Z.data fun p => actDf a lin (Z.data p))
        (fun p => copy (R * K.m) Z.data (fun p => actDf a lin (Z.data p)) p * D.data p) =
        copy (R * K.m) Z.data fun p => actDf a lin (Z.data p) * D.data p := by
      funext p
      simp only [copy]
      split <;> rfl
    rw [this]

/-- The forward pass with any activation call that works row by row. -/
theorem lfcFprop_iff (hM : M.Ok) (ho : K.o.Ok) (hn : 0 < K.n) (hm : 0 < K.m) (hR : 0 < R) {L : Layer} (hL : Good K R L) {prev : Mtx ℝ}
    (hp : Input K R prev) (hbs : R ≤ if L.training then K.maxTrainBS else K.maxBS) {hidden : Bool} (he : L.shared = true ∨ L.act.emul = hidden)
    (hb : hidden = false ∨ L.shared = true ∨ BiasesStrict L.act) {F : Mtx ℝ → Option (Mtx ℝ) → Prop} {rowF : (ℕ → ℝ) → ℕ → ℝ}
    (hF : ∀ d : ℕ → ℝ, ∀ out, F { L.act with data := d } out ↔
      out = some { L.act with data := copy (R * K.m) d (memOf R fun r => rowF fun c => d (r + R * c)) })
    (hloc : ∀ z z' : ℕ → ℝ, (∀ i < K.m, z i = z' i) → ∀ i < K.m, rowF z i = rowF z' i) (out : Option Layer) :
    let x := (gradWorks K.o K.m (K.n + 1)).pre L.g (matOf K.m L.W.data)
    let L1 := if L.training then { L with W := mtxOf K.m (K.n + 1) x.2, g := x.1 } else L
    let d := copy (R * K.m) L.act.data (memOf R fun r => rowF fun c => ∑ j ∈ range (K.n + 1), prev.data (r + R * j) * matOf K.m L1.W.data c j)
    lfcFprop M K hidden F prev L out ↔ out = some { L1 with act := { L.act with data := d }, valid := true } := by
  intro x L1 d
  have hps : prev.sampleSize = K.n := by simp [Mtx.sampleSize, Mtx.colsNoBias, hp.layout, hp.biases.1, hp.cols]
  have hpb : prev.batchSize = R := by simp [Mtx.batchSize, hp.layout, hp.rows]
  have hab : L.act.batchSize = R := by simp [Mtx.batchSize, hL.act.layout, hL.act.rows]
  unfold lfcFprop
  rw [asserting_pos ⟨hp.biases, hps.symm, he, hb, by rw [hpb]; exact hbs, by rw [hab]; exact hbs, by rw [hpb, hab]⟩,
    andThen_some (preCall_iff hM ho hn hm hL.w hL.ready)]
  have hW : L1.W = mtxOf K.m (K.n + 1) (matOf K.m L1.W.data) := by
    refine mtxOf_matOf ?_
    show ∃ w, (if L.training then { L with W := mtxOf K.m (K.n + 1) x.2, g := x.1 } else L).W = _
    split
    · exact ⟨_, rfl⟩
    · exact hL.w
  have hA : L1.act = L.act := by
    show (if L.training then { L with W := mtxOf K.m (K.n + 1) x.2, g := x.1 } else L).act = _
    split <;> rfl
  have key := preact (prev := prev) (A := L.act) hn hm hR hp (matOf K.m L1.W.data) hL.act
  rw [← hW, ← hA] at key
  rw [andThen_call key, hA, andThen_some (hF _), call_iff rfl]
  have : copy (R * K.m) (copy (R * K.m) L.act.data (memOf R fun r c => ∑ j ∈ range (K.n + 1), prev.data (r + R * j) * matOf K.m L1.W.data c j))
      (memOf R fun r => rowF fun c => copy (R * K.m) L.act.data (memOf R fun r c => ∑ j ∈ range (K.n + 1), prev.data (r + R * j) *
        matOf K.m L1.W.data c j) (r + R * c)) =
      copy (R * K.m) L.act.data (memOf R fun r => rowF fun c => ∑ j ∈ range (K.n + 1), prev.data (r + R * j) * matOf K.m L1.W.data c j) := by
    funext p
    unfold copy
    split
    · rename_i hp'
      show rowF _ (p / R) = rowF _ (p / R)
      have hr : p % R < R := Nat.mod_lt _ hR
      refine hloc _ _ (fun c hc => ?_) _ (Nat.div_lt_of_lt_mul hp')
      have hlt : p % R + R * c < R * K.m := by
        have : R * c + R ≤ R * K.m := by rw [← Nat.mul_succ]; exact Nat.mul_le_mul_left _ hc
        omega
      rw [if_pos hlt]
      exact matOf_memOf hr
    · rfl
  rw [this]

end Nntl.Calls
