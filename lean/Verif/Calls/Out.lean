import Verif.Calls.Hidden
/-! The activation calls of the output layer. -/
namespace Nntl.Calls

open Nntl.Matrix Nntl.Kernel Nntl.Grad Nntl.Backprop Nntl.Gemm Nntl.Pass

variable {M : Mach} {K : Kind} {R : ℕ}

theorem memOf_el (R : ℕ) (f : ℝ → ℝ) (d : ℕ → ℝ) : memOf R (fun r c => f (d (r + R * c))) = fun p => f (d p) := by
  funext p
  show f (d (p % R + R * (p / R))) = f (d p)
  rw [Nat.mod_add_div]

theorem hiddenF_rows (hM : M.Ok) (hm : 0 < K.m) (hR : 0 < R) (a : Act.Act) (lin : Bool) {A : Mtx ℝ} (hA : Outputs K R A) (out : Option (Mtx ℝ)) :
    hiddenF M a lin A out ↔ out = some { A with data := copy (R * K.m) A.data (memOf R fun r c => actF a lin (A.data (r + R * c))) } := by
  rw [hiddenF_iff hM hm hR a lin hA, memOf_el]

theorem copy_self (n : ℕ) (d : ℕ → ℝ) : copy n d d = d := by funext p; unfold copy; split <;> rfl

theorem outF_iff (hM : M.Ok) (hm : 0 < K.m) (hR : 0 < R) (a : OutAct) (lin : Bool) {A : Mtx ℝ} (hA : Outputs K R A) (hmax : A.rows * A.cols ≤ A.maxSize)
    (out : Option (Mtx ℝ)) :
    outF M a lin A out ↔ out = some { A with data := copy (R * K.m) A.data (memOf R fun r => outRow a lin K.m fun c => A.data (r + R * c)) } := by
  cases a with
  | elem o => exact hiddenF_rows hM hm hR o.act lin hA out
  | softmax =>
    show (if lin then _ else _) ↔ _
    unfold outRow
    cases lin with
    | true =>
      simp only [if_true, id]
      rw [memOf_el R (fun v => v), copy_self]
    | false =>
      simp only [Bool.false_eq_true, if_false]
      have hcols : 0 < A.colsNoBias := by rw [out_colsNoBias hA]; exact hm
      have hrows : 0 < A.rows := by rw [hA.rows]; exact hR
      have hcap : A.cap ≠ 0 := fun h => by
        have h1 := hA.room
        rw [h, hA.rows, hA.cols] at h1
        have := Nat.mul_pos hR (show 0 < K.m + A.emul.toNat by omega)
        omega
      have hne : A.empty = false := by simp [Mtx.empty, hcap]
      have hc2 : A.emul = true → 2 ≤ A.cols := by intro h; rw [hA.cols, h]; simp; omega
      have det : ∀ A' mx den num, Num.softmax M.soft M.env.rs M.sumEx M.sumCw A A' mx den num →
          A' = { A with data := copy (R * K.m) A.data (memOf R fun r c => Num.softmaxOf (fun c => A.data (r + R * c)) K.m c) } := by
        intro A' mx den num h
        obtain ⟨e1, e2, e3⟩ := Num.softmax_result _ _ hM.env _ hM.sum _ _ _ hrows hcols h
        rw [out_colsNoBias hA] at e2 e3
        rw [hA.rows] at e2 e3
        have : A'.data = copy (R * K.m) A.data (memOf R fun r c => Num.softmaxOf (fun c => A.data (r + R * c)) K.m c) := by
          refine mem_ext hR (fun r hr c hc => ?_) e3
          have := e2 r c hr hc
          unfold Mtx.cell Mtx.rowOf Mtx.cell at this
          rw [hA.rows] at this
          exact this
        rw [e1, this]
      constructor
      · rintro (⟨A', mx, den, num, h, rfl⟩ | ⟨h, rfl⟩)
        · rw [det _ _ _ _ h]
        · exfalso
          obtain ⟨A', mx, den, num, B, b, hB, -⟩ := Num.softmax_runs M.soft M.env.rs M.sumEx M.sumCw A hne hA.layout hc2 hmax
          rw [h] at hB
          cases hB
      · rintro rfl
        obtain ⟨A', mx, den, num, h⟩ := Num.softmax_runs M.soft M.env.rs M.sumEx M.sumCw A hne hA.layout hc2 hmax
        exact .inl ⟨A', mx, den, num, h, by rw [det _ _ _ _ h]⟩

theorem outRow_local (a : OutAct) (lin : Bool) (m : ℕ) (z z' : ℕ → ℝ) (h : ∀ i < m, z i = z' i) (i : ℕ) (hi : i < m) :
    outRow a lin m z i = outRow a lin m z' i := by
  cases a with
  | elem o => show actF _ _ (z i) = actF _ _ (z' i); rw [h i hi]
  | softmax =>
    cases lin with
    | true => exact h i hi
    | false =>
      show Num.softmaxOf z m i = Num.softmaxOf z' m i
      unfold Num.softmaxOf
      rw [h i hi, List.map_congr_left fun j hj => by rw [h j (List.mem_range.1 hj)]]

theorem outZ_iff (hM : M.Ok) (hm : 0 < K.m) (hR : 0 < R) (a : OutAct) (lin : Bool) (bnd : Option (ℝ × ℝ)) {A Y : Mtx ℝ} (hA : Outputs K R A)
    (he : A.emul = false) (hY : Targets K R Y) (out : Option (Mtx ℝ)) :
    outZ M a lin bnd Y A out ↔ out = some { A with data := copy (R * K.m) A.data fun p => outDz a lin bnd (A.data p) (Y.data p) } := by
  have hpos : 0 < R * K.m := Nat.mul_pos hR hm
  have hc : A.cols = K.m := by rw [hA.cols, he]; rfl
  unfold outZ
  rw [asserting_pos ⟨he, hY.biases, by unfold size; rw [hA.rows, hc, hY.rows, hY.cols]⟩]
  have hn : A.numel = R * K.m := by unfold Mtx.numel; rw [hA.rows, hc]
  rw [hn]
  have r1 := fun (f : ℕ → ℝ → ℝ) d => runs_each (exec_ok' hM (R * K.m) M.dz) hpos f A.data d
  have r2 := fun (f : ℕ → ℝ → ℝ) d d' => runs_each (exec_ok' hM (R * K.m) M.clamp) hpos f d d'
  cases bnd with
  | none =>
    simp only [r1, exists_and_left, exists_eq_left, each_copy, outDz]
    cases a <;> rfl
  | some b =>
    simp only [r1, r2, exists_and_left, exists_eq_left, each_copy, outDz]
    have : ∀ f : ℕ → ℝ, copy (R * K.m) (copy (R * K.m) A.data f) (fun p => Act.clamp b.1 b.2 (copy (R * K.m) A.data f p)) =
        copy (R * K.m) A.data fun p => Act.clamp b.1 b.2 (f p) := by
      intro f
      funext p
      simp only [copy]
      split <;> rfl
    rw [this]
    cases a <;> rfl

end Nntl.Calls
