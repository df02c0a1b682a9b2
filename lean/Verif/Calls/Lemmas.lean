import Verif.Calls.Spec
import Verif.Gemm.Props
import Verif.Grad.Func
import Verif.Num.Softmax
import Verif.Backprop.ReproProps
/-! Every piece of code of `Calls.Model` has one outcome, and which. -/
namespace Nntl.Calls

open Nntl.Matrix Nntl.Kernel Nntl.Grad Nntl.Backprop Nntl.Gemm Nntl.Pass
open Finset

/-! ### Sequences -/

theorem andThen_some {β γ : Type} {r : Option β → Prop} {b : β} (h : ∀ o, r o ↔ o = some b) (q : β → Option γ → Prop) (out : Option γ) :
    andThen r q out ↔ q b out := by
  unfold andThen
  simp only [h]
  constructor
  · rintro (⟨h, -⟩ | ⟨b', h, hq⟩)
    · cases h
    · cases h; exact hq
  · exact fun hq => .inr ⟨b, rfl, hq⟩

theorem call_iff {β : Type} {x : Option β} {b : β} (h : x = some b) (o : Option β) : call x o ↔ o = some b := by unfold call; rw [h]

theorem andThen_call {β γ : Type} {x : Option β} {b : β} (h : x = some b) (q : β → Option γ → Prop) (out : Option γ) :
    andThen (call x) q out ↔ q b out := andThen_some (call_iff h) q out

theorem asserting_pos {γ : Type} {p : Prop} (h : p) (rest : Option γ → Prop) (out : Option γ) : asserting p rest out ↔ rest out := by
  unfold asserting
  simp [h]

/-! ### The optimiser does not look at the header of the gradient -/

/-- The state with the contents of its gradient in another object. -/
def hd (g : Mtx ℝ) (t : St) : St := { t with G := { g with data := t.G.data } }

section
variable (g : Mtx ℝ) (t : St)

theorem addF_hd (k : ℝ → ℝ) (sc : ℝ) (ign : Bool) : addF k sc ign (hd g t) = hd g (addF k sc ign t) := by
  unfold addF; split <;> rfl
theorem lossF_hd (c : Cfg) : lossF c (hd g t) = hd g (lossF c t) := by unfold lossF; rw [addF_hd, addF_hd]
theorem firstF_hd (c : Cfg) (f : Bool) : firstF c f (hd g t) = hd g (firstF c f t) := by
  unfold firstF; split <;> cases f <;> rfl
theorem optF_hd (c : Cfg) (f : Bool) : optF c f (hd g t) = hd g (optF c f t) := by
  unfold optF; rw [firstF_hd]; rfl
theorem ilrF_hd (c : Cfg) (f : Bool) : ilrF c f (hd g t) = hd g (ilrF c f t) := by
  unfold ilrF; split
  · rfl
  · split
    · split <;> rfl
    · dsimp only; split <;> rfl
theorem updF_hd (c : Cfg) (draw : ℕ → ℝ) : updF c draw (hd g t) = hd g (updF c draw t) := by
  unfold updF; split
  · rfl
  · split
    · rfl
    · dsimp only; split <;> rfl
theorem normF_hd (c : Cfg) : normF c (hd g t) = hd g (normF c t) := by
  unfold normF; split <;> rfl
theorem applyF_hd (c : Cfg) (b : Bool) (draw : ℕ → ℝ) : applyF c b draw (hd g t) = hd g (applyF c b draw t) := by
  unfold applyF
  rw [lossF_hd]
  split
  · rfl
  · rw [show (hd g (lossF c t)).ran = hd g (lossF c t).ran from rfl, show (hd g (lossF c t)).firstRun = (lossF c t).firstRun from rfl, optF_hd, ilrF_hd,
      updF_hd, normF_hd]
end

/-! ### Nor does it write behind the gradient -/

/-- The gradient is the same from element `n` on. -/
def Tail (s t : St) : Prop := t.W.rows = s.W.rows ∧ t.W.cols = s.W.cols ∧ ∀ i, s.n ≤ i → t.G.data i = s.G.data i

theorem Tail.trans {s t u : St} (h : Tail s t) (k : Tail t u) : Tail s u :=
  ⟨k.1.trans h.1, k.2.1.trans h.2.1, fun i hi => (k.2.2 i (by unfold St.n at *; rw [h.1, h.2.1]; exact hi)).trans (h.2.2 i hi)⟩

theorem each_ge {n : ℕ} {f : ℕ → ℝ → ℝ} {d : ℕ → ℝ} {i : ℕ} (h : n ≤ i) : each n f d i = d i := by unfold each; rw [if_neg (by omega)]

theorem addF_tail (k : ℝ → ℝ) (sc : ℝ) (ign : Bool) (s : St) : Tail s (addF k sc ign s) := by
  unfold addF; split
  · exact ⟨rfl, rfl, fun _ _ => rfl⟩
  · refine ⟨rfl, rfl, fun i hi => ?_⟩
    simp only [St.setG]
    refine each_ge (Nat.le_trans ?_ hi)
    unfold St.added St.n
    exact Nat.mul_le_mul_left _ (by split <;> omega)
theorem firstF_tail (c : Cfg) (f : Bool) (s : St) : Tail s (firstF c f s) := by
  unfold firstF; split <;> (try split) <;> exact ⟨rfl, rfl, fun _ _ => rfl⟩
theorem optF_tail (c : Cfg) (f : Bool) (s : St) : Tail s (optF c f s) :=
  (firstF_tail c f s).trans ⟨rfl, rfl, fun i hi => each_ge (f := fun _ _ => _) hi⟩
theorem ilrF_tail (c : Cfg) (f : Bool) (s : St) : Tail s (ilrF c f s) := by
  unfold ilrF; split
  · exact ⟨rfl, rfl, fun _ _ => rfl⟩
  · split
    · split <;> exact ⟨rfl, rfl, fun _ _ => rfl⟩
    · dsimp only; split <;> refine ⟨rfl, rfl, fun i hi => ?_⟩ <;> (simp only [St.setG]; exact each_ge hi)
theorem subF_tail (c : Cfg) (draw : ℕ → ℝ) (s : St) : Tail s (subF c draw s) := by
  refine ⟨rfl, rfl, fun i hi => ?_⟩
  show maskF c draw s.n s.G.data i = _
  unfold maskF; split
  · exact each_ge hi
  · rfl
theorem updF_tail (c : Cfg) (draw : ℕ → ℝ) (s : St) : Tail s (updF c draw s) := by
  unfold updF; split
  · exact subF_tail c draw s
  · split
    · exact subF_tail c draw _
    · dsimp only; split
      · refine Tail.trans ?_ (subF_tail c draw _)
        refine ⟨rfl, rfl, fun i hi => ?_⟩
        simp only [St.setG, copyTo]
        rw [if_neg (by omega)]
      · exact ⟨rfl, rfl, fun _ _ => rfl⟩
theorem normF_tail (c : Cfg) (s : St) : Tail s (normF c s) := by
  unfold normF; split <;> exact ⟨rfl, rfl, fun _ _ => rfl⟩
theorem applyF_tail (c : Cfg) (b : Bool) (draw : ℕ → ℝ) (s : St) : Tail s (applyF c b draw s) := by
  have hl : Tail s (lossF c s) := (addF_tail _ _ _ s).trans (addF_tail _ _ _ _)
  unfold applyF; split
  · exact hl
  · exact hl.trans ((show Tail (lossF c s) (lossF c s).ran from ⟨rfl, rfl, fun _ _ => rfl⟩).trans ((optF_tail c _ _).trans ((ilrF_tail c _ _).trans
      ((updF_tail c draw _).trans (normF_tail c _)))))

/-! ### Matrices and memory -/

theorem memOf_matOf (R : ℕ) (d : ℕ → ℝ) : memOf R (matOf R d) = d := by
  funext p
  unfold memOf matOf
  rw [Nat.mod_add_div]

theorem mtxOf_data (m k : ℕ) (w : Mat ℝ) : (mtxOf m k w).data = memOf m w := rfl

theorem matOf_memOf {m : ℕ} {w : Mat ℝ} {c j : ℕ} (hc : c < m) : matOf m (memOf m w) c j = w c j := by
  show w ((c + m * j) % m) ((c + m * j) / m) = _
  rw [Nat.add_mul_mod_self_left, Nat.mod_eq_of_lt hc, Nat.add_mul_div_left _ _ (by omega), Nat.div_eq_of_lt hc, Nat.zero_add]

theorem ready_of {K c : Cfg} (h : SameKind K c) {s : St} (hr : Ready K s) : Ready c s :=
  ⟨fun x => hr.a (h.type ▸ x), fun x => hr.b (h.type ▸ x), fun x => hr.v (h.useMom ▸ x), fun x => hr.gain (h.useILR ▸ x),
    fun x y => hr.prev (h.useILR ▸ x) (sameKind_ilr h ▸ y)⟩

/-! ### The optimiser -/

section
variable {M : Mach} {K : Kind}

theorem mtxOf_matOf {W : Mtx ℝ} {m k : ℕ} (h : ∃ w, W = mtxOf m k w) : W = mtxOf m k (matOf m W.data) := by
  obtain ⟨w, rfl⟩ := h
  unfold mtxOf
  simp only [memOf_matOf]

theorem bare_id {s : St} (hw : ∃ w, s.W = mtxOf K.m (K.n + 1) w) (hg : ∃ w, s.G = mtxOf K.m (K.n + 1) w) : bare K s = s := by
  unfold bare
  rw [← mtxOf_matOf hw, ← mtxOf_matOf hg]

theorem same_mtxOf {m k : ℕ} {A B : Mtx ℝ} (h : ∃ w, A = mtxOf m k w) (hs : B = { A with data := B.data }) : ∃ w, B = mtxOf m k w := by
  obtain ⟨w, rfl⟩ := h
  refine ⟨matOf m B.data, ?_⟩
  rw [hs]
  unfold mtxOf
  simp only [memOf_matOf]

theorem preCall_iff (hM : M.Ok) (ho : K.o.Ok) (hn : 0 < K.n) (hm : 0 < K.m) {L : Layer} (hw : ∃ w, L.W = mtxOf K.m (K.n + 1) w)
    (hr : Ready K.o.kind L.g.s) (out : Option Layer) :
    let x := (gradWorks K.o K.m (K.n + 1)).pre L.g (matOf K.m L.W.data)
    preCall M K L out ↔ out = some (if L.training then { L with W := mtxOf K.m (K.n + 1) x.2, g := x.1 } else L) := by
  intro x
  unfold preCall
  split
  · have hW := mtxOf_matOf hw
    have key := fun o => gradWorks_pre hM.env K.o hm (by omega : 2 ≤ K.n + 1) L.g (matOf K.m L.W.data) (ready_of (ho.pre _) hr) o
    rw [← hW] at key
    rw [andThen_some key, call_iff rfl]
    have hs := (preF_same (K.o.pre L.g.p).cfg (K.o.pre L.g.p).blocked (K.o.pre L.g.p).draw { L.g.s with W := mtxOf K.m (K.n + 1) (matOf K.m L.W.data) }).w
    have e : x.1.s.W = mtxOf K.m (K.n + 1) x.2 := mtxOf_matOf (same_mtxOf ⟨_, rfl⟩ hs)
    show out = some { L with W := x.1.s.W, g := x.1 } ↔ _
    rw [e]
  · rfl

theorem applyCall_iff (hM : M.Ok) (ho : K.o.Ok) (hn : 0 < K.n) (hm : 0 < K.m) {g : GwS} (hr : Ready K.o.kind g.s) (w : Mat ℝ) {D : Mtx ℝ}
    (hD : WeightsOk D) (h1 : D.rows = K.m) (h2 : D.cols = K.n + 1) (out : Option (Mtx ℝ × GwS × Mtx ℝ)) :
    let x := (gradWorks K.o K.m (K.n + 1)).apply g w (matOf K.m D.data)
    applyCall M K g (mtxOf K.m (K.n + 1) w) D out ↔
      out = some (mtxOf K.m (K.n + 1) x.2.1, x.1, { D with data := copy (K.m * (K.n + 1)) D.data (memOf K.m x.2.2) }) := by
  intro x
  let c := K.o.app g.t
  let s0 : St := { g.s with W := mtxOf K.m (K.n + 1) w, G := mtxOf K.m (K.n + 1) (matOf K.m D.data) }
  have e0 : ({ g.s with W := mtxOf K.m (K.n + 1) w, G := D } : St) = hd D s0 := by
    show _ = ({ g.s with W := mtxOf K.m (K.n + 1) w, G := { D with data := memOf K.m (matOf K.m D.data) } } : St)
    rw [memOf_matOf]
  have hr' := ready_of (ho.app g.t) hr
  have key := fun o => applyGrad_iff hM.env c.cfg c.blocked c.draw (s := hd D s0)
    ⟨mtxOf_ok hm (by omega) w, ⟨hD.nonempty, hD.notBatchInRow, hD.rows, hD.cols, hD.room⟩, h1, h2⟩ ⟨hr'.a, hr'.b, hr'.v, hr'.gain, hr'.prev⟩ o
  unfold applyCall
  rw [e0, andThen_some key, call_iff rfl, applyF_hd]
  have hx : x.1.s = applyF c.cfg c.blocked c.draw s0 := rfl
  rw [← hx]
  have hs := applyF_same c.cfg c.blocked c.draw s0
  have eW : x.1.s.W = mtxOf K.m (K.n + 1) x.2.1 := mtxOf_matOf (same_mtxOf ⟨_, rfl⟩ hs.w)
  have eG : x.1.s.G = mtxOf K.m (K.n + 1) x.2.2 := mtxOf_matOf (same_mtxOf ⟨_, rfl⟩ hs.g)
  have ht := (applyF_tail c.cfg c.blocked c.draw s0).2.2
  have eD : copy (K.m * (K.n + 1)) D.data (memOf K.m x.2.2) = x.1.s.G.data := by
    funext p
    rw [eG]
    unfold copy
    split
    · rfl
    · rename_i hp
      have := ht p (by show K.m * (K.n + 1) ≤ p; omega)
      rw [← hx, eG] at this
      rw [this]
      show D.data p = memOf K.m (matOf K.m D.data) p
      rw [memOf_matOf]
  have eb : bare K (hd D x.1.s) = x.1.s := by
    have : bare K (hd D x.1.s) = bare K x.1.s := rfl
    rw [this]
    exact bare_id ⟨_, eW⟩ ⟨_, eG⟩
  rw [eb, eD]
  have e1 : (hd D x.1.s).W = mtxOf K.m (K.n + 1) x.2.1 := eW
  rw [e1]
  rfl

/-! ### Products -/

theorem mem_ext {R k : ℕ} {d O : ℕ → ℝ} {f : Mat ℝ} (hR : 0 < R) (h1 : ∀ r < R, ∀ c < k, d (r + R * c) = f r c) (h2 : ∀ p, R * k ≤ p → d p = O p) :
    d = copy (R * k) O (memOf R f) := by
  funext p
  unfold copy
  split
  · rename_i hp
    have := h1 (p % R) (Nat.mod_lt _ hR) (p / R) (Nat.div_lt_of_lt_mul hp)
    rw [Nat.mod_add_div] at this
    exact this
  · exact h2 p (by omega)

theorem preact {R : ℕ} {prev A : Mtx ℝ} (hn : 0 < K.n) (hm : 0 < K.m) (hR : 0 < R) (hp : Input K R prev) (w : Mat ℝ) (hA : Outputs K R A) :
    mMulPrevActWeights prev (mtxOf K.m (K.n + 1) w) A =
      some { A with data := copy (R * K.m) A.data (memOf R fun r c => ∑ j ∈ range (K.n + 1), prev.data (r + R * j) * w c j) } := by
  have hps : prev.sampleSize = K.n := by simp [Mtx.sampleSize, Mtx.colsNoBias, hp.layout, hp.biases.1, hp.cols]
  have hpb : prev.batchSize = R := by simp [Mtx.batchSize, hp.layout, hp.rows]
  have has : A.sampleSize = K.m := by cases he : A.emul <;> simp [Mtx.sampleSize, Mtx.colsNoBias, hA.layout, hA.cols, he]
  have hab : A.batchSize = R := by simp [Mtx.batchSize, hA.layout, hA.rows]
  obtain ⟨A', e, ⟨o1, o2⟩, v⟩ := preactivation prev (mtxOf K.m (K.n + 1) w) A
    ⟨by rw [hp.rows]; exact hR, by rw [hp.cols]; omega, hp.room⟩ ⟨hm, Nat.succ_pos _, Nat.le_refl _⟩
    ⟨by rw [hA.rows]; exact hR, by rw [hA.cols]; omega, hA.room⟩ hp.biases.1 rfl rfl (by rw [hps]; rfl) has (by rw [hpb, hab])
  rw [e, o1]
  have : A'.data = copy (R * K.m) A.data (memOf R fun r c => ∑ j ∈ range (K.n + 1), prev.data (r + R * j) * w c j) := by
    refine mem_ext hR (fun r hr c hc => ?_) fun p hp' => o2 p fun b i hb hi he => ?_
    · have := v r c (by rw [hab]; exact hr) (by rw [has]; exact hc)
      have h1 : A'.bir = false := by rw [o1]; exact hA.layout
      have h2 : A'.rows = R := by rw [o1]; exact hA.rows
      unfold Gemm.val at this
      simp only [h1, hp.layout, Mtx.cell, h2, hp.rows, hps, Bool.false_eq_true, if_false] at this
      rw [this, sum_range_succ]
      have hel : ∀ i, el (mtxOf K.m (K.n + 1) w) c i = w c i := fun i => matOf_memOf (w := w) hc
      simp only [hel]
    · rw [hA.layout] at he
      simp only [Bool.false_eq_true, if_false, Mtx.cell, hA.rows] at he
      rw [hab] at hb
      rw [has] at hi
      have : R * i + R ≤ R * K.m := by rw [← Nat.mul_succ]; exact Nat.mul_le_mul_left _ hi
      omega
  rw [this]

/-- A matrix with the gradient of the preactivations. -/
structure IsZ (K : Kind) (R : ℕ) (Z : Mtx ℝ) : Prop where
  rows : Z.rows = R
  cols : Z.cols = K.m
  biases : Z.emul = false
  layout : Z.bir = false
  room : R * K.m ≤ Z.cap

theorem passDown_some {R : ℕ} {Z P : Mtx ℝ} (hn : 0 < K.n) (hm : 0 < K.m) (hR : 0 < R) (hz : IsZ K R Z) (w : Mat ℝ) {need : Bool}
    (hP : need = true → Below K R P) :
    passDown need Z (mtxOf K.m (K.n + 1) w) P = some (mtxOf K.m (K.n + 1) w,
      { P with data := if need then copy (R * K.n) P.data (memOf R fun r j => ∑ c ∈ range K.m, Z.data (r + R * c) * w c j) else P.data }) := by
  unfold passDown
  cases need with
  | false => rfl
  | true =>
    replace hP := hP rfl
    simp only [if_true]
    have hzs : Z.sampleSize = K.m := by simp [Mtx.sampleSize, Mtx.colsNoBias, hz.layout, hz.biases, hz.cols]
    have hzb : Z.batchSize = R := by simp [Mtx.batchSize, hz.layout, hz.rows]
    have hps : P.sampleSize = K.n := by simp [Mtx.sampleSize, Mtx.colsNoBias, hP.layout, hP.biases, hP.cols]
    have hpb : P.batchSize = R := by simp [Mtx.batchSize, hP.layout, hP.rows]
    obtain ⟨P', e, ⟨o1, o2⟩, v⟩ := handed_down Z (mtxOf K.m (K.n + 1) w) P ⟨by rw [hz.rows]; exact hR, by rw [hz.cols]; exact hm,
        by rw [hz.rows, hz.cols]; exact hz.room⟩ ⟨hm, Nat.succ_pos _, Nat.le_refl _⟩ ⟨by rw [hP.rows]; exact hR, by rw [hP.cols]; exact hn, hP.room⟩ rfl
        hz.layout (by rw [hps]; rfl) hzs (by rw [hzb, hpb]) hz.biases rfl hP.biases (Nat.le_refl _)
    rw [e, o1]
    have : P'.data = copy (R * K.n) P.data (memOf R fun r j => ∑ c ∈ range K.m, Z.data (r + R * c) * w c j) := by
      refine mem_ext hR (fun r hr j hj => ?_) fun p hp' => o2 p fun b i hb hi he => ?_
      · have := v r j (by rw [hpb]; exact hr) (by rw [hps]; exact hj)
        have h1 : P'.bir = false := by rw [o1]; exact hP.layout
        have h2 : P'.rows = R := by rw [o1]; exact hP.rows
        unfold Gemm.val at this
        simp only [h1, hz.layout, Mtx.cell, h2, hz.rows, hzs, Bool.false_eq_true, if_false] at this
        rw [this]
        refine sum_congr rfl fun c hc => ?_
        have hel : el (mtxOf K.m (K.n + 1) w) c j = w c j := matOf_memOf (w := w) (mem_range.1 hc)
        rw [hel]
      · rw [hP.layout] at he
        simp only [Bool.false_eq_true, if_false, Mtx.cell, hP.rows] at he
        rw [hpb] at hb
        rw [hps] at hi
        have : R * i + R ≤ R * K.n := by rw [← Nat.mul_succ]; exact Nat.mul_le_mul_left _ hi
        omega
    rw [this]

theorem gradient_some {R : ℕ} {Z prev D : Mtx ℝ} (hm : 0 < K.m) (hR : 0 < R) (hz : IsZ K R Z) (hp : Input K R prev) (h1 : D.rows = K.m)
    (h2 : D.cols = K.n + 1) (h3 : D.bir = false) (h4 : K.m * (K.n + 1) ≤ D.cap) (sc : ℝ) :
    mMulScaledDLdZPrevAct sc Z prev D =
      some { D with data := copy (K.m * (K.n + 1)) D.data (memOf K.m fun c j => sc * ∑ r ∈ range R, Z.data (r + R * c) * prev.data (r + R * j)) } := by
  have hzs : Z.sampleSize = K.m := by simp [Mtx.sampleSize, Mtx.colsNoBias, hz.layout, hz.biases, hz.cols]
  have hzb : Z.batchSize = R := by simp [Mtx.batchSize, hz.layout, hz.rows]
  have hps : prev.sampleSize = K.n := by simp [Mtx.sampleSize, Mtx.colsNoBias, hp.layout, hp.biases.1, hp.cols]
  have hpb : prev.batchSize = R := by simp [Mtx.batchSize, hp.layout, hp.rows]
  obtain ⟨D', e, o1, o2, v⟩ := weight_gradient sc Z prev D ⟨by rw [hz.rows]; exact hR, by rw [hz.cols]; exact hm, by rw [hz.rows, hz.cols]; exact hz.room⟩
    ⟨by rw [hp.rows]; exact hR, by rw [hp.cols]; omega, hp.room⟩ ⟨by rw [h1]; exact hm, by rw [h2]; omega, by rw [h1, h2]; exact h4⟩ h3 hz.layout
    (by rw [hps, h2]) (by rw [hzs, h1]) (by rw [hpb, hzb]) hp.biases.1 hz.biases
  rw [e, o1]
  have : D'.data = copy (K.m * (K.n + 1)) D.data (memOf K.m fun c j => sc * ∑ r ∈ range R, Z.data (r + R * c) * prev.data (r + R * j)) := by
    refine mem_ext hm (fun c hc j hj => ?_) fun p hp' => o2 p (by rw [h1, h2]; exact hp')
    have := v c j (by rw [h1]; exact hc) (by rw [h2]; exact hj)
    unfold el Gemm.val at this
    have hr : D'.rows = K.m := by rw [o1]; exact h1
    simp only [Mtx.cell, hr, hz.layout, hp.layout, hz.rows, hp.rows, hzb, Bool.false_eq_true, if_false] at this
    exact this
  rw [this]

end

end Nntl.Calls
