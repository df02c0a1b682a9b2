import Verif.Sgd.WholeModel
import Verif.Sgd.Props
import Verif.Train.Props
import Verif.TrainData.Props

/-! From the calls of `train()` to the uses of the network. -/
namespace Nntl.Sgd

open Nntl.Layers Nntl.Pass Nntl.Matrix Nntl.Kernel

variable {P : Plan} {η : Rates} {vmax : ℕ} {d : TrainData.Data ℝ ℝ}

theorem plays_append : ∀ (a b : List Train.Ev) (w w' : World P), Plays P vmax (a ++ b) w w' ↔ ∃ w1, Plays P vmax a w w1 ∧ Plays P vmax b w1 w'
  | [], b, w, w' => ⟨fun h => ⟨w, rfl, h⟩, fun ⟨_, h1, h2⟩ => by cases h1; exact h2⟩
  | e :: a, b, w, w' => by
    constructor
    · rintro ⟨w1, h1, h2⟩
      obtain ⟨w2, h3, h4⟩ := (plays_append a b w1 w').1 h2
      exact ⟨w2, ⟨w1, h1, h3⟩, h4⟩
    · rintro ⟨w2, ⟨w1, h1, h3⟩, h4⟩
      exact ⟨w1, h1, (plays_append a b w1 w').2 ⟨w2, h3, h4⟩⟩

theorem effect_cur {e : Train.Ev} {w w' : World P} (h : Effect P vmax e w w') : w'.cur = Train.told w.cur [e] := by
  cases e <;> simp only [Effect, Looks] at h
  all_goals first
    | (subst h; rfl)
    | (obtain ⟨-, rfl⟩ := h; rfl)
    | (obtain ⟨_, -, rfl⟩ := h; rfl)
    | (obtain ⟨_, -, -, rfl⟩ := h; rfl)
    | (obtain ⟨_, _, -, -, rfl⟩ := h; rfl)
    | (obtain ⟨_, _, _, -, -, rfl⟩ := h; rfl)
    | (obtain ⟨_, _, _, -, -, -, rfl⟩ := h; rfl)

theorem plays_cur : ∀ (tr : List Train.Ev) {w w' : World P}, Plays P vmax tr w w' → w'.cur = Train.told w.cur tr
  | [], w, w', h => by cases h; rfl
  | e :: es, w, w', ⟨w1, h1, h2⟩ => by
    rw [plays_cur es h2, effect_cur h1]
    rfl

/-- The same batch, as far as the network can see. -/
def Like (S : Shape) (b b' : ℕ × Mat ℝ × Mat ℝ) : Prop :=
  b.1 = b'.1 ∧ ∀ r < b.1, (∀ j < S.inputs, b.2.1 r j = b'.2.1 r j) ∧ ∀ j < S.outputs, b.2.2 r j = b'.2.2 r j

theorem batches_append : ∀ us vs : List (Use ℝ), batches (us ++ vs) = batches us ++ batches vs
  | [], _ => rfl
  | .eval _ _ :: us, vs => batches_append us vs
  | .train _ _ _ :: us, vs => congrArg (_ :: ·) (batches_append us vs)

theorem batches_eval : ∀ us : List (Use ℝ), (∀ u ∈ us, ∃ R X, u = Use.eval R X) → batches us = []
  | [], _ => rfl
  | u :: us, h => by
    obtain ⟨R, X, rfl⟩ := h u List.mem_cons_self
    exact batches_eval us fun v hv => h v (List.mem_cons_of_mem _ hv)

/-- What became of the world: uses of the network, with the batches `bs`. -/
def Past (vmax : ℕ) (d : TrainData.Data ℝ ℝ) (w w' : World P) (bs : List (ℕ × Mat ℝ × Mat ℝ)) : Prop :=
  ∃ us, w'.net = P.net.run w.net us ∧ (∀ u ∈ us, P.Fits u) ∧ List.Forall₂ (Like P.shape) (batches us) bs ∧
    (TrainData.Reach vmax d w.td → TrainData.Reach vmax d w'.td)

theorem Past.refl (w : World P) : Past vmax d w w [] := ⟨[], rfl, fun _ h => absurd h List.not_mem_nil, .nil, id⟩

theorem Past.trans {w w1 w2 : World P} {a b : List (ℕ × Mat ℝ × Mat ℝ)} (h1 : Past vmax d w w1 a) (h2 : Past vmax d w1 w2 b) : Past vmax d w w2 (a ++ b) := by
  obtain ⟨us, e1, f1, l1, r1⟩ := h1
  obtain ⟨vs, e2, f2, l2, r2⟩ := h2
  refine ⟨us ++ vs, ?_, fun u hu => ?_, ?_, fun h => r2 (r1 h)⟩
  · rw [e2, e1]; unfold Net.run; rw [List.foldl_append]
  · exact (List.mem_append.1 hu).elim (f1 u) (f2 u)
  · rw [batches_append]; exact List.rel_append l1 l2

theorem calls_reach {t t' : TrainData.TD ℝ ℝ} (h : Calls vmax t t') (hr : TrainData.Reach vmax d t) : TrainData.Reach vmax d t' := by
  induction h with
  | none => exact hr
  | next h1 _ ih => exact ih (hr.step h1)

theorem looks_past {w w' : World P} (h : Looks P vmax w w') : Past vmax d w w' [] := by
  obtain ⟨us, td', h1, h2, rfl⟩ := h
  refine ⟨us, rfl, fun u hu => (h1 u hu).1, ?_, calls_reach h2⟩
  rw [batches_eval us fun u hu => (h1 u hu).2]
  exact .nil

/-- Calls that have nothing to do with learning. -/
theorem idle_past : ∀ (tr : List Train.Ev) {w w' : World P}, Train.workOf tr = [] → Train.Ev.deinit ∉ tr → Plays P vmax tr w w' → Past vmax d w w' []
  | [], w, w', _, _, h => by cases h; exact Past.refl w
  | e :: es, w, w', hw, hd, ⟨w1, h1, h2⟩ => by
    have hw2 : Train.workOf es = [] := by
      unfold Train.workOf at hw ⊢
      rw [List.filter_eq_nil_iff] at hw ⊢
      exact fun a ha => hw a (List.mem_cons_of_mem _ ha)
    have ih := idle_past es hw2 (fun h => hd (List.mem_cons_of_mem _ h)) h2
    have h3 : Past vmax d w w1 [] := by
      cases e <;> first | exact looks_past h1 | exact absurd hw (List.cons_ne_nil _ _) | exact absurd List.mem_cons_self hd | skip
      all_goals simp only [Effect] at h1
      all_goals first
        | (subst h1; exact ⟨[], rfl, fun _ h => absurd h List.not_mem_nil, .nil, id⟩)
        | (obtain ⟨-, rfl⟩ := h1; exact Past.refl _)
    exact h3.trans ih

/-- The loop over the batches of an epoch. -/
theorem batchLoop_plays {cd : Train.CD} (ht : cd.training = true) : ∀ (k b0 : ℕ) {w w' : World P}, Plays P vmax (Train.batchLoop cd b0 k) w w' →
    ∃ (run : ℕ → TrainData.TD ℝ ℝ) (us : List (Use ℝ)), run 0 = w.td ∧ run k = w'.td ∧ w'.net = P.net.run w.net us ∧ us.length = k ∧
      (∀ i < k, ∃ exX exY : Exec, exX.Ok ∧ exY.Ok ∧ TrainData.OnNextBatch exX exY (run i) (b0 + i) (run (i + 1))) ∧
      ∀ i < k, ∃ x y, TrainData.batchX (run (i + 1)) = some x ∧ TrainData.batchY (run (i + 1)) = some y ∧ x.batchSize = cd.cur ∧ y.batchSize = cd.cur ∧
        us[i]? = some (Use.train cd.cur x.data y.data)
  | 0, b0, w, w', h => by
    cases h
    exact ⟨fun _ => w.td, [], rfl, rfl, rfl, rfl, fun i hi => absurd hi (by omega), fun i hi => absurd hi (by omega)⟩
  | k + 1, b0, w, w', h => by
    rw [Train.batchLoop, plays_append] at h
    obtain ⟨w1, h1, h2⟩ := h
    obtain ⟨run, us, r0, rk, hn, hl, hb, hx⟩ := batchLoop_plays ht k (b0 + 1) h2
    obtain ⟨wa, ha, _, ⟨exX, exY, td', e1, e2, e3, rfl⟩, _, rfl, _, ⟨x, g1, g2, rfl⟩, _, rfl, _, ⟨y, g3, g4, rfl⟩, _, rfl, rfl⟩ := h1
    obtain rfl : w = wa := ha.symm
    refine ⟨fun i => Nat.casesOn i w.td run, Use.train cd.cur x.data y.data :: us, rfl, rk, ?_, by rw [List.length_cons, hl], ?_, ?_⟩
    · rw [hn, ht]
      rfl
    · intro i hi
      cases i with
      | zero => exact ⟨exX, exY, e1, e2, by show TrainData.OnNextBatch exX exY w.td b0 (run 0); rw [r0]; exact e3⟩
      | succ i =>
        obtain ⟨eX, eY, k1, k2, k3⟩ := hb i (by omega)
        exact ⟨eX, eY, k1, k2, by rw [show b0 + 1 + i = b0 + (i + 1) by omega] at k3; exact k3⟩
    · intro i hi
      cases i with
      | zero =>
        refine ⟨x, y, ?_, ?_, g2, g4, rfl⟩
        · show TrainData.batchX (run 0) = _
          rw [r0]; exact g1
        · show TrainData.batchY (run 0) = _
          rw [r0]; exact g3
      | succ i => exact hx i (by omega)

theorem ones_of {m : Mtx ℝ} {n : ℕ} (hb : m.bir = false) (he : m.emul = true) (ho : BiasesAreOnes m) (hc : m.cap ≠ 0) (hs : m.sampleSize = n) (hn : 0 < n) :
    Ones m.batchSize n m.data := by
  intro r hr
  unfold Mtx.sampleSize Mtx.colsNoBias at hs
  unfold Mtx.batchSize at hr ⊢
  simp only [hb, he, Bool.false_eq_true, if_false, Bool.not_false, Bool.and_true, Bool.toNat_true] at hs hr ⊢
  have h1 : n < m.cols := by omega
  have := ho hc r n hr h1 ⟨he, by rw [hb, if_neg Bool.false_ne_true]; omega⟩
  unfold Mtx.get at this
  rw [if_pos ⟨hr, h1⟩] at this
  exact Option.some.inj this

theorem reads_of {m src : Mtx ℝ} {r k : ℕ} (hb : m.bir = false) (h : TrainData.RowIs m src r k) {j : ℕ} (hj : j < src.sampleSize) :
    (sampleAt src k j).getD 0 = m.data (r + m.batchSize * j) := by
  obtain ⟨h1, h2, _, h4⟩ := h
  obtain ⟨e1, e2⟩ := h4 j (by omega)
  rw [← e1] at e2 ⊢
  unfold sampleAt Mtx.get at e2 ⊢
  unfold Mtx.batchSize
  simp only [hb, Bool.false_eq_true, if_false] at e2 ⊢
  by_cases hh : r < m.rows ∧ j < m.cols
  · rw [if_pos hh]; rfl
  · rw [if_neg hh] at e2; simp at e2

/-- The matrices `on_next_batch` shows. -/
theorem batch_matrices (hs : Suits d P) {t t' : TrainData.TD ℝ ℝ} (hr : TrainData.Reach vmax d t) {exX exY : Exec} (hX : exX.Ok) (hY : exY.Ok) {i : ℕ}
    (h : TrainData.OnNextBatch exX exY t i t') {x y : Mtx ℝ} (hx : TrainData.batchX t' = some x) (hy : TrainData.batchY t' = some y) :
    x.bir = false ∧ y.bir = false ∧ Ones x.batchSize P.inputs x.data := by
  obtain ⟨hI, hdd⟩ := TrainData.reach_inv hs.ok hr
  have hpos : 0 < P.inputs := by rw [← hs.inputs]; exact hs.ok.posX
  by_cases hm : t.mini = true
  · obtain ⟨b, -, -, -, hpx, hpy, -, -, dx, dy, het, hone, -⟩ := TrainData.onNextBatch_mini hX hY hI hm h
    obtain ⟨hI', hd'⟩ := TrainData.inv_batch hX hY hI h
    have hm' : t'.mini = true := by rw [het]; exact hm
    obtain ⟨c1, c2, -⟩ := hI'.mini hm'
    have s1 := hI'.bxOk c1
    have s2 := hI'.byOk c2
    have ex : x = t'.bx := by
      have : t'.px = .batch := by rw [het]; exact hpx
      simpa [TrainData.batchX, this] using hx.symm
    have ey : y = t'.bY := by
      have : t'.py = .batch := by rw [het]; exact hpy
      simpa [TrainData.batchY, this] using hy.symm
    subst ex ey
    rw [hd', hdd] at s1 s2
    have b1 : t'.bx.bir = false := s1.bir.trans hs.rowsX
    refine ⟨b1, s2.bir.trans hs.rowsY, ones_of b1 s1.emul hone c1 (s1.sampleSize.trans hs.inputs) hpos⟩
  · obtain ⟨hw, hc, h⟩ := h
    rw [if_neg hm] at h
    obtain ⟨-, rfl⟩ := h
    obtain ⟨p1, p2, -⟩ := hI.ptrE hw hc (by simpa using hm)
    have ex : x = d.X .train := by simpa [TrainData.batchX, p1, hdd] using hx.symm
    have ey : y = d.Y .train := by simpa [TrainData.batchY, p2, hdd] using hy.symm
    subst ex ey
    refine ⟨hs.rowsX, hs.rowsY, ones_of hs.rowsX (hs.ok.emulX _) hs.ones ?_ ((hs.ok.widthX _).trans hs.inputs) hpos⟩
    have h1 := hs.ok.storX .train
    have h2 := hs.ok.count .train
    have h3 := hs.ok.posX
    unfold TrainData.Data.count Mtx.batchSize at h2
    unfold TrainData.Data.xW Mtx.sampleSize Mtx.colsNoBias at h3
    simp only [hs.rowsX, Bool.false_eq_true, if_false] at h2 h3
    have : 0 < (d.X .train).rows * (d.X .train).cols := Nat.mul_pos h2 (by omega)
    omega

/-- An epoch. -/
theorem epoch_past (hs : Suits d P) {cd : Train.CD} (ht : cd.training = true) (hN : cd.cur ≤ P.bs.maxTrainBS) {e n : ℕ} {w w' : World P} (hcur : w.cur = cd.cur)
    (hr : TrainData.Reach vmax d w.td) (h : Plays P vmax ([.nextEpoch e, .epochBegin e n] ++ Train.batchLoop cd 0 n) w w') :
    0 < cd.cur ∧ ∃ ord, Shuffled (d.count .train) cd.cur ord ∧ Past vmax d w w' (epochBatches d cd.cur ord) := by
  obtain ⟨_, ⟨shuffle, td', n', hsh, he, rfl⟩, _, ⟨rfl, rfl⟩, h⟩ := h
  obtain ⟨run, us, r0, rk, hn, hl, hb, hx⟩ := batchLoop_plays ht _ 0 h
  simp only [Nat.zero_add] at hb
  have r0 : run 0 = td' := r0
  obtain ⟨b, hb0, hbe, hnb, ord, o1, o2, o3, o4⟩ := TrainData.epoch_batches_are_distinct_samples hs.ok hr hsh he run r0 hb
  have hbc : b = cd.cur := by
    rw [hcur] at hbe
    unfold TrainData.effBatch at hbe
    simp only [Int.lt_irrefl, if_false, if_true] at hbe
    omega
  subst hbc
  have hreach : ∀ i, i ≤ n → TrainData.Reach vmax d (run i) := by
    intro i hi
    induction i with
    | zero => rw [r0]; exact hr.step (.epoch _ _ _ _ _ _ hsh he)
    | succ i ih =>
      obtain ⟨eX, eY, k1, k2, k3⟩ := hb i (by omega)
      exact (ih (by omega)).step (.batch _ _ _ _ _ k1 k2 k3)
  refine ⟨hb0, ord, ⟨by rw [← hnb]; exact o1, by rw [← hnb]; exact fun k hk k' hk' => o2 k k' hk hk', by rw [← hnb]; exact o3⟩, us, hn, ?_, ?_, fun _ => ?_⟩
  · intro u hu
    obtain ⟨i, hi⟩ := List.getElem?_of_mem hu
    have hlt : i < n := by
      have := (List.getElem?_eq_some_iff.1 hi).1
      omega
    obtain ⟨x, y, k1, k2, k3, k4, k5⟩ := hx i hlt
    obtain ⟨eX, eY, q1, q2, q3⟩ := hb i hlt
    rw [hi] at k5
    obtain rfl := Option.some.inj k5
    obtain ⟨_, _, m3⟩ := batch_matrices hs (hreach i (by omega)) q1 q2 q3 k1 k2
    rw [k3] at m3
    exact ⟨hb0, hN, m3⟩
  · have hbu : batches us = us.map fun u => match u with | .train R X Y => (R, matOf R X, matOf R Y) | .eval R X => (R, matOf R X, matOf R X) := by
      have : ∀ u ∈ us, ∃ R X Y, u = Use.train R X Y := fun u hu => by
        obtain ⟨i, hi⟩ := List.getElem?_of_mem hu
        obtain ⟨x, y, _, _, _, _, k5⟩ := hx i (by have := (List.getElem?_eq_some_iff.1 hi).1; omega)
        rw [hi] at k5
        exact ⟨_, _, _, Option.some.inj k5⟩
      clear hx hn hl
      induction us with
      | nil => rfl
      | cons u us ih =>
        obtain ⟨R, X, Y, rfl⟩ := this u List.mem_cons_self
        exact congrArg (_ :: ·) (ih fun v hv => this v (List.mem_cons_of_mem _ hv))
    rw [hbu, List.forall₂_iff_get]
    refine ⟨by simp only [List.length_map, hl, epochBatches, List.length_range]; exact hnb, fun i h1 h2 => ?_⟩
    have hlt : i < n := by rw [List.length_map, hl] at h1; exact h1
    obtain ⟨x, y, k1, k2, k3, k4, k5⟩ := hx i hlt
    obtain ⟨eX, eY, q1, q2, q3⟩ := hb i hlt
    obtain ⟨m1, m2, _⟩ := batch_matrices hs (hreach i (by omega)) q1 q2 q3 k1 k2
    obtain ⟨x', y', p1, p2, p3, p4, p5⟩ := o4 i hlt
    obtain rfl := Option.some.inj (k1.symm.trans p1)
    obtain rfl := Option.some.inj (k2.symm.trans p2)
    have hu : us[i]'(by rw [List.length_map] at h1; exact h1) = Use.train cd.cur x.data y.data := (List.getElem?_eq_some_iff.1 k5).2
    simp only [List.get_eq_getElem, List.getElem_map, hu, epochBatches, List.getElem_range]
    refine ⟨rfl, fun r hr' => ⟨fun j hj => ?_, fun j hj => ?_⟩⟩
    · have := reads_of m1 (p5 r hr').1 (j := j) (by rw [hs.ok.widthX, hs.inputs]; exact hj)
      rw [k3] at this
      exact this.symm
    · have := reads_of m2 (p5 r hr').2 (j := j) (by rw [hs.ok.widthY, hs.outputs]; exact hj)
      rw [k4] at this
      exact this.symm
  · rw [← rk]; exact hreach n (Nat.le_refl _)

end Nntl.Sgd
