import Verif.Sgd.ExtWholeModel
import Verif.Sgd.WholeProps

/-! As `WholeLemmas`: from the calls of `train()` to the uses of a network with dropout and penalties on activations. -/
namespace Nntl.Sgd.Thin

open Nntl.Layers Nntl.Pass Nntl.Matrix Nntl.Kernel
open Finset

variable {P : XPlan} {vmax : ℕ} {d : TrainData.Data ℝ ℝ}

theorem plays_append : ∀ (a b : List Train.Ev) (w w' : World P), Plays P vmax (a ++ b) w w' ↔ ∃ w1, Plays P vmax a w w1 ∧ Plays P vmax b w1 w'
  | [], b, w, w' => ⟨fun h => ⟨w, rfl, h⟩, fun ⟨_, h1, h2⟩ => by cases h1; exact h2⟩
  | e :: a, b, w, w' => by
    constructor
    · rintro ⟨w1, h1, h2⟩
      obtain ⟨w2, h3, h4⟩ := (plays_append a b w1 w').1 h2
      exact ⟨w2, ⟨w1, h1, h3⟩, h4⟩
    · rintro ⟨w2, ⟨w1, h1, h3⟩, h4⟩
      exact ⟨w1, h1, (plays_append a b w1 w').2 ⟨w2, h3, h4⟩⟩

theorem effect_cur {e : Train.Ev} {w w' : World P} (h : Effect P vmax e w w') : w'.cur = Train.told w.cur [e] := by
  cases e <;> simp only [Effect, Looks] at h
  all_goals first
    | (subst h; rfl)
    | (obtain ⟨-, rfl⟩ := h; rfl)
    | (obtain ⟨_, -, rfl⟩ := h; rfl)
    | (obtain ⟨_, -, -, rfl⟩ := h; rfl)
    | (obtain ⟨_, _, -, -, rfl⟩ := h; rfl)
    | (obtain ⟨_, _, _, -, -, rfl⟩ := h; rfl)
    | (obtain ⟨_, _, _, -, -, -, rfl⟩ := h; rfl)

theorem plays_cur : ∀ (tr : List Train.Ev) {w w' : World P}, Plays P vmax tr w w' → w'.cur = Train.told w.cur tr
  | [], w, w', h => by cases h; rfl
  | e :: es, w, w', ⟨w1, h1, h2⟩ => by
    rw [plays_cur es h2, effect_cur h1]
    rfl

/-- What became of the world: uses of the network, with the batches `bs`. -/
def Past (vmax : ℕ) (d : TrainData.Data ℝ ℝ) (w w' : World P) (bs : List (ℕ × Mat ℝ × Mat ℝ)) : Prop :=
  ∃ us, w'.net = P.net.run w.net us ∧ (∀ u ∈ us, P.Fits u) ∧ List.Forall₂ (Like P.shape) (batches us) bs ∧
    (TrainData.Reach vmax d w.td → TrainData.Reach vmax d w'.td)

theorem Past.refl (w : World P) : Past vmax d w w [] := ⟨[], rfl, fun _ h => absurd h List.not_mem_nil, .nil, id⟩

theorem Past.trans {w w1 w2 : World P} {a b : List (ℕ × Mat ℝ × Mat ℝ)} (h1 : Past vmax d w w1 a) (h2 : Past vmax d w1 w2 b) : Past vmax d w w2 (a ++ b) := by
  obtain ⟨us, e1, f1, l1, r1⟩ := h1
  obtain ⟨vs, e2, f2, l2, r2⟩ := h2
  refine ⟨us ++ vs, ?_, fun u hu => ?_, ?_, fun h => r2 (r1 h)⟩
  · rw [e2, e1]; unfold Net.run; rw [List.foldl_append]
  · exact (List.mem_append.1 hu).elim (f1 u) (f2 u)
  · rw [batches_append]; exact List.rel_append l1 l2

theorem looks_past {w w' : World P} (h : Looks P vmax w w') : Past vmax d w w' [] := by
  obtain ⟨us, td', h1, h2, rfl⟩ := h
  refine ⟨us, rfl, fun u hu => (h1 u hu).1, ?_, calls_reach h2⟩
  rw [batches_eval us fun u hu => (h1 u hu).2]
  exact .nil

/-- Calls that have nothing to do with learning. -/
theorem idle_past : ∀ (tr : List Train.Ev) {w w' : World P}, Train.workOf tr = [] → Train.Ev.deinit ∉ tr → Plays P vmax tr w w' → Past vmax d w w' []
  | [], w, w', _, _, h => by cases h; exact Past.refl w
  | e :: es, w, w', hw, hd, ⟨w1, h1, h2⟩ => by
    have hw2 : Train.workOf es = [] := by
      unfold Train.workOf at hw ⊢
      rw [List.filter_eq_nil_iff] at hw ⊢
      exact fun a ha => hw a (List.mem_cons_of_mem _ ha)
    have ih := idle_past es hw2 (fun h => hd (List.mem_cons_of_mem _ h)) h2
    have h3 : Past vmax d w w1 [] := by
      cases e <;> first | exact looks_past h1 | exact absurd hw (List.cons_ne_nil _ _) | exact absurd List.mem_cons_self hd | skip
      all_goals simp only [Effect] at h1
      all_goals first
        | (subst h1; exact ⟨[], rfl, fun _ h => absurd h List.not_mem_nil, .nil, id⟩)
        | (obtain ⟨-, rfl⟩ := h1; exact Past.refl _)
    exact h3.trans ih

/-- The loop over the batches of an epoch. -/
theorem batchLoop_plays {cd : Train.CD} (ht : cd.training = true) : ∀ (k b0 : ℕ) {w w' : World P}, Plays P vmax (Train.batchLoop cd b0 k) w w' →
    ∃ (run : ℕ → TrainData.TD ℝ ℝ) (us : List (Use ℝ)), run 0 = w.td ∧ run k = w'.td ∧ w'.net = P.net.run w.net us ∧ us.length = k ∧
      (∀ i < k, ∃ exX exY : Exec, exX.Ok ∧ exY.Ok ∧ TrainData.OnNextBatch exX exY (run i) (b0 + i) (run (i + 1))) ∧
      ∀ i < k, ∃ x y, TrainData.batchX (run (i + 1)) = some x ∧ TrainData.batchY (run (i + 1)) = some y ∧ x.batchSize = cd.cur ∧ y.batchSize = cd.cur ∧
        us[i]? = some (Use.train cd.cur x.data y.data)
  | 0, b0, w, w', h => by
    cases h
    exact ⟨fun _ => w.td, [], rfl, rfl, rfl, rfl, fun i hi => absurd hi (by omega), fun i hi => absurd hi (by omega)⟩
  | k + 1, b0, w, w', h => by
    rw [Train.batchLoop, plays_append] at h
    obtain ⟨w1, h1, h2⟩ := h
    obtain ⟨run, us, r0, rk, hn, hl, hb, hx⟩ := batchLoop_plays ht k (b0 + 1) h2
    obtain ⟨wa, ha, _, ⟨exX, exY, td', e1, e2, e3, rfl⟩, _, rfl, _, ⟨x, g1, g2, rfl⟩, _, rfl, _, ⟨y, g3, g4, rfl⟩, _, rfl, rfl⟩ := h1
    obtain rfl : w = wa := ha.symm
    refine ⟨fun i => Nat.casesOn i w.td run, Use.train cd.cur x.data y.data :: us, rfl, rk, ?_, by rw [List.length_cons, hl], ?_, ?_⟩
    · rw [hn, ht]
      rfl
    · intro i hi
      cases i with
      | zero => exact ⟨exX, exY, e1, e2, by show TrainData.OnNextBatch exX exY w.td b0 (run 0); rw [r0]; exact e3⟩
      | succ i =>
        obtain ⟨eX, eY, k1, k2, k3⟩ := hb i (by omega)
        exact ⟨eX, eY, k1, k2, by rw [show b0 + 1 + i = b0 + (i + 1) by omega] at k3; exact k3⟩
    · intro i hi
      cases i with
      | zero =>
        refine ⟨x, y, ?_, ?_, g2, g4, rfl⟩
        · show TrainData.batchX (run 0) = _
          rw [r0]; exact g1
        · show TrainData.batchY (run 0) = _
          rw [r0]; exact g3
      | succ i => exact hx i (by omega)

/-- An epoch. -/
theorem epoch_past (hs : Suits d P.toPlan) {cd : Train.CD} (ht : cd.training = true) (hN : cd.cur ≤ P.bs.maxTrainBS) {e n : ℕ} {w w' : World P} (hcur : w.cur = cd.cur)
    (hr : TrainData.Reach vmax d w.td) (h : Plays P vmax ([.nextEpoch e, .epochBegin e n] ++ Train.batchLoop cd 0 n) w w') :
    0 < cd.cur ∧ ∃ ord, Shuffled (d.count .train) cd.cur ord ∧ Past vmax d w w' (epochBatches d cd.cur ord) := by
  obtain ⟨_, ⟨shuffle, td', n', hsh, he, rfl⟩, _, ⟨rfl, rfl⟩, h⟩ := h
  obtain ⟨run, us, r0, rk, hn, hl, hb, hx⟩ := batchLoop_plays ht _ 0 h
  simp only [Nat.zero_add] at hb
  have r0 : run 0 = td' := r0
  obtain ⟨b, hb0, hbe, hnb, ord, o1, o2, o3, o4⟩ := TrainData.epoch_batches_are_distinct_samples hs.ok hr hsh he run r0 hb
  have hbc : b = cd.cur := by
    rw [hcur] at hbe
    unfold TrainData.effBatch at hbe
    simp only [Int.lt_irrefl, if_false, if_true] at hbe
    omega
  subst hbc
  have hreach : ∀ i, i ≤ n → TrainData.Reach vmax d (run i) := by
    intro i hi
    induction i with
    | zero => rw [r0]; exact hr.step (.epoch _ _ _ _ _ _ hsh he)
    | succ i ih =>
      obtain ⟨eX, eY, k1, k2, k3⟩ := hb i (by omega)
      exact (ih (by omega)).step (.batch _ _ _ _ _ k1 k2 k3)
  refine ⟨hb0, ord, ⟨by rw [← hnb]; exact o1, by rw [← hnb]; exact fun k hk k' hk' => o2 k k' hk hk', by rw [← hnb]; exact o3⟩, us, hn, ?_, ?_, fun _ => ?_⟩
  · intro u hu
    obtain ⟨i, hi⟩ := List.getElem?_of_mem hu
    have hlt : i < n := by
      have := (List.getElem?_eq_some_iff.1 hi).1
      omega
    obtain ⟨x, y, k1, k2, k3, k4, k5⟩ := hx i hlt
    obtain ⟨eX, eY, q1, q2, q3⟩ := hb i hlt
    rw [hi] at k5
    obtain rfl := Option.some.inj k5
    obtain ⟨_, _, m3⟩ := batch_matrices hs (hreach i (by omega)) q1 q2 q3 k1 k2
    rw [k3] at m3
    exact ⟨hb0, hN, m3⟩
  · have hbu : batches us = us.map fun u => match u with | .train R X Y => (R, matOf R X, matOf R Y) | .eval R X => (R, matOf R X, matOf R X) := by
      have : ∀ u ∈ us, ∃ R X Y, u = Use.train R X Y := fun u hu => by
        obtain ⟨i, hi⟩ := List.getElem?_of_mem hu
        obtain ⟨x, y, _, _, _, _, k5⟩ := hx i (by have := (List.getElem?_eq_some_iff.1 hi).1; omega)
        rw [hi] at k5
        exact ⟨_, _, _, Option.some.inj k5⟩
      clear hx hn hl
      induction us with
      | nil => rfl
      | cons u us ih =>
        obtain ⟨R, X, Y, rfl⟩ := this u List.mem_cons_self
        exact congrArg (_ :: ·) (ih fun v hv => this v (List.mem_cons_of_mem _ hv))
    rw [hbu, List.forall₂_iff_get]
    refine ⟨by simp only [List.length_map, hl, epochBatches, List.length_range]; exact hnb, fun i h1 h2 => ?_⟩
    have hlt : i < n := by rw [List.length_map, hl] at h1; exact h1
    obtain ⟨x, y, k1, k2, k3, k4, k5⟩ := hx i hlt
    obtain ⟨eX, eY, q1, q2, q3⟩ := hb i hlt
    obtain ⟨m1, m2, _⟩ := batch_matrices hs (hreach i (by omega)) q1 q2 q3 k1 k2
    obtain ⟨x', y', p1, p2, p3, p4, p5⟩ := o4 i hlt
    obtain rfl := Option.some.inj (k1.symm.trans p1)
    obtain rfl := Option.some.inj (k2.symm.trans p2)
    have hu : us[i]'(by rw [List.length_map] at h1; exact h1) = Use.train cd.cur x.data y.data := (List.getElem?_eq_some_iff.1 k5).2
    simp only [List.get_eq_getElem, List.getElem_map, hu, epochBatches, List.getElem_range]
    refine ⟨rfl, fun r hr' => ⟨fun j hj => ?_, fun j hj => ?_⟩⟩
    · have := reads_of m1 (p5 r hr').1 (j := j) (by rw [hs.ok.widthX, hs.inputs]; exact hj)
      rw [k3] at this
      exact this.symm
    · have := reads_of m2 (p5 r hr').2 (j := j) (by rw [hs.ok.widthY, hs.outputs]; exact hj)
      rw [k4] at this
      exact this.symm
  · rw [← rk]; exact hreach n (Nat.le_refl _)

variable {L : Type}

theorem epochLoop_past (hs : Suits d P.toPlan) (o : Train.Opts L) (v : Train.Env L) (k : ℕ) : ∀ (cd : Train.CD) (e : ℕ) (cd' : Train.CD) (tr : List Train.Ev) (err : Train.Err)
    (w w' : World P), Train.epochLoop o v cd e k = some (cd', tr, err) → cd.training = true → cd.cur = cd.trainBs → cd.trainBs ≤ P.bs.maxTrainBS → w.cur = cd.cur →
    TrainData.Reach vmax d w.td → Plays P vmax tr w w' →
    ∃ ords : List (ℕ → ℕ), ords.length = (Train.begunOf tr).length ∧ (∀ ord ∈ ords, Shuffled (d.count .train) cd.trainBs ord) ∧
      Past vmax d w w' (ords.flatMap (epochBatches d cd.trainBs)) := by
  induction k with
  | zero =>
    intro cd e cd' tr err w w' h _ _ _ _ _ hP
    simp only [Train.epochLoop, Option.some.injEq, Prod.mk.injEq] at h
    obtain ⟨rfl, rfl, -⟩ := h
    cases hP
    exact ⟨[], rfl, fun _ h => absurd h List.not_mem_nil, Past.refl w⟩
  | succ k ih =>
    intro cd e cd' tr err w w' h ht hc hN hw hr hP
    unfold Train.epochLoop at h
    dsimp only at h
    cases hf : o.flags[e]? with
    | none => rw [hf] at h; simp at h
    | some flag =>
      rw [hf] at h
      dsimp only at h
      have hflag : o.flags.getD e false = flag := by rw [List.getD_eq_getElem?_getD, hf]; rfl
      have a1 := Train.afterBatches_work o v cd e
      have a2 := Train.afterBatches_begun o v cd e
      have a3 := Train.afterBatches_sizes o v cd e
      have a4 := Train.afterBatches_follows o v cd e flag
      have a5 := afterBatches_no_deinit o v cd e flag
      rw [hflag] at a1 a2 a3
      have b1 : (Train.begunOf ([Train.Ev.nextEpoch e, Train.Ev.epochBegin e (v.batches e cd)] ++ Train.batchLoop cd 0 (v.batches e cd))).length = 1 := by
        rw [Train.begun_append, Train.batchLoop_begun, List.append_nil]; rfl
      have b2 : Train.told cd.cur ([Train.Ev.nextEpoch e, Train.Ev.epochBegin e (v.batches e cd)] ++ Train.batchLoop cd 0 (v.batches e cd)) = cd.cur := by
        rw [Train.told_append]; exact (Train.batchLoop_follows cd _ 0).2
      have b3 : ∀ w1, Plays P vmax ([Train.Ev.nextEpoch e, Train.Ev.epochBegin e (v.batches e cd)] ++ Train.batchLoop cd 0 (v.batches e cd)) w w1 →
          ∃ ord, Shuffled (d.count .train) cd.trainBs ord ∧ Past vmax d w w1 (epochBatches d cd.trainBs ord) := fun w1 h1 => by
        have := (epoch_past hs ht (by rw [hc]; exact hN) hw hr h1).2
        rwa [hc] at this
      generalize Train.afterBatches o v cd e flag = a at *
      generalize [Train.Ev.nextEpoch e, Train.Ev.epochBegin e (v.batches e cd)] ++ Train.batchLoop cd 0 (v.batches e cd) = T at *
      by_cases hdv : a.2.2 = true
      · rw [if_pos hdv] at h
        simp only [Option.some.injEq, Prod.mk.injEq] at h
        obtain ⟨rfl, rfl, -⟩ := h
        obtain ⟨w1, p1, p2⟩ := (plays_append _ _ _ _).1 hP
        obtain ⟨ord, o1, o2⟩ := b3 w1 p1
        refine ⟨[ord], ?_, fun x hx => ?_, ?_⟩
        · rw [Train.begun_append, a2, List.append_nil, b1]; rfl
        · obtain rfl := List.mem_singleton.1 hx; exact o1
        · rw [List.flatMap_cons]; exact o2.trans (idle_past _ a1 a5 p2)
      · rw [if_neg hdv] at h
        have hsm := Train.setModes_follows (v.cbModes e) a.1
        have hsq := Train.setModes_quiet (v.cbModes e) a.1
        have hss := Train.setModes_sizes (v.cbModes e) a.1
        generalize a.1.setModes (v.cbModes e) = c at *
        have hwk : Train.workOf (a.2.1 ++ [Train.Ev.epochEnd] ++ (Train.Ev.callback e :: c.2)) = [] := by
          rw [show Train.Ev.callback e :: c.2 = [Train.Ev.callback e] ++ c.2 from rfl]
          simp only [Train.work_append, a1, hsq.work]
          rfl
        have hbg : Train.begunOf (a.2.1 ++ [Train.Ev.epochEnd] ++ (Train.Ev.callback e :: c.2)) = [] := by
          rw [show Train.Ev.callback e :: c.2 = [Train.Ev.callback e] ++ c.2 from rfl]
          simp only [Train.begun_append, a2, hsq.begun]
          rfl
        have hdn : Train.Ev.deinit ∉ a.2.1 ++ [Train.Ev.epochEnd] ++ (Train.Ev.callback e :: c.2) := by
          intro hm
          simp only [List.mem_append, List.mem_cons, List.not_mem_nil, or_false, reduceCtorEq, false_or] at hm
          rcases hm with hm | hm
          · exact a5 hm
          · exact quiet_idle hsq hm
        have htd : Train.told cd.cur (a.2.1 ++ [Train.Ev.epochEnd] ++ (Train.Ev.callback e :: c.2)) = c.1.cur := by
          rw [Train.told_append, Train.told_append, a4.2]
          exact hsm.2
        rw [List.append_assoc T, List.append_assoc T] at h
        generalize a.2.1 ++ [Train.Ev.epochEnd] ++ (Train.Ev.callback e :: c.2) = U at *
        by_cases hcb : (!v.cb e) = true
        · rw [if_pos hcb] at h
          simp only [Option.some.injEq, Prod.mk.injEq] at h
          obtain ⟨rfl, rfl, -⟩ := h
          obtain ⟨w1, p1, p2⟩ := (plays_append _ _ _ _).1 hP
          obtain ⟨ord, o1, o2⟩ := b3 w1 p1
          refine ⟨[ord], ?_, fun x hx => ?_, ?_⟩
          · rw [Train.begun_append, hbg, List.append_nil, b1]; rfl
          · obtain rfl := List.mem_singleton.1 hx; exact o1
          · rw [List.flatMap_cons]; exact o2.trans (idle_past _ hwk hdn p2)
        · rw [if_neg hcb] at h
          have hm1 : Train.Follows c.1.cur (c.1.setModeBs 0).2 (c.1.setModeBs 0).1.cur := Train.setMode_follows _ _ _
          have hm2 := Train.setModeBs_quiet c.1 0
          rw [Train.setModeBs_ready] at h hm1
          generalize (c.1.setModeBs 0).2 = M at *
          cases hl : Train.epochLoop o v (Train.ready c.1) (e + 1) k with
          | none => rw [hl] at h; simp at h
          | some r =>
            obtain ⟨cd2, evs2, err2⟩ := r
            rw [hl] at h
            simp only [Option.some.injEq, Prod.mk.injEq] at h
            obtain ⟨rfl, rfl, -⟩ := h
            have hbs : (Train.ready c.1).trainBs = cd.trainBs := hss.1.trans a3.1
            obtain ⟨w3, p1, p4⟩ := (plays_append _ _ _ _).1 hP
            obtain ⟨w2, p1, p3⟩ := (plays_append _ _ _ _).1 p1
            obtain ⟨w1, p1, p2⟩ := (plays_append _ _ _ _).1 p1
            obtain ⟨ord, o1, o2⟩ := b3 w1 p1
            have q2 : Past vmax d w1 w2 [] := idle_past _ hwk hdn p2
            have q3 : Past vmax d w2 w3 [] := idle_past _ hm2.work (quiet_idle hm2) p3
            have q := (o2.trans q2).trans q3
            simp only [List.append_nil] at q
            have hw3 : w3.cur = (Train.ready c.1).cur := by
              rw [plays_cur _ p3, plays_cur _ p2, plays_cur _ p1, hw, b2, htd, hm1.2]
            obtain ⟨_, _, _, _, hreach⟩ := id q
            obtain ⟨ords, l1, l2, l3⟩ := ih (Train.ready c.1) (e + 1) cd2 evs2 err2 w3 w' hl rfl rfl (by rw [hbs]; exact hN) hw3 (hreach hr) p4
            rw [hbs] at l2 l3
            refine ⟨ord :: ords, ?_, fun x hx => ?_, ?_⟩
            · simp only [Train.begun_append, hbg, hm2.begun, List.append_nil, List.length_append, b1, List.length_cons, l1]
              omega
            · rcases List.mem_cons.1 hx with rfl | hx
              · exact o1
              · exact l2 x hx
            · rw [List.flatMap_cons]; exact q.trans l3

/-- Calls after which the weights are the same. -/
theorem after_same {o : Train.Opts L} {v : Train.Env L} {w w' : World P} (h : Plays P vmax (Train.after o v) w w') : P.weights w'.net = P.weights w.net := by
  unfold Train.after at h
  obtain ⟨w1, h1, h2⟩ := (plays_append _ _ _ _).1 h
  have e1 : P.weights w1.net = P.weights w.net := by
    by_cases hi : o.immDeinit = true
    · rw [if_pos hi] at h1
      obtain ⟨_, ⟨net', e, rfl⟩, rfl⟩ := h1
      exact e
    · rw [if_neg hi] at h1
      cases h1; rfl
  rw [← e1]
  by_cases hi : o.forceInsp = true
  · rw [if_pos hi] at h2
    obtain ⟨_, rfl, rfl⟩ := h2
    rfl
  · rw [if_neg hi] at h2
    cases h2; rfl

/-- What the network did in a training that starts: uses whose training batches are those of the epochs that were begun. -/
theorem whole_training_past (hs : Suits d P.toPlan) {o : Train.Opts L} {v : Train.Env L} (hv : Train.Starts v)
    {cd cd' : Train.CD} {tr : List Train.Ev} {err : Train.Err} (ht : Train.train o v cd = some (cd', tr, err)) (hb : cd.trainBs ≤ P.bs.maxTrainBS)
    {w w' : World P} (hc : w.cur = cd.cur) (hr : TrainData.Reach vmax d w.td) (hP : Plays P vmax tr w w') :
    ∃ ords : List (ℕ → ℕ), ords.length = (Train.begunOf tr).length ∧ (∀ ord ∈ ords, Shuffled (d.count .train) cd.trainBs ord) ∧
      (∀ b ∈ ords.flatMap (epochBatches d cd.trainBs), Drawn d b) ∧
      ∃ us, (∀ u ∈ us, P.Fits u) ∧ List.Forall₂ (Like P.shape) (batches us) (ords.flatMap (epochBatches d cd.trainBs)) ∧
        P.weights w'.net = P.weights (P.net.run w.net us) := by
  rw [Train.train_starts hv] at ht
  unfold Train.observed at ht
  dsimp only at ht
  have f1 := Train.report_follows v cd (-1)
  have f2 : Train.Follows (Train.report v cd (-1)).1.cur ((Train.report v cd (-1)).1.setModeBs 0).2 ((Train.report v cd (-1)).1.setModeBs 0).1.cur :=
    Train.setMode_follows _ _ _
  have g1 := Train.report_work v cd (-1)
  have g2 := report_no_deinit v cd (-1)
  have g3 := Train.report_sizes v cd (-1)
  have g4 := Train.report_begun v cd (-1)
  generalize Train.report v cd (-1) = p at *
  have m1 := Train.setModeBs_quiet p.1 0
  rw [Train.setModeBs_ready] at ht f2
  generalize (p.1.setModeBs 0).2 = M at *
  cases hl' : Train.epochLoop o v (Train.ready p.1) 0 o.flags.length with
  | none => rw [hl'] at ht; simp at ht
  | some r =>
    obtain ⟨c2, e2, er2⟩ := r
    rw [hl'] at ht
    simp only [Option.map_some, Option.some.injEq, Prod.mk.injEq] at ht
    obtain ⟨-, rfl, -⟩ := ht
    have hbs : (Train.ready p.1).trainBs = cd.trainBs := g3.1
    have k1 : Train.workOf (Train.before o) = [] ∧ Train.Ev.deinit ∉ Train.before o ∧ Train.told cd.cur (Train.before o) = cd.cur ∧
        Train.begunOf (Train.before o) = [] := by
      unfold Train.before; split <;> exact ⟨rfl, by simp, rfl, rfl⟩
    generalize hfin : (if er2 = .success then (if o.repOnlyTime then [] else [Train.Ev.trainingEnd]) else [] : List Train.Ev) = fin at *
    have k2 : Train.workOf fin = [] ∧ Train.Ev.deinit ∉ fin ∧ Train.begunOf fin = [] := by
      rw [← hfin]; split
      · split <;> exact ⟨rfl, by simp, rfl⟩
      · exact ⟨rfl, by simp, rfl⟩
    have k3 := (Train.after_outer o v).2.1
    obtain ⟨w9, h1, h9⟩ := (plays_append _ _ _ _).1 hP
    obtain ⟨w8, h1, h8⟩ := (plays_append _ _ _ _).1 h1
    obtain ⟨w2, h1, h3⟩ := (plays_append _ _ _ _).1 h1
    obtain ⟨w1, h1, h2⟩ := (plays_append _ _ _ _).1 h1
    obtain ⟨w7, h3, h7⟩ := (plays_append _ _ _ _).1 h3
    obtain ⟨w6, h3, h6⟩ := (plays_append _ _ _ _).1 h3
    obtain ⟨w5, h3, h5⟩ := (plays_append _ _ _ _).1 h3
    obtain ⟨w4, h3, h4⟩ := (plays_append _ _ _ _).1 h3
    have q : Past vmax d w w6 [] := ((((idle_past _ k1.1 k1.2.1 h1).trans (idle_past _ (by rfl) (by simp) h2)).trans (idle_past _ (by rfl) (by simp) h3)).trans
      (idle_past _ g1 g2 h4)).trans (idle_past _ m1.work (quiet_idle m1) h5)
    have hw6 : w6.cur = (Train.ready p.1).cur := by
      rw [plays_cur _ h5, plays_cur _ h4, plays_cur _ h3, plays_cur _ h2, plays_cur _ h1, hc, k1.2.2.1]
      show Train.told (Train.told cd.cur p.2) M = _
      rw [f1.2, f2.2]
    obtain ⟨ords, l1, l2, l3⟩ := epochLoop_past hs o v _ _ _ _ _ _ w6 w7 hl' rfl rfl (by rw [hbs]; exact hb) hw6 (q.choose_spec.2.2.2 hr) h6
    rw [hbs] at l2 l3
    have q7 : Past vmax d w w9 (ords.flatMap (epochBatches d cd.trainBs)) := by
      have := ((q.trans l3).trans (idle_past _ k2.1 k2.2.1 h7)).trans (idle_past _ (by rfl) (by simp) h8)
      simpa using this
    refine ⟨ords, ?_, l2, fun b hb => ?_, ?_⟩
    · simp only [Train.begun_append, k1.2.2.2, g4, m1.begun, k2.2.2, k3, List.append_nil, List.nil_append]
      rw [show Train.begunOf [Train.Ev.observerInit] = [] from rfl, show Train.begunOf [Train.Ev.trainingStart] = [] from rfl,
        show Train.begunOf [Train.Ev.observerDeinit] = [] from rfl, List.append_nil, List.nil_append, List.nil_append]
      exact l1
    · obtain ⟨ord, o1, o2⟩ := List.mem_flatMap.1 hb
      exact epochBatches_drawn (l2 ord o1) b o2
    · obtain ⟨us, e1, e2, e3, -⟩ := q7
      exact ⟨us, e2, e3, by rw [after_same h9, e1]⟩

end Nntl.Sgd.Thin
