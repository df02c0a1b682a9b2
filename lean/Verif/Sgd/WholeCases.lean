import Verif.Sgd.WholeProps
import Verif.Sgd.Cases
import Verif.TrainData.InitProps

/-! Trainings exist for all sizes that fit, and an example. -/
namespace Nntl.Sgd

open Nntl.Layers Nntl.Pass Nntl.Matrix Nntl.Kernel
open Finset

variable {P : Plan} {η : Rates} {vmax : ℕ} {d : TrainData.Data ℝ ℝ} {L : Type}

theorem looks_nothing (w : World P) : Looks P vmax w w := ⟨[], w.td, fun _ h => absurd h List.not_mem_nil, .none _, rfl⟩

theorem idle_exists : ∀ (tr : List Train.Ev) (w : World P), Train.workOf tr = [] → Train.begunOf tr = [] → ∃ w', Plays P vmax tr w w' ∧ w'.td = w.td
  | [], w, _, _ => ⟨w, rfl, rfl⟩
  | e :: es, w, hw, hb => by
    have hw2 : Train.workOf es = [] := by
      unfold Train.workOf at hw ⊢
      rw [List.filter_eq_nil_iff] at hw ⊢
      exact fun a ha => hw a (List.mem_cons_of_mem _ ha)
    have hb2 : Train.begunOf es = [] := by
      unfold Train.begunOf at hb ⊢
      rw [List.filterMap_eq_nil_iff] at hb ⊢
      exact fun a ha => hb a (List.mem_cons_of_mem _ ha)
    have h1 : ∃ w1, Effect P vmax e w w1 ∧ w1.td = w.td := by
      cases e <;> first
        | exact absurd hw (List.cons_ne_nil _ _)
        | exact absurd hb (List.cons_ne_nil _ _)
        | exact ⟨w, looks_nothing w, rfl⟩
        | exact ⟨w, ⟨w.net, rfl, rfl⟩, rfl⟩
        | exact ⟨w, rfl, rfl⟩
        | exact ⟨_, rfl, rfl⟩
    obtain ⟨w1, h1, t1⟩ := h1
    obtain ⟨w', h2, t2⟩ := idle_exists es w1 hw2 hb2
    exact ⟨w', ⟨w1, h1, h2⟩, t2.trans t1⟩

theorem batchLoop_exists {cd : Train.CD} {run : ℕ → TrainData.TD ℝ ℝ} {n : ℕ} (hrun : TrainData.BatchRun run n)
    (hx : ∀ i, i < n → ∃ x y, TrainData.batchX (run (i + 1)) = some x ∧ TrainData.batchY (run (i + 1)) = some y ∧ x.batchSize = cd.cur ∧ y.batchSize = cd.cur) :
    ∀ (k b0 : ℕ) (w : World P), b0 + k = n → w.td = run b0 → ∃ w', Plays P vmax (Train.batchLoop cd b0 k) w w' ∧ w'.td = run n
  | 0, b0, w, hk, hw => ⟨w, rfl, by rw [hw]; congr 1⟩
  | k + 1, b0, w, hk, hw => by
    obtain ⟨exX, exY, e1, e2, e3⟩ := hrun b0 (by omega)
    obtain ⟨x, y, g1, g2, g3, g4⟩ := hx b0 (by omega)
    rw [← hw] at e3
    obtain ⟨w', h1, h2⟩ := batchLoop_exists hrun hx k (b0 + 1)
      { w with td := run (b0 + 1), net := (P.net.bprop (P.net.fprop (P.net.to cd.training cd.cur w.net) x.data).1 (P.net.fprop (P.net.to cd.training cd.cur w.net) x.data).2 y.data).1,
               x := (P.net.fprop (P.net.to cd.training cd.cur w.net) x.data).2 } (by omega) rfl
    refine ⟨w', ?_, h2⟩
    rw [Train.batchLoop, plays_append]
    exact ⟨_, ⟨w, rfl, _, ⟨exX, exY, run (b0 + 1), e1, e2, e3, rfl⟩, _, rfl, _, ⟨x, g1, g3, rfl⟩, _, rfl, _, ⟨y, g2, g4, rfl⟩, _, rfl, rfl⟩, h1⟩

/-- The data object is prepared for batches of `b` samples. -/
def Prepared (d : TrainData.Data ℝ ℝ) (b : ℕ) (t : TrainData.TD ℝ ℝ) : Prop :=
  b ≤ t.maxTrain ∧ (t.mini = false → b = d.count .train)

theorem prepared_batch {exX exY : Exec} {t t' : TrainData.TD ℝ ℝ} {i b : ℕ} (h : TrainData.OnNextBatch exX exY t i t') (hp : Prepared d b t) : Prepared d b t' := by
  obtain ⟨_, _, h⟩ := h
  by_cases hm : t.mini = true
  · rw [if_pos hm] at h
    obtain ⟨_, _, _, _, _, _, _, _, _, rfl⟩ := h
    exact hp
  · rw [if_neg hm] at h
    rw [h.2]; exact hp

theorem epoch_exists (hd : d.Ok) {cd : Train.CD} (h0 : 0 < cd.cur) (w : World P) (hcur : w.cur = cd.cur) (hr : TrainData.Reach vmax d w.td) (hp : Prepared d cd.cur w.td)
    (e : ℕ) : ∃ w', Plays P vmax ([.nextEpoch e, .epochBegin e (d.count .train / cd.cur)] ++ Train.batchLoop cd 0 (d.count .train / cd.cur)) w w' ∧
      Prepared d cd.cur w'.td ∧ TrainData.Reach vmax d w'.td := by
  have hsh : ∀ l : List ℕ, (id l).Perm l := fun l => List.Perm.refl l
  have heff : TrainData.effBatch w.td.maxTrain w.cur 0 = (cd.cur : ℤ) := by
    unfold TrainData.effBatch
    rw [hcur]
    simp
  obtain ⟨t1, n, he⟩ := TrainData.epoch_available (shuffle := id) hd hr cd.cur h0 hp.1 heff hp.2
  obtain ⟨run, r0, hrun⟩ := TrainData.epoch_run_exists hd hr hsh he
  obtain ⟨b, hb0, hbe, hnb, ord, -, -, -, o4⟩ := TrainData.epoch_batches_are_distinct_samples hd hr hsh he run r0 hrun
  have hbc : b = cd.cur := by rw [heff] at hbe; omega
  subst hbc
  rw [← hnb]
  have hp1 : Prepared d cd.cur t1 := by
    obtain ⟨_, -, -, -, -, -, h | h⟩ := TrainData.onNextEpoch_cases he
    · obtain ⟨_, _, _, _, _, rfl⟩ := h; exact hp
    · obtain ⟨_, _, _, rfl⟩ := h; exact hp
  have hall : ∀ i, i ≤ n → Prepared d cd.cur (run i) ∧ TrainData.Reach vmax d (run i) := by
    intro i hi
    induction i with
    | zero => rw [r0]; exact ⟨hp1, hr.step (.epoch _ _ _ _ _ _ hsh he)⟩
    | succ i ih =>
      obtain ⟨eX, eY, k1, k2, k3⟩ := hrun i (by omega)
      obtain ⟨q1, q2⟩ := ih (by omega)
      exact ⟨prepared_batch k3 q1, q2.step (.batch _ _ _ _ _ k1 k2 k3)⟩
  obtain ⟨w', h1, h2⟩ := batchLoop_exists (vmax := vmax) (P := P) (cd := cd) hrun (fun i hi => by
    obtain ⟨x, y, g1, g2, g3, g4, -⟩ := o4 i hi
    exact ⟨x, y, g1, g2, g3, g4⟩) n 0 { w with td := t1, n := n } (by omega) r0.symm
  refine ⟨w', ⟨_, ⟨id, t1, n, hsh, he, rfl⟩, _, ⟨rfl, rfl⟩, h1⟩, ?_⟩
  rw [h2]
  exact hall n (Nat.le_refl n)

theorem epochLoop_exists (hd : d.Ok) (o : Train.Opts L) (v : Train.Env L) (k : ℕ) : ∀ (cd : Train.CD) (e : ℕ) (cd' : Train.CD) (tr : List Train.Ev) (err : Train.Err)
    (w : World P), Train.epochLoop o v cd e k = some (cd', tr, err) → 0 < cd.trainBs → cd.cur = cd.trainBs → w.cur = cd.cur →
    (∀ e c, c.cur = cd.trainBs → v.batches e c = d.count .train / cd.trainBs) → TrainData.Reach vmax d w.td → Prepared d cd.trainBs w.td →
    ∃ w', Plays P vmax tr w w' := by
  induction k with
  | zero =>
    intro cd e cd' tr err w h _ _ _ _ _ _
    simp only [Train.epochLoop, Option.some.injEq, Prod.mk.injEq] at h
    obtain ⟨rfl, rfl, -⟩ := h
    exact ⟨w, rfl⟩
  | succ k ih =>
    intro cd e cd' tr err w h h0 hc hw hn hr hp
    unfold Train.epochLoop at h
    dsimp only at h
    rw [hn e cd hc] at h
    cases hf : o.flags[e]? with
    | none => rw [hf] at h; simp at h
    | some flag =>
      rw [hf] at h
      dsimp only at h
      have hflag : o.flags.getD e false = flag := by rw [List.getD_eq_getElem?_getD, hf]; rfl
      have a1 := Train.afterBatches_work o v cd e
      have a2 := Train.afterBatches_begun o v cd e
      have a3 := Train.afterBatches_sizes o v cd e
      have a4 := Train.afterBatches_follows o v cd e flag
      rw [hflag] at a1 a2 a3
      obtain ⟨w1, p1, p2, p3⟩ := epoch_exists (P := P) hd (cd := cd) (by omega) w hw hr (by rw [hc]; exact hp) e
      rw [hc] at p1 p2
      have b2 : w1.cur = cd.cur := by
        rw [plays_cur _ p1, Train.told_append, hw]; exact (Train.batchLoop_follows cd _ 0).2
      generalize Train.afterBatches o v cd e flag = a at *
      generalize [Train.Ev.nextEpoch e, Train.Ev.epochBegin e (d.count .train / cd.trainBs)] ++ Train.batchLoop cd 0 (d.count .train / cd.trainBs) = T at *
      by_cases hdv : a.2.2 = true
      · rw [if_pos hdv] at h
        simp only [Option.some.injEq, Prod.mk.injEq] at h
        obtain ⟨rfl, rfl, -⟩ := h
        obtain ⟨w2, p4, _⟩ := idle_exists (vmax := vmax) a.2.1 w1 a1 a2
        exact ⟨w2, (plays_append _ _ _ _).2 ⟨w1, p1, p4⟩⟩
      · rw [if_neg hdv] at h
        have hsm := Train.setModes_follows (v.cbModes e) a.1
        have hsq := Train.setModes_quiet (v.cbModes e) a.1
        have hss := Train.setModes_sizes (v.cbModes e) a.1
        generalize a.1.setModes (v.cbModes e) = c at *
        have hwk : Train.workOf (a.2.1 ++ [Train.Ev.epochEnd] ++ (Train.Ev.callback e :: c.2)) = [] := by
          rw [show Train.Ev.callback e :: c.2 = [Train.Ev.callback e] ++ c.2 from rfl]
          simp only [Train.work_append, a1, hsq.work]
          rfl
        have hbg : Train.begunOf (a.2.1 ++ [Train.Ev.epochEnd] ++ (Train.Ev.callback e :: c.2)) = [] := by
          rw [show Train.Ev.callback e :: c.2 = [Train.Ev.callback e] ++ c.2 from rfl]
          simp only [Train.begun_append, a2, hsq.begun]
          rfl
        have htd : Train.told cd.cur (a.2.1 ++ [Train.Ev.epochEnd] ++ (Train.Ev.callback e :: c.2)) = c.1.cur := by
          rw [Train.told_append, Train.told_append, a4.2]
          exact hsm.2
        rw [List.append_assoc T, List.append_assoc T] at h
        generalize a.2.1 ++ [Train.Ev.epochEnd] ++ (Train.Ev.callback e :: c.2) = U at *
        obtain ⟨w2, p4, t2⟩ := idle_exists (vmax := vmax) U w1 hwk hbg
        have p5 := (plays_append _ _ _ _).2 ⟨w1, p1, p4⟩
        by_cases hcb : (!v.cb e) = true
        · rw [if_pos hcb] at h
          simp only [Option.some.injEq, Prod.mk.injEq] at h
          obtain ⟨rfl, rfl, -⟩ := h
          exact ⟨w2, p5⟩
        · rw [if_neg hcb] at h
          have hm1 : Train.Follows c.1.cur (c.1.setModeBs 0).2 (c.1.setModeBs 0).1.cur := Train.setMode_follows _ _ _
          have hm2 := Train.setModeBs_quiet c.1 0
          rw [Train.setModeBs_ready] at h hm1
          generalize (c.1.setModeBs 0).2 = M at *
          obtain ⟨w3, p6, t3⟩ := idle_exists (vmax := vmax) M w2 hm2.work hm2.begun
          cases hl : Train.epochLoop o v (Train.ready c.1) (e + 1) k with
          | none => rw [hl] at h; simp at h
          | some r =>
            obtain ⟨cd2, evs2, err2⟩ := r
            rw [hl] at h
            simp only [Option.some.injEq, Prod.mk.injEq] at h
            obtain ⟨rfl, rfl, -⟩ := h
            have hbs : (Train.ready c.1).trainBs = cd.trainBs := hss.1.trans a3.1
            have hw3 : w3.cur = (Train.ready c.1).cur := by
              rw [plays_cur _ p6, plays_cur _ p4, b2, htd, hm1.2]
            obtain ⟨w', p7⟩ := ih (Train.ready c.1) (e + 1) cd2 evs2 err2 w3 hl (by rw [hbs]; exact h0) rfl hw3 (by rw [hbs]; exact hn)
              (by rw [t3, t2]; exact p3) (by rw [hbs, t3, t2]; exact p2)
            exact ⟨w', (plays_append _ _ _ _).2 ⟨w3, (plays_append _ _ _ _).2 ⟨w2, p5, p6⟩, p7⟩⟩

/-- C191. Trainings exist: if the data object is prepared for the batch size, and the numbers of batches of the epochs are what the data object says. -/
theorem whole_training_exists (hd : d.Ok) {o : Train.Opts L} {v : Train.Env L} (hv : Train.Starts v) {cd cd' : Train.CD} {tr : List Train.Ev} {err : Train.Err}
    (ht : Train.train o v cd = some (cd', tr, err)) (h0 : 0 < cd.trainBs) (hn : ∀ e c, c.cur = cd.trainBs → v.batches e c = d.count .train / cd.trainBs)
    {w : World P} (hc : w.cur = cd.cur) (hr : TrainData.Reach vmax d w.td) (hp : Prepared d cd.trainBs w.td) : ∃ w', Plays P vmax tr w w' := by
  rw [Train.train_starts hv] at ht
  unfold Train.observed at ht
  dsimp only at ht
  have f1 := Train.report_follows v cd (-1)
  have f2 : Train.Follows (Train.report v cd (-1)).1.cur ((Train.report v cd (-1)).1.setModeBs 0).2 ((Train.report v cd (-1)).1.setModeBs 0).1.cur :=
    Train.setMode_follows _ _ _
  have g1 := Train.report_work v cd (-1)
  have g3 := Train.report_sizes v cd (-1)
  have g4 := Train.report_begun v cd (-1)
  generalize Train.report v cd (-1) = p at *
  have m1 := Train.setModeBs_quiet p.1 0
  rw [Train.setModeBs_ready] at ht f2
  generalize (p.1.setModeBs 0).2 = M at *
  cases hl' : Train.epochLoop o v (Train.ready p.1) 0 o.flags.length with
  | none => rw [hl'] at ht; simp at ht
  | some r =>
    obtain ⟨c2, e2, er2⟩ := r
    rw [hl'] at ht
    simp only [Option.map_some, Option.some.injEq, Prod.mk.injEq] at ht
    obtain ⟨-, rfl, -⟩ := ht
    have hbs : (Train.ready p.1).trainBs = cd.trainBs := g3.1
    generalize hfin : (if er2 = .success then (if o.repOnlyTime then [] else [Train.Ev.trainingEnd]) else [] : List Train.Ev) = fin at *
    have k1 : Train.workOf (Train.before o ++ [.observerInit] ++ ([Train.Ev.trainingStart] ++ p.2 ++ M)) = [] := by
      simp only [Train.work_append, (Train.before_outer o).2.2.2.1, g1, m1.work]
      rfl
    have k2 : Train.begunOf (Train.before o ++ [.observerInit] ++ ([Train.Ev.trainingStart] ++ p.2 ++ M)) = [] := by
      simp only [Train.begun_append, (Train.before_outer o).2.1, g4, m1.begun]
      rfl
    have k3 : Train.workOf (fin ++ [Train.Ev.observerDeinit] ++ Train.after o v) = [] := by
      simp only [Train.work_append, (Train.after_outer o v).2.2.2.1]
      rw [← hfin]; split
      · split <;> rfl
      · rfl
    have k4 : Train.begunOf (fin ++ [Train.Ev.observerDeinit] ++ Train.after o v) = [] := by
      simp only [Train.begun_append, (Train.after_outer o v).2.1]
      rw [← hfin]; split
      · split <;> rfl
      · rfl
    have k5 : Train.told cd.cur (Train.before o ++ [.observerInit] ++ ([Train.Ev.trainingStart] ++ p.2 ++ M)) = (Train.ready p.1).cur := by
      have : Train.told cd.cur (Train.before o) = cd.cur := by unfold Train.before; split <;> rfl
      rw [Train.told_append, Train.told_append, Train.told_append, Train.told_append, this]
      show Train.told (Train.told cd.cur p.2) M = _
      rw [f1.2, f2.2]
    obtain ⟨w1, p1, t1⟩ := idle_exists (vmax := vmax) _ w k1 k2
    obtain ⟨w2, p2⟩ := epochLoop_exists hd o v _ _ _ _ _ _ w1 hl' (by rw [hbs]; exact h0) rfl (by rw [plays_cur _ p1, hc, k5]) (by rw [hbs]; exact hn)
      (by rw [t1]; exact hr) (by rw [hbs, t1]; exact hp)
    obtain ⟨w3, p3, -⟩ := idle_exists (vmax := vmax) _ w2 k3 k4
    refine ⟨w3, ?_⟩
    have := (plays_append _ _ _ _).2 ⟨w2, (plays_append _ _ _ _).2 ⟨w1, p1, p2⟩, p3⟩
    simpa only [List.append_assoc] using this

/-! ### An example -/

/-- `ntr` training samples and 2 test samples with 5 features and 2 labels. -/
noncomputable def demoReal (ntr : ℕ) : TrainData.Data ℝ ℝ where
  X := fun s => match s with
    | .train => ⟨fun k => if k < ntr * 5 then (k : ℝ) / 10 else 1, ntr * 6, ntr, 6, true, false, false, false, ntr * 6⟩
    | .test => ⟨fun k => if k < 2 * 5 then 0 else 1, 2 * 6, 2, 6, true, false, false, false, 2 * 6⟩
  Y := fun s => match s with
    | .train => ⟨fun k => if k % 3 = 0 then 1 else 0, ntr * 2, ntr, 2, false, false, false, false, ntr * 2⟩
    | .test => ⟨fun _ => 0, 2 * 2, 2, 2, false, false, false, false, 2 * 2⟩

theorem demoReal_ok (ntr : ℕ) (h1 : 0 < ntr) : (demoReal ntr).Ok where
  birX := by intro s; cases s <;> rfl
  birY := by intro s; cases s <;> rfl
  widthX := by intro s; cases s <;> rfl
  widthY := by intro s; cases s <;> rfl
  posX := Nat.succ_pos 4
  posY := Nat.succ_pos 1
  count := by intro s; cases s; exacts [h1, Nat.succ_pos 1]
  same := by intro s; cases s <;> rfl
  emulX := by intro s; cases s <;> rfl
  emulY := by intro s; cases s <;> rfl
  storX := by intro s; cases s <;> exact Nat.le_refl _
  storY := by intro s; cases s <;> exact Nat.le_refl _

theorem demoReal_suits (lr : ℝ) (ntr : ℕ) (h1 : 0 < ntr) : Suits (demoReal ntr) (demoPlan lr) where
  ok := demoReal_ok ntr h1
  rowsX := rfl
  rowsY := rfl
  ones := by
    intro _ r c hr hc hb
    have hr : r < ntr := hr
    have hc : c < 6 := hc
    obtain ⟨_, hb⟩ := hb
    have hb : c + 1 = 6 := hb
    obtain rfl : c = 5 := by omega
    unfold Mtx.get
    rw [if_pos ⟨hr, hc⟩]
    show some (if r + ntr * 5 < ntr * 5 then _ else _) = _
    rw [if_neg (by omega)]
  inputs := rfl
  outputs := rfl

/-- The data object after `init4train` for 7 training samples and batches of 3. -/
theorem demoReal_prepared : ∃ t, TrainData.Reach 1000 (demoReal 7) t ∧ Prepared (demoReal 7) 3 t := by
  have h : (TrainData.init4train 1000 (TrainData.fresh (demoReal 7) (fun _ => 0) fun _ => 0) 0 3 ⟨fun _ => 0, fun _ => 0, true, true, true⟩).map
      (fun r => (r.t.maxTrain, r.t.mini)) = some (3, true) := by rfl
  cases hi : TrainData.init4train 1000 (TrainData.fresh (demoReal 7) (fun _ => 0) fun _ => 0) 0 3 ⟨fun _ => 0, fun _ => 0, true, true, true⟩ with
  | none => rw [hi] at h; simp at h
  | some r =>
    rw [hi] at h
    simp only [Option.map_some, Option.some.injEq, Prod.mk.injEq] at h
    exact ⟨r.t, (TrainData.Reach.fresh _ _).step (.train _ _ _ _ _ hi), by rw [h.1], fun e => by rw [h.2] at e; cases e⟩

theorem demoPlan_looks (lr : ℝ) : LossLooks (demoPlan lr).shape := fun a y y' h => by
  show ∑ c ∈ range 2, Act.Out.sigmXent.ideal (y c) (a c) = ∑ c ∈ range 2, Act.Out.sigmXent.ideal (y' c) (a c)
  exact sum_congr rfl fun c hc => by rw [h c (mem_range.1 hc)]

/-- C191 for the example: two epochs of two batches of three out of seven samples, with reports and callbacks in other modes. There is such a training, and it is
gradient descent. -/
example (lr : ℝ) : ∃ (tr : List Train.Ev) (cd' : Train.CD) (w w' : World (demoPlan lr)) (ords : List (ℕ → ℕ)),
    Train.train (Train.demoOpts [true, true] 0) (Train.demoEnv (fun _ => some 1) fun _ => true) ⟨7, 3, 0, false⟩ = some (cd', tr, .success) ∧
    Plays (demoPlan lr) 1000 tr w w' ∧ ords.length = 2 ∧ (∀ ord ∈ ords, Shuffled 7 3 ord) ∧
    (demoPlan lr).shape.Path (demoRates lr) (ords.flatMap (epochBatches (demoReal 7) 3)) ((demoPlan lr).weights w.net) ((demoPlan lr).weights w'.net) := by
  obtain ⟨t, ht1, ht2⟩ := demoReal_prepared
  obtain ⟨s, hs⟩ := demoPlan_state lr
  have hok := demoReal_suits lr 7 (by decide)
  have hrun : ∃ r, Train.train (Train.demoOpts [true, true] 0) (Train.demoEnv (fun _ => some 1) fun _ => true) ⟨7, 3, 0, false⟩ = some r ∧ r.2.2 = .success :=
    ⟨_, rfl, by decide⟩
  obtain ⟨⟨cd', tr, err⟩, hrun, herr⟩ := hrun
  obtain rfl : err = .success := herr
  let w : World (demoPlan lr) := ⟨t, s, 0, 0, fun _ => 0⟩
  obtain ⟨w', hw'⟩ := whole_training_exists (P := demoPlan lr) hok.ok (Train.demo_starts _ _) hrun (by decide) (fun _ _ _ => rfl) (w := w) rfl ht1 ht2
  have := successful_training_is_gradient_descent (demoPlan_ok lr) (demoPlan_plain lr) (demoPlan_looks lr) hok (Train.demo_starts _ _) hrun (fun _ => rfl)
    (show 3 ≤ 4 by decide) (w := w) rfl ht1 hs (fun bs W _ _ k _ => demoPlan_regular lr 1 (fun _ => feature _ k) (fun _ => label _ k) W 0 (by decide)) hw'
  obtain ⟨ords, h1, h2, h3⟩ := this
  exact ⟨tr, cd', w, w', ords, hrun, hw', h1, h2, h3⟩

end Nntl.Sgd
