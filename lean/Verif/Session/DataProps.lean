import Verif.Session.Props
import Verif.TrainData.InitProps
import Verif.Train.OptsProps
/-! Property theorems C142: batches delivered by a training data object fit the network it was initialised together with. -/
namespace Nntl.Session
open Nntl.TrainData Nntl.Matrix
open Nntl.Train (CD Net)

variable {α β : Type} [OfNat α 1] [OfNat β 1]

/-- Rows of the batches of a whole walk over a set with the default batch size (`walk_over_set(id, cd)` then `next_subset(i, cd)`),
which is how `calcLossAndReport` (nnet.h:280-285) and users of `doFixedBatchFprop` (nnet.h:709) go over the data, are at most `m`. -/
def WalksWithin (t : TD α β) (m : Nat) : Prop :=
  ∀ (s : SetId) (cd n : Nat) (exclX exclY : Bool) (t1 : TD α β) (run : Nat → TD α β),
    walkOverSet t s cd (-1) exclX exclY = some (t1, n) → run 0 = t1 → SubsetRun run n →
    ∀ i, i < n → ∀ x, batchX (run (i + 1)) = some x → 0 < x.batchSize ∧ x.batchSize ≤ m

theorem walks_within {vmax : Nat} {d : Data α β} (hd : d.Ok) {t : TD α β} (hr : Reach vmax d t) {m : Nat} (h : t.maxFProp ≤ m) :
    WalksWithin t m := by
  intro s cd n exclX exclY t1 run hw h0 hrun i hi x hx
  obtain ⟨b0, b, hb0, he, hb, hn, hv⟩ := walk_starts hd hr hw run h0 hrun
  obtain ⟨v1, v2, -⟩ := hv i hi
  have := (v2 x hx).1
  have he : (b0 : Int) = t.maxFProp := by rw [he]; rfl
  rw [Nat.add_mul] at this v1
  omega

theorem isInit_size {t : TD α β} {bs b : Nat} (h : isInit4inference t bs = some b) : b = if bs = 0 then t.maxFProp else bs := by
  unfold isInit4inference at h
  by_cases h0 : bs = 0 <;> simp only [h0, ne_eq, not_true, not_false_eq_true, if_true, if_false] at h ⊢ <;>
    (split at h
     · exact nomatch h
     · split at h
       · exact nomatch h
       · exact (Option.some.inj h).symm)

/-- What `init4fixedBatchFprop(td, bs)` asks of the data object `t` (nnet.h:692-695), in the terms of `St.initFixedTd`: the answer of
`is_initialized4inference`, the outcome of `init4inference`, and the data object afterwards. `none`: the program is terminated. -/
def tdForFixed (vmax : Nat) (t : TD α β) (bs : Nat) (e : AllocEnv α β) : Option (Option Nat × Except Nat Nat × TD α β) :=
  match isInit4inference t bs with
  | some b => some (some b, .error 0, t)
  | none =>
    match init4inference vmax t bs e with
    | none => none
    | some r => some (none, if r.err = .success then .ok r.maxFProp else .error 1, r.t)

/-- **C142 (partial), inference.** If the data object was not initialised for inference before, or was for exactly the size asked for, a
successful `init4fixedBatchFprop(td, bs)` leaves a network ready for all batches of walks over the data. Missing: a data object left
initialised for bigger batches, see `walk_overflows_network`. -/
theorem fixed_walk_fits_partial {vmax : Nat} {d : Data α β} (hd : d.Ok) {t t' : TD α β} (hr : Reach vmax d t) {bs : Nat}
    {e : AllocEnv α β} {ready : Option Nat} {made : Except Nat Nat} (ht : tdForFixed vmax t bs e = some (ready, made, t'))
    {h : List (Call × List Fwd × Code)} {s s' : St} (hh : History St.fresh h s) {need : Nat} {o : Outcome} {ok : Bool}
    (hc : s.call (.initFixedTd ready made need o ok) = some (s', [], .success))
    (hfresh : isInit4inference t bs = none ∨ bs = t.maxFProp ∨ bs = 0) :
    WalksWithin t' s'.cap := by
  have hI := history_inv hh inv_fresh
  have hI' := (call_inv hI hc).1
  unfold tdForFixed at ht
  split at ht
  · rename_i b hb
    cases ht
    have hp := promise_holds hI hc (n := b) rfl
    have hbt : b = t.maxFProp := by
      rcases hfresh with h | h | h
      · rw [h] at hb; exact nomatch hb
      · have := isInit_size hb
        split at this <;> omega
      · have := isInit_size hb
        rw [if_pos h] at this
        exact this
    refine walks_within hd hr ?_
    rw [hI'.cap, ← hbt]
    exact hp.2.2.2
  · split at ht
    · cases ht
    · rename_i r hres
      simp only [Option.some.injEq, Prod.mk.injEq] at ht
      obtain ⟨rfl, rfl, rfl⟩ := ht
      split at hc
      · rename_i hs
        have hp := promise_holds hI hc (n := r.maxFProp) rfl
        refine walks_within hd (.step hr (.inference _ _ _ _ hres)) ?_
        have : r.t.maxFProp = r.maxFProp := by
          rcases init4inference_cases hres with ⟨-, h2⟩ | ⟨mF, b, -, h2, -, h4⟩
          · rw [hs] at h2; exact nomatch h2
          · obtain ⟨bx, bY, ht, -⟩ := initBatches_spec rfl rfl h4
            rw [h2, ht]
        rw [hI'.cap, this]
        exact hp.2.2.2
      · exfalso
        simp only [St.call, St.initFixedTd, Option.map_some, Option.some.injEq, Prod.mk.injEq] at hc
        exact absurd hc.2.2 (by simp)

/-- **C142, training.** `train()` that initialises its data object (the default) leaves a network ready for all batches of walks over
the data: for the reports made during the training and for evaluations made afterwards. -/
theorem train_walk_fits {vmax : Nat} {d : Data α β} (hd : d.Ok) {t : TD α β} (hr : Reach vmax d t) {maxF maxB : Nat}
    {e : AllocEnv α β} {res : InitRes α β} (ht : init4train vmax t maxF maxB e = some res) (hs : res.err = .success)
    {h : List (Call × List Fwd × Code)} {s s' : St} (hh : History St.fresh h s) {x : Session} (hx : x.td = .ok (res.maxFProp, res.maxBatch))
    (hk : x.immediatelyDeinit = false) {l : List Fwd} {c : Code} (hc : s.call (.train x) = some (s', l, c))
    (hcc : c = .success ∨ c = .diverged) : WalksWithin res.t s'.cap := by
  have hI := history_inv hh inv_fresh
  have hI' := (call_inv hI hc).1
  refine walks_within hd (.step hr (.train _ _ _ _ _ ht)) ?_
  have hm := (init4train_success hd (reach_inv hd hr).2 ht hs).2.2.2.2.2.2.2.2.2.1
  simp only [St.call, St.train, hk, Option.map_eq_some_iff, Bool.false_eq_true, if_false] at hc
  obtain ⟨⟨s1, p⟩, h1, h2⟩ := hc
  cases h2
  obtain ⟨-, -, -, h3⟩ := trainBody_facts hI h1
  rcases h3 with ⟨e, h3, -⟩ | ⟨f, b, h3, -, -, hR⟩
  · rw [hx] at h3; exact nomatch h3
  · rw [hx] at h3
    cases h3
    rw [hm, hI'.cap]
    cases hR with
    | kept a1 a2 =>
      rw [a2]
      unfold Net.isInitialized at a1
      simp only [Bool.and_eq_true, decide_eq_true_eq] at a1
      omega
    | anew _ a2 => rw [(a2 hcc).1]; exact Nat.le_refl _

/-- **C142 is false of the code as stated.** A data object initialised for training with batches of four, then
`init4fixedBatchFprop(td, 2)`: the call succeeds, since the data object says that it is ready for two rows, and the network is made for two
rows; but a walk with the default batch size gives four rows, which the network does not accept. -/
theorem walk_overflows_network :
    ∃ (t t1 : TD Nat Nat) (n : Nat) (run : Nat → TD Nat Nat) (x : Mtx Nat) (s : St), Reach 1000 (demoData 7 4) t ∧
      tdForFixed 1000 t 2 demoEnv = some (some 2, .error 0, t) ∧
      History St.fresh [(.initFixedTd (some 2) (.error 0) 0 ⟨none, 0, true, true⟩ true, [], .success)] s ∧
      walkOverSet t .train 2 (-1) false false = some (t1, n) ∧ run 0 = t1 ∧ SubsetRun run n ∧
      batchX (run 1) = some x ∧ x.batchSize = 4 ∧ s.call (.doFixed x.batchSize) = none := by
  have hok := demoData_ok 7 4 (by omega) (by omega)
  have hr := demoTrain_reach 7 4 4 3
  cases hw : walkOverSet (demoTrain 7 4 4 3) .train 2 (-1) false false with
  | none => exact absurd hw (by decide)
  | some q =>
    obtain ⟨t1, n⟩ := q
    obtain ⟨run, h0, hrun⟩ := walk_run_exists hok hr hw
    have hn : n = 2 := by
      have h : (walkOverSet (demoTrain 7 4 4 3) .train 2 (-1) false false).map (·.2) = some 2 := by decide
      rw [hw] at h
      exact Option.some.inj h
    subst hn
    have hpx : t1.px = .batch := by
      have h : (walkOverSet (demoTrain 7 4 4 3) .train 2 (-1) false false).map (·.1.px) = some .batch := by decide
      rw [hw] at h
      exact Option.some.inj h
    have hI : TrainData.Inv (run 0) := by rw [h0]; exact (inv_walk (reach_inv hok hr).1 hw).1
    have hp := (subsetRun_frame hI hrun 1 (by omega)).2.2.2.2.1
    rw [h0, hpx] at hp
    obtain ⟨b0, b, hb0, he, hb, -, hv⟩ := walk_starts hok hr hw run h0 hrun
    have hb4 : b = 4 := by
      have : (b0 : Int) = 4 := by rw [he]; decide
      have hc : (demoData 7 4).count .train = 7 := rfl
      omega
    have hx : batchX (run 1) = some (run 1).bx := by unfold batchX; rw [hp]
    have h4 : (run 1).bx.batchSize = 4 := by
      have := ((hv 0 (by omega)).2.1 _ hx).1
      have hc : (demoData 7 4).count .train = 7 := rfl
      rw [hb4] at this
      omega
    refine ⟨demoTrain 7 4 4 3, t1, 2, run, (run 1).bx, _, hr, ?_, .cons rfl (.nil _), hw, h0, hrun, hx, h4, ?_⟩
    · have h : isInit4inference (demoTrain 7 4 4 3) 2 = some 2 := by decide
      unfold tdForFixed
      rw [h]
    · rw [h4]; rfl

/-- The hypotheses are met: seven training samples, batches of two for inference; a session with batches of three. -/
example : ∃ (t' : TD Nat Nat) (s : St), tdForFixed 1000 (demoFresh 7 4) 2 demoEnv = some (none, .ok 2, t') ∧
    History St.fresh [(.initFixedTd none (.ok 2) 0 ⟨none, 0, true, true⟩ true, [], .success)] s ∧ s.cap = 2 ∧ WalksWithin t' s.cap ∧
    (walkOverSet t' .train 2 (-1) false false).map (·.2) = some 3 := by
  have ht : ∃ t', tdForFixed 1000 (demoFresh 7 4) 2 demoEnv = some (none, .ok 2, t') := ⟨_, rfl⟩
  obtain ⟨t', ht⟩ := ht
  have hw : (tdForFixed 1000 (demoFresh 7 4) 2 demoEnv).bind (fun p => (walkOverSet p.2.2 .train 2 (-1) false false).map (·.2)) = some 3 := by
    decide
  rw [ht] at hw
  refine ⟨t', _, ht, .cons rfl (.nil _), rfl, ?_, hw⟩
  exact fixed_walk_fits_partial (demoData_ok 7 4 (by omega) (by omega)) (.fresh _ _) ht (.nil _)
    (need := 0) (o := ⟨none, 0, true, true⟩) (ok := true) rfl (.inl (by decide))

example : ∃ (res : InitRes Nat Nat) (s : St) (l : List Fwd) (x : Session), init4train 1000 (demoFresh 7 4) 4 3 demoEnv = some res ∧
    x.td = .ok (res.maxFProp, res.maxBatch) ∧ St.fresh.call (.train x) = some (s, l, .success) ∧ s.cap = 4 ∧ l.length = 5 ∧
    WalksWithin res.t s.cap := by
  have hi : ∃ res, init4train 1000 (demoFresh 7 4) 4 3 demoEnv = some res ∧ res.err = .success ∧ (res.maxFProp, res.maxBatch) = (4, 3) :=
    ⟨_, rfl, rfl, rfl⟩
  obtain ⟨res, h1, h2, h3⟩ := hi
  refine ⟨res, _, _, ⟨.ok (4, 3), 0, ⟨none, 0, true, true⟩, .success, true, [4], [(2, [4, 3], false)], false, false⟩, h1, by rw [h3], rfl,
    rfl, rfl, ?_⟩
  exact train_walk_fits (demoData_ok 7 4 (by omega) (by omega)) (.fresh _ _) h1 h2 (.nil _)
    (x := ⟨.ok (4, 3), 0, ⟨none, 0, true, true⟩, .success, true, [4], [(2, [4, 3], false)], false, false⟩) (by rw [h3]) rfl rfl (.inl rfl)

end Nntl.Session
