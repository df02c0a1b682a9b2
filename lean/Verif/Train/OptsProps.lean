import Verif.Train.Spec
import Verif.TrainData.InitProps
/-! Property theorems C27 (condition vector), C28 (batch sizes in the options), C66 and C67 (sizes of a training session). -/
namespace Nntl.Train

/-! ### C27: the condition vector -/

theorem setLoop_spec (stop stride : Int) (v : Bool) (hs : 0 < stride) (l : List Bool) (i : Int) (hi : 0 ≤ i) (hl : stop ≤ l.length) :
    ∃ l', setLoop l i stop stride v hs = some l' ∧ l'.length = l.length ∧
      ∀ j, j < l.length → l'[j]? = if i ≤ j ∧ (j : Int) < stop ∧ ((j : Int) - i) % stride = 0 then some v else l[j]? := by
  induction hm : (stop - i).toNat using Nat.strongRecOn generalizing l i with
  | _ m ih =>
    unfold setLoop
    by_cases h : i < stop
    · rw [dif_pos h]
      unfold setFlag
      rw [if_pos ⟨hi, by omega⟩]
      dsimp only
      obtain ⟨l', h1, h2, h3⟩ := ih (stop - (i + stride)).toNat (by omega) (l.set i.toNat v) (i + stride) (by omega)
        (by rw [List.length_set]; exact hl) rfl
      refine ⟨l', h1, by rw [h2, List.length_set], ?_⟩
      intro j hj
      rw [h3 j (by rw [List.length_set]; exact hj)]
      have hmod : ((j : Int) - (i + stride)) % stride = ((j : Int) - i) % stride := by
        rw [show (j : Int) - (i + stride) = (j - i) - stride by omega, Int.sub_emod_right]
      rw [hmod]
      by_cases hji : (j : Int) = i
      · rw [if_neg (by omega), if_pos ⟨by omega, by omega, by rw [hji, Int.sub_self, Int.zero_emod]⟩]
        have : i.toNat = j := by omega
        rw [this, List.getElem?_set_self hj]
      · have hset : (l.set i.toNat v)[j]? = l[j]? := List.getElem?_set_ne (by omega)
        rw [hset]
        by_cases hlt : (j : Int) < i + stride
        · -- strictly between two marks
          rw [if_neg (by omega), if_neg]
          rintro ⟨g1, g2, g3⟩
          have : ((j : Int) - i) % stride = j - i := Int.emod_eq_of_lt (by omega) (by omega)
          omega
        · have e1 : (i + stride ≤ (j : Int)) = True := by simp; omega
          have e2 : (i ≤ (j : Int)) = True := by simp; omega
          simp only [e1, e2, true_and]
    · rw [dif_neg h]
      refine ⟨l, rfl, rfl, fun j hj => ?_⟩
      rw [if_neg (by omega)]

/-- **C27 (start and stride).** `vector_conditions(maxEpoch, startsAt, stride)` with `startsAt ≥ 1` and `stride ≥ 1` flags exactly the
epochs number `startsAt`, `startsAt+stride`, ... (counted from one) and the last one. -/
theorem flagsFrom_spec (maxEpoch : Nat) (startsAt stride : Int) (h1 : 1 ≤ startsAt) (h2 : 1 ≤ stride) (h3 : 0 < maxEpoch) :
    ∃ l, flagsFrom maxEpoch startsAt stride = some l ∧ l.length = maxEpoch ∧ ∀ e, e < maxEpoch →
      (l[e]? = some true ↔ (startsAt ≤ e + 1 ∧ ((e : Int) + 1 - startsAt) % stride = 0) ∨ e + 1 = maxEpoch) ∧ l[e]?.isSome := by
  unfold flagsFrom setFlags
  rw [dif_pos (by omega : 0 < stride)]
  obtain ⟨l', e1, e2, e3⟩ := setLoop_spec maxEpoch stride true (by omega) (List.replicate maxEpoch false) (startsAt - 1) (by omega)
    (by rw [List.length_replicate]; exact Int.le_refl _)
  rw [e1, Option.bind_some]
  rw [List.length_replicate] at e2 e3
  unfold setFlag
  rw [if_pos (by omega)]
  have hn : ((maxEpoch : Int) - 1).toNat = maxEpoch - 1 := by omega
  refine ⟨_, rfl, by rw [List.length_set, e2], fun e he => ?_⟩
  rw [hn]
  by_cases hlast : e + 1 = maxEpoch
  · have : maxEpoch - 1 = e := by omega
    rw [this, List.getElem?_set_self (by omega)]
    simp [hlast]
  · rw [List.getElem?_set_ne (by omega), e3 e he, List.getElem?_replicate, if_pos he]
    rw [show (e : Int) - (startsAt - 1) = e + 1 - startsAt by omega]
    split
    · rename_i hc; exact ⟨⟨fun _ => Or.inl ⟨by omega, hc.2.2⟩, fun _ => rfl⟩, rfl⟩
    · rename_i hc
      refine ⟨⟨fun h => by simp at h, fun h => ?_⟩, rfl⟩
      rcases h with h | h
      · exact absurd ⟨by omega, by omega, h.2⟩ hc
      · exact absurd h hlast

/-- **C27 (stride).** `vector_conditions(maxEpoch, stride)` flags exactly every `stride`-th epoch and the last one. -/
theorem flagsStride_spec (maxEpoch : Nat) (stride : Int) (h2 : 1 ≤ stride) (h3 : 0 < maxEpoch) :
    ∃ l, flagsStride maxEpoch stride = some l ∧ l.length = maxEpoch ∧ ∀ e, e < maxEpoch →
      (l[e]? = some true ↔ ((e : Int) + 1) % stride = 0 ∨ e + 1 = maxEpoch) ∧ l[e]?.isSome := by
  obtain ⟨l, h4, h5, h6⟩ := flagsFrom_spec maxEpoch stride stride h2 h2 h3
  refine ⟨l, h4, h5, fun e he => ?_⟩
  obtain ⟨g1, g2⟩ := h6 e he
  refine ⟨g1.trans ?_, g2⟩
  rw [Int.sub_emod_right]
  constructor
  · rintro (h | h)
    · exact Or.inl h.2
    · exact Or.inr h
  · rintro (h | h)
    · refine Or.inl ⟨?_, h⟩
      by_cases hlt : (e : Int) + 1 < stride
      · rw [Int.emod_eq_of_lt (by omega) hlt] at h; omega
      · omega
    · exact Or.inr h

/-- **C27 (default value).** `vector_conditions(maxEpoch, defVal)`: all epochs have the default value, the last one is flagged. -/
theorem flagsDefault_spec (maxEpoch : Nat) (d : Bool) (h3 : 0 < maxEpoch) :
    ∃ l, flagsDefault maxEpoch d = some l ∧ l.length = maxEpoch ∧ ∀ e, e < maxEpoch →
      l[e]? = some (d || decide (e + 1 = maxEpoch)) := by
  unfold flagsDefault setFlag
  rw [if_pos (by rw [List.length_replicate]; omega)]
  have hn : ((maxEpoch : Int) - 1).toNat = maxEpoch - 1 := by omega
  refine ⟨_, rfl, by rw [List.length_set, List.length_replicate], fun e he => ?_⟩
  rw [hn]
  by_cases hlast : e + 1 = maxEpoch
  · have : maxEpoch - 1 = e := by omega
    rw [this, List.getElem?_set_self (by rw [List.length_replicate]; exact he)]
    simp [hlast]
  · rw [List.getElem?_set_ne (by omega), List.getElem?_replicate, if_pos he]
    simp [hlast]

theorem flagsFrom_7_2_3 : flagsFrom 7 2 3 = some [false, true, false, false, true, false, true] := by
  simp [flagsFrom, setFlags, setLoop, setFlag, List.replicate]
theorem flagsStride_7_3 : flagsStride 7 3 = some [false, false, true, false, false, true, true] := by
  simp [flagsStride, setFlags, setLoop, setFlag, List.replicate]

/-- A start of 0, which the constructor's own check lets pass, makes it write in front of the vector. -/
theorem flagsFrom_zero_start (maxEpoch : Nat) (stride : Int) : flagsFrom maxEpoch 0 stride = none := by
  unfold flagsFrom setFlags
  split
  · unfold setLoop
    rw [dif_pos (by omega)]
    unfold setFlag
    rw [if_neg (by omega)]
    rfl
  · rfl

/-! ### C28 -/

/-- A call of one of the two setters. -/
inductive SizeCall where
  | batch (val : Int)
  | maxFprop (val : Int)

def SizeCall.run (s : Sizes) : SizeCall → Option Sizes
  | .batch v => s.setBatch v
  | .maxFprop v => s.setMaxFprop v

/-- **C28.** After any series of accepted calls the sizes are not negative and the inference size is zero or not below the batch
size. (A call that is not accepted terminates the program.) -/
theorem sizes_consistent (calls : List SizeCall) (s : Sizes) (h : calls.foldlM SizeCall.run Sizes.init = some s) :
    0 ≤ s.batch ∧ 0 ≤ s.maxFprop ∧ (s.maxFprop = 0 ∨ s.batch ≤ s.maxFprop) := by
  have key : ∀ (calls : List SizeCall) (s0 s : Sizes), (0 ≤ s0.batch ∧ 0 ≤ s0.maxFprop ∧ (s0.maxFprop = 0 ∨ s0.batch ≤ s0.maxFprop)) →
      calls.foldlM SizeCall.run s0 = some s → 0 ≤ s.batch ∧ 0 ≤ s.maxFprop ∧ (s.maxFprop = 0 ∨ s.batch ≤ s.maxFprop) := by
    intro calls
    induction calls with
    | nil => intro s0 s h0 h; simp only [List.foldlM_nil] at h; cases h; exact h0
    | cons c rest ih =>
      intro s0 s h0 h
      rw [List.foldlM_cons] at h
      cases hc : SizeCall.run s0 c with
      | none => rw [hc] at h; cases h
      | some s1 =>
        rw [hc] at h
        refine ih s1 s ?_ h
        cases c with
        | batch v =>
          simp only [SizeCall.run, Sizes.setBatch] at hc
          split at hc
          · simp at hc
          · simp only [Option.some.injEq] at hc; subst hc; dsimp only; omega
        | maxFprop v =>
          simp only [SizeCall.run, Sizes.setMaxFprop] at hc
          split at hc
          · simp at hc
          · simp only [Option.some.injEq] at hc; subst hc; dsimp only; omega
  exact key calls _ s ⟨by decide, by decide, by decide⟩ h

/-- **C28 (what is accepted).** A setter accepts exactly the values its documentation allows and then changes its own value only. -/
theorem size_setters (s : Sizes) (h : 0 ≤ s.batch ∧ 0 ≤ s.maxFprop) (v : Int) :
    (s.setBatch v = if 0 ≤ v ∧ (s.maxFprop = 0 ∨ v ≤ s.maxFprop) then some ⟨v, s.maxFprop⟩ else none) ∧
    (s.setMaxFprop v = if v = 0 ∨ (0 < v ∧ 0 < s.batch ∧ s.batch ≤ v) then some ⟨s.batch, v⟩ else none) := by
  unfold Sizes.setBatch Sizes.setMaxFprop
  constructor
  · by_cases hc : 0 ≤ v ∧ (s.maxFprop = 0 ∨ v ≤ s.maxFprop)
    · rw [if_pos hc, if_neg (by omega)]
    · rw [if_neg hc, if_pos (by omega)]
  · by_cases hc : v = 0 ∨ (0 < v ∧ 0 < s.batch ∧ s.batch ≤ v)
    · rw [if_pos hc, if_neg (by omega)]
    · rw [if_neg hc, if_pos (by omega)]

example : [SizeCall.batch 10, .maxFprop 100, .batch 50].foldlM SizeCall.run Sizes.init = some ⟨50, 100⟩ := by decide
example : [SizeCall.batch 10, .maxFprop 100, .batch 101].foldlM SizeCall.run Sizes.init = none := by decide

/-- Consistent options are not always usable: batch size 0 stands for the whole training set, which may be bigger than the inference
size that was accepted before. -/
theorem accepted_sizes_may_not_initialise : ∃ (s : Sizes) (d : TrainData.Data Nat Nat) (t : TrainData.TD Nat Nat) (r : TrainData.InitRes Nat Nat),
    [SizeCall.batch 2, .maxFprop 3, .batch 0].foldlM SizeCall.run Sizes.init = some s ∧ d.Ok ∧ TrainData.Reach 1000 d t ∧
    TrainData.init4train 1000 t s.maxFprop.toNat s.batch.toNat TrainData.demoEnv = some r ∧ r.err = .invalidBatchSize2MaxFPropSizeRelation := by
  refine ⟨⟨0, 3⟩, TrainData.demoData 7 4, TrainData.demoFresh 7 4, _, rfl, TrainData.demoData_ok 7 4 (by omega) (by omega), .fresh _ _, rfl, ?_⟩
  decide

/-! ### C66: a negative answer of `is_initialized4train` -/

open TrainData in
/-- **C66 (partial).** When `is_initialized4train` answers no, its arguments are left as they were, provided that the inference size was
given explicitly. Missing: an inference size of 0, see `negative_answer_changes_argument`. -/
theorem negative_answer_keeps_arguments_partial {α β : Type} (t : TD α β) (fb tb : Nat) (hf : fb ≠ 0) (h : isInit4train t fb tb = none) :
    isInit4trainArgs t fb tb = (fb, tb) := by
  unfold isInit4trainArgs
  rw [h]
  unfold isInit4inference
  simp only [hf, ne_eq, not_false_eq_true, if_true]
  split
  · rfl
  · split <;> rfl

open TrainData in
/-- A positive answer replaces only zeros. -/
theorem positive_answer_arguments {α β : Type} (t : TD α β) (fb tb : Nat) (h : (isInit4train t fb tb).isSome) :
    isInit4trainArgs t fb tb = (if fb = 0 then t.maxFProp else fb, if tb = 0 then t.maxTrain else tb) := by
  unfold isInit4trainArgs
  cases hi : isInit4train t fb tb with
  | none => rw [hi] at h; simp at h
  | some q =>
    obtain ⟨f, b, m⟩ := q
    unfold isInit4train at hi
    cases hj : isInit4inference t fb with
    | none => rw [hj] at hi; simp at hi
    | some f' =>
      rw [hj] at hi
      dsimp only at hi
      generalize hT : (if tb ≠ 0 then tb else t.maxTrain) = T at hi
      split at hi
      · simp at hi
      · simp only [Option.some.injEq, Prod.mk.injEq] at hi
        obtain ⟨rfl, rfl, -⟩ := hi
        subst hT
        unfold isInit4inference at hj
        dsimp only at hj
        generalize hF : (if fb ≠ 0 then fb else t.maxFProp) = F at hj
        split at hj
        · simp at hj
        · split at hj
          · simp at hj
          · simp only [Option.some.injEq] at hj
            subst hj
            subst hF
            by_cases h1 : fb = 0 <;> by_cases h2 : tb = 0 <;> simp [h1, h2]

open TrainData in
/-- **C66 is false of the code**: an object initialised for inference with batches of 3 is asked whether it is initialised for
training with default sizes; it answers no, and the inference size argument has become 3. -/
theorem negative_answer_changes_argument : ∃ (d : Data Nat Nat) (t : TD Nat Nat), d.Ok ∧ Reach 1000 d t ∧
    isInit4train t 0 0 = none ∧ isInit4trainArgs t 0 0 = (3, 0) := by
  cases h : init4inference 1000 (demoFresh 7 4) 3 demoEnv with
  | none => exact absurd h (by decide)
  | some r =>
    refine ⟨demoData 7 4, r.t, demoData_ok 7 4 (by omega) (by omega), (Reach.fresh _ _).step (.inference _ _ _ _ h), ?_, ?_⟩
    · have : (init4inference 1000 (demoFresh 7 4) 3 demoEnv).map (fun r => isInit4train r.t 0 0) = some none := by decide
      rw [h] at this; simpa using this
    · have : (init4inference 1000 (demoFresh 7 4) 3 demoEnv).map (fun r => isInit4trainArgs r.t 0 0) = some (3, 0) := by decide
      rw [h] at this; simpa using this

/-! ### C67: batch size of a training session -/

section
open TrainData
variable {α β : Type} [OfNat α 1] [OfNat β 1]

/-- **C67 (partial).** After a successful initialisation of a session the network can process the announced batches, and, unless it
was left initialised for bigger ones, its training batch size is the announced one. Missing: a network left initialised by an earlier
session, see `second_session_uses_old_batch_size`. -/
theorem session_sizes_partial {vmax : Nat} {n n' : Net} {td td' : TD α β} {maxF maxB f b : Nat} {force : Bool} {e : AllocEnv α β}
    {mathErr full : Err} (h : n.init4train vmax td maxF maxB force e mathErr full = some (n', td', f, b, .success)) :
    f ≤ n'.cd.maxFprop ∧ b ≤ n'.cd.trainBs ∧
    ((n.cd.maxFprop = 0 ∨ n.requireReinit = true ∨ n.cd.maxFprop < f ∨ n.cd.trainBs ≤ b) → n'.cd.trainBs = b) := by
  unfold Net.init4train at h
  dsimp only at h
  have key : ∀ (F B : Nat) (T : TD α β), (if n.isInitialized F B = true then (n, T, F, B, mathErr) else
      ((n.deinit.fullInit F B full).1, T, F, B, (n.deinit.fullInit F B full).2)) = (n', td', f, b, Err.success) →
      f ≤ n'.cd.maxFprop ∧ b ≤ n'.cd.trainBs ∧
      ((n.cd.maxFprop = 0 ∨ n.requireReinit = true ∨ n.cd.maxFprop < f ∨ n.cd.trainBs ≤ b) → n'.cd.trainBs = b) := by
    intro F B T hk
    split at hk
    · rename_i hi
      simp only [Prod.mk.injEq] at hk
      obtain ⟨rfl, -, rfl, rfl, -⟩ := hk
      simp only [Net.isInitialized, Bool.and_eq_true, decide_eq_true_eq, Bool.not_eq_true'] at hi
      obtain ⟨⟨⟨i1, i2⟩, i3⟩, i4⟩ := hi
      refine ⟨i3, i4, ?_⟩
      rintro (h | h | h | h)
      · omega
      · rw [i1] at h; exact absurd h (by decide)
      · omega
      · omega
    · simp only [Prod.mk.injEq] at hk
      obtain ⟨rfl, -, rfl, rfl, hs⟩ := hk
      unfold Net.fullInit at hs ⊢
      split at hs
      · rename_i hfull
        rw [if_pos hfull]
        exact ⟨Nat.le_refl _, Nat.le_refl _, fun _ => rfl⟩
      · rename_i hfull; exact absurd hs hfull
  cases hi : (if force = true then none else isInit4train td maxF maxB) with
  | some q =>
    obtain ⟨q1, q2, q3⟩ := q
    rw [hi] at h
    exact key _ _ _ (Option.some.inj h)
  | none =>
    rw [hi] at h
    dsimp only at h
    cases hr : TrainData.init4train vmax td (if force = true then (maxF, maxB) else isInit4trainArgs td maxF maxB).1
        (if force = true then (maxF, maxB) else isInit4trainArgs td maxF maxB).2 e with
    | none => rw [hr] at h; simp at h
    | some r =>
      rw [hr] at h
      dsimp only at h
      split at h
      · exact key _ _ _ (Option.some.inj h)
      · simp at h
end

/-- A network that has just been constructed. -/
def freshNet : Net := ⟨⟨0, 0, 0, false⟩, false⟩

open TrainData in
example : (freshNet.init4train 1000 (demoFresh 7 4) 0 3 true demoEnv .success .success).map
    (fun r => (r.1.cd.trainBs, r.1.cd.maxFprop, r.2.2)) = some (3, 7, 7, 3, .success) := by decide

open TrainData in
/-- **C67 (failed initialisation).** When preparing a session fails, the network is either as before or not initialised for any
sizes, so that the next attempt initialises it completely; it is never left half-initialised. -/
theorem failed_session_init {α β : Type} [OfNat α 1] [OfNat β 1] {vmax : Nat} {n n' : Net} {td td' : TD α β} {maxF maxB f b : Nat} {force : Bool} {e : AllocEnv α β}
    {mathErr full err : Err} (h : n.init4train vmax td maxF maxB force e mathErr full = some (n', td', f, b, err))
    (herr : err ≠ .success) : n' = n ∨ ∀ F B, n'.isInitialized F B = false := by
  unfold Net.init4train at h
  dsimp only at h
  have key : ∀ (F B : Nat) (T : TD α β), (if n.isInitialized F B = true then (n, T, F, B, mathErr) else
      ((n.deinit.fullInit F B full).1, T, F, B, (n.deinit.fullInit F B full).2)) = (n', td', f, b, err) →
      n' = n ∨ ∀ F B, n'.isInitialized F B = false := by
    intro F B T hk
    split at hk
    · simp only [Prod.mk.injEq] at hk
      exact Or.inl hk.1.symm
    · simp only [Prod.mk.injEq] at hk
      obtain ⟨h1, -, -, -, h2⟩ := hk
      right
      unfold Net.fullInit at h1 h2
      dsimp only at h1 h2
      split at h1
      · rename_i hf
        rw [if_pos hf] at h2
        exact absurd h2.symm herr
      · intro F B
        rw [← h1]
        simp [Net.isInitialized, Net.deinit]
  split at h
  · exact key _ _ _ (Option.some.inj h)
  · split at h
    · cases h
    · split at h
      · exact key _ _ _ (Option.some.inj h)
      · have := Option.some.inj h
        simp only [Prod.mk.injEq] at this
        exact Or.inl this.1.symm

open TrainData in
/-- The hypotheses can be met: the layers of an initialised network fail to initialise for a bigger batch. -/
example : ∃ (n' : Net) (td' : TD Nat Nat) (f b : Nat), Net.init4train 1000 { freshNet with cd := { freshNet.cd with maxFprop := 2, trainBs := 2 } }
    (demoFresh 7 4) 0 3 true demoEnv .success (.other 5) = some (n', td', f, b, .other 5) :=
  ⟨_, _, _, _, rfl⟩

open TrainData in
/-- **C67 is false of the code**: a first session with batch size 3, then, with default options (no deinitialisation, the training data
object initialised anew), a second one with batch size 2. The second one is announced to run with 2, the network keeps 3, and starting
an epoch with the network's size violates the conditions of `on_next_epoch`. -/
theorem second_session_uses_old_batch_size : ∃ (d : Data Nat Nat) (t t1 t2 : TD Nat Nat) (n1 n2 : Net) (f1 f2 : Nat), d.Ok ∧ Reach 1000 d t ∧
    freshNet.init4train 1000 t 0 3 true demoEnv .success .success = some (n1, t1, f1, 3, .success) ∧
    n1.init4train 1000 t1 0 2 true demoEnv .success .success = some (n2, t2, f2, 2, .success) ∧
    n2.cd.trainBs = 3 ∧ (ready n2.cd).cur = 3 ∧ t2.maxTrain = 2 ∧ ∀ shuffle, onNextEpoch t2 (ready n2.cd).cur 0 shuffle = none := by
  refine ⟨demoData 7 4, demoFresh 7 4, _, _, _, _, _, _, demoData_ok 7 4 (by omega) (by omega), .fresh _ _, rfl, rfl, ?_, ?_, ?_, ?_⟩
  · decide
  · decide
  · decide
  · intro shuffle; rfl

end Nntl.Train
