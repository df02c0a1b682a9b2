import Verif.Ttd.Init
/-! Concrete runs for C148-C151, and what happens if the transformer's count of base samples is not the number of stored rows. -/
namespace Nntl.Ttd

/-- 10 and 5 base samples standing for 3 samples each. -/
def demo : Src := { sibs := 3, base := fun s => if s then 10 else 5, rows := fun s => if s then 10 else 5, ok := true }

theorem demo_fits : demo.Fits := ⟨by decide, by intro s; cases s <;> decide⟩

/-- The demo after the initialisation for training with sizes 12 and 9. -/
def demoT : TT Nat := (init4train demo fresh 12 9 true true).t

theorem demo_reach : Reach demo demoT := .step .fresh (.train _ _ _ _ _)

example : (init4train demo (fresh : TT Nat) 12 9 true true).err = .success ∧ (init4train demo (fresh : TT Nat) 12 9 true true).mini = some true := by
  decide

/-- An epoch of three batches of 3 base samples in reverse order; one sample is left out. -/
example : ((onNextEpoch demo demoT 0 (-1) List.reverse).bind fun r =>
    (onNextBatch r.1 0).bind fun a => (onNextBatch r.1 1).bind fun b => (onNextBatch r.1 2).map fun c => (r.2.1, a, b, c))
    = some (3, [.nextBatch 0 [9, 8, 7]], [.nextBatch 1 [6, 5, 4]], [.nextBatch 2 [3, 2, 1]]) := by decide

example : ∀ l : List Nat, l.reverse.Perm l := fun l => l.reverse_perm

/-- A walk with base samples of 3 samples: 4 + 1, the last base sample is visited. -/
example : ((walkOverSet demo demoT false 0 (-1) ⟨false, true⟩).bind fun r =>
    (nextSubset demo r.1 0).bind fun a => (nextSubset demo r.1 1).map fun b => (r.2.1, a, b))
    = some (2, [.walkNext false 0 4 0 ⟨false, true⟩], [.walkNext false 1 1 4 ⟨false, true⟩]) := by decide

/-- The same set with base samples of one sample: the last one is not visited. -/
example : ((walkOverSet { demo with sibs := 1 } (init4train { demo with sibs := 1 } (fresh : TT Nat) 4 3 true true).t false 0 (-1) ⟨false, true⟩).map
    fun r => (r.2.1, r.2.2)) = some (1, [.walk false 4 ⟨false, true⟩]) := by decide

/-- **C149, false of the code: a walk stays within the samples the transformer counts.** The end of a walk is taken from the number of
stored rows. A transformer that counts 7 base samples in 10 rows is asked for 5 samples starting from the 6th. -/
theorem walk_beyond_count : ∃ (c : Src) (t t1 : TT Nat) (e : Excl) (calls : List (Call Nat)), c.Fits ∧ c.base true = 7 ∧ Reach c t ∧
    walkOverSet c t true 0 5 e = some (t1, 2, calls) ∧ nextSubset c t1 1 = some [.walkNext true 1 5 5 e] := by
  refine ⟨{ sibs := 1, base := fun _ => 7, rows := fun _ => 10, ok := true }, _, _, ⟨false, true⟩, _, ⟨by decide, fun s => by cases s <;> decide⟩, rfl,
    .step .fresh (.inference _ 0 true), rfl, rfl⟩

/-- **C149, false of the code: the announced batches of a walk can be fetched.** A transformer that counts 10 base samples in 7 rows (it
makes several of one, without saying so in the number of samples of a base sample) gets 3 batches of 4 announced; fetching the
third one ends the program. -/
theorem walk_aborts : ∃ (c : Src) (t t1 : TT Nat) (e : Excl) (calls : List (Call Nat)), c.Fits ∧ Reach c t ∧
    walkOverSet c t true 0 4 e = some (t1, 3, calls) ∧ nextSubset c t1 2 = none := by
  refine ⟨{ sibs := 1, base := fun _ => 10, rows := fun _ => 7, ok := true }, _, _, ⟨false, true⟩, _, ⟨by decide, fun s => by cases s <;> decide⟩,
    .step .fresh (.inference _ 0 true), rfl, rfl⟩

/-- **C151**, the situation of `normalising_uninitialises` occurs: initialised for training, normalised with success, not initialised. -/
theorem normalising_loses_training : ∃ (t t' : TT Nat), Reach demo t ∧ (isInit4train demo t 0 0).isSome ∧
    NormalizeData demo t true 0 15 true true t' true ∧ Uninit demo t' := by
  have h : NormalizeData demo demoT true 0 15 true true (deinit (fixX (init4inference demo (resetNorm demoT) 15 true).t 5)) true := by
    refine ⟨rfl, ?_⟩
    exact ⟨_, .fix (.done _), rfl⟩
  exact ⟨demoT, _, demo_reach, by decide, h, uninit_deinit _⟩

/-- The other case: the initialisation survives. -/
example : ∃ t' : TT Nat, NormalizeData demo demoT true 0 12 true true t' true ∧ (isInit4train demo t' 0 0).isSome :=
  ⟨fixX demoT 5, ⟨rfl, .fix (.done _)⟩, by decide⟩

/-- `normalising_too_big_fails` is about something that happens. -/
example : NormalizeData demo demoT true 0 33 true true (deinit (init4inference demo (resetNorm demoT) 33 true).t) false :=
  ⟨rfl, ⟨_, ⟨rfl, rfl⟩, rfl⟩⟩

end Nntl.Ttd
