import Verif.AsRng.FifoProps
/-! C137: seeds of the asynchronous generator. -/
namespace Nntl.AsRng
open Nntl.DataBuf Nntl.Threads
variable {σ δ R : Type}

theorem toInt32_of_isInt {x : Int} (h : Rng.isInt x) : Rng.toInt32 x = x := by
  unfold Rng.isInt at h; unfold Rng.toInt32; omega

/-- **C137 (partial).** A constructed object: the streams of the base class (`W` of them) and of the background threads are seeded with different numbers,
one for each stream. -/
theorem constructed_streams_differ (E : Rng.Env σ δ R) {W wc : Nat} {sd : Int} {junk : Nat → σ} {mem : Nat → R} {a0 : As σ δ R}
    (h0 : As.construct E W wc sd junk mem = some a0) (hfew : W + wc < 4294967296) :
    ∃ seed : Nat → Int, (∀ i j, i < W + wc → j < W + wc → seed i = seed j → i = j) ∧
      (∀ i, i < W → a0.mt.rngs i = E.B.init (seed i)) ∧ ∀ i, i < wc → (a0.ctx i).rng = E.B.init (seed (W + i)) := by
  unfold As.construct at h0
  split at h0
  · cases h0
  rename_i mt hmt
  unfold Rng.Mt.construct at hmt
  split at hmt
  case isFalse => cases hmt
  rename_i hok
  obtain rfl := Option.some.inj hmt
  split at h0
  case isFalse => cases h0
  obtain rfl := Option.some.inj h0
  refine ⟨fun i => Rng.toInt32 (sd + i), fun i j hi hj e => ?_, fun i hi => ?_, fun i _ => ?_⟩
  · unfold Rng.toInt32 at e; dsimp only at e; omega
  · dsimp only; rw [if_pos hi, toInt32_of_isInt (hok i hi)]
  · dsimp only; rw [Int.natCast_add, Int.add_assoc]

/-- Events of seeding: the streams set so far. -/
theorem seeding_threads [Field R] [LinearOrder R] {E : Rng.Env σ δ R} {mul : Nat → Nat} {W : Nat} {s s' : Sys σ δ R} {sd : Int} {l : List Nat}
    (hs : s.seeding = some (sd, l)) (h : Step E mul (Rng.Pool W) s s') :
    (s'.seeding = none ∧ l = []) ∨ ∃ l', s'.seeding = some (sd, l') ∧
      (l' = l ∨ ∃ i, i ∈ l ∧ (s'.as.ctx i).rng = E.B.initArr sd (i + W) ∧ ∀ j, j ∈ l ↔ j = i ∨ j ∈ l') := by
  cases h with
  | work => exact .inr ⟨l, hs, .inl rfl⟩
  | done => exact .inr ⟨l, hs, .inl rfl⟩
  | take c arr r hf => rw [hf.2] at hs; cases hs
  | release => exact .inr ⟨l, hs, .inl rfl⟩
  | pass c arr ranges sched mt xs hf => rw [hf.2] at hs; cases hs
  | other o ho arr ranges sched mt x hf => rw [hf.2] at hs; cases hs
  | seed sd' ranges hf => rw [hf.2] at hs; cases hs
  | seedThread sd' l1 l2 i W' ranges hP hW hs' hb =>
    rw [hs'] at hs
    obtain ⟨rfl, rfl⟩ := Prod.mk.inj (Option.some.inj hs)
    refine .inr ⟨l1 ++ l2, rfl, .inr ⟨i, by simp, ?_, fun j => by simp; tauto⟩⟩
    dsimp only
    rw [setN_same, hW, hP.2]
  | seeded sd' hs' =>
    rw [hs'] at hs
    obtain ⟨rfl, rfl⟩ := Prod.mk.inj (Option.some.inj hs)
    exact .inl ⟨rfl, rfl⟩
  | preinit t ne hf => rw [hf.2] at hs; cases hs
  | init alloc b a hf => rw [hf.2] at hs; cases hs
  | deinit hf => rw [hf.2] at hs; cases hs

def demoObj : As (List Int × Nat) Unit Rat :=
  { mt := ⟨fun i => if i < 1 then Rng.toy.init (5 + i) else ([], 0), 5⟩, wc := 1, ctx := fun i => ⟨Rng.toy.init (Rng.toInt32 (5 + 1 + i)), ()⟩,
    main := none, size := fun _ => 0, ofs := fun _ => 0, buf := fun _ => Buf.init 0 fun _ => 0, tasks := [] }

theorem demoObj_constructed : As.construct Rng.toyEnv 1 1 5 (fun _ => ([], 0)) (fun _ => 0) = some demoObj := by
  unfold As.construct Rng.Mt.construct
  rw [if_pos (by intro i hi; unfold Rng.isInt; omega)]
  dsimp only
  rw [if_pos (by decide)]
  rfl

theorem pool_one : Rng.Pool 1 (initRanges 0) := ⟨initRanges_ok 0, by decide⟩

abbrev DReach := Reach Rng.toyEnv (fun n => 3 * n) (Rng.Pool 1) demoObj

/-- **C137 (negation).** Seeding does not make the numbers repeatable: two histories of the same object with the same calls - announce, initialise, seed with
4, fill one element - that differ only in when the background thread got to work. The first one gives a number that was made before the
seed was set. -/
theorem seed_leaves_old_numbers : ∃ (s1 s2 : Sys (List Int × Nat) Unit Rat) (x1 x2 : Result Rat), DReach s1 ∧ DReach s2 ∧
    s1.results = [x1] ∧ s2.results = [x2] ∧ x1.call = .norm 1 ∧ x2.call = .norm 1 ∧ x1.after 0 = (Rng.toy.real (Rng.toy.init 6)).1 ∧
    x2.after 0 = (Rng.toy.real (Rng.toy.initArr 4 1)).1 ∧ x1.after 0 ≠ x2.after 0 := by
  have r0 : DReach (Sys.start demoObj) := .start
  have r1 := Reach.step r0 (Step.preinit _ .norm 1 ⟨rfl, rfl⟩)
  have r2 := Reach.step r1 (Step.init _ (fun _ => some fun _ => 0) true _ ⟨rfl, rfl⟩ rfl)
  have a1 := Reach.step r2 (Step.work _ 0 .norm (by decide) (by decide) rfl)
  have a2 := Reach.step a1 (Step.done _ 0 .norm 3 (by decide) rfl)
  have a3 := Reach.step a2 (Step.seed _ 4 (initRanges 0) ⟨rfl, rfl⟩ pool_one)
  have a4 := Reach.step a3 (Step.seedThread _ 4 [] [] 0 1 (initRanges 0) pool_one rfl rfl rfl)
  have a5 := Reach.step a4 (Step.seeded _ 4 rfl)
  have a6 := Reach.step a5 (Step.take _ (.norm 1) (fun _ => 0) (.one 0 1) ⟨rfl, rfl⟩ rfl (by decide) rfl)
  have a7 := Reach.step a6 (Step.release _ (.norm 1) (fun _ => 0) (.one 0 1) rfl)
  have b3 := Reach.step r2 (Step.seed _ 4 (initRanges 0) ⟨rfl, rfl⟩ pool_one)
  have b4 := Reach.step b3 (Step.seedThread _ 4 [] [] 0 1 (initRanges 0) pool_one rfl rfl rfl)
  have b5 := Reach.step b4 (Step.seeded _ 4 rfl)
  have b1 := Reach.step b5 (Step.work _ 0 .norm (by decide) (by decide) rfl)
  have b2 := Reach.step b1 (Step.done _ 0 .norm 3 (by decide) rfl)
  have b6 := Reach.step b2 (Step.take _ (.norm 1) (fun _ => 0) (.one 0 1) ⟨rfl, rfl⟩ rfl (by decide) rfl)
  have b7 := Reach.step b6 (Step.release _ (.norm 1) (fun _ => 0) (.one 0 1) rfl)
  refine ⟨_, _, _, _, a7, b7, rfl, rfl, rfl, rfl, ?_, ?_, ?_⟩
  · rfl
  · rfl
  · decide +kernel

/-- Non-vacuity of C134 and C135: numbers are in the buffer, one call was served from it, another one by the base class. -/
theorem demo_reach : ∃ s : Sys (List Int × Nat) Unit Rat, DReach s ∧ (s.made .norm).length = 3 ∧ (s.used .norm).length = 1 ∧
    s.results.map (fun x => x.raw.isSome) = [true, false] ∧ (1 - 1) * memCount Rng.toyEnv.thr .norm < (s.as.buf .norm).total := by
  have r0 : DReach (Sys.start demoObj) := .start
  have r1 := Reach.step r0 (Step.preinit _ .norm 1 ⟨rfl, rfl⟩)
  have r2 := Reach.step r1 (Step.init _ (fun _ => some fun _ => 0) true _ ⟨rfl, rfl⟩ rfl)
  have a1 := Reach.step r2 (Step.work _ 0 .norm (by decide) (by decide) rfl)
  have a2 := Reach.step a1 (Step.done _ 0 .norm 3 (by decide) rfl)
  have a6 := Reach.step a2 (Step.take _ (.norm 1) (fun _ => 0) (.one 0 1) ⟨rfl, rfl⟩ rfl (by decide) rfl)
  have a7 := Reach.step a6 (Step.release _ (.norm 1) (fun _ => 0) (.one 0 1) rfl)
  have a8 := Reach.step a7 (Step.pass _ (.normal 2 4 5) (fun _ => 0) (initRanges 0) [] _ _ ⟨rfl, rfl⟩ pool_one (.inr (.inl rfl)) rfl)
  exact ⟨_, a8, rfl, rfl, rfl, by decide⟩

end Nntl.AsRng
