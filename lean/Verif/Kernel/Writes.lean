import Verif.Threads.PartitionProps
import Verif.Matrix.Lemmas
/-!
Execution of data-moving kernels. Such a kernel never reads what it writes (the sources are disjoint from the
destination: `assert_storage_does_not_intersect`, `__restrict`), so a thread is modelled by the list of the writes it
performs, in program order. A run of a set of threads performs all their writes in some order.
-/
namespace Nntl.Kernel
open Nntl.Matrix Nntl.Threads
variable {α : Type}

/-- Perform a list of writes (address, value) on a memory. -/
def applyW (d : Nat → α) : List (Nat × α) → Nat → α
  | [] => d
  | p :: ps => applyW (upd d p.1 p.2) ps

/-- `d'` is a possible final memory when the writes `ws` are done in an arbitrary order (this includes every
interleaving of the threads' program orders). -/
def Outcome (ws : List (Nat × α)) (d d' : Nat → α) : Prop := ∃ ws', ws'.Perm ws ∧ d' = applyW d ws'

/-- How a kernel over items `[0,cnt)` is run: by the calling thread alone (`_st`: one call with the range `(0,cnt)`), or
by the pool (`_mt`: `m_threads.run(f, cnt)`, whose calls are modelled by `Threads.runCalls`; `ranges` is the pool state left by
earlier calls). -/
inductive Exec where
  | st
  | mt (ranges : List ParRange)

/-- The ranges `(begin, end)` handed to the kernel. -/
def Exec.calls : Exec → Nat → List (Nat × Nat)
  | .st, cnt => [(0, cnt)]
  | .mt rs, cnt => (runCalls rs cnt 0).map fun r => (r.offset, r.offset + r.cnt)

/-- The pool is in a state it can be in (thread ids fixed by its constructor). -/
def Exec.Ok : Exec → Prop
  | .st => True
  | .mt rs => RangesOk rs

/-- All writes of a run. -/
def Exec.writes (e : Exec) (cnt : Nat) (kernel : Nat → Nat → List (Nat × α)) : List (Nat × α) :=
  (e.calls cnt).flatMap fun r => kernel r.1 r.2

/-- `for i < n: dst[i] = src[i]` (`memcpy`) at offsets `pD`, `pS`. -/
def memcpyW (src : Nat → α) (pD pS n : Nat) : List (Nat × α) :=
  (List.range n).map fun i => (pD + i, src (pS + i))

/-- Specification of what a data-moving kernel leaves in a column-major area of `R` rows and `C` columns with leading
dimension `ld`: the element `(r,c)` is `f r c`, everything outside of the area is untouched. -/
def Fills (ld R C : Nat) (d d' : Nat → α) (f : Nat → Nat → α) : Prop :=
  (∀ r c, r < R → c < C → d' (r + ld * c) = f r c) ∧
  ∀ k, (∀ r c, r < R → c < C → k ≠ r + ld * c) → d' k = d k

theorem applyW_spec (f : Nat → α) (ws : List (Nat × α)) (h : ∀ p ∈ ws, p.2 = f p.1) (d : Nat → α) (k : Nat) :
    ((∃ v, (k, v) ∈ ws) → applyW d ws k = f k) ∧ ((∀ v, (k, v) ∉ ws) → applyW d ws k = d k) := by
  induction ws generalizing d with
  | nil => simp [applyW]
  | cons p ps ih =>
    have ih' := ih (fun q hq => h q (List.mem_cons_of_mem _ hq)) (upd d p.1 p.2)
    constructor
    · rintro ⟨v, hv⟩
      by_cases hk : ∃ v, (k, v) ∈ ps
      · exact ih'.1 hk
      · have := ih'.2 (fun v hv => hk ⟨v, hv⟩)
        rcases List.mem_cons.1 hv with h1 | h1
        · simp only [applyW]
          rw [this, ← h1, upd, if_pos rfl]
          have := h p (List.mem_cons_self ..)
          rw [← h1] at this; exact this
        · exact absurd ⟨v, h1⟩ hk
    · intro hv
      have := ih'.2 (fun v hv' => hv v (List.mem_cons_of_mem _ hv'))
      simp only [applyW]
      rw [this, upd, if_neg]
      intro he
      exact hv p.2 (by rw [he]; exact List.mem_cons_self ..)

theorem fills_of_mem {ld R C : Nat} (hR : R ≤ ld) (f : Nat → Nat → α) (ws : List (Nat × α))
    (h : ∀ k v, (k, v) ∈ ws ↔ ∃ r c, r < R ∧ c < C ∧ k = r + ld * c ∧ v = f r c)
    {d d' : Nat → α} (ho : Outcome ws d d') : Fills ld R C d d' f := by
  obtain ⟨ws', hp, rfl⟩ := ho
  have hfun : ∀ p ∈ ws', p.2 = f (p.1 % ld) (p.1 / ld) := by
    rintro ⟨k, v⟩ hm
    obtain ⟨r, c, hr, hc, rfl, rfl⟩ := (h k v).1 (hp.mem_iff.1 hm)
    have hl : 0 < ld := by omega
    simp only
    rw [Nat.add_mul_mod_self_left, Nat.mod_eq_of_lt (by omega), Nat.add_mul_div_left _ _ hl,
      Nat.div_eq_of_lt (by omega), Nat.zero_add]
  constructor
  · intro r c hr hc
    have := (applyW_spec (fun k => f (k % ld) (k / ld)) ws' hfun d (r + ld * c)).1
      ⟨f r c, hp.mem_iff.2 ((h _ _).2 ⟨r, c, hr, hc, rfl, rfl⟩)⟩
    rw [this]
    have hl : 0 < ld := by omega
    rw [Nat.add_mul_mod_self_left, Nat.mod_eq_of_lt (by omega), Nat.add_mul_div_left _ _ hl,
      Nat.div_eq_of_lt (by omega), Nat.zero_add]
  · intro k hk
    refine (applyW_spec (fun k => f (k % ld) (k / ld)) ws' hfun d k).2 ?_
    intro v hv
    obtain ⟨r, c, hr, hc, hk', -⟩ := (h k v).1 (hp.mem_iff.1 hv)
    exact hk r c hr hc hk'

/-- A single-threaded run in program order is an outcome. -/
theorem outcome_program_order (ws : List (Nat × α)) (d : Nat → α) : Outcome ws d (applyW d ws) :=
  ⟨ws, List.Perm.refl _, rfl⟩

theorem calls_cover (e : Exec) (he : e.Ok) (cnt k : Nat) :
    k < cnt ↔ ∃ r ∈ e.calls cnt, r.1 ≤ k ∧ k < r.2 := by
  cases e with
  | st => simp [Exec.calls]
  | mt rs =>
    have h := run_processes_each_item_once rs cnt 0 he k
    simp only [Exec.calls, List.mem_map]
    constructor
    · intro hk
      rw [if_pos hk] at h
      unfold timesProcessed at h
      have : 0 < (runCalls rs cnt 0).countP
        (fun r => decide (r.offset ≤ k) && decide (k < r.offset + r.cnt)) := by omega
      obtain ⟨r, hr, hc⟩ := List.countP_pos_iff.1 this
      simp only [Bool.and_eq_true, decide_eq_true_eq] at hc
      exact ⟨_, ⟨r, hr, rfl⟩, hc⟩
    · rintro ⟨_, ⟨r, hr, rfl⟩, hc⟩
      apply Decidable.byContradiction
      intro hk
      rw [if_neg hk] at h
      unfold timesProcessed at h
      have := List.countP_eq_zero.1 h r hr
      simp only [Bool.and_eq_true, decide_eq_true_eq] at this
      exact this hc

/-- Calls never get an end beyond `cnt` or an inverted range. -/
theorem calls_bounds (e : Exec) (he : e.Ok) (cnt : Nat) (hc : 0 < cnt) :
    ∀ r ∈ e.calls cnt, r.1 < r.2 ∧ r.2 ≤ cnt := by
  cases e with
  | st => simp [Exec.calls]; exact hc
  | mt rs =>
    intro r hr
    simp only [Exec.calls, List.mem_map] at hr
    obtain ⟨q, hq, rfl⟩ := hr
    have := run_ranges_nonempty_in_bounds rs cnt 0 he hc q hq
    dsimp only
    omega

theorem mem_writes (e : Exec) (he : e.Ok) (cnt : Nat) (hc : 0 < cnt) (kernel : Nat → Nat → List (Nat × α))
    (P : Nat → Nat × α → Prop)
    (hk : ∀ b e', b < e' → e' ≤ cnt → ∀ p, p ∈ kernel b e' ↔ ∃ c, b ≤ c ∧ c < e' ∧ P c p) (p : Nat × α) :
    p ∈ e.writes cnt kernel ↔ ∃ c, c < cnt ∧ P c p := by
  unfold Exec.writes
  rw [List.mem_flatMap]
  constructor
  · rintro ⟨r, hr, hm⟩
    have hb := calls_bounds e he cnt hc r hr
    obtain ⟨c, h1, h2, h3⟩ := (hk _ _ hb.1 hb.2 p).1 hm
    exact ⟨c, by omega, h3⟩
  · rintro ⟨c, hcc, hP⟩
    obtain ⟨r, hr, h1, h2⟩ := (calls_cover e he cnt c).1 hcc
    have hb := calls_bounds e he cnt hc r hr
    exact ⟨r, hr, (hk _ _ hb.1 hb.2 p).2 ⟨c, h1, h2, hP⟩⟩

theorem mem_memcpyW (src : Nat → α) (pD pS n : Nat) (p : Nat × α) :
    p ∈ memcpyW src pD pS n ↔ ∃ i, i < n ∧ p = (pD + i, src (pS + i)) := by
  unfold memcpyW
  simp only [List.mem_map, List.mem_range]
  constructor <;> rintro ⟨i, h, he⟩ <;> exact ⟨i, h, he.symm⟩

end Nntl.Kernel
