import Verif.Kernel.Rmw
/-! Kernels that update every item of a range once, each item on its own (element by element, or column by column). -/
namespace Nntl.Kernel
open Nntl.Threads
variable {σ : Type}

/-- `for (i = b; i != e; ++i) item[i] = f(i, item[i])`. -/
def eachSteps (f : Nat → σ → σ) (b e : Nat) : List (Step σ) := (List.range' b (e - b)).map fun i => (i, f i)

theorem eachSteps_at (f : Nat → σ → σ) (b e k : Nat) :
    ((eachSteps f b e).filter fun s => s.1 == k).map (·.2) = if b ≤ k ∧ k < e then [f k] else [] := by
  have key : ∀ n b, (((List.range' b n).map fun i => ((i, f i) : Step σ)).filter fun s => s.1 == k).map (·.2) =
      if b ≤ k ∧ k < b + n then [f k] else [] := by
    intro n
    induction n with
    | zero => intro b; rw [if_neg (by omega)]; rfl
    | succ n ih =>
      intro b
      rw [List.range'_succ, List.map_cons, List.filter_cons]
      by_cases h : b = k
      · subst h
        rw [if_pos (by simp), if_pos (by omega), List.map_cons, ih, if_neg (by omega)]
      · rw [if_neg (by simpa using h), ih]
        by_cases h2 : b + 1 ≤ k ∧ k < b + 1 + n
        · rw [if_pos h2, if_pos (by omega)]
        · rw [if_neg h2, if_neg (by omega)]
  unfold eachSteps
  rw [key]
  by_cases h : b ≤ k ∧ k < e
  · rw [if_pos h, if_pos (by omega)]
  · rw [if_neg h, if_neg (by omega)]

/-- However the items are shared out among threads and the threads interleave, every item is updated exactly once and nothing else is. -/
theorem each_result (ex : Exec) (hex : ex.Ok) (cnt : Nat) (hc : 0 < cnt) (f : Nat → σ → σ) {m m' : Nat → σ}
    (h : Runs ex cnt (eachSteps f) m m') (k : Nat) : m' k = if k < cnt then f k (m k) else m k := by
  have := runs_result ex hex cnt hc (eachSteps f) id (fun k => [f k]) (fun b e _ _ k => eachSteps_at f b e k) h k
  simpa using this

end Nntl.Kernel
