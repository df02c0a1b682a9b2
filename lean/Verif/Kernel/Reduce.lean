import Verif.Kernel.Writes
import Verif.Threads.PoolProps
import Mathlib.Algebra.BigOperators.Group.List.Basic
/-! Sums calculated by the threads of the pool (`m_threads.reduce(f, _reduce_vec_sum, cnt)`): every call of the functor gives the sum over its range,
the partial sums are then added up in the order of the slots. -/
namespace Nntl.Kernel
open Nntl.Threads
variable {M : Type} [AddCommMonoid M]

/-- `T ret(0); for (i = b; i < e; ++i) ret += f(i);` (`_vec_sum` `/repo/nntl/interface/math/smath.h` 253–274, 408–415 and the loops of `vSumAbs_st`,
`/repo/nntl/interface/math/mathn.h` 2354–2362). -/
def sumLoop (f : Nat → M) (b e : Nat) : M := (List.range' b (e - b)).foldl (fun a i => a + f i) 0

/-- The one-thread variant calls the loop for the whole range; the many-threads variant adds the results of the calls with `_reduce_vec_sum`, `smath.h`
418–426. -/
def reduceSum (ex : Exec) (n : Nat) (part : Nat → Nat → M) : M :=
  match ex with
  | .st => part 0 n
  | .mt rs => ((Exec.mt rs).calls n).foldl (fun a r => a + part r.1 r.2) 0

theorem foldl_add {α : Type} (l : List α) (f : α → M) (a : M) : l.foldl (fun a x => a + f x) a = a + (l.map f).sum := by
  induction l generalizing a with
  | nil => simp
  | cons x l ih => rw [List.foldl_cons, ih, List.map_cons, List.sum_cons, add_assoc]

theorem sumLoop_eq (f : Nat → M) (b e : Nat) : sumLoop f b e = ((List.range' b (e - b)).map f).sum := by
  unfold sumLoop; rw [foldl_add, zero_add]

/-- The result is the sum over the whole range, however the work was shared. -/
theorem reduceSum_eq (ex : Exec) (h : ex.Ok) (n : Nat) (f : Nat → M) : reduceSum ex n (sumLoop f) = ((List.range n).map f).sum := by
  cases ex with
  | st =>
    show sumLoop f 0 n = _
    rw [sumLoop_eq, Nat.sub_zero, List.range_eq_range']
  | mt rs =>
    show ((Exec.mt rs).calls n).foldl _ 0 = _
    rw [foldl_add, zero_add]
    have hp : ((runCalls rs n 0).flatMap items).Perm (List.range n) := by
      rw [List.perm_iff_count]
      intro k
      rw [count_flatMap_items, run_processes_each_item_once _ _ _ h k]
      by_cases hk : k < n
      · rw [if_pos hk]; exact (List.count_eq_one_of_mem List.nodup_range (List.mem_range.2 hk)).symm
      · rw [if_neg hk]; exact (List.count_eq_zero_of_not_mem (by simpa using hk)).symm
    rw [← (hp.map f).sum_eq]
    show (((runCalls rs n 0).map fun r => (r.offset, r.offset + r.cnt)).map _).sum = _
    generalize runCalls rs n 0 = l
    induction l with
    | nil => rfl
    | cons r l ih =>
      rw [List.flatMap_cons, List.map_append, List.sum_append, ← ih]
      rw [List.map_cons, List.map_cons, List.sum_cons, sumLoop_eq, Nat.add_sub_cancel_left]
      rfl

end Nntl.Kernel
