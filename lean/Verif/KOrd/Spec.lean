import Verif.KOrd.Model
import Mathlib.Order.Defs.LinearOrder
/-! Specification for C45 and C46. "Better" is "greater" in the order at hand; the order is turned around for the smallest values. -/
namespace Nntl.KOrd

/-- The cache of `k` places holds the `k` greatest distinct values of `seen`, the worst one first; free places hold `ext`. -/
structure KBest {α : Type} [LinearOrder α] (ext : α) (k : Nat) (c : Cache α) (seen : List α) : Prop where
  /-- in ascending order, no value twice (but `ext` in the free places) -/
  asc : ∀ i j, i < j → j < k → (c i).1 < (c j).1 ∨ ((c i).1 = ext ∧ (c j).1 = ext)
  /-- every value was seen -/
  sub : ∀ j < k, (c j).1 = ext ∨ (c j).1 ∈ seen
  /-- a value that was seen and is not there is worse than all that are -/
  top : ∀ v ∈ seen, v = ext ∨ (∃ j < k, (c j).1 = v) ∨ v < (c 0).1

/-- The indices: a value seen in the batches `before` the current one, or not seen at all, has none; any other value has the index of its
first occurrence in the current batch `cur`. -/
def IndexOk {α : Type} [LinearOrder α] (ext : α) (k : Nat) (c : Cache α) (before cur : List α) : Prop :=
  ∀ j < k, ((c j).2 = none ∧ ((c j).1 = ext ∨ (c j).1 ∈ before)) ∨
    ∃ i, (c j).2 = some i ∧ cur[i]? = some (c j).1 ∧ (c j).1 ∉ cur.take i ∧ (c j).1 ∉ before

/-- The cache holds the `k` greatest values of `seen`, equal ones as often as they occur, the worst one first: the cache and the values left
out together are what was seen (and `k` times `ext`), and no value left out is better than a value in the cache. -/
def KBestAll {α : Type} [LinearOrder α] (ext : α) (k : Nat) (c : Cache α) (seen : List α) : Prop :=
  (∀ i j, i < j → j < k → (c i).1 ≤ (c j).1) ∧
  ∃ rest, List.Perm (((List.range k).map fun j => (c j).1) ++ rest) (List.replicate k ext ++ seen) ∧
    ∀ v ∈ rest, ∀ j < k, v ≤ (c j).1

/-- Every place of the aggregator names a batch and an index in it where its value occurs (but for free places). -/
def Located {α : Type} (ext : α) (k : Nat) (d : Nat → Dse α) (batches : List (List α)) : Prop :=
  ∀ j < k, (d j).val = ext ∨ ∃ i b, (d j).idx = some i ∧ batches[(d j).batch]? = some b ∧ b[i]? = some (d j).val

end Nntl.KOrd
