/-! Finding the k best values of every column, batch after batch, and the aggregation of the results over the batches.

Modelled: `nntl/interface/math/mathn.h` `mcwFindKOrdered` 5186–5269 and its four wrappers 5271–5290;
`nntl/interface/math/_mcwFindKOrdered_hlpr.h` the order functors 42–62 and `Aggregator::aggregate` 293–375.

Values are of any type; a comparison is a parameter (not-a-number is excluded by the assumptions of the theorems). The memory layout of
the helper matrix (the values and the indices of a column one after the other, 110–170) is not modelled. -/
namespace Nntl.KOrd

/-- One place of the cache of a column: the value and its index in the current batch; `none` is the index −1. -/
abbrev Entry (α : Type) := α × Option Nat

/-- `pCache` together with `pI`, `nntl/interface/math/mathn.h` 5216–5217. -/
abbrev Cache (α : Type) := Nat → Entry α

/-- Assignment to one place. -/
def put {β : Type} (c : Nat → β) (j : Nat) (e : β) : Nat → β := fun i => if i = j then e else c i

/-- `for (; hi < k; ++hi) if (first_better(pCache[hi], v)) break;`, `nntl/interface/math/mathn.h` 5244–5248, with `n` rounds left. -/
def findHi {α : Type} (better : α → α → Bool) (c : Cache α) (v : α) : Nat → Nat → Nat
  | 0, hi => hi
  | n + 1, hi => if better (c hi).1 v then hi else findHi better c v n (hi + 1)

/-- `for (hj = 0; hj < insertPos; ++hj) { pCache[hj] = pCache[hj + 1]; pI[hj] = pI[hj + 1]; }`, `nntl/interface/math/mathn.h` 5254–5257, with
`n` rounds left. -/
def shiftLoop {α : Type} : Nat → Nat → Cache α → Cache α
  | 0, _, c => c
  | n + 1, hj, c => shiftLoop n (hj + 1) (put c hj (c (hj + 1)))

/-- One round of the loop over the column, `nntl/interface/math/mathn.h` 5236–5264: value `v` at index `i`. `better` is `first_better`, `ext` is
`most_extreme()`. The local copy `cache0` always equals `pCache[0]`. -/
def feed {α : Type} (better : α → α → Bool) (ext : α) (k : Nat) (c : Cache α) (v : α) (i : Nat) : Cache α :=
  if better v (c 0).1 then
    let hi := findHi better c v (k - 1) 1
    let insertPos := hi - 1
    if better ext ext || better v (c insertPos).1 then put (shiftLoop insertPos 0 c) insertPos (v, some i)
    else c
  else c

/-- The loop over the column. -/
def feedAll {α : Type} (better : α → α → Bool) (ext : α) (k : Nat) : List α → Nat → Cache α → Cache α
  | [], _, c => c
  | v :: vs, i, c => feedAll better ext k vs (i + 1) (feed better ext k c v i)

/-- Processing of one column, `nntl/interface/math/mathn.h` 5214–5268; `next` is `bNextBatch`, `src` the values of the column. -/
def column {α : Type} (better : α → α → Bool) (ext : α) (k : Nat) (next : Bool) (c : Cache α) (src : List α) : Cache α :=
  feedAll better ext k src 0 fun j => if j < k then (if next then (c j).1 else ext, none) else c j

/-- `Order_BiggestDistinct`, `nntl/interface/math/_mcwFindKOrdered_hlpr.h` 42–45. -/
def biggestDistinct {α : Type} [LT α] [DecidableLT α] (vNew vOld : α) : Bool := decide (vOld < vNew)
/-- `Order_Biggest`, 46–49. -/
def biggest {α : Type} [LE α] [DecidableLE α] (vNew vOld : α) : Bool := decide (vOld ≤ vNew)
/-- `Order_SmallestDistinct`, 52–55. -/
def smallestDistinct {α : Type} [LT α] [DecidableLT α] (vNew vOld : α) : Bool := decide (vNew < vOld)
/-- `Order_Smallest`, 56–59. -/
def smallest {α : Type} [LE α] [DecidableLE α] (vNew vOld : α) : Bool := decide (vNew ≤ vOld)

/-- Batches one after the other: the first one with `bNextBatch = false`. -/
def findBatches {α : Type} (better : α → α → Bool) (ext : α) (k : Nat) (c : Cache α) : List (List α) → Cache α
  | [] => c
  | b :: bs => bs.foldl (fun c b => column better ext k true c b) (column better ext k false c b)

/-! ### Aggregation over batches -/

/-- `DatasetElement`, `nntl/interface/math/_mcwFindKOrdered_hlpr.h` 212–216. -/
structure Dse (α : Type) where
  batch : Nat
  val : α
  idx : Option Nat
deriving DecidableEq, Repr

/-- The first batch, 297–318, for one column. -/
def aggFirst {α : Type} (c : Cache α) : Nat → Dse α := fun j => ⟨0, (c j).1, (c j).2⟩

/-- The search for the element to be moved, 349–359, `n` rounds left; position `r`. Nothing happens if it is not found. -/
def moveFrom {α : Type} [DecidableEq α] (d : Nat → Dse α) (hr : Nat) (v : α) : Nat → Nat → Nat → Dse α
  | 0, _ => d
  | n + 1, r => if v = (d r).val then put d hr (d r) else moveFrom d hr v n (r + 1)

/-- The loop over the cache, 329–371, `n` rounds left; position `hr`, batch number `b`. -/
def aggLoop {α : Type} [DecidableEq α] (c : Cache α) (b : Nat) : Nat → Nat → (Nat → Dse α) → Nat → Dse α
  | 0, _, d => d
  | n + 1, hr, d =>
    match (c hr).2 with
    | none => if (c hr).1 = (d hr).val then d else aggLoop c b n (hr + 1) (moveFrom d hr (c hr).1 n (hr + 1))
    | some i => aggLoop c b n (hr + 1) (put d hr ⟨b, (c hr).1, some i⟩)

/-- `aggregate`, 293–375, for one column. -/
def aggregate {α : Type} [DecidableEq α] (k : Nat) (c : Cache α) (b : Nat) (d : Nat → Dse α) : Nat → Dse α :=
  if b = 0 then aggFirst c else aggLoop c b k 0 d

/-- Every batch is searched and then aggregated; `b` is the number of the next batch. -/
def runBatches {α : Type} [DecidableEq α] (better : α → α → Bool) (ext : α) (k : Nat) :
    List (List α) → Nat → Cache α × (Nat → Dse α) → Cache α × (Nat → Dse α)
  | [], _, s => s
  | src :: bs, b, s =>
    let c := column better ext k (decide (b ≠ 0)) s.1 src
    runBatches better ext k bs (b + 1) (c, aggregate k c b s.2)

end Nntl.KOrd
