/-!
Model of `nntl/utils/dataHolder.h` (the mini-batch feeder used by the gradient check, nnet.h 748). Data matrices are represented by the numbers of their
rows: what matters is which row of the data lands in which row of a batch. `mExtractRows` is modelled (and verified) in `Verif/Kernel`.
-/
namespace Nntl.Utils.Dh

/-- `ub`: an access outside a vector or a matrix (an assertion stops a debug build at the same place). -/
inductive Out (α : Type) where
  | ok (a : α)
  | ub

/-- The fields of `dataHolder`, dataHolder.h 46–52. `maxB`: rows the batch matrices were allocated for (0: not allocated); `curB` rows of `*m_pBatchX`; `full`:
`m_pBatchX == m_pDataX`; `idxs` = `m_rowsIdxs`; `next` the distance of `m_next` from the beginning; `batchX`, `batchY`: for every row of the batch
matrices the row of the data it was copied from (`batchY` is unused without labels). -/
structure St where
  rows : Nat
  hasY : Bool
  maxB : Nat
  curB : Nat
  full : Bool
  idxs : List Nat
  next : Nat
  batchX : List Nat
  batchY : List Nat

/-- `prepareToBatchSize`, dataHolder.h 135–155. A size between the allocated and the full one violates the assertion of `deform_rows` (the batch would exceed its
storage), a size above the number of rows the one of line 137; without assertions the latter means full batch. What the batch matrices show after a change to a mini-batch size and before the next `nextBatch` is not tracked (their rows are
reinterpreted): the row lists are emptied. -/
def St.prepare (s : St) (b : Nat) : Out St :=
  if s.rows ≤ b then .ok { s with full := true, curB := s.rows }
  else if b = 0 ∨ s.maxB < b then .ub
  else .ok { s with full := false, curB := b, batchX := [], batchY := [] }

/-- `init`, dataHolder.h 97–120, on a fresh or deinitialised object. -/
def St.init (rows : Nat) (hasY : Bool) (maxB : Nat) : Out St :=
  let s : St := ⟨rows, hasY, maxB, 0, true, [], 0, [], []⟩
  match s.prepare (if maxB = 0 then rows else maxB) with
  | .ok s => .ok { s with idxs := List.range rows, next := rows }
  | .ub => .ub

/-- `mExtractRows(data, m_next, batch)` for `b` rows: row `i` of the batch is row `idxs[next+i]` of the data. Reading past the end of the indices is undefined. -/
def extract (s : St) : Out (List Nat) :=
  if s.next + s.curB ≤ s.idxs.length then .ok ((s.idxs.drop s.next).take s.curB) else .ub

/-- `m_next >= m_rowsIdxs.cend() - curBatchSize()`, dataHolder.h 171. `cend() - b` needs `b ≤ size()`. -/
def wraps (s : St) : Bool := decide (s.idxs.length ≤ s.next + s.curB)

/-- `nextBatch`, dataHolder.h 165–180. `sh` is what `random_shuffle` does to the indices at this call (a permutation of them; not used if there is no reshuffle). -/
def St.nextBatch (sh : List Nat → List Nat) (s : St) : Out St :=
  if s.full then .ok s
  else if s.idxs.length < s.curB then .ub
  else
    let s := if wraps s then { s with next := 0, idxs := sh s.idxs } else s
    match extract s with
    | .ub => .ub
    | .ok l => .ok { s with batchX := l, batchY := if s.hasY then l else s.batchY, next := s.next + s.curB }

/-- The rows of the data shown by `batchX()`, dataHolder.h 72–77. -/
def St.shownX (s : St) : List Nat := if s.full then List.range s.rows else s.batchX
/-- The rows of the data shown by `batchY()`, dataHolder.h 78–83. -/
def St.shownY (s : St) : List Nat := if s.full then List.range s.rows else s.batchY

/-- `[curBatchIdxs(), curBatchIdxsEnd())`, dataHolder.h 63–70: undefined if it starts before the first index. -/
def St.curIdxs (s : St) : Out (List Nat) :=
  if s.curB ≤ s.next then .ok ((s.idxs.drop (s.next - s.curB)).take s.curB) else .ub

/-- `batchesCount`, dataHolder.h 161–163: `round(rows / b)`, halves up. -/
def St.batchesCount (s : St) : Nat := (2 * s.rows + s.curB) / (2 * s.curB)

/-- Calls. -/
inductive Op where
  | prepare (b : Nat)
  | next (sh : List Nat → List Nat)

/-- One call. -/
def St.step (s : St) : Op → Out St
  | .prepare b => s.prepare b
  | .next sh => s.nextBatch sh

/-- A sequence of calls. -/
def St.run : St → List Op → Out St
  | s, [] => .ok s
  | s, o :: os =>
    match s.step o with
    | .ok s' => s'.run os
    | .ub => .ub

/-- `k` calls of `nextBatch`, the batches they show. -/
def St.batches (sh : Nat → List Nat → List Nat) : Nat → St → Out (List (List Nat) × St)
  | 0, s => .ok ([], s)
  | k + 1, s =>
    match s.nextBatch (sh k) with
    | .ub => .ub
    | .ok s1 =>
      match s1.batches sh k with
      | .ub => .ub
      | .ok (l, s2) => .ok (s1.shownX :: l, s2)

end Nntl.Utils.Dh
