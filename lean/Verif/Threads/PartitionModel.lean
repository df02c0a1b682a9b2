/-
Model of the work partitioning done by `threads::Workers`.
Source: /repo/nntl/interface/threads/workers.h, /repo/nntl/interface/threads/parallel_range.h
-/
namespace Nntl.Threads

/-- Models `parallel_range` (interface/threads/parallel_range.h:37-68): members `m_offset`, `m_cnt`, `m_tid`.
`range_t` and `thread_id_t` are `Nat` (no overflow is modelled). -/
structure ParRange where
  offset : Nat
  cnt : Nat
  tid : Nat
deriving DecidableEq, Repr, Inhabited

/-- The effective number of worker threads for a request.
Models workers.h:266: `_useNThreads > 1 && _useNThreads <= m_workersCnt + 1 ? _useNThreads - 1 : m_workersCnt`.
`useN` is an `Int` because `thread_id_t` is a signed type. -/
def useNThreads (workers : Nat) (useN : Int) : Nat :=
  if 1 < useN ∧ useN ≤ (workers : Int) + 1 then (useN - 1).toNat else workers

/-- `m_workingCnt` as set by the partitioner. Models workers.h:267-268. `cnt - 1` is only evaluated when
`cnt ≤ useNThreads`; callers guarantee `cnt > 1` (workers.h:165,177). -/
def workingCnt (workers cnt : Nat) (useN : Int) : Nat :=
  if cnt > useNThreads workers useN then useNThreads workers useN else cnt - 1

/-- The loop of `partition_count_to_workers` (workers.h:274-282). `i` is the loop counter, `prevOfs` the running
offset and the list is the remaining part of `m_ranges`. Worker `i`'s range has the thread id `i+1`, given in the
constructor (workers.h:116) and never changed (it is `const`, parallel_range.h:53).
A range of a worker that gets no work keeps its old offset, only the count is reset (workers.h:276). -/
def partLoop (working each residual : Nat) : Nat → Nat → List ParRange → List ParRange × Nat
  | _, prevOfs, [] => ([], prevOfs)
  | i, prevOfs, r :: rs =>
    if i ≥ working then
      let res := partLoop working each residual (i + 1) prevOfs rs
      ({ r with cnt := 0 } :: res.1, res.2)
    else
      let n := each + (if i < residual then 1 else 0)
      let res := partLoop working each residual (i + 1) (prevOfs + n) rs
      ({ r with cnt := n, offset := prevOfs } :: res.1, res.2)

/-- `partition_count_to_workers` (workers.h:264-284): the new `m_ranges` and the returned offset after the last
partitioned item. `m_workersCnt` is the length of `m_ranges`. -/
def partitionCountToWorkers (ranges : List ParRange) (cnt : Nat) (useN : Int) : List ParRange × Nat :=
  let working := workingCnt ranges.length cnt useN
  let totalWorkers := working + 1
  partLoop working (cnt / totalWorkers) (cnt % totalWorkers) 0 0 ranges

/-- The range objects created in the constructor (workers.h:114-116). -/
def initRanges (workers : Nat) : List ParRange :=
  (List.range workers).map fun i => { offset := 0, cnt := 0, tid := i + 1 }

/-- All ranges the user functor is called with during one `run()` (workers.h:164-171 and 176-197): workers whose
range is not empty (the wake-up predicate is `0 != tr.cnt()`, workers.h:300) and the main thread with the rest
(workers.h:192). `ranges` is `m_ranges` as left by whatever happened before. -/
def runCalls (ranges : List ParRange) (cnt : Nat) (useN : Int) : List ParRange :=
  if cnt ≤ 1 then [{ offset := 0, cnt := cnt, tid := 0 }]
  else
    let p := partitionCountToWorkers ranges cnt useN
    { offset := p.2, cnt := cnt - p.2, tid := 0 } :: p.1.filter (fun r => r.cnt ≠ 0)

/-- What `run()` stores to `*pThreadsUsed` (workers.h:166, 185). -/
def threadsUsed (workers cnt : Nat) (useN : Int) : Nat :=
  if cnt ≤ 1 then 1 else workingCnt workers cnt useN + 1

/-- The thread ids carried by `m_ranges`: an invariant of the pool, because ids are `const`. -/
def RangesOk (ranges : List ParRange) : Prop :=
  ranges.map (·.tid) = List.range' 1 ranges.length

end Nntl.Threads
