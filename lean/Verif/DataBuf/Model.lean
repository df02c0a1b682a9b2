/-! Model of `nntl/utils/data_buffer.h`: the circular buffer between random number producers and the main thread.

Every operation holds `m_bufMutex` from start to end, so it is one atomic step. `size_t` is `Nat`. Reading outside of the
storage is not modelled separately: offsets are plain numbers, and the theorems show that all of them are below `total`. -/
namespace Nntl.DataBuf

/-- `CircBufferRange` data_buffer.h:38-60 for an acquired range: one array of `n` elements from offset `p`, or two arrays, the second of
which starts at offset 0 (253). The default constructed range (not acquired) is `none` where it can occur. -/
inductive Range
  | one (p n : Nat)
  | two (p n1 n2 : Nat)

/-- `DataBuffer` 182-189. -/
structure Buf (α : Type) where
  total : Nat
  mem : Nat → α
  cur : Nat := 0
  alv : Nat := 0
  alc : Nat := 0
  empty : Bool := true

variable {α : Type}

/-- `acquire_data` 229-259. -/
def Buf.acquire (b : Buf α) (n : Nat) : Option Range :=
  if !b.empty && n != 0 then
    if b.cur < b.alv then
      if b.cur + n ≤ b.alv then some (.one b.cur n) else none
    else
      if b.cur + n ≤ b.total then some (.one b.cur n)
      else
        let n1 := b.total - b.cur
        let n2 := n - n1
        if n2 ≤ b.alv then some (.two b.cur n1 n2) else none
  else none

/-- `release_data` 264-281. -/
def Buf.release (b : Buf α) (r : Range) : Buf α :=
  let cur := match r with
    | .two _ _ n2 => n2
    | .one _ n1 => b.cur + n1
  let b := { b with cur := cur }
  let b :=
    if b.cur ≥ b.total then
      { b with cur := 0, alv := if b.alv = b.total then 0 else b.alv, alc := if b.alc = b.total then 0 else b.alc }
    else b
  { b with empty := b.cur == b.alv }

/-- `_as_should_work` 288-350: the buffer and the number of elements to generate. -/
def Buf.shouldWork (b : Buf α) (n0 : Nat) : Buf α × Nat :=
  let n := if n0 ≤ b.total then n0 else b.total
  if !b.empty && ((b.alc != 0 && b.alc == b.cur) || (b.cur == 0 && b.alc == b.total)) then (b, 0)
  else if b.cur ≤ b.alc then
    if b.alc < b.total then
      let res := b.total - b.alc
      if res ≥ n then ({ b with alc := b.alc + n }, n)
      else
        let remToGen := n - res
        if remToGen ≤ b.cur then ({ b with alc := remToGen }, n)
        else if b.cur ≠ 0 then ({ b with alc := b.cur }, res + b.cur)
        else ({ b with alc := b.total }, res)
    else if b.cur ≠ 0 then
      let r := if b.cur > n then n else b.cur
      ({ b with alc := r }, r)
    else (b, 0)
  else
    let res := b.cur - b.alc
    let r := if res > n then n else res
    ({ b with alc := b.alc + r }, r)

/-- `_copy2buf` 410-412. -/
def copy2buf (mem : Nat → α) (ofs : Nat) (xs : List α) : Nat → α := fun k => if ofs ≤ k then (xs[k - ofs]?).getD (mem k) else mem k

/-- `_as_done(ptr, n)` 354-394, `xs` are the `n` elements at `ptr`. -/
def Buf.done (b : Buf α) (xs : List α) : Buf α :=
  let n := xs.length
  let b :=
    if b.alv < b.alc then
      let bs := b.alc - b.alv
      let ds := if bs < n then bs else n
      { b with mem := copy2buf b.mem b.alv (xs.take ds), alv := b.alv + ds }
    else
      let bs1 := b.total - b.alv
      if bs1 ≥ n then { b with mem := copy2buf b.mem b.alv xs, alv := b.alv + n }
      else
        let mem := if bs1 ≠ 0 then copy2buf b.mem b.alv (xs.take bs1) else b.mem
        let ds := n - bs1
        let bs2 := if ds < b.alc then ds else b.alc
        { b with alv := bs2, mem := copy2buf mem 0 ((xs.drop bs1).take bs2) }
  { b with empty := false }

/-- Constructor 194. -/
def Buf.init (total : Nat) (mem : Nat → α) : Buf α := { total, mem }

/-- `CircBufferFeeder::shrink` 103-117 after `k` calls of `next`. -/
def Range.shrink (r : Range) (k : Nat) : Range :=
  match r with
  | .one p n1 => if k ≥ n1 then .one p n1 else .one p k
  | .two p n1 _ => if k ≥ n1 then .two p n1 (k - n1) else .one p k

/-- `CircBufferFeeder::next` 88-101, call number `k` (from 0): `none` is the abort. -/
def Buf.feed (b : Buf α) (r : Range) (k : Nat) : Option α :=
  match r with
  | .one p n1 => if k ≥ n1 then none else some (b.mem (p + k))
  | .two p n1 n2 => if k ≥ n1 then (if k ≥ n1 + n2 then none else some (b.mem (k - n1))) else some (b.mem (p + k))

/-- `AsynchRng::_move_data` (interface/rng/afrand_as.h:329-339): the values copied to the caller, and the buffer after `release_data`. -/
def Buf.moveData (b : Buf α) (n : Nat) : Option (List α × Buf α) :=
  match b.acquire n with
  | none => none
  | some (.one p n1) => some ((List.range n1).map (fun i => b.mem (p + i)), b.release (.one p n1))
  | some (.two p n1 n2) =>
    some ((List.range n1).map (fun i => b.mem (p + i)) ++ (List.range n2).map (fun i => b.mem i), b.release (.two p n1 n2))

end Nntl.DataBuf
