import Verif.Rng.Model
import Verif.DataBuf.Model
/-! Model of the asynchronous random number generator, `nntl/interface/rng/afrand_as.h` (`as::AsynchRng`, `AFRand_as`), on top of the models of
the generator it falls back to (`Rng`), of the circular buffer (`DataBuf`) and of the background threads (`BgWork`, whose guarantees appear
here as conditions of steps). Release build: the assertions are not there. Line numbers without a file name are those of afrand_as.h. -/
namespace Nntl.AsRng
open Nntl.DataBuf Nntl.Threads

/-- `_TaskId` 101-106. -/
inductive Task
  | normal
  | norm
  deriving DecidableEq

/-- `BgThreadCtx` 86-99: the stream of a background thread and its distribution object. The third member, the temporary memory, is
described by `tmpBegin`. -/
structure Ctx (σ δ : Type) where
  rng : σ
  distr : δ

variable {σ δ R : Type}

/-- `thread_mem_count4_normal_distr`, `thread_mem_count4_norm` 115-117: 20 times the thresholds of the multi-threaded generator. -/
def memCount (thr : Rng.Thr) : Task → Nat
  | .normal => 20 * thr.normal
  | .norm => 20 * thr.norm

/-- `maxSize` 200. -/
def maxSize (thr : Rng.Thr) : Nat := max (memCount thr .normal) (memCount thr .norm)

/-- `pTM` of thread `i` 210-213: an offset in the block of `tmpTotal` numbers (201). -/
def tmpBegin (thr : Rng.Thr) (i : Nat) : Nat := i * maxSize thr
def tmpTotal (thr : Rng.Thr) (wc : Nat) : Nat := wc * maxSize thr

/-- The object: the generator it is derived from, the number of background threads `wc`, `mas_ThreadCtx`, `m_pMainBuffer` (`none` is `nullptr`,
otherwise the length of the block), `ma_bufferSize`, `ma_Storage` (with `ofs`, where the piece of a buffer begins in the block) and the tasks
added to the background threads. -/
structure As (σ δ R : Type) where
  mt : Rng.Mt σ
  wc : Nat
  ctx : Nat → Ctx σ δ
  main : Option Nat
  size : Task → Nat
  ofs : Task → Nat
  buf : Task → Buf R
  tasks : List Task

def setT {β : Type} (f : Task → β) (t : Task) (v : β) : Task → β := fun u => if u = t then v else f u

/-- The constructors 466-473 and `init_ithreads` 475-482, with `_construct_rngs` 185-214: the streams of the background threads are seeded with
the numbers that follow those of the streams of the base class (which gets the seed `s` and has `W` streams). `none`: a sum of two
`int`s does not fit (undefined behaviour); the sum with the unsigned `i` (211) wraps. -/
def As.construct (E : Rng.Env σ δ R) (W wc : Nat) (s : Int) (junk : Nat → σ) (mem : Nat → R) : Option (As σ δ R) :=
  match Rng.Mt.construct E.B W s junk with
  | none => none
  | some mt =>
    if Rng.isInt (mt.lastSeed + W) then
      some { mt, wc, ctx := fun i => ⟨E.B.init (Rng.toInt32 (mt.lastSeed + W + i)), E.d0⟩, main := none, size := fun _ => 0, ofs := fun _ => 0,
             buf := fun _ => Buf.init 0 mem, tasks := [] }
    else none

/-- `preinit_additive_normal_distr`, `preinit_additive_norm` 234-242, 489-496; those of the base class do nothing (_i_rng.h:61-63). -/
def As.preinit (a : As σ δ R) (t : Task) (ne : Nat) : As σ δ R := { a with size := setT a.size t (a.size t + ne) }

/-- `AsynchRng::init_rng` 244-283. `mul` is the multiplication with `bufsizeMul`, with the conversions to `real_t` and back; `alloc n` is the
new block or `none` if there is no memory. Outer `none`: `abort()`. -/
def As.initAsynch (mul : Nat → Nat) (alloc : Nat → Option (Nat → R)) (a : As σ δ R) : Option (Bool × As σ δ R) :=
  if a.main.isSome then none
  else
    let a := { a with size := fun t => mul (a.size t) }
    let total := a.size .normal + a.size .norm
    if total = 0 then some (true, a)
    else
      match alloc total with
      | none => some (false, a)
      | some mem =>
        let ofs : Task → Nat := fun t => match t with
          | .normal => 0
          | .norm => a.size .normal
        some (true, { a with
          main := some total
          ofs := ofs
          buf := fun t => if a.size t ≠ 0 then Buf.init (a.size t) (fun k => mem (ofs t + k)) else Buf.init 0 mem
          tasks := a.tasks ++ (if a.size .normal ≠ 0 then [.normal] else []) ++ (if a.size .norm ≠ 0 then [.norm] else []) })

/-- `_AFRand_as::init_rng` 498-502; `init_rng` of the base class returns true and its `deinit_rng` does nothing (_i_rng.h:66-67). -/
def As.initRng (mul : Nat → Nat) (alloc : Nat → Option (Nat → R)) (a : As σ δ R) : Option (Bool × As σ δ R) :=
  let b := true
  match a.initAsynch mul alloc with
  | none => none
  | some (_, a') => some (b, a')

/-- `isInitialized` 284-286. -/
def As.isInitialized (a : As σ δ R) : Bool := a.main.isSome

/-- `deinit_rng` 287-301, 503-506. -/
def As.deinitRng (a : As σ δ R) : As σ δ R := { a with tasks := [], main := none, size := fun _ => 0 }

/-- One number of a task by a background thread: `distr(Rng)` for a distribution with mean 0 and deviation 1 (110-111, 357), `rg.Random()` (374;
taken to be the number `FPRandom<real_t>()` gives). -/
def next [Field R] (E : Rng.Env σ δ R) (t : Task) (c : Ctx σ δ) : R × Ctx σ δ :=
  match t with
  | .normal => let x := Rng.gNormal E.std 0 1 c.distr c.rng; (x.1, ⟨x.2.2, x.2.1⟩)
  | .norm => let x := E.B.real c.rng; (x.1, ⟨x.2, c.distr⟩)

/-- The loops 356-358, 373-375: `n` numbers in `pTmpMem`. -/
def generate [Field R] (E : Rng.Env σ δ R) (t : Task) : Nat → Ctx σ δ → List R × Ctx σ δ
  | 0, c => ([], c)
  | n + 1, c =>
    let x := next E t c
    let y := generate E t n x.2
    (x.1 :: y.1, y.2)

/-- The filling calls that are overridden (the other ones are those of the base class): `gen_vector(ptr, n, a)` 520-525,
`gen_vector(ptr, n, neg, pos)` 526-531, `gen_vector_norm` 535-540, `normal_vector` 641-646. -/
inductive Call (R : Type)
  | vec (n : Nat) (a : R)
  | between (n : Nat) (neg pos : R)
  | norm (n : Nat)
  | normal (n : Nat) (m st : R)

def Call.n : Call R → Nat
  | .vec n _ | .between n _ _ | .norm n | .normal n _ _ => n

/-- Which buffer: 409, 434, 437. -/
def Call.task : Call R → Task
  | .normal _ _ _ => .normal
  | _ => .norm

/-- The same call of the base class: 523, 529, 538, 644. -/
def Call.op : Call R → Rng.Op R
  | .vec n a => .vec n a
  | .between n neg pos => .between n neg pos
  | .norm n => .norm n
  | .normal n m st => .normal n m st

/-- `_apply_scaling` 384-406, one element. -/
def scaling [Add R] [Mul R] [DecidableEq R] (span ofs bestSpan bestOfs : R) (v : R) : R :=
  if ofs ≠ bestOfs ∨ span ≠ bestSpan then
    if ofs ≠ bestOfs ∧ span ≠ bestSpan then span * v + ofs
    else if ofs ≠ bestOfs then v + ofs else v * span
  else v

/-- Scaling by call: 521 and 527 with 438, 434 (none), 410. -/
def Call.scale [Ring R] [DecidableEq R] : Call R → R → R
  | .vec _ a => scaling (a * 2) (-a) 1 0
  | .between _ neg pos => scaling (pos - neg) neg 1 0
  | .norm _ => id
  | .normal _ m st => scaling st m 1 0

/-- The two `memcpy` of `_move_data` 332-337: the array at `ptr` afterwards. -/
def copyOut (b : Buf R) (r : Range) (arr : Nat → R) : Nat → R :=
  match r with
  | .one p n1 => fun k => if k < n1 then b.mem (p + k) else arr k
  | .two p n1 n2 =>
    let arr := fun k => if k < n1 then b.mem (p + k) else arr k
    fun k => if n1 ≤ k ∧ k < n1 + n2 then b.mem (k - n1) else arr k

/-- Loops over the array 390-403. -/
def scaleArr [Ring R] [DecidableEq R] (c : Call R) (arr : Nat → R) : Nat → R := fun k => if k < c.n then c.scale (arr k) else arr k

/-! ### All threads -/

/-- What a finished filling call left: the call, the array before and after it, and the numbers taken from the buffer (`none`: the base class made them). -/
structure Result (R : Type) where
  call : Call R
  before : Nat → R
  after : Nat → R
  raw : Option (List R)

/-- The object with the threads that use it. `busy i`: background thread `i` is between `_as_should_work` and `_as_done` of a task, with the
granted length. `call`: the main thread is between `acquire_data` and `release_data`. `seeding`: `seed` waits for the background threads
given. Ghosts: `made` and `used` (numbers put into the buffer of a task, and taken from it, since `init_rng`), `results`. -/
structure Sys (σ δ R : Type) where
  as : As σ δ R
  busy : Nat → Option (Task × Nat)
  call : Option (Call R × Range × (Nat → R))
  seeding : Option (Int × List Nat)
  made : Task → List R
  used : Task → List R
  results : List (Result R)

def setN {β : Type} (f : Nat → β) (i : Nat) (v : β) : Nat → β := fun j => if j = i then v else f j

/-- The main thread is between two calls. -/
def Sys.free (s : Sys σ δ R) : Prop := s.call = none ∧ s.seeding = none

def Sys.start (a : As σ δ R) : Sys σ δ R :=
  { as := a, busy := fun _ => none, call := none, seeding := none, made := fun _ => [], used := fun _ => [], results := [] }

/-- One step of some thread. `P` says which pools and schedules may go with a call of the base class. -/
inductive Step [Field R] [LinearOrder R] (E : Rng.Env σ δ R) (mul : Nat → Nat) (P : List ParRange → Prop) : Sys σ δ R → Sys σ δ R → Prop
  /-- `_as_normal_distr`, `_as_norm` up to `_as_should_work` (346-349, 364-367): a thread calls a task that is in the list (`BgWork.running_listed`) -/
  | work (s : Sys σ δ R) (i : Nat) (t : Task) (hi : i < s.as.wc) (ht : t ∈ s.as.tasks) (hb : s.busy i = none) :
      Step E mul P s { s with
        as := { s.as with buf := setT s.as.buf t ((s.as.buf t).shouldWork (memCount E.thr t)).1 }
        busy := setN s.busy i (if ((s.as.buf t).shouldWork (memCount E.thr t)).2 = 0 then none
          else some (t, ((s.as.buf t).shouldWork (memCount E.thr t)).2)) }
  /-- the rest of the task (351-361, 369-378) -/
  | done (s : Sys σ δ R) (i : Nat) (t : Task) (g : Nat) (hi : i < s.as.wc) (hb : s.busy i = some (t, g)) :
      Step E mul P s { s with
        as := { s.as with buf := setT s.as.buf t ((s.as.buf t).done (generate E t g (s.as.ctx i)).1)
                          ctx := setN s.as.ctx i (generate E t g (s.as.ctx i)).2 }
        busy := setN s.busy i none
        made := setT s.made t (s.made t ++ (generate E t g (s.as.ctx i)).1) }
  /-- a filling call finds the numbers in the buffer (`_move_data` 319-331) -/
  | take (s : Sys σ δ R) (c : Call R) (arr : Nat → R) (r : Range) (hf : s.free) (hm : s.as.main.isSome = true) (hz : s.as.size c.task ≠ 0)
      (hr : (s.as.buf c.task).acquire c.n = some r) :
      Step E mul P s { s with call := some (c, r, arr) }
  /-- and copies them, releases the range and scales (332-339, 384-406) -/
  | release (s : Sys σ δ R) (c : Call R) (arr : Nat → R) (r : Range) (hc : s.call = some (c, r, arr)) :
      Step E mul P s { s with
        as := { s.as with buf := setT s.as.buf c.task ((s.as.buf c.task).release r) }
        call := none
        used := setT s.used c.task (s.used c.task ++ (List.range c.n).map (copyOut (s.as.buf c.task) r arr))
        results := s.results ++ [⟨c, arr, scaleArr c (copyOut (s.as.buf c.task) r arr), some ((List.range c.n).map (copyOut (s.as.buf c.task) r arr))⟩] }
  /-- a filling call does not find the numbers in the buffer (323, 330) and is passed to the base class -/
  | pass (s : Sys σ δ R) (c : Call R) (arr : Nat → R) (ranges : List ParRange) (sched : List Nat) (mt : Rng.Mt σ) (xs : List R) (hf : s.free)
      (hP : P ranges)
      (hr : s.as.main.isSome = false ∨ s.as.size c.task = 0 ∨ (s.as.buf c.task).acquire c.n = none)
      (hc : s.as.mt.call E ranges arr sched c.op = some (mt, .reals xs)) :
      Step E mul P s { s with
        as := { s.as with mt := mt }
        results := s.results ++ [⟨c, arr, fun k => (xs[k]?).getD (arr k), none⟩] }
  /-- any other call of the base class that is not overridden -/
  | other (s : Sys σ δ R) (o : Rng.Op R) (ho : (∃ n a, o = .gtz n a) ∨ (∃ n p x y, o = .bern n p x y) ∨ (∃ k, o = .genI k) ∨ o = .genInt ∨ ∃ a, o = .genF a)
      (arr : Nat → R) (ranges : List ParRange) (sched : List Nat) (mt : Rng.Mt σ) (x : Rng.Out R) (hf : s.free)
      (hc : s.as.mt.call E ranges arr sched o = some (mt, x)) :
      Step E mul P s { s with as := { s.as with mt := mt } }
  /-- `seed` 484-487: the base class first, then `exec` on the background threads (217-226) -/
  | seed (s : Sys σ δ R) (sd : Int) (ranges : List ParRange) (hf : s.free) (hP : P ranges) :
      Step E mul P s { s with as := { s.as with mt := s.as.mt.seed E.B ranges sd }, seeding := some (sd, List.range s.as.wc) }
  /-- the function given to `exec` on thread `i`, which is not in a task then (bgworkers.h:300-309); `W` is `syncWc`, the number of threads of the
  base class -/
  | seedThread (s : Sys σ δ R) (sd : Int) (l1 l2 : List Nat) (i : Nat) (W : Nat) (ranges : List ParRange) (hP : P ranges) (hW : W = ranges.length + 1)
      (hs : s.seeding = some (sd, l1 ++ i :: l2)) (hb : s.busy i = none) :
      Step E mul P s { s with
        as := { s.as with ctx := setN s.as.ctx i ⟨E.B.initArr sd (i + W), (s.as.ctx i).distr⟩ }
        seeding := some (sd, l1 ++ l2) }
  /-- `exec` returns when all threads have called the function (`BgWork.exec_all_done`) -/
  | seeded (s : Sys σ δ R) (sd : Int) (hs : s.seeding = some (sd, [])) : Step E mul P s { s with seeding := none }
  | preinit (s : Sys σ δ R) (t : Task) (ne : Nat) (hf : s.free) : Step E mul P s { s with as := s.as.preinit t ne }
  /-- `init_rng`; `b` is what it returns -/
  | init (s : Sys σ δ R) (alloc : Nat → Option (Nat → R)) (b : Bool) (a : As σ δ R) (hf : s.free) (hi : s.as.initRng mul alloc = some (b, a)) :
      Step E mul P s { s with as := a, made := if a.main.isSome then fun _ => [] else s.made, used := if a.main.isSome then fun _ => [] else s.used }
  /-- `deinit_rng`: no thread is in a task once `delete_tasks` has returned (`BgWork.deleted_not_running`) -/
  | deinit (s : Sys σ δ R) (hf : s.free) (hb : ∀ i, s.busy i = none) : Step E mul P s { s with as := s.as.deinitRng }

inductive Reach [Field R] [LinearOrder R] (E : Rng.Env σ δ R) (mul : Nat → Nat) (P : List ParRange → Prop) (a0 : As σ δ R) : Sys σ δ R → Prop
  | start : Reach E mul P a0 (Sys.start a0)
  | step {s s' : Sys σ δ R} : Reach E mul P a0 s → Step E mul P s s' → Reach E mul P a0 s'

end Nntl.AsRng
