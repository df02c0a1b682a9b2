import Verif.Threads.PartitionModel
import Verif.Matrix.Model
import Mathlib.Algebra.Field.Rat
import Mathlib.Algebra.Order.Floor.Defs
import Mathlib.Algebra.Order.Field.Basic
/-! Model of the random number generators: `nntl/interface/_i_rng.h` (`rng_helper`), `nntl/interface/rng/afrand.h` (`AFRand`),
`nntl/interface/rng/afrand_mt.h` (`AFRand_mt`), `nntl/interface/rng/cstd.h` (`CStd`), `nntl/interface/rng/distr_normal_naive.h`.

The bit generators themselves (`AFog::CRandomMersenne`, `CRandomSFMT`, `std::rand`) and `std::normal_distribution` are not in the repository:
they are parameters. Numbers of type `real_t` are elements of a field (no rounding) except where a rounding function is named. -/
namespace Nntl.Rng
open Nntl.Threads

/-- What the code uses of an Agner Fog generator with the state `σ` (`_extern/agner.org/AF_randomc_h/random.h`, not in the repository):
`init s` is the constructor and `RandomInit`, `initArr a b` is `RandomInitByArray` with the array `{a, b}`, `real` is `FPRandom<real_t>`,
`bits` is `BRandom`, `irandX` is `IRandomX(min, max)`. -/
structure Base (σ R : Type) where
  init : Int → σ
  initArr : Int → Int → σ
  real : σ → R × σ
  bits : σ → Nat × σ
  irandX : σ → Int → Int → Int × σ

/-- How one element is made: `δ` is a local object of the filling loop (the distribution object of `_inormal_vector_st`), `σ` is the stream. -/
abbrev Gen (σ δ β : Type) := δ → σ → β × δ × σ

/-- Assignment to one element. -/
def put {β : Type} (f : Nat → β) (k : Nat) (v : β) : Nat → β := fun j => if j = k then v else f j

variable {σ δ β R : Type}

/-! ### The loops of `AFRand_mt`: several threads at once -/

/-- One thread in a filling loop (`_igen_vector_st` afrand_mt.h:180-192, `_igen_vector_norm_st` 213-221, `_igen_vector_gtz_st` 246-260,
`_ibernoulli_vector_st` 290-303, `_inormal_vector_st` 336-342): `tid` selects the stream, `ptr` and `pE` are the pointers of the loop
(offsets from the beginning of the array), `loc` is the local object, `reg` holds an element that is generated but not stored yet. -/
structure Job (δ β : Type) where
  tid : Nat
  ptr : Nat
  pE : Nat
  loc : δ
  reg : Option β

/-- All that the threads of one `run()` share: the streams `m_Rngs` and the array being filled. -/
structure Sys (σ δ β : Type) where
  rngs : Nat → σ
  mem : Nat → β
  jobs : List (Job δ β)

/-- Thread number `i` makes one step: it leaves the loop, takes an element from its stream, or stores the element and moves the pointer
(the loops cited at `Job`). -/
def Sys.step (g : Gen σ δ β) (s : Sys σ δ β) (i : Nat) : Sys σ δ β :=
  match s.jobs[i]? with
  | none => s
  | some j =>
    match j.reg with
    | some v => { s with mem := put s.mem j.ptr v, jobs := s.jobs.set i { j with reg := none, ptr := j.ptr + 1 } }
    | none =>
      if j.ptr = j.pE then s
      else
        let x := g j.loc (s.rngs j.tid)
        { s with rngs := put s.rngs j.tid x.2.2, jobs := s.jobs.set i { j with loc := x.2.1, reg := some x.1 } }

/-- Steps in the order given by a schedule. -/
def Sys.run (g : Gen σ δ β) (s : Sys σ δ β) (sched : List Nat) : Sys σ δ β := sched.foldl (Sys.step g) s

/-- All threads have left their loops: this is when `run()` returns (workers.h:164-197). -/
def Sys.finished (s : Sys σ δ β) : Bool := s.jobs.all fun j => j.ptr == j.pE && j.reg.isNone

/-- The `_mt` versions: `m_pThreads->run([..](const par_range_t& r) { _i..._st(ptr, .., elms_range(r), r.tid()) }, n)`
(afrand_mt.h:162-167, 193-198, 222-227, 263-268, 283-289, 316-321). `ranges` is the pool (interface/threads/workers.h). -/
def Sys.start (ranges : List ParRange) (n : Nat) (d0 : δ) (rngs : Nat → σ) (mem : Nat → β) : Sys σ δ β :=
  { rngs, mem, jobs := (runCalls ranges n 0).map fun r => ⟨r.tid, r.offset, r.offset + r.cnt, d0, none⟩ }

/-- The streams and the array after an `_mt` call; `none` while some thread still works. -/
def fillMt (g : Gen σ δ β) (ranges : List ParRange) (n : Nat) (d0 : δ) (rngs : Nat → σ) (mem : Nat → β) (sched : List Nat) :
    Option ((Nat → σ) × (Nat → β)) :=
  let s := (Sys.start ranges n d0 rngs mem).run g sched
  if s.finished then some (s.rngs, s.mem) else none

/-- The filling loop by one thread, from `ptr` on, `k` elements. -/
def loop (g : Gen σ δ β) : Nat → Nat → δ → σ → (Nat → β) → σ × (Nat → β)
  | 0, _, _, s, mem => (s, mem)
  | k + 1, ptr, d, s, mem =>
    let x := g d s
    loop g k (ptr + 1) x.2.1 x.2.2 (put mem ptr x.1)

/-- The `_st` versions: the stream of the main thread only (afrand_mt.h:158-161, 176-179, 209-212, 240-243, 278-282, 312-315). -/
def fillSt (g : Gen σ δ β) (n : Nat) (d0 : δ) (rngs : Nat → σ) (mem : Nat → β) : (Nat → σ) × (Nat → β) :=
  let r := loop g n 0 d0 (rngs 0) mem
  (put rngs 0 r.1, r.2)

/-- The choice between them: `if (n < Thresholds_t::bnd_...)` (afrand_mt.h:152-157, 170-175, 203-208, 233-238, 273-277, 307-311). -/
def fill (bnd : Nat) (g : Gen σ δ β) (ranges : List ParRange) (n : Nat) (d0 : δ) (rngs : Nat → σ) (mem : Nat → β) (sched : List Nat) :
    Option ((Nat → σ) × (Nat → β)) :=
  if n < bnd then some (fillSt g n d0 rngs mem) else fillMt g ranges n d0 rngs mem sched

/-! ### Elements -/

/-- `static_cast<real_t>(rg.FPRandom<real_t>()*rSpan) + ofs` (afrand_mt.h:190). -/
def gUni [Add R] [Mul R] (B : Base σ R) (span ofs : R) : Gen σ Unit R := fun _ s =>
  let x := B.real s
  (x.1 * span + ofs, (), x.2)

/-- `gen_vector(ptr, n, a)`: span `a*2` and offset `-a` (afrand_mt.h:160, 164). -/
def gSym [Ring R] (B : Base σ R) (a : R) : Gen σ Unit R := gUni B (a * 2) (-a)

/-- `gen_vector(ptr, n, neg, pos)`: span `pos - neg`, offset `neg` (afrand_mt.h:178, 195). -/
def gBetween [Ring R] (B : Base σ R) (neg pos : R) : Gen σ Unit R := gUni B (pos - neg) neg

/-- The same with rounding: `rp` rounds the product to `real_t` (through the type of `FPRandom`), `rs` rounds sums (afrand_mt.h:178, 190). -/
def gUniRnd [Ring R] (B : Base σ R) (rp rs : R → R) (span ofs : R) : Gen σ Unit R := fun _ s =>
  let x := B.real s
  (rs (rp (x.1 * span) + ofs), (), x.2)

/-- `gen_vector(ptr, n, a)` and `gen_vector(ptr, n, neg, pos)` with rounding; doubling and changing the sign are exact. -/
def gSymRnd [Ring R] (B : Base σ R) (rp rs : R → R) (a : R) : Gen σ Unit R := gUniRnd B rp rs (a * 2) (-a)
def gBetweenRnd [Ring R] (B : Base σ R) (rp rs : R → R) (neg pos : R) : Gen σ Unit R := gUniRnd B rp rs (rs (pos - neg)) neg

/-- `gen_vector_norm` (afrand_mt.h:219). -/
def gNorm (B : Base σ R) : Gen σ Unit R := fun _ s => let x := B.real s; (x.1, (), x.2)

/-- `gen_vector_gtz` with `BaseType = real_t` (afrand_mt.h:258). -/
def gGtz [Mul R] (B : Base σ R) (a : R) : Gen σ Unit R := fun _ s => let x := B.real s; (x.1 * a, (), x.2)

/-- `gen_vector_gtz` with an integral `BaseType`: the cast drops the fractional part of a non-negative number (afrand_mt.h:255-258). -/
def gGtzInt [Ring R] [LinearOrder R] [FloorRing R] (B : Base σ R) (a : Int) : Gen σ Unit Int := fun _ s =>
  let x := B.real s
  (⌊x.1 * (a : R)⌋, (), x.2)

/-- `rg.FPRandom<real_t>() < rP ? posVal : negVal` (afrand_mt.h:301). -/
def gBern [LT R] [DecidableLT R] (B : Base σ R) (p pos neg : R) : Gen σ Unit R := fun _ s =>
  let x := B.real s
  (if x.1 < p then pos else neg, (), x.2)

/-- `distr(w)` for a `std::normal_distribution<real_t> distr(m, st)` (afrand_mt.h:337-341): `std` is the standard normal deviate the library
makes of the bits of the stream, the distribution object keeps `δ`; a deviate with mean `m` and deviation `st` is `m + st * z`. -/
def gNormal [Add R] [Mul R] (std : δ → σ → R × δ × σ) (m st : R) : Gen σ δ R := fun d s =>
  let x := std d s
  (m + st * x.1, x.2.1, x.2.2)

/-! ### The object -/

/-- `_AFRand_mt` (afrand_mt.h:63-68): `m_Rngs` (indices below the number of threads) and `m_lastSeed`. -/
structure Mt (σ : Type) where
  rngs : Nat → σ
  lastSeed : Int

/-- Range of `int`. -/
def isInt (x : Int) : Prop := -2147483648 ≤ x ∧ x ≤ 2147483647
instance (x : Int) : Decidable (isInt x) := by unfold isInt; infer_instance

/-- `_construct_rngs(s)` (afrand_mt.h:71-84), called by the constructors (91-96) and `init_ithreads` (98-104) with `wc` threads: stream `i` is
seeded with `s+i`. `none`: the sum does not fit `int` (undefined behaviour). `junk` is outside of the vector. -/
def Mt.construct (B : Base σ R) (wc : Nat) (s : Int) (junk : Nat → σ) : Option (Mt σ) :=
  if ∀ i, i < wc → isInt (s + i) then some ⟨fun i => if i < wc then B.init (s + i) else junk i, s⟩ else none

/-- `seed(s)` (afrand_mt.h:108-121): one item of work per thread of the pool, the item seeds the stream of the thread it happens to run on.
Threads write to their own streams only, so the order does not matter: the calls are taken in the order of the list. -/
def Mt.seed (B : Base σ R) (ranges : List ParRange) (s : Int) (m : Mt σ) : Mt σ :=
  ⟨(runCalls ranges (ranges.length + 1) 0).foldl (fun f r => put f r.tid (B.initArr s r.tid)) m.rngs, s⟩

/-- `reseed()` (afrand_mt.h:122). -/
def Mt.reseed (B : Base σ R) (ranges : List ParRange) (m : Mt σ) : Mt σ := m.seed B ranges m.lastSeed

/-- `static_cast<int>` of a 64-bit value. -/
def toInt32 (x : Int) : Int := (x + 2147483648) % 4294967296 - 2147483648

/-- `gen_i(lessThan)` (afrand_mt.h:125-132, afrand.h:62-68): `IRandomX(0, static_cast<int>(lessThan - 1))` of the first stream. -/
def genI (B : Base σ R) (s : σ) (lessThan : Int) : Int × σ := B.irandX s 0 (toInt32 (lessThan - 1))

/-- `s64to32` (_i_rng.h:160-162). -/
def s64to32 (v : Nat) : Nat := (v % 4294967296) ^^^ ((v >>> 32) % 4294967296)

/-- The seed `seed64(v)` passes on: `static_cast<seed_t>(s64to32(v))` (_i_rng.h:182-184), `seed_t` is `int` (49). -/
def seed64 (v : Nat) : Int := toInt32 (s64to32 v)

/-! ### Calls of `AFRand_mt` -/

/-- Thresholds (afrand_mt_thr.h:47-102). -/
structure Thr where
  vec : Nat
  gtz : Nat
  norm : Nat
  bern : Nat
  normal : Nat

/-- Everything that does not change: the generator, the library's normal deviates and their initial local state, the thresholds. -/
structure Env (σ δ R : Type) where
  B : Base σ R
  std : δ → σ → R × δ × σ
  d0 : δ
  thr : Thr

/-- Calls a user makes. -/
inductive Op (R : Type)
  | seed (s : Int)
  | reseed
  | vec (n : Nat) (a : R)
  | between (n : Nat) (neg pos : R)
  | norm (n : Nat)
  | gtz (n : Nat) (a : R)
  | bern (n : Nat) (p pos neg : R)
  | normal (n : Nat) (m st : R)
  | genI (lessThan : Int)
  | genInt
  | genF (a : R)

/-- What the user gets: nothing, the elements of the vector, an integer, a number. -/
inductive Out (R : Type)
  | nothing
  | reals (xs : List R)
  | int (k : Int)
  | real (x : R)

/-- A filling call as a call of the object: `mem` is what the array holds before. -/
def Mt.filled (bnd : Nat) (g : Gen σ δ R) (d0 : δ) (ranges : List ParRange) (n : Nat) (m : Mt σ) (mem : Nat → R) (sched : List Nat) :
    Option (Mt σ × Out R) :=
  (fill bnd g ranges n d0 m.rngs mem sched).map fun p => ({ m with rngs := p.1 }, .reals ((List.range n).map p.2))

/-- One call: `seed`/`reseed` (afrand_mt.h:108-122), `gen_i` (125-132), `gen_int` (134), `gen_f` (_i_rng.h:205), and the filling calls;
`mem` is what the array holds before the call and `sched` how the threads run. -/
def Mt.call [Field R] [LinearOrder R] (E : Env σ δ R) (ranges : List ParRange) (m : Mt σ) (mem : Nat → R) (sched : List Nat) :
    Op R → Option (Mt σ × Out R)
  | .seed s => some (m.seed E.B ranges s, .nothing)
  | .reseed => some (m.reseed E.B ranges, .nothing)
  | .vec n a => m.filled E.thr.vec (gSym E.B a) () ranges n mem sched
  | .between n neg pos => m.filled E.thr.vec (gBetween E.B neg pos) () ranges n mem sched
  | .norm n => m.filled E.thr.norm (gNorm E.B) () ranges n mem sched
  | .gtz n a => m.filled E.thr.gtz (gGtz E.B a) () ranges n mem sched
  | .bern n p pos neg => m.filled E.thr.bern (gBern E.B p pos neg) () ranges n mem sched
  | .normal n mn st => m.filled E.thr.normal (gNormal E.std mn st) E.d0 ranges n mem sched
  | .genI k => let x := genI E.B (m.rngs 0) k; some ({ m with rngs := put m.rngs 0 x.2 }, .int x.1)
  | .genInt => let x := E.B.bits (m.rngs 0); some ({ m with rngs := put m.rngs 0 x.2 }, .int x.1)
  | .genF a => let x := E.B.real (m.rngs 0); some ({ m with rngs := put m.rngs 0 x.2 }, .real (a * x.1))

/-- What goes with a call but is not its argument: the ranges the pool holds from earlier work, the contents of the array, the schedule. -/
structure World (R : Type) where
  ranges : List ParRange
  mem : Nat → R
  sched : List Nat

/-- A sequence of calls. `none`: a thread is still working. -/
def Mt.calls [Field R] [LinearOrder R] (E : Env σ δ R) : Mt σ → List (Op R × World R) → Option (Mt σ × List (Out R))
  | m, [] => some (m, [])
  | m, (o, w) :: rest =>
    match m.call E w.ranges w.mem w.sched o with
    | none => none
    | some (m', x) => (m'.calls E rest).map fun p => (p.1, x :: p.2)

/-! ### Generators of one thread -/

/-- `AFRand::gen_vector(ptr, n, a)`: `scale*static_cast<real_t>(gen_f_norm() - 0.5)`, `scale = 2*a` (afrand.h:84-95). -/
def gAf [Field R] (B : Base σ R) (a : R) : Gen σ Unit R := fun _ s => let x := B.real s; (2 * a * (x.1 - 1 / 2), (), x.2)

/-- What `CStd` uses: `_rand()` and `_rand_max()` (cstd.h:122-133). -/
structure CRand (σ : Type) where
  rand : σ → Nat × σ
  max : Nat

/-- `gen_f_norm` (cstd.h:84-87) and one element of `gen_vector_norm` (102-108). -/
def CRand.norm [Field R] (C : CRand σ) : Gen σ Unit R := fun _ s => let x := C.rand s; ((x.1 : R) / (C.max : R), (), x.2)

/-- One element of `CStd::gen_vector` (cstd.h:91-98). -/
def CRand.sym [Field R] (C : CRand σ) (a : R) : Gen σ Unit R := fun _ s =>
  let x := C.rand s
  (2 * a * ((x.1 : R) / (C.max : R) - 1 / 2), (), x.2)

/-- One element of `CStd::gen_vector_gtz`, `BaseType = real_t` (cstd.h:110-118). -/
def CRand.gtz [Field R] (C : CRand σ) (a : R) : Gen σ Unit R := fun _ s =>
  let x := C.rand s
  (a * ((x.1 : R) / (C.max : R)), (), x.2)

/-- One element of `CStd::gen_vector_gtz`, integral `BaseType` (cstd.h:110-118). -/
def CRand.gtzInt [Field R] [LinearOrder R] [FloorRing R] (C : CRand σ) (a : Int) : Gen σ Unit Int := fun _ s =>
  let x := C.rand s
  (⌊(a : R) * ((x.1 : R) / (C.max : R))⌋, (), x.2)

/-- `CStd::gen_i` (cstd.h:71-75): `_rand() % lessThan`. `none`: division by zero. -/
def CRand.genI (C : CRand σ) (s : σ) (lessThan : Nat) : Option (Nat × σ) :=
  if lessThan = 0 then none else let x := C.rand s; some (x.1 % lessThan, x.2)

/-- `CStd::gen_int` (cstd.h:78) is a number from 0 to `_rand_max()`, while `min()` and `max()` (_i_rng.h:199-201) are the limits of the integer
type: `std::generate_canonical`, which distributions are built on, makes of successive numbers `x` the sum of `(x - min) * r^i` over `r^k`,
`r = max - min + 1`. This is the sum; the first number has the lowest weight. -/
def canonNum (lo hi : Int) : List Int → Int
  | [] => 0
  | x :: xs => (x - lo) + (hi - lo + 1) * canonNum lo hi xs

/-- `std::generate_canonical` of the numbers `xs`. -/
def canonical (lo hi : Int) (xs : List Int) : Rat := (canonNum lo hi xs : Rat) / ((hi - lo + 1 : Int) : Rat) ^ xs.length

/-- `rng_helper::bernoulli_vector` (_i_rng.h:210-219), one element, for a generator `f` of numbers from 0 to 1. -/
def gBernOf [LT R] [DecidableLT R] (f : Gen σ Unit R) (p pos neg : R) : Gen σ Unit R := fun d s =>
  let x := f d s
  (if x.1 < p then pos else neg, x.2.1, x.2.2)

/-- `rng_helper::normal_vector(ptr, n, m, st)` (_i_rng.h:237-242), used by `AFRand` and `CStd`: the distribution object is made of `m` and `n`. -/
def helperNormal [Field R] (std : δ → σ → R × δ × σ) (d0 : δ) (n : Nat) (m _st : R) (s : σ) (mem : Nat → R) : σ × (Nat → R) :=
  loop (gNormal std m (n : R)) n 0 d0 s mem

/-! ### Matrices (`rng_helper`, _i_rng.h:220-301, release build: the assertions are not there) -/

/-- A function that fills the first `n` elements of an array. -/
abbrev Filler (σ R : Type) := Nat → σ → (Nat → R) → σ × (Nat → R)

open Nntl.Matrix in
/-- `gen_matrix`, `gen_matrix_norm`, `gen_matrix_gtz`, `bernoulli_matrix`, `normal_matrix` (_i_rng.h:220-223, 243-245, 250-253, 275-278,
287-290) and `distr_normal_naive::gen_matrix` (distr_normal_naive.h:66-69): all elements. -/
def genMatrix (f : Filler σ R) (m : Mtx R) (s : σ) : σ × Mtx R :=
  let x := f m.numel s m.data
  (x.1, { m with data := x.2 })

open Nntl.Matrix in
/-- `gen_matrix_no_bias`, `gen_matrix_no_bias_norm`, `gen_matrix_no_bias_gtz` (_i_rng.h:254-258, 279-283, 291-295) and
`distr_normal_naive::gen_matrix_no_bias` (distr_normal_naive.h:71-74): the first `numel_no_bias()` elements. -/
def genMatrixNoBias (f : Filler σ R) (m : Mtx R) (s : σ) : σ × Mtx R :=
  let x := f m.numelNoBias s m.data
  (x.1, { m with data := x.2 })

open Nntl.Matrix in
/-- `gen_matrixAny` (_i_rng.h:263-272): `numel(emulatesBiases() && bSampleInRow())` elements, then the bias row of the other layout. -/
def genMatrixAny [OfNat R 1] (f : Filler σ R) (m : Mtx R) (s : σ) : σ × Mtx R :=
  let x := f (if m.emul && !m.bir then m.numelNoBias else m.numel) s m.data
  let m' := { m with data := x.2 }
  (x.1, if m.emul && m.bir then m'.fillRow (m'.rows - 1) 1 else m')

end Nntl.Rng
