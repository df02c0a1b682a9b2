/-!
Lifetimes: networks, the objects they are given or make themselves (mathematics with its pool of threads, random generator, inspector) and packs of
layers, which live outside of the network. Line numbers without a file name refer to `/repo/nntl/common_nn_data.h`.

Objects are numbered in the order of their construction; a destroyed object is marked, its number is not used again (the reuse of memory by a later object is
not modelled: touching a destroyed object is undefined behaviour in any case). `dbg` tells whether assertions are compiled in.
-/
namespace Nntl.Life

inductive Out (α : Type) where
  | ok (a : α) | abort | ub

def Out.bind {α β : Type} : Out α → (α → Out β) → Out β
  | .ok a, f => f a
  | .abort, _ => .abort
  | .ub, _ => .ub

instance : Monad Out where
  pure := .ok
  bind := Out.bind

/-- `_SMath` with its pool of threads, `nntl/interface/math/smath.h` 128–133: `min` is `m_minTempStorageSize`, `stor` the size of
`m_threadTempRawStorage`. `by` (not in the code): the network that has made the object, `none` for objects of the user. -/
structure MathO where
  alive : Bool
  min : Nat
  stor : Nat
  by_ : Option Nat

/-- A random generator: `mt` is `is_multithreaded`, `thr` is `m_pThreads` of `_AFRand_mt`, `nntl/interface/rng/afrand_mt.h` 63, as the number of the object
of mathematics the pool belongs to. -/
structure RngO where
  alive : Bool
  mt : Bool
  thr : Option Nat
  by_ : Option Nat

structure InspO where
  alive : Bool
  by_ : Option Nat

/-- A pack of layers: `cd` is `m_pCommonData` of the layers (235), as the number of the network; `req`: temporary memory the layers ask for in `layer_init`. -/
structure LayO where
  alive : Bool
  cd : Option Nat
  req : Nat

/-- A network: `m_Layers` (`nntl/nnet.h` 111), `m_pMath`, `m_pRng`, `m_pInspect` (56–58), `bOwnMath`, `bOwnRng`, `bOwnInspect` (297); `init`:
`is_initialized()` 208–211. -/
structure NetO where
  alive : Bool
  lay : Nat
  math : Option Nat
  rng : Option Nat
  insp : Option Nat
  ownM : Bool
  ownR : Bool
  ownI : Bool
  init : Bool

/-- Everything. `passes`: which network was run, and which network the layers took for theirs meanwhile. -/
structure World where
  maths : Nat → Option MathO
  nM : Nat
  rngs : Nat → Option RngO
  nR : Nat
  insps : Nat → Option InspO
  nI : Nat
  lays : Nat → Option LayO
  nL : Nat
  nets : Nat → Option NetO
  nN : Nat
  passes : List (Nat × Nat)

def World.empty : World := ⟨fun _ => none, 0, fun _ => none, 0, fun _ => none, 0, fun _ => none, 0, fun _ => none, 0, []⟩

def put {α : Type} (f : Nat → Option α) (i : Nat) (x : α) : Nat → Option α := fun j => if j = i then some x else f j

/-! Access through a pointer or a reference: to a living object only. -/

def World.mathAt (w : World) : Option Nat → Out (Nat × MathO)
  | none => .ub
  | some i => match w.maths i with
    | some m => if m.alive then .ok (i, m) else .ub
    | none => .ub
def World.rngAt (w : World) : Option Nat → Out (Nat × RngO)
  | none => .ub
  | some i => match w.rngs i with
    | some m => if m.alive then .ok (i, m) else .ub
    | none => .ub
def World.inspAt (w : World) : Option Nat → Out (Nat × InspO)
  | none => .ub
  | some i => match w.insps i with
    | some m => if m.alive then .ok (i, m) else .ub
    | none => .ub
def World.layAt (w : World) (i : Nat) : Out LayO :=
  match w.lays i with
  | some m => if m.alive then .ok m else .ub
  | none => .ub
def World.netAt (w : World) (i : Nat) : Out NetO :=
  match w.nets i with
  | some m => if m.alive then .ok m else .ub
  | none => .ub

/-- `new(std::nothrow) iMath_t` (315–318); the object has no memory yet (`smath.h` 137–139). -/
def World.addMath (w : World) (by_ : Option Nat) : World := { w with maths := put w.maths w.nM ⟨true, 0, 0, by_⟩, nM := w.nM + 1 }
/-- `new(std::nothrow) iRng_t` (324–327); `afrand_mt.h` 89. -/
def World.addRng (w : World) (mt : Bool) (thr by_ : Option Nat) : World := { w with rngs := put w.rngs w.nR ⟨true, mt, thr, by_⟩, nR := w.nR + 1 }
/-- `new(std::nothrow) iInspect_t` (306–309). -/
def World.addInsp (w : World) (by_ : Option Nat) : World := { w with insps := put w.insps w.nI ⟨true, by_⟩, nI := w.nI + 1 }

/-- `_make_Math` 310–318: the world, and `m_pMath`. -/
def World.makeMath (w : World) (ok : Bool) : Option Nat → World × Option Nat
  | some i => (w, some i)
  | none => if ok then (w.addMath (some w.nN), some w.nM) else (w, none)
/-- `_make_Rng` 319–327. -/
def World.makeRng (w : World) (mt ok : Bool) : Option Nat → World × Option Nat
  | some i => (w, some i)
  | none => if ok then (w.addRng mt none (some w.nN), some w.nR) else (w, none)
/-- `_make_Inspector` 301–309. -/
def World.makeInsp (w : World) (ok : Bool) : Option Nat → World × Option Nat
  | some i => (w, some i)
  | none => if ok then (w.addInsp (some w.nN), some w.nI) else (w, none)

/-- `init_ithreads` of `_AFRand_mt`, `afrand_mt.h` 98–104, and line 349: only of generators with `is_multithreaded`. -/
def World.attach (dbg : Bool) (w : World) (mt : Bool) (math rng : Option Nat) : Out World :=
  if mt then do
    let r ← w.rngAt rng
    let m ← w.mathAt math
    if r.2.thr.isSome then (if dbg then .abort else pure w)
    else pure { w with rngs := put w.rngs r.1 { r.2 with thr := some m.1 } }
  else pure w

/-- The constructor, 337–352, and that of `nnet`, `nnet.h` 138–141. A pointer that is passed is not null. `mt` is `is_multithreaded` of the type of the
generator, `okM`, `okR`, `okI`: whether memory is there for the objects it makes. -/
def make (dbg : Bool) (w : World) (lay : Nat) (pI pM pR : Option Nat) (mt okM okR okI : Bool) : Out World :=
  let a := w.makeMath okM pM
  if dbg && a.2.isNone then .abort
  else
    let b := a.1.makeRng mt okR pR
    if dbg && b.2.isNone then .abort
    else
      let c := b.1.makeInsp okI pI
      if dbg && c.2.isNone then .abort
      else do
        let d ← c.1.attach dbg mt a.2 b.2
        pure { d with nets := put d.nets d.nN ⟨true, lay, a.2, b.2, c.2, pM.isNone, pR.isNone, pI.isNone, false⟩, nN := d.nN + 1 }

/-- `delete` of a pointer: of a null pointer nothing, of a destroyed object undefined. -/
def World.deleteMath (w : World) : Option Nat → Out World
  | none => .ok w
  | some i => (w.mathAt (some i)).bind fun m => .ok { w with maths := put w.maths m.1 { m.2 with alive := false } }
def World.deleteRng (w : World) : Option Nat → Out World
  | none => .ok w
  | some i => (w.rngAt (some i)).bind fun m => .ok { w with rngs := put w.rngs m.1 { m.2 with alive := false } }
def World.deleteInsp (w : World) : Option Nat → Out World
  | none => .ok w
  | some i => (w.inspAt (some i)).bind fun m => .ok { w with insps := put w.insps m.1 { m.2 with alive := false } }

/-- The destructor, 330–335 (that of `nnet`, `nnet.h` 135, is empty: the layers are not touched). -/
def destroy (w : World) (n : Nat) : Out World :=
  (w.netAt n).bind fun x =>
  (if x.ownM then w.deleteMath x.math else .ok w).bind fun a =>
  (if x.ownR then a.deleteRng x.rng else .ok a).bind fun b =>
  (if x.ownI then b.deleteInsp x.insp else .ok b).bind fun c =>
  .ok { c with nets := put c.nets n { x with alive := false } }

/-- The copy constructor of `nnet`, which the compiler generates: all members are copied (nothing forbids it: `nnet.h` 72–141, 277–352). -/
def copy (w : World) (n : Nat) : Out World := do
  let x ← w.netAt n
  pure { w with nets := put w.nets w.nN x, nN := w.nN + 1 }

/-- `deinit`, `nnet.h` 503–514: `deinit_layers`, `nntl/layers.h` 261–266 with `clean_common_data` (241); `deinit_rng`; `deinit` of the mathematics, `smath.h`
240–246; `common_nn_data::deinit` 115–120. -/
def deinit (w : World) (n : Nat) : Out World := do
  let x ← w.netAt n
  let l ← w.layAt x.lay
  let r ← w.rngAt x.rng
  let m ← w.mathAt x.math
  let _ := r
  pure { w with
    lays := put w.lays x.lay { l with cd := none }
    maths := put w.maths m.1 { m.2 with min := 0, stor := 0 }
    nets := put w.nets n { x with init := false } }

/-- `init` of the mathematics, `smath.h` 229–239. -/
def initMath (m : MathO) : MathO := { m with stor := max m.stor m.min }

/-- `_full_init`, `nnet.h` 375–413, without failures: the layers are given the data of this network (`set_common_data` 237–240) and ask for memory through it. -/
def fullInit (dbg : Bool) (w : World) (n : Nat) : Out World := do
  let x ← w.netAt n
  let _ ← w.inspAt x.insp
  let l ← w.layAt x.lay
  if dbg && l.cd.isSome then .abort
  else do
    let m ← w.mathAt x.math
    let _ ← w.rngAt x.rng
    pure { w with
      lays := put w.lays x.lay { l with cd := some n }
      maths := put w.maths m.1 (initMath { m.2 with min := max m.2.min l.req })
      nets := put w.nets n { x with init := true } }

/-- `_init`, `nnet.h` 335–348; `again`: the sizes of the batches are larger than those it is initialised for, or a new initialisation was asked for. -/
def initNet (dbg : Bool) (w : World) (n : Nat) (again : Bool) : Out World := do
  let x ← w.netAt n
  if x.init && !again then do
    let m ← w.mathAt x.math
    let _ ← w.inspAt x.insp
    pure { w with maths := put w.maths m.1 (initMath m.2) }
  else do
    let w ← deinit w n
    fullInit dbg w n

/-- Numbers are drawn: generators that work with threads use their pool, `afrand_mt.h` 111–116. -/
def World.draw (w : World) (rng : Option Nat) : Out Unit := do
  let r ← w.rngAt rng
  if r.2.mt then do
    let _ ← w.mathAt r.2.thr
    pure ()
  else pure ()

/-- A call that runs the network: it is initialised if necessary, then the layers work with the objects they find through their `m_pCommonData`
(249–258); `_istor_alloc`, `smath.h` 175–184, ends the program if more memory is needed than was asked for; with less memory than was asked
for an assertion (176) fails, and without assertions memory beyond the storage is used. -/
def pass (dbg : Bool) (w : World) (n : Nat) (again : Bool) : Out World := do
  let w ← initNet dbg w n again
  let x ← w.netAt n
  let l ← w.layAt x.lay
  match l.cd with
  | none => if dbg then .abort else .ub
  | some k => do
    let y ← w.netAt k
    let m ← w.mathAt y.math
    if (dbg && decide (m.2.stor < m.2.min)) = true then .abort
    else if m.2.min < l.req then .abort
    else if m.2.stor < l.req then .ub
    else do
      let _ ← w.inspAt y.insp
      w.draw y.rng
      pure { w with passes := (n, k) :: w.passes }

/-! ### What a program may do -/

inductive Op where
  | newMath | newRng (mt : Bool) (thr : Option Nat) | newInsp | newLay (req : Nat)
  | make (lay : Nat) (pI pM pR : Option Nat) (mt okM okR okI : Bool)
  | pass (n : Nat) (again : Bool)
  | deinit (n : Nat)
  | destroy (n : Nat)
  | copy (n : Nat)
  | draw (r : Nat)
  | delMath (i : Nat) | delRng (i : Nat) | delInsp (i : Nat) | delLay (i : Nat)
  deriving DecidableEq

/-- One action of the program. A generator is constructed with the pool of an object (`afrand_mt.h` 91–96) or without one. -/
def step (dbg : Bool) (w : World) : Op → Out World
  | .newMath => .ok (w.addMath none)
  | .newRng mt thr =>
    match thr with
    | none => .ok (w.addRng mt none none)
    | some i => (w.mathAt (some i)).bind fun _ => .ok (w.addRng mt (some i) none)
  | .newInsp => .ok (w.addInsp none)
  | .newLay req => .ok { w with lays := put w.lays w.nL ⟨true, none, req⟩, nL := w.nL + 1 }
  | .make lay pI pM pR mt okM okR okI => make dbg w lay pI pM pR mt okM okR okI
  | .pass n again => pass dbg w n again
  | .deinit n => deinit w n
  | .destroy n => destroy w n
  | .copy n => copy w n
  | .draw r => (w.draw (some r)).bind fun _ => .ok w
  | .delMath i => w.deleteMath (some i)
  | .delRng i => w.deleteRng (some i)
  | .delInsp i => w.deleteInsp (some i)
  | .delLay i => (w.layAt i).bind fun l => .ok { w with lays := put w.lays i { l with alive := false } }

def run (dbg : Bool) : List Op → World → Out World
  | [], w => .ok w
  | o :: os, w => (step dbg w o).bind (run dbg os)

end Nntl.Life
