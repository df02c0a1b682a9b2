/-
Model of the callable handles the thread pools keep the user's functors in: `utils::cmcforwarder`,
`utils::forwarder` and the policies that decide what is put into them (nntl/utils/forwarder.h,
nntl/utils/call_wrappers.h), and of the places the pools put functors into handles
(nntl/interface/threads/workers.h, bgworkers.h).

A handle is a raw storage plus a pointer to a function generated for the type last assigned.  The model keeps the
two apart: the storage knows nothing about the type of what it holds, and a call interprets the storage by the
function pointer, so that a mismatch is undefined behaviour rather than something that cannot be written.
-/
namespace Nntl.Fwd

variable {S A R : Type}

/-- A functor type: what the static assertions of forwarder.h:142-149, 230-232 look at, and its call operator, which
may change the state of the functor (`S` stands for the bytes of a functor). -/
structure FType (S A R : Type) where
  size : Nat
  align : Nat
  /-- `is_trivially_copyable` -/
  trivial : Bool
  /-- `is_trivially_copy_constructible` -/
  copyCtor : Bool
  /-- `is_trivially_move_constructible` -/
  moveCtor : Bool
  /-- `is_trivially_destructible` -/
  dtor : Bool
  call : S → A → S × R

/-- Which of the two class templates a handle is an instance of: `cmcforwarder` (forwarder.h:82) or `forwarder`
(forwarder.h:206). -/
inductive Kind where
  | cmc | fwd
deriving DecidableEq

/-- Is the functor expression an lvalue or an rvalue. -/
inductive Cat where
  | lv | rv
deriving DecidableEq

/-- What a program is compiled with: class template, `N` of the template, `sizeof(void*)`, alignment of
`aligned_storage_t<N>` (implementation defined) and the functor types of the program. -/
structure Env (S A R : Type) where
  kind : Kind
  N : Nat
  ptr : Nat
  al : Nat
  ty : Nat → FType S A R

/-- `sizeof(aligned_storage_t<N>)`: `N` rounded up to its alignment (forwarder.h:68-69). -/
def Env.storeSize (e : Env S A R) : Nat := (e.N + e.al - 1) / e.al * e.al

/-- The contents of `store_` (forwarder.h:73): nothing meaningful, bytes of a functor, or the address inside a
`reference_wrapper`. -/
inductive Store (S : Type) where
  | junk
  | bytes (s : S)
  | addr (a : Nat)

/-- The function `stub_` points to (forwarder.h:85, 153-162, 236-245): generated for the functor type number `t`, or
for `reference_wrapper` of it. -/
inductive Stub where
  | val (t : Nat)
  | ref (t : Nat)

/-- A handle (forwarder.h:82-85). -/
structure Handle (S : Type) where
  stub : Option Stub
  store : Store S

/-- A default constructed handle (forwarder.h:85, 103, 209): the pointer is null, the storage is uninitialized. -/
def Handle.fresh : Handle S := ⟨none, .junk⟩

/-- A functor object of the user: type and state. -/
structure Obj (S : Type) where
  ty : Nat
  st : S

/-- Functor objects of the user by address, `none` where there is no live object, and the handles of the program. -/
structure World (S : Type) where
  objs : Nat → Option (Obj S)
  hs : Nat → Handle S

/-- Outcome: fine, undefined behaviour, or the program does not compile. -/
inductive Out (α : Type) where
  | ok (a : α)
  | ub
  | reject

def Out.bind {α β : Type} (o : Out α) (f : α → Out β) : Out β :=
  match o with
  | .ok a => f a
  | .ub => .ub
  | .reject => .reject

def setObj (w : World S) (a : Nat) (o : Option (Obj S)) : World S :=
  { w with objs := fun b => if b = a then o else w.objs b }

def setH (w : World S) (h : Nat) (x : Handle S) : World S :=
  { w with hs := fun k => if k = h then x else w.hs k }

/-- The static assertions of `assign` for a functor type (forwarder.h:142-149 of `cmcforwarder`, 230-232 of
`forwarder`). -/
def accepts (e : Env S A R) (T : FType S A R) (c : Cat) : Bool :=
  match e.kind with
  | .cmc => decide (T.size ≤ e.storeSize) && T.dtor && (match c with | .lv => T.copyCtor | .rv => T.moveCtor)
  | .fwd => decide (T.size ≤ e.storeSize) && T.trivial && T.dtor

/-- `assign(f)` of a functor of type `t` with bytes `s` (forwarder.h:138-163, 226-246). The copy is a copy of the
bytes, the type being trivially copyable/movable. Simplification: a functor aligned stricter than the storage is
undefined behaviour for every address of the handle. -/
def assignVal (e : Env S A R) (t : Nat) (s : S) (c : Cat) : Out (Handle S) :=
  if accepts e (e.ty t) c then
    if (e.ty t).align ≤ e.al then .ok ⟨some (.val t), .bytes s⟩ else .ub
  else .reject

/-- `assign` of a `reference_wrapper` (same lines): it is trivially copyable and destructible and as large as a
pointer. -/
def assignRef (e : Env S A R) (t a : Nat) : Out (Handle S) :=
  if e.ptr ≤ e.storeSize then
    if e.ptr ≤ e.al then .ok ⟨some (.ref t), .addr a⟩ else .ub
  else .reject

/-- What `wrap` returns: the functor itself or a reference wrapper of it. -/
inductive Wrapped where
  | itself
  | byRef
deriving DecidableEq

/-- `cmcforwarderWrap<N>::wrap` (forwarder.h:378-396) and `forwarderWrap<N>::wrap` (398-425). -/
def wrap (e : Env S A R) (T : FType S A R) : Wrapped :=
  match e.kind with
  | .cmc => if T.size ≤ e.N then .itself else .byRef
  | .fwd => if T.trivial = true ∧ T.size ≤ e.N then .itself else if T.trivial = true ∧ T.size > e.N then .byRef else .byRef

/-- A call of a live object with an argument: the new world and the result; undefined behaviour if there is no live
object of that type. -/
def callAt (e : Env S A R) (w : World S) (t a : Nat) (x : A) : Out (World S × R) :=
  match w.objs a with
  | some o =>
    if o.ty = t then .ok (setObj w a (some ⟨t, ((e.ty t).call o.st x).1⟩), ((e.ty t).call o.st x).2) else .ub
  | none => .ub

/-- `operator()` (forwarder.h:127-132): there is no check of `stub_` (the assert is commented out); `const_cast` lets
the call change the stored functor. -/
def callHandle (e : Env S A R) (w : World S) (h : Nat) (x : A) : Out (World S × R) :=
  match (w.hs h).stub, (w.hs h).store with
  | some (.val t), .bytes s =>
    .ok (setH w h ⟨some (.val t), .bytes ((e.ty t).call s x).1⟩, ((e.ty t).call s x).2)
  | some (.ref t), .addr a => callAt e w t a x
  | _, _ => .ub

/-- What a program can do with functors and handles. -/
inductive Op (S A : Type) where
  /-- a functor object of type `t` with state `s` comes to life at address `a` -/
  | new (a t : Nat) (s : S)
  /-- the object at `a` ends -/
  | kill (a : Nat)
  /-- the object at `a` is called directly -/
  | callObj (a : Nat) (x : A)
  /-- `h = f`, `h.assign(f)` or construction of `h` from the object at `a`, without a policy -/
  | assign (h a : Nat) (c : Cat)
  /-- the same through the policy: `h = wrap(f)` -/
  | give (h a : Nat) (c : Cat)
  /-- `h.assign(nullptr)`, `h = nullptr` -/
  | null (h : Nat)
  /-- `h.reset()` -/
  | reset (h : Nat)
  /-- `h = k` of two handles -/
  | copy (h k : Nat)
  /-- `swap(h, k)` -/
  | swap (h k : Nat)
  /-- `h(x)` -/
  | callH (h : Nat) (x : A)
  /-- `bool(h)` -/
  | test (h : Nat)

/-- What the program gets to see. -/
inductive Obs (R : Type) where
  | none
  | res (r : R)
  | bool (b : Bool)

/-- `explicit operator bool` (forwarder.h:125). -/
def isSet (x : Handle S) : Bool := x.stub.isSome

/-- The handle made of the object at `a` by `h = wrap(f)`: what the pools do (workers.h:169, 180, 226, 238; bgworkers.h:243,
260). -/
def giveHandle (e : Env S A R) (o : Obj S) (a : Nat) (c : Cat) : Out (Handle S) :=
  match wrap e (e.ty o.ty) with
  | .itself => assignVal e o.ty o.st c
  | .byRef => assignRef e o.ty a

/-- One operation. Putting a new object where a live one is, and using an object that ended, are undefined behaviour.
`assign(nullptr)`: forwarder.h:134-136 of `cmcforwarder`; `forwarder` declares its own `assign` (227), which hides
it, so that a null pointer is taken for a functor and the program does not compile. Copying: forwarder.h:109-112,
210-213 (defaulted). Swapping: forwarder.h:248-250 and `std::swap`. -/
def step (e : Env S A R) (w : World S) : Op S A → Out (World S × Obs R)
  | .new a t s =>
    match w.objs a with
    | some _ => .ub
    | none => .ok (setObj w a (some ⟨t, s⟩), .none)
  | .kill a =>
    match w.objs a with
    | some _ => .ok (setObj w a none, .none)
    | none => .ub
  | .callObj a x =>
    match w.objs a with
    | some o => (callAt e w o.ty a x).bind fun p => .ok (p.1, .res p.2)
    | none => .ub
  | .assign h a c =>
    match w.objs a with
    | some o => (assignVal e o.ty o.st c).bind fun x => .ok (setH w h x, .none)
    | none => .ub
  | .give h a c =>
    match w.objs a with
    | some o => (giveHandle e o a c).bind fun x => .ok (setH w h x, .none)
    | none => .ub
  | .null h =>
    match e.kind with
    | .cmc => .ok (setH w h ⟨none, (w.hs h).store⟩, .none)
    | .fwd => .reject
  | .reset h => .ok (setH w h ⟨none, (w.hs h).store⟩, .none)
  | .copy h k => .ok (setH w h (w.hs k), .none)
  | .swap h k => .ok (setH (setH w h (w.hs k)) k (w.hs h), .none)
  | .callH h x => (callHandle e w h x).bind fun p => .ok (p.1, .res p.2)
  | .test h => .ok (w, .bool (isSet (w.hs h)))

/-- A program: a list of operations, with what it got to see. -/
def run (e : Env S A R) (w : World S) : List (Op S A) → Out (World S × List (Obs R))
  | [] => .ok (w, [])
  | op :: ops => (step e w op).bind fun p => (run e p.1 ops).bind fun q => .ok (q.1, p.2 :: q.2)

/-- At the beginning there are no functors and every handle is empty. -/
def World.start : World S := ⟨fun _ => none, fun _ => Handle.fresh⟩

/-- `BgWorkers::add_task` (bgworkers.h:228-246) with the functor at `a`: the static assertion (235-240) asks what
`wrap` returns to be an lvalue or a reference wrapper; the handle `h` is the one inside the new element of the list of
tasks, constructed from it (243 and 50-51). Ordering by priorities copies handles, which is `copy` and `swap`. -/
def addTask (e : Env S A R) (w : World S) (h a : Nat) (c : Cat) : Out (World S) :=
  match w.objs a with
  | none => .ub
  | some o =>
    if c = .lv ∨ wrap e (e.ty o.ty) = .byRef then
      (giveHandle e o a c).bind fun x => .ok (setH w h x)
    else .reject

/-- `add_task(f())` of a temporary: the functor lives till the end of the full expression. -/
def addTaskTemp (e : Env S A R) (w : World S) (h a t : Nat) (s : S) : Out (World S) :=
  (step e w (.new a t s)).bind fun p => (addTask e p.1 h a .rv).bind fun w' =>
    (step e w' (.kill a)).bind fun q => .ok q.1

/-- Who calls the functor in `run`/`reduce` of the pool: the calling thread or a worker. -/
inductive Who where
  | main | worker
deriving DecidableEq

/-- The calls of one `run`/`reduce` (workers.h:175-197, 233-260, 291-324) in the order they happen: the calling thread
calls the user's object (`F(...)`, 192 and 252), the workers call the handle (`m_fnRun`, `m_fnReduce`, 306, 309).
Simplification: a call is one indivisible step. -/
def poolCalls (e : Env S A R) (w : World S) (h a : Nat) : List (Who × A) → Out (World S × List R)
  | [] => .ok (w, [])
  | (.main, x) :: l =>
    match w.objs a with
    | some o => (callAt e w o.ty a x).bind fun p => (poolCalls e p.1 h a l).bind fun q => .ok (q.1, p.2 :: q.2)
    | none => .ub
  | (.worker, x) :: l =>
    (callHandle e w h x).bind fun p => (poolCalls e p.1 h a l).bind fun q => .ok (q.1, p.2 :: q.2)

/-- `run(F, cnt)`/`reduce` of the pool with `cnt > 1` (workers.h:163-197, 211-260): the handle is assigned `F` as an
lvalue whatever it was passed as (180, 238), then the calls happen. -/
def poolRun (e : Env S A R) (w : World S) (h a : Nat) (l : List (Who × A)) : Out (World S × List R) :=
  match w.objs a with
  | none => .ub
  | some o => (giveHandle e o a .lv).bind fun x => poolCalls e (setH w h x) h a l

end Nntl.Fwd
