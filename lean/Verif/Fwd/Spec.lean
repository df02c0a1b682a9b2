import Verif.Fwd.Model
/-
What a user expects of callable handles, without the raw storage and the function pointer.
-/
namespace Nntl.Fwd

variable {S A R : Type}

/-- What a handle means: nothing, a functor of its own (type and state), or somebody's functor. -/
inductive Mean (S : Type) where
  | empty
  | own (t : Nat) (s : S)
  | other (t a : Nat)

/-- A functor small (and simple) enough to be kept by value. -/
def Small (e : Env S A R) (T : FType S A R) : Prop :=
  T.size ≤ e.N ∧ (e.kind = .fwd → T.trivial = true)

instance (e : Env S A R) (T : FType S A R) : Decidable (Small e T) := by unfold Small; infer_instance

/-- The program compiles: the functor fits into the storage, ends without a destructor, and copying it (moving it, for
an rvalue) is copying its bytes; `forwarder` asks for all of that at once. -/
def Compiles (e : Env S A R) (T : FType S A R) (c : Cat) : Prop :=
  T.size ≤ e.storeSize ∧ T.dtor = true ∧ (e.kind = .fwd → T.trivial = true) ∧
  (e.kind = .cmc → c = .lv → T.copyCtor = true) ∧ (e.kind = .cmc → c = .rv → T.moveCtor = true)

instance (e : Env S A R) (T : FType S A R) (c : Cat) : Decidable (Compiles e T c) := by
  unfold Compiles; infer_instance

/-- The state of a functor after calls with the arguments `xs`. -/
def stateAfter (T : FType S A R) (s : S) (xs : List A) : S := xs.foldl (fun s x => (T.call s x).1) s

/-- The operation puts something else into `h` (or empties it). -/
def Replaces (h : Nat) : Op S A → Prop
  | .assign k _ _ => k = h
  | .give k _ _ => k = h
  | .null k => k = h
  | .reset k => k = h
  | .copy k _ => k = h
  | .swap k l => k = h ∨ l = h
  | _ => False

/-- The operation looks at the functor in `h` other than by calling it. -/
def CopiesFrom (h : Nat) : Op S A → Prop
  | .copy _ k => k = h
  | _ => False

/-- The arguments `h` is called with by a program. -/
def argsOf (h : Nat) : List (Op S A) → List A
  | [] => []
  | .callH k x :: l => if k = h then x :: argsOf h l else argsOf h l
  | _ :: l => argsOf h l

/-- The program without its calls of `h`. -/
def withoutCalls (h : Nat) : List (Op S A) → List (Op S A)
  | [] => []
  | .callH k x :: l => if k = h then withoutCalls h l else .callH k x :: withoutCalls h l
  | op :: l => op :: withoutCalls h l

/-- Functors by address and meanings of handles. -/
structure SWorld (S : Type) where
  objs : Nat → Option (Obj S)
  mean : Nat → Mean S

/-- A functor may be kept by value: it compiles, and it is not aligned stricter than the storage. -/
def sPut (e : Env S A R) (o : Obj S) (c : Cat) : Out (Mean S) :=
  if Compiles e (e.ty o.ty) c then
    if (e.ty o.ty).align ≤ e.al then .ok (.own o.ty o.st) else .ub
  else .reject

/-- A functor through the policy: by value if it is small, by reference otherwise (a reference needs room for a
pointer). -/
def sGive (e : Env S A R) (o : Obj S) (a : Nat) (c : Cat) : Out (Mean S) :=
  if Small e (e.ty o.ty) then sPut e o c
  else if e.ptr ≤ e.storeSize then (if e.ptr ≤ e.al then .ok (.other o.ty a) else .ub) else .reject

def sSet (w : SWorld S) (h : Nat) (m : Mean S) : SWorld S :=
  { w with mean := fun k => if k = h then m else w.mean k }

def sObj (w : SWorld S) (a : Nat) (o : Option (Obj S)) : SWorld S :=
  { w with objs := fun b => if b = a then o else w.objs b }

/-- What the operations mean. -/
def sStep (e : Env S A R) (w : SWorld S) : Op S A → Out (SWorld S × Obs R)
  | .new a t s => if (w.objs a).isSome then .ub else .ok (sObj w a (some ⟨t, s⟩), .none)
  | .kill a => if (w.objs a).isSome then .ok (sObj w a none, .none) else .ub
  | .callObj a x =>
    match w.objs a with
    | some o => .ok (sObj w a (some ⟨o.ty, ((e.ty o.ty).call o.st x).1⟩), .res ((e.ty o.ty).call o.st x).2)
    | none => .ub
  | .assign h a c =>
    match w.objs a with
    | some o => (sPut e o c).bind fun m => .ok (sSet w h m, .none)
    | none => .ub
  | .give h a c =>
    match w.objs a with
    | some o => (sGive e o a c).bind fun m => .ok (sSet w h m, .none)
    | none => .ub
  | .null h => if e.kind = .cmc then .ok (sSet w h .empty, .none) else .reject
  | .reset h => .ok (sSet w h .empty, .none)
  | .copy h k => .ok (sSet w h (w.mean k), .none)
  | .swap h k => .ok (sSet (sSet w h (w.mean k)) k (w.mean h), .none)
  | .callH h x =>
    match w.mean h with
    | .empty => .ub
    | .own t s => .ok (sSet w h (.own t ((e.ty t).call s x).1), .res ((e.ty t).call s x).2)
    | .other t a =>
      match w.objs a with
      | some o =>
        if o.ty = t then .ok (sObj w a (some ⟨t, ((e.ty t).call o.st x).1⟩), .res ((e.ty t).call o.st x).2) else .ub
      | none => .ub
  | .test h => .ok (w, .bool (match w.mean h with | .empty => false | _ => true))

def sRun (e : Env S A R) (w : SWorld S) : List (Op S A) → Out (List (Obs R))
  | [] => .ok []
  | op :: ops => (sStep e w op).bind fun p => (sRun e p.1 ops).bind fun q => .ok (p.2 :: q)

def SWorld.start : SWorld S := ⟨fun _ => none, fun _ => .empty⟩

/-- What a program gets to see of a run. -/
def seen {α β : Type} (o : Out (α × β)) : Out β :=
  match o with
  | .ok p => .ok p.2
  | .ub => .ub
  | .reject => .reject

/-- The arguments the calling thread (a worker) calls with. -/
def argsBy (who : Who) (l : List (Who × A)) : List A := (l.filter fun p => p.1 = who).map (·.2)

/-- Results of calls with `xs` in turn. -/
def resultsOf (T : FType S A R) (s : S) : List A → List R
  | [] => []
  | x :: l => (T.call s x).2 :: resultsOf T (T.call s x).1 l

end Nntl.Fwd
