/-!
Model of `nntl/utils/layers_settings.h`: per-layer settings with a default. `std::list` nodes have identities (iterators stay valid until their node is
erased); the map stores iterators, i.e. node identities.
-/
namespace Nntl.Utils.Ls

/-- How a call ends; `ub`: a dangling iterator, `front()` of an empty list, or the missing return of `set_default`. -/
inductive Out (α : Type) where
  | ok (a : α)
  | ub

/-- `m_keeper` (a list of nodes with contents) and `m_map`, layers_settings.h 56–61. `fresh` is an identity not used so far. -/
structure St (α : Type) where
  keeper : List (Nat × α)
  map : List (Nat × Nat)
  fresh : Nat

variable {α : Type}

/-- The constructors, layers_settings.h 66–72. -/
def St.new (d : α) : St α := ⟨[(0, d)], [], 1⟩

/-- `m_map.count(idx)` / `m_map.at(idx)`: the iterator stored for the key. -/
def mapAt (m : List (Nat × Nat)) (k : Nat) : Option Nat := (m.find? fun e => e.1 == k).map (·.2)

/-- `m_map[idx] = it`: replaces the value of an existing key, otherwise inserts it. -/
def mapSet (m : List (Nat × Nat)) (k v : Nat) : List (Nat × Nat) := (k, v) :: m.filter fun e => e.1 != k

/-- Dereferencing an iterator. -/
def deref (l : List (Nat × α)) (it : Nat) : Out α :=
  match l.find? (fun e => e.1 == it) with
  | some e => .ok e.2
  | none => .ub

/-- `get_default`, layers_settings.h 74–76. -/
def St.getDefault (s : St α) : Out α :=
  match s.keeper with
  | [] => .ub
  | e :: _ => .ok e.2

/-- `get`, layers_settings.h 85–90. -/
def St.get (s : St α) (idx : Nat) : Out α :=
  match mapAt s.map idx with
  | none => s.getDefault
  | some it => deref s.keeper it

/-- `for_each`, layers_settings.h 92–96: the settings the functor is called on, in order. -/
def St.forEach (s : St α) : List α := s.keeper.map (·.2)

/-- `m_keeper.erase(it)`: undefined for an iterator whose node is gone. -/
def erase (l : List (Nat × α)) (it : Nat) : Out (List (Nat × α)) :=
  if l.any (fun e => e.1 == it) then .ok (l.filter fun e => e.1 != it) else .ub

/-- `add`, layers_settings.h 98–108. -/
def St.add (s : St α) (idx : Nat) (v : α) : Out (St α) :=
  match mapAt s.map idx with
  | some it =>
    match erase s.keeper it with
    | .ok k => .ok ⟨k ++ [(s.fresh, v)], mapSet s.map idx s.fresh, s.fresh + 1⟩
    | .ub => .ub
  | none => .ok ⟨s.keeper ++ [(s.fresh, v)], mapSet s.map idx s.fresh, s.fresh + 1⟩

/-- `set_default`, layers_settings.h 78–83. The function has no return statement although its result is not `void`: undefined behaviour. `cont = true` stands for
a compiler whose code simply returns after the body. -/
def St.setDefault (cont : Bool) (s : St α) (v : α) : Out (St α) :=
  if cont then .ok ⟨(s.fresh, v) :: s.keeper.tail, s.map, s.fresh + 1⟩ else .ub

/-- Calls. -/
inductive Op (α : Type) where
  | add (idx : Nat) (v : α)
  | setDefault (v : α)

/-- One call. -/
def St.step (cont : Bool) (s : St α) : Op α → Out (St α)
  | .add i v => s.add i v
  | .setDefault v => s.setDefault cont v

/-- A sequence of calls. -/
def St.run (cont : Bool) : St α → List (Op α) → Out (St α)
  | s, [] => .ok s
  | s, o :: os =>
    match s.step cont o with
    | .ok s' => s'.run cont os
    | .ub => .ub

end Nntl.Utils.Ls
