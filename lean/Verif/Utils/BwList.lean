/-!
Model of `nntl/utils/bwlist.h` (a list of allowed or forbidden layers, used by the state dumpers).
-/
namespace Nntl.Utils.Bw

/-- How a call ends: normally, by a failed `NNTL_ASSERT` (only in builds with assertions), or with an access outside a vector
(undefined behaviour). -/
inductive Out (α : Type) where
  | ok (a : α)
  | stop
  | ub

/-- The fields of `_bwlist`, bwlist.h 51–55. `vector_conditions` (vector_conditions.h 40–102) is the vector of flags. -/
structure St where
  cond : List Bool
  types : List Nat
  idxs : List Nat
  white : Bool

/-- The constructor, bwlist.h 122. -/
def St.new (white : Bool) : St := ⟨[], [], [], white⟩

/-- `resetLists`, bwlist.h 124–129. -/
def St.reset (s : St) : St := { s with cond := [], types := [], idxs := [] }

/-- `setMode`, bwlist.h 130–133. -/
def St.setMode (s : St) (w : Bool) : St := { s with white := w }.reset

/-- `_checksetWhitelist` (`w = true`) and `_checksetBlacklist` (`w = false`), bwlist.h 82–95. `dbg`: assertions are compiled in. -/
def St.checkSet (dbg : Bool) (s : St) (w : Bool) : Out St :=
  if s.white = w then .ok s
  else if dbg && (!s.types.isEmpty || !s.idxs.isEmpty) then .stop
  else .ok (s.setMode w)

/-- The public and protected calls. `w = true` stands for `whitelist`, `w = false` for `blacklist`. -/
inductive Op where
  /-- `resetLists`, 124. -/
  | reset
  /-- `setMode`, 130 (also `setWhiteList`, `setBlackList`, 135–136). -/
  | mode (w : Bool)
  /-- `whitelist(layer_type_id_t)` / `blacklist`, 140–143, 161–164. -/
  | type (w : Bool) (t : Nat)
  /-- `whitelist(vector<layer_type_id_t>)` / `blacklist`, 144–149, 165–170. -/
  | types (w : Bool) (ts : List Nat)
  /-- `whitelist(layer_index_t)` / `blacklist`, 150–153, 171–174. -/
  | idx (w : Bool) (i : Nat)
  /-- `whitelist(vector<layer_index_t>)` / `blacklist`, 154–159, 175–180. -/
  | idxs (w : Bool) (is : List Nat)
  /-- `_bwlist_init`, 98–101. -/
  | init (total : Nat)
  /-- `_bwlist_updateLayer`, 102–114. -/
  | layer (i t : Nat)

/-- Body of the naming calls after the check of the mode; `_addToList`, bwlist.h 58–80. -/
def addType (s : St) (t : Nat) : Out St := .ok { s with types := s.types ++ [t] }
/-- bwlist.h 62–65. -/
def addIdx (s : St) (i : Nat) : Out St := .ok { s with idxs := s.idxs ++ [i] }
/-- bwlist.h 67–73: the container replaces the list. -/
def addTypes (dbg : Bool) (s : St) (ts : List Nat) : Out St :=
  if dbg && !s.types.isEmpty then .stop else .ok { s with types := ts }
/-- bwlist.h 74–80. -/
def addIdxs (dbg : Bool) (s : St) (is : List Nat) : Out St :=
  if dbg && !s.idxs.isEmpty then .stop else .ok { s with idxs := is }

/-- Sequencing. -/
def Out.bind {α β : Type} : Out α → (α → Out β) → Out β
  | .ok a, f => f a
  | .stop, _ => .stop
  | .ub, _ => .ub

/-- `_bwlist_updateLayer`, bwlist.h 102–114. -/
def updateLayer (dbg : Bool) (s : St) (i t : Nat) : Out St :=
  if dbg && decide (s.cond.length ≤ i) then .stop
  else if s.types.any (fun e => e == t) || s.idxs.any (fun e => e == i) then
    (if i < s.cond.length then .ok { s with cond := s.cond.set i s.white } else .ub)
  else .ok s

/-- One call. -/
def step (dbg : Bool) (s : St) : Op → Out St
  | .reset => .ok s.reset
  | .mode w => .ok (s.setMode w)
  | .type w t => (s.checkSet dbg w).bind fun s => addType s t
  | .types w ts => (s.checkSet dbg w).bind fun s => addTypes dbg s ts
  | .idx w i => (s.checkSet dbg w).bind fun s => addIdx s i
  | .idxs w is => (s.checkSet dbg w).bind fun s => addIdxs dbg s is
  | .init n => .ok { s with cond := List.replicate n (!s.white) }
  | .layer i t => updateLayer dbg s i t

/-- A sequence of calls. -/
def run (dbg : Bool) : St → List Op → Out St
  | s, [] => .ok s
  | s, o :: os => (step dbg s o).bind fun s => run dbg s os

/-- `_bwlist_layerAllowed`, bwlist.h 116–118. -/
def allowed (s : St) (i : Nat) : Out Bool :=
  match s.cond[i]? with
  | some b => .ok b
  | none => .ub

end Nntl.Utils.Bw
