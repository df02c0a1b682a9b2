import Verif.MatFile.Lemmas
/-! Model of `_matfile_savingEx` matfile.h:627-764: structs that are begun and ended by hand. -/
namespace Nntl.MatFile

/-- An entry of `m_nestedStructs` 634-638: the struct's name and the struct that was on top of the stack before, if it was taken from there.
`aliased`: the struct's memory belongs to a field of the enclosing struct (`_load_var` has returned a pointer into it). -/
structure NEntry where
  name : String
  oldHead : Option Vars
  aliased : Bool

structure ExSt where
  base : St
  nested : List NEntry

def ExSt.setErr (s : ExSt) (e : Err) : ExSt := { s with base := s.base.setErr e }

/-- What the stack looks like after the parental struct has been taken off (688-691). -/
def unhead (dontNest : Bool) (stack : List Vars) : Option Vars × List Vars :=
  match dontNest, stack with
  | true, top :: rest => (some top, rest)
  | _, st => (none, st)

/-- Loading the struct to update 693-709: the archive, and the struct's fields if there is such a struct. -/
def loadOld (E : Env) (name : String) (s : St) : St × Option Vars :=
  match loadVar E { s with cur := some name } true with
  | (s, some (.strct r c fs)) => ({ s with cur := none }, if r ≠ 1 ∨ c ≠ 1 then none else some fs)
  | (s, _) => ({ s with cur := none, err := .success }, none)

/-- `save_struct_begin` 678-727. -/
def begin' (E : Env) (name : String) (upd dontNest : Bool) (s : ExSt) : ExSt × Err :=
  if s.base.err ≠ .success then (s, s.base.err)
  else match s.base.file with
  | none => (s.setErr .noFileOpened, .noFileOpened)
  | some _ =>
    if s.base.cur.isSome then (s.setErr .nameAlreadySet, .nameAlreadySet)
    else
      let (oldHead, st) := unhead dontNest s.base.stack
      let b := { s.base with stack := st }
      let (b, old) := if upd then loadOld E name b else (b, none)
      match old with
      | some fs => ({ base := { b with stack := fs :: st }, nested := ⟨name, oldHead, !st.isEmpty⟩ :: s.nested }, .success)
      | none =>
        if E.ok b.tick then ({ base := { b.next with stack := [] :: st }, nested := ⟨name, oldHead, false⟩ :: s.nested }, .success)
        else ({ s with base := { b.next with stack := oldHead.toList ++ st }.setErr .failedToCreateStructVariable },
          .failedToCreateStructVariable)

/-- `save_struct_end` 729-763. `none`: undefined behaviour. `_save_to_file_or_struct` destroys the field's former value (195-199); if that is the
struct to be stored itself, the field is set to a struct that does not exist any more. (What the enclosing struct looks like while a field of it
is being updated is not tracked, as it ends in this case anyway.) -/
def end' (E : Env) (s : ExSt) : Option (ExSt × Err) :=
  if s.base.err ≠ .success then some (s, s.base.err)
  else match s.nested with
  | [] => some (s.setErr .noStructToSave, .noStructToSave)
  | ne :: nested =>
    match s.base.file with
    | none => some (s.setErr .noFileOpened, .noFileOpened)
    | some _ =>
      if s.base.cur.isSome then some (s.setErr .nameAlreadySet, .nameAlreadySet)
      else match s.base.stack with
      | [] => some (s.setErr .noStructAllocated, .noStructAllocated)
      | top :: rest =>
        if ne.aliased then none
        else
          let p := toFileOrStruct E { s.base with stack := rest, cur := some ne.name } (.strct 1 1 top)
          let b := { p.1 with stack := ne.oldHead.toList ++ p.1.stack }
          some ({ base := if p.2 = .success then b else b.setErr p.2, nested }, p.2)

/-- `close` 649-671. -/
def ExSt.close (E : Env) (s : ExSt) : ExSt × Err :=
  let p := s.base.close E
  if s.nested ≠ [] then ({ base := p.1.setErr .manualStructUnsaved, nested := [] }, .manualStructUnsaved)
  else ({ base := p.1, nested := [] }, p.2)

/-- A program that uses the archive: it saves something, or begins a struct, does something and ends the struct. -/
inductive Act where
  | item (i : Item)
  | strct (name : String) (upd dontNest : Bool) (body : List Act)

mutual
def Act.run (E : Env) : Act → ExSt → Option ExSt
  | .item i, s => some { s with base := save E i s.base }
  | .strct n u d b, s => (runAll E b (begin' E n u d s).1).bind fun s => (end' E s).map Prod.fst
def runAll (E : Env) : List Act → ExSt → Option ExSt
  | [], s => some s
  | a :: as, s => (a.run E s).bind (runAll E as)
end

end Nntl.MatFile
