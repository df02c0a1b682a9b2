/-!
Model of storage ownership over any number of matrix objects sharing one memory.
Source: /repo/nntl/interface/math/smatrix.h (`smatrix`, `smatrix_deform`)

Memory is a family of blocks; a pointer is a block id and an offset. The world records every block obtained from
`_aligned_malloc` (`allocs`) and every non-null pointer handed to `_aligned_free` (`frees`). Blocks with ids below the
initial `next` are memory of the user. `ok = false` means that the allocator returns `nullptr`. An operation yields
`none` if the object does not exist (resp. already exists), if it aborts, or if its precondition is violated.
-/
namespace Nntl.Matrix.Own

/-- Header fields smatrix.h:257-294. -/
structure Hdr where
  ptr : Option (Nat × Nat)
  rows : Nat
  cols : Nat
  emul : Bool
  ext : Bool
  bir : Bool

structure World (α : Type) where
  mem : Nat → Nat → α
  allocs : List Nat
  frees : List (Nat × Nat)
  next : Nat
  hdr : Nat → Option Hdr

variable {α : Type}

def World.put (w : World α) (id : Nat) (h : Option Hdr) : World α :=
  { w with hdr := fun i => if i = id then h else w.hdr i }

/-- `_aligned_free(p)`: freeing `nullptr` is a no-op. -/
def World.release (w : World α) : Option (Nat × Nat) → World α
  | none => w
  | some p => { w with frees := p :: w.frees }

/-- `_free` smatrix.h:317-325: the storage effect ... -/
def World.hfree (w : World α) (h : Hdr) : World α := if h.ext then w else w.release h.ptr
/-- ... and the header effect. -/
def Hdr.freed (h : Hdr) : Hdr := { h with ptr := none, rows := 0, cols := 0 }

/-- `_aligned_malloc`: the fresh block has arbitrary contents `junk`. -/
def World.malloc (w : World α) (junk : Nat → α) (ok : Bool) : World α × Option (Nat × Nat) :=
  if ok then ({ w with allocs := w.next :: w.allocs, next := w.next + 1,
                       mem := fun b => if b = w.next then junk else w.mem b }, some (w.next, 0))
  else (w, none)

/-- `_impl_resize` 1054-1066 with `_realloc` 297-316. -/
def World.implResize (w : World α) (id : Nat) (h : Hdr) (r c : Nat) (junk : Nat → α) (ok : Bool) :
    Option (World α × Bool) :=
  if r = 0 ∨ c = 0 then some (w, false)
  else if r = h.rows ∧ c = h.cols then some (w, true)
  else if h.ext then none
  else
    let (w2, p) := (w.release h.ptr).malloc junk ok
    some (w2.put id (some { h with ptr := p, rows := r, cols := c }), p.isSome)

/-- `resize(r,c)` 1043-1052 (bias cells are data, see `Verif.Matrix.Model`; here only their storage counts). -/
def World.resize (w : World α) (id : Nat) (h : Hdr) (r c : Nat) (junk : Nat → α) (ok : Bool) :
    Option (World α × Bool) :=
  if r = 0 ∨ c = 0 then some (w, false)
  else w.implResize id h (r + (h.emul && h.bir).toNat) (c + (h.emul && !h.bir).toNat) junk ok

/-- Raw memory copy of `n` elements between the storages of two objects. -/
def World.copy (w : World α) (src dst : Nat × Nat) (n : Nat) : World α :=
  { w with mem := fun b k => if b = dst.1 ∧ dst.2 ≤ k ∧ k < dst.2 + n then w.mem src.1 (src.2 + (k - dst.2)) else w.mem b k }

inductive Op (α : Type) where
  | create (id : Nat)
  | createSized (id r c : Nat) (emul bir : Bool) (junk : Nat → α) (ok : Bool)
  | createExt (id : Nat) (p : Nat × Nat) (r c : Nat) (emul bir : Bool)
  | moveCreate (id src : Nat)
  | moveAssign (id src : Nat)
  | destroy (id : Nat)
  | clear (id : Nat)
  | resize (id r c : Nat) (junk : Nat → α) (ok : Bool)
  | dResize (id r c : Nat) (junk : Nat → α) (ok : Bool)
  | dResizeNe (id ne : Nat) (emul bir : Bool) (junk : Nat → α) (ok : Bool)
  | useExternal (id : Nat) (p : Nat × Nat) (r c : Nat) (emul bir : Bool)
  | useInternal (id r c : Nat) (emul bir : Bool) (junk : Nat → α) (ok : Bool)
  | cloneTo (src dst : Nat) (junk : Nat → α) (ok : Bool)
  | write (id k : Nat) (v : α)
  | setShape (id r c : Nat)

/-- `clone_to` 475-487 followed by `copy_to` 525-538. -/
def World.cloneTo (w : World α) (src dst : Nat) (junk : Nat → α) (ok : Bool) : Option (World α × Bool) :=
  match w.hdr src, w.hdr dst with
  | some hs, some hd =>
    if src = dst then none
    else if hd.ext then
      if hd.rows ≠ hs.rows ∨ hd.cols ≠ hs.cols then some (w, false)
      else match hs.ptr, hd.ptr with
        | some ps, some pd =>
          some ((w.copy ps pd (hs.rows * hs.cols)).put dst (some { hd with emul := hs.emul, bir := hs.bir }), true)
        | _, _ => none
    else
      match (w.put dst (some { hd with emul := false })).resize dst { hd with emul := false } hs.rows hs.cols junk ok with
      | none => none
      | some (w1, false) => some (w1, false)
      | some (w1, true) =>
        match hs.ptr, w1.hdr dst with
        | some ps, some hd1 =>
          match hd1.ptr with
          | some pd =>
            some ((w1.copy ps pd (hs.rows * hs.cols)).put dst (some { hd1 with emul := hs.emul, bir := hs.bir }), true)
          | none => none
        | _, _ => none
  | _, _ => none

/-- One operation. -/
def Op.step : Op α → World α → Option (World α)
  -- default constructor 333-334
  | .create id, w => if (w.hdr id).isSome then none else
      some (w.put id (some { ptr := none, rows := 0, cols := 0, emul := false, ext := false, bir := false }))
  -- sized constructors 337-373
  | .createSized id r c emul bir junk ok, w =>
      if (w.hdr id).isSome ∨ r = 0 ∨ c = 0 then none
      else
        let (w2, p) := w.malloc junk ok
        some (w2.put id (some { ptr := p, rows := r + (emul && bir).toNat, cols := c + (emul && !bir).toNat, emul,
                                ext := false, bir }))
  -- external storage constructors 375-395
  | .createExt id p r c emul bir, w =>
      if (w.hdr id).isSome ∨ r = 0 ∨ c = 0 then none
      else some (w.put id (some { ptr := some p, rows := r, cols := c, emul, ext := true, bir }))
  -- move constructor 399-406 (1358-1370 for smatrix_deform)
  | .moveCreate id src, w =>
      match w.hdr src with
      | none => none
      | some hs => if (w.hdr id).isSome then none
                   else some ((w.put id (some hs)).put src (some hs.freed))
  -- move assignment 409-426 (1376-1395)
  | .moveAssign id src, w =>
      match w.hdr id, w.hdr src with
      | some h, some hs =>
        if id = src then some w
        else some (((w.hfree h).put id (some hs)).put src (some hs.freed))
      | _, _ => none
  -- destructor 328-330
  | .destroy id, w =>
      match w.hdr id with
      | none => none
      | some h => some ((w.hfree h).put id none)
  -- clear 1024-1032
  | .clear id, w =>
      match w.hdr id with
      | none => none
      | some h => some ((w.hfree h).put id (some { h.freed with ext := false, bir := false }))
  -- smatrix::resize 1043
  | .resize id r c junk ok, w =>
      match w.hdr id with
      | none => none
      | some h => (w.resize id h r c junk ok).map Prod.fst
  -- smatrix_deform::resize 1443
  | .dResize id r c junk ok, w =>
      match w.hdr id with
      | none => none
      | some h => (((w.hfree h).put id (some h.freed)).resize id h.freed r c junk ok).map Prod.fst
  -- smatrix_deform::resize(ne, ..) 1480-1497
  | .dResizeNe id ne emul bir junk ok, w =>
      match w.hdr id with
      | none => none
      | some h =>
        if ne = 0 then none else
        match (w.hfree h).malloc junk ok with
        | (w2, none) => some (w2.put id (some h.freed))
        | (w2, some p) => some (w2.put id (some { ptr := some p, rows := 0, cols := 0, emul, ext := false, bir }))
  -- useExternalStorage 1206-1225; `p` must not point into the storage the object itself owns
  | .useExternal id p r c emul bir, w =>
      match w.hdr id with
      | none => none
      | some h =>
        if r = 0 ∨ c = 0 ∨ (h.ext = false ∧ h.ptr.map Prod.fst = some p.1) then none
        else some ((w.hfree h).put id (some { ptr := some p, rows := r, cols := c, emul, ext := true, bir }))
  -- useInternalStorage 1248-1256
  | .useInternal id r c emul bir junk ok, w =>
      match w.hdr id with
      | none => none
      | some h =>
        let h' : Hdr := { h.freed with ext := false, emul, bir }
        if r = 0 ∨ c = 0 then some ((w.hfree h).put id (some h'))
        else (((w.hfree h).put id (some h')).resize id h' r c junk ok).map Prod.fst
  | .cloneTo src dst junk ok, w => (w.cloneTo src dst junk ok).map Prod.fst
  -- any element write (smatrix.h:1005 and every iterator based kernel)
  | .write id k v, w =>
      match w.hdr id with
      | some h => match h.ptr with
        | some p => if k < h.rows * h.cols then
            some { w with mem := fun b j => if b = p.1 ∧ j = p.2 + k then v else w.mem b j } else none
        | none => none
      | none => none
  -- deform and its variants 1566-1700: only rows/cols change
  | .setShape id r c, w =>
      match w.hdr id with
      | none => none
      | some h => some (w.put id (some { h with rows := r, cols := c }))

def run (ops : List (Op α)) (w : World α) : Option (World α) := ops.foldlM (fun w o => o.step w) w

/-- Start: no matrix objects; blocks below `userBlocks` belong to the user. -/
def World.init (mem : Nat → Nat → α) (userBlocks : Nat) : World α :=
  { mem, allocs := [], frees := [], next := userBlocks, hdr := fun _ => none }

/-- The value of element `(r,c)` of an object, `get` 1010-1014. -/
def World.get (w : World α) (id r c : Nat) : Option α :=
  match w.hdr id with
  | some h => match h.ptr with
    | some p => if r < h.rows ∧ c < h.cols then some (w.mem p.1 (p.2 + (r + h.rows * c))) else none
    | none => none
  | none => none

end Nntl.Matrix.Own
