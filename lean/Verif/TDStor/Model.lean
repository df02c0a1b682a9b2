import Verif.JsonFile.Model
/-! Model of `nntl/train_data/inmem_train_data_stor.h`: the object that keeps training and test data in memory. The matrices are those of
`Matrix/Model.lean`, the four of them and the test for absorption those of `JsonFile/Model.lean` (`TD`, `absorbOk`). Sharing of memory between
matrices is not modelled here (C11, C12): a matrix carries its contents. `none` is a violated assertion. -/
namespace Nntl.TDStor
open Nntl.Matrix
open Nntl.JsonFile (TD absorbOk mclear Env)
variable {α β : Type}

/-- What is left of a matrix that has been moved away: smatrix.h:416-418 and 1403 (the flags stay). -/
def gone (m : Mtx α) : Mtx α := { m with cap := 0, rows := 0, cols := 0, maxSize := 0 }

/-- `clear` of `smatrix_deform` smatrix.h:1418-1423. -/
def dclear (m : Mtx α) : Mtx α := { mclear m with maxSize := 0 }

/-- All four matrices by a function for samples and one for labels. -/
def TD.map (f : Mtx α → Mtx α) (g : Mtx β → Mtx β) (d : TD α β) : TD α β := ⟨f d.trainX, g d.trainY, f d.testX, g d.testY⟩

/-- A new object 100. -/
def new (j : Nat → α) (k : Nat → β) : TD α β := ⟨Mtx.default j, Mtx.default k, Mtx.default j, Mtx.default k⟩

/-- `empty` 150-152. -/
def empty (d : TD α β) : Bool := d.trainX.empty || d.trainY.empty || d.testX.empty || d.testY.empty

/-- `clear` 155-160. -/
def clear (d : TD α β) : TD α β := TD.map dclear dclear d

/-- `absorb` of four matrices 163-173: the object, what is left of the arguments, the result. -/
def absorb (d args : TD α β) : TD α β × TD α β × Bool :=
  if absorbOk args then (args, TD.map gone gone args, true) else (d, args, false)

/-- `operator=` 108-120, which is `absorb` of an object 123-125: the object, what is left of the other one. The two are different objects. -/
def assign (d rhs : TD α β) : TD α β × TD α β := if empty rhs then (clear d, rhs) else (rhs, TD.map gone gone rhs)

/-- `replace_Y_will_succeed` 192-200. -/
def replaceOk (d : TD α β) (ty sy : Mtx β) : Bool :=
  !ty.empty && ty.rows == d.trainY.rows && !sy.empty && sy.rows == d.testY.rows && ty.cols == sy.cols
  && !ty.emul && !sy.emul && !ty.ext && !sy.ext

/-- `replace_Y` 203-209 (what is left of the arguments is not modelled). -/
def replaceY (d : TD α β) (ty sy : Mtx β) : TD α β × Bool :=
  if replaceOk d ty sy then ({ d with trainY := ty, testY := sy }, true) else (d, false)

/-- `extract` 213-222: the object and what is taken out of it. -/
def extract (d : TD α β) : Option (TD α β × TD α β) := if empty d then none else some (TD.map gone gone d, d)

/-- `cloneFrom` smatrix.h:1426-1433 into a new matrix. -/
def cloneNew [OfNat α 1] (m : Mtx α) (e : Env α) : Option (Mtx α × Bool) :=
  (m.cloneTo (Mtx.default e.junk) e.junk e.ok).map fun p => (if p.2 then { p.1 with maxSize := p.1.numel } else p.1, p.2)

/-- `dupe` 131-141: the destination and the result. -/
def dupe [OfNat α 1] [OfNat β 1] (d : TD α β) (e1 e3 : Env α) (e2 e4 : Env β) (dest : TD α β) : Option (TD α β × Bool) := do
  let (trx, ok) ← cloneNew d.trainX e1
  if !ok then return (dest, false)
  let (trY, ok) ← cloneNew d.trainY e2
  if !ok then return (dest, false)
  let (tx, ok) ← cloneNew d.testX e3
  if !ok then return (dest, false)
  let (ty, ok) ← cloneNew d.testY e4
  if !ok then return (dest, false)
  let (r, _, ok) := absorb dest ⟨trx, trY, tx, ty⟩
  return (r, ok)

/-- Transposition in place by BLAS `imatcopy` (a library, taken by its specification): element `(r, c)` of `rows × cols` goes to `(c, r)`. -/
def imatcopy (d : Nat → α) (rows cols : Nat) : Nat → α := fun k => if k < rows * cols then d (k / cols + rows * (k % cols)) else d k

/-- `s_mTranspose_ip_BLAS` mathn.h:2915-2924. The assertion `if_biases_test_strict` is not modelled (biases that are ones stay ones, C127). The variants for integral
types (mathn.h:2901-2912) do the same on the bits taken for floating point numbers; that this does not change them is assumed. -/
def transposeMtx (m : Mtx α) : Option (Mtx α) :=
  Mtx.onTransposition (if m.rows > 1 ∧ m.cols > 1 then { m with data := imatcopy m.data m.rows m.cols } else m)

/-- `transposeX` 251-255. -/
def transposeX (d : TD α β) : Option (TD α β) := do
  if empty d then none
  return { d with trainX := (← transposeMtx d.trainX), testX := (← transposeMtx d.testX) }

/-- `transposeY` 257-261. -/
def transposeY (d : TD α β) : Option (TD α β) := do
  if empty d then none
  return { d with trainY := (← transposeMtx d.trainY), testY := (← transposeMtx d.testY) }

/-- `transpose` 243-249. -/
def transpose (d : TD α β) : Option (TD α β) := do
  if empty d then none
  return ⟨← transposeMtx d.trainX, ← transposeMtx d.trainY, ← transposeMtx d.testX, ← transposeMtx d.testY⟩

end Nntl.TDStor
