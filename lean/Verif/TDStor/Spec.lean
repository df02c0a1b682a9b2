import Verif.TDStor.Model
import Verif.Matrix.Spec
/-! What a user expects of stored train data. Samples are looked at independently of the layout: sample `s`, feature `f`. -/
namespace Nntl.TDStor
open Nntl.Matrix
open Nntl.JsonFile (TD Env)
variable {α β : Type}

/-- Number of samples: one per row, or one per column in the other layout. -/
def samples (m : Mtx α) : Nat := if m.bir then m.cols else m.rows

/-- Size of a sample together with its bias. -/
def width (m : Mtx α) : Nat := if m.bir then m.rows else m.cols

/-- Feature `f` of sample `s`. -/
def at' (m : Mtx α) (s f : Nat) : Option α := if m.bir then m.get f s else m.get s f

/-- A matrix with contents. -/
structure Filled (m : Mtx α) : Prop where
  mem : m.cap ≠ 0
  rows : 0 < m.rows
  cols : 0 < m.cols

/-- A matrix as programs have it: filled, or without memory and size. -/
def Proper (m : Mtx α) : Prop := Filled m ∨ (m.cap = 0 ∧ m.rows = 0 ∧ m.cols = 0)

/-- The data fit together: as many labels as samples, samples of the same size for training and testing, labels as well; samples have biases,
labels do not. -/
structure Coherent (d : TD α β) : Prop where
  filled : Filled d.trainX ∧ Filled d.trainY ∧ Filled d.testX ∧ Filled d.testY
  train : samples d.trainX = samples d.trainY
  test : samples d.testX = samples d.testY
  x : width d.trainX = width d.testX
  y : width d.trainY = width d.testY
  biases : d.trainX.emul = true ∧ d.testX.emul = true ∧ d.trainY.emul = false ∧ d.testY.emul = false
  own : d.trainX.ext = false ∧ d.testX.ext = false ∧ d.trainY.ext = false ∧ d.testY.ext = false

/-- There is nothing stored. -/
structure Nothing (d : TD α β) : Prop where
  trainX : d.trainX.cap = 0 ∧ d.trainX.rows = 0 ∧ d.trainX.cols = 0
  trainY : d.trainY.cap = 0 ∧ d.trainY.rows = 0 ∧ d.trainY.cols = 0
  testX : d.testX.cap = 0 ∧ d.testX.rows = 0 ∧ d.testX.cols = 0
  testY : d.testY.cap = 0 ∧ d.testY.rows = 0 ∧ d.testY.cols = 0

/-- Matrix in the usual layout, samples in rows. -/
def Usual (m : Mtx α) : Prop := m.bir = false

/-- All four matrices are in the usual layout. -/
def AllUsual (d : TD α β) : Prop := Usual d.trainX ∧ Usual d.trainY ∧ Usual d.testX ∧ Usual d.testY

/-- What a program does with the object. -/
inductive Op (α β : Type) where
  | absorb (args : TD α β)
  | replaceY (ty sy : Mtx β)
  | assign (rhs : TD α β)
  | clear
  | extract
  | transposeX
  | dupe (src : TD α β) (e1 e3 : Env α) (e2 e4 : Env β)

/-- Arguments are matrices as programs have them, in the usual layout; objects that are assigned or duplicated are themselves empty or
coherent, with labels in the usual layout. -/
def Op.Fine : Op α β → Prop
  | .absorb a => Proper a.trainX ∧ Proper a.trainY ∧ Proper a.testX ∧ Proper a.testY ∧ AllUsual a
  | .replaceY t s => Proper t ∧ Proper s ∧ Usual t ∧ Usual s
  | .assign r => (Nothing r ∨ Coherent r) ∧ Usual r.trainY ∧ Usual r.testY
  | .dupe r _ _ _ _ => (Nothing r ∨ Coherent r) ∧ Usual r.trainY ∧ Usual r.testY
  | _ => True

/-- One operation, `none` for a violated assertion. -/
def Op.step [OfNat α 1] [OfNat β 1] : Op α β → TD α β → Option (TD α β)
  | .absorb a, d => some (TDStor.absorb d a).1
  | .replaceY t s, d => some (TDStor.replaceY d t s).1
  | .assign r, d => some (TDStor.assign d r).1
  | .clear, d => some (TDStor.clear d)
  | .extract, d => (TDStor.extract d).map Prod.fst
  | .transposeX, d => TDStor.transposeX d
  | .dupe r e1 e3 e2 e4, d => (TDStor.dupe r e1 e3 e2 e4 d).map Prod.fst

/-- A history of operations. -/
def run [OfNat α 1] [OfNat β 1] (ops : List (Op α β)) (d : TD α β) : Option (TD α β) := ops.foldlM (fun d o => o.step d) d

/-- The two objects compare equal (`operator==` 145-147). -/
def SameData (a b : TD α β) : Prop := a.trainX.eqv b.trainX ∧ a.trainY.eqv b.trainY ∧ a.testX.eqv b.testX ∧ a.testY.eqv b.testY

end Nntl.TDStor
