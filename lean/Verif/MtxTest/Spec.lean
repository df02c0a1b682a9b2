import Verif.MtxTest.Model
import Verif.Matrix.Spec
import Mathlib.Algebra.BigOperators.Group.Finset.Basic
/-! What the checks are meant to tell: in terms of the elements of a matrix, addressed by row and column, and of the numbers their bits denote. -/
namespace Nntl.MtxTest
open Nntl.Matrix

/-- A check of `P`: it answers yes if `P` holds, otherwise it answers no — or ends the program where it is meant to (`stops`). -/
def Tells (stops : Bool) (P : Prop) (o : Out) : Prop := (P ∧ o = .ret true) ∨ (¬ P ∧ o = if stops then .abort else .ret false)

variable {t : VT}

/-- The element is the number zero (of any sign) or one. -/
def ZeroOne (b : Bits t) : Prop := b.num = some 0 ∨ b.num = some 1

/-- The element is one or the zero without the sign. -/
def ZeroOneStrict (b : Bits t) : Prop := (b.num = some 0 ∧ b.v < 2 ^ (t.width - 1)) ∨ b.num = some 1

/-- Every element satisfies `P`. -/
def AllElements (m : Mtx (Bits t)) (P : Bits t → Prop) : Prop := ∀ r c, r < m.rows → c < m.cols → ∃ b, m.get r c = some b ∧ P b

/-- Every element that is not a bias satisfies `P`. -/
def AllData (m : Mtx (Bits t)) (P : Bits t → Prop) : Prop :=
  ∀ r c, r < m.rows → c < m.cols → ¬ IsBias m r c → ∃ b, m.get r c = some b ∧ P b

/-- Every bias satisfies `P`. -/
def AllBiases (m : Mtx (Bits t)) (P : Bits t → Prop) : Prop :=
  ∀ r c, r < m.rows → c < m.cols → IsBias m r c → ∃ b, m.get r c = some b ∧ P b

/-- The flag tells the truth about the biases of a matrix with storage: without the flag all of them are ones, with it they are zeros and ones. -/
def FlagIsTrue (m : Mtx (Bits t)) : Prop :=
  m.cap ≠ 0 → m.emul = true → if m.holey then AllBiases m ZeroOne else AllBiases m (fun b => b.num = some 1)

/-- A matrix with storage and biases. -/
def Solid (m : Mtx (Bits t)) : Prop := 0 < m.rows ∧ 0 < m.cols ∧ m.rows * m.cols ≤ m.cap

/-- Operations on the contents and the biases of a matrix. -/
inductive HOp (t : VT) where
  | write (r c : Nat) (v : Bits t)
  | zeros | ones | setBiases
  | fillArray (src : Nat → Bits t)
  | copyBiases (ptr : Nat → Bits t) (cnt : Nat)
  | biasesOf (src : Mtx (Bits t))
  | copyFrom (src : Mtx (Bits t))
  | resize (r c : Nat) (junk : Nat → Bits t) (ok : Bool)
  | nansNoBias (q : Bits t)
  | announce (b : Bool)

/-- One operation, `none` where an assertion fails; only elements that are not biases are written directly. -/
def HOp.step : HOp t → Mtx (Bits t) → Option (Mtx (Bits t))
  | .write r c v, m => if r < m.rowsNoBias ∧ c < m.colsNoBias then m.set r c v else none
  | .zeros, m => if m.empty then none else some m.zeros
  | .ones, m => if m.empty then none else some m.ones
  | .setBiases, m => if m.emul && !m.empty then some m.setBiases else none
  | .fillArray s, m => m.fillFromArrayNoBias s
  | .copyBiases p n, m => copyBiasesPtr m p n
  | .biasesOf s, m => copyBiasesMtx m s
  | .copyFrom s, m => some (s.copyTo m).1
  | .resize r c j ok, m => (m.resize r c j ok).map (·.1)
  | .nansNoBias q, m => Nntl.MtxTest.nansNoBias q m
  | .announce b, m => holeyBiases m b

/-- What the caller has to see to: the count of non-zeros passed with a vector of biases is the count of its ones (only whether it is complete
matters), a matrix that is copied from has storage and a flag that tells the truth, `nans_no_bias` is not called for a matrix with the flag,
and the flag is taken away (`announce`) only if all biases are ones. -/
def HOp.fair : HOp t → Mtx (Bits t) → Prop
  | .copyBiases p n, m => n = m.rows → ∀ k, k < m.rows → (p k).num = some 1
  | .biasesOf s, _ => Solid s ∧ FlagIsTrue s
  | .copyFrom s, _ => Solid s ∧ FlagIsTrue s
  | .nansNoBias _, m => m.holey = false
  | .announce b, m => b = false → AllBiases m (fun b => b.num = some 1)
  | _, _ => True

/-- A run of operations the caller performs fairly. -/
inductive Fair : List (HOp t) → Mtx (Bits t) → Mtx (Bits t) → Prop
  | nil (m) : Fair [] m m
  | cons {o os m m' m''} : o.fair m → o.step m = some m' → Fair os m' m'' → Fair (o :: os) m m''

/-- The columns of a matrix multiplied with themselves (`trans`), or its rows: the products that have to be those of an orthonormal system. -/
def products (A : Mtx ℚ) (trans : Bool) (i j : Nat) : ℚ :=
  if trans then ∑ k ∈ Finset.range A.rows, A.data (A.cell k i) * A.data (A.cell k j)
  else ∑ k ∈ Finset.range A.cols, A.data (A.cell i k) * A.data (A.cell j k)

end Nntl.MtxTest
