import Verif.JsonFile.Model
import Verif.Matrix.Spec
/-! What a JSON file says, and what a user expects to be read from it; written without the loops of the reader. -/
namespace Nntl.JsonFile
open Nntl.Matrix
variable {α β : Type}

/-- The first member of the object with this name has this value. -/
def Member (o : List (String × JVal)) (k : String) (v : JVal) : Prop :=
  ∃ i : Nat, o[i]? = some (k, v) ∧ ∀ (j : Nat) (w : JVal), j < i → o[j]? ≠ some (k, w)

/-- The number is one of a type of this kind: any for floating point types, integers of 64 bits with or without sign for others. -/
def NumOf : Kind → JNum → Prop
  | .float, _ => True
  | .signed, x => ∃ z, x = .int z ∧ -2 ^ 63 ≤ z ∧ z < 2 ^ 63
  | .unsigned, x => ∃ z, x = .int z ∧ 0 ≤ z ∧ z < 2 ^ 64

/-- A list of `n` numbers. -/
def Numbers (vs : List JVal) (n : Nat) (a : Nat → JNum) : Prop := vs.length = n ∧ ∀ k, k < n → vs[k]? = some (.num (a k))

/-- The value describes a matrix: an array of its columns, or, if there is only one column, this column. -/
def Describes (v : JVal) (R C : Nat) (a : Nat → Nat → JNum) : Prop :=
  0 < R ∧ 0 < C ∧
  ((∃ cols, v = .arr cols ∧ cols.length = C ∧ ∀ c, c < C → ∃ col, cols[c]? = some (.arr col) ∧ Numbers col R fun r => a r c) ∨
   (C = 1 ∧ ∃ col, v = .arr col ∧ Numbers col R fun r => a r 0))

/-- The matrix has `R` rows and `C` columns (beside biases, which are ones), with these elements, and memory for all of this. -/
structure Holds [OfNat α 1] (m : Mtx α) (R C : Nat) (a : Nat → Nat → α) : Prop where
  rows : m.rowsNoBias = R
  cols : m.colsNoBias = C
  get : ∀ r c, r < R → c < C → m.get r c = some (a r c)
  biases : BiasesAreOnes m
  mem : InStorage m
  own : m.ext = false
  full : 0 < m.cap

/-- All numbers of the value (as far as they are numbers of a matrix) are numbers of this type: any for floating point types, integers of the
right range for others. -/
def Fits (t : Ty α) (v : JVal) : Prop :=
  ∀ a, v = .arr a → ∀ u ∈ a, (∀ x, u = .num x → NumOf t.kind x) ∧ (∀ b, u = .arr b → ∀ x, JVal.num x ∈ b → NumOf t.kind x)

/-- A matrix as a program may have it: with its memory (or none at all). -/
structure Sound (m : Mtx α) : Prop where
  mem : InStorage m
  own : m.ext = false

/-- Biases are asked for only if the matrix is empty. -/
def MayBias (biased : Bool) (m : Mtx α) : Prop := biased = true → m.cap = 0 ∧ m.rows = 0 ∧ m.cols = 0

/-- The document has this member, and it describes a matrix. -/
def Good (o : List (String × JVal)) (f : Field) : Prop := ∃ v R C a, Member o f.str v ∧ Describes v R C a

/-- The order in which the members are looked at. -/
def Field.order : Field → Nat
  | .trainX => 0
  | .trainY => 1
  | .testX => 2
  | .testY => 3

/-- The four members of the document describe train data: as many rows of `x` as of `y`, the same numbers of columns for training and testing. -/
structure DescribesTD (o : List (String × JVal)) (N M W C : Nat) (a : Field → Nat → Nat → JNum) : Prop where
  trainX : ∃ v, Member o "train_x" v ∧ Describes v N W (a .trainX)
  trainY : ∃ v, Member o "train_y" v ∧ Describes v N C (a .trainY)
  testX : ∃ v, Member o "test_x" v ∧ Describes v M W (a .testX)
  testY : ∃ v, Member o "test_y" v ∧ Describes v M C (a .testY)

end Nntl.JsonFile
