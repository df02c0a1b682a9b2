import Verif.BinFile.Model
import Verif.Matrix.Spec
/-! The documented file layout (binfile.h:51-81, and the comment on top of the class), written down independently of the reader. -/
namespace Nntl.BinFile

/-- `n` as `len` little endian bytes. -/
def leBytes : Nat → Nat → List UInt8
  | 0, _ => []
  | len + 1, n => UInt8.ofNat (n % 256) :: leBytes len (n / 256)

/-- A matrix as somebody wants to store it: element type, dimensions, elements. -/
structure FileMtx where
  ty : ETy
  rows : Nat
  cols : Nat
  v : Nat → Nat → Elem ty

/-- Elements have the size of their type, dimensions are positive and representable. One less than `2^31-1` columns, as the reader
may append a bias column. -/
structure FileMtx.Ok (f : FileMtx) : Prop where
  rows : 0 < f.rows ∧ f.rows < 2 ^ 31 - 1
  cols : 0 < f.cols ∧ f.cols < 2 ^ 31 - 1
  size : ∀ r c, r < f.rows → c < f.cols → (f.v r c).bytes.length = f.ty.size

/-- FIELD_ENTRY: rows, cols, name padded with zeros to 15 bytes, type, elements column by column. -/
def encField (name : List UInt8) (f : FileMtx) : List UInt8 :=
  leBytes 4 f.rows ++ leBytes 4 f.cols ++ (name ++ List.replicate (15 - name.length) 0) ++ [f.ty.code] ++
  (List.range f.cols).flatMap fun c => (List.range f.rows).flatMap fun r => (f.v r c).bytes

/-- HEADER: signature "nntl", version 0, number of fields, no sequence classes. -/
def encHeader (fields : Nat) : List UInt8 := [110, 110, 116, 108] ++ leBytes 2 0 ++ leBytes 2 fields ++ leBytes 2 0

/-- A file with one matrix. -/
def encMatrixFile (name : List UInt8) (f : FileMtx) : List UInt8 := encHeader 1 ++ encField name f

/-- A training data file: the four fields in the order `order`. -/
def encTDFile (order : List FieldId) (f : FieldId → FileMtx) : List UInt8 :=
  encHeader 4 ++ order.flatMap fun i => encField i.str (f i)

/-- The four fields, each once. -/
def AllFields (order : List FieldId) : Prop := order.Perm [.trainX, .trainY, .testX, .testY]

/-- The four matrices form a data set. -/
structure TDOk (f : FieldId → FileMtx) : Prop where
  ok : ∀ i, (f i).Ok
  trainRows : (f .trainX).rows = (f .trainY).rows
  testRows : (f .testX).rows = (f .testY).rows
  xCols : (f .trainX).cols = (f .testX).cols
  yCols : (f .trainY).cols = (f .testY).cols

/-- The value an element of type `S` has after it was read into a matrix of type `T`. -/
def asType (cv : Conv) (T : ETy) {S : ETy} (x : Elem S) : Elem T := if S = T then ⟨x.bytes⟩ else cv S T x

/-- The matrix `m` holds exactly what was stored: dimensions, every element in its place; a bias column of ones iff `bias`. -/
structure Decoded (cv : Conv) {T : ETy} (f : FileMtx) (bias : Bool) (m : Matrix.Mtx (Elem T)) : Prop where
  rows : m.rowsNoBias = f.rows
  cols : m.colsNoBias = f.cols
  emul : m.emul = bias
  get : ∀ r c, r < f.rows → c < f.cols → m.get r c = some (asType cv T (f.v r c))
  ones : Matrix.BiasesAreOnes m
  nonempty : m.cap ≠ 0
  own : m.ext = false
  layout : m.bir = false

end Nntl.BinFile
