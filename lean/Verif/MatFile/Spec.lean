import Verif.MatFile.Model
import Verif.Matrix.Spec
/-! What a user expects of saving to and loading from a MATLAB file, written without the operators of the archive. -/
namespace Nntl.MatFile
open Nntl.Matrix

def Item.name : Item → String
  | .nvp n _ => n
  | .nvpObj n _ => n
  | .strct n _ => n

mutual
/-- An object whose parts can be told apart: at every level the names differ from each other, and only leaves are stored as plain name-value
pairs (objects are stored as named structs). -/
def Item.Named : Item → Prop
  | .nvp _ _ => True
  | .nvpObj _ _ => False
  | .strct _ b => AllNamed b
def AllNamed : List Item → Prop
  | [] => True
  | i :: is => i.Named ∧ (∀ j ∈ is, j.name ≠ i.name) ∧ AllNamed is
end

mutual
/-- Two objects of the same structure (same names, in the same nesting), whose leaves are related by `R name`. -/
def Item.Rel (R : String → Leaf → Leaf → Prop) : Item → Item → Prop
  | .nvp n v, .nvp n' v' => n = n' ∧ R n v v'
  | .nvpObj n b, .nvpObj n' b' => n = n' ∧ RelAll R b b'
  | .strct n b, .strct n' b' => n = n' ∧ RelAll R b b'
  | _, _ => False
def RelAll (R : String → Leaf → Leaf → Prop) : List Item → List Item → Prop
  | [], [] => True
  | i :: is, j :: js => i.Rel R j ∧ RelAll R is js
  | _, _ => False
end

mutual
/-- Every leaf has the property `P name`. -/
def Item.Each (P : String → Leaf → Prop) : Item → Prop
  | .nvp n v => P n v
  | .nvpObj _ b => EachAll P b
  | .strct _ b => EachAll P b
def EachAll (P : String → Leaf → Prop) : List Item → Prop
  | [] => True
  | i :: is => i.Each P ∧ EachAll P is
end

/-- The same C++ type. -/
def SameType : Leaf → Leaf → Prop
  | .scalar T _, .scalar T' _ => T = T'
  | .mtx T df _, .mtx T' df' _ => T = T' ∧ df = df'
  | _, _ => False

/-- The names of matrices with samples, which are expected to have a bias column. -/
def XName (n : String) : Prop := n = "train_x" ∨ n = "test_x"

instance (n : String) : Decidable (XName n) := by unfold XName; infer_instance

/-- `b` is the number or the matrix `a`: dimensions, whether there are emulated biases, and every element. -/
inductive SameValue : Leaf → Leaf → Prop
  | scalar (T : Cls) (v : Nat) : SameValue (.scalar T v) (.scalar T v)
  | mtx (T : Cls) (df : Bool) (m m' : Mtx (Elem T)) (rows : m'.rows = m.rows) (cols : m'.cols = m.cols) (emul : m'.emul = m.emul)
      (bir : m'.bir = m.bir) (get : ∀ r c, m'.get r c = m.get r c) (cap : m'.cap = m'.rows * m'.cols) (own : m'.ext = false) :
      SameValue (.mtx T df m) (.mtx T df m')

/-- What a matrix turns into. Its shape and elements are kept, but whether it has emulated biases and whether its last column consists of
ones is decided by its name. -/
inductive AsNamed (n : String) : Leaf → Leaf → Prop
  | scalar (T : Cls) (v : Nat) : AsNamed n (.scalar T v) (.scalar T v)
  | mtx (T : Cls) (df : Bool) (m m' : Mtx (Elem T)) (rows : m'.rows = m.rows) (cols : m'.cols = m.cols)
      (emul : m'.emul = true ↔ XName n) (bir : m'.bir = false)
      (get : ∀ r c, r < m.rows → c < m.cols → m'.get r c = if XName n ∧ c + 1 = m.cols then some 1 else m.get r c)
      (cap : m'.cap = m'.rows * m'.cols) (own : m'.ext = false) : AsNamed n (.mtx T df m) (.mtx T df m')

/-- Something that can be loaded at all: a matrix that is not empty, and has a column beside the last one under a name of samples. -/
def Loadable (n : String) : Leaf → Prop
  | .scalar _ _ => True
  | .mtx _ _ m => 0 < m.rows ∧ 0 < m.cols ∧ (XName n → 2 ≤ m.cols)

/-- A matrix of the kind its name promises: samples have emulated biases (a column of ones beside at least one other column),
others have none. Samples are in rows. -/
def Regular (n : String) : Leaf → Prop
  | .scalar _ _ => True
  | .mtx _ _ m => 0 < m.rows ∧ 0 < m.cols ∧ (XName n → 2 ≤ m.cols) ∧ (m.emul = true ↔ XName n) ∧ m.bir = false ∧
      0 < m.cap ∧ BiasesAreOnes m

/-- An archive with the contents `f` that is not in the middle of something. -/
structure Idle (f : Vars) (s : St) : Prop where
  file : s.file = some f
  cur : s.cur = none
  stack : s.stack = []
  ok : s.err = .success

end Nntl.MatFile
