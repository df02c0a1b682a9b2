import Verif.Gemm.Model

/-!
What a user of the products sees: the elements of a matrix addressed by sample and feature, whatever the layout.
-/
namespace Nntl.Gemm

open Nntl.Matrix

variable {α : Type}

/-- Feature `i` of sample `b`. In the default layout a sample is a row, with `batch in row` it is a column. Index `sampleSize` is the
bias of the sample if the matrix has biases. -/
def val (m : Mtx α) (b i : Nat) : α := if m.bir then m.data (m.cell i b) else m.data (m.cell b i)

/-- Element `(r, c)` of a matrix. -/
def el (m : Mtx α) (r c : Nat) : α := m.data (m.cell r c)

/-- The number of samples, of features and of features with the bias. -/
def features (m : Mtx α) : Nat := if m.bir then m.rows else m.cols

/-- Storage of an object that really holds its matrix, with at least one row and one column. -/
def Solid (m : Mtx α) : Prop := 0 < m.rows ∧ 0 < m.cols ∧ m.rows * m.cols ≤ m.cap

/-- Apart from the first `s` features of its samples nothing of the object has changed: not its header, not its biases, not what lies
behind it. -/
def OnlySamples (m m' : Mtx α) (s : Nat) : Prop :=
  m' = { m with data := m'.data } ∧
  ∀ k, (∀ b i, b < m.batchSize → i < s → k ≠ (if m.bir then m.cell i b else m.cell b i)) → m'.data k = m.data k

end Nntl.Gemm
