import Verif.Norm.Model
/-! What normalisation is expected to do: steps that rescale numbers, matrices with all numbers rescaled and biases kept, statistics within tolerance. -/
namespace Nntl.Norm
open Nntl.Matrix
variable {K : Type} [Field K] [LinearOrder K]

/-- One step done to a number: it is multiplied when the step scales, then an offset is added when the step shifts. -/
def stepFn (s : Stat K) (v : K) : K :=
  let v := if s.bScale then s.sc * v else v
  if s.bOffset then v + s.ofs else v

/-- All the steps, one after another. -/
def replay (l : List (Stat K)) (v : K) : K := l.foldl (fun v s => stepFn s v) v

/-- `m'` is `m` with every number of column `c` (biases are not numbers of the data) changed by `f c`; shape, biases and memory behind the data are kept. -/
structure Changed (f : Nat → K → K) (m m' : Mtx K) : Prop where
  shape : m' = { m with data := m'.data }
  elems : ∀ r c, r < m.rowsNoBias → c < m.colsNoBias → m'.data (m.cell r c) = f c (m.data (m.cell r c))
  rest : ∀ k, (∀ r c, r < m.rowsNoBias → c < m.colsNoBias → k ≠ m.cell r c) → m'.data k = m.data k

/-- The matrix has some data. -/
def Proper (m : Mtx K) : Prop := 0 < m.rowsNoBias ∧ 0 < m.colsNoBias

/-- Everything the settings ask for is within tolerance (a statistic that is not finite is not asked for, nor is a scale of zero). -/
def Acceptable (s : Setts K) (m : Meas K) : Prop :=
  (s.normScale = true → m.scaleGood = true → m.special = false → |m.scale - s.targetScale| < s.scaleTol) ∧
  (s.normCentral = true → m.centralGood = true → |m.central - s.targetCentral| < s.centralTol)

end Nntl.Norm
