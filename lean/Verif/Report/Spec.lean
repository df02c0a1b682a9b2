import Verif.Report.Model
import Verif.TrainData.Props
import Mathlib.Algebra.BigOperators.Group.Finset.Basic
/-! Vocabulary of the property C86. -/
namespace Nntl.Report
open Nntl.Matrix Nntl.Kernel Nntl.TrainData Finset
variable {W α β : Type}

/-- Sample `r` of a matrix, component by component. -/
def row {γ : Type} (m : Mtx γ) (r : ℕ) : List (Option γ) := (List.range m.sampleSize).map (sampleAt m r)

/-- The loss of a batch is the sum of the losses `g` of its samples. -/
def SampleWise (loss : Mtx α → Mtx β → ℝ) (g : List (Option α) → List (Option β) → ℝ) : Prop :=
  ∀ x y, x.batchSize = y.batchSize → loss x y = ∑ r ∈ range x.batchSize, g (row x r) (row y r)

/-- Loss of sample `k` of a data set. -/
def sampleLoss (g : List (Option α) → List (Option β) → ℝ) (d : Data α β) (s : SetId) (k : ℕ) : ℝ := g (row (d.X s) k) (row (d.Y s) k)

/-- Mean loss of a data set. -/
noncomputable def meanLoss (g : List (Option α) → List (Option β) → ℝ) (d : Data α β) (s : SetId) : ℝ :=
  (∑ k ∈ range (d.count s), sampleLoss g d s k) / d.count s

/-- The addenda of all layers for given weights and activations. -/
noncomputable def Nn.addendum (nn : Nn W α β) (w : W) (x : Mtx α) : ℝ := (nn.addenda.map fun f => f w x).sum

/-- Without penalties on activations the addenda depend on the weights only. -/
def Nn.FlagOk (nn : Nn W α β) : Prop := nn.hasA = false → ∀ f ∈ nn.addenda, ∀ w x x', f w x = f w x'

/-- The batches delivered by the `n` calls of `next_subset` after `walk_over_set(s, cd)` (nnet.h:279-285), which takes the default batch size. -/
structure Walk [OfNat α 1] [OfNat β 1] (d : Data α β) (s : SetId) (maxF : ℕ) (bs : List (Mtx α × Mtx β)) : Prop where
  ok : d.Ok
  ex : ∃ (vmax cd n : ℕ) (t t1 : TD α β) (run : ℕ → TD α β), Reach vmax d t ∧ t.maxFProp = maxF ∧
    walkOverSet t s cd (-1) false false = some (t1, n) ∧ run 0 = t1 ∧ SubsetRun run n ∧ bs.length = n ∧
    ∀ i (h : i < bs.length), batchX (run (i + 1)) = some bs[i].1 ∧ batchY (run (i + 1)) = some bs[i].2

end Nntl.Report
