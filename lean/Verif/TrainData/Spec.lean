import Verif.TrainData.Model
import Verif.Kernel.MoveProps
import Verif.Matrix.BiasInv
/-! Vocabulary of the training data properties C13-C17. -/
namespace Nntl.TrainData
open Nntl.Matrix Nntl.Kernel
variable {α β : Type}

/-- A data set as a user supplies it: for each of the two sets, features and labels of equally many (at least one) samples,
equal widths and layouts across the sets, features with and labels without a bias vector, everything inside of its
storage. -/
structure Data.Ok (d : Data α β) : Prop where
  birX : ∀ s, (d.X s).bir = (d.X .train).bir
  birY : ∀ s, (d.Y s).bir = (d.Y .train).bir
  widthX : ∀ s, (d.X s).sampleSize = d.xW
  widthY : ∀ s, (d.Y s).sampleSize = d.yW
  posX : 0 < d.xW
  posY : 0 < d.yW
  count : ∀ s, 0 < d.count s
  same : ∀ s, (d.Y s).batchSize = d.count s
  emulX : ∀ s, (d.X s).emul = true
  emulY : ∀ s, (d.Y s).emul = false
  storX : ∀ s, (d.X s).rows * (d.X s).cols ≤ (d.X s).cap
  storY : ∀ s, (d.Y s).rows * (d.Y s).cols ≤ (d.Y s).cap

/-- Sample `r` of the batch `m` is a copy of sample `k` of `src`: same width, and every component reads the same. -/
def RowIs {γ : Type} (m src : Mtx γ) (r k : Nat) : Prop :=
  m.sampleSize = src.sampleSize ∧ r < m.batchSize ∧ k < src.batchSize ∧
  ∀ j, j < m.sampleSize → sampleAt m r j = sampleAt src k j ∧ (sampleAt src k j).isSome

/-- One call of the public interface. Executions of threaded kernels are arbitrary. -/
inductive Step [OfNat α 1] [OfNat β 1] (vmax : Nat) : TD α β → TD α β → Prop where
  | deinit (t) : Step vmax t (deinit t)
  | train (t maxF maxB e res) : init4train vmax t maxF maxB e = some res → Step vmax t res.t
  | inference (t maxF e res) : init4inference vmax t maxF e = some res → Step vmax t res.t
  | epoch (t cd arg shuffle t' n) : (∀ l : List Nat, (shuffle l).Perm l) → onNextEpoch t cd arg shuffle = some (t', n) → Step vmax t t'
  | batch (exX exY t i t') : exX.Ok → exY.Ok → OnNextBatch exX exY t i t' → Step vmax t t'
  | walk (t s cd arg ex ey t' n) : walkOverSet t s cd arg ex ey = some (t', n) → Step vmax t t'
  | subset (exX exY t i t') : exX.Ok → exY.Ok → NextSubset exX exY t i t' → Step vmax t t'

/-- States reachable from a fresh object holding `d` by any sequence of calls. -/
inductive Reach [OfNat α 1] [OfNat β 1] (vmax : Nat) (d : Data α β) : TD α β → Prop where
  | fresh (ja jb) : Reach vmax d (fresh d ja jb)
  | step {t t'} : Reach vmax d t → Step vmax t t' → Reach vmax d t'

end Nntl.TrainData
