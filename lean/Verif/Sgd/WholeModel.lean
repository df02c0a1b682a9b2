import Verif.Sgd.Net
import Verif.Train.Model
import Verif.TrainData.Spec

/-!
What the calls made by `train()` do to the data object and to the network: the loop of `Train.train` (`nntl/nnet.h` 523–676), the data object of `TrainData`
(`nntl/train_data/_train_data_simple.h`) and the network of `Pass` put together.
-/
namespace Nntl.Sgd

open Nntl.Layers Nntl.Pass Nntl.Matrix Nntl.Kernel

/-- The data object, the network, the batch size the layers were told last, the number of batches of the epoch that `on_next_epoch` returned, and the batch of
samples between the forward and the backward pass. -/
structure World (P : Plan) where
  td : TrainData.TD ℝ ℝ
  net : NetS P.net
  cur : ℕ
  n : ℕ
  x : Mem ℝ

/-- Any number of calls of the interface of the data object. -/
inductive Calls (vmax : ℕ) : TrainData.TD ℝ ℝ → TrainData.TD ℝ ℝ → Prop where
  | none (t) : Calls vmax t t
  | next {t t' t''} : TrainData.Step vmax t t' → Calls vmax t' t'' → Calls vmax t t''

/-- What reports (`nntl/nnet.h` 237–257) and callbacks may do: evaluations of the network with batches of allowed sizes, and any calls of the data object.
A simplification: callbacks that change the network or its settings are left out. -/
def Looks (P : Plan) (vmax : ℕ) (w w' : World P) : Prop :=
  ∃ us td', (∀ u ∈ us, P.Fits u ∧ ∃ R X, u = Use.eval R X) ∧ Calls vmax w.td td' ∧ w' = { w with td := td', net := P.net.run w.net us }

/-- The effect of one call. `on_next_epoch` (`nntl/nnet.h` 598) is called with the default batch size, which is the current one of the network; the number it
returns is the number of turns of the loop (602), which the inspector is told (600). `on_next_batch` 605; the batches of the data object go to `m_Layers.fprop`
614 and `m_Layers.bprop` 617, in the mode and with the batch size of the network (`Net.to` changes nothing if they are set already), 611–612 are conditions. `deinit`
keeps the weights (`nntl/layer/fully_connected.h` 394–397). Other calls go to the inspector and to the observer. -/
def Effect (P : Plan) (vmax : ℕ) : Train.Ev → World P → World P → Prop
  | .layersBatchSize bs, w, w' => w' = { w with cur := bs }
  | .nextEpoch _, w, w' => ∃ shuffle td' n, (∀ l : List ℕ, (shuffle l).Perm l) ∧ TrainData.onNextEpoch w.td w.cur 0 shuffle = some (td', n) ∧
      w' = { w with td := td', n := n }
  | .epochBegin _ n, w, w' => n = w.n ∧ w' = w
  | .nextBatch i, w, w' => ∃ exX exY td', Exec.Ok exX ∧ Exec.Ok exY ∧ TrainData.OnNextBatch exX exY w.td i td' ∧ w' = { w with td := td' }
  | .fprop t bs, w, w' => ∃ x, TrainData.batchX w.td = some x ∧ x.batchSize = bs ∧
      w' = { w with net := (P.net.fprop (P.net.to t bs w.net) x.data).1, x := (P.net.fprop (P.net.to t bs w.net) x.data).2 }
  | .bprop _ bs, w, w' => ∃ y, TrainData.batchY w.td = some y ∧ y.batchSize = bs ∧ w' = { w with net := (P.net.bprop w.net w.x y.data).1 }
  | .report _, w, w' => Looks P vmax w w'
  | .callback _, w, w' => Looks P vmax w w'
  | .deinit, w, w' => ∃ net', P.weights net' = P.weights w.net ∧ w' = { w with net := net' }
  | _, w, w' => w' = w

/-- The effect of a sequence of calls. -/
def Plays (P : Plan) (vmax : ℕ) : List Train.Ev → World P → World P → Prop
  | [], w, w' => w' = w
  | e :: es, w, w' => ∃ w1, Effect P vmax e w w1 ∧ Plays P vmax es w1 w'

/-! ### Specification -/

/-- Feature `j` and label `j` of the training sample `k`. -/
noncomputable def feature (d : TrainData.Data ℝ ℝ) (k j : ℕ) : ℝ := (sampleAt (d.X .train) k j).getD 0
noncomputable def label (d : TrainData.Data ℝ ℝ) (k j : ℕ) : ℝ := (sampleAt (d.Y .train) k j).getD 0

/-- The batches of an epoch: as many whole batches of `b` samples as there are in the training set, in the order `ord`. -/
noncomputable def epochBatches (d : TrainData.Data ℝ ℝ) (b : ℕ) (ord : ℕ → ℕ) : List (ℕ × Mat ℝ × Mat ℝ) :=
  (List.range (d.count .train / b)).map fun i => (b, fun r j => feature d (ord (i * b + r)) j, fun r j => label d (ord (i * b + r)) j)

/-- The order of an epoch: different training samples; all of them if they fill the batches. -/
def Shuffled (N b : ℕ) (ord : ℕ → ℕ) : Prop :=
  (∀ k < N / b * b, ord k < N) ∧ (∀ k < N / b * b, ∀ k' < N / b * b, ord k = ord k' → k = k') ∧ (b ∣ N → ∀ s < N, ∃ k < N / b * b, ord k = s)

/-- The training data suits the network: samples are in rows, with the bias column of features in place; the numbers of features and labels are right. -/
structure Suits (d : TrainData.Data ℝ ℝ) (P : Plan) : Prop where
  ok : d.Ok
  rowsX : (d.X .train).bir = false
  rowsY : (d.Y .train).bir = false
  ones : BiasesAreOnes (d.X .train)
  inputs : d.xW = P.inputs
  outputs : d.yW = P.outputs

/-- Losses do not look beyond the outputs. -/
def LossLooks (S : Shape) : Prop := ∀ a y y', (∀ i < S.outputs, y i = y' i) → S.loss a y = S.loss a y'

/-- The sample `x` with the expected answer `y` can be trained on with the weights `W`. -/
def Shape.RegularAt (S : Shape) (dz : ℝ → ℝ → ℝ) (x y : ℕ → ℝ) (W : Weights) : Prop :=
  SmoothAt S.act S.tree S.inputs W.body x ∧ Backprop.LossGrad S.outputs S.last S.loss dz (S.raw W x) y

/-- A batch of training samples. -/
def Drawn (d : TrainData.Data ℝ ℝ) (b : ℕ × Mat ℝ × Mat ℝ) : Prop := ∀ r < b.1, ∃ k < d.count .train, b.2.1 r = feature d k ∧ b.2.2 r = label d k

/-- Training on the samples goes well: at all weights that gradient descent over batches of training samples reaches from `W0`, derivatives exist for all samples. -/
def GoesWell (P : Plan) (η : Rates) (d : TrainData.Data ℝ ℝ) (W0 : Weights) : Prop :=
  ∀ bs W, (∀ b ∈ bs, Drawn d b) → P.shape.Path η bs W0 W → ∀ k < d.count .train, P.shape.RegularAt P.dz (feature d k) (label d k) W

end Nntl.Sgd
