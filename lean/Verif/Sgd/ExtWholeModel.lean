import Verif.Sgd.WholeModel
import Verif.Sgd.ExtNet

/-!
As `WholeModel`, for networks with dropout and penalties on activations (`XPlan`): what the calls made by `train()` (`nntl/nnet.h` 523–676) do to the data object
and to such a network.
-/
namespace Nntl.Sgd.Thin

open Nntl.Layers Nntl.Pass Nntl.Matrix Nntl.Kernel

/-- The data object, the network, the batch size the layers were told last, the number of batches of the epoch that `on_next_epoch` returned, and the batch of
samples between the forward and the backward pass. -/
structure World (P : XPlan) where
  td : TrainData.TD ℝ ℝ
  net : NetS P.net
  cur : ℕ
  n : ℕ
  x : Mem ℝ

/-- What reports (`nntl/nnet.h` 237–257) and callbacks may do: evaluations of the network with batches of allowed sizes, and any calls of the data object.
A simplification: callbacks that change the network or its settings are left out. -/
def Looks (P : XPlan) (vmax : ℕ) (w w' : World P) : Prop :=
  ∃ us td', (∀ u ∈ us, P.Fits u ∧ ∃ R X, u = Use.eval R X) ∧ Calls vmax w.td td' ∧ w' = { w with td := td', net := P.net.run w.net us }

/-- The effect of one call. `on_next_epoch` (`nntl/nnet.h` 598) is called with the default batch size, which is the current one of the network; the number it
returns is the number of turns of the loop (602), which the inspector is told (600). `on_next_batch` 605; the batches of the data object go to `m_Layers.fprop`
614 and `m_Layers.bprop` 617, in the mode and with the batch size of the network (`Net.to` changes nothing if they are set already), 611–612 are conditions. `deinit`
keeps the weights (`nntl/layer/fully_connected.h` 394–397). Other calls go to the inspector and to the observer. -/
def Effect (P : XPlan) (vmax : ℕ) : Train.Ev → World P → World P → Prop
  | .layersBatchSize bs, w, w' => w' = { w with cur := bs }
  | .nextEpoch _, w, w' => ∃ shuffle td' n, (∀ l : List ℕ, (shuffle l).Perm l) ∧ TrainData.onNextEpoch w.td w.cur 0 shuffle = some (td', n) ∧
      w' = { w with td := td', n := n }
  | .epochBegin _ n, w, w' => n = w.n ∧ w' = w
  | .nextBatch i, w, w' => ∃ exX exY td', Exec.Ok exX ∧ Exec.Ok exY ∧ TrainData.OnNextBatch exX exY w.td i td' ∧ w' = { w with td := td' }
  | .fprop t bs, w, w' => ∃ x, TrainData.batchX w.td = some x ∧ x.batchSize = bs ∧
      w' = { w with net := (P.net.fprop (P.net.to t bs w.net) x.data).1, x := (P.net.fprop (P.net.to t bs w.net) x.data).2 }
  | .bprop _ bs, w, w' => ∃ y, TrainData.batchY w.td = some y ∧ y.batchSize = bs ∧ w' = { w with net := (P.net.bprop w.net w.x y.data).1 }
  | .report _, w, w' => Looks P vmax w w'
  | .callback _, w, w' => Looks P vmax w w'
  | .deinit, w, w' => ∃ net', P.weights net' = P.weights w.net ∧ w' = { w with net := net' }
  | _, w, w' => w' = w

/-- The effect of a sequence of calls. -/
def Plays (P : XPlan) (vmax : ℕ) : List Train.Ev → World P → World P → Prop
  | [], w, w' => w' = w
  | e :: es, w, w' => ∃ w1, Effect P vmax e w w1 ∧ Plays P vmax es w1 w'

end Nntl.Sgd.Thin
