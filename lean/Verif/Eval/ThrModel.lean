import Verif.Eval.Model
import Verif.Kernel.Reduce
/-! Model of the life of the evaluator for binary answers: its threshold may be changed at any time, labels are prepared by `init`. Also the variant
of the counter of equal elements that uses several threads. Sources: /repo/nntl/nnet_evaluator.h, /repo/nntl/interface/math/mathn.h. -/
namespace Nntl.Eval
open Nntl.Matrix Nntl.Kernel Nntl.Threads
variable {α : Type} [LinearOrder α]

/-- `vCountSame_mt_naive` mathn.h:1106-1126; the partial counts pass through `reduce_data_t` unchanged (_i_threads.h:53-78). -/
def countSameMt {β : Type} [DecidableEq β] (ex : Exec) (A : Nat → β) (ofs : Nat) (B : Nat → β) (n : Nat) : Nat :=
  reduceSum ex n (sumLoop fun i => (decide (A (ofs + i) = B i)).toNat)

/-- `eval_classification_binary_cached` nnet_evaluator.h:83-91: the threshold and the prepared labels of the training and of the test set (`none`: cleared
or never made). `m_curYOfs` is set by every report (`Cnt.begin`); `m_predictionsPP_orYData` is scratch memory. -/
structure Ev (α : Type) where
  thr : α
  cache : Bool → Option (Nat × (Nat → Bool))

/-- The constructor, nnet_evaluator.h:97; `half` is 0.5. -/
def Ev.fresh (half : α) : Ev α := ⟨half, fun _ => none⟩

/-- What the user and the network do with the evaluator: `set_threshold` 99, `init` 102-136 with the batches the data object shows for the training and
for the test set and their numbers of samples, `deinit` 154-159. `threshold()` 100 reads the first component. -/
inductive EOp (α : Type) where
  | setThreshold (t : α)
  | init (ds : Bool → Nat) (bs : Bool → List (Exec × Mtx α))
  | deinit

/-- One call. Allocations are assumed to succeed (a failed one is a `deinit`, 121-127). -/
def EOp.step : EOp α → Ev α → Ev α → Prop
  | .setThreshold t, e, e' => e' = { e with thr := t }
  | .init ds bs, e, e' => ∃ d d' : Bool → Nat → Bool, (∀ s, fillCache (ds s) e.thr (bs s) 0 (d s) (d' s)) ∧
      e' = { e with cache := fun s => some (ds s, d' s) }
  | .deinit, e, e' => e' = { e with cache := fun _ => none }

/-- A history of calls. -/
def EOp.run : List (EOp α) → Ev α → Ev α → Prop
  | [], e, e' => e' = e
  | o :: os, e, e' => ∃ e1, o.step e e1 ∧ EOp.run os e1 e'

/-- A report of the training or of the test set (`s`), in batches: the labels are the prepared ones. -/
def Ev.report (e : Ev α) (s : Bool) (bs : List (Rep α)) (c' : Cnt) : Prop := ∃ ch, e.cache s = some ch ∧ binReport e.thr (some ch) bs c'

/-- A report of any other set. -/
def Ev.reportOther (e : Ev α) (bs : List (Rep α)) (c' : Cnt) : Prop := binReport e.thr none bs c'

end Nntl.Eval
