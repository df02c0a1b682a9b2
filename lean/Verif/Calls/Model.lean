import Verif.Backprop.Works
import Verif.Gemm.Model
import Verif.Act.LossModel
import Verif.Num.SoftmaxModel
import Verif.Matrix.Spec
/-! The sequences of calls made by a fully connected layer and by the output layer: `_lfc_fprop` and `_lfc_bprop` of
`nntl/layer/fully_connected.h`, `_outp_bprop` of `nntl/layer/output.h`, with the activation calls of `nntl/layer/_activation_wrapper.h`.

Each matrix is an object with its header (`Matrix.Mtx`), each product a call of the BLAS wrapper (`Gemm`), each element-wise operation a kernel run by the
threads of the pool (`Kernel.Runs`), the optimiser the relation `Grad.applyGrad`. A violated assertion, or an access outside of a buffer, is the outcome
`none`. Numbers are exact reals. Inspectors, the checks for NaN and the check that two matrices do not share storage are left out. -/
namespace Nntl.Calls

open Nntl.Matrix Nntl.Kernel Nntl.Threads Nntl.Grad Nntl.Backprop Nntl.Gemm Nntl.Pass Nntl.Act

/-- What the machine decides: ranges of the threads and thresholds of `Grad.Env`, the thresholds of the kernels used by the layers themselves, and
how `mrwSum_ip` inside of softmax is executed. -/
structure Mach where
  env : Env
  f : ℕ
  df : ℕ
  mul : ℕ
  dz : ℕ
  clamp : ℕ
  soft : Num.Thr
  sumEx : Exec
  sumCw : Bool

/-- Members of the layer that no pass changes: `get_incoming_neurons_cnt()`, `get_neurons_cnt()`, `m_incBS` (= `m_outgBS`), `bUpdateWeights()`, the
settings of the optimiser. -/
structure Kind where
  n : ℕ
  m : ℕ
  maxBS : ℕ
  maxTrainBS : ℕ
  upd : Bool
  o : Opt

/-- The layer object: `m_weights`, `m_activations`, the gradient works, `get_common_data().is_training_mode()`, `is_activations_shared()`,
`m_bActivationsValid`. -/
structure Layer where
  W : Mtx ℝ
  act : Mtx ℝ
  g : GwS
  training : Bool
  shared : Bool
  valid : Bool

/-- One piece of code after the other; a failure of the first one is the failure of both. -/
def andThen {β γ : Type} (r : Option β → Prop) (q : β → Option γ → Prop) (out : Option γ) : Prop :=
  (r none ∧ out = none) ∨ ∃ b, r (some b) ∧ q b out

/-- A call with a certain result. -/
def call {β : Type} (x : Option β) : Option β → Prop := fun o => o = x

/-- `NNTL_ASSERT(p)` before the rest. -/
def asserting {γ : Type} (p : Prop) (rest : Option γ → Prop) (out : Option γ) : Prop := (¬ p ∧ out = none) ∨ (p ∧ rest out)

/-- `test_biases_strict`, `nntl/interface/math/smatrix.h` 686–712, with its assertions. -/
def BiasesStrict (m : Mtx ℝ) : Prop := m.emul = true ∧ m.holey = false ∧ m.cap ≠ 0 ∧ 0 < m.rows ∧ 0 < m.cols ∧ BiasesAreOnes m

/-- `size()` and `size_no_bias()`, `nntl/interface/math/smatrix.h`. -/
def size (m : Mtx ℝ) : ℕ × ℕ := (m.rows, m.cols)
def sizeNoBias (m : Mtx ℝ) : ℕ × ℕ := (m.rowsNoBias, m.colsNoBias)

/-- The member state of the gradient works: the matrices of `Grad.St` that belong to the layer (weights and their gradient) are recorded as a weights
object with the same contents, whatever objects were passed. -/
noncomputable def bare (K : Kind) (s : St) : St :=
  { s with W := mtxOf K.m (K.n + 1) (matOf K.m s.W.data)
           G := mtxOf K.m (K.n + 1) (matOf K.m s.G.data) }

/-! ### Activation calls -/

/-- `_activation_fprop`, `_activation_wrapper.h` 137–144, for an element-wise activation; `lin` is `bIgnoreActivation()`. -/
def hiddenF (M : Mach) (a : Act.Act) (lin : Bool) (A : Mtx ℝ) (out : Option (Mtx ℝ)) : Prop :=
  if lin then out = some A
  else ∃ d, fRun M.f M.env.rs a A.numelNoBias A.data d ∧ out = some { A with data := d }

/-- Activations of the output layer: an element-wise one, or softmax. -/
inductive OutAct
  | elem (o : Out)
  | softmax

/-- `_activation_fprop` in the output layer, `nntl/activations/softmax.h` 57–61. -/
def outF (M : Mach) (a : OutAct) (lin : Bool) (A : Mtx ℝ) (out : Option (Mtx ℝ)) : Prop :=
  match a with
  | .elem o => hiddenF M o.act lin A out
  | .softmax => if lin then out = some A
      else (∃ A' mx den num, Num.softmax M.soft M.env.rs M.sumEx M.sumCw A A' mx den num ∧ out = some A') ∨
        (A.hideBiases = none ∧ out = none)

/-- `evMul_ip`, `nntl/interface/math/mathn.h` 1757–1796, with the assertion of 1763. -/
def evMulIp (M : Mach) (A B : Mtx ℝ) (out : Option (Mtx ℝ)) : Prop :=
  asserting (size A = size B) (fun out => ∃ d, Runs (if A.numel < M.mul then .st else .mt M.env.rs) A.numel (eachSteps fun i v => v * B.data i) A.data d ∧
    out = some { A with data := d }) out

/-- `_activation_bprop`, `_activation_wrapper.h` 146–159: `df` in place of the activations, or ones (`dIdentity`, `nntl/activations/_i_activation.h`
105–111). -/
def hiddenDf (M : Mach) (a : Act.Act) (lin : Bool) (Z : Mtx ℝ) (out : Option (Mtx ℝ)) : Prop :=
  if lin then out = some { Z with data := fillSeq Z.data 0 1 Z.numel }
  else ∃ d, dfRun M.df M.env.rs a Z.numel Z.data d ∧ out = some { Z with data := d }

/-- `is_activation_identity`, `nntl/activations/identity.h`. -/
def isIdentity : Act.Act → Bool
  | .identity => true
  | _ => false

/-- `fully_connected.h` 446–461: `dL/dZ` in place of the activations. For the identity activation (`is_activation_identity`) `dLdA` is copied. -/
def hiddenZ (M : Mach) (a : Act.Act) (lin : Bool) (dLdA Z : Mtx ℝ) (out : Option (Mtx ℝ)) : Prop :=
  if isIdentity a then asserting ((dLdA.copyTo Z).2 = true) (call (some (dLdA.copyTo Z).1)) out
  else andThen (hiddenDf M a lin Z) (fun Z1 => evMulIp M Z1 dLdA) out

/-- `_activation_bprop_output`, `_activation_wrapper.h` 161–171, and `evClamp`, `output.h` 212–215: `dL/dZ` in place of the activations of the output
layer. `bnd` are the bounds set by `restrict_dL_dZ`. `softmax_xentropy_loss` has `dLdZIdentity` of `_i_xentropy_loss`. -/
def outZ (M : Mach) (a : OutAct) (lin : Bool) (bnd : Option (ℝ × ℝ)) (Y A : Mtx ℝ) (out : Option (Mtx ℝ)) : Prop :=
  asserting (A.emul = false ∧ Y.emul = false ∧ size A = size Y) (fun out =>
    ∃ d1 d, Runs (if A.numel < M.dz then .st else .mt M.env.rs) A.numel (eachSteps fun i v =>
        match a with
        | .elem o => if lin then o.dLdZIdentity (Y.data i) v else o.dLdZ (Y.data i) v
        | .softmax => if lin then (v - Y.data i) / (v * (1 - v)) else v - Y.data i) A.data d1 ∧
      (match bnd with
        | none => d = d1
        | some b => Runs (if A.numel < M.clamp then .st else .mt M.env.rs) A.numel (eachSteps fun _ v => Act.clamp b.1 b.2 v) d1 d) ∧
      out = some { A with data := d }) out

/-! ### Passes -/

/-- `_on_fprop_in_training_mode` 399–401 under the condition of line 266: `pre_training_fprop(m_weights)`. -/
def preCall (M : Mach) (K : Kind) (L : Layer) (out : Option Layer) : Prop :=
  if L.training then
    andThen (preTrainingFprop M.env (K.o.pre L.g.p).cfg (K.o.pre L.g.p).blocked (K.o.pre L.g.p).draw { L.g.s with W := L.W })
      (fun s => call (some { L with W := s.W, g := ⟨L.g.p + 1, L.g.t, s⟩ })) out
  else out = some L

/-- `_lfc_fprop`, `fully_connected.h` 241–284. `hidden` is `!bActivationForOutput`; `F` is the activation call. -/
def lfcFprop (M : Mach) (K : Kind) (hidden : Bool) (F : Mtx ℝ → Option (Mtx ℝ) → Prop) (prev : Mtx ℝ) (L : Layer) (out : Option Layer) : Prop :=
  asserting (BiasesStrict prev ∧ K.n = prev.sampleSize ∧ (L.shared = true ∨ L.act.emul = hidden) ∧
      (hidden = false ∨ L.shared = true ∨ BiasesStrict L.act) ∧ prev.batchSize ≤ (if L.training then K.maxTrainBS else K.maxBS) ∧
      L.act.batchSize ≤ (if L.training then K.maxTrainBS else K.maxBS) ∧ prev.batchSize = L.act.batchSize)
    (andThen (preCall M K L) fun L1 =>
      andThen (call (mMulPrevActWeights prev L1.W L1.act)) fun Z =>
      andThen (F Z) fun A =>
      call (some { L1 with act := A, valid := true })) out

/-- The matrix `dLdZ`: the storage of the activations without the biases, `smatrix.h` 392–395, 1172–1176. -/
def noBias (A : Mtx ℝ) : Mtx ℝ :=
  { A with rows := A.rowsNoBias
           cols := A.colsNoBias
           emul := false
           ext := true
           holey := false
           maxSize := A.rowsNoBias * A.colsNoBias }

/-- `deform_like`, `smatrix.h` 1682–1685. -/
def deformLike (A like : Mtx ℝ) : Option (Mtx ℝ) := (A.deform like.rows like.cols).map fun B => { B with bir := like.bir }
/-- `deform_like_no_bias`, `smatrix.h` 1690–1693. -/
def deformLikeNoBias (A like : Mtx ℝ) : Option (Mtx ℝ) :=
  (A.deform like.rowsNoBias like.colsNoBias).map fun B => { B with bir := like.bir }

/-- `mMul_dLdZ_weights_2_dLdAPrev` if the lower layer needs it; the weights and `dLdAPrev` afterwards. -/
noncomputable def passDown (need : Bool) (Z W P : Mtx ℝ) : Option (Mtx ℝ × Mtx ℝ) := if need then mMulDLdZWeights Z W P else some (W, P)

/-- `get_gradWorks().apply_grad(m_weights, dLdW)`: the weights, the gradient works and `dLdW` afterwards. -/
def applyCall (M : Mach) (K : Kind) (g : GwS) (W dW : Mtx ℝ) (out : Option (Mtx ℝ × GwS × Mtx ℝ)) : Prop :=
  andThen (applyGrad M.env (K.o.app g.t).cfg (K.o.app g.t).blocked (K.o.app g.t).draw { g.s with W := W, G := dW })
    (fun s => call (some (s.W, ⟨g.p, g.t + 1, bare K s⟩, s.G))) out

/-- `_lfc_bprop`, `fully_connected.h` 406–519. `need` is `bPrevLayerWBprop`. Result: the layer, the object passed as `dLdA`, the object passed as
`dLdAPrev`. `dLdW` is `dLdA` in other clothes; `dLdZ` shares the storage of `m_activations`. -/
def lfcBprop (M : Mach) (K : Kind) (a : Act.Act) (lin need : Bool) (prev : Mtx ℝ) (L : Layer) (D P : Mtx ℝ) (out : Option (Layer × Mtx ℝ × Mtx ℝ)) : Prop :=
  asserting (BiasesStrict prev ∧ (L.shared = true ∨ BiasesStrict L.act) ∧ L.valid = true ∧ L.training = true ∧ prev.batchSize ≤ K.maxTrainBS ∧
      L.act.batchSize ≤ K.maxTrainBS ∧ prev.batchSize = L.act.batchSize ∧ prev.emul = true ∧ (L.shared = true ∨ L.act.emul = true) ∧
      sizeNoBias L.act = size D ∧ K.n = prev.sampleSize ∧ (need = true → size P = sizeNoBias prev ∧ P.bir = prev.bir) ∧ L.act.bir = false ∧ D.bir = false)
    (andThen (hiddenZ M a lin D (noBias L.act)) fun Z =>
      andThen (call (passDown need Z L.W P)) fun w =>
      if K.upd then
        andThen (call (deformLike D w.1)) fun D1 =>
        andThen (call (mMulScaledDLdZPrevAct (1 / (L.act.batchSize : ℝ)) Z prev D1)) fun D2 =>
        andThen (applyCall M K L.g w.1 D2) fun x =>
        andThen (call (deformLikeNoBias x.2.2 L.act)) fun D3 =>
        call (some ({ L with W := x.1, act := { L.act with data := Z.data }, g := x.2.1, valid := false }, D3, w.2))
      else call (some ({ L with W := w.1, act := { L.act with data := Z.data }, valid := false }, D, w.2))) out

/-- `_outp_bprop`, `output.h` 167–246. `dW` is `m_dLdW`, made by `initMem` 156–163 on the temporary memory, if the weights are updated. Result: the
layer, `m_dLdW`, the object passed as `dLdAPrev`. -/
def outBprop (M : Mach) (K : Kind) (a : OutAct) (lin : Bool) (bnd : Option (ℝ × ℝ)) (need : Bool) (prev : Mtx ℝ) (L : Layer) (Y dW P : Mtx ℝ)
    (out : Option (Layer × Mtx ℝ × Mtx ℝ)) : Prop :=
  asserting (BiasesStrict prev ∧ L.training = true ∧ prev.batchSize ≤ K.maxTrainBS ∧ L.act.batchSize ≤ K.maxTrainBS ∧
      prev.batchSize = L.act.batchSize ∧ L.valid = true ∧ K.n = prev.sampleSize ∧ (need = true → size P = sizeNoBias prev ∧ P.bir = prev.bir))
    (andThen (outZ M a lin bnd Y L.act) fun Z =>
      asserting (Z.bir = false)
      (andThen (call (passDown need Z L.W P)) fun w =>
      if K.upd then
        asserting (dW.emul = false ∧ dW.bir = false ∧ w.1.bir = false ∧ size dW = size w.1)
        (andThen (call (mMulScaledDLdZPrevAct (1 / (Z.rows : ℝ)) Z prev dW)) fun D2 =>
        andThen (applyCall M K L.g w.1 D2) fun x =>
        call (some ({ L with W := x.1, act := { Z with bir := L.act.bir }, g := x.2.1, valid := false }, x.2.2, w.2)))
      else call (some ({ L with W := w.1, act := { Z with bir := L.act.bir }, valid := false }, dW, w.2)))) out

end Nntl.Calls
