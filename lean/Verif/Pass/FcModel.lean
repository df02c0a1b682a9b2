import Verif.Pass.NetModel
/-! Fully connected layer and output layer on the level of memory: `nntl/layer/fully_connected.h`, `nntl/layer/output.h`. -/
namespace Nntl.Pass

/-- Arithmetic used by the layer. `dot n x y` is the scalar product of `n` pairs as computed by BLAS (in whatever order); `inv R` is
`1 / batch size`; `scale` multiplies by it inside `gemm`. -/
structure Arith (α : Type) where
  dot : Nat → (Nat → α) → (Nat → α) → α
  mul : α → α → α
  inv : Nat → α

/-- The scalar product looks at the first `n` elements only. -/
def Arith.Ok {α : Type} (a : Arith α) : Prop :=
  ∀ n x y x' y', (∀ i < n, x i = x' i) → (∀ i < n, y i = y' i) → a.dot n x y = a.dot n x' y'

/-- Gradient works (`nntl/grad_works/grad_works.h`) with state `G`: `pre` is `pre_training_fprop`, `apply` is `apply_grad`; it may change the
matrix of the gradient as well. -/
structure GradWorks (α : Type) where
  G : Type
  pre : G → Mat α → G × Mat α
  apply : G → Mat α → Mat α → G × Mat α × Mat α

/-- State of a layer with weights. `training` is `is_training_mode()` of the common data. -/
structure FcS {α : Type} (gw : GradWorks α) where
  w : Mat α
  g : gw.G
  training : Bool

/-- A matrix of `R` rows stored in memory. -/
def memOf {α : Type} (R : Nat) (M : Mat α) : Mem α := fun p => M (p % R) (p / R)

/-- `_LFC`: `_lfc_fprop` `nntl/layer/fully_connected.h` 241–284, `_lfc_bprop` 406–519, `layer_init` 360–389, with elementwise activation `f`
whose derivative is computed from the activation by `df`. `n` incoming neurons, `m` neurons, training batches up to `NT`, `upd` is
`bUpdateWeights()`. `dLdZ` takes the place of the activations, `dLdW` the place of `dLdA`. The identity activation
(470–473) is the case of `mul (df a) d = d`. -/
def fc {α : Type} (a : Arith α) (gw : GradWorks α) (f df : α → α) (upd : Bool) (NT n m : Nat) : Obj α where
  S := FcS gw
  inc := n
  neurons := m
  biases := true
  tmp := 0
  cap := max (NT * m) (if upd then m * (n + 1) else 0)
  mode := fun b s => { s with training := b }
  resize := fun _ s => s
  fprop := fun R s A T O =>
    let s1 : FcS gw := if s.training then ⟨(gw.pre s.g s.w).2, (gw.pre s.g s.w).1, true⟩ else s
    ⟨s1, A, T, copy (R * m) O (memOf R fun r c => f (a.dot (n + 1) (fun j => A (r + R * j)) (fun j => s1.w c j)))⟩
  bprop := fun R need s A T O D P =>
    let O1 := copy (R * m) O fun p => a.mul (df (O p)) (D p)
    let P1 := if need then copy (R * n) P (memOf R fun r j => a.dot m (fun c => O1 (r + R * c)) (fun c => s.w c j)) else P
    if upd then
      let D1 := copy (m * (n + 1)) D (memOf m fun c j => a.mul (a.inv R) (a.dot R (fun r => O1 (r + R * c)) (fun r => A (r + R * j))))
      let x := gw.apply s.g s.w (matOf m D1)
      ⟨true, ⟨x.2.1, x.1, s.training⟩, A, T, O1, copy (m * (n + 1)) D1 (memOf m x.2.2), P1⟩
    else ⟨true, s, A, T, O1, D, P1⟩

/-- `layer_output`: `_outp_bprop` `nntl/layer/output.h` 167–246, `layer_init` 119–148. `act` is the activation, a function of a row (softmax
included); `dz act y` is the elementwise gradient with respect to the preactivations (`_activation_bprop_output`), clamped if
`restrict_dL_dZ` is used. `dLdW` is in the temporary memory. -/
def outLayer {α : Type} (a : Arith α) (gw : GradWorks α) (act : (Nat → α) → Nat → α) (dz : α → α → α) (upd : Bool) (n m : Nat) : OutObj α where
  S := FcS gw
  inc := n
  neurons := m
  tmp := if upd then m * (n + 1) else 0
  cap := 0
  mode := fun b s => { s with training := b }
  resize := fun _ s => s
  fprop := fun R s A T O =>
    let s1 : FcS gw := if s.training then ⟨(gw.pre s.g s.w).2, (gw.pre s.g s.w).1, true⟩ else s
    ⟨s1, A, T, copy (R * m) O (memOf R fun r => act fun c => a.dot (n + 1) (fun j => A (r + R * j)) (fun j => s1.w c j))⟩
  bprop := fun R s A T O Y P =>
    let O1 := copy (R * m) O fun p => dz (O p) (Y p)
    let P1 := copy (R * n) P (memOf R fun r j => a.dot m (fun c => O1 (r + R * c)) (fun c => s.w c j))
    if upd then
      let T1 := copy (m * (n + 1)) T (memOf m fun c j => a.mul (a.inv R) (a.dot R (fun r => O1 (r + R * c)) (fun r => A (r + R * j))))
      let x := gw.apply s.g s.w (matOf m T1)
      ⟨⟨x.2.1, x.1, s.training⟩, A, copy (m * (n + 1)) T1 (memOf m x.2.2), O1, P1⟩
    else ⟨s, A, T, O1, P1⟩

/-! ### Specification -/

/-- The input with the column of ones. -/
def withOnes {α : Type} [One α] (n : Nat) (X : Mat α) : Mat α := fun r j => if j < n then X r j else 1

/-- `Z = [X 1] Wᵀ`. -/
def preAct {α : Type} [One α] (a : Arith α) (n : Nat) (W X : Mat α) : Mat α := fun r c => a.dot (n + 1) (withOnes n X r) (W c)

/-- `dL/dW = (1/R) (dL/dZ)ᵀ [X 1]`. -/
def gradW {α : Type} [One α] (a : Arith α) (R n : Nat) (X Z : Mat α) : Mat α := fun c j =>
  a.mul (a.inv R) (a.dot R (fun r => Z r c) (fun r => withOnes n X r j))

/-- `s'` is obtained from `s` by one use of gradient works on the gradient `g` (an `m` × `k` matrix); elements of the matrix that are not
there do not matter. Without `upd` nothing changes. -/
def Updated {α : Type} {gw : GradWorks α} (upd : Bool) (m k : Nat) (s : FcS gw) (g : Mat α) (s' : FcS gw) : Prop :=
  if upd then ∃ g', (∀ c < m, ∀ j < k, g' c j = g c j) ∧
    s' = ⟨(gw.apply s.g s.w g').2.1, (gw.apply s.g s.w g').1, s.training⟩
  else s' = s

def fcLaw {α : Type} [One α] (a : Arith α) (gw : GradWorks α) (f df : α → α) (upd : Bool) (NT n m : Nat) :
    Law (fc a gw f df upd NT n m) where
  Inv := fun b _ s => s.training = b
  Ready := fun _ _ _ => True
  fwd := fun _ s X r c => f (preAct a n s.w X r c)
  bwd := fun _ s X G r j => a.dot m (fun c => a.mul (df (f (preAct a n s.w X r c))) (G r c)) (fun c => s.w c j)
  Upd := fun R s X G s' =>
    Updated upd m (n + 1) s (gradW a R n X fun r c => a.mul (df (f (preAct a n s.w X r c))) (G r c)) s'

def outLaw {α : Type} [One α] (a : Arith α) (gw : GradWorks α) (act : (Nat → α) → Nat → α) (dz : α → α → α) (upd : Bool) (n m : Nat) :
    OutLaw (outLayer a gw act dz upd n m) where
  Inv := fun b _ s => s.training = b
  Ready := fun _ _ _ => True
  fwd := fun _ s X r c => act (preAct a n s.w X r) c
  grad := fun _ s X Y r j => a.dot m (fun c => dz (act (preAct a n s.w X r) c) (Y r c)) (fun c => s.w c j)
  Upd := fun R s X Y s' => Updated upd m (n + 1) s (gradW a R n X fun r c => dz (act (preAct a n s.w X r) c) (Y r c)) s'

end Nntl.Pass
