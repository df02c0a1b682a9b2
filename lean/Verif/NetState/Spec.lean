import Verif.NetState.Model
import Verif.NetFile.Spec
/-! What a user expects of saving a network with some options and of loading it, written without the operators of the archive. -/
namespace Nntl.NetState
open Nntl.Matrix Nntl.MatFile
open Nntl.NetFile (Fits)

/-! ### What a file holds -/

/-- A matrix as a variable of a file (with the bias column, if there is one). -/
def mtxVar {T : Cls} (m : Mtx (Elem T)) : Var := .num T m.rows m.cols fun k => (m.data k).bits
/-- A number as a variable of a file. -/
def numVar (C : Cls) (v : Nat) : Var := .num C 1 1 fun _ => v

/-- The variables that concern individual learning rates: name, whether it is stored, what it is. -/
def ilrTable {T : Cls} (o : Opts) (g : Gw T) : List (String × Bool × Var) :=
  match g.ilr with
  | none => []
  | some i => [
    ("mulDecr", o.gw && o.params, numVar T i.mulDecr), ("mulIncr", o.gw && o.params, numVar T i.mulIncr),
    ("capLow", o.gw && o.params, numVar T i.capLow), ("capHigh", o.gw && o.params, numVar T i.capHigh),
    ("m_ILRGain", o.gw && o.gwState && i.use, mtxVar i.gain),
    ("m_prevdLdW", o.gw && o.gwState && i.use && !(g.useMomentum && i.toMomentum), mtxVar i.prev)]

/-- The number of a type of optimiser: its place in the list of types. -/
def typeNo (t : GradType) : Nat :=
  [GradType.classical, .rmsHinton, .rmsGraves, .rprop, .modprop, .adam, .adamax, .nadam, .radam].idxOf t

/-- The variables of an optimiser. -/
def gwTable {T : Cls} (o : Opts) (g : Gw T) : List (String × Bool × Var) := [
  ("m_learningRate", o.gw && o.params, numVar T g.learningRate), ("m_LRDropoutPercActive", o.gw && o.params, numVar T g.lrDropout),
  ("m_momentum", o.gw && o.params, numVar T g.momentum), ("m_optBeta1", o.gw && o.params, numVar T g.beta1),
  ("m_optBeta2", o.gw && o.params, numVar T g.beta2), ("m_numericStabilizerEps", o.gw && o.params, numVar T g.eps),
  ("m_WeightVecNormSqared", o.gw && o.params, numVar T g.maxNorm), ("typ", o.gw && o.params, numVar .uint32 (typeNo g.type)),
  ("m_optBeta1t", o.gw && o.params, numVar T g.beta1t), ("m_optBeta2t", o.gw && o.params, numVar T g.beta2t),
  ("m_optMtxA", o.gw && o.gwState && !(decide (g.type = .classical) || decide (g.type = .rprop)), mtxVar g.A),
  ("m_optMtxB", o.gw && o.gwState && (decide (g.type = .rmsGraves) || decide (g.type = .adam) || decide (g.type = .adamax) ||
    decide (g.type = .nadam) || decide (g.type = .radam)), mtxVar g.B),
  ("m_Vw", o.gw && o.gwState && g.useMomentum, mtxVar g.Vw)] ++ ilrTable o g

/-- The variables of a dropout. -/
def dropTable {T : Cls} (lt1 : Nat → Bool) (o : Opts) (d : Drop T) : List (String × Bool × Var) :=
  (match d.alpha with
   | none => []
   | some (a, b, _) => [("m_a", o.params && lt1 d.keep, numVar T a), ("m_b", o.params && lt1 d.keep, numVar T b)]) ++
  [("m_dropoutPercentActive", o.params, numVar T d.keep), ("m_dropoutMask", o.dmask && lt1 d.keep, mtxVar d.mask),
   ("m_origActivations", o.dmask && lt1 d.keep, mtxVar d.orig)]

/-- The variables of a layer: name, whether it is stored, what it is. -/
def table {T : Cls} (lt1 : Nat → Bool) (o : Opts) : Own T → List (String × Bool × Var)
  | .input none => []
  | .input (some x) => [("data_x", o.dataX, mtxVar x)]
  | .ident act => [("m_activations", o.act, mtxVar act)]
  | .pack => []
  | .tile act inner k => [("m_activations", o.act, mtxVar act), ("m_innerLowerLayerActivations", o.dataX, mtxVar inner),
      ("m_tiles_count", true, numVar .int32 k)]
  | .fc l => [("m_activations", o.act, mtxVar l.act), ("m_weights", o.weights, mtxVar l.w)] ++
      (match l.gw with | none => [] | some g => gwTable o g) ++
      (match l.bounds with
       | none => []
       | some (r, lo, hi) => [("m_bRestrictdLdZ", o.params, numVar .logical r.toNat), ("m_dLdZRestrictLowerBnd", o.params, numVar T lo),
          ("m_dLdZRestrictUpperBnd", o.params, numVar T hi)]) ++
      (match l.drop with | none => [] | some d => dropTable lt1 o d)

/-- The name of a layer in a file. -/
def Lyr.name {T : Cls} : Lyr T → String
  | .node b i _ _ => b ++ "_" ++ i.repr

mutual
/-- The variables `vs` of a file or struct describe a layer: there is a struct of its name; in it, the variables of the table that are to be stored
and the layers inside; and nothing else. -/
def Lyr.Stored {T : Cls} (lt1 : Nat → Bool) (o : Opts) (vs : Vars) : Lyr T → Prop
  | .node b i own sub => ∃ fs, fget vs (b ++ "_" ++ i.repr) = some (.strct 1 1 fs) ∧
      (∀ n c v, (n, c, v) ∈ table lt1 o own → fget fs n = if c then some v else none) ∧
      (∀ n, fget fs n ≠ none → (∃ v, (n, true, v) ∈ table lt1 o own) ∨ ∃ l ∈ sub, n = l.name) ∧
      AllStored lt1 o fs sub
def AllStored {T : Cls} (lt1 : Nat → Bool) (o : Opts) (vs : Vars) : List (Lyr T) → Prop
  | [] => True
  | l :: ls => l.Stored lt1 o vs ∧ AllStored lt1 o vs ls
end

mutual
def Lyr.indices {T : Cls} : Lyr T → List Nat
  | .node _ i _ sub => i :: indices sub
/-- The indices of all layers of a network. They are distinct in any network (C31). -/
def indices {T : Cls} : List (Lyr T) → List Nat
  | [] => []
  | l :: ls => l.indices ++ indices ls
end

/-! ### What a network is after loading -/

mutual
/-- Three layers of the same structure (names, indices, nesting) whose own parts are related by `R`. -/
def Lyr.Rel3 {T : Cls} (R : Own T → Own T → Own T → Prop) : Lyr T → Lyr T → Lyr T → Prop
  | .node b i x s, .node b' i' y t, .node b'' i'' z u => b = b' ∧ b = b'' ∧ i = i' ∧ i = i'' ∧ R x y z ∧ AllRel3 R s t u
def AllRel3 {T : Cls} (R : Own T → Own T → Own T → Prop) : List (Lyr T) → List (Lyr T) → List (Lyr T) → Prop
  | [], [], [] => True
  | x :: xs, y :: ys, z :: zs => x.Rel3 R y z ∧ AllRel3 R xs ys zs
  | _, _, _ => False
end

mutual
/-- The same for two layers. -/
def Lyr.Rel2 {T : Cls} (R : Own T → Own T → Prop) : Lyr T → Lyr T → Prop
  | .node b i x s, .node b' i' y t => b = b' ∧ i = i' ∧ R x y ∧ AllRel2 R s t
def AllRel2 {T : Cls} (R : Own T → Own T → Prop) : List (Lyr T) → List (Lyr T) → Prop
  | [], [] => True
  | x :: xs, y :: ys => x.Rel2 R y ∧ AllRel2 R xs ys
  | _, _ => False
end

/-- Dropouts of the same type. -/
def Drop.Like {T : Cls} (d d' : Drop T) : Prop := d'.alpha.isSome = d.alpha.isSome

/-- `none` for both, or `R`. -/
def OptRel {α : Type} (R : α → α → Prop) : Option α → Option α → Prop
  | none, none => True
  | some x, some y => R x y
  | _, _ => False

/-- `none` for all, or `R`. -/
def OptRel3 {α : Type} (R : α → α → α → Prop) : Option α → Option α → Option α → Prop
  | none, none, none => True
  | some x, some y, some z => R x y z
  | _, _, _ => False

/-- Layers of the same type and size. -/
def Own.Like {T : Cls} : Own T → Own T → Prop
  | .input _, .input _ => True
  | .ident _, .ident _ => True
  | .pack, .pack => True
  | .tile _ _ _, .tile _ _ _ => True
  | .fc l, .fc l' => l.neurons = l'.neurons ∧ l.incoming = l'.incoming ∧ OptRel (fun _ _ => True) l.bounds l'.bounds ∧
      OptRel Drop.Like l.drop l'.drop
  | _, _ => False

/-- The same architecture. -/
def SameArch {T : Cls} (a b : List (Lyr T)) : Prop := AllRel2 Own.Like a b

/-- `m'` has the dimensions and the elements of `m` (with the bias column, which is an ordinary column now) and memory of its own. -/
structure Copied {T : Cls} (m m' : Mtx (Elem T)) : Prop where
  rows : m'.rows = m.rows
  cols : m'.cols = m.cols
  get : ∀ r c, m'.get r c = m.get r c
  emul : m'.emul = false
  bir : m'.bir = false
  cap : m'.cap = m'.rows * m'.cols
  own : m'.ext = false

/-- `Copied` if `b`, the same otherwise. -/
def CopiedIf {T : Cls} (b : Bool) (saved before after : Mtx (Elem T)) : Prop := if b then Copied saved after else after = before

/-- What happens to a dropout: the probability is that of the file if parameters are loaded. Masks are loaded if there is dropout with
this probability. The coefficients of alpha-dropout are loaded if there was dropout *before*; the third one never is. -/
def DropRestored {T : Cls} (lt1 : Nat → Bool) (o : Opts) (a d d' : Drop T) : Prop :=
  d'.keep = (if o.params then a.keep else d.keep) ∧
  CopiedIf (o.dmask && lt1 d'.keep) a.mask d.mask d'.mask ∧ CopiedIf (o.dmask && lt1 d'.keep) a.orig d.orig d'.orig ∧
  OptRel3 (fun p q r => r = if o.params && lt1 d.keep then (p.1, p.2.1, q.2.2) else q) a.alpha d.alpha d'.alpha

/-- What happens to a layer `b` when a file is loaded in which `a` was stored: `b'` is `b` but for what the options `o` cover. An optimiser is
never loaded, nor are the activations of a layer with weights. -/
def Restored {T : Cls} (lt1 : Nat → Bool) (o : Opts) : Own T → Own T → Own T → Prop
  | .input _, .input y, .input z => z = y
  | .ident x, .ident y, .ident z => CopiedIf o.act x y z
  | .pack, .pack, .pack => True
  | .tile x x1 k, .tile y y1 _, .tile z z1 k' => CopiedIf o.act x y z ∧ CopiedIf o.dataX x1 y1 z1 ∧ k' = k
  | .fc a, .fc l, .fc l' => l'.neurons = l.neurons ∧ l'.incoming = l.incoming ∧ l'.act = l.act ∧ l'.gw = l.gw ∧
      (if o.weights then l'.ini = true ∧ Fits l.neurons l.incoming l'.w ∧ ∀ r c, l'.w.get r c = a.w.get r c
       else l'.w = l.w ∧ l'.ini = l.ini) ∧
      OptRel3 (fun x y z => z = if o.params then x else y) a.bounds l.bounds l'.bounds ∧
      OptRel3 (DropRestored lt1 o) a.drop l.drop l'.drop
  | _, _, _ => False

/-- There is something in a matrix. -/
def NonEmpty {T : Cls} (m : Mtx (Elem T)) : Prop := 0 < m.rows ∧ 0 < m.cols

/-- When a dropout `d` can be loaded with options `o` from a file in which `a` was stored with options `p`. -/
def DropLoads {T : Cls} (lt1 : Nat → Bool) (p o : Opts) (a d : Drop T) : Prop :=
  (o.params = true → p.params = true) ∧
  (a.alpha.isSome = true → o.params = true → lt1 d.keep = true → lt1 a.keep = true) ∧
  (o.dmask = true → lt1 (if o.params then a.keep else d.keep) = true →
    p.dmask = true ∧ lt1 a.keep = true ∧ NonEmpty a.mask ∧ NonEmpty a.orig)

/-- When a layer `b` can be loaded with options `o` from a file in which `a` was stored with options `p`: whatever is to be loaded was stored, and
no matrix of it is empty; weights have the dimensions of the layer. -/
def Loads {T : Cls} (lt1 : Nat → Bool) (p o : Opts) : Own T → Own T → Prop
  | .ident x, .ident _ => o.act = true → p.act = true ∧ NonEmpty x
  | .tile x x1 _, .tile _ _ _ => (o.act = true → p.act = true ∧ NonEmpty x) ∧ (o.dataX = true → p.dataX = true ∧ NonEmpty x1)
  | .fc a, .fc l => (o.weights = true → p.weights = true ∧ NonEmpty a.w ∧ a.w.rows = l.neurons ∧ a.w.cols = l.incoming + 1) ∧
      (l.bounds.isSome = true → o.params = true → p.params = true) ∧ OptRel (DropLoads lt1 p o) a.drop l.drop
  | _, _ => True

/-- What an arbitrary file may do to a layer: only what the options cover. -/
def Governed {T : Cls} (o : Opts) : Own T → Own T → Prop
  | .input x, .input y => y = x
  | .ident x, .ident y => o.act = false → y = x
  | .pack, .pack => True
  | .tile x x1 _, .tile y y1 _ => (o.act = false → y = x) ∧ (o.dataX = false → y1 = x1)
  | .fc l, .fc l' => l'.neurons = l.neurons ∧ l'.incoming = l.incoming ∧ l'.act = l.act ∧ l'.gw = l.gw ∧
      ((l'.w = l.w ∧ l'.ini = l.ini) ∨ (o.weights = true ∧ l'.ini = true ∧ Fits l.neurons l.incoming l'.w)) ∧
      OptRel (fun x y => o.params = false → y = x) l.bounds l'.bounds ∧
      OptRel (fun d d' => (o.params = false → d'.keep = d.keep ∧ d'.alpha = d.alpha) ∧ (o.dmask = false → d'.mask = d.mask ∧ d'.orig = d.orig) ∧
        OptRel (fun x y => y.2.2 = x.2.2) d.alpha d'.alpha) l.drop l'.drop
  | _, _ => False

end Nntl.NetState
