import Verif.NetFile.Model
/-! What a user expects of writing the weights of a network to a file and of reading them, written without the operators of the archive. -/
namespace Nntl.NetFile
open Nntl.Matrix Nntl.MatFile

/-- A matrix of weights of a layer: a row per neuron, a column per incoming neuron and one for the bias; not empty. -/
structure Fits {T : Cls} (neurons incoming : Nat) (w : Mtx (Elem T)) : Prop where
  rows : w.rows = neurons
  cols : w.cols = incoming + 1
  emul : w.emul = false
  bir : w.bir = false
  some : 0 < w.cap

mutual
/-- Two layers of the same structure: same names, indices, nesting, numbers of neurons; the weights are related by `R`, the numbers of tiles by `K`. -/
def Lyr.Rel {T : Cls} (R : Nat → Nat → Mtx (Elem T) → Bool → Mtx (Elem T) → Bool → Prop) (K : Nat → Nat → Prop) : Lyr T → Lyr T → Prop
  | .plain b i, .plain b' i' => b = b' ∧ i = i'
  | .fc b i n c w ini, .fc b' i' n' c' w' ini' => b = b' ∧ i = i' ∧ n = n' ∧ c = c' ∧ R n c w ini w' ini'
  | .pack b i l, .pack b' i' l' => b = b' ∧ i = i' ∧ RelAll R K l l'
  | .tile b i k l, .tile b' i' k' l' => b = b' ∧ i = i' ∧ K k k' ∧ l.Rel R K l'
  | _, _ => False
def RelAll {T : Cls} (R : Nat → Nat → Mtx (Elem T) → Bool → Mtx (Elem T) → Bool → Prop) (K : Nat → Nat → Prop) :
    List (Lyr T) → List (Lyr T) → Prop
  | [], [] => True
  | l :: ls, l' :: ls' => l.Rel R K l' ∧ RelAll R K ls ls'
  | _, _ => False
end

/-- The same architecture, whatever the weights and the numbers of tiles. -/
def SameArch {T : Cls} (a b : List (Lyr T)) : Prop := RelAll (fun _ _ _ _ _ _ => True) (fun _ _ => True) a b

/-- The same architecture; the weights of `b` are those of `a` (dimensions and every element) and count as initialised; the numbers of tiles are those
of `a`. -/
def SameWeights {T : Cls} (a b : List (Lyr T)) : Prop :=
  RelAll (fun n c w _ w' ini' => ini' = true ∧ Fits n c w' ∧ ∀ i j, w'.get i j = w.get i j) (· = ·) a b

/-- What a call may do to a network: every layer with weights either is exactly as before or has got other weights of the right dimensions.
Numbers of tiles may change. -/
def Touched {T : Cls} (a b : List (Lyr T)) : Prop :=
  RelAll (fun n c w ini w' ini' => (w' = w ∧ ini' = ini) ∨ (ini' = true ∧ Fits n c w')) (fun _ _ => True) a b

mutual
/-- Every layer with weights has the property `P`. -/
def Lyr.Each {T : Cls} (P : Nat → Nat → Mtx (Elem T) → Bool → Prop) : Lyr T → Prop
  | .plain _ _ => True
  | .fc _ _ n c w ini => P n c w ini
  | .pack _ _ l => EachAll P l
  | .tile _ _ _ l => l.Each P
def EachAll {T : Cls} (P : Nat → Nat → Mtx (Elem T) → Bool → Prop) : List (Lyr T) → Prop
  | [] => True
  | l :: ls => l.Each P ∧ EachAll P ls
end

/-- A network whose layers (there are neurons in all of them) have weights. -/
def Ready {T : Cls} (net : List (Lyr T)) : Prop := EachAll (fun n c w ini => 0 < n ∧ ini = true ∧ Fits n c w) net

mutual
def Lyr.indices {T : Cls} : Lyr T → List Nat
  | .plain _ i => [i]
  | .fc _ i _ _ _ _ => [i]
  | .pack _ i l => i :: indices l
  | .tile _ i _ l => i :: l.indices
/-- The indices of all layers of a network. They are distinct in any network (C31). -/
def indices {T : Cls} : List (Lyr T) → List Nat
  | [] => []
  | l :: ls => l.indices ++ indices ls
end

mutual
/-- A layer that is completely described by the variables `vs` of a file or struct: there is a struct `name_index`, its field `m_weights` has
the dimensions of the layer's weights and (converted if they are of another type) their elements; and so on for what is in packs. -/
def Lyr.From {T : Cls} (vs : Vars) : Lyr T → Prop
  | .plain b i => ∃ fs, fget vs (b ++ "_" ++ i.repr) = some (.strct 1 1 fs)
  | .fc b i n c w ini => ini = true ∧ Fits n c w ∧ ∃ fs S d, fget vs (b ++ "_" ++ i.repr) = some (.strct 1 1 fs) ∧
      fget fs "m_weights" = some (.num S n (c + 1) d) ∧
      ∃ g : Nat → Elem T, (S = T → ∀ x, g x = ⟨x⟩) ∧ ∀ r j, r < n → j < c + 1 → w.get r j = some (g (d (r + n * j)))
  | .pack b i l => ∃ fs, fget vs (b ++ "_" ++ i.repr) = some (.strct 1 1 fs) ∧ AllFrom fs l
  | .tile b i k l => ∃ fs d, fget vs (b ++ "_" ++ i.repr) = some (.strct 1 1 fs) ∧ fget fs "m_tiles_count" = some (.num .int32 1 1 d) ∧
      k = d 0 ∧ l.From fs
def AllFrom {T : Cls} (vs : Vars) : List (Lyr T) → Prop
  | [] => True
  | l :: ls => l.From vs ∧ AllFrom vs ls
end

/-- A layer with weights, taken out of the network: neurons, incoming neurons, weights, whether they count as initialised. -/
structure Weighted (T : Cls) where
  neurons : Nat
  incoming : Nat
  w : Mtx (Elem T)
  ini : Bool

mutual
def Lyr.leaves {T : Cls} : Lyr T → List (Weighted T)
  | .plain _ _ => []
  | .fc _ _ n c w ini => [⟨n, c, w, ini⟩]
  | .pack _ _ l => leaves l
  | .tile _ _ _ l => l.leaves
/-- The layers with weights in their order. -/
def leaves {T : Cls} : List (Lyr T) → List (Weighted T)
  | [] => []
  | l :: ls => l.leaves ++ leaves ls
end

end Nntl.NetFile
