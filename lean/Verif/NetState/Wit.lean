import Verif.NetState.Props
/-! A network for C157-C159, and what goes wrong with it. -/
namespace Nntl.NetState
open Nntl.Matrix Nntl.MatFile
open Nntl.NetFile (Fits)
set_option linter.unusedSimpArgs false

/-- A matrix whose elements are `x`, `x + 1`, ... -/
def mat (r c x : Nat) (em : Bool) : Mtx (Elem .single) := ⟨fun k => ⟨x + k⟩, r * c, r, c, em, false, false, false, r * c⟩

/-- All options, as a new archive has them. -/
def all : Opts := ⟨true, true, true, true, true, true, true⟩

/-- An environment in which nothing fails. -/
def fine : Env := ⟨fun _ => true, fun _ k => k, fun _ _ v => v⟩

/-- Adam, with learning rate `x`. -/
def adam (x : Nat) : Gw .single :=
  ⟨x, 1, 2, 3, 4, 5, 6, 7, .adam, true, [], x, x, mat 2 4 x false, mat 2 4 x false, mat 2 4 x false, some ⟨1, 2, 3, 4, true, false, mat 2 4 x false, mat 2 4 x false⟩⟩

/-- A network: an input layer; a fully connected layer of two neurons with alpha-dropout (0: dropout is on; any other number stands for a probability of 1) whose masks have `r` rows; a tile with an identity layer inside;
an output layer. -/
def demo (x keep r : Nat) : List (Lyr .single) := [
  .node "src" 0 (.input (some (mat 5 4 x true))) [],
  .node "fcl" 1 (.fc ⟨2, 3, mat 5 3 x true, mat 2 4 x false, true, some (adam x), none, some ⟨keep, mat r 2 x false, mat r 2 x false, some (x, x + 1, x + 2)⟩⟩) [],
  .node "tile" 2 (.tile (mat 5 3 x true) (mat 10 2 x true) 2) [.node "id" 3 (.ident (mat 10 2 x true)) []],
  .node "outp" 4 (.fc ⟨1, 2, mat 5 1 x false, mat 1 3 x false, true, some (adam x), some (true, x, x + 1), none⟩) []]

/-- `m_dropoutPercentActive < 1` for the numbers of `demo`. -/
def isOn (v : Nat) : Bool := v == 0

theorem demo_indices (x keep r : Nat) : (indices (demo x keep r)).Nodup := by simp [indices, demo, Lyr.indices]

theorem demo_arch (x y keep keep' r r' : Nat) : SameArch (demo x keep r) (demo y keep' r') := by
  simp [SameArch, demo, AllRel2, Lyr.Rel2, Own.Like, OptRel, Drop.Like]

theorem demo_saved (x keep r : Nat) (p : Opts) : ∃ f, ∀ disk, saveNet fine isOn p disk (demo x keep r) = (some f, true) :=
  saving_succeeds fine (fun _ => rfl) isOn p (demo x keep r) (demo_indices x keep r)

/-- All of it can be saved and loaded with all options. -/
theorem demo_loads (x y keep' : Nat) : AllRel2 (Loads isOn all all) (demo x 0 5) (demo y keep' 5) := by
  simp [demo, AllRel2, Lyr.Rel2, Loads, OptRel, DropLoads, NonEmpty, all, mat, isOn]

/-- Non-vacuity of C157, C158: saving and loading answer success. -/
example (x y : Nat) : ∃ f, saveNet fine isOn all none (demo x 0 5) = (some f, true) ∧ (loadNet fine isOn all (some f) (demo y 0 5)).2 = true := by
  obtain ⟨f, hf⟩ := demo_saved x 0 5 all
  exact ⟨f, hf none, (loaded_is_saved fine isOn all none _ f (demo_indices x 0 5) (hf none) fine all _ (demo_arch x y 0 0 5 5)).2 (fun _ => rfl)
    (demo_loads x y 0)⟩

/-- The parts of the layers of a network like `demo`: the fully connected layer's and the tile's. -/
def fclOf : List (Lyr .single) → Option (Fc .single)
  | [_, .node _ _ (.fc l) _, _, _] => some l
  | _ => none
def tileOf : List (Lyr .single) → Option (Mtx (Elem .single))
  | [_, _, .node _ _ (.tile a _ _) _, _] => some a
  | _ => none

theorem opt3_some {α : Type} {R : α → α → α → Prop} {x y : α} {z : Option α} (h : OptRel3 R (some x) (some y) z) : ∃ w, z = some w ∧ R x y w := by
  cases z with
  | none => exact absurd h id
  | some w => exact ⟨w, rfl, h⟩

/-- What the theorem says about `demo`. -/
theorem demo_restored (x y keep' : Nat) (f : Vars) (hf : saveNet fine isOn all none (demo x 0 5) = (some f, true))
    (h : (loadNet fine isOn all (some f) (demo y keep' 5)).2 = true) :
    ∃ l d a, fclOf (loadNet fine isOn all (some f) (demo y keep' 5)).1 = some l ∧ l.gw = some (adam y) ∧ (∀ r c, l.w.get r c = (mat 2 4 x false).get r c) ∧
      l.drop = some d ∧ d.keep = 0 ∧ d.alpha = some (if isOn keep' then (x, x + 1, y + 2) else (y, y + 1, y + 2)) ∧
      tileOf (loadNet fine isOn all (some f) (demo y keep' 5)).1 = some a ∧ a.cols = 3 ∧ a.emul = false := by
  have H := ((loaded_is_saved fine isOn all none _ f (demo_indices x 0 5) hf fine all _ (demo_arch x y 0 keep' 5 5)).1 h).1
  generalize (loadNet fine isOn all (some f) (demo y keep' 5)).1 = net at H
  rcases net with _ | ⟨⟨b0, i0, o0, s0⟩, _ | ⟨⟨b1, i1, o1, s1⟩, _ | ⟨⟨b2, i2, o2, s2⟩, _ | ⟨⟨b3, i3, o3, s3⟩, _ | ⟨l4, r⟩⟩⟩⟩⟩ <;>
    simp only [demo, AllRel3, Lyr.Rel3, and_false, false_and] at H
  obtain ⟨-, ⟨-, -, -, -, h1, -⟩, ⟨-, -, -, -, h2, -⟩, -⟩ := H
  cases o1 <;> simp only [Restored] at h1
  cases o2 <;> simp only [Restored] at h2
  obtain ⟨-, -, -, hg, hw, -, hd⟩ := h1
  obtain ⟨d, hd1, hd2⟩ := opt3_some hd
  obtain ⟨al, ha1, ha2⟩ := opt3_some hd2.2.2.2
  rw [if_pos (show all.weights = true from rfl)] at hw
  obtain ⟨ha, -, -⟩ := h2
  rw [CopiedIf, if_pos (show all.act = true from rfl)] at ha
  exact ⟨_, d, _, rfl, hg, hw.2.2, hd1, hd2.1, by rw [ha1, ha2]; simp [all], rfl, ha.cols, ha.emul⟩

/-- **C158, negation for the optimiser.** A network is saved with all options and loaded with all options into one that differs from it: both calls answer success, and the weights are those saved,
but the learning rate and the velocities are not. -/
theorem optimiser_lost : ∃ (E : Env) (net net' : List (Lyr .single)) (f : Vars) (l : Fc .single) (g : Gw .single), saveNet E isOn all none net = (some f, true) ∧
    SameArch net net' ∧ (loadNet E isOn all (some f) net').2 = true ∧ fclOf (loadNet E isOn all (some f) net').1 = some l ∧ l.gw = some g ∧
    (∀ r c, l.w.get r c = (mat 2 4 10 false).get r c) ∧ (fclOf net).bind (·.gw) = some (adam 10) ∧ g.learningRate = 20 ∧ g.Vw.get 0 0 = some ⟨20⟩ := by
  obtain ⟨f, hf⟩ := demo_saved 10 0 5 all
  have hl := (loaded_is_saved fine isOn all none _ f (demo_indices 10 0 5) (hf none) fine all _ (demo_arch 10 20 0 0 5 5)).2 (fun _ => rfl)
    (demo_loads 10 20 0)
  obtain ⟨l, d, a, h1, h2, h3, -⟩ := demo_restored 10 20 0 f (hf none) hl
  exact ⟨fine, demo 10 0 5, demo 20 0 5, f, l, adam 20, hf none, demo_arch 10 20 0 0 5 5, hl, h1, h2, h3, rfl, rfl, rfl⟩

/-- **C158, negation for alpha-dropout.** The network that is saved has dropout; the one it is loaded into has not (as every network that has just been created). Both calls answer success, dropout is on
afterwards, but its coefficients are not those saved. -/
theorem alpha_lost : ∃ (E : Env) (net net' : List (Lyr .single)) (f : Vars) (l : Fc .single) (d : Drop .single), saveNet E isOn all none net = (some f, true) ∧
    SameArch net net' ∧ (loadNet E isOn all (some f) net').2 = true ∧ fclOf (loadNet E isOn all (some f) net').1 = some l ∧ l.drop = some d ∧
    isOn d.keep = true ∧ ((fclOf net).bind (·.drop)).bind (·.alpha) = some (10, 11, 12) ∧ d.alpha = some (20, 21, 22) := by
  obtain ⟨f, hf⟩ := demo_saved 10 0 5 all
  have hl := (loaded_is_saved fine isOn all none _ f (demo_indices 10 0 5) (hf none) fine all _ (demo_arch 10 20 0 1 5 5)).2 (fun _ => rfl)
    (demo_loads 10 20 1)
  obtain ⟨l, d, a, h1, -, -, h4, h5, h6, -⟩ := demo_restored 10 20 1 f (hf none) hl
  exact ⟨fine, demo 10 0 5, demo 20 1 5, f, l, d, hf none, demo_arch 10 20 0 1 5 5, hl, h1, h4, by rw [h5]; rfl, rfl, h6⟩

/-- **C158, negation for activations.** The activations of a tile had a bias column; after loading that column is an ordinary one: the matrix has one neuron more. -/
theorem biases_lost : ∃ (E : Env) (net : List (Lyr .single)) (f : Vars) (a b : Mtx (Elem .single)), saveNet E isOn all none net = (some f, true) ∧
    (loadNet E isOn all (some f) net).2 = true ∧ tileOf net = some a ∧ tileOf (loadNet E isOn all (some f) net).1 = some b ∧
    a.cols = b.cols ∧ a.emul = true ∧ b.emul = false := by
  obtain ⟨f, hf⟩ := demo_saved 10 0 5 all
  have hl := (loaded_is_saved fine isOn all none _ f (demo_indices 10 0 5) (hf none) fine all _ (demo_arch 10 10 0 0 5 5)).2 (fun _ => rfl)
    (demo_loads 10 10 0)
  obtain ⟨l, d, a, -, -, -, -, -, -, h7, h8, h9⟩ := demo_restored 10 10 0 f (hf none) hl
  exact ⟨fine, demo 10 0 5, f, mat 5 3 10 true, a, hf none, hl, rfl, h7, h8.symm, rfl, h9⟩

/-- **C158, negation for new networks.** A network with dropout that has been saved before its first use, when its masks are empty, cannot be loaded with all options, not even into itself, whatever the environment. -/
theorem new_dropout_refused : ∃ (E : Env) (net : List (Lyr .single)) (f : Vars), saveNet E isOn all none net = (some f, true) ∧
    ∀ E' : Env, (loadNet E' isOn all (some f) net).2 = false := by
  obtain ⟨f, hf⟩ := demo_saved 10 0 0 all
  refine ⟨fine, demo 10 0 0, f, hf none, fun E' => ?_⟩
  cases h : (loadNet E' isOn all (some f) (demo 10 0 0)).2 with
  | false => rfl
  | true =>
    have H := ((loaded_is_saved fine isOn all none _ f (demo_indices 10 0 0) (hf none) E' all _ (demo_arch 10 10 0 0 0 0)).1 h).2
    simp [demo, AllRel2, Lyr.Rel2, Loads, OptRel, DropLoads, NonEmpty, all, mat, isOn] at H

/-- **C159, finding.** Activations of any size are accepted. -/
theorem sizes_not_checked : ∃ (E : Env) (f : Vars) (net : List (Lyr .single)), net = [.node "id" 0 (.ident (mat 5 3 1 true)) []] ∧
    (loadNet E isOn all (some f) net).2 = true ∧ (∃ z, (loadNet E isOn all (some f) net).1 = [.node "id" 0 (.ident z) []] ∧ z.rows = 1 ∧ z.cols = 7) :=
  ⟨fine, [("id_0", .strct 1 1 [("m_activations", .num .single 1 7 fun _ => 0)])], _, rfl, by decide +kernel, ⟨_, rfl, rfl, rfl⟩⟩

/-- **C159, finding.** With all options off the number of tiles is changed nevertheless. -/
theorem tiles_not_governed : ∃ (E : Env) (f : Vars),
    loadNet E isOn ⟨false, false, false, false, false, false, false⟩ (some f) [Lyr.node "t" 0 (.tile (mat 5 3 1 true) (mat 10 2 1 true) 2) [.node "p" 1 .pack []]] =
      ([Lyr.node "t" 0 (.tile (mat 5 3 1 true) (mat 10 2 1 true) 9) [.node "p" 1 .pack []]], true) :=
  ⟨fine, [("t_0", .strct 1 1 [("m_tiles_count", .num .int32 1 1 fun _ => 9), ("p_1", .strct 1 1 [])])], rfl⟩

end Nntl.NetState
