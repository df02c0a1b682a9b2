import Verif.Pass.LoopLemmas
import Verif.Pass.Tree
import Mathlib.Algebra.Group.Int.Defs
import Mathlib.Data.Int.Order.Basic
/-! C34–C37: forward and backward passes through layer trees. Property theorems. -/
namespace Nntl.Pass
open Nntl.Layers Nntl.Kernel

/-! ### C34 -/

/-- The wrapper around the activations of the lower layer (a matrix of `R` rows and `inc` columns with the bias column after them): while
it exists the inner layer sees, from the beginning of its field, the columns of its field and then a column of ones; nothing in front of
the end of the field and nothing after the column that follows it has changed; when it is gone the activations are what they were, at
every address, provided the saved column was not overwritten meanwhile. -/
theorem wrapper_shows_field_with_ones_and_restores {α : Type} [One α] (R inc ofs cnt : Nat) (A T : Mem α) (ho : ofs + cnt ≤ inc)
    (hB : ∀ r < R, A (r + R * inc) = 1) :
    (∀ r < R, ∀ c < cnt, (enter R inc ofs cnt true A T).2.1 (r + R * (ofs + c)) = A (r + R * (ofs + c))) ∧
    (∀ r < R, (enter R inc ofs cnt true A T).2.1 (r + R * (ofs + cnt)) = 1) ∧
    (∀ p, p < R * (ofs + cnt) ∨ R * (ofs + cnt + 1) ≤ p → (enter R inc ofs cnt true A T).2.1 p = A p) ∧
    (∀ p, R ≤ p → (enter R inc ofs cnt true A T).2.2 p = T p) ∧
    ∀ T' : Mem α, (∀ p < R, T' p = (enter R inc ofs cnt true A T).2.2 p) →
      leave R ofs cnt (enter R inc ofs cnt true A T).1 (enter R inc ofs cnt true A T).2.1 T' = A := by
  obtain ⟨h1, h2, h3, h4⟩ := enter_ok (X := matOf R A) T ho (fun _ _ _ _ => rfl) hB
  refine ⟨fun r hr c hc => ?_, fun r hr => ?_, fun p hp => ?_, h3, h4⟩
  · have := h1 r hr c hc
    simp only [shift, colsFrom, matOf] at this
    rw [← this]; ring_nf
  · have := h2 r hr
    simp only [shift] at this
    rw [← this]; ring_nf
  · unfold enter
    split
    · rfl
    · simp only [if_true, unshift, fill, shift]
      rw [Nat.mul_add] at hp
      rw [Nat.mul_add, Nat.mul_add, Nat.mul_one] at hp
      by_cases h : p < R * ofs + R * cnt
      · rw [if_pos h]
      · rw [if_neg h, if_neg (by omega)]; congr 1; omega

/-- Forward and backward passes through any tree of vertical, horizontal and tile packs that was accepted and initialised for training leave
the activations of the layer below it (and, with an input layer below, the user's data) what they were, at every address. Elementary
layers may be anything lawful, such as `fc` and `optional`. -/
theorem tree_leaves_lower_activations {α : Type} [Zero α] [One α] [Add α] {I : Nat → Leaf → BS → Nat → Sem α} (l : Layer) (inc : BS) (n : Nat)
    (d : Lid) (h : layerInit true l inc n = some d) (hT : inc.maxTrainBS ≤ inc.maxBS) (hp : l.AllPacks FieldsInside Divisible n)
    (hl : l.AllLeaves (LeafOk I)) (hx : NoExtra l) (R : Nat) (s : (sem I l inc n).obj.S) (A T O : Mem α) (h0 : 0 < R) (hR : R ≤ inc.maxBS)
    (training : Bool) (hi : (sem I l inc n).law.Inv training R s) (hB : ∀ r < R, A (r + R * n) = 1) :
    ((sem I l inc n).obj.fprop R s A T O).A = A ∧
    (training = true → R ≤ inc.maxTrainBS → ∀ need D P (T' : Mem α),
      let x := (sem I l inc n).obj.fprop R s A T O
      ((sem I l inc n).obj.bprop R need x.s A T' x.O D P).A = A) := by
  obtain ⟨_, h2, _, _, _, h6⟩ := sem_ok l inc n d h hT hp hl hx
  obtain ⟨a1, _, _, a4, a5, a6⟩ := h6.fprop_ok training R s A T O (matOf R A) h0 hR hi (fun _ _ _ _ => rfl) (fun _ => by rw [h2]; exact hB)
  refine ⟨a1, fun ht hR' need D P T' => ?_⟩
  subst ht
  exact (h6.bprop_ok R need _ A T' _ D P (matOf R A) (matOf R D) h0 hR' a4 a5 (fun _ _ _ _ => rfl) (fun _ => by rw [h2]; exact hB) a6
    (fun _ _ _ _ => rfl)).1

/-! ### C35 -/

/-- After the forward pass of a horizontal pack the activations of its layers (each computed from the columns of its own field) occupy
consecutive blocks of columns in the order of the layers, together all the columns of the pack. Nothing outside of them is written. -/
theorem horizontal_output_layout {α : Type} [Zero α] [One α] [Add α] {N NT inc bias buf cap : Nat} {fs : List (Fld α)} {Ls : Laws fs}
    (h : FieldsOk N NT inc buf (fTmp fs) fs Ls) (hb : N ≤ bias) (hT : NT ≤ N) (R : Nat) (s : FState fs) (A T O : Mem α) (h0 : 0 < R)
    (hR : R ≤ N) (training : Bool) (hi : fInv training R fs Ls s) (hB : ∀ r < R, A (r + R * inc) = 1) :
    let x := (horiz inc bias buf cap fs).fprop R s A T O
    let os := outs R (matOf R A) fs Ls x.s
    (horiz inc bias buf cap fs).neurons = (os.map Prod.fst).sum ∧
    (∀ i m Y, os[i]? = some (m, Y) → ∀ r < R, ∀ c < m, x.O (r + R * (blockStart os i + c)) = Y r c) ∧
    (∀ p, R * (os.map Prod.fst).sum ≤ p → x.O p = O p) := by
  obtain ⟨_, _, a3, _, _, a6⟩ := (horiz_lawful (cap := cap) h hb hT).fprop_ok training R s A T O (matOf R A) h0 hR hi (fun _ _ _ _ => rfl) (fun _ => hB)
  refine ⟨(outs_total ..).symm, fun i m Y hY r hr c hc => ?_, fun p hp => a3 p (Nat.le_trans (Nat.le_of_eq ?_) hp)⟩
  · obtain ⟨b1, b2⟩ := outs_at R (matOf R A) fs Ls _ i m Y hY r c hc
    rw [← b2]
    exact a6 r hr _ b1
  · exact congrArg (R * ·) (outs_total ..).symm

/-- After the backward pass the gradient left for the layer below (in the second matrix, as reported) is for every incoming neuron the sum of
the contributions of all layers whose field covers it. -/
theorem horizontal_gradient_is_sum {α : Type} [AddCommMonoid α] [One α] {N NT inc bias buf cap : Nat} {fs : List (Fld α)} {Ls : Laws fs}
    (h : FieldsOk N NT inc buf (fTmp fs) fs Ls) (hb : N ≤ bias) (hT : NT ≤ N) (R : Nat) (s : FState fs) (A T O D P : Mem α) (G : Mat α)
    (h0 : 0 < R) (hR : R ≤ NT) (hi : fInv true R fs Ls s) (hr : fReady R (matOf R A) fs Ls s) (hB : ∀ r < R, A (r + R * inc) = 1)
    (hO : Shows R (fNeurons fs) O (fFwd R (matOf R A) fs Ls s)) (hD : Shows R (fNeurons fs) D G) :
    let x := (horiz inc bias buf cap fs).bprop R true s A T O D P
    x.flag = true ∧ x.A = A ∧
    ∀ r < R, ∀ j < inc, x.P (r + R * j) = (contributions (grads R (matOf R A) fs Ls s G) r j).sum := by
  obtain ⟨a1, _, _, _, _, _, _, a8⟩ := (horiz_lawful (cap := cap) h hb hT).bprop_ok R true s A T O D P (matOf R A) G h0 hR hi hr
    (fun _ _ _ _ => rfl) (fun _ => hB) hO hD
  refine ⟨rfl, a1, fun r hr' j hj => ?_⟩
  rw [← grads_sum]
  exact a8 rfl r hr' j hj

/-! ### C36 -/

/-- In the loop over the layers every layer is called once and gets, in its first matrix, the gradient produced by the layers above it from
the gradient `G` the loop began with, whatever the layers report; in the end the reported matrix holds the gradient for the layer below. -/
theorem every_layer_gets_its_gradient {α : Type} (R : Nat) (ls : List (BLayer α)) (l : BLayer α) (hs : Stacked (l :: ls))
    (hd : ∀ b ∈ l :: ls, b.Delivers R) (G : Mat α) (m0 m1 : Mem α) (h : Shows R l.neurons m0 G) :
    let x := downLoop ((l :: ls).map BLayer.step) false m0 m1
    x.1.length = (l :: ls).length ∧
    (∀ k (hk : k < (l :: ls).length), ∃ A, x.1[k]? = some A ∧ Shows R (l :: ls)[k].neurons A (gradAfter (l :: ls) k G)) ∧
    Shows R ((l :: ls).getLast (by simp)).inc (if x.2.1 then x.2.2.2 else x.2.2.1) (gradAfter (l :: ls) (l :: ls).length G) := by
  obtain ⟨a1, a2, a3⟩ := downLoop_ok (l :: ls) false m0 m1 G hs hd l.neurons (fun b hb => by cases hb; rfl) h
  refine ⟨a2, a1, ?_⟩
  rwa [List.getLast?_eq_some_getLast (by simp)] at a3

/-- Any accepted and initialised tree of packs, at any depth: forward it computes the composition of its layers, backward it leaves in the
reported matrix the gradient given by the chain rule, and every elementary layer in it is updated with its own gradient (`law` is the
specification, built from those of the elementary layers alone); it writes nothing but its own activations, the temporary memory it announced,
and the gradient matrices up to the announced size (or the size of the gradient for the layer below). -/
theorem tree_passes_partial {α : Type} [Zero α] [One α] [Add α] {I : Nat → Leaf → BS → Nat → Sem α} (l : Layer) (inc : BS) (n : Nat)
    (d : Lid) (h : layerInit true l inc n = some d) (hT : inc.maxTrainBS ≤ inc.maxBS) (hp : l.AllPacks FieldsInside Divisible n)
    (hl : l.AllLeaves (LeafOk I)) (hx : NoExtra l) (R : Nat) (s : (sem I l inc n).obj.S) (A T O D P : Mem α) (G : Mat α) (h0 : 0 < R)
    (hR : R ≤ inc.maxTrainBS) (hi : (sem I l inc n).law.Inv true R s) (hB : ∀ r < R, A (r + R * n) = 1) (hD : Shows R l.neurons D G) :
    let L := (sem I l inc n).law
    let x := (sem I l inc n).obj.fprop R s A T O
    let y := (sem I l inc n).obj.bprop R true x.s A x.T x.O D P
    Shows R l.neurons x.O (L.fwd R x.s (matOf R A)) ∧
    Shows R n (if y.flag then y.P else y.D) (L.bwd R x.s (matOf R A) G) ∧
    L.Upd R x.s (matOf R A) G y.s ∧ L.Inv true R y.s ∧
    (∀ p, R * l.neurons ≤ p → y.O p = O p) ∧ (∀ p, d.memB ≤ p → y.T p = T p) ∧
    (∀ p, max d.dLdA (R * n) ≤ p → y.D p = D p ∧ y.P p = P p) := by
  obtain ⟨_, h2, h3, h4, h5, h6⟩ := sem_ok l inc n d h hT hp hl hx
  obtain ⟨a1, a2, a3, a4, a5, a6⟩ := h6.fprop_ok true R s A T O (matOf R A) h0 (Nat.le_trans hR hT) hi (fun _ _ _ _ => rfl) (fun _ => by rw [h2]; exact hB)
  obtain ⟨b1, b2, b3, b4, b5, b6, b7, b8⟩ := h6.bprop_ok R true _ A ((sem I l inc n).obj.fprop R s A T O).T _ D P (matOf R A) G h0 hR a4 a5
    (fun _ _ _ _ => rfl) (fun _ => by rw [h2]; exact hB) a6 (h3 ▸ hD)
  rw [h2] at b4 b5 b8
  rw [h3] at a3 a6 b3
  rw [h4] at b4 b5
  exact ⟨a6, b8 rfl, b7, b6, fun p hp => (b3 p hp).trans (a3 p hp), fun p hp => (b2 p (by omega)).trans (a2 p (by omega)),
    fun p hp => ⟨b4 p hp, b5 p hp⟩⟩

/-- A training step of a network (after any history): the outputs are those of the composed layers, the output layer and the layers below it
are updated with the gradients of the chain rule, the data are unchanged and the state is consistent again. -/
theorem training_step_spec {α : Type} [One α] {N NT : Nat} {w : Net α} {L : Law w.body} {U : OutLaw w.out} (hb : Trains N NT w.body L)
    (ho : OutLawful N NT w.out U) (hn : w.out.inc = w.body.neurons) (hT : NT ≤ N) (s0 : NetS w) (hi0 : NetInv L U s0)
    (us : List (Use α)) (hus : ∀ u ∈ us, u.Ok N NT w.body.inc) (R : Nat) (X Y : Mem α) (hu : (Use.train R X Y).Ok N NT w.body.inc) :
    let s := w.run s0 us
    let s1 := (w.fprop (w.to true R s) X).1
    let s2 := (w.step s (.train R X Y)).1
    let out := L.fwd R s1.body (matOf R X)
    NetInv L U s2 ∧ (w.step s (.train R X Y)).2 = X ∧
    Shows R w.out.neurons s1.ao (U.fwd R s1.out out) ∧
    U.Upd R s1.out out (matOf R Y) s2.out ∧
    L.Upd R s1.body (matOf R X) (U.grad R s1.out out (matOf R Y)) s2.body := by
  have hi := run_inv hb ho hn hT us s0 hi0 hus
  generalize w.run s0 us = s at *
  obtain ⟨h0, hR, hB⟩ := hu
  obtain ⟨hti, htr, htt⟩ := to_inv hb ho true (Nat.le_trans hR hT) hi
  dsimp only [Net.step]
  generalize w.to true R s = t at *
  subst htr
  obtain ⟨a1, a2, at', a3, a4, _⟩ := net_fprop hb ho hn hti h0 (Nat.le_trans hR hT) (X := matOf t.R X) (fun _ _ _ _ => rfl) hB
  rw [a1]
  generalize (w.fprop t X).1 = s1 at *
  rw [← a2] at h0 hR hB ⊢
  rw [← a2] at a4
  obtain ⟨b1, b2, _, b3, b4, b5, _⟩ := net_bprop hb ho hn (Y := Y) a3 (at'.trans htt) h0 hR (fun _ _ _ _ => rfl) hB a4
  exact ⟨b3, b1, a4.2.2.2, b4, b5⟩

/-- The full claim fails for a vertical pack with a layer that takes no part in training between trained layers: the lowest layer's `bprop` is
then called with a matrix that does not hold the gradient with respect to its activations. -/
theorem vertical_pack_with_stopping_layer_wrong :
    ∃ (stops : Nat → Bool) (n : Nat), stops 0 = false ∧ stops n = false ∧ ∃ g, (0, g) ∈ lpvCalls stops n ∧ g ≠ some 0 := by
  refine ⟨fun i => i == 1, 2, rfl, rfl, none, by decide, by decide⟩

/-- Without such layers every layer's `bprop` is called once, from the top, with its own gradient. -/
theorem vertical_pack_calls_partial (stops : Nat → Bool) (n : Nat) (h : ∀ i ≤ n, stops i = false) :
    lpvCalls stops n = (List.range (n + 1)).reverse.map fun i => (i, some i) := by
  simp only [lpvCalls, lpvLoop_all stops n h]
  rw [List.range_succ_eq_map]
  simp [List.map_reverse, Function.comp_def]

/-! ### C37 -/

/-- Forward pass of the optional pack (`triv`: whether the gate's `bprop` is trivial). The first columns are the output `ga` of the gate. The
block of the layer under gate column `i` holds in a row with an open gate the output of the layer, and zeros in the other rows. The layer
has run on the rows with an open gate only, in their order (`gouts`): the `q`-th row of its output belongs to the `q`-th of them. -/
theorem gated_rows {α : Type} [Zero α] [One α] [DecidableEq α] {N NT inc bbs buf cap : Nat} {add triv : Bool} {compl : α → α} {g : Fld α}
    {fs : List (Fld α)} {Lg : Law g.obj} {Ls : Laws fs} (hg : Lawful N NT g.obj Lg) (hgi : g.obj.inc = g.cnt) (hgo : g.ofs + g.cnt ≤ inc)
    (hgn : g.obj.neurons = fs.length) (h : FieldsOk N NT inc buf (fTmp fs) fs Ls) (hb : N ≤ bbs) (hT : NT ≤ N)
    (hcov : ∀ j < inc, (g.ofs ≤ j ∧ j < g.ofs + g.cnt) ∨ OCov fs j)
    (R : Nat) (sg : g.obj.S) (Q : Mem α) (so : OState fs) (A T O : Mem α) (h0 : 0 < R) (hR : R ≤ N) (training : Bool)
    (hi : Lg.Inv training R sg) (hio : oInv training fs Ls so)
    (hB : ∀ r < R, A (r + R * inc) = 1) :
    let x := (optional inc bbs buf cap add compl triv g fs).fprop R (sg, Q, so) A T O
    let ga := Lg.fwd R x.s.1 (colsFrom g.ofs (matOf R A))
    let os := gouts R ga (matOf R A) fs 0 Ls x.s.2.2
    let first := g.obj.neurons + if add then g.obj.neurons else 0
    x.A = A ∧ (∀ r < R, ∀ c < g.obj.neurons, x.O (r + R * c) = ga r c) ∧
    ∀ i m Y, os[i]? = some (m, Y) → ∀ r < R, ∀ c < m,
      x.O (r + R * (first + (blockStart os i + c))) =
        if ga r i = 0 then 0 else Y ((List.range r).filter fun r' => ga r' i ≠ 0).length c := by
  obtain ⟨a1, _, _, _, _, a6⟩ := (optional_lawful (cap := cap) (add := add) (compl := compl) hg hgi hgo hgn h hb hT hcov).fprop_ok training R
    (sg, Q, so) A T O (matOf R A) h0 hR ⟨hi, hio⟩ (fun _ _ _ _ => rfl) (fun _ => hB)
  refine ⟨a1, fun r hr c hc => ?_, fun i m Y hY r hr c hc => ?_⟩
  · have := a6 r hr c (by simp only [optional]; omega)
    refine this.trans ?_
    simp only [optionalLaw]
    rw [if_pos hc]
    rfl
  · obtain ⟨b1, b2⟩ := gouts_at R _ (matOf R A) fs 0 Ls _ i m Y hY r c hc
    rw [Nat.zero_add] at b2
    rw [← b2]
    have := a6 r hr _ (Nat.add_lt_add_left b1 (g.obj.neurons + if add then g.obj.neurons else 0))
    refine this.trans ?_
    simp only [optionalLaw]
    have hne : ∀ z, ¬ (add = true ∧ (g.obj.neurons + if add = true then g.obj.neurons else 0) + z < g.obj.neurons + g.obj.neurons) := by
      intro z
      cases add <;> simp
    rw [if_neg (by omega), if_neg (hne _), Nat.add_sub_cancel_left]
    rfl

/-- The same for layers that act on every row separately: in a row with an open gate the block of layer `i` holds what the layer computes from
the columns of its field in that very row, in the other rows zeros. -/
theorem gated_rows_rowwise {α : Type} [Zero α] [One α] [DecidableEq α] {N NT inc bbs buf cap : Nat} {add triv : Bool} {compl : α → α} {g : Fld α}
    {fs : List (Fld α)} {Lg : Law g.obj} {Ls : Laws fs} (hg : Lawful N NT g.obj Lg) (hgi : g.obj.inc = g.cnt) (hgo : g.ofs + g.cnt ≤ inc)
    (hgn : g.obj.neurons = fs.length) (h : FieldsOk N NT inc buf (fTmp fs) fs Ls) (hb : N ≤ bbs) (hT : NT ≤ N)
    (hcov : ∀ j < inc, (g.ofs ≤ j ∧ j < g.ofs + g.cnt) ∨ OCov fs j)
    (R : Nat) (sg : g.obj.S) (Q : Mem α) (so : OState fs) (A T O : Mem α) (h0 : 0 < R) (hR : R ≤ N) (training : Bool)
    (hi : Lg.Inv training R sg) (hio : oInv training fs Ls so)
    (hB : ∀ r < R, A (r + R * inc) = 1) (φs : List ((Nat → α) → Nat → α))
    (hφ : RowWise fs Ls ((optional inc bbs buf cap add compl triv g fs).fprop R (sg, Q, so) A T O).s.2.2 φs) :
    let x := (optional inc bbs buf cap add compl triv g fs).fprop R (sg, Q, so) A T O
    ∀ i f φ, fs[i]? = some f → φs[i]? = some φ → ∀ r < R, ∀ c < f.obj.neurons,
      x.O (r + R * (g.obj.neurons + (if add then g.obj.neurons else 0) + (((fs.take i).map fun f => f.obj.neurons).sum + c))) =
        if x.O (r + R * i) = 0 then 0 else φ (fun j => A (r + R * (f.ofs + j))) c := by
  intro x i f φ hf hφi r hr c hc
  obtain ⟨_, a2, a3⟩ := gated_rows (cap := cap) (add := add) (triv := triv) (compl := compl) hg hgi hgo hgn h hb hT hcov R sg Q so A T O h0 hR training hi
    hio hB
  have hil : i < fs.length := (List.getElem?_eq_some_iff.1 hf).1
  have hgate := a2 r hr i (by omega)
  obtain ⟨Y, hY, hYv⟩ := gouts_rowwise R (Lg.fwd R x.s.1 (colsFrom g.ofs (matOf R A))) (matOf R A) fs 0 Ls x.s.2.2 φs hφ i f hf φ hφi
  have hmain := a3 i _ Y hY r hr c hc
  have hbs : blockStart (gouts R (Lg.fwd R x.s.1 (colsFrom g.ofs (matOf R A))) (matOf R A) fs 0 Ls x.s.2.2) i =
      ((fs.take i).map fun f => f.obj.neurons).sum := by
    simp only [blockStart]
    rw [List.map_take, gouts_total, ← List.map_take]
  rw [hbs] at hmain
  refine hmain.trans ?_
  rw [hgate]
  by_cases hz : Lg.fwd R x.s.1 (colsFrom g.ofs (matOf R A)) r i = 0
  · rw [if_pos hz, if_pos hz]
  · rw [if_neg hz, if_neg hz]
    rw [Nat.zero_add] at hYv
    exact hYv r c hr hz hc

/-- What the optional pack does not do: a gate whose own `bprop` is not trivial is trained without its part of the gradient. Whatever the
gradient with respect to the gate's columns is, the backward pass does the same. -/
theorem gate_gradient_is_ignored {α : Type} [Zero α] [One α] [DecidableEq α] (inc bbs buf cap : Nat) (add : Bool) (compl : α → α) (g : Fld α)
    (fs : List (Fld α)) (R : Nat) (need : Bool) (s : g.obj.S × Mem α × OState fs) (A T O D D' P : Mem α)
    (h : ∀ p, R * g.obj.neurons ≤ p → D p = D' p) :
    let x := (optional inc bbs buf cap add compl false g fs).bprop R need s A T O D P
    let x' := (optional inc bbs buf cap add compl false g fs).bprop R need s A T O D' P
    x.s = x'.s ∧ x.P = x'.P := by
  have hle : ∀ p, R * (g.obj.neurons + if add then g.obj.neurons else 0) ≤ p → D p = D' p := fun p hp => h p (by
    rw [Nat.mul_add] at hp; omega)
  simp only [optional, Bool.false_eq_true, if_false]
  rw [oBprop_cong fs 0 (g.obj.neurons + if add then g.obj.neurons else 0) 0 s.2.2 s.2.1 T P hle]
  exact ⟨rfl, rfl⟩

end Nntl.Pass
