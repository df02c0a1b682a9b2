import Verif.Backprop.Opt
import Verif.Backprop.Props

/-! C106: training behind a gate. Property theorems. -/
namespace Nntl.Backprop

open Nntl.Pass
open Nntl.Kernel (openRows)
open Finset

theorem oStep_given {inc R : ℕ} {γ : Mat ℝ} {ρ : ℕ → ℝ} : (fs : List (Fld ℝ)) → (k : ℕ) → (Ls : Laws fs) → (D : Diffs fs Ls) → fOk inc fs Ls D →
    (∀ i, k ≤ i → i < k + fs.length → ρ i = openCount R γ i / R) → ∀ s g s', oStep ρ fs k Ls D s g s' →
    ∃ h, Given R γ fs k Ls D s h s' ∧ ∀ V, pairing (fWs fs Ls D) g V = gatedSum R γ fs k Ls D h V
  | [], _, _, _, _, _, _, _, _, _ => ⟨fun _ _ _ => 0, trivial, fun _ => rfl⟩
  | f :: fs, k, Ls, D, hD, hρ, s, g, s', ⟨⟨h1, he, hp, hz⟩, hr⟩ => by
    simp only [List.length_cons] at hρ
    have hk := hρ k (le_refl k) (by omega)
    obtain ⟨h2, hg, hs⟩ := oStep_given fs (k + 1) Ls.tail D.2 hD.2.2.2 (fun i a b => hρ i (by omega) (by omega)) s.2 _ s'.2 hr
    have e2 : (fun i => glue D.1.ws.length h1 h2 (D.1.ws.length + i)) = h2 := funext fun i => glue_right _ _ _ _
    have e1 : ∀ i < D.1.ws.length, glue D.1.ws.length h1 h2 i = h1 i := fun i hi => glue_left _ _ hi
    refine ⟨glue D.1.ws.length h1 h2, ⟨?_, by rw [e2]; exact hg⟩, fun V => ?_⟩
    · by_cases hc : 0 < openCount R γ k
      · rw [if_pos hc]
        have hR : (0 : ℝ) < R := Nat.cast_pos.2 (lt_of_lt_of_le hc (openRows_length_le _ _))
        exact hD.1.step_congr _ _ _ _ (fun i hi => (e1 i hi).symm) (hp (by rw [hk]; exact div_pos (Nat.cast_pos.2 hc) hR))
      · rw [if_neg hc]
        exact hz (by rw [hk, show openCount R γ k = 0 by omega]; simp)
    · show pairing (D.1.ws ++ fWs fs Ls.tail D.2) g V = _ * pairing D.1.ws _ V + gatedSum R γ fs (k + 1) Ls.tail D.2 _ _
      rw [pairing_append, hs, e2, pairing_congr D.1.ws (glue D.1.ws.length h1 h2) h1 V e1, ← hk, ← pairing_scale,
        pairing_congr D.1.ws g (fun i c j => ρ k * h1 i c j) V fun i hi => funext fun c => funext fun j => he i hi c j]

/-- C106. A network with an optional pack below any other layers, after any history. A training step gives the optimiser of a layer under the gate the
gradient averaged over the rows that are open for the layer: the mean loss of the whole batch changes, along any direction of all weights, with the
rate given by these matrices times the shares of open rows. The other optimisers are given the derivatives of the mean loss. A layer without open rows
is left as it was, its optimiser included, and so is the gate. -/
theorem gated_training_step {N NT inc bbs buf cap : ℕ} {add : Bool} {compl : ℝ → ℝ} {g : Fld ℝ} {fs : List (Fld ℝ)} {Lg : Law g.obj} {Ls : Laws fs}
    {D : Diffs fs Ls} {u : Obj ℝ} {U : Law u} {E : Diff U} {gw : GradWorks ℝ} {act : (ℕ → ℝ) → ℕ → ℝ} {dz : ℝ → ℝ → ℝ} {upd : Bool} {n m : ℕ}
    (hb : Trains N NT (over (optional inc bbs buf cap add compl true g fs) u) (overLaw (optionalLaw inc bbs buf cap add compl Lg Ls) U))
    (hD : fOk inc fs Ls D) (hgn : g.obj.neurons = fs.length) (hE : IsDiff E)
    (hu' : u.inc = g.obj.neurons + (if add then g.obj.neurons else 0) + fNeurons fs)
    (hact : ∀ z z', (∀ i < m, z i = z' i) → ∀ i < m, act z i = act z' i) (hn : n = u.neurons) (hT : NT ≤ N)
    (s0 : NetS ⟨over (optional inc bbs buf cap add compl true g fs) u, outLayer realArith gw act dz upd n m⟩)
    (hi0 : NetInv (overLaw (optionalLaw inc bbs buf cap add compl Lg Ls) U) (outLaw realArith gw act dz upd n m) s0)
    (us : List (Use ℝ)) (hus : ∀ u ∈ us, u.Ok N NT inc) (R : ℕ) (X Y : Mem ℝ)
    (hu : (Use.train R X Y).Ok N NT inc) (loss : (ℕ → ℝ) → (ℕ → ℝ) → ℝ) :
    let w : Net ℝ := ⟨over (optional inc bbs buf cap add compl true g fs) u, outLayer realArith gw act dz upd n m⟩
    let P := optionalLaw inc bbs buf cap add compl Lg Ls
    let s := w.run s0 us
    let s1 := (w.fprop (w.to true R s) X).1
    let s2 := (w.step s (.train R X Y)).1
    let gate : g.obj.S := s1.body.1.1
    let under : OState fs := s1.body.1.2.2
    let γ := Lg.fwd R gate (colsFrom g.ofs (matOf R X))
    let low := fun (V : ℕ → Mat ℝ) (t : ℝ) => P.fwd R (gate, s1.body.1.2.1, oLine fs Ls D under V t) (matOf R X)
    let rest := fun (V : ℕ → Mat ℝ) (i : ℕ) => V ((fWs fs Ls D).length + i)
    let high := fun (V : ℕ → Mat ℝ) (t : ℝ) => U.fwd R (E.line s1.body.2.2 (rest V) t) (low V t)
    let net := fun (V : ℕ → Mat ℝ) (W : Mat ℝ) (t : ℝ) (r c : ℕ) => act (preAct realArith n (fun c j => s1.out.w c j + t * W c j) (high V t) r) c
    let pen := fun (V : ℕ → Mat ℝ) (t : ℝ) => oPen R γ (matOf R X) fs 0 Ls D (oLine fs Ls D under V t) + E.pen R (E.line s1.body.2.2 (rest V) t) (low V t)
    oSmooth R γ (matOf R X) fs 0 Ls D under → E.Smooth R s1.body.2.2 (P.fwd R s1.body.1 (matOf R X)) →
    (∀ r < R, LossGrad m act loss dz (preAct realArith n s1.out.w (U.fwd R s1.body.2.2 (P.fwd R s1.body.1 (matOf R X))) r) (matOf R Y r)) →
    (∀ V W, Shows R m s1.ao (net V W 0)) ∧
    ∃ (h e : ℕ → Mat ℝ) (o : Mat ℝ),
      (∀ V W, HasDerivAt (fun t => (∑ r ∈ range R, loss (net V W t r) (matOf R Y r)) / R + pen V t / R)
        (gatedSum R γ fs 0 Ls D h V + pairing E.ws e (rest V) + ∑ c ∈ range m, ∑ j ∈ range (n + 1), o c j * W c j) 0) ∧
      s2.body.1.1 = s1.body.1.1 ∧ Given R γ fs 0 Ls D under h s2.body.1.2.2 ∧ E.Step s1.body.2.2 e s2.body.2.2 ∧ Updated upd m (n + 1) s1.out o s2.out := by
  intro w P s s1 s2 gate under γ low rest high net pen hs1 hs2 hl
  let C : ℕ → g.obj.S → Mat ℝ → Prop := fun _ _ _ => True
  let ρ : ℕ → ℝ := fun k => openCount R γ k / R
  let B := optDiff inc bbs buf cap add compl Lg D ρ C
  have hB : IsDiff0 B := opt_isDiff0 hD hgn
  have hBE : IsDiff0 (overDiff B E) := over_isDiff0 hB hE hu'
  obtain ⟨a1, g', o, a2, a3, a4⟩ := training_step_gradient (D := overDiff B E) hb hBE hact hn hT s0 hi0 us hus R X Y hu loss
    ⟨⟨trivial, hs1, fun _ _ => rfl⟩, hs2⟩ hl
  obtain ⟨⟨b1, b2⟩, b3⟩ := a3
  obtain ⟨h, c1, c2⟩ := oStep_given (R := R) (γ := γ) fs 0 Ls D hD (fun _ _ _ => rfl) _ _ _ b2
  refine ⟨a1, h, fun i => g' ((fWs fs Ls D).length + i), o, fun V W => (a2 V W).congr_deriv ?_, b1, c1, b3, a4⟩
  congr 1
  show pairing (fWs fs Ls D ++ E.ws) g' V = _
  rw [pairing_append, c2]

/-- A gate that takes its output from its input element by element, with a function that is constant near every element, does not change near the input. -/
theorem idGate_flat (bin : ℝ → ℝ) (n R : ℕ) (X : Mat ℝ) (h : ∀ r < R, ∀ c < n, ∀ᶠ x in nhds (X r c), bin x = bin (X r c)) :
    GateFlat (idGateLaw bin n) R () X := by
  intro Y hY hc
  have h1 : ∀ p ∈ range R ×ˢ range n, ∀ᶠ t in nhds (0 : ℝ), bin (Y t p.1 p.2) = bin (X p.1 p.2) := by
    intro p hp
    obtain ⟨hr, hn⟩ := mem_product.1 hp
    have h2 := h _ (mem_range.1 hr) _ (mem_range.1 hn)
    rw [← hY] at h2 ⊢
    exact (hc _ (mem_range.1 hr) _ (mem_range.1 hn)).eventually h2
  have h3 := (Filter.eventually_all_finset _).2 h1
  exact h3.mono fun t ht r hr k hk => ht (r, k) (mem_product.2 ⟨mem_range.2 hr, mem_range.2 hk⟩)

/-- A binarising gate away from its threshold. -/
theorem binary_gate_flat (thr : ℝ) (n R : ℕ) (X : Mat ℝ) (h : ∀ r < R, ∀ c < n, X r c ≠ thr) :
    GateFlat (idGateLaw (fun x => if thr < x then (1 : ℝ) else 0) n) R () X := by
  refine idGate_flat _ n R X fun r hr c hc => ?_
  rcases lt_or_gt_of_ne (h r hr c hc) with h | h
  · exact (eventually_lt_nhds h).mono fun x hx => by simp only [if_neg hx.le.not_gt, if_neg h.le.not_gt]
  · exact (eventually_gt_nhds h).mono fun x hx => by simp only [if_pos hx, if_pos h]

/-- The matrices the optimisers of the layers under the gate are given. -/
noncomputable def oMats (R : ℕ) (γ X : Mat ℝ) : (fs : List (Fld ℝ)) → (k : ℕ) → (Ls : Laws fs) → Diffs fs Ls → OState fs → Mat ℝ → ℕ → Mat ℝ
  | [], _, _, _, _, _ => fun _ _ _ => 0
  | f :: fs, k, Ls, D, s, G =>
    glue D.1.ws.length (D.1.grad (openCount R γ k) s.1.1 (pick R (gmask γ k) (colsFrom f.ofs X)) (pick R (gmask γ k) G))
      (oMats R γ X fs (k + 1) Ls.tail D.2 s.2 (colsFrom f.obj.neurons G))

theorem oMats_ok {inc R : ℕ} {γ X : Mat ℝ} {ρ : ℕ → ℝ} : (fs : List (Fld ℝ)) → (k : ℕ) → (Ls : Laws fs) → (D : Diffs fs Ls) → fOk inc fs Ls D →
    (∀ i, k ≤ i → i < k + fs.length → ρ i = openCount R γ i / R) → ∀ s G, oSmooth R γ X fs k Ls D s →
    (∀ V, pairing (fWs fs Ls D) (oGrad R ρ γ X fs k Ls D s G) V = gatedSum R γ fs k Ls D (oMats R γ X fs k Ls D s G) V) ∧
    ∀ s', oUpd R γ X fs k Ls s G s' → Given R γ fs k Ls D s (oMats R γ X fs k Ls D s G) s'
  | [], _, _, _, _, _, _, _, _ => ⟨fun _ => rfl, fun _ _ => trivial⟩
  | f :: fs, k, Ls, D, hD, hρ, s, G, hs => by
    simp only [List.length_cons] at hρ
    have hk := hρ k (le_refl k) (by omega)
    obtain ⟨i1, i2⟩ := oMats_ok fs (k + 1) Ls.tail D.2 hD.2.2.2 (ρ := ρ) (fun i a b => hρ i (by omega) (by omega)) s.2 (colsFrom f.obj.neurons G) hs.2
    have e2 : (fun i => oMats R γ X (f :: fs) k Ls D s G (D.1.ws.length + i)) = oMats R γ X fs (k + 1) Ls.tail D.2 s.2 (colsFrom f.obj.neurons G) :=
      funext fun i => glue_right _ _ _ _
    have e1 : ∀ i < D.1.ws.length, oMats R γ X (f :: fs) k Ls D s G i =
        D.1.grad (openCount R γ k) s.1.1 (pick R (gmask γ k) (colsFrom f.ofs X)) (pick R (gmask γ k) G) i := fun i hi => glue_left _ _ hi
    refine ⟨fun V => ?_, fun s' hu => ⟨?_, by rw [e2]; exact i2 s'.2 hu.2⟩⟩
    · show pairing (D.1.ws ++ fWs fs Ls.tail D.2) (glue D.1.ws.length _ _) V = _ * pairing D.1.ws _ V + gatedSum R γ fs (k + 1) Ls.tail D.2 _ _
      rw [pairing_glue, pairing_scale, i1, e2, pairing_congr D.1.ws _ _ V e1, hk]
    · have := hu.1
      by_cases hc : 0 < openCount R γ k
      · rw [if_pos (show 0 < (openRows (gmask γ k) R).length from hc)] at this
        rw [if_pos hc]
        exact hD.1.step_congr _ _ _ _ (fun i hi => (e1 i hi).symm) (hD.1.upd _ _ _ _ _ (hs.1 hc) this)
      · rw [if_neg (show ¬ 0 < (openRows (gmask γ k) R).length from hc)] at this
        rw [if_neg hc]
        exact this

/-- C106. An optional pack anywhere in a network, with a gate whose output does not change near the input (a binarising gate away from its threshold):
along any path of the input and any direction of the weights, the activations of the pack, weighted with the incoming gradient `G`, change with the
rate given by the gradient handed to the layer below, and by the gradients handed to the optimisers times the numbers of the rows they are
averages of. -/
theorem gated_pack_gradient {inc bbs buf cap : ℕ} {add : Bool} {compl : ℝ → ℝ} {g : Fld ℝ} {fs : List (Fld ℝ)} {Lg : Law g.obj} {Ls : Laws fs}
    {D : Diffs fs Ls} (hD : fOk inc fs Ls D) (hgn : g.obj.neurons = fs.length) (hgi : g.obj.inc = g.cnt) (hgo : g.ofs + g.cnt ≤ inc) (ha : Apart (g :: fs))
    (R : ℕ) (h0 : 0 < R) (sg : g.obj.S) (Q : Mem ℝ) (s : OState fs) (V : ℕ → Mat ℝ) (X : ℝ → Mat ℝ) (X' G : Mat ℝ)
    (hX : ∀ r < R, ∀ c < inc, HasDerivAt (fun t => X t r c) (X' r c) 0) :
    let P := optionalLaw inc bbs buf cap add compl Lg Ls
    let γ := Lg.fwd R sg (colsFrom g.ofs (X 0))
    GateFlat Lg R sg (colsFrom g.ofs (X 0)) → oSmooth R γ (X 0) fs 0 Ls D s →
    ∃ h : ℕ → Mat ℝ,
      HasDerivAt (fun t => ∑ r ∈ range R, ∑ c ∈ range (g.obj.neurons + (if add then g.obj.neurons else 0) + fNeurons fs),
          G r c * P.fwd R (sg, Q, oLine fs Ls D s V t) (X t) r c + oPen R (Lg.fwd R sg (colsFrom g.ofs (X t))) (X t) fs 0 Ls D (oLine fs Ls D s V t))
        (∑ r ∈ range R, ∑ c ∈ range inc, P.bwd R (sg, Q, s) (X 0) G r c * X' r c + R * gatedSum R γ fs 0 Ls D h V) 0 ∧
      ∀ s', P.Upd R (sg, Q, s) (X 0) G s' → s'.1 = sg ∧ Given R γ fs 0 Ls D s h s'.2.2 := by
  intro P γ hf hs
  let ρ : ℕ → ℝ := fun k => openCount R γ k / R
  have hB : IsDiff (optDiff inc bbs buf cap add compl Lg D ρ (GateFlat Lg)) := opt_isDiff hD hgn hgi hgo ha fun _ _ _ h => h
  obtain ⟨m1, m2⟩ := oMats_ok (X := X 0) (ρ := ρ) fs 0 Ls D hD (fun _ _ _ => rfl) s (colsFrom (g.obj.neurons + if add then g.obj.neurons else 0) G) hs
  refine ⟨_, (hB.deriv R (sg, Q, s) V X X' G h0 ⟨hf, hs, fun _ _ => rfl⟩ hX).congr_deriv ?_, fun s' hu => ⟨hu.1, m2 _ hu.2⟩⟩
  rw [← m1]
  rfl

/-! ### The hypotheses are met; what does not hold -/

/-- One linear layer of one neuron under an identity gate: neuron 0 is the gate, neuron 1 the input of the layer. -/
noncomputable def demoGate : Fld ℝ := ⟨0, 1, idGate id 1⟩
noncomputable def demoUnder : List (Fld ℝ) := [⟨1, 1, fc realArith descent id (fun _ => 1) true 2 1 1⟩]
noncomputable def demoUnderLaws : Laws demoUnder := .cons (fcLaw realArith descent id (fun _ => 1) true 2 1 1) .nil
noncomputable def demoUnderDiffs : Diffs demoUnder demoUnderLaws := (fcDiff descent id (fun _ => 1) true 2 1 1, ⟨⟩)

theorem demoUnder_ok : fOk 2 demoUnder demoUnderLaws demoUnderDiffs := ⟨fc_isDiff _ _ _ _ _ _ _, rfl, by decide, trivial⟩

/-- Two rows, the second one is closed; the layer sees 1. -/
def demoX : Mat ℝ := fun r c => if r = 0 then 1 else if c = 0 then 0 else 1

/-- The layer with the weights `w` and any activations. -/
noncomputable def demoState (w : Mat ℝ) : OState demoUnder := ((⟨w, (), true⟩, ⟨fun _ => 0, 2⟩), ())

theorem demo_open : openCount 2 demoX 0 = 1 := by
  unfold openCount gmask demoX
  rw [Nntl.Kernel.openRows_succ, Nntl.Kernel.openRows_succ]
  simp [openRows]

/-- C106. The expectation that the optimiser of a gated layer is given the derivative of the mean over the batch (C85) fails: with one of two rows open, the
mean of the outputs of the layer changes at the rate 1/2 with its first weight, and the optimiser is given 1. -/
theorem gated_gradient_is_not_of_the_mean_loss : ∃ (s : OState demoUnder) (V G : Mat ℝ) (i j : ℕ),
    let P := optionalLaw 2 2 4 8 false id (idGateLaw id 1) demoUnderLaws (g := demoGate)
    HasDerivAt (fun t => (∑ r ∈ range 2, ∑ c ∈ range 2, G r c * P.fwd 2 ((), fun _ => 0, oLine demoUnder demoUnderLaws demoUnderDiffs s (fun _ => V) t) demoX r c) / (2 : ℕ))
      (1 / 2) 0 ∧ V = unitAt i j ∧
    ∀ s', P.Upd 2 ((), fun _ => 0, s) demoX G s' → ∃ d, Updated true 1 2 s.1.1 d s'.2.2.1.1 ∧ d i j = 1 := by
  refine ⟨demoState fun _ _ => 0, unitAt 0 0, fun _ c => if c = 1 then 1 else 0, 0, 0, ?_⟩
  intro P
  have hγ : (idGateLaw id 1 : Law demoGate.obj).fwd 2 () (colsFrom demoGate.ofs demoX) = demoX := by
    funext r c
    simp [idGateLaw, colsFrom, demoGate]
  have hp : ∀ Y : Mat ℝ, ∀ c, pick 2 (gmask demoX 0) Y 0 c = Y 0 c := by
    intro Y c
    unfold pick
    have : openRows (gmask demoX 0) 2 = [0] := by
      unfold gmask demoX
      rw [Nntl.Kernel.openRows_succ, Nntl.Kernel.openRows_succ]
      simp [openRows]
    rw [this]
    rfl
  have hg : gradW realArith 1 1 (pick 2 (gmask demoX 0) (colsFrom 1 demoX))
      (fun r c => 1 * pick 2 (gmask demoX 0) (colsFrom 1 fun _ c => if c = 1 then (1 : ℝ) else 0) r c) 0 0 = 1 := by
    simp [gradW, realArith, hp, withOnes, colsFrom, demoX]
  refine ⟨?_, rfl, fun s' hu => ⟨_, ?_, hg⟩⟩
  · have := (opt_isDiff0 (bbs := 2) (buf := 4) (cap := 8) (add := false) (compl := id) (g := demoGate) (Lg := idGateLaw id 1)
      (C := fun _ _ _ => True) (ρ := fun k => openCount 2 demoX k / (2 : ℕ)) demoUnder_ok rfl).deriv 2 ((), fun _ => 0, demoState fun _ _ => 0)
        (fun _ => unitAt 0 0) demoX (fun _ c => if c = 1 then 1 else 0) (by decide)
        ⟨trivial, by rw [hγ]; exact ⟨fun _ r _ c _ => hasDerivAt_id _, trivial⟩, fun k _ => by rw [hγ]⟩
    have h2 := this.div_const ((2 : ℕ) : ℝ)
    refine (h2.congr_deriv ?_).congr_of_eventuallyEq (Filter.Eventually.of_forall fun t => ?_)
    · show (2 : ℕ) * pairing [⟨1, 2, 1⟩] (oGrad 2 _ ((idGateLaw id 1 : Law demoGate.obj).fwd 2 () (colsFrom demoGate.ofs demoX)) demoX demoUnder 0 demoUnderLaws demoUnderDiffs
        (demoState fun _ _ => 0) (colsFrom 1 fun _ c => if c = 1 then 1 else 0)) _ / _ = _
      rw [hγ]
      simp only [pairing, Nat.cast_one, one_mul, add_zero]
      rw [inner_comm, inner_unitAt (by decide) (by decide)]
      have e : oGrad 2 (fun k => openCount 2 demoX k / (2 : ℕ)) demoX demoX demoUnder 0 demoUnderLaws demoUnderDiffs (demoState fun _ _ => 0)
          (colsFrom 1 fun _ c => if c = 1 then 1 else 0) 0 0 0 = openCount 2 demoX 0 / (2 : ℕ) *
          gradW realArith (openCount 2 demoX 0) 1 (pick 2 (gmask demoX 0) (colsFrom 1 demoX))
            (fun r c => 1 * pick 2 (gmask demoX 0) (colsFrom 1 fun _ c => if c = 1 then (1 : ℝ) else 0) r c) 0 0 := rfl
      rw [e, demo_open, hg]
      norm_num
    · have pe : ∀ q, oPen 2 q demoX demoUnder 0 demoUnderLaws demoUnderDiffs
          (oLine demoUnder demoUnderLaws demoUnderDiffs (demoState fun _ _ => 0) (fun _ => unitAt 0 0) t) = 0 := fun q => by
        show (if 0 < openCount 2 q 0 then (0 : ℝ) else 0) + 0 = 0
        rw [ite_self, add_zero]
      show _ = (_ + oPen 2 _ demoX demoUnder 0 demoUnderLaws demoUnderDiffs _) / _
      erw [pe]
      rw [add_zero]
      rfl
  · have := hu.2.1
    rw [hγ] at this
    have e : (openRows (gmask demoX 0) 2).length = 1 := demo_open
    rw [e, if_pos (by decide)] at this
    exact this

/-- C106. A gate that passes its input on (no binarisation) hands no gradient down although the pack shows the gate's output: the first activation changes at the
rate 1 with the gate's input, and the gradient handed down says 0. -/
theorem gate_input_gets_no_gradient : ∃ (s : OState demoUnder) (X : ℝ → Mat ℝ) (X' G : Mat ℝ),
    let P := optionalLaw 2 2 4 8 false id (idGateLaw id 1) demoUnderLaws (g := demoGate)
    (∀ r < 2, ∀ c < 2, HasDerivAt (fun t => X t r c) (X' r c) 0) ∧
    HasDerivAt (fun t => ∑ r ∈ range 2, ∑ c ∈ range 2, G r c * P.fwd 2 ((), fun _ => 0, s) (X t) r c) 1 0 ∧
    ∑ r ∈ range 2, ∑ c ∈ range 2, P.bwd 2 ((), fun _ => 0, s) (X 0) G r c * X' r c = 0 := by
  refine ⟨demoState fun _ _ => 0, fun t r c => demoX r c + t * unitAt 0 0 r c, unitAt 0 0, unitAt 0 0, ?_⟩
  intro P
  refine ⟨fun r _ c _ => ?_, ?_, ?_⟩
  · simpa using ((hasDerivAt_id (0 : ℝ)).mul_const (unitAt 0 0 r c)).const_add (demoX r c)
  · have e : ∀ Y : Mat ℝ, ∑ r ∈ range 2, ∑ c ∈ range 2, unitAt 0 0 r c * Y r c = Y 0 0 := fun Y => inner_unitAt (by decide) (by decide) Y
    simp only [e]
    have f : ∀ t : ℝ, P.fwd 2 ((), fun _ => 0, demoState fun _ _ => 0) (fun r c => demoX r c + t * unitAt 0 0 r c) 0 0 = 1 + t := fun t => by
      show (demoX 0 (0 + 0) + t * unitAt 0 0 0 (0 + 0) : ℝ) = _
      simp [demoX, unitAt]
    simp only [f]
    simpa using (hasDerivAt_id (0 : ℝ)).const_add 1
  · have e : ∀ Y : Mat ℝ, ∑ r ∈ range 2, ∑ c ∈ range 2, Y r c * unitAt 0 0 r c = Y 0 0 := fun Y =>
      (inner_comm 2 2 Y (unitAt 0 0)).trans (inner_unitAt (by decide) (by decide) Y)
    rw [e]
    simp [P, optionalLaw, demoGate]

/-- The hypotheses of `gated_training_step`: the pack below a layer of one neuron. -/
example : Trains 4 2 (over (optional 2 4 4 8 false id true demoGate demoUnder) (fc realArith descent id (fun _ => 1) true 2 2 1))
    (overLaw (optionalLaw 2 4 4 8 false id (idGateLaw id 1) demoUnderLaws) (fcLaw realArith descent id (fun _ => 1) true 2 2 1)) ∧
    fOk 2 demoUnder demoUnderLaws demoUnderDiffs ∧ demoGate.obj.neurons = demoUnder.length ∧
    IsDiff (fcDiff descent id (fun _ => 1) true 2 2 1) ∧
    ∀ R γ X s, oSmooth R γ X demoUnder 0 demoUnderLaws demoUnderDiffs s := by
  have hf : FieldsOk 4 2 2 4 (fTmp demoUnder) demoUnder demoUnderLaws :=
    ⟨⟨rfl, by decide, by decide, by decide, by decide, Nat.le_max_left _ _, fc_lawful realArith_ok descent id (fun _ => 1) true 4 2 1 1⟩, trivial⟩
  refine ⟨(over_lawful (optional_lawful (idGate_lawful _ _ _ _) rfl (by decide) rfl hf
    (by decide) (by decide) fun j hj => ?_) (fc_lawful realArith_ok _ _ _ _ _ _ _ _) rfl (by decide)).trains, demoUnder_ok, rfl, fc_isDiff _ _ _ _ _ _ _,
    fun R γ X s => ⟨fun _ r _ c _ => hasDerivAt_id _, trivial⟩⟩
  simp only [demoGate, OCov, demoUnder, List.mem_cons, List.not_mem_nil, or_false, exists_eq_left]
  omega

/-- The hypotheses of `gated_pack_gradient`: the same pack with a binarising gate. -/
example : Apart ((⟨0, 1, idGate (fun x => if (1 / 2 : ℝ) < x then 1 else 0) 1⟩ : Fld ℝ) :: demoUnder) ∧
    GateFlat (idGateLaw (fun x => if (1 / 2 : ℝ) < x then (1 : ℝ) else 0) 1) 2 () (colsFrom 0 demoX) := by
  refine ⟨⟨fun f hf => ?_, ⟨fun f hf => absurd hf List.not_mem_nil, trivial⟩⟩, binary_gate_flat _ _ _ _ fun r _ c hc => ?_⟩
  · rw [List.mem_singleton.1 hf]
    exact .inl (le_refl _)
  · obtain rfl : c = 0 := by omega
    unfold colsFrom demoX
    split <;> norm_num

end Nntl.Backprop
