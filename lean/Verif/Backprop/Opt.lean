import Verif.Backprop.OptSpec
import Verif.Backprop.Lemmas
import Verif.Pass.Opt

/-! Derivatives through optional packs. -/
namespace Nntl.Backprop

open Nntl.Pass
open Nntl.Kernel (openRows openRows_succ)
open Finset

/-! ### Rows -/

theorem sum_scatter (mask : ℕ → Bool) (y x : ℕ → ℝ) : ∀ R : ℕ,
    ∑ r ∈ range R, x r * (if mask r then y (openRows mask r).length else 0) =
      ∑ q ∈ range (openRows mask R).length, x ((openRows mask R).getD q 0) * y q
  | 0 => by simp [openRows]
  | R + 1 => by
    rw [sum_range_succ, sum_scatter mask y x R, openRows_succ]
    cases hm : mask R with
    | false => simp
    | true =>
      simp only [if_true, List.length_append, List.length_singleton]
      rw [sum_range_succ]
      congr 1
      · refine sum_congr rfl fun q hq => ?_
        rw [List.getD_eq_getElem?_getD, List.getD_eq_getElem?_getD, List.getElem?_append_left (mem_range.1 hq)]
      · rw [List.getD_eq_getElem?_getD, List.getElem?_append_right (Nat.le_refl _)]
        simp

theorem inner_scatter (R m : ℕ) (mask : ℕ → Bool) (G Y : Mat ℝ) :
    inner R m G (scatter mask Y) = inner (openRows mask R).length m (pick R mask G) Y := by
  unfold inner scatter pick
  rw [sum_comm, sum_comm (s := range (openRows mask R).length)]
  exact sum_congr rfl fun c _ => sum_scatter mask (fun q => Y q c) (fun r => G r c) R

theorem openCount_congr {R : ℕ} {γ γ' : Mat ℝ} {k : ℕ} (h : ∀ r < R, γ r k = γ' r k) : openCount R γ k = openCount R γ' k := by
  unfold openCount
  rw [openRows_congr (m := gmask γ k) (m' := gmask γ' k) fun r hr => by simp only [gmask, h r hr]]

theorem pick_congr {R : ℕ} {γ γ' : Mat ℝ} {k : ℕ} (h : ∀ r < R, γ r k = γ' r k) (X : Mat ℝ) : pick R (gmask γ k) X = pick R (gmask γ' k) X := by
  unfold pick
  rw [openRows_congr (m := gmask γ k) (m' := gmask γ' k) fun r hr => by simp only [gmask, h r hr]]

theorem scatter_congr {R : ℕ} {γ γ' : Mat ℝ} {k : ℕ} (h : ∀ r < R, γ r k = γ' r k) (Y : Mat ℝ) {r : ℕ} (hr : r < R) (c : ℕ) :
    scatter (gmask γ k) Y r c = scatter (gmask γ' k) Y r c := by
  unfold scatter
  rw [openRows_congr (m := gmask γ k) (m' := gmask γ' k) fun q hq => by simp only [gmask, h q (by omega)]]
  rw [show gmask γ k r = gmask γ' k r by simp only [gmask, h r hr]]

/-- The gate matters only through the rows it opens. -/
theorem oFwd_congr {R : ℕ} {γ γ' X : Mat ℝ} : (fs : List (Fld ℝ)) → (k : ℕ) → (Ls : Laws fs) → (s : OState fs) →
    (∀ r < R, ∀ i, k ≤ i → i < k + fs.length → γ r i = γ' r i) → ∀ r < R, ∀ c, oFwd R γ X fs k Ls s r c = oFwd R γ' X fs k Ls s r c
  | [], _, _, _, _, _, _, _ => rfl
  | f :: fs, k, Ls, s, h, r, hr, c => by
    simp only [List.length_cons] at h
    have hk : ∀ r < R, γ r k = γ' r k := fun r hr => h r hr k (le_refl k) (by omega)
    simp only [oFwd]
    have hc := openCount_congr hk
    unfold openCount at hc
    rw [pick_congr hk, hc, scatter_congr hk _ hr,
      oFwd_congr fs (k + 1) Ls.tail s.2 (fun r hr i h1 h2 => h r hr i (by omega) (by omega)) r hr]

theorem oPen_congr {R : ℕ} {γ γ' X : Mat ℝ} : (fs : List (Fld ℝ)) → (k : ℕ) → (Ls : Laws fs) → (D : Diffs fs Ls) → (s : OState fs) →
    (∀ r < R, ∀ i, k ≤ i → i < k + fs.length → γ r i = γ' r i) → oPen R γ X fs k Ls D s = oPen R γ' X fs k Ls D s
  | [], _, _, _, _, _ => rfl
  | f :: fs, k, Ls, D, s, h => by
    simp only [List.length_cons] at h
    have hk : ∀ r < R, γ r k = γ' r k := fun r hr => h r hr k (le_refl k) (by omega)
    simp only [oPen]
    rw [pick_congr hk, openCount_congr hk, oPen_congr fs (k + 1) Ls.tail D.2 s.2 (fun r hr i h1 h2 => h r hr i (by omega) (by omega))]

/-! ### The layers under the gate -/

theorem oLine_zero {inc : ℕ} : (fs : List (Fld ℝ)) → (Ls : Laws fs) → (D : Diffs fs Ls) → fOk inc fs Ls D → ∀ s V, oLine fs Ls D s V 0 = s
  | [], _, _, _, _, _ => rfl
  | _ :: fs, Ls, D, h, s, V => by
    simp only [oLine]
    rw [h.1.line_zero, oLine_zero fs Ls.tail D.2 h.2.2.2]
    rfl

theorem oUpd_step {inc R : ℕ} {ρ : ℕ → ℝ} {γ X : Mat ℝ} : (fs : List (Fld ℝ)) → (k : ℕ) → (Ls : Laws fs) → (D : Diffs fs Ls) → fOk inc fs Ls D →
    ∀ s G s', (∀ i, k ≤ i → i < k + fs.length → ρ i = openCount R γ i / R) → oSmooth R γ X fs k Ls D s → oUpd R γ X fs k Ls s G s' →
    oStep ρ fs k Ls D s (oGrad R ρ γ X fs k Ls D s G) s'
  | [], _, _, _, _, _, _, _, _, _, _ => trivial
  | f :: fs, k, Ls, D, h, s, G, s', hρ, hs, hu => by
    simp only [List.length_cons] at hρ
    have hk := hρ k (le_refl k) (by omega)
    refine ⟨⟨D.1.grad (openCount R γ k) s.1.1 (pick R (gmask γ k) (colsFrom f.ofs X)) (pick R (gmask γ k) G), fun i hi c j => ?_, fun hp => ?_, fun hz => ?_⟩, ?_⟩
    · simp only [oGrad]
      rw [glue_left _ _ hi]
    · have hc : 0 < openCount R γ k := by
        rw [hk] at hp
        rcases Nat.eq_zero_or_pos (openCount R γ k) with h' | h'
        · rw [h'] at hp; simp at hp
        · exact h'
      have := hu.1
      rw [if_pos (show 0 < (openRows (gmask γ k) R).length from hc)] at this
      exact h.1.upd _ _ _ _ _ (hs.1 hc) this
    · have hc : ¬ 0 < openCount R γ k := by
        intro h'
        rw [hk] at hz
        have hR : (0 : ℝ) < R := Nat.cast_pos.2 (lt_of_lt_of_le h' (openRows_length_le _ _))
        have : (0 : ℝ) < openCount R γ k / R := div_pos (Nat.cast_pos.2 h') hR
        exact this.ne' hz
      have := hu.1
      rwa [if_neg (show ¬ 0 < (openRows (gmask γ k) R).length from hc)] at this
    · have := oUpd_step fs (k + 1) Ls.tail D.2 h.2.2.2 s.2 _ s'.2 (fun i h1 h2 => hρ i (by omega) (by omega)) hs.2 hu.2
      have e : (fun i => oGrad R ρ γ X (f :: fs) k Ls D s G (D.1.ws.length + i)) = oGrad R ρ γ X fs (k + 1) Ls.tail D.2 s.2 (colsFrom f.obj.neurons G) :=
        funext fun i => glue_right _ _ _ _
      rw [e]
      exact this

theorem oStep_congr {ρ : ℕ → ℝ} : (fs : List (Fld ℝ)) → (k : ℕ) → (Ls : Laws fs) → (D : Diffs fs Ls) → ∀ s g g' s',
    (∀ i < (fWs fs Ls D).length, g i = g' i) → oStep ρ fs k Ls D s g s' → oStep ρ fs k Ls D s g' s'
  | [], _, _, _, _, _, _, _, _, _ => trivial
  | _ :: fs, k, Ls, D, s, g, g', s', e, hs => by
    have e' : ∀ i < D.1.ws.length + (fWs fs Ls.tail D.2).length, g i = g' i := fun i hi => e i (by simpa [fWs] using hi)
    obtain ⟨⟨h, h1, h2⟩, h3⟩ := hs
    exact ⟨⟨h, fun i hi c j => by rw [← e' i (by omega)]; exact h1 i hi c j, h2⟩, oStep_congr fs (k + 1) Ls.tail D.2 _ _ _ _ (fun i hi => e' _ (by omega)) h3⟩

theorem pairing_scale (a : ℝ) : ∀ (ws : List Wt) (g V : ℕ → Mat ℝ), pairing ws (fun i c j => a * g i c j) V = a * pairing ws g V
  | [], _, _ => by simp [pairing]
  | w :: ws, g, V => by
    simp only [pairing]
    rw [pairing_scale a ws (fun i => g (i + 1))]
    have : inner w.rows w.cols (fun c j => a * g 0 c j) (V 0) = a * inner w.rows w.cols (g 0) (V 0) := by
      unfold inner
      simp only [mul_sum]
      exact sum_congr rfl fun _ _ => sum_congr rfl fun _ _ => by ring
    rw [this]
    ring

/-- What is handed down, as a sum over the layers under the gate. -/
noncomputable def oDown (R : ℕ) (γ X X' : Mat ℝ) : (fs : List (Fld ℝ)) → (k : ℕ) → (Ls : Laws fs) → OState fs → Mat ℝ → ℝ
  | [], _, _, _, _ => 0
  | f :: fs, k, Ls, s, G =>
    inner R f.cnt (scatter (gmask γ k) (Ls.head.bwd (openCount R γ k) s.1.1 (pick R (gmask γ k) (colsFrom f.ofs X)) (pick R (gmask γ k) G))) (colsFrom f.ofs X') +
    oDown R γ X X' fs (k + 1) Ls.tail s.2 (colsFrom f.obj.neurons G)

theorem oFields_deriv {inc R : ℕ} (h0 : 0 < R) {ρ : ℕ → ℝ} {γ : Mat ℝ} {X : ℝ → Mat ℝ} {X' : Mat ℝ}
    (hX : ∀ r < R, ∀ c < inc, HasDerivAt (fun t => X t r c) (X' r c) 0) :
    (fs : List (Fld ℝ)) → (k : ℕ) → (Ls : Laws fs) → (D : Diffs fs Ls) → fOk inc fs Ls D → ∀ s V G, oSmooth R γ (X 0) fs k Ls D s →
    (∀ i, k ≤ i → i < k + fs.length → ρ i = openCount R γ i / R) →
    HasDerivAt (fun t => inner R (fNeurons fs) G (oFwd R γ (X t) fs k Ls (oLine fs Ls D s V t)) + oPen R γ (X t) fs k Ls D (oLine fs Ls D s V t))
      (oDown R γ (X 0) X' fs k Ls s G + R * pairing (fWs fs Ls D) (oGrad R ρ γ (X 0) fs k Ls D s G) V) 0
  | [], _, _, _, _, s, V, G, _, _ => by
    simp only [fNeurons, fWs, pairing, oDown, oPen]
    simpa [inner] using hasDerivAt_const (0 : ℝ) (0 : ℝ)
  | f :: fs, k, Ls, D, h, s, V, G, hs, hρ => by
    simp only [List.length_cons] at hρ
    have hR : (R : ℝ) ≠ 0 := Nat.cast_ne_zero.2 (by omega)
    have hk := hρ k (le_refl k) (by omega)
    have h1 : HasDerivAt (fun t => inner R f.obj.neurons G (scatter (gmask γ k) (Ls.head.fwd (openCount R γ k) (D.1.line s.1.1 V t)
          (pick R (gmask γ k) (colsFrom f.ofs (X t))))) +
        if 0 < openCount R γ k then D.1.pen (openCount R γ k) (D.1.line s.1.1 V t) (pick R (gmask γ k) (colsFrom f.ofs (X t))) else 0)
        (inner R f.cnt (scatter (gmask γ k) (Ls.head.bwd (openCount R γ k) s.1.1 (pick R (gmask γ k) (colsFrom f.ofs (X 0))) (pick R (gmask γ k) G)))
            (colsFrom f.ofs X') +
          openCount R γ k * pairing D.1.ws (D.1.grad (openCount R γ k) s.1.1 (pick R (gmask γ k) (colsFrom f.ofs (X 0))) (pick R (gmask γ k) G)) V) 0 := by
      rw [inner_comm R f.cnt, inner_scatter]
      simp only [inner_scatter]
      have ec : (openRows (gmask γ k) R).length = openCount R γ k := rfl
      rw [ec]
      by_cases hc : 0 < openCount R γ k
      · simp only [if_pos hc]
        have := h.1.deriv (openCount R γ k) s.1.1 V (fun t => pick R (gmask γ k) (colsFrom f.ofs (X t))) (pick R (gmask γ k) (colsFrom f.ofs X'))
          (pick R (gmask γ k) G) hc (hs.1 hc) fun q hq c hc' => hX _ (openRows_getD_lt hq) _ (by have := h.2.1; have := h.2.2.1; omega)
        rw [h.2.1] at this
        rw [inner_comm (openCount R γ k) f.cnt]
        exact this
      · simp only [if_neg hc]
        have e0 : openCount R γ k = 0 := by omega
        rw [e0]
        simpa [inner] using hasDerivAt_const (0 : ℝ) (0 : ℝ)
    have h2 := oFields_deriv h0 hX fs (k + 1) Ls.tail D.2 h.2.2.2 s.2 (fun i => V (D.1.ws.length + i)) (colsFrom f.obj.neurons G) hs.2
      (ρ := ρ) (fun i h1 h2 => hρ i (by omega) (by omega))
    have h3 := h1.add h2
    refine (h3.congr_deriv ?_).congr_of_eventuallyEq (Filter.Eventually.of_forall fun t => ?_)
    · show _ = (_ + _) + R * pairing (D.1.ws ++ fWs fs Ls.tail D.2) (glue D.1.ws.length _ _) V
      rw [pairing_glue, pairing_scale, hk]
      field_simp
      ring
    · show inner R (f.obj.neurons + fNeurons fs) G _ + (_ + oPen R γ (X t) fs (k + 1) Ls.tail D.2 _) = _
      rw [inner_split]
      simp only [Pi.add_apply]
      rw [add_add_add_comm]
      congr 2
      · exact inner_congr fun r _ c hc => by
          congr 1
          exact if_pos hc
      · exact inner_congr fun r _ c hc => by
          congr 1
          show (if f.obj.neurons + c < f.obj.neurons then _ else _) = _
          rw [if_neg (by omega), show f.obj.neurons + c - f.obj.neurons = c by omega]
          rfl

theorem oDown_zero {R : ℕ} {γ X : Mat ℝ} : (fs : List (Fld ℝ)) → (k : ℕ) → (Ls : Laws fs) → (s : OState fs) → (G : Mat ℝ) →
    oDown R γ X (fun _ _ => 0) fs k Ls s G = 0
  | [], _, _, _, _ => rfl
  | f :: fs, k, Ls, s, G => by
    simp only [oDown]
    rw [oDown_zero fs, show colsFrom f.ofs (fun _ _ => (0 : ℝ)) = fun _ _ => 0 from rfl, inner_zero_right, add_zero]

theorem oBwd_outside {R : ℕ} {γ X : Mat ℝ} : (fs : List (Fld ℝ)) → (k : ℕ) → (Ls : Laws fs) → (s : OState fs) → (G : Mat ℝ) → (r j : ℕ) →
    (∀ f ∈ fs, ¬ (f.ofs ≤ j ∧ j < f.ofs + f.cnt)) → oBwd R γ X fs k Ls s G r j = 0
  | [], _, _, _, _, _, _, _ => rfl
  | f :: fs, k, Ls, s, G, r, j, h => by
    simp only [oBwd]
    rw [if_neg (h f List.mem_cons_self)]
    exact oBwd_outside fs (k + 1) Ls.tail s.2 _ r j fun f' hf => h f' (List.mem_cons_of_mem _ hf)

/-- With fields apart from each other the gradient handed down is the sum over the layers. -/
theorem oDown_eq {inc R : ℕ} {γ X X' : Mat ℝ} : (fs : List (Fld ℝ)) → (k : ℕ) → (Ls : Laws fs) → (s : OState fs) → (G : Mat ℝ) →
    (∀ f ∈ fs, f.ofs + f.cnt ≤ inc) → Apart fs → oDown R γ X X' fs k Ls s G = inner R inc (oBwd R γ X fs k Ls s G) X'
  | [], _, _, _, _, _, _ => (inner_zero_left _ _ _).symm
  | f :: fs, k, Ls, s, G, hi, ha => by
    simp only [oDown]
    rw [oDown_eq fs (k + 1) Ls.tail s.2 _ (fun f' hf => hi f' (List.mem_cons_of_mem _ hf)) ha.2, ← inner_window (hi f List.mem_cons_self)]
    refine inner_congr fun r _ j _ => ?_
    congr 1
    simp only [oBwd]
    split
    · rename_i hj
      rw [oBwd_outside fs (k + 1) Ls.tail s.2 _ r j fun f' hf hh => by have := ha.1 f' hf; omega, zero_add]
      rfl
    · rfl

/-! ### The pack -/

theorem fOk_inside {inc : ℕ} : (fs : List (Fld ℝ)) → (Ls : Laws fs) → (D : Diffs fs Ls) → fOk inc fs Ls D → ∀ f ∈ fs, f.ofs + f.cnt ≤ inc
  | [], _, _, _, _, h => by cases h
  | f :: fs, Ls, D, h, f', hf => by
    rcases List.mem_cons.1 hf with rfl | hf
    · exact h.2.2.1
    · exact fOk_inside fs Ls.tail D.2 h.2.2.2 f' hf

section
variable {inc bbs buf cap : ℕ} {add : Bool} {compl : ℝ → ℝ} {g : Fld ℝ} {fs : List (Fld ℝ)} {Lg : Law g.obj} {Ls : Laws fs} {D : Diffs fs Ls}
  {ρ : ℕ → ℝ} {C : ℕ → g.obj.S → Mat ℝ → Prop}

/-- If the gate's output stays the same along the path. -/
theorem opt_deriv (h : fOk inc fs Ls D) (hgn : g.obj.neurons = fs.length) {R : ℕ} (h0 : 0 < R) (s : g.obj.S × Mem ℝ × OState fs) (V : ℕ → Mat ℝ)
    {X : ℝ → Mat ℝ} {X' : Mat ℝ} (G : Mat ℝ) (hX : ∀ r < R, ∀ c < inc, HasDerivAt (fun t => X t r c) (X' r c) 0)
    (hs : oSmooth R (Lg.fwd R s.1 (colsFrom g.ofs (X 0))) (X 0) fs 0 Ls D s.2.2)
    (hρ : ∀ k < fs.length, ρ k = openCount R (Lg.fwd R s.1 (colsFrom g.ofs (X 0))) k / R)
    (hfl : ∀ᶠ t in nhds 0, ∀ r < R, ∀ k < g.obj.neurons, Lg.fwd R s.1 (colsFrom g.ofs (X t)) r k = Lg.fwd R s.1 (colsFrom g.ofs (X 0)) r k) :
    HasDerivAt (fun t => inner R (g.obj.neurons + (if add then g.obj.neurons else 0) + fNeurons fs) G
        ((optionalLaw inc bbs buf cap add compl Lg Ls).fwd R ((optDiff inc bbs buf cap add compl Lg D ρ C).line s V t) (X t)) +
        (optDiff inc bbs buf cap add compl Lg D ρ C).pen R ((optDiff inc bbs buf cap add compl Lg D ρ C).line s V t) (X t))
      (oDown R (Lg.fwd R s.1 (colsFrom g.ofs (X 0))) (X 0) X' fs 0 Ls s.2.2 (colsFrom (g.obj.neurons + if add then g.obj.neurons else 0) G) +
        R * pairing (fWs fs Ls D) ((optDiff inc bbs buf cap add compl Lg D ρ C).grad R s (X 0) G) V) 0 := by
  set γ := Lg.fwd R s.1 (colsFrom g.ofs (X 0)) with hγ
  set ga := g.obj.neurons + (if add then g.obj.neurons else 0) with hga
  have h1 := oFields_deriv h0 hX fs 0 Ls D h s.2.2 V (colsFrom ga G) hs (ρ := ρ) (fun i _ h2 => hρ i (by omega))
  have h2 : HasDerivAt (fun _ : ℝ => inner R ga G fun r c => if c < g.obj.neurons then γ r c else compl (γ r (c - g.obj.neurons))) 0 0 := hasDerivAt_const _ _
  have h3 := h2.add h1
  rw [zero_add] at h3
  refine h3.congr_of_eventuallyEq (hfl.mono fun t ht => ?_)
  show inner R (ga + fNeurons fs) G _ + _ = _ + (_ + _)
  rw [inner_split, add_assoc]
  congr 1
  · refine inner_congr fun r hr c hc => ?_
    congr 1
    show (if c < g.obj.neurons then Lg.fwd R s.1 (colsFrom g.ofs (X t)) r c else
      if add = true ∧ c < g.obj.neurons + g.obj.neurons then compl (Lg.fwd R s.1 (colsFrom g.ofs (X t)) r (c - g.obj.neurons)) else _) = _
    split
    · rename_i hc'; exact ht r hr c hc'
    · rename_i hc'
      have ha : add = true := by
        by_contra ha
        rw [hga, if_neg ha] at hc
        omega
      rw [hga, if_pos ha] at hc
      rw [if_pos ⟨ha, hc⟩, ht r hr _ (by omega)]
  · congr 1
    · refine inner_congr fun r hr c hc => ?_
      congr 1
      show (if ga + c < g.obj.neurons then _ else if add = true ∧ ga + c < g.obj.neurons + g.obj.neurons then _ else
        oFwd R (Lg.fwd R s.1 (colsFrom g.ofs (X t))) (X t) fs 0 Ls (oLine fs Ls D s.2.2 V t) r (ga + c - ga)) = _
      have hge : g.obj.neurons ≤ ga := by omega
      rw [if_neg (by omega), if_neg (fun hh => by rw [hga, if_pos hh.1] at hh; omega), Nat.add_sub_cancel_left]
      exact oFwd_congr fs 0 Ls _ (fun r hr i _ hi => ht r hr i (by omega)) r hr c
    · exact oPen_congr fs 0 Ls D _ fun r hr i _ hi => ht r hr i (by omega)

/-- Inputs that move, through a gate that does not change; the fields do not overlap. -/
theorem opt_isDiff (h : fOk inc fs Ls D) (hgn : g.obj.neurons = fs.length) (hgi : g.obj.inc = g.cnt) (hgo : g.ofs + g.cnt ≤ inc) (ha : Apart (g :: fs))
    (hC : ∀ R s X, C R s X → GateFlat Lg R s X) : IsDiff (optDiff inc bbs buf cap add compl Lg D ρ C) where
  line_zero := fun s V => by
    simp only [optDiff]
    rw [oLine_zero fs Ls D h]
    rfl
  upd := fun R s X G s' hs hu => by
    exact ⟨hu.1, oUpd_step fs 0 Ls D h _ _ _ (fun i _ hi => hs.2.2 i (by omega)) hs.2.1 hu.2⟩
  step_congr := fun s g g' s' e hs => ⟨hs.1, oStep_congr fs 0 Ls D _ _ _ _ e hs.2⟩
  deriv := fun R s V X X' G h0 hs hX => by
    have hfl := hC _ _ _ hs.1 (fun t => colsFrom g.ofs (X t)) rfl fun r hr c hc => (hX r hr _ (show g.ofs + c < inc by omega)).continuousAt
    refine (opt_deriv h hgn h0 s V G hX hs.2.1 hs.2.2 hfl).congr_deriv ?_
    congr 1
    rw [oDown_eq fs 0 Ls s.2.2 _ (fOk_inside fs Ls D h) ha.2]
    refine inner_congr fun r _ j _ => ?_
    congr 1
    show _ = if g.ofs ≤ j ∧ j < g.ofs + g.cnt then 0 else _
    by_cases hj : g.ofs ≤ j ∧ j < g.ofs + g.cnt
    · rw [if_pos hj]
      exact oBwd_outside fs 0 Ls s.2.2 _ r j fun f' hf hh => by have := ha.1 f' hf; omega
    · rw [if_neg hj]

/-- Inputs that do not move: nothing is asked from the gate and from the fields. -/
theorem opt_isDiff0 (h : fOk inc fs Ls D) (hgn : g.obj.neurons = fs.length) : IsDiff0 (optDiff inc bbs buf cap add compl Lg D ρ C) where
  line_zero := fun s V => by
    simp only [optDiff]
    rw [oLine_zero fs Ls D h]
    rfl
  upd := fun R s X G s' hs hu => ⟨hu.1, oUpd_step fs 0 Ls D h _ _ _ (fun i _ hi => hs.2.2 i (by omega)) hs.2.1 hu.2⟩
  step_congr := fun s g g' s' e hs => ⟨hs.1, oStep_congr fs 0 Ls D _ _ _ _ e hs.2⟩
  deriv := fun R s V X G h0 hs => by
    have := opt_deriv (bbs := bbs) (buf := buf) (cap := cap) (add := add) (compl := compl) (Lg := Lg) (C := C) h hgn h0 s V (X := fun _ => X)
      (X' := fun _ _ => 0) G (fun _ _ _ _ => hasDerivAt_const _ _) hs.2.1 hs.2.2 (Filter.Eventually.of_forall fun _ _ _ _ _ => rfl)
    rw [oDown_zero, zero_add] at this
    exact this

end

/-- Layers above layers with fixed input. -/
theorem over_isDiff0 {l u : Obj ℝ} {L : Law l} {U : Law u} {D : Diff L} {E : Diff U} (hD : IsDiff0 D) (hE : IsDiff E) (hn : u.inc = l.neurons) :
    IsDiff0 (overDiff D E) where
  line_zero := fun s V => by simp only [overDiff, hD.line_zero, hE.line_zero]; rfl
  upd := fun R s X G s' hs h => by
    obtain ⟨h2, h1⟩ := h
    refine ⟨hD.step_congr _ _ _ _ (fun i hi => (glue_left _ _ hi).symm) (hD.upd _ _ _ _ _ hs.1 h1),
      hE.step_congr _ _ _ _ (fun i hi => (glue_right _ _ _ _).symm) (hE.upd _ _ _ _ _ hs.2 h2)⟩
  step_congr := fun s g g' s' e h => by
    have e' : ∀ i < D.ws.length + E.ws.length, g i = g' i := fun i hi => e i (by simpa [overDiff] using hi)
    exact ⟨hD.step_congr _ _ _ _ (fun i hi => e' i (by omega)) h.1, hE.step_congr _ _ _ _ (fun i hi => e' _ (by omega)) h.2⟩
  deriv := fun R s V X G h0 hs => by
    obtain ⟨hs1, hs2⟩ := hs
    have hY := hD.comp V h0 hs1
    have h1 := hD.deriv R s.1 V X (U.bwd R s.2.2 (L.fwd R s.1 X) G) h0 hs1
    have h2 := hasDerivAt_inner (U.bwd R s.2.2 (L.fwd R s.1 X) G) hY
    have hp := h1.sub h2
    simp only [Pi.sub_def, add_sub_cancel_left] at hp
    have e0 : L.fwd R (D.line s.1 V 0) X = L.fwd R s.1 X := by rw [hD.line_zero]
    have h3 := hE.deriv R s.2.2 (fun i => V (D.ws.length + i)) (fun t => L.fwd R (D.line s.1 V t) X) _ G h0 (by rw [e0]; exact hs2)
      (by rw [hn]; exact hY)
    rw [e0, hn] at h3
    refine ((h3.add hp).congr_deriv ?_).congr_of_eventuallyEq (Filter.Eventually.of_forall fun t => ?_)
    swap
    · simp only [overDiff, overLaw, Pi.add_apply]
      show inner R u.neurons G _ + (_ + _) = _
      ring
    show _ = R * pairing (D.ws ++ E.ws) (glue D.ws.length _ _) V
    rw [pairing_glue]
    ring

end Nntl.Backprop
