import Verif.WInit.Chain
import Mathlib.Tactic.Linarith
/-! LSUV on chains of fully connected layers: convergence, and what the returned flag does not say. -/
namespace Nntl.WInit
open Nntl.Kernel Nntl.Threads Nntl.Norm Finset

/-! ### C94 -/

/-- Settings under which LSUV over pre-activations has to succeed. -/
structure Reachable (s : LSetts ℝ) : Prop where
  pre : s.overPre = true
  aim : Aim s.toSetts
  tries : 3 ≤ s.maxTries
  attempts : 1 ≤ s.maxReinit

theorem chain_process (C : Chain) (h : C.Ok) {k : Nat} (hk : 1 ≤ k) (hr : Reachable (C.setts k)) {s : St ℝ} (hi : s.ign k = true) {w : Nat → ℝ}
    {r : Bool × (Nat → ℝ)} (hp : process C.net k 1 s w r) : r.1 = true := by
  unfold process at hp
  simp only at hp
  split at hp
  · rw [hp]
  · split at hp
    · rw [hp]
      exact cw_three (Nat.succ_pos _) hr.aim (chain_rows C h s.ign s.ws hk hi) hr.tries _ _
    · exact whole_three (h.ex k) (h.size k) (Nat.succ_pos _) hr.aim (chain_whole C h s.ign s.ws hk hi) hr.tries hp

theorem chain_layer (C : Chain) (h : C.Ok) {k : Nat} (hk : 1 ≤ k) (hr : Requested C.net k → Reachable (C.setts k)) {s s' : St ℝ} (hz : s.fail = 0)
    (hp : processLayer C.net k s s') : s'.fail = 0 ∧ ∃ a b, Rescaled (C.size k) (C.size (k - 1) + 1) a b (s.ws k) (s'.ws k) := by
  unfold processLayer at hp
  simp only at hp
  split at hp
  · next hl =>
    split at hp
    · rw [hp]; exact ⟨hz, _, _, Rescaled.refl _ _ _⟩
    · next hn =>
      have hq : Requested C.net k := by
        refine ⟨hl, ?_, ?_⟩
        · cases hc : (C.net.setts k).normCentral <;> cases hd : (C.net.setts k).normScale <;> simp_all
        · simp at hn; omega
      have hr := hr hq
      obtain ⟨r, h2, h3⟩ := hp
      have hpre : (C.net.setts k).overPre = true := hr.pre
      rw [hpre] at h2
      simp only [if_true] at h2
      obtain ⟨n, hn'⟩ : ∃ n, (C.net.setts k).maxReinit = n + 1 := ⟨(C.setts k).maxReinit - 1, by have := hr.attempts; show (C.setts k).maxReinit = _; omega⟩
      rw [hn', attempts] at h2
      obtain ⟨p, h4, h5⟩ := h2
      have hok := chain_process C h hk hr (by simp [put]) h4
      rw [if_pos hok] at h5
      subst h5
      have hres := (process_right (h.size k) (Nat.succ_pos _) (h.ex k)
        ⟨fun ign ws w w' n hn hh => by
          have e : ∀ b, C.out ign (put ws k w) k b n = C.out ign (put ws k w') k b n := fun b => by
            obtain ⟨k, rfl⟩ : ∃ j, k = j + 1 := ⟨k - 1, by omega⟩
            have lower : ∀ b i, C.out ign (put ws (k + 1) w) k b i = C.out ign (put ws (k + 1) w') k b i :=
              out_congr C ign k (fun j _ hj => by rw [put_ne _ _ (by omega), put_ne _ _ (by omega)])
            simp only [Chain.out, lower, put_same]
            have hh : ∀ c < C.size k + 1, w (n + C.size (k + 1) * c) = w' (n + C.size (k + 1) * c) := hh
            rw [hh (C.size k) (by omega), sum_congr rfl fun j hj => by rw [hh j (by have := mem_range.1 hj; omega)]]
          show measOf (C.valuesN ign (put ws k w) k n) = measOf (C.valuesN ign (put ws k w') k n)
          unfold Chain.valuesN
          simp only [e]⟩ hq h4).2
      subst h3
      refine ⟨by simp [hok, hz], ?_⟩
      obtain ⟨a, b, hab, _⟩ := hres
      refine ⟨a, b, ?_⟩
      simp only [put_same]
      exact hab
  · rw [hp]; exact ⟨hz, _, _, Rescaled.refl _ _ _⟩

theorem chain_steps (C : Chain) (h : C.Ok) : ∀ (l : List Nat), (∀ k ∈ l, 1 ≤ k ∧ (Requested C.net k → Reachable (C.setts k))) → ∀ {s s' : St ℝ}, s.fail = 0 →
    steps C.net l s s' → s'.fail = 0 := by
  intro l
  induction l with
  | nil => intro _ s s' hz hs; rw [steps] at hs; rw [hs]; exact hz
  | cons k l ih =>
    intro hl s s' hz hs
    rw [steps] at hs
    obtain ⟨s1, h1, h2⟩ := hs
    exact ih (fun j hj => hl j (by simp [hj])) (chain_layer C h (hl k (by simp)).1 (hl k (by simp)).2 hz h1).1 h2

/-- On a chain of fully connected layers, normalisation over pre-activations with positive tolerances and a positive target scale succeeds within three tries per
layer, from any weights, for any data and activation functions. -/
theorem lsuv_converges (C : Chain) (h : C.Ok) (hr : ∀ k, 1 ≤ k → k ≤ C.len → Requested C.net k → Reachable (C.setts k)) (s : St ℝ) (r : Bool × St ℝ)
    (hrun : run C.net C.layers C.samples s r) : r.1 = true := by
  unfold run at hrun
  have := h.samples
  rw [if_neg (by omega)] at hrun
  obtain ⟨s1, h1, h2⟩ := hrun
  have := chain_steps C h _ (fun k hk => by
    rw [chain_order, List.mem_range'_1] at hk
    exact ⟨hk.1, hr k hk.1 (by omega)⟩) rfl ((walkAll_steps _ _ _ _).1 h1)
  rw [h2]
  simp [this]

/-- Then the central values are within tolerance and so are the scales, except those of layers (neurons) whose pre-activations are all equal, and no weights were
thrown away: there always is such a result. -/
theorem lsuv_reaches (C : Chain) (h : C.Ok) (hr : ∀ k, 1 ≤ k → k ≤ C.len → Requested C.net k → Reachable (C.setts k)) (s : St ℝ) (hi : s.ign = fun _ => false) :
    ∃ r, run C.net C.layers C.samples s r ∧ r.1 = true ∧ ∀ k, 1 ≤ k → k ≤ C.len → Requested C.net k →
      LayerIs (fun st m => (st.normScale = true → m.scale = 0 ∨ |m.scale - st.targetScale| < st.scaleTol) ∧
        (st.normCentral = true → |m.central - st.targetCentral| < st.centralTol)) C.net r.2.ws k := by
  obtain ⟨r, hrun⟩ := run_total C.net h.reinit C.layers C.samples s
  refine ⟨r, hrun, lsuv_converges C h hr s r hrun, fun k h1 h2 hq => ?_⟩
  have acc := run_true_partial (chain_sane C h) (chain_upward C) hi hrun (lsuv_converges C h hr s r hrun) k
    (by rw [chain_order, List.mem_range'_1]; omega) hq
  have key : ∀ (st : Setts ℝ) (l : List ℝ), Acceptable st (measOf l) →
      (st.normScale = true → (measOf l).scale = 0 ∨ |(measOf l).scale - st.targetScale| < st.scaleTol) ∧
        (st.normCentral = true → |(measOf l).central - st.targetCentral| < st.centralTol) := by
    intro st l ha
    refine ⟨fun hn => ?_, fun hn => ha.2 hn rfl⟩
    by_cases hz : (measOf l).scale = 0
    · exact Or.inl hz
    · exact Or.inr (ha.1 hn rfl (by simpa [measOf] using hz))
  unfold LayerIs at acc ⊢
  split at acc
  · next hc => rw [if_pos hc]; exact fun n hn => key _ _ (acc n hn)
  · next hc => rw [if_neg hc]; exact key _ _ acc

/-! ### What is missing in C92 -/

/-- One layer of one neuron over the two samples `0` and `1`; only the scale is normalised, to 1, with the default tolerance. -/
noncomputable def tiny (overPre central : Bool) (tc : ℝ) (tries : Nat) : Chain where
  len := 1
  samples := 2
  size _ := 1
  X b _ := if b = 1 then 1 else 0
  act _ v := max v 0
  actSc _ := 1
  learnable _ := true
  setts _ := { targetScale := 1, targetCentral := tc, scaleTol := 1 / 100, centralTol := 1 / 100, maxTries := tries, normScale := true, normCentral := central,
               badBreak := true, maxReinit := 5, individual := false, overPre := overPre }
  reinit _ w w' := w' = w
  ex _ := .st

theorem tiny_ok (o c tc t) : (tiny o c tc t).Ok := ⟨le_rfl, fun _ => one_pos, fun _ => trivial, fun _ w => ⟨w, rfl⟩⟩

theorem tiny_values (o c tc t) (ign ws) : (tiny o c tc t).values ign ws 1 =
    [if ign 1 then ws 1 1 else max (ws 1 1) 0, if ign 1 then ws 1 0 + ws 1 1 else max (ws 1 0 + ws 1 1) 0] := by
  unfold Chain.values
  simp [tiny, Chain.out, List.range_succ]

/-- A layer whose activations are all equal (a dead layer of rectifiers, for example) has the scale zero, which cannot be mended; it is reported as normalised:
`run` returns true although the scale is not within tolerance. -/
theorem dead_layer_accepted : ∃ (C : Chain) (_ : C.Ok) (s : St ℝ) (r : Bool × St ℝ), (s.ign = fun _ => false) ∧ run C.net C.layers C.samples s r ∧ r.1 = true ∧
    1 ∈ orderAll C.layers ∧ Requested C.net 1 ∧ ¬ LayerIs InTol C.net r.2.ws 1 := by
  obtain ⟨r, hr⟩ := run_total (tiny false false 0 20).net (tiny_ok false false 0 20).reinit (tiny false false 0 20).layers 2
    ⟨fun _ k => if k = 1 then -2 else 1, fun _ => false, 0⟩
  refine ⟨tiny false false 0 20, tiny_ok _ _ _ _, _, r, rfl, hr, ?_⟩
  -- the layer is dead
  have dead : ∀ ign ws, (ign 1 = false) → ws 1 1 = -2 → ws 1 0 = 1 → std ((tiny false false 0 20).values ign ws 1) = 0 := by
    intro ign ws h0 h1 h2
    rw [tiny_values, h0, h1, h2]
    norm_num [std, mean]
  have hst : r = (true, ⟨fun _ k => if k = 1 then -2 else 1, fun _ => false, 0⟩) := by
    unfold run at hr
    simp only [show ¬ (2 : Nat) < 2 by omega, if_false] at hr
    obtain ⟨s1, h1, h2⟩ := hr
    rw [walkAll_steps, chain_order] at h1
    have e : List.range' 1 (tiny false false 0 20).len = [1] := rfl
    rw [e] at h1
    obtain ⟨s2, h3, h4⟩ := h1
    rw [steps] at h4
    subst h4
    unfold processLayer at h3
    simp only [show (tiny false false 0 20).net.learnable 1 = true from rfl, if_true] at h3
    rw [if_neg (by simp [tiny, Chain.net])] at h3
    obtain ⟨q, h5, h6⟩ := h3
    rw [show ((tiny false false 0 20).net.setts 1).maxReinit = 4 + 1 from rfl, attempts] at h5
    obtain ⟨p, h7, h8⟩ := h5
    have hm : ∀ w : Nat → ℝ, w 1 = -2 → w 0 = 1 → ((tiny false false 0 20).net.meas (put (fun _ => false) 1 false)
        (put (fun _ k => if k = 1 then -2 else 1) 1 w) 1).special = true := by
      intro w e1 e2
      show decide (std ((tiny false false 0 20).values _ _ 1) = 0) = true
      rw [decide_eq_true_eq]
      exact dead _ _ (by simp [put]) (by simpa [put] using e1) (by simpa [put] using e2)
    unfold process at h7
    rw [if_neg (by simp [tiny, Chain.net]), if_neg (by simp [tiny, Chain.net])] at h7
    rw [show ((tiny false false 0 20).net.setts 1).toSetts.maxTries = 19 + 1 from rfl, wholeTries] at h7
    have hS := hm (fun k => if k = 1 then -2 else 1) (by norm_num) (by norm_num)
    have hd : doScale ((tiny false false 0 20).net.setts 1).toSetts ((tiny false false 0 20).net.meas (put (fun _ => false) 1 false)
        (put (fun _ k => if k = 1 then -2 else 1) 1 (fun k => if k = 1 then -2 else 1)) 1) = false := by
      unfold doScale; rw [hS]; simp
    have hc : doCentral ((tiny false false 0 20).net.setts 1).toSetts ((tiny false false 0 20).net.meas (put (fun _ => false) 1 false)
        (put (fun _ k => if k = 1 then -2 else 1) 1 (fun k => if k = 1 then -2 else 1)) 1) = false := by
      unfold doCentral; simp [tiny, Chain.net]
    simp only [show ((tiny false false 0 20).net.setts 1).overPre = false from rfl] at h7
    rw [if_neg (by simp [Chain.net, measOf])] at h7
    obtain ⟨w1, h9, h10⟩ := h7
    rw [hd, hc] at h9 h10
    simp only [Bool.or_self, Bool.false_eq_true, if_false, Bool.not_false, Bool.true_or, Bool.and_self, if_true] at h9 h10
    subst h9
    subst h10
    simp only [if_true] at h8
    subst h8
    subst h6
    rw [h2]
    refine Prod.ext (by simp) ?_
    simp only [if_true, St.mk.injEq, and_true]
    constructor
    · funext j k
      by_cases hj : j = 1 <;> simp [put, hj]
    · funext j
      by_cases hj : j = 1 <;> simp [put, hj]
  subst hst
  refine ⟨rfl, by rw [chain_order]; simp [tiny], ⟨rfl, Or.inr rfl, by simp [Chain.net, tiny]⟩, ?_⟩
  unfold LayerIs
  rw [if_neg (by simp [tiny, Chain.net])]
  rintro ⟨h, _⟩
  have := h rfl
  have hz : ((tiny false false 0 20).net.meas (only 1 ((tiny false false 0 20).net.setts 1).overPre) (fun _ k => if k = 1 then -2 else 1) 1).scale = 0 :=
    dead _ _ rfl (by norm_num) (by norm_num)
  rw [hz] at this
  norm_num [tiny, Chain.net] at this

end Nntl.WInit
