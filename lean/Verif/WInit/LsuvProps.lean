import Verif.WInit.Lemmas
import Mathlib.Tactic.NormNum
/-! LSUV: what the returned flag says, what may happen to weights. -/
namespace Nntl.WInit
open Nntl.Kernel Nntl.Threads Nntl.Norm
variable {K : Type} [Field K] [LinearOrder K]

/-- The measurements of a layer see only its own rows. -/
structure Sees (N : Net K) (k : Nat) : Prop where
  neuron : ∀ ign ws w w' n, n < N.rows k → SameRow (N.rows k) (N.cols k) n w w' → N.measN ign (put ws k w) k n = N.measN ign (put ws k w') k n

/-- Where weights may come from: the old ones or those given by `reinit_weights`, rescaled. -/
def From (N : Net K) (k : Nat) (w w' : Nat → K) : Prop :=
  ∃ w0 a b, (w0 = w ∨ ∃ w1, N.reinit k w1 w0) ∧ Rescaled (N.rows k) (N.cols k) a b w0 w' ∧
    ((N.setts k).individual = false → ∀ r r', a r = a r' ∧ b r = b r')

theorem process_right {N : Net K} {k : Nat} (h0 : 0 < N.rows k) (h1 : 0 < N.cols k) (hex : (N.ex k).Ok) (hs : Sees N k) (hr : Requested N k) {act : K} {s : St K}
    {w : Nat → K} {r : Bool × (Nat → K)} (h : process N k act s w r) :
    (r.1 = true → if (N.setts k).individual then ∀ n < N.rows k, Acceptable (N.setts k).toSetts (N.measN s.ign (put s.ws k r.2) k n)
      else Acceptable (N.setts k).toSetts (N.meas s.ign (put s.ws k r.2) k)) ∧
    ∃ a b, Rescaled (N.rows k) (N.cols k) a b w r.2 ∧ ((N.setts k).individual = false → ∀ i j, a i = a j ∧ b i = b j) := by
  unfold process at h
  obtain ⟨_, h2, h3⟩ := hr
  rw [if_neg (by rcases h2 with h2 | h2 <;> simp [h2] <;> omega)] at h
  split at h
  · next hi =>
    have := cwTries_right h1 (N.setts k).toSetts act (fun w => N.measN s.ign (put s.ws k w) k) (fun w w' n hn hh => hs.neuron _ _ _ _ _ hn hh)
      (N.setts k).maxTries w (fun _ => false) (fun c _ hc => (by cases hc))
    rw [← h] at this
    rw [if_pos hi]
    refine ⟨this.accept, ?_⟩
    obtain ⟨a, b, hab⟩ := this.scaled
    exact ⟨a, b, hab, fun hf => by rw [hi] at hf; cases hf⟩
  · next hi =>
    have := wholeTries_right hex h0 h1 _ _ _ _ _ _ h
    rw [if_neg hi]
    refine ⟨this.accept, ?_⟩
    obtain ⟨a, b, hab⟩ := this.scaled
    exact ⟨_, _, hab, fun _ _ _ => ⟨rfl, rfl⟩⟩

theorem attempts_from {N : Net K} {k : Nat} (h0 : 0 < N.rows k) (h1 : 0 < N.cols k) (hex : (N.ex k).Ok) (hs : Sees N k) (hr : Requested N k) {act : K} {s : St K} :
    ∀ {n : Nat} {w : Nat → K} {r : Bool × (Nat → K)}, attempts N k act s n w r → From N k w r.2 := by
  intro n
  induction n with
  | zero =>
    intro w r h; rw [attempts] at h; subst h
    exact ⟨w, _, _, Or.inl rfl, Rescaled.refl _ _ _, fun _ _ _ => ⟨rfl, rfl⟩⟩
  | succ n ih =>
    intro w r h
    rw [attempts] at h
    obtain ⟨p, h2, h3⟩ := h
    obtain ⟨_, a, b, hab, hc⟩ := process_right h0 h1 hex hs hr h2
    split at h3
    · subst h3; exact ⟨w, a, b, Or.inl rfl, hab, hc⟩
    · obtain ⟨w1, h4, h5⟩ := h3
      obtain ⟨w0, a', b', h6, h7, h8⟩ := ih h5
      split at h4
      · refine ⟨w0, a', b', ?_, h7, h8⟩
        rcases h6 with rfl | h6
        · exact Or.inr ⟨_, h4⟩
        · exact Or.inr h6
      · subst h4
        rcases h6 with rfl | h6
        · refine ⟨w, _, _, Or.inl rfl, hab.trans h7, fun hi i j => ?_⟩
          have e1 := hc hi i j
          have e2 := h8 hi i j
          exact ⟨by rw [e1.1, e2.1], by rw [e1.2, e2.1, e2.2]⟩
        · exact ⟨w0, a', b', Or.inr h6, h7, h8⟩

/-- What the processing of one layer does. -/
structure LayerStep (N : Net K) (k : Nat) (s s' : St K) : Prop where
  ign : s'.ign = fun _ => false
  other : ∀ j, j ≠ k → s'.ws j = s.ws j
  skip : ¬ Requested N k → s' = s
  fail : s'.fail = s.fail ∨ (s.fail = 0 ∧ s'.fail = k ∧ Requested N k)
  accept : Requested N k → k ≠ 0 → s'.fail = 0 → LayerIs Acceptable N s'.ws k
  weights : Requested N k → From N k (s.ws k) (s'.ws k)

theorem only_eq (k : Nat) (b : Bool) : put (fun _ => false) k b = only k b := rfl

theorem processLayer_right {N : Net K} {k : Nat} (h0 : 0 < N.rows k) (h1 : 0 < N.cols k) (hex : (N.ex k).Ok) (hs : Sees N k) {s s' : St K}
    (hi : s.ign = fun _ => false) (h : processLayer N k s s') : LayerStep N k s s' := by
  have nothing : ¬ Requested N k → s' = s → LayerStep N k s s' := by
    intro hno e
    rw [e]
    exact ⟨hi, fun _ _ => rfl, fun _ => rfl, Or.inl rfl, fun hr => absurd hr hno, fun hr => absurd hr hno⟩
  unfold processLayer at h
  split at h
  · next hl =>
    simp only at h
    split at h
    · next hn =>
      refine nothing ?_ h
      rintro ⟨_, h2, h3⟩
      rcases h2 with h2 | h2 <;> simp [h2] at hn <;> omega
    · next hn =>
      have hr : Requested N k := by
        refine ⟨hl, ?_, ?_⟩
        · cases hc : (N.setts k).normCentral <;> cases hd : (N.setts k).normScale <;> simp_all
        · simp at hn; omega
      obtain ⟨r, h2, h3⟩ := h
      subst h3
      refine ⟨?_, fun j hj => put_ne _ _ hj, fun hn => absurd hr hn, ?_, fun _ hk hf => ?_, fun _ => ?_⟩
      · funext j
        by_cases hj : j = k
        · subst hj; simp [put]
        · simp [put, hj, hi]
      · simp only
        cases r.1
        · by_cases hz : s.fail = 0
          · exact Or.inr ⟨hz, by simp [hz], hr⟩
          · left; simp [hz]
        · left; simp
      · have hok : r.1 = true := by
          by_contra hc
          simp only [Bool.not_eq_true] at hc
          simp only [hc, Bool.false_eq_true, if_false] at hf
          split at hf
          · exact hk hf
          · next h => exact h hf
        obtain ⟨w0, h4⟩ := attempts_ok h2 hok
        have := (process_right h0 h1 hex hs hr h4).1 hok
        simp only [hi, only_eq] at this
        exact this
      · simp only [put_same]
        exact attempts_from h0 h1 hex hs hr h2
  · next hl => exact nothing (fun hr => hl hr.1) h

theorem layerIs_congr {N : Net K} {l l1 l2 : List Nat} {k : Nat} (hu : Upward N l) (hl : l = l1 ++ k :: l2) (hk : k ∉ l2) {P : Setts K → Meas K → Prop} {ws ws' : Nat → Nat → K}
    (h : ∀ j, j ∉ l2 → ws j = ws' j) (hp : LayerIs P N ws k) : LayerIs P N ws' k := by
  unfold LayerIs at hp ⊢
  split at hp
  · next hc =>
    rw [if_pos hc]
    intro n hn
    rw [← hu.neuron l1 k l2 hl _ ws ws' n hn (fun j hj _ => h j hj) (fun c _ => by rw [h k hk])]
    exact hp n hn
  · next hc => rw [if_neg hc, ← hu.layer l1 k l2 hl _ ws ws' h]; exact hp

structure Walked (N : Net K) (l : List Nat) (s s' : St K) : Prop where
  ign : s'.ign = fun _ => false
  other : ∀ j, j ∉ l ∨ ¬ Requested N j → s'.ws j = s.ws j
  weights : ∀ j ∈ l, Requested N j → From N j (s.ws j) (s'.ws j)
  good : s'.fail = 0 → s.fail = 0 ∧ ∀ k ∈ l, Requested N k → LayerIs Acceptable N s'.ws k
  bad : s.fail = 0 → s'.fail ≠ 0 → ∃ l1 l2, l = l1 ++ s'.fail :: l2 ∧ Requested N s'.fail ∧ ∀ k ∈ l1, Requested N k → LayerIs Acceptable N s'.ws k
  keep : s.fail ≠ 0 → s'.fail = s.fail

theorem sees_of {N : Net K} {l l1 l2 : List Nat} {k : Nat} (hu : Upward N l) (hl : l = l1 ++ k :: l2) : Sees N k := by
  refine ⟨fun ign ws w w' n hn h => hu.neuron l1 k l2 hl _ _ _ _ hn (fun j _ hj => by rw [put_ne _ _ hj, put_ne _ _ hj]) (fun c hc => ?_)⟩
  rw [put_same, put_same]; exact h c hc

theorem steps_right {N : Net K} : ∀ {l : List Nat}, Sane N l → Upward N l → ∀ {s s' : St K}, s.ign = (fun _ => false) → steps N l s s' → Walked N l s s' := by
  intro l
  induction l with
  | nil =>
    intro _ _ s s' hi h
    rw [steps] at h; subst h
    exact ⟨hi, fun _ _ => rfl, fun j hj => (by cases hj), fun h => ⟨h, fun j hj => (by cases hj)⟩, fun h h' => absurd h h', fun _ => rfl⟩
  | cons k l ih =>
    intro hs hu s s' hi h
    rw [steps] at h
    obtain ⟨s1, h2, h3⟩ := h
    have hkl := (List.nodup_cons.1 hs.nodup).1
    have hk0 : k ≠ 0 := fun h => hs.pos (by simp [h])
    have A := processLayer_right (hs.rows k (by simp)) (hs.cols k (by simp)) (hs.ex k) (sees_of hu (l1 := []) rfl) hi h2
    have B := ih ⟨fun j hj => hs.rows j (by simp [hj]), fun j hj => hs.cols j (by simp [hj]), (List.nodup_cons.1 hs.nodup).2,
        fun h => hs.pos (by simp [h]), hs.ex⟩
      ⟨fun l1 j l2 hl => hu.layer (k :: l1) j l2 (by rw [hl]; rfl), fun l1 j l2 hl => hu.neuron (k :: l1) j l2 (by rw [hl]; rfl)⟩ A.ign h3
    have hoff : ∀ j, j ∉ l → s1.ws j = s'.ws j := fun j hj => (B.other j (Or.inl hj)).symm
    have hkacc : Requested N k → s1.fail = 0 → LayerIs Acceptable N s'.ws k := fun hr hf =>
      layerIs_congr hu (l1 := []) rfl hkl hoff (A.accept hr hk0 hf)
    refine ⟨B.ign, fun j hj => ?_, fun j hj hr => ?_, fun hf => ?_, fun hz hf => ?_, fun hz => ?_⟩
    · have e1 : s'.ws j = s1.ws j := B.other j (by
        rcases hj with hj | hj
        · left; simp at hj; exact hj.2
        · exact Or.inr hj)
      rw [e1]
      by_cases hjk : j = k
      · subst hjk
        rcases hj with hj | hj
        · simp at hj
        · rw [A.skip hj]
      · exact A.other j hjk
    · rcases List.mem_cons.1 hj with rfl | hj
      · rw [← hoff j hkl]; exact A.weights hr
      · have hjk : j ≠ k := fun h => hkl (h ▸ hj)
        rw [← A.other j hjk]; exact B.weights j hj hr
    · obtain ⟨b1, b2⟩ := B.good hf
      refine ⟨?_, fun j hj hr => ?_⟩
      · rcases A.fail with e | e
        · rw [← e, b1]
        · exact e.1
      · rcases List.mem_cons.1 hj with rfl | hj
        · exact hkacc hr b1
        · exact b2 j hj hr
    · by_cases h1 : s1.fail = 0
      · obtain ⟨l1, l2, e1, e2, e3⟩ := B.bad h1 hf
        refine ⟨k :: l1, l2, by rw [List.cons_append, ← e1], e2, fun j hj hr => ?_⟩
        rcases List.mem_cons.1 hj with rfl | hj
        · exact hkacc hr h1
        · exact e3 j hj hr
      · have e := B.keep h1
        rcases A.fail with e1 | e1
        · exact absurd (e1.trans hz) h1
        · rw [e, e1.2.1]
          exact ⟨[], l, rfl, e1.2.2, fun j hj => (by cases hj)⟩
    · rcases A.fail with e | e
      · rw [B.keep (by rw [e]; exact hz), e]
      · exact absurd e.1 hz

theorem run_walked {N : Net K} {layers : List Tree} (hs : Sane N (orderAll layers)) (hu : Upward N (orderAll layers)) {samples : Nat} {s : St K} {r : Bool × St K}
    (hi : s.ign = fun _ => false) (h : run N layers samples s r) :
    (samples < 2 ∧ r.1 = false ∧ r.2 = { s with fail := 0 }) ∨
    (2 ≤ samples ∧ r.1 = decide (r.2.fail = 0) ∧ Walked N (orderAll layers) { s with fail := 0 } r.2) := by
  unfold run at h
  simp only at h
  split at h
  · next h2 => subst h; exact Or.inl ⟨h2, rfl, rfl⟩
  · next h2 =>
    obtain ⟨s1, h3, h4⟩ := h
    subst h4
    exact Or.inr ⟨by omega, rfl, steps_right hs hu hi ((walkAll_steps N _ _ _).1 h3)⟩

/-! ### C92 -/

/-- When `run` returns true, every layer the user asked to normalise has, in the network as it is left, statistics that the procedure regards as good: each of the
statistics asked for is within tolerance of its target, except a scale of exactly zero or a value that is not finite (that is what is missing). -/
theorem run_true_partial {N : Net K} {layers : List Tree} (hs : Sane N (orderAll layers)) (hu : Upward N (orderAll layers)) {samples : Nat} {s : St K} {r : Bool × St K}
    (hi : s.ign = fun _ => false) (h : run N layers samples s r) (hr : r.1 = true) (k : Nat) (hk : k ∈ orderAll layers) (hq : Requested N k) :
    LayerIs Acceptable N r.2.ws k := by
  rcases run_walked hs hu hi h with ⟨_, h2, _⟩ | ⟨_, h2, h3⟩
  · rw [hr] at h2; cases h2
  · rw [hr] at h2
    exact (h3.good (by simpa using h2.symm)).2 k hk hq

/-- The full property for the case when the statistics of the layer are finite and its activations are not all equal. -/
theorem run_true_good {N : Net K} {layers : List Tree} (hs : Sane N (orderAll layers)) (hu : Upward N (orderAll layers)) {samples : Nat} {s : St K} {r : Bool × St K}
    (hi : s.ign = fun _ => false) (h : run N layers samples s r) (hr : r.1 = true) (k : Nat) (hk : k ∈ orderAll layers) (hq : Requested N k)
    (hg : LayerIs (fun _ m => m.scaleGood = true ∧ m.centralGood = true ∧ m.special = false) N r.2.ws k) : LayerIs InTol N r.2.ws k := by
  have := run_true_partial hs hu hi h hr k hk hq
  unfold LayerIs at this hg ⊢
  split at this
  · next hc =>
    rw [if_pos hc] at hg ⊢
    intro n hn
    exact ⟨fun a => (this n hn).1 a (hg n hn).1 (hg n hn).2.2, fun a => (this n hn).2 a (hg n hn).2.1⟩
  · next hc =>
    rw [if_neg hc] at hg ⊢
    exact ⟨fun a => this.1 a hg.1 hg.2.2, fun a => this.2 a hg.2.1⟩

/-- When `run` returns false and there were enough samples, it names a layer the user asked to normalise, and all the layers processed before it are good. -/
theorem run_false_first {N : Net K} {layers : List Tree} (hs : Sane N (orderAll layers)) (hu : Upward N (orderAll layers)) {samples : Nat} {s : St K} {r : Bool × St K}
    (hi : s.ign = fun _ => false) (h : run N layers samples s r) (hn : 2 ≤ samples) (hr : r.1 = false) :
    ∃ l1 l2, orderAll layers = l1 ++ r.2.fail :: l2 ∧ Requested N r.2.fail ∧ ∀ k ∈ l1, Requested N k → LayerIs Acceptable N r.2.ws k := by
  rcases run_walked hs hu hi h with ⟨h1, _, _⟩ | ⟨_, h2, h3⟩
  · omega
  · rw [hr] at h2
    exact h3.bad rfl (by simpa using h2.symm)

/-- Too few samples: the answer is false and the network is as it was. -/
theorem run_small {N : Net K} {layers : List Tree} {samples : Nat} {s : St K} {r : Bool × St K} (h : run N layers samples s r) (hn : samples < 2) :
    r.1 = false ∧ r.2.ws = s.ws ∧ r.2.ign = s.ign := by
  unfold run at h
  simp only [hn, if_true] at h
  subst h
  exact ⟨rfl, rfl, rfl⟩

/-! ### C93 -/

/-- Whatever `run` returns, activation functions are switched on again. -/
theorem run_flags {N : Net K} {layers : List Tree} (hs : Sane N (orderAll layers)) (hu : Upward N (orderAll layers)) {samples : Nat} {s : St K} {r : Bool × St K}
    (hi : s.ign = fun _ => false) (h : run N layers samples s r) : r.2.ign = fun _ => false := by
  rcases run_walked hs hu hi h with ⟨_, _, e⟩ | ⟨_, _, h3⟩
  · rw [e]; exact hi
  · exact h3.ign

/-- Layers the user did not ask for keep their weights. -/
theorem run_untouched {N : Net K} {layers : List Tree} (hs : Sane N (orderAll layers)) (hu : Upward N (orderAll layers)) {samples : Nat} {s : St K} {r : Bool × St K}
    (hi : s.ign = fun _ => false) (h : run N layers samples s r) (k : Nat) (hk : k ∉ orderAll layers ∨ ¬ Requested N k) : r.2.ws k = s.ws k := by
  rcases run_walked hs hu hi h with ⟨_, _, e⟩ | ⟨_, _, h3⟩
  · rw [e]
  · exact h3.other k hk

/-- The weights of a normalised layer are its old weights, or weights its initialisation scheme made, with each neuron's weights multiplied by a number and something
added to its bias: directions of the weight vectors are those the scheme chose. Unless neurons are normalised individually both numbers are the same for all neurons. -/
theorem run_rescales {N : Net K} {layers : List Tree} (hs : Sane N (orderAll layers)) (hu : Upward N (orderAll layers)) {samples : Nat} {s : St K} {r : Bool × St K}
    (hi : s.ign = fun _ => false) (h : run N layers samples s r) (hn : 2 ≤ samples) (k : Nat) (hk : k ∈ orderAll layers) (hq : Requested N k) :
    ∃ w0 a b, (w0 = s.ws k ∨ ∃ w1, N.reinit k w1 w0) ∧ Rescaled (N.rows k) (N.cols k) a b w0 (r.2.ws k) ∧
      ((N.setts k).individual = false → ∀ i j, a i = a j ∧ b i = b j) := by
  rcases run_walked hs hu hi h with ⟨h1, _, _⟩ | ⟨_, _, h3⟩
  · omega
  · exact h3.weights k hk hq

end Nntl.WInit
