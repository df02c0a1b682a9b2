import Verif.Pass.LexModel
import Verif.Pass.Lemmas
/-! Wrapped layers are lawful. -/
namespace Nntl.Pass
variable {α : Type}

theorem addAll_ok {R n : Nat} (h0 : 0 < R) {kept : Nat → Mat α} {O : Mem α} {Y : Mat α} (hO : Shows R n O Y) : (as : List (Addend α)) → (i : Nat) →
    (∀ a ∈ as, a.Ok) → (∀ j a, as[j]? = some a → a.onFprop = true → ∀ r < R, ∀ c < n, kept (i + j) r c = a.term R n Y r c) →
    (D : Mem α) → (G : Mat α) → Shows R n D G →
    Shows R n (addAll R n kept O as i D) (fun r c => as.foldl (fun d a => a.app d (a.term R n Y r c)) (G r c)) ∧ SameFrom (R * n) D (addAll R n kept O as i D)
  | [], _, _, _, _, _, hD => ⟨hD, SameFrom.refl _ _⟩
  | a :: as, i, ha, hk, D, G, hD => by
    have hx : ∀ r < R, ∀ c < n, (if a.onFprop then kept i else a.term R n (matOf R O)) r c = a.term R n Y r c := by
      intro r hr c hc
      by_cases h : a.onFprop = true
      · rw [if_pos h]; exact hk 0 a rfl h r hr c hc
      · rw [if_neg h]
        exact ha a List.mem_cons_self R n _ _ (fun r hr c hc => hO r hr c hc) r hr c hc
    have hS : Shows R n (copy (R * n) D fun p => a.app (D p) ((if a.onFprop then kept i else a.term R n (matOf R O)) (p % R) (p / R)))
        (fun r c => a.app (G r c) (a.term R n Y r c)) := by
      intro r hr c hc
      simp only [copy, if_pos (idx_lt hr hc)]
      rw [show (r + R * c) % R = r by rw [Nat.add_mul_mod_self_left, Nat.mod_eq_of_lt hr],
        show (r + R * c) / R = c by rw [Nat.add_mul_div_left _ _ h0, Nat.div_eq_of_lt hr, Nat.zero_add], hx r hr c hc, hD r hr c hc]
    obtain ⟨h1, h2⟩ := addAll_ok h0 hO as (i + 1) (fun b hb => ha b (List.mem_cons_of_mem _ hb))
      (fun j b hb => by rw [show i + 1 + j = i + (j + 1) by omega]; exact hk (j + 1) b hb) _ _ hS
    exact ⟨h1, (copy_sameFrom _ _ _).trans h2 (Nat.le_refl _) (Nat.le_refl _)⟩

/-- A wrapped layer does what it is meant to do, if the layer itself does. `hc`: the layer has announced gradients of the size of its activations. -/
theorem lex_lawful [One α] {N NT : Nat} (x : LexCfg α) {o : Obj α} {L : Law o} (h : Lawful N NT o L) (hc : NT * o.neurons ≤ o.cap)
    (hg : x.gate ≤ o.neurons) (ha : ∀ a ∈ x.adds, a.Ok) : Lawful N NT (lex x o) (lexLaw x L) where
  mode_ok := fun b b' R s hs => ⟨h.mode_ok b b' R s.1 hs.1, rfl⟩
  resize_ok := fun b R0 R s hR hs => ⟨h.resize_ok b R0 R s.1 hR hs.1, hs.2⟩
  fprop_ok := by
    rintro b R ⟨s, k⟩ A T O X h0 hR ⟨hi, hb⟩ hX hB
    obtain ⟨a1, a2, a3, a4, a5, a6⟩ := h.fprop_ok b R s A T O X h0 hR hi hX hB
    simp only at hb
    subst hb
    simp only [lex, lexLaw]
    generalize o.fprop R s A T O = y at *
    have hkeep : ∀ i a, x.adds[i]? = some a → a.onFprop = true → ∀ r < R, ∀ c < o.neurons - x.gate,
        keepAll R (o.neurons - x.gate) (shift (R * x.gate) y.O) x.adds k.kept i r c =
          a.term R (o.neurons - x.gate) (colsFrom x.gate (L.fwd R y.s X)) r c := by
      intro i a hi ho r hr c hc
      simp only [keepAll, hi, ho, if_true]
      refine ha a (List.mem_of_getElem? hi) R _ _ _ (fun r hr c hc => ?_) r hr c hc
      exact a6.shift (ofs := x.gate) (cnt := o.neurons - x.gate) (by omega) r hr c hc
    cases hd : x.drop with
    | none =>
      cases hk : k.training with
      | true =>
        rw [hk] at a4
        simp only [if_true]
        exact ⟨a1, a2, a3, ⟨a4, trivial⟩, ⟨a5, fun _ => hkeep, fun cell hcell => by simp [LexCfg.active, hd] at hcell⟩,
          by simpa [LexCfg.dropped, LexCfg.active, hd] using a6⟩
      | false =>
        rw [hk] at a4
        simp only [Bool.false_eq_true, if_false]
        exact ⟨a1, a2, a3, ⟨a4, hk⟩, ⟨a5, fun ht => by simp [hk] at ht, fun cell hcell => by simp [LexCfg.active, hd] at hcell⟩,
          by simpa [LexCfg.dropped, LexCfg.active, hd] using a6⟩
    | some cell =>
      cases hk : k.training with
      | true =>
        rw [hk] at a4
        simp only [if_true]
        refine ⟨a1, a2, a3.trans (copy_sameFrom _ _ _) (Nat.le_refl _) (Nat.le_refl _), ⟨a4, trivial⟩, ⟨a5, fun _ => hkeep, ?_⟩, ?_⟩
        · intro cell' hcell
          have : cell' = cell := by simpa [LexCfg.active, hd, hk] using hcell.symm
          subst this
          refine ⟨a6.congr fun p hp => by simp only [copy, if_pos hp], fun r hr c hc => ?_⟩
          simp only [copy, if_pos (idx_lt hr hc), LexCfg.last, Nat.add_sub_cancel]
          rw [a6 r hr c hc]
        · intro r hr c hc
          simp only [copy, if_pos (idx_lt hr hc), LexCfg.dropped, LexCfg.active, hk, if_true, hd, LexCfg.last, Nat.add_sub_cancel]
          rw [a6 r hr c hc]
      | false =>
        rw [hk] at a4
        simp only [Bool.false_eq_true, if_false]
        refine ⟨a1, a2, a3, ⟨a4, hk⟩, ⟨a5, fun ht => by simp [hk] at ht, fun cell' hcell => by simp [LexCfg.active, hk] at hcell⟩, ?_⟩
        simpa [LexCfg.dropped, LexCfg.active, hk] using a6
  bprop_ok := by
    rintro R need ⟨s, k⟩ A T O D P X G h0 hR ⟨hi, hb⟩ ⟨r1, r2, r3⟩ hX hB hO hD
    simp only at hb
    have r2 := r2 hb
    -- the activations and the gradient before the addendums
    obtain ⟨O1, hO1, hO1s, hO1e⟩ : ∃ O1, (if x.drop.isSome then copy (R * o.neurons) O k.orig else O) = O1 ∧
        Shows R o.neurons O1 (L.fwd R s X) ∧ SameFrom (R * o.neurons) O O1 := by
      refine ⟨_, rfl, ?_⟩
      cases hd : x.drop with
      | none =>
        have hO : Shows R o.neurons O (x.dropped k R (L.fwd R s X)) := hO
        simp only [LexCfg.dropped, LexCfg.active, hd, ite_self] at hO
        exact ⟨hO, SameFrom.refl _ _⟩
      | some cell =>
        have := (r3 cell (by simp only [LexCfg.active, hb, if_true, hd])).1
        simp only [Option.isSome_some, if_true]
        exact ⟨this.congr fun p hp => by simp only [copy, if_pos hp], copy_sameFrom _ _ _⟩
    obtain ⟨D1, hD1, hD1s, hD1e⟩ : ∃ D1, (if x.drop.isSome then copy (R * o.neurons) D fun p => x.mul (D p) (k.mask p) else D) = D1 ∧
        Shows R o.neurons D1 (x.masked k R (L.fwd R s X) G) ∧ SameFrom (R * o.neurons) D D1 := by
      refine ⟨_, rfl, ?_⟩
      cases hd : x.drop with
      | none =>
        simp only [LexCfg.masked, LexCfg.active, hd, ite_self]
        exact ⟨hD, SameFrom.refl _ _⟩
      | some cell =>
        have := (r3 cell (by simp only [LexCfg.active, hb, if_true, hd])).2
        have hm : Shows R o.neurons k.mask _ := this
        simp only [Option.isSome_some, if_true]
        refine ⟨fun r hr c hc => ?_, copy_sameFrom _ _ _⟩
        simp only [copy, if_pos (idx_lt hr hc), LexCfg.masked, LexCfg.active, hb, if_true, hd]
        rw [hm r hr c hc, hD r hr c hc]
    obtain ⟨g1, g2⟩ := addAll_ok (n := o.neurons - x.gate) h0 (hO1s.shift (ofs := x.gate) (cnt := o.neurons - x.gate) (by omega)) x.adds 0 ha
      (fun j a hj ho r hr c hc => by rw [Nat.zero_add]; exact r2 j a hj ho r hr c hc) _ _
      (hD1s.shift (ofs := x.gate) (cnt := o.neurons - x.gate) (by omega)) (kept := k.kept)
    obtain ⟨D2, hD2⟩ : ∃ D2, unshift (R * x.gate) D1 (addAll R (o.neurons - x.gate) k.kept (shift (R * x.gate) O1) x.adds 0 (shift (R * x.gate) D1)) = D2 :=
      ⟨_, rfl⟩
    have e2 : SameFrom (R * o.neurons) D1 D2 := by
      rw [← hD2]
      exact g2.unshift (by rw [← Nat.mul_add, Nat.add_sub_cancel' hg])
    have s2 : Shows R o.neurons D2 (x.down k R o.neurons (L.fwd R s X) G) := by
      intro r hr c hc
      simp only [← hD2, unshift, LexCfg.down, LexCfg.penalised]
      by_cases hcg : c < x.gate
      · rw [if_pos (idx_lt hr hcg), if_pos hcg]
        exact hD1s r hr c hc
      · rw [if_neg (Nat.not_lt.2 (idx_ge (by omega))), if_neg hcg]
        have := g1 r hr (c - x.gate) (by omega)
        rw [show r + R * c - R * x.gate = r + R * (c - x.gate) by
          obtain ⟨d, rfl⟩ := Nat.exists_eq_add_of_le (Nat.not_lt.1 hcg)
          rw [Nat.add_sub_cancel_left, Nat.mul_add]; omega, this]
        simp only [colsFrom]
        rw [show x.gate + (c - x.gate) = c by omega]
    obtain ⟨b1, b2, b3, b4, b5, b6, b7, b8⟩ := h.bprop_ok R need s A T O1 D2 P X _ h0 hR hi r1 hX hB hO1s s2
    have hlim : R * o.neurons ≤ max o.cap (R * o.inc) := by
      have := Nat.mul_le_mul_right o.neurons hR; omega
    simp only [lex, lexLaw]
    rw [hO1, hD1, hD2]
    exact ⟨b1, b2, hO1e.trans b3 (Nat.le_refl _) (Nat.le_refl _), (hD1e.trans e2 (Nat.le_refl _) (Nat.le_refl _)).trans b4 hlim (Nat.le_refl _), b5,
      ⟨b6, hb⟩, ⟨b7, trivial⟩, b8⟩

end Nntl.Pass
