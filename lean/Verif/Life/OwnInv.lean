import Verif.Life.Own
/-! Ownership as an invariant, for each kind of objects separately. -/
namespace Nntl.Life

abbrev Objs := Nat → Option (Bool × Option Nat)
abbrev Owners := Nat → Option (Bool × Option (Option Nat))

/-- `f`: the objects of one kind (alive, made by), `g`: networks (alive, the object of this kind it owns). -/
structure KInv (f : Objs) (g : Owners) (cnt nN : Nat) (del : Nat → Prop) : Prop where
  fresh : ∀ i, cnt ≤ i → f i = none
  freshN : ∀ n, nN ≤ n → g n = none
  undel : ∀ i, cnt ≤ i → ¬del i
  owner : ∀ n a i, g n = some (a, some (some i)) → ∃ b, f i = some (b, some n)
  made : ∀ i b n, f i = some (b, some n) → ∃ a, g n = some (a, some (some i))
  rights : ∀ i b o, f i = some (b, o) → (b = true ↔ ¬del i ∧ ∀ n, o = some n → ∃ q, g n = some (true, q))

theorem KInv.congr {f g cnt nN} {del del' : Nat → Prop} (h : KInv f g cnt nN del) (hd : ∀ i, del' i ↔ del i) : KInv f g cnt nN del' := by
  have : del' = del := funext fun i => propext (hd i)
  rw [this]; exact h

theorem KInv.addUser {f g cnt nN del} (h : KInv f g cnt nN del) : KInv (put f cnt (true, none)) g (cnt + 1) nN del where
  fresh := fun i hi => by rw [put_ne _ _ (by omega)]; exact h.fresh i (by omega)
  freshN := h.freshN
  undel := fun i hi => h.undel i (by omega)
  owner := fun n a i hg => by
    obtain ⟨b, hb⟩ := h.owner n a i hg
    have : i ≠ cnt := fun e => by rw [e, h.fresh cnt (Nat.le_refl _)] at hb; cases hb
    exact ⟨b, by rw [put_ne _ _ this]; exact hb⟩
  made := fun i b n hf => by
    by_cases hi : i = cnt
    · subst hi; rw [put_self] at hf; cases hf
    · rw [put_ne _ _ hi] at hf; exact h.made i b n hf
  rights := fun i b o hf => by
    by_cases hi : i = cnt
    · subst hi; rw [put_self] at hf; cases hf
      exact ⟨fun _ => ⟨h.undel i (Nat.le_refl _), fun n hn => by cases hn⟩, fun _ => rfl⟩
    · rw [put_ne _ _ hi] at hf; exact h.rights i b o hf

theorem KInv.addNet {f g cnt nN del} (h : KInv f g cnt nN del) (q : Option (Option Nat)) (hq : ∀ i, q ≠ some (some i)) :
    KInv f (put g nN (true, q)) cnt (nN + 1) del where
  fresh := h.fresh
  freshN := fun n hn => by rw [put_ne _ _ (by omega)]; exact h.freshN n (by omega)
  undel := h.undel
  owner := fun n a i hg => by
    by_cases hn : n = nN
    · subst hn; rw [put_self] at hg; cases hg; exact absurd rfl (hq i)
    · rw [put_ne _ _ hn] at hg; exact h.owner n a i hg
  made := fun i b n hf => by
    obtain ⟨a, ha⟩ := h.made i b n hf
    have : n ≠ nN := fun e => by rw [e, h.freshN nN (Nat.le_refl _)] at ha; cases ha
    exact ⟨a, by rw [put_ne _ _ this]; exact ha⟩
  rights := fun i b o hf => by
    rw [h.rights i b o hf]
    refine and_congr Iff.rfl (forall_congr' fun n => ⟨fun k e => ?_, fun k e => ?_⟩)
    · obtain ⟨q', h'⟩ := k e
      have : n ≠ nN := fun e => by rw [e, h.freshN nN (Nat.le_refl _)] at h'; cases h'
      exact ⟨q', by rw [put_ne _ _ this]; exact h'⟩
    · obtain ⟨q', h'⟩ := k e
      have : n ≠ nN := fun e' => by
        subst e; subst e'
        obtain ⟨a, ha⟩ := h.made i b _ hf
        rw [h.freshN _ (Nat.le_refl _)] at ha; cases ha
      exact ⟨q', by rw [put_ne _ _ this] at h'; exact h'⟩

theorem KInv.addOwn {f g cnt nN del} (h : KInv f g cnt nN del) :
    KInv (put f cnt (true, some nN)) (put g nN (true, some (some cnt))) (cnt + 1) (nN + 1) del where
  fresh := fun i hi => by rw [put_ne _ _ (by omega)]; exact h.fresh i (by omega)
  freshN := fun n hn => by rw [put_ne _ _ (by omega)]; exact h.freshN n (by omega)
  undel := fun i hi => h.undel i (by omega)
  owner := fun n a i hg => by
    by_cases hn : n = nN
    · subst hn; rw [put_self] at hg; cases hg; exact ⟨true, put_self _ _ _⟩
    · rw [put_ne _ _ hn] at hg
      obtain ⟨b, hb⟩ := h.owner n a i hg
      have : i ≠ cnt := fun e => by rw [e, h.fresh cnt (Nat.le_refl _)] at hb; cases hb
      exact ⟨b, by rw [put_ne _ _ this]; exact hb⟩
  made := fun i b n hf => by
    by_cases hi : i = cnt
    · subst hi; rw [put_self] at hf; cases hf; exact ⟨true, put_self _ _ _⟩
    · rw [put_ne _ _ hi] at hf
      obtain ⟨a, ha⟩ := h.made i b n hf
      have : n ≠ nN := fun e => by rw [e, h.freshN nN (Nat.le_refl _)] at ha; cases ha
      exact ⟨a, by rw [put_ne _ _ this]; exact ha⟩
  rights := fun i b o hf => by
    by_cases hi : i = cnt
    · subst hi; rw [put_self] at hf; cases hf
      exact ⟨fun _ => ⟨h.undel i (Nat.le_refl _), fun n hn => by cases hn; exact ⟨_, put_self _ _ _⟩⟩, fun _ => rfl⟩
    · rw [put_ne _ _ hi] at hf
      rw [h.rights i b o hf]
      refine and_congr Iff.rfl (forall_congr' fun n => ⟨fun k e => ?_, fun k e => ?_⟩)
      · obtain ⟨q', h'⟩ := k e
        have : n ≠ nN := fun e => by rw [e, h.freshN nN (Nat.le_refl _)] at h'; cases h'
        exact ⟨q', by rw [put_ne _ _ this]; exact h'⟩
      · obtain ⟨q', h'⟩ := k e
        have : n ≠ nN := fun e' => by
          subst e; subst e'
          obtain ⟨a, ha⟩ := h.made i b _ hf
          rw [h.freshN _ (Nat.le_refl _)] at ha; cases ha
        exact ⟨q', by rw [put_ne _ _ this] at h'; exact h'⟩

theorem KInv.userDel {f g cnt nN del} (h : KInv f g cnt nN del) {i : Nat} {o : Option Nat} (hi : f i = some (true, o)) :
    KInv (put f i (false, o)) g cnt nN (fun j => j = i ∨ del j) where
  fresh := fun j hj => by
    have : j ≠ i := fun e => by rw [e] at hj; rw [h.fresh i hj] at hi; cases hi
    rw [put_ne _ _ this]; exact h.fresh j hj
  freshN := h.freshN
  undel := fun j hj hd => by
    rcases hd with e | hd
    · rw [e] at hj; rw [h.fresh i hj] at hi; cases hi
    · exact h.undel j hj hd
  owner := fun n a j hg => by
    obtain ⟨b, hb⟩ := h.owner n a j hg
    by_cases hj : j = i
    · subst hj; rw [hi] at hb; cases hb; exact ⟨false, put_self _ _ _⟩
    · exact ⟨b, by rw [put_ne _ _ hj]; exact hb⟩
  made := fun j b n hf => by
    by_cases hj : j = i
    · subst hj; rw [put_self] at hf; cases hf; exact h.made j _ n hi
    · rw [put_ne _ _ hj] at hf; exact h.made j b n hf
  rights := fun j b o' hf => by
    by_cases hj : j = i
    · subst hj; rw [put_self] at hf; cases hf
      exact ⟨fun e => (by cases e), fun k => absurd (Or.inl rfl) k.1⟩
    · rw [put_ne _ _ hj] at hf
      rw [h.rights j b o' hf]
      refine and_congr (not_congr ⟨Or.inr, fun k => k.resolve_left hj⟩) Iff.rfl

/-- A network is destroyed that owns no object of this kind. -/
theorem KInv.dropNet {f g cnt nN del} (h : KInv f g cnt nN del) {n : Nat} {q : Option (Option Nat)} (hn : g n = some (true, q))
    (hq : ∀ i, q ≠ some (some i)) : KInv f (put g n (false, q)) cnt nN del where
  fresh := h.fresh
  freshN := fun k hk => by
    have : k ≠ n := fun e => by rw [e] at hk; rw [h.freshN n hk] at hn; cases hn
    rw [put_ne _ _ this]; exact h.freshN k hk
  undel := h.undel
  owner := fun k a i hg => by
    by_cases hk : k = n
    · subst hk; rw [put_self] at hg; cases hg; exact absurd rfl (hq i)
    · rw [put_ne _ _ hk] at hg; exact h.owner k a i hg
  made := fun i b k hf => by
    obtain ⟨a, ha⟩ := h.made i b k hf
    have : k ≠ n := fun e => by rw [e, hn] at ha; cases ha; exact hq i rfl
    exact ⟨a, by rw [put_ne _ _ this]; exact ha⟩
  rights := fun i b o hf => by
    rw [h.rights i b o hf]
    refine and_congr Iff.rfl (forall_congr' fun k => forall_congr' fun e => ?_)
    have : k ≠ n := fun e' => by
      subst e
      obtain ⟨a, ha⟩ := h.made i b k hf
      rw [e', hn] at ha; cases ha; exact hq i rfl
    rw [put_ne _ _ this]

theorem KInv.dropOwn {f g cnt nN del} (h : KInv f g cnt nN del) {n i : Nat} (hn : g n = some (true, some (some i))) {b : Bool} {o : Option Nat}
    (hi : f i = some (b, o)) : KInv (put f i (false, o)) (put g n (false, some (some i))) cnt nN del := by
  have ho : o = some n := by
    obtain ⟨b', hb'⟩ := h.owner n _ i hn
    rw [hi] at hb'; cases hb'; rfl
  subst ho
  exact
  { fresh := fun j hj => by
      have : j ≠ i := fun e => by rw [e] at hj; rw [h.fresh i hj] at hi; cases hi
      rw [put_ne _ _ this]; exact h.fresh j hj
    freshN := fun k hk => by
      have : k ≠ n := fun e => by rw [e] at hk; rw [h.freshN n hk] at hn; cases hn
      rw [put_ne _ _ this]; exact h.freshN k hk
    undel := h.undel
    owner := fun k a j hg => by
      by_cases hk : k = n
      · subst hk; rw [put_self] at hg; cases hg; exact ⟨false, put_self _ _ _⟩
      · rw [put_ne _ _ hk] at hg
        obtain ⟨b', hb'⟩ := h.owner k a j hg
        have : j ≠ i := fun e => by rw [e, hi] at hb'; cases hb'; exact hk rfl
        exact ⟨b', by rw [put_ne _ _ this]; exact hb'⟩
    made := fun j b' k hf => by
      by_cases hj : j = i
      · subst hj; rw [put_self] at hf; cases hf; exact ⟨false, put_self _ _ _⟩
      · rw [put_ne _ _ hj] at hf
        obtain ⟨a, ha⟩ := h.made j b' k hf
        have : k ≠ n := fun e => by rw [e, hn] at ha; cases ha; exact hj rfl
        exact ⟨a, by rw [put_ne _ _ this]; exact ha⟩
    rights := fun j b' o' hf => by
      by_cases hj : j = i
      · subst hj; rw [put_self] at hf; cases hf
        refine ⟨fun e => (by cases e), fun k => ?_⟩
        obtain ⟨q, hq⟩ := k.2 n rfl
        rw [put_self] at hq; cases hq
      · rw [put_ne _ _ hj] at hf
        rw [h.rights j b' o' hf]
        refine and_congr Iff.rfl (forall_congr' fun k => forall_congr' fun e => ?_)
        have : k ≠ n := fun e' => by
          subst e
          obtain ⟨a, ha⟩ := h.made j b' k hf
          rw [e', hn] at ha; cases ha; exact hj rfl
        rw [put_ne _ _ this] }

end Nntl.Life
