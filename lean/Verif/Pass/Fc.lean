import Verif.Pass.FcModel
import Verif.Pass.Net
/-! The fully connected layer and the output layer are lawful. -/
namespace Nntl.Pass
variable {α : Type}

theorem memOf_idx {R r c : Nat} (hr : r < R) (M : Mat α) : memOf R M (r + R * c) = M r c := by
  simp only [memOf]
  rw [Nat.add_mul_mod_self_left, Nat.mod_eq_of_lt hr, Nat.add_mul_div_left _ _ (by omega), Nat.div_eq_of_lt hr, Nat.zero_add]

theorem copy_idx {R r c n : Nat} (hr : r < R) (hc : c < n) (d : Mem α) (s : Mem α) : copy (R * n) d s (r + R * c) = s (r + R * c) := by
  simp only [copy]; rw [if_pos (idx_lt hr hc)]

theorem input_ones [One α] {R n : Nat} {A : Mem α} {X : Mat α} (hX : Shows R n A X) (hB : Ones R n A) {r j : Nat} (hr : r < R)
    (hj : j < n + 1) : A (r + R * j) = withOnes n X r j := by
  unfold withOnes
  by_cases h : j < n
  · rw [if_pos h]; exact hX r hr j h
  · rw [if_neg h]
    have : j = n := by omega
    subst this; exact hB r hr

theorem SameFrom.trans' {k : Nat} {x y z : Mem α} (h : SameFrom k x y) (h' : SameFrom k y z) : SameFrom k x z :=
  fun p hp => (h' p hp).trans (h p hp)

theorem dz_mem [One α] {a : Arith α} {f df : α → α} {R n m : Nat} {O D : Mem α} {W X G : Mat α}
    (hO : Shows R m O fun r c => f (preAct a n W X r c)) (hD : Shows R m D G) :
    Shows R m (copy (R * m) O fun p => a.mul (df (O p)) (D p)) (fun r c => a.mul (df (f (preAct a n W X r c))) (G r c)) := by
  intro r hr c hc
  rw [copy_idx hr hc, hO r hr c hc, hD r hr c hc]

theorem dA_mem {a : Arith α} (ha : a.Ok) {R n m : Nat} {O1 : Mem α} {Z : Mat α} (hz : Shows R m O1 Z) (W : Mat α) (P : Mem α) :
    Shows R n (copy (R * n) P (memOf R fun r j => a.dot m (fun c => O1 (r + R * c)) (fun c => W c j)))
      (fun r j => a.dot m (fun c => Z r c) (fun c => W c j)) := by
  intro r hr j hj
  rw [copy_idx hr hj, memOf_idx hr]
  exact ha _ _ _ _ _ (fun c hc => hz r hr c hc) fun _ _ => rfl

theorem dW_mem [One α] {a : Arith α} (ha : a.Ok) {R n m : Nat} {A O1 : Mem α} {X Z : Mat α} (hX : Shows R n A X) (hB : Ones R n A)
    (hz : Shows R m O1 Z) (D : Mem α) {c j : Nat} (hc : c < m) (hj : j < n + 1) :
    matOf m (copy (m * (n + 1)) D (memOf m fun c j => a.mul (a.inv R) (a.dot R (fun r => O1 (r + R * c)) (fun r => A (r + R * j))))) c j =
      gradW a R n X Z c j := by
  simp only [matOf]
  rw [copy_idx hc hj, memOf_idx hc]
  exact congrArg _ (ha _ _ _ _ _ (fun r hr => hz r hr c hc) fun r hr => input_ones hX hB hr hj)

theorem fc_lawful [One α] {a : Arith α} (ha : a.Ok) (gw : GradWorks α) (f df : α → α) (upd : Bool) (N NT n m : Nat) :
    Lawful N NT (fc a gw f df upd NT n m) (fcLaw a gw f df upd NT n m) where
  mode_ok := fun _ _ _ _ _ => rfl
  resize_ok := fun _ _ _ _ _ h => h
  fprop_ok := by
    intro b R s A T O X h0 hR ht hX hB
    have hB := hB rfl
    simp only [fc, fcLaw] at *
    refine ⟨trivial, SameFrom.refl _ _, copy_sameFrom _ _ _, by cases b <;> simp [ht], trivial, fun r hr c hc => ?_⟩
    rw [copy_idx hr hc, memOf_idx hr]
    exact congrArg f (ha _ _ _ _ _ (fun j hj => input_ones hX hB hr hj) fun _ _ => rfl)
  bprop_ok := by
    intro R need s A T O D P X G h0 hR ht _ hX hB hO hD
    have hB := hB rfl
    cases upd with
    | false =>
      simp only [fc, fcLaw, Bool.false_eq_true, if_false] at *
      have hz := dz_mem (a := a) (df := df) (W := s.w) hO hD
      generalize hO1 : copy (R * m) O (fun p => a.mul (df (O p)) (D p)) = O1 at *
      have hOs : SameFrom (R * m) O O1 := hO1 ▸ copy_sameFrom _ _ _
      refine ⟨trivial, SameFrom.refl _ _, hOs, SameFrom.refl _ _, ?_, ht, by simp only [Updated, Bool.false_eq_true, if_false]; trivial, ?_⟩
      · split
        · exact (copy_sameFrom _ _ _).mono (by omega)
        · exact SameFrom.refl _ _
      · intro hn; rw [if_pos hn]; exact dA_mem ha hz s.w P
    | true =>
      simp only [fc, fcLaw, if_true] at *
      have hz := dz_mem (a := a) (df := df) (W := s.w) hO hD
      generalize hO1 : copy (R * m) O (fun p => a.mul (df (O p)) (D p)) = O1 at *
      have hOs : SameFrom (R * m) O O1 := hO1 ▸ copy_sameFrom _ _ _
      refine ⟨trivial, SameFrom.refl _ _, hOs, ?_, ?_, ht, ?_, ?_⟩
      · exact ((copy_sameFrom _ _ _).trans' (copy_sameFrom _ _ _)).mono (by omega)
      · split
        · exact (copy_sameFrom _ _ _).mono (by omega)
        · exact SameFrom.refl _ _
      · simp only [Updated, if_true]
        exact ⟨_, fun c hc j hj => dW_mem ha hX hB hz _ hc hj, rfl⟩
      · intro hn; rw [if_pos hn]; exact dA_mem ha hz s.w P

theorem outLayer_lawful [One α] {a : Arith α} (ha : a.Ok) (gw : GradWorks α) (act : (Nat → α) → Nat → α) (dz : α → α → α) (upd : Bool)
    (N NT n m : Nat) (hact : ∀ x y, (∀ i < m, x i = y i) → ∀ i < m, act x i = act y i) :
    OutLawful N NT (outLayer a gw act dz upd n m) (outLaw a gw act dz upd n m) where
  mode_ok := fun _ _ _ _ _ => rfl
  resize_ok := fun _ _ _ _ _ h => h
  fprop_ok := by
    intro b R s A T O X h0 hR ht hX hB
    simp only [outLayer, outLaw] at *
    refine ⟨trivial, SameFrom.refl _ _, copy_sameFrom _ _ _, by cases b <;> simp [ht], trivial, fun r hr c hc => ?_⟩
    rw [copy_idx hr hc, memOf_idx hr]
    exact hact _ _ (fun i _ => ha _ _ _ _ _ (fun j hj => input_ones hX hB hr hj) fun _ _ => rfl) c hc
  bprop_ok := by
    intro R s A T O Y P X Y' h0 hR ht _ hX hB hO hY
    cases upd with
    | false =>
      simp only [outLayer, outLaw, Bool.false_eq_true, if_false] at *
      have hz : Shows R m (copy (R * m) O fun p => dz (O p) (Y p)) (fun r c => dz (act (preAct a n s.w X r) c) (Y' r c)) := by
        intro r hr c hc; rw [copy_idx hr hc, hO r hr c hc, hY r hr c hc]
      generalize hO1 : copy (R * m) O (fun p => dz (O p) (Y p)) = O1 at *
      have hOs : SameFrom (R * m) O O1 := hO1 ▸ copy_sameFrom _ _ _
      exact ⟨trivial, SameFrom.refl _ _, hOs, (copy_sameFrom _ _ _).mono (by omega), ht, by simp only [Updated, Bool.false_eq_true, if_false]; trivial, dA_mem ha hz s.w P⟩
    | true =>
      simp only [outLayer, outLaw, if_true] at *
      have hz : Shows R m (copy (R * m) O fun p => dz (O p) (Y p)) (fun r c => dz (act (preAct a n s.w X r) c) (Y' r c)) := by
        intro r hr c hc; rw [copy_idx hr hc, hO r hr c hc, hY r hr c hc]
      generalize hO1 : copy (R * m) O (fun p => dz (O p) (Y p)) = O1 at *
      have hOs : SameFrom (R * m) O O1 := hO1 ▸ copy_sameFrom _ _ _
      refine ⟨trivial, (copy_sameFrom _ _ _).trans' (copy_sameFrom _ _ _), hOs, (copy_sameFrom _ _ _).mono (by omega), ht, ?_,
        dA_mem ha hz s.w P⟩
      simp only [Updated, if_true]
      exact ⟨_, fun c hc j hj => dW_mem ha hX hB hz _ hc hj, rfl⟩

theorem identity_lawful [One α] (N NT n : Nat) : Lawful N NT (identity (α := α) n) (identityLaw n) where
  mode_ok := fun _ _ _ _ _ => trivial
  resize_ok := fun _ _ _ _ _ _ => trivial
  fprop_ok := by
    intro b R s A T O X h0 hR _ hX hB
    simp only [identity, identityLaw] at *
    refine ⟨trivial, SameFrom.refl _ _, copy_sameFrom _ _ _, trivial, trivial, fun r hr c hc => ?_⟩
    rw [copy_idx hr hc]; exact hX r hr c hc
  bprop_ok := by
    intro R need s A T O D P X G h0 hR _ _ hX hB hO hD
    simp only [identity, identityLaw, Bool.false_eq_true, if_false] at *
    exact ⟨trivial, SameFrom.refl _ _, SameFrom.refl _ _, SameFrom.refl _ _, SameFrom.refl _ _, trivial, trivial, fun _ => hD⟩

theorem idGate_lawful [One α] (bin : α → α) (N NT n : Nat) : Lawful N NT (idGate bin n) (idGateLaw bin n) where
  mode_ok := fun _ _ _ _ _ => trivial
  resize_ok := fun _ _ _ _ _ _ => trivial
  fprop_ok := by
    intro b R s A T O X h0 hR _ hX hB
    simp only [idGate, idGateLaw] at *
    refine ⟨trivial, SameFrom.refl _ _, copy_sameFrom _ _ _, trivial, trivial, fun r hr c hc => ?_⟩
    rw [copy_idx hr hc, hX r hr c hc]
  bprop_ok := by
    intro R need s A T O D P X G h0 hR _ _ hX hB hO hD
    simp only [idGate, idGateLaw, Bool.false_eq_true, if_false] at *
    exact ⟨trivial, SameFrom.refl _ _, SameFrom.refl _ _, SameFrom.refl _ _, SameFrom.refl _ _, trivial, trivial, fun _ => hD⟩

end Nntl.Pass
