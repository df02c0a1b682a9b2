import Verif.Pass.NetModel
import Verif.Pass.Lemmas
/-! Proofs about the whole network. -/
namespace Nntl.Pass
variable {α : Type}

theorem Lawful.trains [One α] {N NT : Nat} {o : Obj α} {L : Law o} (h : Lawful N NT o L) : Trains N NT o L where
  mode_ok := h.mode_ok
  resize_ok := h.resize_ok
  fprop_ok := h.fprop_ok
  bprop_ok := by
    intro R s A T O D P X G h0 hR hi hr hX hB hO hD
    obtain ⟨a1, a2, a3, a4, a5, a6, a7, _⟩ := h.bprop_ok R false s A T O D P X G h0 hR hi hr hX hB hO hD
    exact ⟨a1, a2, a3, a4, a5, a6, a7⟩

theorem frozen_trains [Zero α] [One α] {N NT : Nat} {l u : Obj α} {L : Law l} {U : Law u} (hl : Forward N l L) (hu : Trains N NT u U)
    (hn : u.inc = l.neurons) (hc : NT * l.neurons ≤ u.cap) : Trains N NT (frozenBelow l u) (frozenLaw L U) where
  mode_ok := fun b b' R s h => ⟨hl.mode_ok b b' R s.1 h.1, hu.mode_ok b b' R s.2.2 h.2.1, h.2.2⟩
  resize_ok := by
    rintro b R0 R ⟨s1, m, s2⟩ hR ⟨h1, h2, h3, h4⟩
    obtain ⟨a, c⟩ := deform_ok m R0 R l.neurons h3 h4
    exact ⟨hl.resize_ok b R0 R s1 hR h1, hu.resize_ok b R0 R s2 hR h2, a, c⟩
  fprop_ok := by
    rintro b R ⟨s1, m, s2⟩ A T O X h0 hR ⟨h1, h2, h3, h4⟩ hX hB
    obtain ⟨a1, a2, a3, a4, a5, a6⟩ := hl.fprop_ok b R s1 A T m.m X h0 hR h1 hX hB
    simp only [frozenBelow, frozenLaw] at *
    generalize l.fprop R s1 A T m.m = x at *
    have ho := h4.sameFrom a3
    obtain ⟨b1, b2, b3, b4, b5, b6⟩ := hu.fprop_ok b R s2 x.O x.T O (L.fwd R x.s X) h0 hR h2 (hn ▸ a6) (fun _ => hn ▸ ho)
    refine ⟨a1, a2.trans b2 (by omega) (by omega), b3, ⟨a4, b4, h3, ?_⟩, ⟨a5, b5, ?_⟩, b6⟩
    · rw [b1]; exact ho
    · rw [b1]; exact a6
  bprop_ok := by
    rintro R ⟨s1, m, s2⟩ A T O D P X G h0 hR ⟨h1, h2, h3, h4⟩ ⟨r1, r2, r3⟩ hX hB hO hD
    simp only [frozenBelow, frozenLaw] at *
    obtain ⟨b1, b2, b3, b4, b5, b6, b7⟩ := hu.bprop_ok R s2 m.m T O D P (L.fwd R s1 X) G h0 hR h2 r2
      (hn ▸ r3) (fun _ => hn ▸ h4) hO hD
    generalize u.bprop R false s2 m.m T O D P = y at *
    have hcap : R * u.inc ≤ u.cap := by rw [hn]; exact Nat.le_trans (Nat.mul_le_mul_right _ hR) hc
    refine ⟨trivial, b2.mono (by omega), b3, b4.mono (by omega), b5.mono (by omega), ⟨h1, b6, h3, ?_⟩, ⟨trivial, b7⟩⟩
    rw [b1]; exact h4

variable [One α] {N NT : Nat} {w : Net α} {L : Law w.body} {U : OutLaw w.out}

theorem to_inv (hb : Trains N NT w.body L) (ho : OutLawful N NT w.out U) (b : Bool) {R : Nat} (hR : R ≤ N) {s : NetS w} (h : NetInv L U s) :
    NetInv L U (w.to b R s) ∧ (w.to b R s).R = R ∧ (w.to b R s).training = b := by
  obtain ⟨h1, h2, h3, h4⟩ := h
  unfold Net.to
  split
  · rename_i he; exact ⟨⟨h1, h2, h3, h4⟩, he.2, he.1⟩
  · obtain ⟨a, c⟩ := deform_ok s.ab s.R R w.body.neurons h3 h4
    exact ⟨⟨hb.resize_ok _ _ R _ hR (hb.mode_ok _ b _ _ h1), ho.resize_ok _ _ R _ hR (ho.mode_ok _ b _ _ h2), a, c⟩, rfl, rfl⟩

/-- What is known after a forward pass. -/
def NetReady (L : Law w.body) (U : OutLaw w.out) (s : NetS w) (X : Mat α) : Prop :=
  L.Ready s.R s.body X ∧ U.Ready s.R s.out (L.fwd s.R s.body X) ∧ Shows s.R w.body.neurons s.ab.m (L.fwd s.R s.body X) ∧
  Shows s.R w.out.neurons s.ao (U.fwd s.R s.out (L.fwd s.R s.body X))

theorem net_fprop (hb : Trains N NT w.body L) (ho : OutLawful N NT w.out U) (hn : w.out.inc = w.body.neurons) {s : NetS w}
    (h : NetInv L U s) (h0 : 0 < s.R) (hR : s.R ≤ N) {A : Mem α} {X : Mat α} (hX : Shows s.R w.body.inc A X) (hB : Ones s.R w.body.inc A) :
    (w.fprop s A).2 = A ∧ (w.fprop s A).1.R = s.R ∧ (w.fprop s A).1.training = s.training ∧ NetInv L U (w.fprop s A).1 ∧ NetReady L U (w.fprop s A).1 X ∧
    SameFrom (max w.body.tmp w.out.tmp) s.T (w.fprop s A).1.T ∧ (w.fprop s A).1.m0 = s.m0 ∧ (w.fprop s A).1.m1 = s.m1 := by
  obtain ⟨h1, h2, h3, h4⟩ := h
  obtain ⟨a1, a2, a3, a4, a5, a6⟩ := hb.fprop_ok s.training s.R s.body A s.T s.ab.m X h0 hR h1 hX (fun _ => hB)
  unfold Net.fprop NetInv NetReady
  dsimp only
  generalize w.body.fprop s.R s.body A s.T s.ab.m = x at *
  have ho' := h4.sameFrom a3
  obtain ⟨b1, b2, b3, b4, b5, b6⟩ := ho.fprop_ok s.training s.R s.out x.O x.T s.ao (L.fwd s.R x.s X) h0 hR h2 (hn ▸ a6) (hn ▸ ho')
  rw [b1]
  exact ⟨a1, rfl, rfl, ⟨a4, b4, h3, ho'⟩, ⟨a5, b5, a6, b6⟩, a2.trans b2 (by omega) (by omega), rfl, rfl⟩

theorem net_bprop (hb : Trains N NT w.body L) (ho : OutLawful N NT w.out U) (hn : w.out.inc = w.body.neurons) {s : NetS w}
    (h : NetInv L U s) (ht : s.training = true) (h0 : 0 < s.R) (hR : s.R ≤ NT) {A Y : Mem α} {X : Mat α} (hX : Shows s.R w.body.inc A X)
    (hB : Ones s.R w.body.inc A) (hr : NetReady L U s X) :
    (w.bprop s A Y).2 = A ∧ (w.bprop s A Y).1.R = s.R ∧ (w.bprop s A Y).1.training = true ∧ NetInv L U (w.bprop s A Y).1 ∧
    U.Upd s.R s.out (L.fwd s.R s.body X) (matOf s.R Y) (w.bprop s A Y).1.out ∧
    L.Upd s.R s.body X (U.grad s.R s.out (L.fwd s.R s.body X) (matOf s.R Y)) (w.bprop s A Y).1.body ∧
    SameFrom (max w.body.tmp w.out.tmp) s.T (w.bprop s A Y).1.T ∧
    SameFrom (max (max w.body.cap (s.R * w.body.inc)) (max w.out.cap (s.R * w.out.inc))) s.m0 (w.bprop s A Y).1.m0 ∧
    SameFrom (max w.body.cap (s.R * w.body.inc)) s.m1 (w.bprop s A Y).1.m1 := by
  obtain ⟨h1, h2, h3, h4⟩ := h
  rw [ht] at h1 h2
  obtain ⟨r1, r2, r3, r4⟩ := hr
  obtain ⟨a1, a2, a3, a4, a5, a6, a7⟩ := ho.bprop_ok s.R s.out s.ab.m s.T s.ao Y s.m0 _ (matOf s.R Y) h0 hR h2 r2 (hn ▸ r3) (hn ▸ h4) r4
    (fun _ _ _ _ => rfl)
  unfold Net.bprop NetInv
  dsimp only
  generalize w.out.bprop s.R s.out s.ab.m s.T s.ao Y s.m0 = y at *
  obtain ⟨b1, b2, b3, b4, b5, b6, b7⟩ := hb.bprop_ok s.R s.body A y.T y.A y.P s.m1 X _ h0 hR h1 r1 hX (fun _ => hB) (a1 ▸ r3) (hn ▸ a7)
  generalize w.body.bprop s.R false s.body A y.T y.A y.P s.m1 = z at *
  rw [a1] at b3
  exact ⟨b1, rfl, ht, ⟨ht ▸ b6, ht ▸ a5, h3, h4.sameFrom b3⟩, a6, b7, a2.trans b2 (by omega) (by omega), a4.trans b4 (by omega) (by omega), b5⟩

theorem step_inv (hb : Trains N NT w.body L) (ho : OutLawful N NT w.out U) (hn : w.out.inc = w.body.neurons) (hT : NT ≤ N) {s : NetS w}
    (h : NetInv L U s) (u : Use α) (hu : u.Ok N NT w.body.inc) : NetInv L U (w.step s u).1 := by
  match u, hu with
  | .eval R X, ⟨h0, hR, hB⟩ =>
    obtain ⟨hi, hr, _⟩ := to_inv hb ho false hR h
    rw [← hr] at h0 hR hB
    exact (net_fprop hb ho hn hi h0 hR (X := matOf (w.to false R s).R X) (fun _ _ _ _ => rfl) hB).2.2.2.1
  | .train R X Y, ⟨h0, hR, hB⟩ =>
    obtain ⟨hi, hr, ht⟩ := to_inv hb ho true (Nat.le_trans hR hT) h
    rw [← hr] at h0 hR hB
    obtain ⟨a1, a2, at', a3, a4, _⟩ := net_fprop hb ho hn hi h0 (Nat.le_trans hR hT) (X := matOf (w.to true R s).R X) (fun _ _ _ _ => rfl) hB
    refine (net_bprop hb ho hn a3 (at'.trans ht) (a2 ▸ h0) (a2 ▸ hR) ?_ ?_ a4).2.2.2.1
    · rw [a2, a1]; exact fun _ _ _ _ => rfl
    · rw [a2, a1]; exact hB

theorem run_inv (hb : Trains N NT w.body L) (ho : OutLawful N NT w.out U) (hn : w.out.inc = w.body.neurons) (hT : NT ≤ N)
    (us : List (Use α)) : ∀ (s : NetS w), NetInv L U s → (∀ u ∈ us, u.Ok N NT w.body.inc) → NetInv L U (w.run s us) := by
  induction us with
  | nil => exact fun s h _ => h
  | cons u us ih =>
    intro s h hu
    exact ih _ (step_inv hb ho hn hT h u (hu u (List.mem_cons_self ..))) fun v hv => hu v (List.mem_cons_of_mem _ hv)

/-! ### Vertical pack with layers that take no part in training -/

theorem lpvLoop_all (stops : Nat → Bool) : ∀ n, (∀ i ≤ n, stops i = false) →
    lpvLoop stops n (some n) = ((List.range n).reverse.map fun i => (i + 1, some (i + 1)), some 0) := by
  intro n
  induction n with
  | zero => intro _; rfl
  | succ n ih =>
    intro h
    simp only [lpvLoop, h (n + 1) (Nat.le_refl _), h n (by omega), Bool.false_eq_true, if_false, ih fun i hi => h i (by omega)]
    rw [List.range_succ, List.reverse_append]
    simp

end Nntl.Pass
