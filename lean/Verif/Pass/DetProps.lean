import Verif.Pass.Det
import Verif.Pass.Props
import Verif.Pass.Demo
/-! C100: reproducibility, and evaluations do not influence training. Property theorems. -/
namespace Nntl.Pass
open Nntl.Layers

/-- A training step. -/
def Use.isTrain {α : Type} : Use α → Bool
  | .train _ _ _ => true
  | .eval _ _ => false

/-- The training steps of a history. -/
def trainings {α : Type} (us : List (Use α)) : List (Use α) := us.filter Use.isTrain

section
variable {α : Type} [One α] {body : Obj α} {L : Law body} {E : body.S → body.S → Prop} {a : Arith α} {gw : GradWorks α} {act : (Nat → α) → Nat → α}
  {dz : α → α → α} {upd : Bool} {n m N NT : Nat} {Q : gw.G → gw.G → Prop}

/-- Twin networks: twins in all layers. Nothing is said about activations, gradients, temporary memory, batch size and mode. -/
def NetTwin (E : body.S → body.S → Prop) (Q : gw.G → gw.G → Prop) (s t : NetS ⟨body, outLayer a gw act dz upd n m⟩) : Prop :=
  E s.body t.body ∧ FcTwin m (n + 1) Q s.out t.out

theorem NetTwin.refl (h : Det L E) (hg : gw.Local m (n + 1) Q) (s : NetS ⟨body, outLayer a gw act dz upd n m⟩) : NetTwin E Q s s :=
  ⟨h.refl _, fcTwin_refl hg _⟩
theorem NetTwin.symm (h : Det L E) (hg : gw.Local m (n + 1) Q) {s t : NetS ⟨body, outLayer a gw act dz upd n m⟩} (e : NetTwin E Q s t) : NetTwin E Q t s :=
  ⟨h.symm _ _ e.1, fcTwin_symm hg e.2⟩
theorem NetTwin.trans (h : Det L E) (hg : gw.Local m (n + 1) Q) {s t u : NetS ⟨body, outLayer a gw act dz upd n m⟩} (e : NetTwin E Q s t)
    (e' : NetTwin E Q t u) : NetTwin E Q s u := ⟨h.trans _ _ _ e.1 e'.1, fcTwin_trans hg e.2 e'.2⟩

theorem to_twin (h : Det L E) (hg : gw.Local m (n + 1) Q) (b : Bool) (R : Nat) (s : NetS ⟨body, outLayer a gw act dz upd n m⟩) :
    NetTwin E Q s (Net.to _ b R s) := by
  unfold Net.to
  split
  · exact NetTwin.refl h hg s
  · exact ⟨h.trans _ _ _ (h.mode b _) (h.resize R _), hg.refl _, Agree.refl _ _ _⟩

/-- C100. An evaluation leaves a twin of the network. -/
theorem eval_leaves_twin (h : Det L E) (hg : gw.Local m (n + 1) Q) (hb : Trains N NT body L)
    {s : NetS ⟨body, outLayer a gw act dz upd n m⟩} (hi : NetInv L (outLaw a gw act dz upd n m) s)
    (ho : OutLawful N NT (outLayer a gw act dz upd n m) (outLaw a gw act dz upd n m)) (R : Nat) (X : Mem α) (hu : (Use.eval R X).Ok N NT body.inc) :
    NetTwin E Q s (Net.step _ s (.eval R X)).1 := by
  obtain ⟨hi', hr, ht⟩ := to_inv (w := ⟨body, outLayer a gw act dz upd n m⟩) hb ho false hu.2.1 hi
  refine NetTwin.trans h hg (to_twin h hg false R s) ?_
  simp only [Net.step]
  generalize Net.to _ false R s = s at *
  obtain ⟨h1, h2, _⟩ := hi'
  rw [ht] at h1 h2
  refine ⟨h.idle _ _ _ _ _ h1, ?_⟩
  have h2 : s.out.training = false := h2
  simp only [Net.fprop, outLayer, h2, Bool.false_eq_true, if_false]
  exact fcTwin_refl hg _

/-- A forward pass of twins in the same mode with the same data: they stay twins and have the same outputs. -/
theorem fprop_twin (h : Det L E) (hg : gw.Local m (n + 1) Q) (ha : a.Ok) (hact : ∀ z z', (∀ i < m, z i = z' i) → ∀ i < m, act z i = act z' i)
    (hb : Trains N NT body L) (ho : OutLawful N NT (outLayer a gw act dz upd n m) (outLaw a gw act dz upd n m)) (hn : n = body.neurons) {b : Bool} {R : Nat}
    (h0 : 0 < R) (hR : R ≤ N) {s t : NetS ⟨body, outLayer a gw act dz upd n m⟩} (hs : NetInv L (outLaw a gw act dz upd n m) s)
    (ht : NetInv L (outLaw a gw act dz upd n m) t) (rs : s.R = R) (rt : t.R = R) (bs : s.training = b) (bt : t.training = b) (e : NetTwin E Q s t)
    (X : Mem α) (hX : Ones R body.inc X) :
    NetTwin E Q (Net.fprop _ s X).1 (Net.fprop _ t X).1 ∧
      Agree R m (matOf R (Net.fprop _ s X).1.ao) (matOf R (Net.fprop _ t X).1.ao) ∧
      Agree R body.neurons (L.fwd R (Net.fprop _ s X).1.body (matOf R X)) (L.fwd R (Net.fprop _ t X).1.body (matOf R X)) := by
  have e' : NetTwin E Q (Net.fprop _ s X).1 (Net.fprop _ t X).1 := by
    obtain ⟨s1, s2, _⟩ := hs
    obtain ⟨t1, t2, _⟩ := ht
    rw [bs, rs] at s1
    rw [bt, rt] at t1
    have s2 : s.out.training = b := s2.trans bs
    have t2 : t.out.training = b := t2.trans bt
    cases b with
    | true =>
      refine ⟨?_, ?_⟩
      · simp only [Net.fprop, rs, rt]
        exact h.pass _ _ _ _ _ _ _ _ _ s1 t1 e.1
      · simp only [Net.fprop, outLayer, s2, t2, if_true]
        exact hg.pre _ _ _ _ e.2.1 e.2.2
    | false =>
      refine ⟨?_, ?_⟩
      · simp only [Net.fprop, rs, rt]
        exact h.trans _ _ _ (h.symm _ _ (h.idle _ _ _ _ _ s1)) (h.trans _ _ _ e.1 (h.idle _ _ _ _ _ t1))
      · simp only [Net.fprop, outLayer, s2, t2, Bool.false_eq_true, if_false]
        exact e.2
  have hxs : Shows s.R body.inc X (matOf R X) := by rw [rs]; exact fun _ _ _ _ => rfl
  have hxt : Shows t.R body.inc X (matOf R X) := by rw [rt]; exact fun _ _ _ _ => rfl
  obtain ⟨-, s2, s3, s4, s5, -⟩ := net_fprop (w := ⟨body, outLayer a gw act dz upd n m⟩) hb ho hn hs (rs ▸ h0) (rs ▸ hR) hxs (rs ▸ hX)
  obtain ⟨-, t2, t3, t4, t5, -⟩ := net_fprop (w := ⟨body, outLayer a gw act dz upd n m⟩) hb ho hn ht (rt ▸ h0) (rt ▸ hR) hxt (rt ▸ hX)
  have f : Agree R body.neurons (L.fwd R (Net.fprop _ s X).1.body (matOf R X)) (L.fwd R (Net.fprop _ t X).1.body (matOf R X)) := by
    have s6 := s4.1
    have t6 := t4.1
    rw [s3, s2, bs, rs] at s6
    rw [t3, t2, bt, rt] at t6
    exact h.fwd b R _ _ _ _ s6 t6 e'.1 (Agree.refl _ _ _)
  refine ⟨e', fun r hr c hc => ?_, f⟩
  have s6 := s5.2.2.2
  have t6 := t5.2.2.2
  rw [s2, rs] at s6
  rw [t2, rt] at t6
  rw [matOf, matOf, s6 r hr c hc, t6 r hr c hc]
  exact hact _ _ (fun i hi => preAct_agree ha e'.2.2 (hn ▸ f) r hr i hi) c hc

/-- C100. A training step of twins with the same data: they stay twins, and their outputs in it are the same. -/
theorem train_twin (h : Det L E) (hg : gw.Local m (n + 1) Q) (ha : a.Ok) (hact : ∀ z z', (∀ i < m, z i = z' i) → ∀ i < m, act z i = act z' i)
    (hb : Trains N NT body L) (ho : OutLawful N NT (outLayer a gw act dz upd n m) (outLaw a gw act dz upd n m)) (hn : n = body.neurons) (hT : NT ≤ N)
    {s t : NetS ⟨body, outLayer a gw act dz upd n m⟩} (hs : NetInv L (outLaw a gw act dz upd n m) s)
    (ht : NetInv L (outLaw a gw act dz upd n m) t) (e : NetTwin E Q s t) (R : Nat) (X Y : Mem α) (hu : (Use.train R X Y).Ok N NT body.inc) :
    NetTwin E Q (Net.step _ s (.train R X Y)).1 (Net.step _ t (.train R X Y)).1 := by
  obtain ⟨h0, hR, hX⟩ := hu
  obtain ⟨hs', rs, bs⟩ := to_inv (w := ⟨body, outLayer a gw act dz upd n m⟩) hb ho true (Nat.le_trans hR hT) hs
  obtain ⟨ht', rt, bt⟩ := to_inv (w := ⟨body, outLayer a gw act dz upd n m⟩) hb ho true (Nat.le_trans hR hT) ht
  have e1 := NetTwin.trans h hg (NetTwin.symm h hg (to_twin h hg true R s)) (NetTwin.trans h hg e (to_twin h hg true R t))
  simp only [Net.step]
  generalize Net.to _ true R s = s at *
  generalize Net.to _ true R t = t at *
  obtain ⟨e2, -, f⟩ := fprop_twin h hg ha hact hb ho hn h0 (Nat.le_trans hR hT) hs' ht' rs rt bs bt e1 X hX
  have hxs : Shows s.R body.inc X (matOf R X) := by rw [rs]; exact fun _ _ _ _ => rfl
  have hxt : Shows t.R body.inc X (matOf R X) := by rw [rt]; exact fun _ _ _ _ => rfl
  obtain ⟨s1, s2, s3, s4, s5, -⟩ := net_fprop (w := ⟨body, outLayer a gw act dz upd n m⟩) hb ho hn hs' (rs ▸ h0) (rs ▸ Nat.le_trans hR hT) hxs (rs ▸ hX)
  obtain ⟨t1, t2, t3, t4, t5, -⟩ := net_fprop (w := ⟨body, outLayer a gw act dz upd n m⟩) hb ho hn ht' (rt ▸ h0) (rt ▸ Nat.le_trans hR hT) hxt (rt ▸ hX)
  rw [s1, t1]
  rw [rs] at s2
  rw [rt] at t2
  rw [bs] at s3
  rw [bt] at t3
  generalize (Net.fprop _ s X).1 = s at *
  generalize (Net.fprop _ t X).1 = t at *
  obtain ⟨-, -, -, -, s6, s7, -⟩ := net_bprop (w := ⟨body, outLayer a gw act dz upd n m⟩) hb ho hn s4 s3 (s2 ▸ h0) (s2 ▸ hR) (A := X) (Y := Y)
    (X := matOf R X) (by rw [s2]; exact fun _ _ _ _ => rfl) (s2 ▸ hX) s5
  obtain ⟨-, -, -, -, t6, t7, -⟩ := net_bprop (w := ⟨body, outLayer a gw act dz upd n m⟩) hb ho hn t4 t3 (t2 ▸ h0) (t2 ▸ hR) (A := X) (Y := Y)
    (X := matOf R X) (by rw [t2]; exact fun _ _ _ _ => rfl) (t2 ▸ hX) t5
  rw [s2] at s6 s7
  rw [t2] at t6 t7
  have s8 := s4.1
  have t8 := t4.1
  rw [s3, s2] at s8
  rw [t3, t2] at t8
  have f' : Agree R n (L.fwd R s.body (matOf R X)) (L.fwd R t.body (matOf R X)) := fun r hr c hc => f r hr c (Nat.lt_of_lt_of_eq hc hn)
  have z := preAct_agree ha e2.2.2 f'
  refine ⟨h.upd R _ _ _ _ _ _ _ _ s8 t8 e2.1 (Agree.refl _ _ _) ?_ s7 t7, fcTwin_updated hg e2.2 ?_ s6 t6⟩
  · rw [← hn]
    intro r hr j hj
    refine ha _ _ _ _ _ (fun c hc => ?_) (fun c hc => e2.2.2 c hc j (Nat.lt_succ_of_lt hj))
    rw [hact _ _ (fun i hi => z r hr i hi) c hc]
  · refine gradW_agree ha f' fun r hr c hc => ?_
    rw [hact _ _ (fun i hi => z r hr i hi) c hc]

/-- C100. Two networks with the same weights, optimiser states and random numbers, and whatever in their buffers, batch sizes and modes: after
histories with the same training steps, with any evaluations in between, they have the same weights and optimiser states again. -/
theorem reproducible (h : Det L E) (hg : gw.Local m (n + 1) Q) (ha : a.Ok) (hact : ∀ z z', (∀ i < m, z i = z' i) → ∀ i < m, act z i = act z' i)
    (hb : Trains N NT body L) (hn : n = body.neurons) (hT : NT ≤ N) (us vs : List (Use α)) (hus : ∀ u ∈ us, u.Ok N NT body.inc)
    (hvs : ∀ u ∈ vs, u.Ok N NT body.inc) (huv : trainings us = trainings vs) (s t : NetS ⟨body, outLayer a gw act dz upd n m⟩)
    (hs : NetInv L (outLaw a gw act dz upd n m) s) (ht : NetInv L (outLaw a gw act dz upd n m) t) (e : NetTwin E Q s t) :
    NetTwin E Q (Net.run _ s us) (Net.run _ t vs) := by
  have ho : OutLawful N NT (outLayer a gw act dz upd n m) (outLaw a gw act dz upd n m) := outLayer_lawful ha _ _ _ _ _ _ _ _ hact
  -- Any history and its training steps only.
  have key : ∀ us : List (Use α), (∀ u ∈ us, u.Ok N NT body.inc) → ∀ s t : NetS ⟨body, outLayer a gw act dz upd n m⟩,
      NetInv L (outLaw a gw act dz upd n m) s → NetInv L (outLaw a gw act dz upd n m) t → NetTwin E Q s t →
      NetTwin E Q (Net.run _ s us) (Net.run _ t (trainings us)) := by
    intro us
    induction us with
    | nil => exact fun _ s t _ _ e => e
    | cons u us ih =>
      intro hu s t hs ht e
      have hu1 := hu u List.mem_cons_self
      have hus := fun v hv => hu v (List.mem_cons_of_mem u hv)
      have hs' := step_inv (w := ⟨body, outLayer a gw act dz upd n m⟩) hb ho hn hT hs u hu1
      match u, hu1, hs' with
      | .eval R X, hu1, hs' =>
        exact ih hus _ _ hs' ht (NetTwin.trans h hg (NetTwin.symm h hg (eval_leaves_twin h hg hb hs ho R X hu1)) e)
      | .train R X Y, hu1, hs' =>
        exact ih hus _ _ hs' (step_inv (w := ⟨body, outLayer a gw act dz upd n m⟩) hb ho hn hT ht (.train R X Y) hu1)
          (train_twin h hg ha hact hb ho hn hT hs ht e R X Y hu1)
  have k1 := key us hus s t hs ht e
  have k2 := key vs hvs t t ht ht (NetTwin.refl h hg t)
  rw [huv] at k1
  exact NetTwin.trans h hg k1 (NetTwin.symm h hg k2)

/-- C100. … and they give the same outputs for every data set from then on, in inference and in training. -/
theorem reproducible_outputs (h : Det L E) (hg : gw.Local m (n + 1) Q) (ha : a.Ok) (hact : ∀ z z', (∀ i < m, z i = z' i) → ∀ i < m, act z i = act z' i)
    (hb : Trains N NT body L) (hn : n = body.neurons) (hT : NT ≤ N) (us vs : List (Use α)) (hus : ∀ u ∈ us, u.Ok N NT body.inc)
    (hvs : ∀ u ∈ vs, u.Ok N NT body.inc) (huv : trainings us = trainings vs) (s t : NetS ⟨body, outLayer a gw act dz upd n m⟩)
    (hs : NetInv L (outLaw a gw act dz upd n m) s) (ht : NetInv L (outLaw a gw act dz upd n m) t) (e : NetTwin E Q s t) (b : Bool) (R : Nat)
    (h0 : 0 < R) (hR : R ≤ N) (X : Mem α) (hX : Ones R body.inc X) :
    Agree R m (matOf R (Net.fprop _ (Net.to _ b R (Net.run _ s us)) X).1.ao) (matOf R (Net.fprop _ (Net.to _ b R (Net.run _ t vs)) X).1.ao) := by
  have ho : OutLawful N NT (outLayer a gw act dz upd n m) (outLaw a gw act dz upd n m) := outLayer_lawful ha _ _ _ _ _ _ _ _ hact
  have e1 := reproducible h hg ha hact hb hn hT us vs hus hvs huv s t hs ht e
  obtain ⟨hs', rs, bs⟩ := to_inv (w := ⟨body, outLayer a gw act dz upd n m⟩) hb ho b hR
    (run_inv (w := ⟨body, outLayer a gw act dz upd n m⟩) hb ho hn hT us s hs hus)
  obtain ⟨ht', rt, bt⟩ := to_inv (w := ⟨body, outLayer a gw act dz upd n m⟩) hb ho b hR
    (run_inv (w := ⟨body, outLayer a gw act dz upd n m⟩) hb ho hn hT vs t ht hvs)
  have e2 := NetTwin.trans h hg (NetTwin.symm h hg (to_twin h hg b R _)) (NetTwin.trans h hg e1 (to_twin h hg b R _))
  exact (fprop_twin h hg ha hact hb ho hn h0 hR hs' ht' rs rt bs bt e2 X hX).2.1

end
end Nntl.Pass
