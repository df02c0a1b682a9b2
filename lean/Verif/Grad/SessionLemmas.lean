import Verif.Grad.Func
/-! Sessions step by step. -/
namespace Nntl.Grad
open Nntl.Kernel Nntl.Matrix Nntl.Threads
open scoped BigOperators

theorem weightedSum_zero (m x : Nat → ℝ) : weightedSum m x 0 = 0 := rfl

theorem weightedSum_succ (m x : Nat → ℝ) (T : Nat) : weightedSum m x (T + 1) = m T * weightedSum m x T + x T := by
  unfold weightedSum
  rw [Finset.sum_range_succ, Finset.Ico_self, Finset.prod_empty, one_mul, Finset.mul_sum]
  congr 1
  apply Finset.sum_congr rfl
  intro k hk
  rw [Finset.prod_Ico_succ_top (by have := Finset.mem_range.1 hk; omega)]
  ring

theorem ready_init {c c' : Cfg} (hk : SameKind c c') {W : Mtx ℝ} {s : St} (h : GwInit c W s) : Ready c' s := by
  obtain ⟨_, h1, _, h2, h3, h4, h5, _, _⟩ := h
  obtain ⟨k1, k2, k3, k4⟩ := hk
  have hm : c'.ilrUseMom = c.ilrUseMom := by unfold Cfg.ilrUseMom; rw [k2, k4]
  refine ⟨?_, ?_, ?_, ?_, ?_⟩
  · rw [k1, h2]; exact id
  · rw [k1, h3]; exact id
  · rw [k2, h1]; exact id
  · rw [k3, h4]; exact id
  · rw [k3, hm, h5]; intro a b; rw [a, b]; rfl

/-- State `t` has the matrices of state `s`, its gradient apart. -/
structure Kept (s t : St) : Prop where
  w : t.W = { s.W with data := t.W.data }
  flags : (t.hasV, t.hasA, t.hasB, t.hasGain, t.hasPrev) = (s.hasV, s.hasA, s.hasB, s.hasGain, s.hasPrev)

theorem Same.kept {s t : St} (h : Same s t) : Kept s t := ⟨h.w, h.flags⟩
theorem Kept.trans {s t u : St} (h : Kept s t) (k : Kept t u) : Kept s u := ⟨by rw [k.w, h.w], k.flags.trans h.flags⟩
theorem Kept.ready {s t : St} (h : Kept s t) {c : Cfg} (hs : Ready c s) : Ready c t := by
  have hf := h.flags
  simp only [Prod.mk.injEq] at hf
  obtain ⟨h1, h2, h3, h4, h5⟩ := hf
  exact ⟨by rw [h2]; exact hs.a, by rw [h3]; exact hs.b, by rw [h1]; exact hs.v, by rw [h4]; exact hs.gain, by rw [h5]; exact hs.prev⟩
theorem Kept.wshape {s t : St} (h : Kept s t) (hs : WeightsOk s.W) : WeightsOk t.W := by
  rw [h.w]; exact ⟨hs.1, hs.2, hs.3, hs.4, hs.5⟩
theorem Kept.rows {s t : St} (h : Kept s t) : t.W.rows = s.W.rows := by rw [h.w]
theorem Kept.cols {s t : St} (h : Kept s t) : t.W.cols = s.W.cols := by rw [h.w]

/-- The state with the gradient of the caller. -/
def St.withG (s : St) (g : Mtx ℝ) : St := { s with G := g }

theorem apply_iff {E : Env} (hE : E.Ok) (c : Cfg) (blocked : Bool) (draw : Nat → ℝ) {s : St} (hs : WeightsOk s.W) (hr : Ready c s) {g : Mtx ℝ}
    (hg : WeightsOk g) (h1 : g.rows = s.W.rows) (h2 : g.cols = s.W.cols) (o : Option St) :
    step E (.apply c blocked g draw) s o ↔ o = some (applyF c blocked draw (s.withG g)) := by
  show (Rel.upd (fun s => { s with G := g }) ⨟ applyGrad E c blocked draw) s o ↔ _
  rw [seq_some (m := s.withG g) (fun _ => Iff.rfl)]
  exact applyGrad_iff hE c blocked draw (s := s.withG g) ⟨hs, hg, h1, h2⟩ ⟨hr.a, hr.b, hr.v, hr.gain, hr.prev⟩ o

section
variable {T : Nat} {E E' : Nat → Env} {c : Nat → Cfg} {g : Nat → Mtx ℝ} {draw draw' : Nat → Nat → ℝ} {s p : Nat → St}

/-- A session is determined by the functions. -/
theorem Session.states (h : Session T E E' c g draw draw' s p) : ∀ t, t ≤ T → Kept (s 0) (s t) ∧ (∀ t', t' < t → Kept (s 0) (p t') ∧
    p t' = preF (c t') false (draw t') (s t') ∧ s (t' + 1) = applyF (c t') false (draw' t') ((p t').withG (g t'))) := by
  obtain ⟨W, hW, hi⟩ := h.init
  have hw0 : WeightsOk (s 0).W := by rw [hi.1]; exact hW
  intro t
  induction t with
  | zero => intro _; exact ⟨⟨rfl, rfl⟩, fun t' ht => absurd ht (Nat.not_lt_zero _)⟩
  | succ t ih =>
    intro ht
    obtain ⟨k, hall⟩ := ih (by omega)
    have htT : t < T := by omega
    have hr := ready_init (h.kind t htT) hi
    have e1 : p t = preF (c t) false (draw t) (s t) := by
      have := (preTrainingFprop_iff (h.env t htT).1 (c t) false (draw t) (k.wshape hw0) (k.ready hr) _).1 (h.pre t htT)
      exact Option.some.inj this
    have kp : Kept (s 0) (p t) := by rw [e1]; exact k.trans (preF_same _ _ _ _).kept
    obtain ⟨g1, g2, g3⟩ := h.grad t htT
    have e2 : s (t + 1) = applyF (c t) false (draw' t) ((p t).withG (g t)) := by
      have := (apply_iff (h.env t htT).2 (c t) false (draw' t) (kp.wshape hw0) (kp.ready hr) g1 (by rw [g2, kp.rows]) (by rw [g3, kp.cols]) _).1
        (h.apply t htT)
      exact Option.some.inj this
    have ks : Kept (s 0) (s (t + 1)) := by
      rw [e2]
      exact kp.trans ((show Kept (p t) ((p t).withG (g t)) from ⟨rfl, rfl⟩).trans (applyF_same _ _ _ _).kept)
    refine ⟨ks, fun t' ht' => ?_⟩
    by_cases htt : t' = t
    · subst htt; exact ⟨kp, e1, e2⟩
    · exact hall t' (by omega)

end

end Nntl.Grad
