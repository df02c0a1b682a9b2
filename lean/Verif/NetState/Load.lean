import Verif.NetState.Spec
import Verif.NetState.Save
import Verif.NetFile.Props
/-! What loading does, step by step. -/
namespace Nntl.NetState
open Nntl.Matrix Nntl.MatFile Nntl.NetFile
set_option linter.unusedSimpArgs false

/-! ### Any file, any state -/

theorem ldS_kept (E : Env) (b : Bool) (n : String) (C : Cls) (v : Nat) (s : St) (hf : s.file.isSome = true) : Kept s (ldS E b n C v s).2 := by
  unfold ldS
  cases b with
  | false => exact Kept.refl s
  | true =>
    rw [if_pos rfl]
    rcases asNvp_any n v (loadScalar E C v) s hf with ⟨-, -, h⟩ | ⟨-, -, h⟩
    · exact h
    · rw [h]; exact (loadScalar_any E n C v { s with cur := some n } rfl hf).1

theorem ldM_kept {T : Cls} (E : Env) (b : Bool) (n : String) (m : Mtx (Elem T)) (s : St) (hf : s.file.isSome = true) (hx : ¬ XName n) :
    Kept s (ldM E b n m s).2 := by
  unfold ldM
  cases b with
  | false => exact Kept.refl s
  | true =>
    rw [if_pos rfl]
    rcases asNvp_any n m (loadMtx E n true m) s hf with ⟨-, -, h⟩ | ⟨he, -, h⟩
    · exact h
    · rw [h]; exact (loadMtx_any E n true m { s with cur := some n } rfl hf he hx).1

theorem ldS_off (E : Env) (n : String) (C : Cls) (v : Nat) (s : St) : ldS E false n C v s = (v, s) := rfl
theorem ldM_off {T : Cls} (E : Env) (n : String) (m : Mtx (Elem T)) (s : St) : ldM E false n m s = (m, s) := rfl

theorem ldS_latched (E : Env) (b : Bool) (n : String) (C : Cls) (v : Nat) (s : St) (h : s.err ≠ .success) : ldS E b n C v s = (v, s) := by
  cases b <;> simp [ldS, asNvp, h]
theorem ldM_latched {T : Cls} (E : Env) (b : Bool) (n : String) (m : Mtx (Elem T)) (s : St) (h : s.err ≠ .success) : ldM E b n m s = (m, s) := by
  cases b <;> simp [ldM, asNvp, h]

theorem some_kept {s s' : St} (h : Kept s s') (hf : s.file.isSome = true) : s'.file.isSome = true := by rw [h.1]; exact hf

/-! ### Steps -/

/-- Nothing has gone wrong, and no name is pending. -/
structure Rdy (s : St) : Prop where
  file : s.file.isSome = true
  err : s.err = .success
  cur : s.cur = none

/-- The result `r` of a step from state `s`: if it succeeds then `C` and `P` of what it yields; and it succeeds if `C` and nothing fails. -/
structure Step {α : Type} (E : Env) (s : St) (r : α × St) (C : Prop) (P : α → Prop) : Prop where
  kept : Kept s r.2
  ok : r.2.err = .success → r.2.cur = none ∧ C ∧ P r.1
  total : (∀ k, E.ok k = true) → C → r.2.err = .success

theorem Step.pure {α : Type} {E : Env} {s : St} (hs : Rdy s) (x : α) : Step E s (x, s) True (fun y => y = x) :=
  ⟨Kept.refl s, fun _ => ⟨hs.cur, trivial, rfl⟩, fun _ _ => hs.err⟩

theorem Step.bind {α β : Type} {E : Env} {s : St} {p : α × St} {q : β × St} {C D : Prop} {P : α → Prop} {Q : β → Prop} (h : Step E s p C P)
    (hs : Rdy s) (hl : p.2.err ≠ .success → q.2 = p.2) (k : Rdy p.2 → scope p.2 = scope s → P p.1 → Step E p.2 q D Q) :
    Step E s q (C ∧ D) (fun y => P p.1 ∧ Q y) := by
  by_cases he : p.2.err = .success
  · obtain ⟨h1, h2, h3⟩ := h.ok he
    have k := k ⟨some_kept h.kept hs.file, he, h1⟩ (kept_scope h.kept) h3
    exact ⟨h.kept.trans k.kept, fun e => let ⟨a, b, c⟩ := k.ok e; ⟨a, ⟨h2, b⟩, h3, c⟩, fun hE c => k.total hE c.2⟩
  · refine ⟨by rw [hl he]; exact h.kept, fun e => absurd (by rwa [hl he] at e) he, fun hE c => absurd (h.total hE c.1) he⟩

theorem Step.imp {α β : Type} {E : Env} {s : St} {p : α × St} {q : β × St} {C D : Prop} {P : α → Prop} {Q : β → Prop} (h : Step E s p C P)
    (e : q.2 = p.2) (hc : C ↔ D) (hp : P p.1 → Q q.1) : Step E s q D Q :=
  ⟨by rw [e]; exact h.kept, fun he => by rw [e] at he ⊢; obtain ⟨a, b, c⟩ := h.ok he; exact ⟨a, hc.1 b, hp c⟩,
    fun hE c => by rw [e]; exact h.total hE (hc.2 c)⟩

/-! ### Numbers and matrices -/

theorem step_S (E : Env) (b : Bool) (n : String) (C : Cls) (v w : Nat) (c : Bool) (s : St) (hs : Rdy s)
    (hl : fget (scope s) n = if c then some (numVar C w) else none) :
    Step E s (ldS E b n C v s) (b = true → c = true) (fun x => x = if b then w else v) := by
  cases b with
  | false => exact (Step.pure hs v).imp rfl (by simp) (fun _ => by simp [ldS])
  | true =>
    have hst : ldS E true n C v s = loadScalar E C v { s with cur := some n } := by
      unfold ldS
      rw [if_pos rfl, asNvp_start n v _ s hs.file hs.err hs.cur]
    cases c with
    | true =>
      rw [if_pos rfl] at hl
      obtain ⟨a, p, q⟩ := loadScalar_found E n C v w { s with cur := some n } rfl hs.file hs.err ((lookup_scope { s with cur := some n } hs.file n).trans hl)
      rw [hst]
      exact ⟨a, fun h => ⟨(p h).1, fun _ => rfl, by simpa using (p h).2⟩, fun hE _ => q hE⟩
    | false =>
      have hl : fget (scope s) n = none := by simpa using hl
      obtain ⟨a, p⟩ := loadScalar_any E n C v { s with cur := some n } rfl hs.file
      rw [hst]
      refine ⟨a, fun h => ?_, fun _ h => absurd (h rfl) (by simp)⟩
      obtain ⟨-, d, h1, -⟩ := p h
      have : scope { s with cur := some n } = scope s := rfl
      rw [this, hl] at h1
      cases h1

theorem copied_filled {T : Cls} {n : String} (hx : ¬ XName n) {m m' : Mtx (Elem T)} (F : Filled n m.rows m.cols (fun k => (⟨(m.data k).bits⟩ : Elem T)) m') : Copied m m' := by
  refine ⟨F.rows, F.cols, fun r c => ?_, ?_, F.bir, F.cap, F.own⟩
  · by_cases h : r < m.rows ∧ c < m.cols
    · rw [F.get r c h.1 h.2, if_neg (fun q => hx q.1)]
      simp only [Mtx.get, Mtx.cell]
      rw [if_pos h]
    · simp only [Mtx.get]
      rw [F.rows, F.cols, if_neg h, if_neg h]
  · cases h : m'.emul
    · rfl
    · exact absurd (F.emul.1 h) hx

theorem step_M {T : Cls} (E : Env) (b : Bool) (n : String) (m m0 : Mtx (Elem T)) (c : Bool) (s : St) (hs : Rdy s) (hx : ¬ XName n)
    (hl : fget (scope s) n = if c then some (mtxVar m0) else none) :
    Step E s (ldM E b n m s) (b = true → c = true ∧ NonEmpty m0) (CopiedIf b m0 m) := by
  cases b with
  | false => exact (Step.pure hs m).imp rfl (by simp) (fun _ => by simp [CopiedIf, ldM])
  | true =>
    have hst : ldM E true n m s = loadMtx E n true m { s with cur := some n } := by
      unfold ldM
      rw [if_pos rfl, asNvp_start n m _ s hs.file hs.err hs.cur]
    have hsc : scope { s with cur := some n } = scope s := rfl
    obtain ⟨a, p⟩ := loadMtx_any E n true m { s with cur := some n } rfl hs.file hs.err hx
    rw [hst]
    refine ⟨a, fun h => ?_, fun hE h => ?_⟩
    · obtain ⟨p1, S, R, C, d, g, p2, p3, p4, p5, F⟩ := p h
      rw [hsc, hl] at p2
      cases c with
      | false => cases p2
      | true =>
        simp only [if_true, mtxVar, Option.some.injEq, Var.num.injEq] at p2
        obtain ⟨rfl, rfl, rfl, rfl⟩ := p2
        rw [element_same] at p5
        cases p5
        refine ⟨p1, fun _ => ⟨rfl, p3, p4⟩, ?_⟩
        rw [CopiedIf, if_pos rfl]
        exact copied_filled hx F
    · obtain ⟨h1, h2, h3⟩ := h rfl
      rw [h1, if_pos rfl] at hl
      exact (loadMtx_found E n true m { s with cur := some n } T m0.rows m0.cols (fun k => (m0.data k).bits) _ (element_same E T) rfl hs.file hs.err
        ((lookup_scope { s with cur := some n } hs.file n).trans hl) h2 h3 (fun h => absurd h hx)).2.2 hE

theorem step_W {T : Cls} (E : Env) (b : Bool) (n c : Nat) (w w0 : Mtx (Elem T)) (ini st : Bool) (s : St) (hs : Rdy s)
    (hl : fget (scope s) "m_weights" = if st then some (mtxVar w0) else none) :
    Step E s (if b then loadWeights E n c w ini s else ((w, ini), s)) (b = true → st = true ∧ NonEmpty w0 ∧ w0.rows = n ∧ w0.cols = c + 1)
      (fun x => if b then x.2 = true ∧ Fits n c x.1 ∧ ∀ i j, x.1.get i j = w0.get i j else x.1 = w ∧ x.2 = ini) := by
  cases b with
  | false => exact (Step.pure hs (w, ini)).imp rfl (by simp) (fun _ => by simp)
  | true =>
    simp only [if_true]
    have hst : asNvp "m_weights" (Mtx.default (E.elems T s.tick)) (loadMtx E "m_weights" false (Mtx.default (E.elems T s.tick))) s =
      loadMtx E "m_weights" false (Mtx.default (E.elems T s.tick)) { s with cur := some "m_weights" } := asNvp_start _ _ _ s hs.file hs.err hs.cur
    have hsc : scope { s with cur := some "m_weights" } = scope s := rfl
    obtain ⟨a, p⟩ := loadMtx_any E "m_weights" false (Mtx.default (E.elems T s.tick)) { s with cur := some "m_weights" } rfl hs.file hs.err weights_no_x
    have tot : st = true → 0 < w0.rows → 0 < w0.cols → (∀ k, E.ok k = true) →
        (loadMtx E "m_weights" false (Mtx.default (E.elems T s.tick)) { s with cur := some "m_weights" }).2.err = .success := by
      intro h1 h2 h3 hE
      rw [h1, if_pos rfl] at hl
      exact (loadMtx_found E "m_weights" false (Mtx.default (E.elems T s.tick)) { s with cur := some "m_weights" } T w0.rows w0.cols
        (fun k => (w0.data k).bits) _ (element_same E T) rfl hs.file hs.err
        ((lookup_scope { s with cur := some "m_weights" } hs.file _).trans hl) h2 h3 (fun h => absurd h weights_no_x)).2.2 hE
    simp only [loadWeights, hst]
    generalize loadMtx E "m_weights" false (Mtx.default (E.elems T s.tick)) { s with cur := some "m_weights" } = r at *
    by_cases hr : r.2.err = .success
    · rw [if_pos hr]
      obtain ⟨p1, S, R, C, d, g, p2, p3, p4, p5, F⟩ := p hr
      rw [hsc, hl] at p2
      cases st with
      | false => cases p2
      | true =>
        simp only [if_true, mtxVar, Option.some.injEq, Var.num.injEq] at p2
        obtain ⟨rfl, rfl, rfl, rfl⟩ := p2
        rw [element_same] at p5
        cases p5
        have cp := copied_filled weights_no_x F
        by_cases hs : weightsSuitable n c r.1 = true
        · rw [if_pos hs]
          have hfit := (suitable_iff n c r.1).1 hs
          have hfit' : Fits n c r.1.updateOnHiddenResize := ⟨hfit.1, hfit.2, hfit.3, hfit.4, hfit.5⟩
          exact ⟨a, fun _ => ⟨p1, fun _ => ⟨rfl, ⟨p3, p4⟩, by rw [← cp.rows, hfit.rows], by rw [← cp.cols, hfit.cols]⟩, rfl, hfit', cp.get⟩,
            fun _ _ => hr⟩
        · rw [if_neg hs]
          refine ⟨a, nofun, fun _ h => ?_⟩
          exfalso
          apply hs
          rw [suitable_iff]
          obtain ⟨-, -, h3, h4⟩ := h trivial
          refine ⟨cp.rows.trans h3, cp.cols.trans h4, cp.emul, cp.bir, ?_⟩
          rw [cp.cap, cp.rows, cp.cols]
          exact Nat.mul_pos p3 p4
    · rw [if_neg hr]
      refine ⟨a, fun h => absurd h hr, fun hE h => ?_⟩
      obtain ⟨h1, h2, -⟩ := h trivial
      exact absurd (tot h1 h2.1 h2.2 hE) hr

/-! ### Dropout and bounds -/

theorem bounds_latched (E : Env) (T : Cls) (o : Opts) (b : Bool × Nat × Nat) (s : St) (h : s.err ≠ .success) : (loadBounds E T o b s).2 = s := by
  simp only [loadBounds, ldS_latched E _ _ _ _ s h]

theorem ofBit_toNat (b : Bool) : ofBit b.toNat = b := by cases b <;> rfl

theorem step_bounds (E : Env) (T : Cls) (o : Opts) (a b : Bool × Nat × Nat) (c : Bool) (s : St) (hs : Rdy s)
    (h1 : fget (scope s) "m_bRestrictdLdZ" = if c then some (numVar .logical a.1.toNat) else none)
    (h2 : fget (scope s) "m_dLdZRestrictLowerBnd" = if c then some (numVar T a.2.1) else none)
    (h3 : fget (scope s) "m_dLdZRestrictUpperBnd" = if c then some (numVar T a.2.2) else none) :
    Step E s (loadBounds E T o b s) (o.params = true → c = true) (fun x => x = if o.params then a else b) := by
  have q1 := step_S E o.params "m_bRestrictdLdZ" .logical b.1.toNat a.1.toNat c s hs h1
  generalize hp : ldS E o.params "m_bRestrictdLdZ" .logical b.1.toNat s = p at q1
  have q2 := q1.bind (q := ldS E o.params "m_dLdZRestrictLowerBnd" T b.2.1 p.2) hs (fun h => by rw [ldS_latched _ _ _ _ _ _ h])
    (fun r e _ => step_S E o.params _ T b.2.1 a.2.1 c p.2 r (by rw [e, h2]))
  generalize hq : ldS E o.params "m_dLdZRestrictLowerBnd" T b.2.1 p.2 = q at q2
  have q3 := q2.bind (q := ldS E o.params "m_dLdZRestrictUpperBnd" T b.2.2 q.2) hs (fun h => by rw [ldS_latched _ _ _ _ _ _ h])
    (fun r e _ => step_S E o.params _ T b.2.2 a.2.2 c q.2 r (by rw [e, h3]))
  refine q3.imp (by simp only [loadBounds, hp, hq]) ⟨fun h => h.2, fun h => ⟨⟨h, h⟩, h⟩⟩ ?_
  rintro ⟨⟨e1, e2⟩, e3⟩
  simp only [loadBounds, hp, hq]
  rw [e1, e2, e3]
  cases o.params <;> simp [ofBit_toNat]

theorem alpha_latched (E : Env) (T : Cls) (lt1 : Nat → Bool) (o : Opts) (keep : Nat) (al : Option (Nat × Nat × Nat)) (s : St) (h : s.err ≠ .success) :
    (loadAlpha E T lt1 o keep al s).2 = s := by
  cases al with
  | none => rfl
  | some x => simp only [loadAlpha, ldS_latched E _ _ _ _ s h]

theorem drop_latched {T : Cls} (E : Env) (lt1 : Nat → Bool) (o : Opts) (d : Drop T) (s : St) (h : s.err ≠ .success) : (loadDrop E lt1 o d s).2 = s := by
  have ha := alpha_latched E T lt1 o d.keep d.alpha s h
  simp only [loadDrop]
  generalize loadAlpha E T lt1 o d.keep d.alpha s = al at ha
  obtain ⟨al, s'⟩ := al
  simp only at ha
  subst ha
  simp only [ldS_latched E _ _ _ _ s' h, ldM_latched E _ _ _ s' h]

theorem step_alpha (E : Env) (T : Cls) (lt1 : Nat → Bool) (o : Opts) (keep : Nat) (a b : Option (Nat × Nat × Nat)) (c : Bool) (s : St) (hs : Rdy s)
    (hab : b.isSome = a.isSome)
    (h : ∀ x, a = some x → fget (scope s) "m_a" = (if c then some (numVar T x.1) else none) ∧
      fget (scope s) "m_b" = if c then some (numVar T x.2.1) else none) :
    Step E s (loadAlpha E T lt1 o keep b s) (a.isSome = true → (lt1 keep && o.params) = true → c = true)
      (OptRel3 (fun p q r => r = if o.params && lt1 keep then (p.1, p.2.1, q.2.2) else q) a b) := by
  cases a with
  | none =>
    cases b with
    | none => exact (Step.pure hs (none : Option (Nat × Nat × Nat))).imp rfl (by simp) (fun _ => trivial)
    | some y => simp at hab
  | some x =>
    cases b with
    | none => simp at hab
    | some y =>
      obtain ⟨h1, h2⟩ := h x rfl
      obtain ⟨y1, y2, y3⟩ := y
      have q1 := step_S E (lt1 keep && o.params) "m_a" T y1 x.1 c s hs h1
      generalize hp : ldS E (lt1 keep && o.params) "m_a" T y1 s = p at q1
      have q2 := q1.bind (q := ldS E (lt1 keep && o.params) "m_b" T y2 p.2) hs (fun h => by rw [ldS_latched _ _ _ _ _ _ h])
        (fun r e _ => step_S E _ _ T y2 x.2.1 c p.2 r (by rw [e, h2]))
      refine q2.imp (by simp only [loadAlpha, hp]) (by simp) ?_
      rintro ⟨e1, e2⟩
      simp only [loadAlpha, hp, OptRel3]
      rw [e1, e2, Bool.and_comm]
      split <;> rfl

theorem mask_no_x : ¬ XName "m_dropoutMask" := by decide
theorem orig_no_x : ¬ XName "m_origActivations" := by decide
theorem act_no_x : ¬ XName "m_activations" := by decide
theorem inner_no_x : ¬ XName "m_innerLowerLayerActivations" := by decide

theorem step_drop {T : Cls} (E : Env) (lt1 : Nat → Bool) (p o : Opts) (a d : Drop T) (s : St) (hs : Rdy s) (hab : Drop.Like a d)
    (h : ∀ n c v, (n, c, v) ∈ dropTable lt1 p a → fget (scope s) n = if c then some v else none) :
    Step E s (loadDrop E lt1 o d s) (DropLoads lt1 p o a d) (DropRestored lt1 o a d) := by
  have hk := h "m_dropoutPercentActive" p.params (numVar T a.keep) (by simp [dropTable])
  have hm := h "m_dropoutMask" (p.dmask && lt1 a.keep) (mtxVar a.mask) (by simp [dropTable])
  have ho := h "m_origActivations" (p.dmask && lt1 a.keep) (mtxVar a.orig) (by simp [dropTable])
  have q1 := step_alpha E T lt1 o d.keep a.alpha d.alpha (p.params && lt1 a.keep) s hs hab (by
    intro x hx
    obtain ⟨x1, x2, x3⟩ := x
    exact ⟨h "m_a" _ (numVar T x1) (by simp [dropTable, hx]), h "m_b" _ (numVar T x2) (by simp [dropTable, hx])⟩)
  generalize h0 : loadAlpha E T lt1 o d.keep d.alpha s = al at q1
  have q2 := q1.bind (q := ldS E o.params "m_dropoutPercentActive" T d.keep al.2) hs (fun h => by rw [ldS_latched _ _ _ _ _ _ h])
    (fun r e _ => step_S E o.params _ T d.keep a.keep p.params al.2 r (by rw [e, hk]))
  generalize h1 : ldS E o.params "m_dropoutPercentActive" T d.keep al.2 = k at q2
  have q3 := q2.bind (q := ldM E (lt1 k.1 && o.dmask) "m_dropoutMask" d.mask k.2) hs (fun h => by rw [ldM_latched _ _ _ _ _ h])
    (D := (lt1 (if o.params then a.keep else d.keep) && o.dmask) = true → (p.dmask && lt1 a.keep) = true ∧ NonEmpty a.mask)
    (fun r e q => by
      rw [← q.2]
      exact step_M E (lt1 k.1 && o.dmask) "m_dropoutMask" d.mask a.mask (p.dmask && lt1 a.keep) k.2 r mask_no_x (by rw [e, hm]))
  generalize h2 : ldM E (lt1 k.1 && o.dmask) "m_dropoutMask" d.mask k.2 = m at q3
  have q4 := q3.bind (q := ldM E (lt1 k.1 && o.dmask) "m_origActivations" d.orig m.2) hs (fun h => by rw [ldM_latched _ _ _ _ _ h])
    (D := (lt1 (if o.params then a.keep else d.keep) && o.dmask) = true → (p.dmask && lt1 a.keep) = true ∧ NonEmpty a.orig)
    (fun r e q => by
      rw [← q.1.2]
      exact step_M E (lt1 k.1 && o.dmask) "m_origActivations" d.orig a.orig (p.dmask && lt1 a.keep) m.2 r orig_no_x (by rw [e, ho]))
  refine q4.imp (by simp only [loadDrop, h0, h1, h2]) ?_ ?_
  · simp only [DropLoads, Bool.and_eq_true, and_imp]
    constructor
    · rintro ⟨⟨⟨c1, c2⟩, c3⟩, c4⟩
      exact ⟨c2, fun x y z => (c1 x z y).2, fun x y => ⟨(c3 y x).1.1, (c3 y x).1.2, (c3 y x).2, (c4 y x).2⟩⟩
    · rintro ⟨c1, c2, c3⟩
      exact ⟨⟨⟨fun x y z => ⟨c1 z, c2 x z y⟩, c1⟩, fun x y => ⟨⟨(c3 y x).1, (c3 y x).2.1⟩, (c3 y x).2.2.1⟩⟩,
        fun x y => ⟨⟨(c3 y x).1, (c3 y x).2.1⟩, (c3 y x).2.2.2⟩⟩
  · rintro ⟨⟨⟨e1, e2⟩, e3⟩, e4⟩
    simp only [loadDrop, h0, h1, h2, DropRestored]
    exact ⟨e2, by rw [Bool.and_comm o.dmask]; exact e3, by rw [Bool.and_comm o.dmask]; exact e4, e1⟩

/-! ### Layers -/

theorem loadOpt_latched {α : Type} (f : α → St → α × St) (s : St) (hf : ∀ x, (f x s).2 = s) : ∀ x, (loadOpt f x s).2 = s
  | none => rfl
  | some x => hf x

theorem step_opt {α : Type} {E : Env} {s : St} (hs : Rdy s) (f : α → St → α × St) (a b : Option α) (L : α → α → Prop) (C : α → α → Prop)
    (P : α → α → α → Prop) (hab : OptRel L a b) (h : ∀ x y, a = some x → b = some y → L x y → Step E s (f y s) (C x y) (P x y)) :
    Step E s (loadOpt f b s) (OptRel C a b) (OptRel3 P a b) := by
  cases a with
  | none =>
    cases b with
    | none => exact (Step.pure hs (none : Option α)).imp rfl (by simp [OptRel]) (fun _ => trivial)
    | some y => exact absurd hab id
  | some x =>
    cases b with
    | none => exact absurd hab id
    | some y => exact (h x y rfl rfl hab).imp rfl Iff.rfl (fun h => h)

theorem weights_latched {T : Cls} (E : Env) (b : Bool) (n c : Nat) (w : Mtx (Elem T)) (ini : Bool) (s : St) (h : s.err ≠ .success) :
    (if b then loadWeights E n c w ini s else ((w, ini), s)) = ((w, ini), s) := by
  cases b
  · rfl
  · simp [loadWeights, asNvp, h]

theorem fc_latched {T : Cls} (E : Env) (lt1 : Nat → Bool) (o : Opts) (l : Fc T) (s : St) (h : s.err ≠ .success) : (loadFc E lt1 o l s).2 = s := by
  have hb := loadOpt_latched (loadBounds E T o) s (fun x => bounds_latched E T o x s h) l.bounds
  have hd := loadOpt_latched (loadDrop E lt1 o) s (fun x => drop_latched E lt1 o x s h) l.drop
  simp only [loadFc, weights_latched E o.weights l.neurons l.incoming l.w l.ini s h, hb, hd]

theorem own_latched {T : Cls} (E : Env) (lt1 : Nat → Bool) (o : Opts) (l : Own T) (s : St) (h : s.err ≠ .success) : (loadOwn E lt1 o l s).2 = s := by
  cases l with
  | fc l => exact fc_latched E lt1 o l s h
  | _ => simp only [loadOwn, ldS_latched E _ _ _ _ s h, ldM_latched E _ _ _ s h]

theorem lyr_latched {T : Cls} (E : Env) (lt1 : Nat → Bool) (o : Opts) (l : Lyr T) (s : St) (h : s.err ≠ .success) : loadLyr E lt1 o l s = (l, s) := by
  cases l with
  | node b i own sub => simp [loadLyr, inStruct, h]

theorem lyrs_latched {T : Cls} (E : Env) (lt1 : Nat → Bool) (o : Opts) : ∀ (ls : List (Lyr T)) (s : St), s.err ≠ .success → loadLyrs E lt1 o ls s = (ls, s)
  | [], s, _ => by simp [loadLyrs]
  | l :: ls, s, h => by simp [loadLyrs, lyr_latched E lt1 o l s h, lyrs_latched E lt1 o ls s h]

theorem step_fc {T : Cls} (E : Env) (lt1 : Nat → Bool) (p o : Opts) (a l : Fc T) (s : St) (hs : Rdy s) (hab : Own.Like (.fc a) (.fc l))
    (h : ∀ n c v, (n, c, v) ∈ table lt1 p (.fc a) → fget (scope s) n = if c then some v else none) :
    Step E s (loadFc E lt1 o l s) (Loads lt1 p o (.fc a) (.fc l)) (fun r => Restored lt1 o (.fc a) (.fc l) (.fc r)) := by
  obtain ⟨-, -, hb, hd⟩ := hab
  have hw := h "m_weights" p.weights (mtxVar a.w) (by simp [table])
  have q1 := step_W E o.weights l.neurons l.incoming l.w a.w l.ini p.weights s hs hw
  generalize h0 : (if o.weights = true then loadWeights E l.neurons l.incoming l.w l.ini s else ((l.w, l.ini), s)) = w at q1
  have q2 := q1.bind (q := loadOpt (loadBounds E T o) l.bounds w.2) hs
    (fun h => loadOpt_latched _ _ (fun x => bounds_latched E T o x w.2 h) _)
    (fun r e _ => step_opt r (loadBounds E T o) a.bounds l.bounds (fun _ _ => True) (fun _ _ => o.params = true → p.params = true)
      (fun x y z => z = if o.params then x else y) hb (fun x y hx _ _ => step_bounds E T o x y p.params w.2 r
        (by rw [e]; exact h _ _ _ (by simp [table, hx])) (by rw [e]; exact h _ _ _ (by simp [table, hx])) (by rw [e]; exact h _ _ _ (by simp [table, hx]))))
  generalize h1 : loadOpt (loadBounds E T o) l.bounds w.2 = b at q2
  have q3 := q2.bind (q := loadOpt (loadDrop E lt1 o) l.drop b.2) hs
    (fun h => loadOpt_latched _ _ (fun x => drop_latched E lt1 o x b.2 h) _)
    (fun r e _ => step_opt r (loadDrop E lt1 o) a.drop l.drop Drop.Like (DropLoads lt1 p o) (DropRestored lt1 o) hd
      (fun x y hx _ hxy => step_drop E lt1 p o x y b.2 r hxy (fun n c v hm => by
        rw [e]; exact h n c v (by simp only [table, hx, List.mem_append]; exact .inr hm))))
  refine q3.imp (by simp only [loadFc, h0, h1]) ?_ ?_
  · simp only [Loads, and_assoc]
    refine and_congr Iff.rfl (and_congr ?_ Iff.rfl)
    revert hb
    cases a.bounds <;> cases l.bounds <;> simp [OptRel]
  · rintro ⟨⟨e1, e2⟩, e3⟩
    simp only [loadFc, h0, h1, Restored]
    exact ⟨trivial, trivial, trivial, trivial, e1, e2, e3⟩

theorem step_own {T : Cls} (E : Env) (lt1 : Nat → Bool) (p o : Opts) (a b : Own T) (s : St) (hs : Rdy s) (hab : Own.Like a b)
    (h : ∀ n c v, (n, c, v) ∈ table lt1 p a → fget (scope s) n = if c then some v else none) :
    Step E s (loadOwn E lt1 o b s) (Loads lt1 p o a b) (Restored lt1 o a b) := by
  cases a with
  | input x =>
    cases b <;> try exact absurd hab id
    rename_i y
    exact (Step.pure hs (Own.input y)).imp rfl (by simp [Loads]) (fun _ => rfl)
  | pack =>
    cases b <;> try exact absurd hab id
    exact (Step.pure hs (Own.pack (T := T))).imp rfl (by simp [Loads]) (fun _ => trivial)
  | ident x =>
    cases b <;> try exact absurd hab id
    rename_i y
    exact (step_M E o.act "m_activations" y x p.act s hs act_no_x (h _ _ _ (by simp [table]))).imp rfl Iff.rfl (fun h => h)
  | fc a =>
    cases b <;> try exact absurd hab id
    rename_i l
    exact (step_fc E lt1 p o a l s hs hab h).imp rfl Iff.rfl (fun h => h)
  | tile x x1 k =>
    cases b <;> try exact absurd hab id
    rename_i y y1 k'
    have q1 := step_M E o.act "m_activations" y x p.act s hs act_no_x (h _ _ _ (by simp [table]))
    generalize h0 : ldM E o.act "m_activations" y s = r0 at q1
    have q2 := q1.bind (q := ldM E o.dataX "m_innerLowerLayerActivations" y1 r0.2) hs (fun h => by rw [ldM_latched _ _ _ _ _ h])
      (fun r e _ => step_M E o.dataX _ y1 x1 p.dataX r0.2 r inner_no_x (by rw [e]; exact h _ _ _ (by simp [table])))
    generalize h1 : ldM E o.dataX "m_innerLowerLayerActivations" y1 r0.2 = r1 at q2
    have q3 := q2.bind (q := ldS E true "m_tiles_count" .int32 k' r1.2) hs (fun h => by rw [ldS_latched _ _ _ _ _ _ h])
      (fun r e _ => step_S E true _ .int32 k' k true r1.2 r (by rw [e]; exact h _ _ _ (by simp [table])))
    refine q3.imp (by simp only [loadOwn, h0, h1]) (by simp [Loads]) ?_
    rintro ⟨⟨e1, e2⟩, e3⟩
    simp only [loadOwn, h0, h1, Restored]
    exact ⟨e1, e2, by simpa using e3⟩

/-! ### Any file: what may change -/

theorem bounds_any (E : Env) (T : Cls) (o : Opts) (b : Bool × Nat × Nat) (s : St) (hf : s.file.isSome = true) :
    Kept s (loadBounds E T o b s).2 ∧ (o.params = false → (loadBounds E T o b s).1 = b) := by
  have k1 := ldS_kept E o.params "m_bRestrictdLdZ" .logical b.1.toNat s hf
  have k2 := ldS_kept E o.params "m_dLdZRestrictLowerBnd" T b.2.1 _ (some_kept k1 hf)
  have k3 := ldS_kept E o.params "m_dLdZRestrictUpperBnd" T b.2.2 _ (some_kept k2 (some_kept k1 hf))
  refine ⟨(k1.trans k2).trans k3, fun h => ?_⟩
  simp only [loadBounds, h, ldS_off, ofBit_toNat]

theorem alpha_any (E : Env) (T : Cls) (lt1 : Nat → Bool) (o : Opts) (keep : Nat) (al : Option (Nat × Nat × Nat)) (s : St) (hf : s.file.isSome = true) :
    Kept s (loadAlpha E T lt1 o keep al s).2 ∧ (o.params = false → (loadAlpha E T lt1 o keep al s).1 = al) ∧
      OptRel (fun x y => y.2.2 = x.2.2) al (loadAlpha E T lt1 o keep al s).1 := by
  cases al with
  | none => exact ⟨Kept.refl s, fun _ => rfl, trivial⟩
  | some x =>
    obtain ⟨a, b, v⟩ := x
    have k1 := ldS_kept E (lt1 keep && o.params) "m_a" T a s hf
    have k2 := ldS_kept E (lt1 keep && o.params) "m_b" T b _ (some_kept k1 hf)
    refine ⟨k1.trans k2, fun h => ?_, rfl⟩
    simp only [loadAlpha, h, Bool.and_false, ldS_off]

theorem drop_any {T : Cls} (E : Env) (lt1 : Nat → Bool) (o : Opts) (d : Drop T) (s : St) (hf : s.file.isSome = true) :
    Kept s (loadDrop E lt1 o d s).2 ∧
    (o.params = false → (loadDrop E lt1 o d s).1.keep = d.keep ∧ (loadDrop E lt1 o d s).1.alpha = d.alpha) ∧
    (o.dmask = false → (loadDrop E lt1 o d s).1.mask = d.mask ∧ (loadDrop E lt1 o d s).1.orig = d.orig) ∧
    OptRel (fun x y => y.2.2 = x.2.2) d.alpha (loadDrop E lt1 o d s).1.alpha := by
  obtain ⟨k1, a1, a2⟩ := alpha_any E T lt1 o d.keep d.alpha s hf
  simp only [loadDrop]
  generalize loadAlpha E T lt1 o d.keep d.alpha s = al at *
  have f1 := some_kept k1 hf
  have k2 := ldS_kept E o.params "m_dropoutPercentActive" T d.keep al.2 f1
  have e2 : o.params = false → (ldS E o.params "m_dropoutPercentActive" T d.keep al.2).1 = d.keep := fun h => by rw [h]; rfl
  generalize ldS E o.params "m_dropoutPercentActive" T d.keep al.2 = k at *
  have f2 := some_kept k2 f1
  have k3 := ldM_kept E (lt1 k.1 && o.dmask) "m_dropoutMask" d.mask k.2 f2 mask_no_x
  have e3 : o.dmask = false → (ldM E (lt1 k.1 && o.dmask) "m_dropoutMask" d.mask k.2).1 = d.mask := fun h => by rw [h, Bool.and_false]; rfl
  generalize ldM E (lt1 k.1 && o.dmask) "m_dropoutMask" d.mask k.2 = m at *
  have f3 := some_kept k3 f2
  have k4 := ldM_kept E (lt1 k.1 && o.dmask) "m_origActivations" d.orig m.2 f3 orig_no_x
  have e4 : o.dmask = false → (ldM E (lt1 k.1 && o.dmask) "m_origActivations" d.orig m.2).1 = d.orig := fun h => by rw [h, Bool.and_false]; rfl
  exact ⟨((k1.trans k2).trans k3).trans k4, fun h => ⟨e2 h, a1 h⟩, fun h => ⟨e3 h, e4 h⟩, a2⟩

theorem opt_any {α : Type} (f : α → St → α × St) (R : α → α → Prop) (s : St) (h : ∀ x, Kept s (f x s).2 ∧ R x (f x s).1) (a : Option α) :
    Kept s (loadOpt f a s).2 ∧ OptRel R a (loadOpt f a s).1 := by
  cases a with
  | none => exact ⟨Kept.refl s, trivial⟩
  | some x => exact h x

theorem own_any {T : Cls} (E : Env) (lt1 : Nat → Bool) (o : Opts) (l : Own T) (s : St) (hf : s.file.isSome = true) :
    Kept s (loadOwn E lt1 o l s).2 ∧ Governed o l (loadOwn E lt1 o l s).1 := by
  cases l with
  | input x => exact ⟨Kept.refl s, rfl⟩
  | pack => exact ⟨Kept.refl s, trivial⟩
  | ident x => exact ⟨ldM_kept E o.act _ x s hf act_no_x, fun h => by rw [h]; rfl⟩
  | tile x y k =>
    have k1 := ldM_kept E o.act "m_activations" x s hf act_no_x
    have k2 := ldM_kept E o.dataX "m_innerLowerLayerActivations" y _ (some_kept k1 hf) inner_no_x
    have k3 := ldS_kept E true "m_tiles_count" .int32 k _ (some_kept k2 (some_kept k1 hf))
    refine ⟨(k1.trans k2).trans k3, fun h => ?_, fun h => ?_⟩
    · rw [h]; rfl
    · rw [h]; rfl
  | fc l =>
    have kw : Kept s (if o.weights = true then loadWeights E l.neurons l.incoming l.w l.ini s else ((l.w, l.ini), s)).2 ∧
        (((if o.weights = true then loadWeights E l.neurons l.incoming l.w l.ini s else ((l.w, l.ini), s)).1 = (l.w, l.ini)) ∨
          (o.weights = true ∧ (if o.weights = true then loadWeights E l.neurons l.incoming l.w l.ini s else ((l.w, l.ini), s)).1.2 = true ∧
            Fits l.neurons l.incoming (if o.weights = true then loadWeights E l.neurons l.incoming l.w l.ini s else ((l.w, l.ini), s)).1.1)) := by
      by_cases hw : o.weights = true
      · rw [if_pos hw]
        obtain ⟨a, b, -⟩ := loadWeights_any E l.neurons l.incoming l.w l.ini s hf
        exact ⟨a, b.imp id fun h => ⟨hw, h⟩⟩
      · rw [if_neg hw]
        exact ⟨Kept.refl s, .inl rfl⟩
    simp only [loadOwn, loadFc, Governed]
    generalize (if o.weights = true then loadWeights E l.neurons l.incoming l.w l.ini s else ((l.w, l.ini), s)) = w at *
    obtain ⟨k1, e1⟩ := kw
    have f1 := some_kept k1 hf
    obtain ⟨k2, e2⟩ := opt_any (loadBounds E T o) (fun x y => o.params = false → y = x) w.2 (fun x => bounds_any E T o x w.2 f1) l.bounds
    generalize loadOpt (loadBounds E T o) l.bounds w.2 = b at *
    have f2 := some_kept k2 f1
    obtain ⟨k3, e3⟩ := opt_any (loadDrop E lt1 o) (fun d d' => (o.params = false → d'.keep = d.keep ∧ d'.alpha = d.alpha) ∧
      (o.dmask = false → d'.mask = d.mask ∧ d'.orig = d.orig) ∧ OptRel (fun x y => y.2.2 = x.2.2) d.alpha d'.alpha) b.2
      (fun x => drop_any E lt1 o x b.2 f2) l.drop
    refine ⟨(k1.trans k2).trans k3, trivial, trivial, trivial, trivial, ?_, e2, e3⟩
    rcases e1 with e1 | e1
    · exact .inl ⟨by rw [e1], by rw [e1]⟩
    · exact .inr e1

theorem opt_refl {α : Type} {R : α → α → Prop} (h : ∀ x, R x x) : ∀ a : Option α, OptRel R a a
  | none => trivial
  | some x => h x

theorem governed_refl {T : Cls} (o : Opts) (x : Own T) : Governed o x x := by
  cases x with
  | fc l => exact ⟨rfl, rfl, rfl, rfl, .inl ⟨rfl, rfl⟩, opt_refl (fun _ _ => rfl) _,
      opt_refl (fun _ => ⟨fun _ => ⟨rfl, rfl⟩, fun _ => ⟨rfl, rfl⟩, opt_refl (α := Nat × Nat × Nat) (R := fun x y => y.2.2 = x.2.2) (fun _ => rfl) _⟩) _⟩
  | _ => simp [Governed]

mutual
theorem rel2_refl {T : Cls} {R : Own T → Own T → Prop} (h : ∀ x, R x x) : ∀ l : Lyr T, l.Rel2 R l
  | .node b i x s => by simp only [Lyr.Rel2, true_and]; exact ⟨h x, allRel2_refl h s⟩
theorem allRel2_refl {T : Cls} {R : Own T → Own T → Prop} (h : ∀ x, R x x) : ∀ l : List (Lyr T), AllRel2 R l l
  | [] => by simp [AllRel2]
  | l :: ls => by simp only [AllRel2]; exact ⟨rel2_refl h l, allRel2_refl h ls⟩
end

mutual
theorem lyr_any {T : Cls} (E : Env) (lt1 : Nat → Bool) (o : Opts) : ∀ (l : Lyr T) (s : St), s.file.isSome = true →
    Kept s (loadLyr E lt1 o l s).2 ∧ l.Rel2 (Governed o) (loadLyr E lt1 o l s).1
  | .node b i own sub, s, hf => by
    have body : ∀ s1 : St, s1.file.isSome = true →
        Kept s1 (loadLyrs E lt1 o sub (loadOwn E lt1 o own s1).2).2 ∧ Governed o own (loadOwn E lt1 o own s1).1 ∧
        AllRel2 (Governed o) sub (loadLyrs E lt1 o sub (loadOwn E lt1 o own s1).2).1 := by
      intro s1 h1
      obtain ⟨a, b⟩ := own_any E lt1 o own s1 h1
      obtain ⟨c, d⟩ := lyrs_any E lt1 o sub _ (some_kept a h1)
      exact ⟨a.trans c, b, d⟩
    obtain ⟨h1, h2⟩ := inStruct_any E (NetFile.label b i) (own, sub) (fun s =>
      ((((loadOwn E lt1 o own s).1, (loadLyrs E lt1 o sub (loadOwn E lt1 o own s).2).1)), (loadLyrs E lt1 o sub (loadOwn E lt1 o own s).2).2)) s hf
      (fun s1 h => (body s1 h).1)
    simp only [loadLyr, Lyr.Rel2, true_and]
    refine ⟨h1, ?_⟩
    rcases h2 with ⟨h2, -⟩ | ⟨fs, k, -, -, -, h2⟩
    · rw [h2]; exact ⟨governed_refl o own, allRel2_refl (governed_refl o) sub⟩
    · rw [h2]; exact (body ⟨s.file, none, fs :: s.stack, .success, k⟩ hf).2
theorem lyrs_any {T : Cls} (E : Env) (lt1 : Nat → Bool) (o : Opts) : ∀ (ls : List (Lyr T)) (s : St), s.file.isSome = true →
    Kept s (loadLyrs E lt1 o ls s).2 ∧ AllRel2 (Governed o) ls (loadLyrs E lt1 o ls s).1
  | [], s, _ => by simp only [loadLyrs, AllRel2, and_true]; exact Kept.refl s
  | l :: ls, s, hf => by
    simp only [loadLyrs, AllRel2]
    obtain ⟨a, b⟩ := lyr_any E lt1 o l s hf
    obtain ⟨c, d⟩ := lyrs_any E lt1 o ls _ (some_kept a hf)
    exact ⟨a.trans c, b, d⟩
end

/-! ### A file that was saved -/

mutual
theorem step_lyr {T : Cls} (E : Env) (lt1 : Nat → Bool) (p o : Opts) : ∀ (a b : Lyr T) (s : St), Rdy s → a.Rel2 Own.Like b →
    a.Stored lt1 p (scope s) → Step E s (loadLyr E lt1 o b s) (a.Rel2 (Loads lt1 p o) b) (fun r => a.Rel3 (Restored lt1 o) b r)
  | .node b i x sub, .node b' i' y sub', s, hs, hab, hst => by
    simp only [Lyr.Rel2] at hab
    obtain ⟨rfl, rfl, hxy, hsub⟩ := hab
    simp only [Lyr.Stored] at hst
    obtain ⟨fs, hl, htab, -, hall⟩ := hst
    let body : St → (Own T × List (Lyr T)) × St := fun s =>
      ((((loadOwn E lt1 o y s).1, (loadLyrs E lt1 o sub' (loadOwn E lt1 o y s).2).1)), (loadLyrs E lt1 o sub' (loadOwn E lt1 o y s).2).2)
    have hkept : ∀ s1 : St, s1.file.isSome = true → Kept s1 (body s1).2 := by
      intro s1 h1
      have a := (own_any E lt1 o y s1 h1).1
      exact a.trans (lyrs_any E lt1 o sub' _ (some_kept a h1)).1
    have hbody : ∀ k, Step E ⟨s.file, none, fs :: s.stack, .success, k⟩ (body ⟨s.file, none, fs :: s.stack, .success, k⟩)
        (Loads lt1 p o x y ∧ AllRel2 (Loads lt1 p o) sub sub') (fun r => Restored lt1 o x y r.1 ∧ AllRel3 (Restored lt1 o) sub sub' r.2) := by
      intro k
      have hr : Rdy ⟨s.file, none, fs :: s.stack, .success, k⟩ := ⟨hs.file, rfl, rfl⟩
      have q1 := step_own E lt1 p o x y ⟨s.file, none, fs :: s.stack, .success, k⟩ hr hxy htab
      have q2 := q1.bind (q := loadLyrs E lt1 o sub' (loadOwn E lt1 o y ⟨s.file, none, fs :: s.stack, .success, k⟩).2) hr
        (fun h => by rw [lyrs_latched E lt1 o sub' _ h])
        (fun r e _ => step_lyrs E lt1 p o sub sub' _ r hsub (by rw [e]; exact hall))
      exact q2.imp rfl Iff.rfl (fun h => h)
    obtain ⟨h1, h2⟩ := inStruct_any E (NetFile.label b i) (y, sub') body s hs.file hkept
    have Q : Step E s (inStruct E (NetFile.label b i) (y, sub') body s)
        (Loads lt1 p o x y ∧ AllRel2 (Loads lt1 p o) sub sub') (fun r => Restored lt1 o x y r.1 ∧ AllRel3 (Restored lt1 o) sub sub' r.2) := by
      refine ⟨h1, fun h => ?_, fun hE h => ?_⟩
      · rcases h2 with ⟨-, h2⟩ | ⟨fs', k, -, -, hl', h2⟩
        · exact absurd h h2
        · rw [show NetFile.label b i = b ++ "_" ++ i.repr from rfl, hl] at hl'
          cases hl'
          rw [h2] at h ⊢
          obtain ⟨c1, c2, c3⟩ := (hbody k).ok h
          exact ⟨c1, c2, c3⟩
      · exact inStruct_total E hE (NetFile.label b i) (y, sub') body s hs.file hs.err hs.cur fs hl (fun k => (hbody k).total hE h)
    exact Q.imp (by simp only [loadLyr]; rfl) (by simp only [Lyr.Rel2, true_and]) (fun h => by simp only [loadLyr, Lyr.Rel3, true_and]; exact h)
theorem step_lyrs {T : Cls} (E : Env) (lt1 : Nat → Bool) (p o : Opts) : ∀ (a b : List (Lyr T)) (s : St), Rdy s → AllRel2 Own.Like a b →
    AllStored lt1 p (scope s) a → Step E s (loadLyrs E lt1 o b s) (AllRel2 (Loads lt1 p o) a b) (fun r => AllRel3 (Restored lt1 o) a b r)
  | [], [], s, hs, _, _ => by
    simp only [loadLyrs, AllRel2]
    exact (Step.pure hs ([] : List (Lyr T))).imp rfl Iff.rfl (fun h => by rw [h]; simp [AllRel3])
  | [], _ :: _, s, hs, hab, _ => by simp [AllRel2] at hab
  | _ :: _, [], s, hs, hab, _ => by simp [AllRel2] at hab
  | a :: as, b :: bs, s, hs, hab, hst => by
    simp only [AllRel2] at hab
    simp only [AllStored] at hst
    have q1 := step_lyr E lt1 p o a b s hs hab.1 hst.1
    have q2 := q1.bind (q := loadLyrs E lt1 o bs (loadLyr E lt1 o b s).2) hs (fun h => by rw [lyrs_latched E lt1 o bs _ h])
      (fun r e _ => step_lyrs E lt1 p o as bs _ r hab.2 (by rw [e]; exact hst.2))
    exact q2.imp (by simp only [loadLyrs]) (by simp only [AllRel2]) (fun h => by simp only [loadLyrs, AllRel3]; exact h)
end

end Nntl.NetState
