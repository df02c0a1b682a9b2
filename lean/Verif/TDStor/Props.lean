import Verif.TDStor.Spec
import Verif.Matrix.Props
/-! C125-C127: train data kept in memory. -/
namespace Nntl.TDStor
open Nntl.Matrix
open Nntl.JsonFile (TD Env absorbOk)
variable {α β : Type}

theorem proper_filled {m : Mtx α} (h : Proper m) (h0 : m.empty = false) : Filled m := by
  rcases h with h | ⟨h, -⟩
  · exact h
  · simp [Mtx.empty, h] at h0

theorem filled_nonempty {m : Mtx α} (h : Filled m) : m.empty = false := by simp [Mtx.empty, h.mem]

theorem coherent_nonempty {d : TD α β} (h : Coherent d) : empty d = false := by
  obtain ⟨h1, h2, h3, h4⟩ := h.filled
  simp [empty, filled_nonempty h1, filled_nonempty h2, filled_nonempty h3, filled_nonempty h4]

theorem nothing_empty {d : TD α β} (h : Nothing d) : empty d = true := by simp [empty, Mtx.empty, h.trainX.1]

theorem absorbOk_iff {a : TD α β} (h1 : Proper a.trainX) (h2 : Proper a.trainY) (h3 : Proper a.testX) (h4 : Proper a.testY) (hu : AllUsual a) :
    absorbOk a = true ↔ Coherent a := by
  obtain ⟨u1, u2, u3, u4⟩ := hu
  simp only [Usual] at u1 u2 u3 u4
  constructor
  · intro h
    simp only [absorbOk, Bool.and_eq_true, Bool.not_eq_true', beq_iff_eq] at h
    obtain ⟨⟨⟨⟨⟨⟨⟨⟨⟨⟨⟨⟨⟨⟨⟨e1, e2⟩, e3⟩, e4⟩, e5⟩, e6⟩, e7⟩, e8⟩, e9⟩, e10⟩, e11⟩, e12⟩, e13⟩, e14⟩, e15⟩, e16⟩ := h
    exact ⟨⟨proper_filled h1 e1, proper_filled h2 e2, proper_filled h3 e4, proper_filled h4 e5⟩, by simp [samples, u1, u2, e3],
      by simp [samples, u3, u4, e6], by simp [width, u1, u3, e8], by simp [width, u2, u4, e7], ⟨e9, e10, e11, e12⟩, e13, e14, e15, e16⟩
  · intro h
    obtain ⟨⟨f1, f2, f3, f4⟩, g1, g2, g3, g4, ⟨b1, b2, b3, b4⟩, o1, o2, o3, o4⟩ := h
    simp only [samples, width, u1, u2, u3, u4, Bool.false_eq_true, if_false] at g1 g2 g3 g4
    simp [absorbOk, filled_nonempty f1, filled_nonempty f2, filled_nonempty f3, filled_nonempty f4, g1, g2, g3, g4, b1, b2, b3, b4, o1, o2, o3, o4]

theorem gone_nothing (d : TD α β) : Nothing (TD.map gone gone d) := ⟨⟨rfl, rfl, rfl⟩, ⟨rfl, rfl, rfl⟩, ⟨rfl, rfl, rfl⟩, ⟨rfl, rfl, rfl⟩⟩
theorem clear_nothing (d : TD α β) : Nothing (clear d) := ⟨⟨rfl, rfl, rfl⟩, ⟨rfl, rfl, rfl⟩, ⟨rfl, rfl, rfl⟩, ⟨rfl, rfl, rfl⟩⟩

/-! ### C126: what goes in comes out -/

/-- **C126, absorb.** Matrices in the usual layout are accepted exactly if they fit together. Then the object has them, and the arguments are
empty; else neither the object nor the arguments change. -/
theorem absorb_result (d a : TD α β) (h1 : Proper a.trainX) (h2 : Proper a.trainY) (h3 : Proper a.testX) (h4 : Proper a.testY) (hu : AllUsual a) :
    (Coherent a ∧ ∃ left, absorb d a = (a, left, true) ∧ Nothing left) ∨ (¬ Coherent a ∧ absorb d a = (d, a, false)) := by
  unfold absorb
  by_cases h : absorbOk a = true
  · exact .inl ⟨(absorbOk_iff h1 h2 h3 h4 hu).1 h, _, if_pos h, gone_nothing a⟩
  · exact .inr ⟨fun h' => h ((absorbOk_iff h1 h2 h3 h4 hu).2 h'), if_neg h⟩

/-- **C126, extract.** All that is stored is handed over and nothing stays; with nothing stored it must not be called. -/
theorem extract_result (d : TD α β) :
    (Coherent d → ∃ d', extract d = some (d', d) ∧ Nothing d') ∧ (Nothing d → extract d = none) :=
  ⟨fun h => ⟨_, by simp [extract, coherent_nonempty h], gone_nothing d⟩, fun h => by simp [extract, nothing_empty h]⟩

/-- **C126, assignment.** -/
theorem assign_result (d r : TD α β) :
    (Coherent r → ∃ left, assign d r = (r, left) ∧ Nothing left) ∧ (Nothing r → ∃ d', assign d r = (d', r) ∧ Nothing d') :=
  ⟨fun h => ⟨_, by simp [assign, coherent_nonempty h], gone_nothing r⟩, fun h => ⟨_, by simp [assign, nothing_empty h], clear_nothing d⟩⟩

/-- **C126, replace_Y.** New labels in the usual layout are accepted exactly if they fit the stored samples; the samples stay as they are. -/
theorem replace_result (d : TD α β) (hd : Coherent d) (hy : Usual d.trainY ∧ Usual d.testY) (t s : Mtx β) (ht : Proper t) (hs : Proper s)
    (hu : Usual t ∧ Usual s) :
    (Coherent { d with trainY := t, testY := s } ∧ replaceY d t s = ({ d with trainY := t, testY := s }, true)) ∨
    (¬ Coherent { d with trainY := t, testY := s } ∧ replaceY d t s = (d, false)) := by
  obtain ⟨⟨f1, f2, f3, f4⟩, g1, g2, g3, g4, ⟨b1, b2, b3, b4⟩, o1, o2, o3, o4⟩ := hd
  obtain ⟨y1, y2⟩ := hy
  obtain ⟨u1, u2⟩ := hu
  simp only [Usual] at y1 y2 u1 u2
  have e1 : samples d.trainY = d.trainY.rows := by simp [samples, y1]
  have e2 : samples d.testY = d.testY.rows := by simp [samples, y2]
  have e3 : samples t = t.rows ∧ width t = t.cols := by simp [samples, width, u1]
  have e4 : samples s = s.rows ∧ width s = s.cols := by simp [samples, width, u2]
  have key : replaceOk d t s = true ↔ Coherent { d with trainY := t, testY := s } := by
    constructor
    · intro h
      simp only [replaceOk, Bool.and_eq_true, Bool.not_eq_true', beq_iff_eq] at h
      obtain ⟨⟨⟨⟨⟨⟨⟨⟨k1, k2⟩, k3⟩, k4⟩, k5⟩, k6⟩, k7⟩, k8⟩, k9⟩ := h
      exact ⟨⟨f1, proper_filled ht k1, f3, proper_filled hs k3⟩, (by show samples d.trainX = samples t; omega), (by show samples d.testX = samples s; omega),
        g3, (by show width t = width s; omega), ⟨b1, b2, k6, k7⟩, o1, o2, k8, k9⟩
    · rintro ⟨⟨-, k1, -, k2⟩, k3, k4, -, k5, ⟨-, -, k6, k7⟩, -, -, k8, k9⟩
      simp only at k1 k2 k3 k4 k5 k6 k7 k8 k9
      have q1 : t.rows = d.trainY.rows := by omega
      have q2 : s.rows = d.testY.rows := by omega
      have q3 : t.cols = s.cols := by omega
      simp [replaceOk, filled_nonempty k1, filled_nonempty k2, q1, q2, q3, k6, k7, k8, k9]
  unfold replaceY
  by_cases h : replaceOk d t s = true
  · exact .inl ⟨key.1 h, if_pos h⟩
  · exact .inr ⟨fun h' => h (key.2 h'), if_neg h⟩

theorem cloneNew_true [OfNat α 1] (m c : Mtx α) (e : Env α) (h : cloneNew m e = some (c, true)) :
    c.eqv m ∧ c.rows = m.rows ∧ c.cols = m.cols ∧ c.emul = m.emul ∧ c.bir = m.bir := by
  unfold cloneNew at h
  cases hc : m.cloneTo (Mtx.default e.junk) e.junk e.ok with
  | none => rw [hc] at h; simp at h
  | some p =>
    obtain ⟨c', b⟩ := p
    rw [hc] at h
    simp only [Option.map_some, Option.some.injEq, Prod.mk.injEq] at h
    obtain ⟨h1, rfl⟩ := h
    simp only [if_true] at h1
    subst h1
    obtain ⟨k, -, -, -, -⟩ := clone_to_equal m _ c' _ _ hc
    exact ⟨k, k.2.2.1, k.2.2.2.1, k.1, k.2.1⟩

theorem cloneNew_ok [OfNat α 1] (m : Mtx α) (e : Env α) (hf : Filled m) (hk : e.ok = true) :
    ∃ c, cloneNew m e = some (c, true) ∧ Filled c ∧ c.ext = false := by
  have hr := hf.rows
  have hc := hf.cols
  have hp : 0 < m.rows * m.cols := Nat.mul_pos hr hc
  have h1 : m.cloneTo (Mtx.default e.junk) e.junk true = some ((m.copyTo
      ⟨e.junk, m.rows * m.cols, m.rows, m.cols, m.emul, false, false, false, 0⟩)) := by
    simp only [Mtx.cloneTo, Mtx.default, Mtx.resize, Mtx.implResize, Bool.false_eq_true, if_false, Bool.false_and, Bool.toNat_false, Nat.add_zero,
      if_neg (show ¬ (m.rows = 0 ∨ m.cols = 0) by omega), if_neg (show ¬ (m.rows = 0 ∧ m.cols = 0) by omega), Bool.and_false, if_true]
  have h2 : m.copyTo ⟨e.junk, m.rows * m.cols, m.rows, m.cols, m.emul, false, false, false, 0⟩ =
      (⟨copyN e.junk m.data m.numel, m.rows * m.cols, m.rows, m.cols, m.emul, false, m.holey, m.bir, 0⟩, true) := by
    simp [Mtx.copyTo, Mtx.numel]
  refine ⟨⟨copyN e.junk m.data m.numel, m.rows * m.cols, m.rows, m.cols, m.emul, false, m.holey, m.bir, m.numel⟩, ?_, ⟨?_, hr, hc⟩, rfl⟩
  · rw [cloneNew, hk, h1, h2]
    rfl
  · show m.rows * m.cols ≠ 0
    omega

/-- The five ways a duplication ends. -/
theorem dupe_cases [OfNat α 1] [OfNat β 1] (d : TD α β) (e1 e3 : Env α) (e2 e4 : Env β) (dest r : TD α β) (b : Bool)
    (h : dupe d e1 e3 e2 e4 dest = some (r, b)) :
    (b = false ∧ r = dest) ∨
    (b = true ∧ absorbOk r = true ∧ cloneNew d.trainX e1 = some (r.trainX, true) ∧ cloneNew d.trainY e2 = some (r.trainY, true) ∧
      cloneNew d.testX e3 = some (r.testX, true) ∧ cloneNew d.testY e4 = some (r.testY, true)) := by
  unfold dupe at h
  cases h1 : cloneNew d.trainX e1 with
  | none => simp [h1] at h
  | some p1 =>
    obtain ⟨c1, b1⟩ := p1
    cases b1 with
    | false => simp [h1] at h; exact .inl ⟨h.2, h.1.symm⟩
    | true =>
      cases h2 : cloneNew d.trainY e2 with
      | none => simp [h1, h2] at h
      | some p2 =>
        obtain ⟨c2, b2⟩ := p2
        cases b2 with
        | false => simp [h1, h2] at h; exact .inl ⟨h.2, h.1.symm⟩
        | true =>
          cases h3 : cloneNew d.testX e3 with
          | none => simp [h1, h2, h3] at h
          | some p3 =>
            obtain ⟨c3, b3⟩ := p3
            cases b3 with
            | false => simp [h1, h2, h3] at h; exact .inl ⟨h.2, h.1.symm⟩
            | true =>
              cases h4 : cloneNew d.testY e4 with
              | none => simp [h1, h2, h3, h4] at h
              | some p4 =>
                obtain ⟨c4, b4⟩ := p4
                cases b4 with
                | false => simp [h1, h2, h3, h4] at h; exact .inl ⟨h.2, h.1.symm⟩
                | true =>
                  simp only [h1, h2, h3, h4, Option.bind_eq_bind, Option.bind_some, Bool.not_true, Bool.false_eq_true, if_false, absorb, pure] at h
                  by_cases ha : absorbOk (⟨c1, c2, c3, c4⟩ : TD α β) = true
                  · rw [if_pos ha] at h
                    simp only [Option.some.injEq, Prod.mk.injEq] at h
                    obtain ⟨rfl, rfl⟩ := h
                    exact .inr ⟨rfl, ha, rfl, rfl, rfl, rfl⟩
                  · rw [if_neg ha] at h
                    simp only [Option.some.injEq, Prod.mk.injEq] at h
                    exact .inl ⟨h.2.symm, h.1.symm⟩

/-- **C126, dupe.** A successful duplication gives equal data; one that fails leaves the destination as it was. -/
theorem dupe_result [OfNat α 1] [OfNat β 1] (d : TD α β) (e1 e3 : Env α) (e2 e4 : Env β) (dest r : TD α β) (b : Bool)
    (h : dupe d e1 e3 e2 e4 dest = some (r, b)) : (b = true ∧ SameData r d) ∨ (b = false ∧ r = dest) := by
  rcases dupe_cases d e1 e3 e2 e4 dest r b h with h | ⟨h0, -, h1, h2, h3, h4⟩
  · exact .inr h
  · exact .inl ⟨h0, (cloneNew_true _ _ _ h1).1, (cloneNew_true _ _ _ h2).1, (cloneNew_true _ _ _ h3).1, (cloneNew_true _ _ _ h4).1⟩

/-- **C126, dupe.** Data in the usual layout are duplicated if there is memory. Of data in the other layout this is false
(`transposed_not_duplicated`). -/
theorem dupe_succeeds_partial [OfNat α 1] [OfNat β 1] (d : TD α β) (hd : Coherent d) (hu : AllUsual d) (e1 e3 : Env α) (e2 e4 : Env β)
    (hk : e1.ok = true ∧ e2.ok = true ∧ e3.ok = true ∧ e4.ok = true) (dest : TD α β) :
    ∃ r, dupe d e1 e3 e2 e4 dest = some (r, true) ∧ Coherent r := by
  obtain ⟨⟨f1, f2, f3, f4⟩, g1, g2, g3, g4, ⟨b1, b2, b3, b4⟩, -⟩ := hd
  obtain ⟨u1, u2, u3, u4⟩ := hu
  obtain ⟨k1, k2, k3, k4⟩ := hk
  obtain ⟨c1, p1, q1, x1⟩ := cloneNew_ok d.trainX e1 f1 k1
  obtain ⟨c2, p2, q2, x2⟩ := cloneNew_ok d.trainY e2 f2 k2
  obtain ⟨c3, p3, q3, x3⟩ := cloneNew_ok d.testX e3 f3 k3
  obtain ⟨c4, p4, q4, x4⟩ := cloneNew_ok d.testY e4 f4 k4
  obtain ⟨-, r1, s1, t1, v1⟩ := cloneNew_true _ _ _ p1
  obtain ⟨-, r2, s2, t2, v2⟩ := cloneNew_true _ _ _ p2
  obtain ⟨-, r3, s3, t3, v3⟩ := cloneNew_true _ _ _ p3
  obtain ⟨-, r4, s4, t4, v4⟩ := cloneNew_true _ _ _ p4
  simp only [samples, width] at g1 g2 g3 g4
  have hc : Coherent (⟨c1, c2, c3, c4⟩ : TD α β) :=
    ⟨⟨q1, q2, q3, q4⟩, (by simp only [samples, r1, s1, v1, r2, s2, v2]; exact g1), (by simp only [samples, r3, s3, v3, r4, s4, v4]; exact g2),
      (by simp only [width, r1, s1, v1, r3, s3, v3]; exact g3), (by simp only [width, r2, s2, v2, r4, s4, v4]; exact g4),
      ⟨t1.trans b1, t3.trans b2, t2.trans b3, t4.trans b4⟩, x1, x3, x2, x4⟩
  have ha : absorbOk (⟨c1, c2, c3, c4⟩ : TD α β) = true :=
    (absorbOk_iff (a := ⟨c1, c2, c3, c4⟩) (.inl q1) (.inl q2) (.inl q3) (.inl q4) ⟨v1.trans u1, v2.trans u2, v3.trans u3, v4.trans u4⟩).2 hc
  exact ⟨_, by simp [dupe, p1, p2, p3, p4, absorb, ha], hc⟩

/-! ### C127: transposition -/

theorem imatcopy_at (d : Nat → α) (R C r c : Nat) (hr : r < R) (hc : c < C) : imatcopy d R C (c + C * r) = d (r + R * c) := by
  have h1 : c + C * r < R * C := by rw [Nat.mul_comm R C]; exact cell_lt hc hr
  have h2 : (c + C * r) % C = c := by rw [Nat.add_mul_mod_self_left]; exact Nat.mod_eq_of_lt hc
  have h3 : (c + C * r) / C = r := by
    rw [Nat.add_mul_div_left _ _ (by omega), Nat.div_eq_of_lt hc, Nat.zero_add]
  simp only [imatcopy, if_pos h1, h2, h3]

/-- Transposition of one matrix. -/
theorem transposeMtx_spec (m : Mtx α) (hf : Filled m) :
    ∃ m', transposeMtx m = some m' ∧ Filled m' ∧ m'.rows = m.cols ∧ m'.cols = m.rows ∧ m'.bir = !m.bir ∧ m'.emul = m.emul ∧ m'.ext = m.ext ∧
      m'.holey = m.holey ∧ m'.cap = m.cap ∧ ∀ r c, m'.get c r = m.get r c := by
  obtain ⟨h0, hr, hc⟩ := hf
  unfold transposeMtx
  by_cases h : m.rows > 1 ∧ m.cols > 1
  · rw [if_pos h]
    refine ⟨{ m with data := imatcopy m.data m.rows m.cols, rows := m.cols, cols := m.rows, bir := !m.bir },
      by simp [Mtx.onTransposition, Mtx.empty, h0]; omega, ⟨h0, hc, hr⟩, rfl, rfl, rfl, rfl, rfl, rfl, rfl, ?_⟩
    intro r c
    simp only [Mtx.get, Mtx.cell]
    by_cases hb : r < m.rows ∧ c < m.cols
    · rw [if_pos ⟨hb.2, hb.1⟩, if_pos hb, imatcopy_at _ _ _ _ _ hb.1 hb.2]
    · rw [if_neg (fun k => hb ⟨k.2, k.1⟩), if_neg hb]
  · rw [if_neg h]
    refine ⟨{ m with rows := m.cols, cols := m.rows, bir := !m.bir },
      by simp [Mtx.onTransposition, Mtx.empty, h0]; omega, ⟨h0, hc, hr⟩, rfl, rfl, rfl, rfl, rfl, rfl, rfl, ?_⟩
    intro r c
    simp only [Mtx.get, Mtx.cell]
    by_cases hb : r < m.rows ∧ c < m.cols
    · rw [if_pos ⟨hb.2, hb.1⟩, if_pos hb]
      have : c + m.cols * r = r + m.rows * c := by
        by_cases h1 : m.rows = 1
        · have : r = 0 := by omega
          subst this
          rw [h1]; omega
        · have h2 : m.cols = 1 := by omega
          have : c = 0 := by omega
          subst this
          rw [h2]; omega
      rw [this]
    · rw [if_neg (fun k => hb ⟨k.2, k.1⟩), if_neg hb]

/-- What a transposition keeps: the samples. -/
structure Turned (m m' : Mtx α) : Prop where
  filled : Filled m'
  layout : m'.bir = !m.bir
  samples : samples m' = samples m
  width : width m' = width m
  same : ∀ s f, at' m' s f = at' m s f
  emul : m'.emul = m.emul
  ext : m'.ext = m.ext

theorem transposeMtx_turned (m : Mtx α) (hf : Filled m) : ∃ m', transposeMtx m = some m' ∧ Turned m m' := by
  obtain ⟨m', h, k1, k2, k3, k4, k5, k6, k7, k8, k9⟩ := transposeMtx_spec m hf
  refine ⟨m', h, k1, k4, ?_, ?_, ?_, k5, k6⟩
  · simp only [samples, k4, k2, k3]; cases m.bir <;> rfl
  · simp only [width, k4, k2, k3]; cases m.bir <;> rfl
  · intro s f
    simp only [at', k4]
    cases m.bir
    · exact k9 s f
    · exact k9 f s

/-- **C127.** Transposition turns samples from rows into columns or back: every feature of every sample is what it was, the biases are ones if they
were. -/
theorem transposition_keeps_samples [OfNat α 1] (m : Mtx α) (hf : Filled m) :
    ∃ m', transposeMtx m = some m' ∧ Turned m m' ∧ (BiasesAreOnes m → BiasesAreOnes m') := by
  obtain ⟨m', h, k1, k2, k3, k4, k5, k6, k7, k8, k9⟩ := transposeMtx_spec m hf
  obtain ⟨m'', h', ht⟩ := transposeMtx_turned m hf
  rw [h] at h'
  simp only [Option.some.injEq] at h'
  subst h'
  refine ⟨m', h, ht, ?_⟩
  intro hb _ r c hr hc hi
  rw [k9 c r]
  refine hb hf.mem c r (by omega) (by omega) ⟨by rw [← k5]; exact hi.1, ?_⟩
  have := hi.2
  rw [k4] at this
  cases hbir : m.bir <;> simp [hbir] at this ⊢ <;> omega

/-- **C127.** Transposing twice changes nothing. -/
theorem transposition_twice (m : Mtx α) (hf : Filled m) :
    ∃ m' m'', transposeMtx m = some m' ∧ transposeMtx m' = some m'' ∧ m''.rows = m.rows ∧ m''.cols = m.cols ∧ m''.bir = m.bir ∧ m''.emul = m.emul ∧
      m''.holey = m.holey ∧ ∀ r c, m''.get r c = m.get r c := by
  obtain ⟨m', h, k1, k2, k3, k4, k5, k6, k7, k8, k9⟩ := transposeMtx_spec m hf
  obtain ⟨m'', h', j1, j2, j3, j4, j5, j6, j7, j8, j9⟩ := transposeMtx_spec m' k1
  exact ⟨m', m'', h, h', by omega, by omega, by rw [j4, k4]; simp, by rw [j5, k5], by rw [j7, k7], fun r c => by rw [j9 c r, k9 r c]⟩

theorem coherent_turned {d : TD α β} (h : Coherent d) {a b : Mtx α} (ha : Turned d.trainX a) (hb : Turned d.testX b) :
    Coherent { d with trainX := a, testX := b } :=
  ⟨⟨ha.filled, h.filled.2.1, hb.filled, h.filled.2.2.2⟩, ha.samples.trans h.train, hb.samples.trans h.test,
    (ha.width.trans h.x).trans hb.width.symm, h.y, ⟨ha.emul.trans h.biases.1, hb.emul.trans h.biases.2.1, h.biases.2.2⟩,
    ha.ext.trans h.own.1, hb.ext.trans h.own.2.1, h.own.2.2⟩

/-- **C127.** `transposeX` turns the samples and nothing else, and the data fit together as before. -/
theorem transposeX_result (d : TD α β) (hd : Coherent d) :
    ∃ d', transposeX d = some d' ∧ Turned d.trainX d'.trainX ∧ Turned d.testX d'.testX ∧ d'.trainY = d.trainY ∧ d'.testY = d.testY ∧ Coherent d' := by
  obtain ⟨a, ha, ta⟩ := transposeMtx_turned d.trainX hd.filled.1
  obtain ⟨b, hb, tb⟩ := transposeMtx_turned d.testX hd.filled.2.2.1
  exact ⟨{ d with trainX := a, testX := b }, by simp [transposeX, coherent_nonempty hd, ha, hb], ta, tb, rfl, rfl, coherent_turned hd ta tb⟩

/-- **C127.** `transposeY` turns the labels and nothing else. -/
theorem transposeY_result (d : TD α β) (hd : Coherent d) :
    ∃ d', transposeY d = some d' ∧ Turned d.trainY d'.trainY ∧ Turned d.testY d'.testY ∧ d'.trainX = d.trainX ∧ d'.testX = d.testX ∧ Coherent d' := by
  obtain ⟨a, ha, ta⟩ := transposeMtx_turned d.trainY hd.filled.2.1
  obtain ⟨b, hb, tb⟩ := transposeMtx_turned d.testY hd.filled.2.2.2
  refine ⟨{ d with trainY := a, testY := b }, by simp [transposeY, coherent_nonempty hd, ha, hb], ta, tb, rfl, rfl, ?_⟩
  exact ⟨⟨hd.filled.1, ta.filled, hd.filled.2.2.1, tb.filled⟩, hd.train.trans ta.samples.symm, hd.test.trans tb.samples.symm, hd.x,
    (ta.width.trans hd.y).trans tb.width.symm, ⟨hd.biases.1, hd.biases.2.1, ta.emul.trans hd.biases.2.2.1, tb.emul.trans hd.biases.2.2.2⟩,
    hd.own.1, hd.own.2.1, ta.ext.trans hd.own.2.2.1, tb.ext.trans hd.own.2.2.2⟩

/-- **C127.** `transpose` turns all four. -/
theorem transpose_result (d : TD α β) (hd : Coherent d) :
    ∃ d', transpose d = some d' ∧ Turned d.trainX d'.trainX ∧ Turned d.testX d'.testX ∧ Turned d.trainY d'.trainY ∧ Turned d.testY d'.testY ∧
      Coherent d' := by
  obtain ⟨a, ha, ta⟩ := transposeMtx_turned d.trainX hd.filled.1
  obtain ⟨b, hb, tb⟩ := transposeMtx_turned d.trainY hd.filled.2.1
  obtain ⟨c, hc, tc⟩ := transposeMtx_turned d.testX hd.filled.2.2.1
  obtain ⟨e, he, te⟩ := transposeMtx_turned d.testY hd.filled.2.2.2
  refine ⟨⟨a, b, c, e⟩, by simp [transpose, coherent_nonempty hd, ha, hb, hc, he], ta, tc, tb, te, ?_⟩
  have h1 := coherent_turned hd ta tc
  exact ⟨⟨ta.filled, tb.filled, tc.filled, te.filled⟩, h1.train.trans tb.samples.symm, h1.test.trans te.samples.symm, h1.x,
    (tb.width.trans hd.y).trans te.width.symm, ⟨h1.biases.1, h1.biases.2.1, tb.emul.trans hd.biases.2.2.1, te.emul.trans hd.biases.2.2.2⟩,
    h1.own.1, h1.own.2.1, tb.ext.trans hd.own.2.2.1, te.ext.trans hd.own.2.2.2⟩

/-! ### C125: histories -/

theorem step_keeps [OfNat α 1] [OfNat β 1] (o : Op α β) (ho : o.Fine) (d d' : TD α β) (hd : Nothing d ∨ Coherent d)
    (hy : Usual d.trainY ∧ Usual d.testY) (h : o.step d = some d') : (Nothing d' ∨ Coherent d') ∧ Usual d'.trainY ∧ Usual d'.testY := by
  cases o with
  | absorb a =>
    obtain ⟨h1, h2, h3, h4, hu⟩ := ho
    simp only [Op.step, Option.some.injEq] at h
    rcases absorb_result d a h1 h2 h3 h4 hu with ⟨hc, left, he, -⟩ | ⟨-, he⟩
    · rw [he] at h
      subst h
      exact ⟨.inr hc, hu.2.1, hu.2.2.2⟩
    · rw [he] at h
      subst h
      exact ⟨hd, hy⟩
  | replaceY t s =>
    obtain ⟨h1, h2, hu⟩ := ho
    simp only [Op.step, Option.some.injEq] at h
    rcases hd with hn | hc
    · have : replaceOk d t s = false := by
        rcases h1 with h1 | h1
        · have q := hn.trainY.2.1
          have := h1.rows
          simp only [replaceOk, q, beq_eq_false_iff_ne.2 (show t.rows ≠ 0 by omega), Bool.and_false, Bool.false_and]
        · simp [replaceOk, Mtx.empty, h1.1]
      simp only [replaceY, this, Bool.false_eq_true, if_false] at h
      subst h
      exact ⟨.inl hn, hy⟩
    · rcases replace_result d hc hy t s h1 h2 hu with ⟨hc', he⟩ | ⟨-, he⟩
      · rw [he] at h
        subst h
        exact ⟨.inr hc', hu⟩
      · rw [he] at h
        subst h
        exact ⟨.inr hc, hy⟩
  | assign r =>
    obtain ⟨h1, h2⟩ := ho
    simp only [Op.step, Option.some.injEq] at h
    rcases h1 with hn | hc
    · simp only [assign, nothing_empty hn, if_true] at h
      subst h
      exact ⟨.inl (clear_nothing d), rfl, rfl⟩
    · simp only [assign, coherent_nonempty hc, Bool.false_eq_true, if_false] at h
      subst h
      exact ⟨.inr hc, h2⟩
  | clear =>
    simp only [Op.step, Option.some.injEq] at h
    subst h
    exact ⟨.inl (clear_nothing d), rfl, rfl⟩
  | extract =>
    simp only [Op.step, extract] at h
    split at h
    · simp at h
    · simp only [Option.map_some, Option.some.injEq] at h
      subst h
      exact ⟨.inl (gone_nothing d), hy⟩
  | transposeX =>
    simp only [Op.step] at h
    rcases hd with hn | hc
    · simp [transposeX, nothing_empty hn] at h
    · obtain ⟨d'', he, -, -, k1, k2, hc'⟩ := transposeX_result d hc
      rw [he] at h
      simp only [Option.some.injEq] at h
      subst h
      exact ⟨.inr hc', by rw [k1]; exact hy.1, by rw [k2]; exact hy.2⟩
  | dupe r e1 e3 e2 e4 =>
    obtain ⟨h1, h2⟩ := ho
    simp only [Op.step, Option.map_eq_some_iff] at h
    obtain ⟨⟨q, b⟩, hq, rfl⟩ := h
    rcases dupe_cases r e1 e3 e2 e4 d q b hq with ⟨-, rfl⟩ | ⟨-, ha, c1, c2, c3, c4⟩
    · exact ⟨hd, hy⟩
    · obtain ⟨-, r1, s1, t1, v1⟩ := cloneNew_true _ _ _ c1
      obtain ⟨-, r2, s2, t2, v2⟩ := cloneNew_true _ _ _ c2
      obtain ⟨-, r3, s3, t3, v3⟩ := cloneNew_true _ _ _ c3
      obtain ⟨-, r4, s4, t4, v4⟩ := cloneNew_true _ _ _ c4
      simp only [absorbOk, Bool.and_eq_true, Bool.not_eq_true', beq_iff_eq] at ha
      obtain ⟨⟨⟨⟨⟨⟨⟨⟨⟨⟨⟨⟨⟨⟨⟨x1, x2⟩, -⟩, x3⟩, x4⟩, -⟩, -⟩, -⟩, -⟩, -⟩, -⟩, -⟩, o1⟩, o2⟩, o3⟩, o4⟩ := ha
      simp only [Mtx.empty, beq_eq_false_iff_ne] at x1 x2 x3 x4
      have hc : Coherent r := by
        rcases h1 with hn | hc
        · exfalso
          have : cloneNew r.trainX e1 = some ({ (Mtx.default e1.junk) with emul := false }, false) := by
            simp [cloneNew, Mtx.cloneTo, Mtx.resize, Mtx.default, hn.trainX.2.1]
          rw [this] at c1
          simp at c1
        · exact hc
      obtain ⟨⟨f1, f2, f3, f4⟩, g1, g2, g3, g4, ⟨b1, b2, b3, b4⟩, -⟩ := hc
      simp only [samples, width] at g1 g2 g3 g4
      refine ⟨.inr ⟨⟨⟨x1, by rw [r1]; exact f1.rows, by rw [s1]; exact f1.cols⟩, ⟨x2, by rw [r2]; exact f2.rows, by rw [s2]; exact f2.cols⟩,
        ⟨x3, by rw [r3]; exact f3.rows, by rw [s3]; exact f3.cols⟩, ⟨x4, by rw [r4]; exact f4.rows, by rw [s4]; exact f4.cols⟩⟩,
        (by simp only [samples, r1, s1, v1, r2, s2, v2]; exact g1), (by simp only [samples, r3, s3, v3, r4, s4, v4]; exact g2),
        (by simp only [width, r1, s1, v1, r3, s3, v3]; exact g3), (by simp only [width, r2, s2, v2, r4, s4, v4]; exact g4),
        ⟨t1.trans b1, t3.trans b2, t2.trans b3, t4.trans b4⟩, o1, o2, o3, o4⟩, v2.trans h2.1, v4.trans h2.2⟩

/-- **C125.** Whatever is done with the object, it has nothing stored or data that fit together, as long as labels are in the usual layout (of
transposed labels this is false, see below). -/
theorem store_stays_coherent_partial [OfNat α 1] [OfNat β 1] (ops : List (Op α β)) (ho : ∀ o ∈ ops, o.Fine) (j : Nat → α) (k : Nat → β) (d : TD α β)
    (h : run ops (new j k) = some d) : Nothing d ∨ Coherent d := by
  have key : ∀ (ops : List (Op α β)) (s : TD α β), (∀ o ∈ ops, o.Fine) → (Nothing s ∨ Coherent s) → (Usual s.trainY ∧ Usual s.testY) →
      run ops s = some d → Nothing d ∨ Coherent d := by
    intro ops
    induction ops with
    | nil =>
      intro s _ hs _ h
      simp only [run, List.foldlM_nil, pure, Option.some.injEq] at h
      subst h
      exact hs
    | cons o ops ih =>
      intro s ho hs hy h
      simp only [run, List.foldlM_cons, Option.bind_eq_bind] at h
      cases hq : o.step s with
      | none => simp [hq] at h
      | some s1 =>
        rw [hq] at h
        obtain ⟨q1, q2⟩ := step_keeps o (ho o (by simp)) s s1 hs hy hq
        exact ih s1 (fun o' h' => ho o' (by simp [h'])) q1 q2 h
  exact key ops (new j k) ho (.inl ⟨⟨rfl, rfl, rfl⟩, ⟨rfl, rfl, rfl⟩, ⟨rfl, rfl, rfl⟩, ⟨rfl, rfl, rfl⟩⟩) ⟨rfl, rfl⟩ h

/-! ### The other layout -/

/-- A matrix without contents of interest. -/
def shape (rows cols : Nat) (emul bir : Bool) : Mtx Int := ⟨fun _ => 1, rows * cols, rows, cols, emul, false, false, bir, rows * cols⟩

/-- Three samples of two features (and a bias) with one label each for training, two for testing. -/
def demo : TD Int Int := ⟨shape 3 3 true false, shape 3 1 false false, shape 2 3 true false, shape 2 1 false false⟩

theorem demo_coherent : Coherent demo := by
  refine ⟨⟨⟨?_, ?_, ?_⟩, ⟨?_, ?_, ?_⟩, ⟨?_, ?_, ?_⟩, ⟨?_, ?_, ?_⟩⟩, ?_, ?_, ?_, ?_, ⟨?_, ?_, ?_, ?_⟩, ?_, ?_, ?_, ?_⟩ <;> decide

/-- **C126 is false of transposed data**: the samples of `demo` are transposed; `dupe` refuses to duplicate the object although there is memory, as
`absorb` compares rows with rows. -/
theorem transposed_not_duplicated (e : Env Int) (hk : e.ok = true) (dest : TD Int Int) :
    ∃ d, transpose demo = some d ∧ Coherent d ∧ dupe d e e e e dest = some (dest, false) := by
  obtain ⟨d, hd, -, -, -, -, hc⟩ := transpose_result demo demo_coherent
  refine ⟨d, hd, hc, ?_⟩
  have h : transpose demo = some ⟨{ shape 3 3 true true with data := imatcopy (fun _ => 1) 3 3 }, shape 1 3 false true,
      { shape 3 2 true true with data := imatcopy (fun _ => 1) 2 3 }, shape 1 2 false true⟩ := rfl
  rw [h] at hd
  simp only [Option.some.injEq] at hd
  subst hd
  obtain ⟨ok, junk⟩ := e
  simp only at hk
  subst hk
  rfl

/-- **C125 is false of transposed labels**: four labels are accepted for three samples. -/
theorem transposed_labels_not_checked :
    ∃ d d', transposeY demo = some d ∧ Coherent d ∧ replaceY d (shape 1 4 false true) (shape 1 4 false true) = (d', true) ∧ ¬ Coherent d' := by
  obtain ⟨d, hd, -, -, -, -, hc⟩ := transposeY_result demo demo_coherent
  refine ⟨d, { d with trainY := shape 1 4 false true, testY := shape 1 4 false true }, hd, hc, ?_, ?_⟩
  · have h : transposeY demo = some { demo with trainY := shape 1 3 false true, testY := shape 1 2 false true } := rfl
    rw [h] at hd
    simp only [Option.some.injEq] at hd
    subst hd
    rfl
  · intro h
    have h1 := h.train
    have h2 := hc.train
    have h : transposeY demo = some { demo with trainY := shape 1 3 false true, testY := shape 1 2 false true } := rfl
    rw [h] at hd
    simp only [Option.some.injEq] at hd
    subst hd
    simp [samples, demo, shape] at h1

/-- **C125 is false of transposed data**: five samples and seven labels are absorbed. -/
theorem transposed_absorb_not_checked :
    ∃ a : TD Int Int, samples a.trainX = 5 ∧ samples a.trainY = 7 ∧ ∀ d, (absorb d a).1 = a ∧ (absorb d a).2.2 = true :=
  ⟨⟨shape 3 5 true true, shape 3 7 false true, shape 3 5 true true, shape 3 7 false true⟩, rfl, rfl, fun _ => ⟨rfl, rfl⟩⟩

/-! ### A concrete history -/

example : ∃ d, run [.absorb demo, .transposeX, .replaceY (shape 3 5 false false) (shape 2 5 false false), .replaceY (shape 4 1 false false) (shape 2 1 false false)]
    (new (fun _ => (0 : Int)) (fun _ => (0 : Int))) = some d ∧ d.trainX.bir = true ∧ d.trainY.cols = 5 ∧ d.trainY.rows = 3 := ⟨_, rfl, rfl, rfl, rfl⟩

end Nntl.TDStor
