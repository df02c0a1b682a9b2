import Verif.Session.Lemmas
/-! What each public call does to a network object. -/
namespace Nntl.Session
open Nntl.Train (CD Net)

/-- What a step may do, for a call asking for a network ready for `f` rows forward and `b` rows in training: either the network was
ready and only mode, batch size and scratch memory change, or it is initialised anew, which may fail. -/
inductive Ready (s : St) (f b : Nat) (s' : St) (ok : Prop) : Prop
  | kept : s.net.isInitialized f b = true → s'.net.cd.maxFprop = s.net.cd.maxFprop → s'.net.cd.trainBs = s.net.cd.trainBs →
      s'.net.requireReinit = s.net.requireReinit → s'.opt = s.opt → s.stor ≤ s'.stor → Ready s f b s' ok
  | anew : s.net.isInitialized f b = false →
      (ok → s'.net.cd.maxFprop = f ∧ s'.net.cd.trainBs = b ∧ s'.net.requireReinit = false ∧ s'.opt = some (s.made + 1)) →
      Ready s f b s' ok

theorem Ready.mono {s s' s2 : St} {f b : Nat} {ok ok2 : Prop} (h : Ready s f b s' ok)
    (h1 : s2.net.cd.maxFprop = s'.net.cd.maxFprop) (h2 : s2.net.cd.trainBs = s'.net.cd.trainBs)
    (h3 : s2.net.requireReinit = s'.net.requireReinit) (h4 : s2.opt = s'.opt) (h5 : s'.stor ≤ s2.stor) (hok : ok2 → ok) :
    Ready s f b s2 ok2 := by
  cases h with
  | kept a1 a2 a3 a4 a5 a6 =>
    exact .kept a1 (h1.trans a2) (h2.trans a3) (h3.trans a4) (h4.trans a5) (Nat.le_trans a6 h5)
  | anew a1 a2 =>
    refine .anew a1 fun h => ?_
    obtain ⟨b1, b2, b3, b4⟩ := a2 (hok h)
    exact ⟨h1.trans b1, h2.trans b2, h3.trans b3, h4.trans b4⟩

theorem Ready.moved {s s' s2 : St} {f b : Nat} {ok : Prop} (h : Ready s f b s' ok) (hm : Moved s' s2) : Ready s f b s2 ok := by
  obtain ⟨a1, a2, a3, a4, a5, a6, a7, a8, a9, a10⟩ := hm.keeps
  exact h.mono a1 a2 a3 a8 (Nat.le_of_eq a6.symm) id

theorem math_keeps (s : St) (b : Bool) : (s.mathInit b).net = s.net ∧ (s.mathInit b).opt = s.opt ∧ s.stor ≤ (s.mathInit b).stor ∧
    (s.mathInit b).err = s.err := by
  unfold St.mathInit; split
  · exact ⟨rfl, rfl, Nat.le_max_left _ _, rfl⟩
  · exact ⟨rfl, rfl, Nat.le_refl _, rfl⟩

theorem init_ready {s s' : St} (hI : Inv s) {f b : Nat} {o : Outcome} {c : Code} (h : s.init f b o = some (s', c)) :
    Inv s' ∧ s'.err = s.err ∧ (∀ n, c ≠ .td n) ∧ c ≠ .diverged ∧ (s.net.cd.training = false → s'.net.cd.training = false) ∧
    Ready s f b s' (c = .success) := by
  obtain ⟨h1, h2, h3, h4, h5, ⟨g1, rfl, -⟩ | ⟨g1, -, g2⟩⟩ := init_cases hI h
  · obtain ⟨k1, k2, k3, k4⟩ := math_keeps s (decide (c = .success))
    exact ⟨h1, h2, h3, h4, h5, .kept g1 (by rw [k1]) (by rw [k1]) (by rw [k1]) k2 k3⟩
  · refine ⟨h1, h2, h3, h4, h5, .anew g1 fun hc => ?_⟩
    obtain ⟨a1, a2, a3, a4, a5, -⟩ := g2 hc
    exact ⟨a1, a2, a4, a5⟩

theorem fprop_facts {s s' : St} (hI : Inv s) {rows : Nat} {o : Outcome} {l : List Fwd} {c : Code}
    (h : s.fprop rows o = some (s', l, c)) :
    Inv s' ∧ s'.err = c ∧ (∀ n, c ≠ .td n) ∧ c ≠ .diverged ∧ (∀ f ∈ l, f.Fits ∧ f.training = false) ∧
    (s.net.cd.training = false ∨ c = .success → s'.net.cd.training = false) ∧ 0 < rows ∧ Ready s rows 0 s' (c = .success) ∧
    (c = .success → l.map Fwd.rows = [rows]) := by
  have hpos : 0 < rows := by
    unfold St.fprop St.init at h
    split at h
    · cases h
    · rename_i hg
      split at hg
      · rename_i hg2; exact hg2.1
      · cases hg
  unfold St.fprop at h
  split at h
  · cases h
  · rename_i s1 c1 h1
    obtain ⟨i1, i2, i3, i4, i5, i6⟩ := init_ready hI h1
    split at h
    · rename_i hc
      cases h
      refine ⟨inv_setErr i1 _, rfl, i3, i4, by simp, ?_, hpos, i6.mono rfl rfl rfl rfl (Nat.le_refl _) id, fun h => absurd h hc⟩
      rintro (h | h)
      · exact i5 h
      · exact absurd h hc
    · rename_i hc
      simp only [Option.map_eq_some_iff, Prod.mk.injEq] at h
      obtain ⟨⟨s2, l2⟩, h2, rfl, rfl, rfl⟩ := h
      obtain ⟨m1, f1⟩ := fwd_moved i1 h2
      have hs := fwd_some i1 h2
      refine ⟨inv_setErr (m1.inv i1) _, rfl, i3, i4, f1, fun _ => ?_, hpos, ?_, fun _ => ?_⟩
      · show s2.net.cd.training = false
        rw [hs.2.2.1]; rfl
      · exact (i6.moved m1).mono rfl rfl rfl rfl (Nat.le_refl _) id
      · rw [hs.2.2.2]; rfl

theorem initFixed_facts {s s' : St} (hI : Inv s) {bs : Nat} {o : Outcome} {c : Code} (h : s.initFixed bs o = some (s', c)) :
    Inv s' ∧ s'.err = c ∧ (∀ n, c ≠ .td n) ∧ c ≠ .diverged ∧
    (s.net.cd.training = false ∨ c = .success → s'.net.cd.training = false) ∧ 0 < bs ∧ Ready s bs 0 s' (c = .success) ∧
    (c = .success → s'.net.cd.cur = bs) := by
  unfold St.initFixed at h
  split at h
  · cases h
  · rename_i hbs
    split at h
    · cases h
    · rename_i s1 c1 h1
      obtain ⟨i1, i2, i3, i4, i5, i6⟩ := init_ready hI h1
      split at h
      · rename_i hc
        cases h
        refine ⟨inv_setErr i1 _, rfl, i3, i4, ?_, by omega, i6.mono rfl rfl rfl rfl (Nat.le_refl _) id, fun h => absurd h hc⟩
        rintro (h | h)
        · exact i5 h
        · exact absurd h hc
      · simp only [Option.map_eq_some_iff] at h
        obtain ⟨s2, h2, h3⟩ := h
        cases h3
        have m1 := setMode_moved i1 h2
        obtain ⟨a1, a2, rfl⟩ := setMode_some i1 h2
        exact ⟨inv_setErr (m1.inv i1) _, rfl, i3, i4, fun _ => rfl, by omega,
          (i6.moved m1).mono rfl rfl rfl rfl (Nat.le_refl _) id, fun _ => rfl⟩

/-- The size the training data object leaves in the argument of `init4fixedBatchFprop`. -/
theorem initFixedTd_facts {s s' : St} (hI : Inv s) {ready : Option Nat} {made : Except Nat Nat} {need : Nat} {o : Outcome} {ok : Bool}
    {c : Code} (h : s.initFixedTd ready made need o ok = some (s', c)) :
    Inv s' ∧ c ≠ .diverged ∧ (s.net.cd.training = false ∨ c = .success → s'.net.cd.training = false) ∧
    ((∃ e, ready = none ∧ made = .error e ∧ c = .td e ∧ s' = s) ∨
     ∃ bs, (ready = some bs ∨ ready = none ∧ made = .ok bs) ∧ s'.err = c ∧ (∀ n, c ≠ .td n) ∧ 0 < bs ∧
       Ready s bs 0 s' (c = .success) ∧ (c = .success → need ≤ s'.stor ∧ s'.net.cd.cur = bs)) := by
  have go : ∀ bs, (match s.initFixed bs o with
      | none => none
      | some (s, c) =>
        if c ≠ .success then some (s, c)
        else some (((s.preinit need).mathInit ok).setErr (if ok then .success else .cantInitIMath))) = some (s', c) →
      Inv s' ∧ c ≠ .diverged ∧ (s.net.cd.training = false ∨ c = .success → s'.net.cd.training = false) ∧
      s'.err = c ∧ (∀ n, c ≠ .td n) ∧ 0 < bs ∧ Ready s bs 0 s' (c = .success) ∧
        (c = .success → need ≤ s'.stor ∧ s'.net.cd.cur = bs) := by
    intro bs h
    split at h
    · cases h
    · rename_i s1 c1 h1
      obtain ⟨i1, i2, i3, i4, i5, i6, i7, i8⟩ := initFixed_facts hI h1
      split at h
      · rename_i hc
        cases h
        exact ⟨i1, i4, i5, i2, i3, i6, i7, fun h => absurd h hc⟩
      · rename_i hc
        have hc : c1 = .success := Classical.not_not.mp hc
        have ht := i5 (.inr hc)
        cases ok with
        | true =>
          cases h
          exact ⟨⟨i1.cap, i1.train, i1.told, i1.cur, i1.live⟩, (nofun), fun _ => ht, rfl, (nofun), i6,
            i7.mono rfl rfl rfl rfl (Nat.le_max_left _ _) (fun _ => hc),
            fun _ => ⟨Nat.le_trans (Nat.le_max_right _ _) (Nat.le_max_right _ _), i8 hc⟩⟩
        | false =>
          cases h
          exact ⟨⟨i1.cap, i1.train, i1.told, i1.cur, i1.live⟩, (nofun), fun _ => ht, rfl, (nofun), i6,
            i7.mono rfl rfl rfl rfl (Nat.le_refl _) (nofun), (nofun)⟩
  unfold St.initFixedTd at h
  dsimp only at h
  split at h
  · obtain ⟨a1, a2, a3, a4, a5, a6, a7, a8⟩ := go _ h
    exact ⟨a1, a2, a3, .inr ⟨_, .inl rfl, a4, a5, a6, a7, a8⟩⟩
  · split at h
    · cases h
      exact ⟨hI, (nofun), fun h => h.elim id (nofun), .inl ⟨_, rfl, rfl, rfl, rfl⟩⟩
    · obtain ⟨a1, a2, a3, a4, a5, a6, a7, a8⟩ := go _ h
      exact ⟨a1, a2, a3, .inr ⟨_, .inr ⟨rfl, rfl⟩, a4, a5, a6, a7, a8⟩⟩

theorem init4train_facts {s s' : St} (hI : Inv s) {x : Session} {c : Code} (h : s.init4train x = some (s', c)) :
    Inv s' ∧ c ≠ .diverged ∧
    ((∃ e, x.td = .error e ∧ c = .td e ∧ s' = (s.setErr (.td e)).1) ∨
     ∃ f b, x.td = .ok (f, b) ∧ 0 < b ∧ b ≤ f ∧ (∀ n, c ≠ .td n) ∧ Ready s f b s' (c = .success)) := by
  unfold St.init4train at h
  split at h
  · cases h
    exact ⟨inv_setErr hI _, (nofun), .inl ⟨_, by assumption, rfl, rfl⟩⟩
  · rename_i f b htd
    split at h
    · rename_i hg
      dsimp only at h
      split at h
      · rename_i hi
        split at h
        · cases h
          obtain ⟨k1, k2, k3, k4⟩ := math_keeps (s.preinit x.need) true
          exact ⟨inv_math (inv_preinit hI _) _, (nofun), .inr ⟨f, b, htd, hg.2.1, hg.2.2, (nofun),
            .kept hi rfl rfl rfl rfl k3⟩⟩
        · cases h
          exact ⟨inv_preinit hI _, (nofun), .inr ⟨f, b, htd, hg.2.1, hg.2.2, (nofun), .kept hi rfl rfl rfl rfl (Nat.le_refl _)⟩⟩
      · rename_i hi
        have h := Option.some.inj h
        obtain ⟨h1, h2, h3, h4, h5, h6⟩ := fullInit_cases (s := s.deinit.preinit x.need) hg.2.2 h
        refine ⟨h1, h6, .inr ⟨f, b, htd, hg.2.1, hg.2.2, h5, .anew (eq_false_of_ne_true hi) fun hc => ?_⟩⟩
        obtain ⟨a1, a2, a3, a4, a5, a6, a7⟩ := h4 hc
        exact ⟨a1, a2, a4, a5⟩
    · cases h

theorem trainBody_facts {s s' : St} (hI : Inv s) {x : Session} {l : List Fwd} {c : Code} (h : s.trainBody x = some (s', l, c)) :
    Inv s' ∧ s'.err = c ∧ (∀ f ∈ l, f.Fits) ∧
    ((∃ e, x.td = .error e ∧ c = .td e ∧ s' = (s.setErr (.td e)).1 ∧ l = []) ∨
     ∃ f b, x.td = .ok (f, b) ∧ 0 < b ∧ b ≤ f ∧ Ready s f b s' (c = .success ∨ c = .diverged)) := by
  unfold St.trainBody at h
  split at h
  · cases h
  · rename_i s1 c1 h1
    obtain ⟨i1, i2, i3⟩ := init4train_facts hI h1
    split at h
    · rename_i hc
      cases h
      refine ⟨inv_setErr i1 _, rfl, by simp, ?_⟩
      rcases i3 with ⟨e, e1, rfl, rfl⟩ | ⟨f, b, e1, e2, e3, e4, e5⟩
      · exact .inl ⟨e, e1, rfl, rfl, rfl⟩
      · refine .inr ⟨f, b, e1, e2, e3, e5.mono rfl rfl rfl rfl (Nat.le_refl _) ?_⟩
        rintro (h | h)
        · exact h
        · exact absurd h i2
    · rename_i hc
      have hc : c1 = .success := Classical.not_not.mp hc
      subst hc
      rcases i3 with ⟨e, e1, e2, rfl⟩ | ⟨f, b, e1, e2, e3, e4, e5⟩
      · cases e2
      split at h
      · cases h
        exact ⟨inv_setErr i1 _, rfl, by simp, .inr ⟨f, b, e1, e2, e3, e5.mono rfl rfl rfl rfl (Nat.le_refl _) fun _ => rfl⟩⟩
      · split at h
        · cases h
          exact ⟨inv_setErr i1 _, rfl, by simp, .inr ⟨f, b, e1, e2, e3, e5.mono rfl rfl rfl rfl (Nat.le_refl _) fun _ => rfl⟩⟩
        · split at h
          · cases h
          · rename_i s2 l2 h2
            obtain ⟨m2, f2, -⟩ := evaluate_moved i1 h2
            split at h
            · cases h
            · rename_i s3 h3
              obtain ⟨m3, hc3⟩ := setModeBs_zero (m2.inv i1) h3
              split at h
              · cases h
              · rename_i s4 l4 h4
                obtain ⟨m4, f4⟩ := epochs_moved (m3.inv (m2.inv i1)) hc3 h4
                cases h
                refine ⟨inv_setErr (m4.inv (m3.inv (m2.inv i1))) _, rfl, fun f hf => ?_, .inr ⟨f, b, e1, e2, e3, ?_⟩⟩
                · rcases List.mem_append.mp hf with hf | hf
                  · exact (f2 f hf).1
                  · exact f4 f hf
                · exact (e5.moved ((m2.trans m3).trans m4)).mono rfl rfl rfl rfl (Nat.le_refl _) fun _ => rfl

/-- Every call keeps the invariant, and its forward passes fit. -/
theorem call_inv {s s' : St} (hI : Inv s) {c : Call} {l : List Fwd} {r : Code} (h : s.call c = some (s', l, r)) :
    Inv s' ∧ ∀ f ∈ l, f.Fits := by
  cases c with
  | fprop rows o =>
    obtain ⟨h1, -, -, -, h2, -⟩ := fprop_facts hI h
    exact ⟨h1, fun f hf => (h2 f hf).1⟩
  | initFixed bs o =>
    simp only [St.call, Option.map_eq_some_iff, Prod.mk.injEq] at h
    obtain ⟨⟨s1, c1⟩, h1, rfl, rfl, rfl⟩ := h
    exact ⟨(initFixed_facts hI h1).1, by simp⟩
  | initFixedTd ready made need o ok =>
    simp only [St.call, Option.map_eq_some_iff, Prod.mk.injEq] at h
    obtain ⟨⟨s1, c1⟩, h1, rfl, rfl, rfl⟩ := h
    exact ⟨(initFixedTd_facts hI h1).1, by simp⟩
  | prepare bs =>
    simp only [St.call, Option.map_eq_some_iff, Prod.mk.injEq] at h
    obtain ⟨s1, h1, rfl, rfl, rfl⟩ := h
    exact ⟨(setMode_moved hI h1).inv hI, by simp⟩
  | doFixed rows =>
    simp only [St.call, Option.map_eq_some_iff, Prod.mk.injEq] at h
    obtain ⟨⟨s1, l1⟩, h1, rfl, rfl, rfl⟩ := h
    unfold St.doFixed at h1
    split at h1
    · cases h1
    · split at h1
      · simp only [Option.map_eq_some_iff, Prod.mk.injEq] at h1
        obtain ⟨s2, h2, rfl, rfl⟩ := h1
        have m := setMode_moved hI h2
        obtain ⟨a1, a2, rfl⟩ := setMode_some hI h2
        refine ⟨m.inv hI, fun f hf => ?_⟩
        rw [List.mem_singleton] at hf
        subst hf
        exact pass_fits (m.inv hI) a1
      · rename_i hr hne
        have hne : rows = s.net.cd.cur := Classical.not_not.mp hne
        cases h1
        refine ⟨hI, fun f hf => ?_⟩
        rw [List.mem_singleton] at hf
        subst hf
        rw [hne]
        exact pass_fits hI (by omega)
  | evaluate rows =>
    simp only [St.call, Option.map_eq_some_iff, Prod.mk.injEq] at h
    obtain ⟨⟨s1, l1⟩, h1, rfl, rfl, rfl⟩ := h
    obtain ⟨m, f1, -⟩ := evaluate_moved hI h1
    exact ⟨m.inv hI, fun f hf => (f1 f hf).1⟩
  | train x =>
    simp only [St.call, St.train, Option.map_eq_some_iff, Prod.mk.injEq] at h
    obtain ⟨⟨s1, l1, c1⟩, h1, h2, h3⟩ := h
    cases h3
    obtain ⟨i1, -, i2, -⟩ := trainBody_facts hI h1
    refine ⟨?_, i2⟩
    rw [← h2]
    split
    · exact inv_deinit _
    · exact i1
  | requireReinit => cases h; exact ⟨⟨hI.cap, hI.train, hI.told, hI.cur, hI.live⟩, by simp⟩
  | dontRequireReinit => cases h; exact ⟨⟨hI.cap, hI.train, hI.told, hI.cur, hI.live⟩, by simp⟩
  | deinit => cases h; exact ⟨inv_deinit _, by simp⟩

theorem history_inv {s s' : St} {h : List (Call × List Fwd × Code)} (hh : History s h s') (hI : Inv s) : Inv s' := by
  induction hh with
  | nil s => exact hI
  | cons hc _ ih => exact ih (call_inv hI hc).1

end Nntl.Session
