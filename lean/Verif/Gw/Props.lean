import Verif.Gw.Spec
/-! Property theorems C143 (settings), C144 (settings changed between steps), C145 (a new beginning). -/
namespace Nntl.Gw

theorem asked_append {α : Type} (f : Op → Option α) (h2 : List Op) : ∀ (h1 : List Op) (d : α), asked f d (h1 ++ h2) = asked f (asked f d h1) h2
  | [], _ => rfl
  | _ :: h1, _ => asked_append f h2 h1 _

theorem run_append (h2 : List Op) : ∀ (h1 : List Op) (g : Gw), g.run (h1 ++ h2) = (g.run h1).bind fun g => g.run h2
  | [], _ => rfl
  | o :: h1, g => by
    simp only [List.cons_append, Gw.run]
    cases g.call o with
    | none => rfl
    | some g => exact run_append h2 h1 g

/-- Settings agree with what was asked for, gamma aside. -/
structure Agrees (c : Settings) (d : Settings) (h : List Op) : Prop where
  type : c.type = asked Op.type? d.type h
  lr : c.lr = asked Op.lr? d.lr h
  drop : c.drop = asked Op.drop? d.drop h
  mom : (c.mom, c.nesterov) = asked Op.mom? (d.mom, d.nesterov) h
  beta1 : c.beta1 = asked Op.beta1? d.beta1 h
  beta2 : c.beta2 = asked Op.beta2? d.beta2 h
  eps : c.eps = asked Op.eps? d.eps h
  norm : (c.maxNorm2, c.inclBias) = asked Op.norm? (d.maxNorm2, d.inclBias) h
  ilr : c.ilr = asked Op.ilr? d.ilr h
  dropNesterov : c.dropNesterov = asked Op.dropNesterov? d.dropNesterov h
  ilrToMom : c.ilrToMom = asked Op.ilrToMom? d.ilrToMom h

/-- The flags say what the numbers say. -/
structure Flags (c : Settings) : Prop where
  mom : c.useMom = decide (0 < c.mom)
  norm : c.useMaxNorm = decide (0 < c.maxNorm2)
  ilr : c.useILR = decide (0 < c.ilr.1)
  drop : 0 < c.drop ∧ c.drop ≤ 1

theorem optimise_eq {g g' : Gw} (h : g.optimise = some g') : ∃ a b x, g' = { g with A := a, B := b, c := { g.c with gamma := x } } ∧
    (x = g.c.gamma ∨ g.c.type = .nadam) := by
  unfold Gw.optimise at h
  split at h
  all_goals first
    | (cases h; exact ⟨_, _, _, rfl, .inl rfl⟩)
    | (split at h <;> split at h <;> first
        | (cases h; exact ⟨_, _, _, rfl, .inl rfl⟩)
        | (cases h; exact ⟨_, _, _, rfl, .inr (by assumption)⟩)
        | cases h)

theorem ilrApply_eq {g g' : Gw} (h : g.ilrApply = some g') : ∃ a b, g' = { g with gain := a, prev := b } := by
  unfold Gw.ilrApply at h
  by_cases hu : g.c.useILR = true
  · simp only [hu, if_true, Option.ite_none_left_eq_some, Option.some.injEq] at h
    obtain ⟨-, -, h⟩ := h
    exact ⟨_, _, h.symm⟩
  · rw [if_neg hu] at h
    cases h; exact ⟨_, _, rfl⟩

theorem update_eq {g g' : Gw} (h : g.update = some g') : ∃ v, g' = { g with V := v } := by
  unfold Gw.update at h
  simp only [Option.ite_none_left_eq_some, Option.some.injEq] at h
  obtain ⟨-, -, -, h⟩ := h
  exact ⟨_, h.symm⟩

/-- Steps leave the settings alone but for gamma. -/
theorem step_settings {g g' : Gw} {o : Op} (h : g.call o = some g') (ho : o.isStep = true ∨ o.isLife = true) :
    ∃ x, g'.c = { g.c with gamma := x } ∧ (x = g.c.gamma ∨ g.c.type = .nadam) := by
  cases o with
  | init n norm other =>
    simp only [Gw.call, Gw.init] at h
    split at h
    · cases h
    · split at h
      · cases h
      · cases h; exact ⟨_, rfl, .inl rfl⟩
  | deinit => cases h; exact ⟨_, rfl, .inl rfl⟩
  | pre b =>
    simp only [Gw.call, Gw.pre] at h
    split at h
    · cases h
    · split at h
      · split at h
        · cases h
        · split at h
          · cases h
          · split at h
            · cases h
            · cases h; exact ⟨_, rfl, .inl rfl⟩
      · cases h; exact ⟨_, rfl, .inl rfl⟩
  | apply b =>
    simp only [Gw.call, Gw.apply] at h
    split at h
    · cases h
    · split at h
      · cases h; exact ⟨_, rfl, .inl rfl⟩
      · split at h
        · cases h
        · rename_i g1 h1
          split at h
          · cases h
          · rename_i g2 h2
            obtain ⟨a, b, x, rfl, hx⟩ := optimise_eq h1
            obtain ⟨a', b', rfl⟩ := ilrApply_eq h2
            obtain ⟨v, rfl⟩ := update_eq h
            exact ⟨x, rfl, hx⟩
  | _ => rcases ho with ho | ho <;> cases ho

/-- What one call does to the settings. -/
theorem call_agrees {g g' : Gw} {o : Op} (h : g.call o = some g') (hf : Flags g.c) : Agrees g'.c g.c [o] ∧ Flags g'.c := by
  by_cases ho : o.isStep = true ∨ o.isLife = true
  · obtain ⟨x, hx, -⟩ := step_settings h ho
    rw [hx]
    refine ⟨?_, ⟨hf.mom, hf.norm, hf.ilr, hf.drop⟩⟩
    cases o <;> first
      | exact ⟨rfl, rfl, rfl, rfl, rfl, rfl, rfl, rfl, rfl, rfl, rfl⟩
      | (rcases ho with ho | ho <;> cases ho)
  · cases o with
    | init _ _ _ => exact absurd (.inr rfl) ho
    | deinit => exact absurd (.inr rfl) ho
    | pre _ => exact absurd (.inl rfl) ho
    | apply _ => exact absurd (.inl rfl) ho
    | drop x =>
      simp only [Gw.call] at h
      split at h
      · rename_i hx
        cases h
        have e : (if x ≤ 0 ∨ x > 1 then (1 : Rat) else x) = if x = 0 then 1 else x := by
          by_cases h0 : x = 0
          · subst h0; rfl
          · rw [if_neg h0, if_neg]
            rintro (h1 | h1)
            · exact h0 (Rat.le_antisymm h1 hx.1)
            · exact absurd hx.2 (Rat.not_le.mpr h1)
        refine ⟨⟨rfl, rfl, e, rfl, rfl, rfl, rfl, rfl, rfl, rfl, rfl⟩, ⟨hf.mom, hf.norm, hf.ilr, ?_⟩⟩
        dsimp only
        rw [e]
        split
        · exact ⟨by decide, by decide⟩
        · rename_i h0
          exact ⟨Rat.lt_of_le_of_ne hx.1 (Ne.symm h0), hx.2⟩
      · cases h
    | maxNorm x b =>
      simp only [Gw.call, Gw.maxNorm2] at h
      split at h
      · split at h
        · cases h; exact ⟨⟨rfl, rfl, rfl, rfl, rfl, rfl, rfl, rfl, rfl, rfl, rfl⟩, ⟨hf.mom, rfl, hf.ilr, hf.drop⟩⟩
        · cases h
      · cases h
    | maxNorm2 x b =>
      simp only [Gw.call, Gw.maxNorm2] at h
      split at h
      · cases h; exact ⟨⟨rfl, rfl, rfl, rfl, rfl, rfl, rfl, rfl, rfl, rfl, rfl⟩, ⟨hf.mom, rfl, hf.ilr, hf.drop⟩⟩
      · cases h
    | setILR d i l t =>
      simp only [Gw.call, Gw.setILR] at h
      split at h
      · cases h; exact ⟨⟨rfl, rfl, rfl, rfl, rfl, rfl, rfl, rfl, rfl, rfl, rfl⟩, ⟨hf.mom, hf.norm, rfl, hf.drop⟩⟩
      · cases h
    | clearILR =>
      cases h; exact ⟨⟨rfl, rfl, rfl, rfl, rfl, rfl, rfl, rfl, rfl, rfl, rfl⟩, ⟨hf.mom, hf.norm, rfl, hf.drop⟩⟩
    | ilrToMom b =>
      simp only [Gw.call] at h
      cases h
      exact ⟨⟨rfl, rfl, rfl, rfl, rfl, rfl, rfl, rfl, rfl, rfl, rfl⟩, ⟨hf.mom, hf.norm, hf.ilr, hf.drop⟩⟩
    | _ =>
      simp only [Gw.call] at h
      first
        | (cases h
           exact ⟨⟨rfl, rfl, rfl, rfl, rfl, rfl, rfl, rfl, rfl, rfl, rfl⟩, ⟨hf.mom, hf.norm, hf.ilr, hf.drop⟩⟩)
        | (split at h
           · cases h
             exact ⟨⟨rfl, rfl, rfl, rfl, rfl, rfl, rfl, rfl, rfl, rfl, rfl⟩, ⟨(by first | rfl | exact hf.mom), hf.norm, hf.ilr, hf.drop⟩⟩
           · cases h)

theorem run_agrees : ∀ {h : List Op} {g g' : Gw}, g.run h = some g' → Flags g.c → Agrees g'.c g.c h ∧ Flags g'.c
  | [], g, g', hr, hf => by cases hr; exact ⟨⟨rfl, rfl, rfl, rfl, rfl, rfl, rfl, rfl, rfl, rfl, rfl⟩, hf⟩
  | o :: os, g, g', hr, hf => by
    simp only [Gw.run, Option.bind_eq_some_iff] at hr
    obtain ⟨g1, h1, h2⟩ := hr
    obtain ⟨a, f⟩ := call_agrees h1 hf
    obtain ⟨b, f'⟩ := run_agrees h2 f
    refine ⟨?_, f'⟩
    constructor
    · rw [b.type, a.type]; rfl
    · rw [b.lr, a.lr]; rfl
    · rw [b.drop, a.drop]; rfl
    · rw [b.mom, a.mom]; rfl
    · rw [b.beta1, a.beta1]; rfl
    · rw [b.beta2, a.beta2]; rfl
    · rw [b.eps, a.eps]; rfl
    · rw [b.norm, a.norm]; rfl
    · rw [b.ilr, a.ilr]; rfl
    · rw [b.dropNesterov, a.dropNesterov]; rfl
    · rw [b.ilrToMom, a.ilrToMom]; rfl

theorem fresh_flags (lr eps : Rat) : Flags (fresh lr eps).c := ⟨rfl, rfl, rfl, (by decide : (0 : Rat) < 1), Rat.le_refl⟩

/-- **C143.** Whatever calls were made, training steps and initialisations among them, the settings are those asked for last by their own
functions, or the documented defaults: kind of the optimiser, learning rate, share of updated weights, momentum and its kind, betas,
stabiliser, bound of norms, individual learning rates; momentum, bound of norms and individual rates are in use exactly if their values
are positive. -/
theorem settings_as_asked {lr eps : Rat} {h : List Op} {g : Gw} (hr : (fresh lr eps).run h = some g) :
    g.c.type = asked Op.type? .classical h ∧ g.c.lr = asked Op.lr? lr h ∧ g.c.drop = asked Op.drop? 1 h ∧
    (g.c.mom, g.c.nesterov) = asked Op.mom? (0, true) h ∧ g.c.beta1 = asked Op.beta1? (9/10) h ∧
    g.c.beta2 = asked Op.beta2? (999/1000) h ∧ g.c.eps = asked Op.eps? eps h ∧
    (g.c.maxNorm2, g.c.inclBias) = asked Op.norm? (0, false) h ∧ g.c.ilr = asked Op.ilr? (0, 0, 0, 0) h ∧
    g.c.dropNesterov = asked Op.dropNesterov? true h ∧ g.c.ilrToMom = asked Op.ilrToMom? false h ∧
    (g.c.useMom = true ↔ momentumOn h) ∧ (g.c.useMaxNorm = true ↔ 0 < (asked Op.norm? (0, false) h).1) ∧
    (g.c.useILR = true ↔ ilrOn h) := by
  obtain ⟨a, f⟩ := run_agrees hr (fresh_flags lr eps)
  refine ⟨a.type, a.lr, a.drop, a.mom, a.beta1, a.beta2, a.eps, a.norm, a.ilr, a.dropNesterov, a.ilrToMom, ?_, ?_, ?_⟩
  · unfold momentumOn
    have := congrArg Prod.fst a.mom
    dsimp only at this
    rw [f.mom, decide_eq_true_eq, this]
    rfl
  · have := congrArg Prod.fst a.norm
    dsimp only at this
    rw [f.norm, decide_eq_true_eq, this]
    rfl
  · unfold ilrOn
    rw [f.ilr, decide_eq_true_eq, a.ilr]
    rfl

theorem call_gamma {g g' : Gw} {o : Op} (h : g.call o = some g') (ht : g.c.type ≠ .nadam) (ho : o ≠ .type .nadam) :
    g'.c.gamma = asked Op.gamma? g.c.gamma [o] ∧ g'.c.type ≠ .nadam := by
  by_cases hs : o.isStep = true ∨ o.isLife = true
  · obtain ⟨x, hx, hx'⟩ := step_settings h hs
    rcases hx' with rfl | hx'
    · rw [hx]
      refine ⟨?_, ht⟩
      cases o <;> first | rfl | (rcases hs with hs | hs <;> cases hs)
    · exact absurd hx' ht
  · cases o with
    | init _ _ _ => exact absurd (.inr rfl) hs
    | deinit => exact absurd (.inr rfl) hs
    | pre _ => exact absurd (.inl rfl) hs
    | apply _ => exact absurd (.inl rfl) hs
    | type t => cases h; exact ⟨rfl, fun e => ho (by dsimp only at e; rw [e])⟩
    | maxNorm x b =>
      simp only [Gw.call, Gw.maxNorm2] at h
      split at h
      · split at h
        · cases h; exact ⟨rfl, ht⟩
        · cases h
      · cases h
    | maxNorm2 x b =>
      simp only [Gw.call, Gw.maxNorm2] at h
      split at h
      · cases h; exact ⟨rfl, ht⟩
      · cases h
    | setILR d i l t =>
      simp only [Gw.call, Gw.setILR] at h
      split at h
      · cases h; exact ⟨rfl, ht⟩
      · cases h
    | _ =>
      simp only [Gw.call] at h
      first
        | (cases h; exact ⟨rfl, ht⟩)
        | (split at h
           · cases h; exact ⟨rfl, ht⟩
           · cases h)

theorem run_gamma : ∀ {h : List Op} {g g' : Gw}, g.run h = some g' → g.c.type ≠ .nadam → (∀ o ∈ h, o ≠ .type .nadam) →
    g'.c.gamma = asked Op.gamma? g.c.gamma h
  | [], g, g', hr, _, _ => by cases hr; rfl
  | o :: os, g, g', hr, ht, ho => by
    simp only [Gw.run, Option.bind_eq_some_iff] at hr
    obtain ⟨g1, h1, h2⟩ := hr
    obtain ⟨a, b⟩ := call_gamma h1 ht (ho _ List.mem_cons_self)
    rw [run_gamma h2 b (fun o h => ho o (List.mem_cons_of_mem _ h)), a]
    rfl

/-- **C143 (gamma, partial).** So is gamma, if Nadam is not used. Missing: see `nadam_forgets_gamma`. -/
theorem gamma_as_asked_partial {lr eps : Rat} {h : List Op} {g : Gw} (hr : (fresh lr eps).run h = some g)
    (hn : ∀ o ∈ h, o ≠ .type .nadam) : g.c.gamma = asked Op.gamma? (5/100) h :=
  run_gamma hr (nofun) hn

/-- **C143 is false of the code for gamma**: gamma set to one half, one step made with Nadam, then the network is initialised anew for
Radam; Radam works with gamma zero. -/
theorem nadam_forgets_gamma : ∃ (h : List Op) (g : Gw), (fresh 1 0).run h = some g ∧ g.c.type = .radam ∧ g.cd = true ∧
    asked Op.gamma? (5/100) h = mkRat 1 2 ∧ g.c.gamma = 0 :=
  ⟨[.gamma (mkRat 1 2), .type .nadam, .init 6 0 0, .pre false, .apply false, .deinit, .type .radam, .init 6 0 0], _, rfl, rfl, rfl, rfl, rfl⟩

/-! ### Changes between steps -/

/-- The run-time data made by `gw_init` for the settings with optimiser `t`, with velocity if `v`, with room for two matrices if `w`. -/
structure Made (t : GradType) (v w : Prop) (g : Gw) : Prop where
  cd : g.cd = true
  V : v → g.V.readable = true
  A : t.needsA = true → g.A.there = true ∧ (g.first = false → g.A.readable = true)
  B : t.needsB = true → g.B.there = true ∧ (g.first = false → g.B.readable = true)
  room : g.n ≤ g.stor
  room2 : w → g.n + g.n ≤ g.stor
  norm : g.norm ≤ g.stor

theorem setter_total {g : Gw} {o : Op} (hl : o.Legal) (hs : o.isStep = false) (hf : o.isLife = false) :
    ∃ g', g.call o = some g' ∧ g'.cd = g.cd ∧ g'.V = g.V ∧ g'.A = g.A ∧ g'.B = g.B ∧ g'.first = g.first ∧ g'.n = g.n ∧
      g'.stor = g.stor ∧ g'.norm = g.norm := by
  cases o with
  | init _ _ _ => cases hf
  | deinit => cases hf
  | pre _ => cases hs
  | apply _ => cases hs
  | maxNorm x b =>
    have h2 : (0 : Rat) ≤ x * x := Rat.mul_nonneg hl hl
    exact ⟨_, (if_pos hl).trans (if_pos h2), rfl, rfl, rfl, rfl, rfl, rfl, rfl, rfl⟩
  | maxNorm2 x b => exact ⟨_, if_pos hl, rfl, rfl, rfl, rfl, rfl, rfl, rfl, rfl⟩
  | setILR d i l t => exact ⟨_, if_pos hl, rfl, rfl, rfl, rfl, rfl, rfl, rfl, rfl⟩
  | lr x => exact ⟨_, rfl, rfl, rfl, rfl, rfl, rfl, rfl, rfl, rfl⟩
  | dropNesterov x => exact ⟨_, rfl, rfl, rfl, rfl, rfl, rfl, rfl, rfl, rfl⟩
  | type x => exact ⟨_, rfl, rfl, rfl, rfl, rfl, rfl, rfl, rfl, rfl⟩
  | clearILR => exact ⟨_, rfl, rfl, rfl, rfl, rfl, rfl, rfl, rfl, rfl⟩
  | ilrToMom b => exact ⟨_, rfl, rfl, rfl, rfl, rfl, rfl, rfl, rfl, rfl⟩
  | _ => exact ⟨_, if_pos hl, rfl, rfl, rfl, rfl, rfl, rfl, rfl, rfl⟩

theorem Mem.more_readable {m : Mem} (h : m.readable = true) : m.more.readable = true := by cases m <;> first | rfl | cases h
theorem Mem.readable_there {m : Mem} (h : m.readable = true) : m.there = true := by cases m <;> first | rfl | cases h

theorem optimise_total {t : GradType} {v w : Prop} {g : Gw} (hm : Made t v w g) (ht : g.c.type = t) :
    ∃ g', g.optimise = some g' ∧ Made t v w { g' with first := false } ∧ g'.c = { g.c with gamma := g'.c.gamma } := by
  obtain ⟨m1, m2, m3, m4, m5, m6, m7⟩ := hm
  subst ht
  unfold Gw.optimise
  have key : ∀ a b x, (g.c.type.needsA = true → Mem.readable a = true) → (g.c.type.needsB = true → Mem.readable b = true) →
      Made g.c.type v w { ({ g with A := a, B := b, c := { g.c with gamma := x } } : Gw) with first := false } := fun a b x ha hb =>
    ⟨m1, m2, fun h => ⟨Mem.readable_there (ha h), fun _ => ha h⟩, fun h => ⟨Mem.readable_there (hb h), fun _ => hb h⟩, m5, m6, m7⟩
  generalize hT : g.c.type = T at *
  cases T <;> dsimp only
  case classical => exact ⟨_, rfl, key _ _ _ (nofun) (nofun), rfl⟩
  case rprop => exact ⟨_, rfl, key _ _ _ (nofun) (nofun), rfl⟩
  case rmsHinton =>
    obtain ⟨a1, a2⟩ := m3 rfl
    cases hf : g.first
    · rw [if_neg (by decide), if_pos (a2 hf)]
      exact ⟨_, rfl, key _ _ _ (fun _ => Mem.more_readable (a2 hf)) (nofun), rfl⟩
    · rw [if_pos rfl, if_pos a1]
      exact ⟨_, rfl, key _ _ _ (fun _ => rfl) (nofun), rfl⟩
  case modprop =>
    obtain ⟨a1, a2⟩ := m3 rfl
    cases hf : g.first
    · rw [if_neg (by decide), if_pos (a2 hf)]
      exact ⟨_, rfl, key _ _ _ (fun _ => Mem.more_readable (a2 hf)) (nofun), rfl⟩
    · rw [if_pos rfl, if_pos a1]
      exact ⟨_, rfl, key _ _ _ (fun _ => rfl) (nofun), rfl⟩
  case rmsGraves =>
    obtain ⟨a1, a2⟩ := m3 rfl
    obtain ⟨b1, b2⟩ := m4 rfl
    cases hf : g.first
    · rw [if_neg (by decide), if_pos (by rw [a2 hf, b2 hf]; rfl)]
      exact ⟨_, rfl, key _ _ _ (fun _ => Mem.more_readable (a2 hf)) (fun _ => Mem.more_readable (b2 hf)), rfl⟩
    · rw [if_pos rfl, if_pos a1]
      exact ⟨_, rfl, key _ _ _ (fun _ => rfl) (fun _ => rfl), rfl⟩
  all_goals
    obtain ⟨a1, a2⟩ := m3 rfl
    obtain ⟨b1, b2⟩ := m4 rfl
    cases hf : g.first
    · rw [if_neg (by decide), if_pos (by rw [a2 hf, b2 hf]; rfl)]
      exact ⟨_, rfl, key _ _ _ (fun _ => Mem.more_readable (a2 hf)) (fun _ => Mem.more_readable (b2 hf)), rfl⟩
    · rw [if_pos rfl, if_pos (by rw [a1, b1]; rfl)]
      exact ⟨_, rfl, key _ _ _ (fun _ => rfl) (fun _ => rfl), rfl⟩

theorem ilrApply_off {g : Gw} (h : g.c.useILR = false) : g.ilrApply = some g := by
  unfold Gw.ilrApply; rw [h]; rfl

theorem update_total {t : GradType} {v w : Prop} {g : Gw} (hm : Made t v w g) (hv : g.c.useMom = true → v) :
    ∃ g', g.update = some g' ∧ Made t v w g' := by
  unfold Gw.update
  have h1 : ¬ (g.c.useMom && !g.V.readable) = true := by
    intro h
    rw [Bool.and_eq_true] at h
    rw [hm.V (hv h.1)] at h
    exact nomatch h.2
  have h2 : ¬ (g.c.lrDrop && decide (g.stor < g.n)) = true := by
    intro h
    rw [Bool.and_eq_true, decide_eq_true_eq] at h
    have := hm.room
    omega
  have h3 : ¬ (g.c.useMaxNorm && decide (g.stor < g.norm)) = true := by
    intro h
    rw [Bool.and_eq_true, decide_eq_true_eq] at h
    have := hm.norm
    omega
  rw [if_neg h1, if_neg h2, if_neg h3]
  refine ⟨_, rfl, hm.cd, fun hV => ?_, hm.A, hm.B, hm.room, hm.room2, hm.norm⟩
  dsimp only
  split
  · exact Mem.more_readable (hm.V hV)
  · exact hm.V hV

theorem step_total {t : GradType} {v w : Prop} {g : Gw} {o : Op} (hm : Made t v w g) (ht : g.c.type = t) (hv : g.c.useMom = true → v)
    (hw : g.c.dropsVelocity = true → w) (hi : g.c.useILR = false) (hs : o.isStep = true) : ∃ g', g.call o = some g' ∧ Made t v w g' := by
  cases o with
  | pre b =>
    simp only [Gw.call, Gw.pre]
    rw [hm.cd, if_neg (by decide)]
    split
    · rename_i hb
      rw [Bool.and_eq_true] at hb
      have hu : g.c.useMom = true := by
        have := hb.2
        unfold Settings.useNesterov at this
        rw [Bool.and_eq_true] at this
        exact this.1
      rw [hm.V (hv hu), if_neg (by decide)]
      have h2 : ¬ (g.c.lrDrop && g.c.dropNesterov && decide (g.stor < g.n + g.n)) = true := by
        intro h
        rw [Bool.and_eq_true, Bool.and_eq_true, decide_eq_true_eq] at h
        have : g.c.dropsVelocity = true := by
          unfold Settings.dropsVelocity
          rw [hb.2, h.1.1, h.1.2]; rfl
        have := hm.room2 (hw this)
        omega
      have h3 : ¬ (g.c.useMaxNorm && decide (g.stor < g.norm)) = true := by
        intro h
        rw [Bool.and_eq_true, decide_eq_true_eq] at h
        have := hm.norm
        omega
      rw [if_neg h2, if_neg h3]
      exact ⟨_, rfl, hm⟩
    · exact ⟨_, rfl, hm⟩
  | apply b =>
    simp only [Gw.call, Gw.apply]
    rw [hm.cd, if_neg (by decide)]
    cases b with
    | true => exact ⟨_, rfl, hm⟩
    | false =>
      rw [if_neg (by decide)]
      obtain ⟨g1, e1, m1, c1⟩ := optimise_total hm ht
      have i1 : g1.c.useILR = false := by rw [c1]; exact hi
      have v1 : g1.c.useMom = true → v := by rw [c1]; exact hv
      rw [e1]
      dsimp only
      rw [ilrApply_off i1]
      exact update_total m1 v1
  | _ => cases hs

/-- The run-time data are there from an initialisation to the end; individual rates have none. -/
theorem call_life {g g' : Gw} {o : Op} (h : g.call o = some g') :
    g'.cd = (o.life?).getD g.cd ∧ (g.gain = .absent → g.prev = .absent → g'.gain = .absent ∧ g'.prev = .absent) := by
  cases o with
  | init n norm other =>
    simp only [Gw.call, Gw.init] at h
    split at h
    · cases h
    · split at h
      · cases h
      · cases h; exact ⟨rfl, fun a b => ⟨a, b⟩⟩
  | deinit => cases h; exact ⟨rfl, fun _ _ => ⟨rfl, rfl⟩⟩
  | pre b =>
    simp only [Gw.call, Gw.pre] at h
    split at h
    · cases h
    · split at h
      · simp only [Option.ite_none_left_eq_some, Option.some.injEq] at h
        obtain ⟨-, -, -, rfl⟩ := h
        exact ⟨rfl, fun a b => ⟨a, b⟩⟩
      · cases h; exact ⟨rfl, fun a b => ⟨a, b⟩⟩
  | apply b =>
    simp only [Gw.call, Gw.apply] at h
    split at h
    · cases h
    · split at h
      · cases h; exact ⟨rfl, fun a b => ⟨a, b⟩⟩
      · split at h
        · cases h
        · rename_i g1 h1
          split at h
          · cases h
          · rename_i g2 h2
            obtain ⟨a, b, x, rfl, -⟩ := optimise_eq h1
            obtain ⟨v, rfl⟩ := update_eq h
            obtain ⟨a', b', e⟩ := ilrApply_eq h2
            refine ⟨by rw [e]; rfl, fun hg hp => ?_⟩
            unfold Gw.ilrApply at h2
            dsimp only at h2
            split at h2
            · simp only [hg, hp, Option.ite_none_left_eq_some, Option.some.injEq] at h2
              obtain ⟨p1, -, rfl⟩ := h2
              have : Settings.ilrVelocity { g.c with gamma := x } = true := by
                cases hv : Settings.ilrVelocity { g.c with gamma := x } with
                | true => rfl
                | false => rw [hv] at p1; exact absurd rfl p1
              dsimp only
              rw [this]
              exact ⟨by split <;> rfl, rfl⟩
            · cases h2; exact ⟨hg, hp⟩
  | ilrToMom b =>
    cases h
    refine ⟨rfl, fun hg hp => ⟨hg, ?_⟩⟩
    dsimp only
    rw [hg, if_neg (by simp [Mem.there])]
    exact hp
  | maxNorm x b =>
    simp only [Gw.call, Gw.maxNorm2, Option.ite_none_right_eq_some, Option.some.injEq] at h
    obtain ⟨-, -, rfl⟩ := h
    exact ⟨rfl, fun a b => ⟨a, b⟩⟩
  | maxNorm2 x b =>
    simp only [Gw.call, Gw.maxNorm2, Option.ite_none_right_eq_some, Option.some.injEq] at h
    obtain ⟨-, rfl⟩ := h
    exact ⟨rfl, fun a b => ⟨a, b⟩⟩
  | setILR d i l t =>
    simp only [Gw.call, Gw.setILR, Option.ite_none_right_eq_some, Option.some.injEq] at h
    obtain ⟨-, rfl⟩ := h
    exact ⟨rfl, fun a b => ⟨a, b⟩⟩
  | _ =>
    simp only [Gw.call, Option.ite_none_right_eq_some, Option.some.injEq] at h
    first
      | (obtain ⟨-, rfl⟩ := h; exact ⟨rfl, fun a b => ⟨a, b⟩⟩)
      | (subst h; exact ⟨rfl, fun a b => ⟨a, b⟩⟩)

theorem run_life : ∀ {h : List Op} {g g' : Gw}, g.run h = some g' → g.gain = .absent → g.prev = .absent →
    g'.cd = asked Op.life? g.cd h ∧ g'.gain = .absent ∧ g'.prev = .absent
  | [], g, g', hr, a, b => by cases hr; exact ⟨rfl, a, b⟩
  | o :: os, g, g', hr, a, b => by
    simp only [Gw.run, Option.bind_eq_some_iff] at hr
    obtain ⟨g1, h1, h2⟩ := hr
    obtain ⟨c, d⟩ := call_life h1
    obtain ⟨a1, b1⟩ := d a b
    obtain ⟨c2, d2⟩ := run_life h2 a1 b1
    exact ⟨by rw [c2, c]; rfl, d2⟩

theorem dropsVelocity_iff {lr eps : Rat} {h : List Op} {g : Gw} (hr : (fresh lr eps).run h = some g) :
    g.c.dropsVelocity = true ↔ dropsVelocity h := by
  obtain ⟨-, -, e3, e4, -, -, -, -, -, e10, -, e12, -, -⟩ := settings_as_asked hr
  have e4' := congrArg Prod.snd e4
  dsimp only at e4'
  simp only [Settings.dropsVelocity, Settings.useNesterov, Settings.lrDrop, Bool.and_eq_true, decide_eq_true_eq, dropsVelocity]
  rw [e12, e3, e10, e4']
  exact ⟨fun ⟨⟨⟨a, b⟩, c⟩, d⟩ => ⟨a, b, c, d⟩, fun ⟨a, b, c, d⟩ => ⟨⟨⟨a, b⟩, c⟩, d⟩⟩

/-- **C144, making the run-time data.** Whatever calls were made, the run-time data can be made if they are not there, unless individual
learning rates are asked for. Missing: see `individual_rates_cannot_be_initialised`. -/
theorem init_never_fails_partial {lr eps : Rat} {h : List Op} {g : Gw} (hr : (fresh lr eps).run h = some g)
    (ha : asked Op.life? false h = false) (hi : ¬ ilrOn h) {n : Nat} (hn : 0 < n) (norm other : Nat) :
    ∃ g', g.run [.init n norm other] = some g' := by
  obtain ⟨-, -, -, -, -, -, -, -, -, -, -, -, -, e14⟩ := settings_as_asked hr
  have hc : g.cd = false := (run_life hr rfl rfl).1.trans ha
  have hu : g.c.useILR = false := by
    cases h' : g.c.useILR with
    | false => rfl
    | true => exact absurd (e14.mp h') hi
  have h1 : ¬ (n = 0 ∨ g.cd = true) := by
    rw [hc]
    rintro (h0 | h0)
    · omega
    · exact nomatch h0
  have h2 : ∃ g', g.init n norm other = some g' := by
    unfold Gw.init
    rw [if_neg h1, hu]
    exact ⟨_, rfl⟩
  obtain ⟨g', e⟩ := h2
  exact ⟨g', by show (g.init n norm other).bind _ = _; rw [e]; rfl⟩

theorem init_made {g g' : Gw} {n norm other : Nat} (h : g.init n norm other = some g') :
    Made g.c.type (g.c.useMom = true) (g.c.dropsVelocity = true) g' ∧ g'.c = g.c := by
  unfold Gw.init at h
  split at h
  · cases h
  · split at h
    · cases h
    · cases h
      refine ⟨⟨rfl, fun hv => ?_, fun ha => ?_, fun hb => ?_, ?_, fun hw => ?_, ?_⟩, rfl⟩
      · dsimp only; rw [hv]; rfl
      · dsimp only; rw [ha]; exact ⟨rfl, (nofun)⟩
      · dsimp only; rw [hb]; exact ⟨rfl, (nofun)⟩
      · dsimp only
        split <;> omega
      · dsimp only
        rw [if_pos hw]
        omega
      · dsimp only
        omega

theorem ops_total {lr eps : Rat} {h : List Op} {v w : Prop} {t : GradType} : ∀ {ops hist : List Op} {g : Gw},
    (fresh lr eps).run hist = some g → Made t v w g → (∀ o ∈ ops, o.Legal ∧ o.isLife = false) →
    (∀ pre o rest, ops = pre ++ o :: rest → o.isStep = true → asked Op.type? .classical (hist ++ pre) = t ∧ (momentumOn (hist ++ pre) → v) ∧
      (dropsVelocity (hist ++ pre) → w) ∧ ¬ ilrOn (hist ++ pre)) → ∃ g', g.run ops = some g'
  | [], hist, g, hr, hm, hl, hs => ⟨g, rfl⟩
  | o :: ops, hist, g, hr, hm, hl, hs => by
    have key : ∃ g1, g.call o = some g1 ∧ Made t v w g1 := by
      cases hst : o.isStep with
      | true =>
        obtain ⟨a, b, c, d⟩ := hs [] o ops rfl hst
        rw [List.append_nil] at a b c d
        obtain ⟨e1, -, -, -, -, -, -, -, -, -, -, e12, -, e14⟩ := settings_as_asked hr
        refine step_total hm (e1.trans a) (fun h => b (e12.mp h)) (fun h => c ((dropsVelocity_iff hr).mp h)) ?_ hst
        cases h' : g.c.useILR with
        | false => rfl
        | true => exact absurd (e14.mp h') d
      | false =>
        obtain ⟨hl1, hl2⟩ := hl o List.mem_cons_self
        obtain ⟨g1, e, a, b, c, d, f, i, j, k⟩ := setter_total (g := g) hl1 hst hl2
        obtain ⟨m1, m2, m3, m4, m5, m6, m7⟩ := hm
        exact ⟨g1, e, a.trans m1, b ▸ m2, by rw [c, f]; exact m3, by rw [d, f]; exact m4, by rw [i, j]; exact m5, by rw [i, j]; exact m6,
          by rw [j, k]; exact m7⟩
    obtain ⟨g1, e, m⟩ := key
    have hr' : (fresh lr eps).run (hist ++ [o]) = some g1 := by
      rw [run_append, hr]
      show (g.call o).bind _ = _
      rw [e]; rfl
    obtain ⟨g', h'⟩ := ops_total (h := h) hr' m (fun o h => hl o (List.mem_cons_of_mem _ h)) (fun pre o' rest he hst => by
      have := hs (o :: pre) o' rest (by rw [he]; rfl) hst
      rwa [List.append_assoc])
    refine ⟨g', ?_⟩
    show (g.call o).bind _ = _
    rw [e]; exact h'

theorem asked_init {α : Type} (f : Op → Option α) {d : α} {h : List Op} {n norm other : Nat} (hf : f (.init n norm other) = none) :
    asked f d (h ++ [.init n norm other]) = asked f d h := by
  rw [asked_append]; simp [asked, hf]

/-- **C144 (steps, partial).** Once the run-time data are made, after whatever calls, training steps and changes of settings may follow
in any order, any number of times, and no step fails, provided that at each step the optimiser is of the kind it was when the data were
made, momentum is on only if it was on then, updates of Nesterov momentum are dropped only if they were then, and individual learning
rates are off. Missing: the other changes; see `momentum_cannot_be_turned_on`, `dropout_cannot_be_turned_on`,
`individual_rates_never_work`. -/
theorem steps_never_fail_partial {lr eps : Rat} {h : List Op} {n norm other : Nat} {g : Gw}
    (hr : (fresh lr eps).run (h ++ [.init n norm other]) = some g) {ops : List Op} (hl : ∀ o ∈ ops, o.Legal ∧ o.isLife = false)
    (hs : ∀ pre o rest, ops = pre ++ o :: rest → o.isStep = true → NoMore h (h ++ .init n norm other :: pre)) :
    ∃ g', (fresh lr eps).run (h ++ .init n norm other :: ops) = some g' := by
  have hr0 := hr
  rw [run_append, Option.bind_eq_some_iff] at hr
  obtain ⟨g0, h0, h1⟩ := hr
  have h1 : g0.init n norm other = some g := by
    simp only [Gw.run, Gw.call, Option.bind_eq_some_iff] at h1
    obtain ⟨x, hx, hy⟩ := h1
    cases hy; exact hx
  obtain ⟨m, c⟩ := init_made h1
  obtain ⟨e1, -, -, -, -, -, -, -, -, -, -, e12, -, -⟩ := settings_as_asked h0
  obtain ⟨g', hg⟩ := ops_total (h := h) hr0 m hl (fun pre o rest he hst => by
    obtain ⟨a, b, c, d⟩ := hs pre o rest he hst
    rw [List.append_assoc]
    exact ⟨a.trans e1.symm, fun h => e12.mpr (b h), fun h => (dropsVelocity_iff h0).mpr (c h), d⟩)
  refine ⟨g', ?_⟩
  rw [show h ++ .init n norm other :: ops = (h ++ [.init n norm other]) ++ ops by simp, run_append, hr0]
  exact hg

/-- Individual learning rates are asked for: the run-time data cannot be made, a null pointer is used. -/
theorem individual_rates_cannot_be_initialised {lr eps : Rat} {h : List Op} {n norm other : Nat} (hi : ilrOn h) :
    (fresh lr eps).run (h ++ [.init n norm other]) = none := by
  rw [run_append]
  cases hr : (fresh lr eps).run h with
  | none => rfl
  | some g =>
    obtain ⟨-, -, -, -, -, -, -, -, -, -, -, -, -, e14⟩ := settings_as_asked hr
    show (g.init n norm other).bind _ = _
    unfold Gw.init
    rw [e14.mpr hi]
    split <;> rfl

theorem apply_first {g g' : Gw} (h : g.apply false = some g') : g'.first = false ∧ g'.c.useILR = g.c.useILR := by
  simp only [Gw.apply] at h
  split at h
  · cases h
  · rw [if_neg (by decide)] at h
    split at h
    · cases h
    · rename_i g1 h1
      split at h
      · cases h
      · rename_i g2 h2
        obtain ⟨a, b, x, rfl, hx⟩ := optimise_eq h1
        obtain ⟨a', b', rfl⟩ := ilrApply_eq h2
        obtain ⟨v, rfl⟩ := update_eq h
        exact ⟨rfl, rfl⟩

/-- They are asked for later: no two steps that learn are possible. -/
theorem individual_rates_never_work {lr eps : Rat} {h : List Op} (hi : ilrOn h) :
    (fresh lr eps).run (h ++ [.apply false, .apply false]) = none := by
  rw [run_append]
  cases hr : (fresh lr eps).run h with
  | none => rfl
  | some g =>
    obtain ⟨-, -, -, -, -, -, -, -, -, -, -, -, -, e14⟩ := settings_as_asked hr
    obtain ⟨-, hg, hp⟩ := run_life hr rfl rfl
    show (g.apply false).bind _ = _
    cases h1 : g.apply false with
    | none => rfl
    | some g1 =>
      obtain ⟨f1, i1⟩ := apply_first h1
      have := (call_life (o := .apply false) h1).2 hg hp
      show (g1.apply false).bind _ = _
      cases h2 : g1.apply false with
      | none => rfl
      | some g2 =>
        exfalso
        simp only [Gw.apply] at h2
        split at h2
        · cases h2
        · rw [if_neg (by decide)] at h2
          split at h2
          · cases h2
          · rename_i g3 h3
            split at h2
            · cases h2
            · rename_i g4 h4
              obtain ⟨a, b, x, rfl, -⟩ := optimise_eq h3
              unfold Gw.ilrApply at h4
              dsimp only at h4
              rw [if_pos (i1.trans (e14.mpr hi)), f1, this.1] at h4
              simp [Mem.readable] at h4

/-- **C144 is false of the code**: momentum turned on after the run-time data were made; the velocity is not there. -/
theorem momentum_cannot_be_turned_on : ∃ (h : List Op), (∀ o ∈ h, o.Legal) ∧ ((fresh 1 0).run h).isSome = true ∧
    asked Op.life? false h = true ∧ (fresh 1 0).run (h ++ [.pre false]) = none :=
  ⟨[.init 6 0 0, .nesterov (mkRat 1 2)],
    (by intro o ho; simp only [List.mem_cons, List.not_mem_nil, or_false] at ho; rcases ho with rfl | rfl <;> first
          | exact trivial
          | exact (by decide : (0 : Rat) ≤ mkRat 1 2 ∧ mkRat 1 2 < 1)
          | exact (by decide : (0 : Rat) ≤ mkRat 1 2 ∧ mkRat 1 2 ≤ 1)),
    rfl, rfl, rfl⟩

/-- **C144 is false of the code**: Nesterov momentum is on, dropout of updates is turned on after the run-time data were made; the
temporary memory is too small. A comment in `gw_init` calls this change safe. -/
theorem dropout_cannot_be_turned_on : ∃ (h : List Op), (∀ o ∈ h, o.Legal) ∧ ((fresh 1 0).run h).isSome = true ∧
    asked Op.life? false h = true ∧ (fresh 1 0).run (h ++ [.pre false]) = none :=
  ⟨[.nesterov (mkRat 1 2), .init 6 0 0, .drop (mkRat 1 2)],
    (by intro o ho; simp only [List.mem_cons, List.not_mem_nil, or_false] at ho; rcases ho with rfl | rfl | rfl <;>
        first
          | exact trivial
          | exact (by decide : (0 : Rat) ≤ mkRat 1 2 ∧ mkRat 1 2 < 1)
          | exact (by decide : (0 : Rat) ≤ mkRat 1 2 ∧ mkRat 1 2 ≤ 1)),
    rfl, rfl, rfl⟩

/-- C144: momentum and dropout turned off and on again, other settings changed between steps. -/
example : ((fresh 1 0).run [.nesterov (mkRat 1 2), .drop (mkRat 1 2), .type .adam, .init 6 0 0, .pre false, .apply false,
    .momentum 0, .drop 1, .pre false, .apply false, .nesterov (mkRat 1 4), .drop (mkRat 1 4), .maxNorm 3 true, .pre false,
    .apply false]).map (fun g => (g.A, g.V)) = some (.of 3, .of 2) := by decide +kernel

/-! ### A new beginning -/

theorem setter_legal {g g' : Gw} {o : Op} (h : g.call o = some g') (hs : o.isSetting = true) : o.Legal := by
  cases o with
  | init _ _ _ => cases hs
  | deinit => cases hs
  | pre _ => cases hs
  | apply _ => cases hs
  | lr _ => trivial
  | dropNesterov _ => trivial
  | type _ => trivial
  | clearILR => trivial
  | ilrToMom _ => trivial
  | _ =>
    simp only [Gw.call, Gw.maxNorm2, Gw.setILR, Option.ite_none_right_eq_some] at h
    exact h.1

theorem filter_legal : ∀ {h : List Op} {g g' : Gw}, g.run h = some g' → ∀ o ∈ h.filter Op.isSetting, o.Legal ∧ o.isSetting = true
  | [], _, _, _, _, ho => nomatch ho
  | o :: os, g, g', hr, o', ho => by
    simp only [Gw.run, Option.bind_eq_some_iff] at hr
    obtain ⟨g1, h1, h2⟩ := hr
    rw [List.mem_filter] at ho
    rcases List.mem_cons.mp ho.1 with rfl | h
    · exact ⟨setter_legal h1 ho.2, ho.2⟩
    · exact filter_legal h2 o' (List.mem_filter.mpr ⟨h, ho.2⟩)

theorem setters_total : ∀ {h : List Op} {g : Gw}, (∀ o ∈ h, o.Legal ∧ o.isSetting = true) →
    ∃ g', g.run h = some g' ∧ g'.cd = g.cd ∧ g'.V = g.V ∧ g'.A = g.A ∧ g'.B = g.B
  | [], g, _ => ⟨g, rfl, rfl, rfl, rfl, rfl⟩
  | o :: os, g, ho => by
    obtain ⟨a, b⟩ := ho o List.mem_cons_self
    unfold Op.isSetting at b
    rw [Bool.and_eq_true, Bool.not_eq_true', Bool.not_eq_true'] at b
    obtain ⟨g1, e, h1, h2, h3, h4, -⟩ := setter_total (g := g) a b.1 b.2
    obtain ⟨g', e', i1, i2, i3, i4⟩ := setters_total (g := g1) (fun o h => ho o (List.mem_cons_of_mem _ h))
    refine ⟨g', ?_, i1.trans h1, i2.trans h2, i3.trans h3, i4.trans h4⟩
    show (g.call o).bind _ = _
    rw [e]; exact e'

theorem asked_filter {α : Type} (f : Op → Option α) (hf : ∀ o : Op, o.isSetting = false → f o = none) :
    ∀ (h : List Op) (d : α), asked f d (h.filter Op.isSetting) = asked f d h
  | [], _ => rfl
  | o :: os, d => by
    cases ho : o.isSetting with
    | true => rw [List.filter_cons_of_pos ho]; exact asked_filter f hf os _
    | false =>
      rw [List.filter_cons_of_neg (by rw [ho]; decide)]
      show _ = asked f ((f o).getD d) os
      rw [hf o ho]
      exact asked_filter f hf os _

/-- **C145 (partial).** Run-time data that are made anew have nothing of what was before, and settings have everything. After any calls
(steps, initialisations among them) `deinit` and `init` give an object that cannot be told, by anything done afterwards, from a new
object that was given the same settings and never worked. Missing: Nadam, which forgets gamma (`nadam_forgets_gamma`). -/
theorem new_beginning_partial {lr eps : Rat} {h : List Op} {g : Gw} (hr : (fresh lr eps).run h = some g)
    (hn : ∀ o ∈ h, o ≠ .type .nadam) :
    (∃ g0, (fresh lr eps).run (h.filter Op.isSetting) = some g0) ∧
    ∀ (n norm other : Nat) (ops : List Op), (fresh lr eps).run (h ++ .deinit :: .init n norm other :: ops) =
      (fresh lr eps).run (h.filter Op.isSetting ++ .init n norm other :: ops) := by
  obtain ⟨g0, e0, c0, v0, a0, b0⟩ := setters_total (g := fresh lr eps) (filter_legal hr)
  refine ⟨⟨g0, e0⟩, fun n norm other ops => ?_⟩
  obtain ⟨-, p0, q0⟩ := run_life e0 rfl rfl
  have gam := gamma_as_asked_partial hr hn
  have gam0 := gamma_as_asked_partial e0 (fun o ho => hn o (List.mem_filter.mp ho).1)
  obtain ⟨a, f⟩ := run_agrees hr (fresh_flags lr eps)
  obtain ⟨a', f'⟩ := run_agrees e0 (fresh_flags lr eps)
  have F : ∀ {α : Type} (f : Op → Option α) (d : α), (∀ o : Op, o.isSetting = false → f o = none) →
      asked f d (h.filter Op.isSetting) = asked f d h := fun f d hf => asked_filter f hf h d
  have c : g.c = g0.c := by
    have hm := congrArg Prod.fst (a.mom.trans ((a'.mom.trans (F _ _ (fun o ho => by cases o <;> first | rfl | cases ho))).symm))
    have hns := congrArg Prod.snd (a.mom.trans ((a'.mom.trans (F _ _ (fun o ho => by cases o <;> first | rfl | cases ho))).symm))
    have hnm := congrArg Prod.fst (a.norm.trans ((a'.norm.trans (F _ _ (fun o ho => by cases o <;> first | rfl | cases ho))).symm))
    have hib := congrArg Prod.snd (a.norm.trans ((a'.norm.trans (F _ _ (fun o ho => by cases o <;> first | rfl | cases ho))).symm))
    have h1 := a.type.trans ((a'.type.trans (F _ _ (fun o ho => by cases o <;> first | rfl | cases ho))).symm)
    have h2 := a.lr.trans ((a'.lr.trans (F _ _ (fun o ho => by cases o <;> first | rfl | cases ho))).symm)
    have h3 := a.drop.trans ((a'.drop.trans (F _ _ (fun o ho => by cases o <;> first | rfl | cases ho))).symm)
    have h4 := a.beta1.trans ((a'.beta1.trans (F _ _ (fun o ho => by cases o <;> first | rfl | cases ho))).symm)
    have h5 := a.beta2.trans ((a'.beta2.trans (F _ _ (fun o ho => by cases o <;> first | rfl | cases ho))).symm)
    have h6 := a.eps.trans ((a'.eps.trans (F _ _ (fun o ho => by cases o <;> first | rfl | cases ho))).symm)
    have h7 := a.ilr.trans ((a'.ilr.trans (F _ _ (fun o ho => by cases o <;> first | rfl | cases ho))).symm)
    have h8 := a.dropNesterov.trans ((a'.dropNesterov.trans (F _ _ (fun o ho => by cases o <;> first | rfl | cases ho))).symm)
    have h9 := a.ilrToMom.trans ((a'.ilrToMom.trans (F _ _ (fun o ho => by cases o <;> first | rfl | cases ho))).symm)
    have h10 := gam.trans ((gam0.trans (F _ _ (fun o ho => by cases o <;> first | rfl | cases ho))).symm)
    have k1 := f.mom; have k1' := f'.mom
    have k2 := f.norm; have k2' := f'.norm
    have k3 := f.ilr; have k3' := f'.ilr
    dsimp only at hm hns hnm hib
    rw [hm, ← k1'] at k1
    rw [hnm, ← k2'] at k2
    rw [h7, ← k3'] at k3
    generalize g.c = x at *
    generalize g0.c = y at *
    cases x; cases y
    dsimp only at *
    subst hm hns hnm hib h1 h2 h3 h4 h5 h6 h7 h8 h9 h10 k1 k2 k3
    rfl
  rw [run_append, run_append, hr, e0]
  show (g.deinit.init n norm other).bind _ = (g0.init n norm other).bind _
  congr 1
  unfold Gw.init Gw.deinit
  dsimp only
  rw [c, c0, v0, a0, b0, p0, q0]
  rfl

/-- The moments are made of `k` gradients, and so is the velocity if `v`. -/
structure Fed (t : GradType) (v : Prop) (k : Nat) (g : Gw) : Prop where
  A : t.needsA = true → g.A = after k
  B : t.needsB = true → g.B = after k
  V : v → g.V = .of k
  first : g.first = decide (k = 0)

theorem after_more {k : Nat} (h : ¬ k = 0) : (after k).more = after (k + 1) := by
  cases k with
  | zero => exact absurd rfl h
  | succ k => rfl

theorem optimise_fed {t : GradType} {v : Prop} {k : Nat} {g g' : Gw} (h : g.optimise = some g') (ht : g.c.type = t) (hf : Fed t v k g) :
    (t.needsA = true → g'.A = after (k + 1)) ∧ (t.needsB = true → g'.B = after (k + 1)) := by
  obtain ⟨fA, fB, -, ff⟩ := hf
  unfold Gw.optimise at h
  rw [ht] at h
  by_cases hk : k = 0
  · have hfirst : g.first = true := by rw [ff, hk]; rfl
    subst hk
    cases t <;> simp only [hfirst, if_true] at h
    case classical => cases h; exact ⟨nofun, nofun⟩
    case rprop => cases h; exact ⟨nofun, nofun⟩
    all_goals
      simp only [Option.ite_none_right_eq_some, Option.some.injEq] at h
      obtain ⟨-, rfl⟩ := h
      exact ⟨(by first | exact fun _ => rfl | exact nofun), (by first | exact fun _ => rfl | exact nofun)⟩
  · have hfirst : g.first = false := by rw [ff]; exact decide_eq_false hk
    cases t <;> simp only [hfirst, Bool.false_eq_true, if_false] at h
    case classical => cases h; exact ⟨nofun, nofun⟩
    case rprop => cases h; exact ⟨nofun, nofun⟩
    all_goals
      simp only [Option.ite_none_right_eq_some, Option.some.injEq] at h
      obtain ⟨-, rfl⟩ := h
      exact ⟨(by first | (intro hA; dsimp only; rw [fA hA, after_more hk]) | exact nofun),
        (by first | (intro hB; dsimp only; rw [fB hB, after_more hk]) | exact nofun)⟩

theorem call_fed {t : GradType} {v : Prop} {k : Nat} {g g' : Gw} {o : Op} (h : g.call o = some g') (hl : o.isLife = false)
    (hf : Fed t v k g) (hs : o.learns = true → g.c.type = t ∧ (v → g.c.useMom = true)) :
    Fed t v (k + if o.learns then 1 else 0) g' := by
  by_cases hst : o.isStep = true
  · cases o with
    | pre b =>
      have : g' = g := by
        simp only [Gw.call, Gw.pre] at h
        split at h
        · cases h
        · split at h
          · simp only [Option.ite_none_left_eq_some, Option.some.injEq] at h
            exact h.2.2.2.symm
          · cases h; rfl
      rw [this]; exact hf
    | apply b =>
      cases b with
      | true =>
        have : g' = g := by
          simp only [Gw.call, Gw.apply] at h
          split at h
          · cases h
          · cases h; rfl
        rw [this]; exact hf
      | false =>
        obtain ⟨ht, hv⟩ := hs rfl
        simp only [Gw.call, Gw.apply] at h
        split at h
        · cases h
        · rw [if_neg (by decide)] at h
          split at h
          · cases h
          · rename_i g1 h1
            split at h
            · cases h
            · rename_i g2 h2
              obtain ⟨fA, fB⟩ := optimise_fed h1 ht hf
              obtain ⟨a, b, x, rfl, -⟩ := optimise_eq h1
              obtain ⟨a', b', rfl⟩ := ilrApply_eq h2
              unfold Gw.update at h
              simp only [Option.ite_none_left_eq_some, Option.some.injEq] at h
              obtain ⟨-, -, -, rfl⟩ := h
              refine ⟨fA, fB, fun hV => ?_, ?_⟩
              · dsimp only
                rw [if_pos (hv hV), hf.V hV]
                rfl
              · exact (decide_eq_false (Nat.succ_ne_zero k)).symm
    | _ => cases hst
  · have hst : o.isStep = false := by simpa using hst
    have hl' : o.Legal := setter_legal h (by unfold Op.isSetting; rw [hst, hl]; rfl)
    obtain ⟨g1, e, -, h2, h3, h4, h5, -⟩ := setter_total (g := g) hl' hst hl
    rw [e] at h
    cases h
    have : o.learns = false := by cases o <;> first | rfl | cases hst
    rw [this]
    exact ⟨fun h => h3.trans (hf.A h), fun h => h4.trans (hf.B h), fun h => h2.trans (hf.V h), h5.trans hf.first⟩

theorem ops_fed {lr eps : Rat} {t : GradType} {v : Prop} : ∀ {ops hist : List Op} {g g' : Gw} {k : Nat},
    (fresh lr eps).run hist = some g → g.run ops = some g' → Fed t v k g → (∀ o ∈ ops, o.isLife = false) →
    (∀ pre o rest, ops = pre ++ o :: rest → o.learns = true →
      asked Op.type? .classical (hist ++ pre) = t ∧ (v → momentumOn (hist ++ pre))) → Fed t v (k + ops.countP Op.learns) g'
  | [], hist, g, g', k, hr, hg, hf, hl, hs => by cases hg; exact hf
  | o :: ops, hist, g, g', k, hr, hg, hf, hl, hs => by
    simp only [Gw.run, Option.bind_eq_some_iff] at hg
    obtain ⟨g1, h1, h2⟩ := hg
    have f1 := call_fed h1 (hl o List.mem_cons_self) hf (fun hlr => by
      obtain ⟨a, b⟩ := hs [] o ops rfl hlr
      rw [List.append_nil] at a b
      obtain ⟨e1, -, -, -, -, -, -, -, -, -, -, e12, -, -⟩ := settings_as_asked hr
      exact ⟨e1.trans a, fun h => e12.mpr (b h)⟩)
    have hr' : (fresh lr eps).run (hist ++ [o]) = some g1 := by
      rw [run_append, hr]
      show (g.call o).bind _ = _
      rw [h1]; rfl
    have := ops_fed hr' h2 f1 (fun o h => hl o (List.mem_cons_of_mem _ h)) (fun pre o' rest he hst => by
      have := hs (o :: pre) o' rest (by rw [he]; rfl) hst
      rwa [List.append_assoc])
    rw [List.countP_cons]
    rw [show k + (ops.countP Op.learns + if o.learns = true then 1 else 0) = k + (if o.learns = true then 1 else 0) + ops.countP Op.learns by omega]
    exact this

/-- **C145, every step counts once.** After the run-time data were made and any calls followed, the moments of the optimiser are made of
as many gradients as there were steps that learnt since then, no less and no more, and so is the velocity, provided the kind of the
optimiser was the same at all those steps (and momentum was on). -/
theorem moments_of_all_steps {lr eps : Rat} {h : List Op} {n norm other : Nat} {ops : List Op} {g : Gw}
    (hr : (fresh lr eps).run (h ++ .init n norm other :: ops) = some g) (hl : ∀ o ∈ ops, o.isLife = false) (t : GradType)
    (h0 : asked Op.type? .classical h = t)
    (hs : ∀ pre o rest, ops = pre ++ o :: rest → o.learns = true → asked Op.type? .classical (h ++ .init n norm other :: pre) = t) :
    (t.needsA = true → g.A = after (ops.countP Op.learns)) ∧ (t.needsB = true → g.B = after (ops.countP Op.learns)) ∧
    (momentumOn h → (∀ pre o rest, ops = pre ++ o :: rest → o.learns = true → momentumOn (h ++ .init n norm other :: pre)) →
      g.V = .of (ops.countP Op.learns)) := by
  rw [show h ++ .init n norm other :: ops = (h ++ [.init n norm other]) ++ ops by simp, run_append, Option.bind_eq_some_iff] at hr
  obtain ⟨g1, hr1, hr2⟩ := hr
  have hr1' := hr1
  rw [run_append, Option.bind_eq_some_iff] at hr1
  obtain ⟨g0, e0, e1⟩ := hr1
  have h1 : g0.init n norm other = some g1 := by
    simp only [Gw.run, Gw.call, Option.bind_eq_some_iff] at e1
    obtain ⟨x, hx, hy⟩ := e1
    cases hy; exact hx
  obtain ⟨s1, -, -, -, -, -, -, -, -, -, -, s12, -, -⟩ := settings_as_asked e0
  have base : ∀ v : Prop, (v → momentumOn h) → Fed t v 0 g1 := by
    intro v hv
    unfold Gw.init at h1
    split at h1
    · cases h1
    · split at h1
      · cases h1
      · cases h1
        refine ⟨fun ha => ?_, fun hb => ?_, fun h => ?_, rfl⟩
        · dsimp only; rw [s1, h0, ha]; rfl
        · dsimp only; rw [s1, h0, hb]; rfl
        · dsimp only; rw [if_pos (s12.mpr (hv h))]
  have a := ops_fed (v := False) hr1' hr2 (base False False.elim) hl (fun pre o rest he hle => by
    rw [List.append_assoc]
    exact ⟨hs pre o rest he hle, False.elim⟩)
  rw [Nat.zero_add] at a
  refine ⟨a.A, a.B, fun hm hms => ?_⟩
  have b := ops_fed (v := True) hr1' hr2 (base True (fun _ => hm)) hl (fun pre o rest he hle => by
    rw [List.append_assoc]
    exact ⟨hs pre o rest he hle, fun _ => hms pre o rest he hle⟩)
  rw [Nat.zero_add] at b
  exact b.V trivial

/-- C145: trained, taken down, made anew, trained: two steps, not four. -/
example : ((fresh 1 0).run [.nesterov (mkRat 1 2), .type .adam, .init 6 0 0, .pre false, .apply false, .pre false, .apply false, .deinit,
    .init 6 0 0, .pre false, .apply false, .apply true, .pre false, .apply false]).map (fun g => (g.A, g.B, g.V)) =
    some (after 2, after 2, .of 2) := by decide +kernel

end Nntl.Gw
