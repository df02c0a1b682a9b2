import Verif.GradCheck.Trials

/-! The loops of the check: lemmas. -/
namespace Nntl.GradCheck

open Nntl.Utils

variable {R S G : Type}

/-- One entry. -/
theorem entry_eq (N : Net R S G) (hN : N.Ok) (c : Setts R) (m : Mem R S) (rows M bs : Nat) (g : Group) (l : Nat) (hl : l ≠ 0) (co : Nat × Nat) (mz z : Nat) (f : F R S G) (h : Good c m rows M bs f) :
    ∃ (t : Trial R) (f' : F R S G), N.entry c g l co mz z f = some ((tally c g l mz z (t.verdict N c m.w)).1, f') ∧ t.g = g ∧ t.l = l ∧ t.co = co ∧ t.Fair c rows bs ∧ Good c m rows M bs f' ∧
      f'.failed = (if (tally c g l mz z (t.verdict N c m.w)).2 then l else f.failed) ∧ f'.training = f.training ∧ f'.cur = f.cur := by
  have hI := h.hold
  obtain ⟨hold, he, hI', hcb, hlen, hnd, hin, hy⟩ := next_shown hI (sh := fun i => (N.shuffle f.rng i).1) (fun l => hN.perm f.rng l)
  unfold Net.entry
  simp only
  rw [he]
  simp only
  generalize (if !f.hold.full && Dh.wraps f.hold then (N.shuffle f.rng f.hold.idxs).2 else f.rng) = rng1
  generalize (if c.force then N.time f.clk else 0) = sd
  -- the phase in which the value is decreased
  obtain ⟨rb1, og1, e1, a1⟩ := calcLoss_eq N hN c sd
    (⟨⟨(f.st.insp.prep l g co (c.canSkip.contains l)).setPhase N.A .minus, f.st.mem⟩, hold, rng1, f.failed, f.clk + 1, f.training, f.cur, f.blocked⟩ : F R S G) h.blocked hl h.changed h.stack
  rw [e1]
  simp only
  generalize hom1 : (N.masks (N.reseed c sd rng1)).1 = om1 at *
  generalize (N.masks (N.reseed c sd rng1)).2 = rng2 at *
  -- the phase in which it is increased
  obtain ⟨rb2, og2, e2, -⟩ := calcLoss_eq N hN c sd
    (⟨⟨Insp.setPhase N.A { (f.st.insp.prep l g co (c.canSkip.contains l)).setPhase N.A .minus with realBs := rb1, orig := og1 } .plus, f.st.mem⟩, hold, rng2, f.failed, f.clk + 1, f.training, f.cur, f.blocked⟩ : F R S G)
    h.blocked hl h.changed h.stack
  rw [e2]
  simp only
  generalize hom2 : (N.masks (N.reseed c sd rng2)).1 = om2 at *
  generalize (N.masks (N.reseed c sd rng2)).2 = rng3 at *
  obtain ⟨an, rb3, og3, rng4, e3, r3⟩ := analytic_eq N hN c sd
    (⟨⟨Insp.setPhase N.A { Insp.setPhase N.A { (f.st.insp.prep l g co (c.canSkip.contains l)).setPhase N.A .minus with realBs := rb1, orig := og1 } .plus with realBs := rb2, orig := og2 } .analytical, f.st.mem⟩, hold, rng3, f.failed,
      f.clk + 1, f.training, f.cur, f.blocked⟩ : F R S G)
    h.blocked hl h.changed h.stack rfl
  rw [e3]
  simp only
  generalize hom3 : (N.masks (N.reseed c sd rng3)).1 = om3 at *
  let t : Trial R := ⟨g, l, co, hold.shownX, om1, om2, om3⟩
  have hval : Insp.value N.A { Insp.setPhase N.A { Insp.setPhase N.A { (f.st.insp.prep l g co (c.canSkip.contains l)).setPhase N.A .minus with realBs := rb1, orig := og1 } .plus with realBs := rb2, orig := og2 } .analytical with
      an := an, realBs := rb3, orig := og3 } = t.an N c m.w := by
    have hf : an = (t.found N m.w).getD N.A.nan := by
      show an = (Option.map _ (match g with | .dLdA => _ | .dLdW => _)).getD _
      rw [← h.mem]
      cases g with
      | dLdA =>
        have := r3.1 rfl rfl
        rw [this, hy]
        rfl
      | dLdW =>
        have := r3.2 rfl rfl
        rw [this, hy]
        rfl
    show (if c.canSkip.contains l && N.A.isNaN an then N.A.zero else an) = _
    rw [hf]
    rfl
  have hshift1 : ((f.st.insp.prep l g co (c.canSkip.contains l)).setPhase N.A .minus).shift N.A = N.A.neg c.step := by
    rw [shift_minus _ _ rfl]
    show N.A.neg f.st.insp.step = _
    rw [h.step]
  have hshift2 : (Insp.setPhase N.A { (f.st.insp.prep l g co (c.canSkip.contains l)).setPhase N.A .minus with realBs := rb1, orig := og1 } .plus).shift N.A = c.step := by
    rw [shift_plus _ _ rfl]
    exact h.step
  rw [hy, h.mem]
  rw [trial_loss N _ m.w t om1 _ rfl rfl rfl (by simp [Insp.setPhase]) hshift1, trial_loss N _ m.w t om2 _ rfl rfl rfl (by simp [Insp.setPhase]) hshift2, hval]
  have hnum : numeric N.A g c.step (Insp.batchSize { (f.st.insp.prep l g co (c.canSkip.contains l)).setPhase N.A .minus with realBs := rb1, orig := og1 }) (t.loss N m.w om2 c.step) (t.loss N m.w om1 (N.A.neg c.step)) =
      t.num N c m.w := by
    unfold Trial.num
    cases g with
    | dLdA => rfl
    | dLdW =>
      have := a1 rfl (by simp [Insp.setPhase])
      show numeric N.A .dLdW c.step (if c.canSkip.contains l && rb1 == 0 then 1 else rb1) _ _ = numeric N.A .dLdW c.step (t.batch N c m.w) _ _
      have hb : (if c.canSkip.contains l && rb1 == 0 then 1 else rb1) = t.batch N c m.w := by
        have hE : effW N.A ((f.st.insp.prep l .dLdW co (c.canSkip.contains l)).setPhase N.A .minus) f.st.mem.w = changeW N.A m.w l co (N.A.neg c.step) := by
          have hp : ((f.st.insp.prep l .dLdW co (c.canSkip.contains l)).setPhase N.A .minus).phase ≠ .analytical := by simp [Insp.setPhase]
          unfold effW
          rw [if_pos ⟨rfl, hp⟩, hshift1, h.mem]
          rfl
        replace this : rb1 = (N.root.uses N.A om1 (effW N.A ((f.st.insp.prep l .dLdW co (c.canSkip.contains l)).setPhase N.A .minus) f.st.mem.w) l (N.x hold.shownX)).getLast?.getD 0 := this
        rw [this, hE]
        rfl
      rw [hb]
  rw [hnum, checkErr_eq]
  have hv : compare N.A (c.limits g) (t.an N c m.w) (t.num N c m.w) = t.verdict N c m.w := rfl
  rw [hv]
  refine ⟨t, _, rfl, rfl, rfl, rfl, ⟨hlen.trans h.cur, hnd, hin, ?_⟩, ⟨h.blocked, rfl, h.changed, h.stack, h.step, Or.inr rfl, hI', hcb.trans h.cur⟩, rfl, rfl, rfl⟩
  intro hf
  have hrs : ∀ g1 g2 : G, N.reseed c sd g1 = N.reseed c sd g2 := by
    intro g1 g2
    unfold Net.reseed
    rw [if_pos hf, if_pos hf]
  show om2 = om1 ∧ om3 = om1
  rw [← hom1, ← hom2, ← hom3, hrs rng2 rng1, hrs rng3 rng1]
  exact ⟨rfl, rfl⟩


theorem zeros_nil (N : Net R S G) (c : Setts R) (w : Nat → Mat R) : zeros N c w [] = 0 := rfl

theorem zeros_append (N : Net R S G) (c : Setts R) (w : Nat → Mat R) (a b : List (Trial R)) : zeros N c w (a ++ b) = zeros N c w a + zeros N c w b := by
  unfold zeros
  rw [List.filter_append, List.length_append]

theorem zeros_cons (N : Net R S G) (c : Setts R) (w : Nat → Mat R) (t : Trial R) (ts : List (Trial R)) :
    zeros N c w (t :: ts) = (if t.verdict N c w = .zero then 1 else 0) + zeros N c w ts := by
  have := zeros_append N c w [t] ts
  rw [show t :: ts = [t] ++ ts from rfl, this]
  congr 1
  unfold zeros
  by_cases h : t.verdict N c w = .zero <;> simp [h]

/-- A part of the trials of a layer has been made, `z` zeros before it: the trials, and their result. -/
structure Part (N : Net R S G) (c : Setts R) (m : Mem R S) (rows M bs : Nat) (g : Group) (l mz z : Nat) (cs : List (Nat × Nat)) (ts : List (Trial R)) (z' : Nat) (f' : F R S G) : Prop where
  good : Good c m rows M bs f'
  own : ∀ t ∈ ts, t.g = g ∧ t.l = l ∧ t.Fair c rows bs
  prefixed : ts.map (·.co) <+: cs
  pass : f'.failed = 0 → ts.map (·.co) = cs ∧ z' = z + zeros N c m.w ts ∧ (∀ t ∈ ts, t.verdict N c m.w ≠ .fail) ∧ (c.zerosFree g l ∨ z' ≤ mz)
  bad : f'.failed ≠ 0 → f'.failed = l ∧ ((∃ t ∈ ts, t.verdict N c m.w = .fail) ∨ ¬ c.zerosFree g l ∧ mz < z + zeros N c m.w ts)

theorem free_iff (c : Setts R) (g : Group) (l : Nat) : (decide (g = .dLdW) && decide (l = 1) && c.ignoreZero1) = true ↔ c.zerosFree g l := by
  unfold Setts.zerosFree
  simp [and_assoc]

theorem entries_eq (N : Net R S G) (hN : N.Ok) (c : Setts R) (m : Mem R S) (rows M bs : Nat) (g : Group) (l : Nat) (hl : l ≠ 0) (mz : Nat) : ∀ (cs : List (Nat × Nat)) (z : Nat) (f : F R S G),
    Good c m rows M bs f → f.failed = 0 → (c.zerosFree g l ∨ z ≤ mz) →
    ∃ ts z' f', N.entries c g l mz cs z f = some (z', f') ∧ Part N c m rows M bs g l mz z cs ts z' f' ∧ f'.training = f.training ∧ f'.cur = f.cur
  | [], z, f, h, h0, hz => ⟨[], z, f, rfl, ⟨h, by simp, by simp, fun _ => ⟨rfl, by simp [zeros_nil], by simp, hz⟩, fun hh => absurd h0 hh⟩, rfl, rfl⟩
  | co :: cs, z, f, h, h0, hz => by
    obtain ⟨t, f1, he, hg, htl, hco, hfair, h1, hf1, htr, hcur⟩ := entry_eq N hN c m rows M bs g l hl co mz z f h
    have hstep : N.entries c g l mz (co :: cs) z f = N.entries c g l mz cs (tally c g l mz z (t.verdict N c m.w)).1 f1 := by
      show (if f.failed ≠ 0 then some (z, f) else match N.entry c g l co mz z f with | none => none | some (z, f) => N.entries c g l mz cs z f) = _
      rw [if_neg (by simp [h0]), he]
    rw [hstep]
    by_cases hb : (tally c g l mz z (t.verdict N c m.w)).2 = true
    · -- this entry fails
      rw [if_pos hb] at hf1
      have hfail : f1.failed ≠ 0 := by rw [hf1]; exact hl
      have hstop : ∀ (cs : List (Nat × Nat)) z, N.entries c g l mz cs z f1 = some (z, f1) := by
        intro cs z
        cases cs with
        | nil => rfl
        | cons a as =>
          show (if f1.failed ≠ 0 then some (z, f1) else _) = _
          rw [if_pos hfail]
      rw [hstop]
      refine ⟨[t], _, f1, rfl, ⟨h1, by simp [hg, htl, hfair], by simp [hco], fun hh => absurd hh hfail, fun _ => ⟨hf1, ?_⟩⟩, htr, hcur⟩
      revert hb
      rw [zeros_cons]
      cases hv : t.verdict N c m.w with
      | zero =>
        intro hb
        right
        unfold tally at hb
        simp only [Bool.and_eq_true, decide_eq_true_eq, Bool.not_eq_true'] at hb
        refine ⟨fun hfree => ?_, by simp [zeros_nil]; omega⟩
        rw [(free_iff c g l).2 hfree] at hb
        simp at hb
      | ok => intro hb; simp [tally] at hb
      | warn => intro hb; simp [tally] at hb
      | fail => intro _; exact Or.inl ⟨t, by simp, hv⟩
    · rw [if_neg hb, h0] at hf1
      have hz1 : c.zerosFree g l ∨ (tally c g l mz z (t.verdict N c m.w)).1 ≤ mz := by
        rcases hz with hz | hz
        · exact Or.inl hz
        · by_cases hfree : c.zerosFree g l
          · exact Or.inl hfree
          · right
            revert hb
            cases t.verdict N c m.w with
            | zero =>
              intro hb
              have : ¬ (decide (g = .dLdW) && decide (l = 1) && c.ignoreZero1) = true := fun hh => hfree ((free_iff c g l).1 hh)
              unfold tally at hb ⊢
              simp only [Bool.not_eq_true] at this
              simp only [this] at hb
              simp at hb
              exact hb
            | ok => intro _; exact hz
            | warn => intro _; exact hz
            | fail => intro _; exact hz
      have htally : (tally c g l mz z (t.verdict N c m.w)).1 = z + (if t.verdict N c m.w = .zero then 1 else 0) := by
        cases t.verdict N c m.w <;> simp [tally]
      have hnf : t.verdict N c m.w ≠ .fail := by
        intro hh
        rw [hh] at hb
        simp [tally] at hb
      obtain ⟨ts, z', f', he', hp, htr', hcur'⟩ := entries_eq N hN c m rows M bs g l hl mz cs _ f1 h1 hf1 hz1
      refine ⟨t :: ts, z', f', he', ⟨hp.good, ?_, ?_, ?_, ?_⟩, htr'.trans htr, hcur'.trans hcur⟩
      · intro u hu
        rcases List.mem_cons.1 hu with rfl | hu
        · exact ⟨hg, htl, hfair⟩
        · exact hp.own u hu
      · rw [List.map_cons, hco]
        exact List.cons_prefix_cons.2 ⟨rfl, hp.prefixed⟩
      · intro hh
        obtain ⟨p1, p2, p3, p4⟩ := hp.pass hh
        refine ⟨by rw [List.map_cons, hco, p1], ?_, ?_, p4⟩
        · rw [p2, zeros_cons, htally]; omega
        · intro u hu
          rcases List.mem_cons.1 hu with rfl | hu
          · exact hnf
          · exact p3 u hu
      · intro hh
        obtain ⟨b1, b2⟩ := hp.bad hh
        refine ⟨b1, ?_⟩
        rcases b2 with ⟨u, hu, hv⟩ | ⟨b2, b3⟩
        · exact Or.inl ⟨u, List.mem_cons_of_mem _ hu, hv⟩
        · right
          refine ⟨b2, ?_⟩
          rw [zeros_cons]
          rw [htally] at b3
          omega

theorem toCheck_le {k : Count} (hk : k.Valid) {n cnt : Nat} (h : k.toCheck n = some cnt) : cnt ≤ n := by
  cases k with
  | totalMin p =>
    simp only [Count.toCheck, Option.some.injEq] at h
    omega
  | percentOrMin p q =>
    replace h : (if n * q < 2 ^ 31 then some (n * q) else none).map (fun x => max (x / 100) (min n p)) = some cnt := h
    by_cases hs : n * q < 2 ^ 31
    · rw [if_pos hs] at h
      simp only [Option.map_some, Option.some.injEq] at h
      have h1 : n * q ≤ n * 100 := Nat.mul_le_mul_left _ hk.2
      omega
    · rw [if_neg hs] at h
      simp at h

theorem first_some {is : List Nat} {cnt : Nat} (h : cnt ≤ is.length) : first is cnt = some (is.take cnt) := if_pos h

/-- The first elements of a shuffled range. -/
theorem take_range {is : List Nat} {n cnt : Nat} (h : is.Perm (List.range n)) (hc : cnt ≤ n) : (is.take cnt).Nodup ∧ (∀ k ∈ is.take cnt, k < n) ∧ (is.take cnt).length = cnt := by
  refine ⟨List.Nodup.sublist (List.take_sublist _ _) ((h.nodup_iff).2 List.nodup_range), fun k hk => ?_, ?_⟩
  · exact List.mem_range.1 (h.mem_iff.1 (List.mem_of_mem_take hk))
  · rw [List.length_take, h.length_eq, List.length_range]; omega

theorem good_mix (N : Net R S G) {c : Setts R} {m : Mem R S} {rows M bs : Nat} {f : F R S G} (h : Good c m rows M bs f) (is : List Nat) : Good c m rows M bs (N.mix is f).2 :=
  ⟨h.blocked, h.mem, h.changed, h.stack, h.step, h.inert, h.hold, h.cur⟩

/-- The check of a layer has been made, with trials `ts`. -/
structure Done (N : Net R S G) (c : Setts R) (m : Mem R S) (rows M bs : Nat) (g : Group) (i : Info) (ts : List (Trial R)) (f' : F R S G) : Prop where
  good : Good c m rows M bs f'
  own : ∀ t ∈ ts, t.g = g ∧ t.l = i.idx ∧ t.Fair c rows bs
  dist : (ts.map (·.co)).Nodup
  range : ∀ t ∈ ts, i.Has g t.co
  pass : f'.failed = 0 → (match g with | .dLdA => CoversA c i ts | .dLdW => CoversW c i ts) ∧ Passed N c m.w g i.idx (maxZeros c g i) ts
  bad : f'.failed ≠ 0 → f'.failed = i.idx ∧ ¬ Passed N c m.w g i.idx (maxZeros c g i) ts

theorem checkA_eq (N : Net R S G) (hN : N.Ok) (c : Setts R) (hv : c.group.Valid) (m : Mem R S) (rows M bs : Nat) (i : Info) (hi : i.idx ≠ 0) (hov : NoOverflow c i) (f : F R S G) (h : Good c m rows M bs f) (h0 : f.failed = 0) :
    ∃ ts f', N.checkA c i f = some f' ∧ Done N c m rows M bs .dLdA i ts f' ∧ f'.training = f.training ∧ f'.cur = f.cur := by
  obtain ⟨cnt, cntW, hc, -, ho, -, -⟩ := hov
  have hp : (N.mix (List.range i.n) f).1.Perm (List.range i.n) := hN.perm _ _
  have hle := toCheck_le hv hc
  obtain ⟨hnd, hlt, hlen⟩ := take_range hp hle
  obtain ⟨ts, z', f', he, P, htr, hcur⟩ := entries_eq N hN c m rows M bs .dLdA i.idx hi (cnt * c.dLdA.perc / 100) (((N.mix (List.range i.n) f).1.take cnt).map fun k => (0, k)) 0 (N.mix (List.range i.n) f).2
    (good_mix N h _) h0 (Or.inr (Nat.zero_le _))
  have hmz : maxZeros c .dLdA i = cnt * c.dLdA.perc / 100 := by simp [maxZeros, hc]
  refine ⟨ts, f', ?_, ⟨P.good, P.own, P.prefixed.sublist.nodup (hnd.map fun a b hab => by simpa using hab), ?_, ?_, ?_⟩, htr, hcur⟩
  · unfold Net.checkA
    rw [hc]
    simp only [Option.bind_eq_bind, Option.bind_some]
    rw [show mulInt cnt c.dLdA.perc = some (cnt * c.dLdA.perc) from if_pos ho]
    simp only [Option.bind_some]
    rw [first_some (by rw [hp.length_eq, List.length_range]; exact hle)]
    simp only [Option.bind_some]
    rw [he]
    rfl
  · intro t ht
    obtain ⟨k, hk, hkt⟩ := List.mem_map.1 (P.prefixed.subset (List.mem_map.2 ⟨t, ht, rfl⟩))
    rw [← hkt]
    exact ⟨rfl, hlt k hk⟩
  · intro hh
    obtain ⟨p1, p2, p3, p4⟩ := P.pass hh
    refine ⟨⟨_, hnd, hlt, by rw [hc, hlen], p1⟩, p3, ?_⟩
    rw [hmz]
    rw [p2, Nat.zero_add] at p4
    exact p4
  · intro hh
    obtain ⟨b1, b2⟩ := P.bad hh
    refine ⟨b1, fun hP => ?_⟩
    obtain ⟨q1, q2⟩ := hP
    rw [hmz] at q2
    rcases b2 with ⟨t, ht, hv⟩ | ⟨b2, b3⟩
    · exact q1 t ht hv
    · rcases q2 with q2 | q2
      · exact b2 q2
      · omega

/-- The loop over neurons. -/
theorem neurons_eq (N : Net R S G) (hN : N.Ok) (c : Setts R) (m : Mem R S) (rows M bs l : Nat) (hl : l ≠ 0) (mz inc cntW : Nat) (hw : cntW ≤ inc) : ∀ (ks sub : List Nat) (z : Nat) (f : F R S G),
    sub.Perm (List.range inc) → Good c m rows M bs f → f.failed = 0 → (c.zerosFree .dLdW l ∨ z ≤ mz) →
    ∃ (ps : List (Nat × List Nat)) (ts : List (Trial R)) (z' : Nat) (f' : F R S G), N.neurons c l mz cntW ks sub z f = some (z', f') ∧
      ps.map (·.1) = ks ∧ (∀ p ∈ ps, p.2.Nodup ∧ (∀ j ∈ p.2, j < inc) ∧ p.2.length = cntW) ∧
      Part N c m rows M bs .dLdW l mz z (ps.flatMap fun p => p.2.map fun j => (p.1, j)) ts z' f' ∧ f'.training = f.training ∧ f'.cur = f.cur
  | [], sub, z, f, _, h, h0, hz => ⟨[], [], z, f, rfl, rfl, by simp, ⟨h, by simp, by simp, fun _ => ⟨rfl, by simp [zeros_nil], by simp, hz⟩, fun hh => absurd h0 hh⟩, rfl, rfl⟩
  | k :: ks, sub, z, f, hsub, h, h0, hz => by
    have hp : (N.mix sub f).1.Perm (List.range inc) := (hN.perm _ _).trans hsub
    obtain ⟨hnd, hlt, hlen⟩ := take_range hp hw
    obtain ⟨ts, z1, f1, he, P, htr, hcur⟩ := entries_eq N hN c m rows M bs .dLdW l hl mz (((N.mix sub f).1.take cntW).map fun j => (k, j)) z (N.mix sub f).2 (good_mix N h _) h0 hz
    have hstep : N.neurons c l mz cntW (k :: ks) sub z f = N.neurons c l mz cntW ks (N.mix sub f).1 z1 f1 := by
      show (if f.failed ≠ 0 then some (z, f) else _) = _
      rw [if_neg (by simp [h0])]
      simp only
      rw [first_some (by rw [hp.length_eq, List.length_range]; exact hw)]
      simp only
      rw [he]
    rw [hstep]
    by_cases hf : f1.failed = 0
    · obtain ⟨p1, p2, p3, p4⟩ := P.pass hf
      obtain ⟨ps, ts', z', f', he', hps, hin, P', htr', hcur'⟩ := neurons_eq N hN c m rows M bs l hl mz inc cntW hw ks (N.mix sub f).1 z1 f1 hp P.good hf p4
      refine ⟨(k, (N.mix sub f).1.take cntW) :: ps, ts ++ ts', z', f', he', by rw [List.map_cons, hps], ?_, ⟨P'.good, ?_, ?_, ?_, ?_⟩, htr'.trans htr, hcur'.trans hcur⟩
      · intro p hp'
        rcases List.mem_cons.1 hp' with rfl | hp'
        · exact ⟨hnd, hlt, hlen⟩
        · exact hin p hp'
      · intro t ht
        rcases List.mem_append.1 ht with ht | ht
        · exact P.own t ht
        · exact P'.own t ht
      · rw [List.map_append, p1, List.flatMap_cons]
        exact (List.prefix_append_right_inj _).2 P'.prefixed
      · intro hh
        obtain ⟨q1, q2, q3, q4⟩ := P'.pass hh
        refine ⟨by rw [List.map_append, p1, q1, List.flatMap_cons], by rw [q2, p2, zeros_append]; omega, ?_, q4⟩
        intro t ht
        rcases List.mem_append.1 ht with ht | ht
        · exact p3 t ht
        · exact q3 t ht
      · intro hh
        obtain ⟨b1, b2⟩ := P'.bad hh
        refine ⟨b1, ?_⟩
        rcases b2 with ⟨u, hu, hv⟩ | ⟨b2, b3⟩
        · exact Or.inl ⟨u, List.mem_append_right _ hu, hv⟩
        · right
          refine ⟨b2, ?_⟩
          rw [zeros_append]
          rw [p2] at b3
          omega
    · have hstop : ∀ ks sub z, N.neurons c l mz cntW ks sub z f1 = some (z, f1) := by
        intro ks sub z
        cases ks with
        | nil => rfl
        | cons a as =>
          show (if f1.failed ≠ 0 then some (z, f1) else _) = _
          rw [if_pos hf]
      rw [hstop]
      obtain ⟨b1, b2⟩ := P.bad hf
      refine ⟨(k, (N.mix sub f).1.take cntW) :: ks.map fun k => (k, List.range cntW), ts, z1, f1, rfl, ?_, ?_, ⟨P.good, P.own, ?_, fun hh => absurd hh hf, fun _ => ⟨b1, b2⟩⟩, htr, hcur⟩
      · rw [List.map_cons, List.map_map]
        simp [Function.comp_def]
      · intro p hp'
        rcases List.mem_cons.1 hp' with rfl | hp'
        · exact ⟨hnd, hlt, hlen⟩
        · obtain ⟨k', -, rfl⟩ := List.mem_map.1 hp'
          exact ⟨List.nodup_range, fun j hj => lt_of_lt_of_le (List.mem_range.1 hj) hw, List.length_range⟩
      · rw [List.flatMap_cons]
        exact P.prefixed.trans (List.prefix_append _ _)

theorem weights_nodup (ps : List (Nat × List Nat)) (bs : List Nat) (n inc : Nat) (h1 : (ps.map (·.1)).Nodup) (h2 : bs.Nodup) (h3 : ∀ p ∈ ps, p.2.Nodup ∧ ∀ j ∈ p.2, j < inc) (h4 : ∀ p ∈ ps, p.1 < n) (h5 : ∀ b ∈ bs, b < n) :
    ((ps.flatMap fun p => p.2.map fun j => (p.1, j)) ++ bs.map fun b => (b, inc)).Nodup ∧
      ∀ co ∈ (ps.flatMap fun p => p.2.map fun j => (p.1, j)) ++ bs.map (fun b => (b, inc)), co.1 < n ∧ co.2 ≤ inc := by
  refine ⟨List.nodup_append'.2 ⟨List.nodup_flatMap.2 ⟨fun p hp => (h3 p hp).1.map fun a b hab => by simpa using hab, ?_⟩, h2.map fun a b hab => by simpa using hab, ?_⟩, ?_⟩
  · have := List.pairwise_map.1 (List.nodup_iff_pairwise_ne.1 h1)
    refine this.imp ?_
    intro a b hab x hx hx'
    obtain ⟨j, -, rfl⟩ := List.mem_map.1 hx
    obtain ⟨j', -, he⟩ := List.mem_map.1 hx'
    simp only [Prod.mk.injEq] at he
    exact hab he.1.symm
  · intro x hx hx'
    obtain ⟨p, hp, hx⟩ := List.mem_flatMap.1 hx
    obtain ⟨j, hj, rfl⟩ := List.mem_map.1 hx
    obtain ⟨b, -, he⟩ := List.mem_map.1 hx'
    simp only [Prod.mk.injEq] at he
    have := (h3 p hp).2 j hj
    omega
  · intro x hx
    rcases List.mem_append.1 hx with hx | hx
    · obtain ⟨p, hp, hx⟩ := List.mem_flatMap.1 hx
      obtain ⟨j, hj, rfl⟩ := List.mem_map.1 hx
      exact ⟨h4 p hp, Nat.le_of_lt ((h3 p hp).2 j hj)⟩
    · obtain ⟨b, hb, rfl⟩ := List.mem_map.1 hx
      exact ⟨h5 b hb, Nat.le_refl _⟩

theorem checkW_eq (N : Net R S G) (hN : N.Ok) (c : Setts R) (hv : c.group.Valid) (hvs : c.sub.Valid) (m : Mem R S) (rows M bs : Nat) (i : Info) (hi : i.idx ≠ 0) (hov : NoOverflow c i) (f : F R S G) (h : Good c m rows M bs f)
    (h0 : f.failed = 0) : ∃ ts f', N.checkW c i f = some f' ∧ Done N c m rows M bs .dLdW i ts f' ∧ f'.training = f.training ∧ f'.cur = f.cur := by
  obtain ⟨cnt, cntW, hc, hcW, -, ho1, ho2⟩ := hov
  have hp : (N.mix (List.range i.n) f).1.Perm (List.range i.n) := hN.perm _ _
  have hle := toCheck_le hv hc
  have hleW := toCheck_le hvs hcW
  obtain ⟨hnd, hlt, hlen⟩ := take_range hp hle
  have hmz : maxZeros c .dLdW i = cnt * (cntW + 1) * c.dLdW.perc / 100 := by simp [maxZeros, hc, hcW]
  obtain ⟨ps, ts, z1, f1, he, hps, hin, P, htr, hcur⟩ := neurons_eq N hN c m rows M bs i.idx hi (cnt * (cntW + 1) * c.dLdW.perc / 100) i.inc cntW hleW ((N.mix (List.range i.n) f).1.take cnt) (List.range i.inc) 0
    (N.mix (List.range i.n) f).2 (List.Perm.refl _) (good_mix N h _) h0 (Or.inr (Nat.zero_le _))
  have hunf : N.checkW c i f = (if f1.failed ≠ 0 then some f1 else
      (first (N.mix (N.mix (List.range i.n) f).1 f1).1 cnt).bind fun ks =>
        (N.entries c .dLdW i.idx (cnt * (cntW + 1) * c.dLdW.perc / 100) (ks.map fun k => (k, i.inc)) z1 (N.mix (N.mix (List.range i.n) f).1 f1).2).bind fun r => some r.2) := by
    unfold Net.checkW
    rw [hc, hcW]
    simp only [Option.bind_eq_bind, Option.bind_some]
    rw [show mulInt cnt (cntW + 1) = some (cnt * (cntW + 1)) from if_pos ho1]
    simp only [Option.bind_some]
    rw [show mulInt (cnt * (cntW + 1)) c.dLdW.perc = some (cnt * (cntW + 1) * c.dLdW.perc) from if_pos ho2]
    simp only [Option.bind_some]
    rw [first_some (by rw [hp.length_eq, List.length_range]; exact hle)]
    simp only [Option.bind_some]
    rw [he]
    simp only [Option.bind_some]
  rw [hunf]
  have hps4 : ∀ p ∈ ps, p.1 < i.n := fun p hpm => hlt _ (by rw [← hps]; exact List.mem_map.2 ⟨p, hpm, rfl⟩)
  by_cases hf : f1.failed = 0
  · rw [if_neg (by simp [hf])]
    obtain ⟨p1, p2, p3, p4⟩ := P.pass hf
    have hp2 : (N.mix (N.mix (List.range i.n) f).1 f1).1.Perm (List.range i.n) := (hN.perm _ _).trans hp
    obtain ⟨hnd2, hlt2, hlen2⟩ := take_range hp2 hle
    rw [first_some (by rw [hp2.length_eq, List.length_range]; exact hle)]
    simp only [Option.bind_some]
    obtain ⟨ts2, z2, f2, he2, P2, htr2, hcur2⟩ := entries_eq N hN c m rows M bs .dLdW i.idx hi (cnt * (cntW + 1) * c.dLdW.perc / 100) (((N.mix (N.mix (List.range i.n) f).1 f1).1.take cnt).map fun k => (k, i.inc)) z1
      (N.mix (N.mix (List.range i.n) f).1 f1).2 (good_mix N P.good _) hf p4
    rw [he2]
    obtain ⟨wn, wr⟩ := weights_nodup ps ((N.mix (N.mix (List.range i.n) f).1 f1).1.take cnt) i.n i.inc (by rw [hps]; exact hnd) hnd2 (fun p hpm => ⟨(hin p hpm).1, (hin p hpm).2.1⟩) hps4 hlt2
    have hpre : (ts ++ ts2).map (·.co) <+: (ps.flatMap fun p => p.2.map fun j => (p.1, j)) ++ (((N.mix (N.mix (List.range i.n) f).1 f1).1.take cnt).map fun k => (k, i.inc)) := by
      rw [List.map_append, p1]
      exact (List.prefix_append_right_inj _).2 P2.prefixed
    refine ⟨ts ++ ts2, f2, rfl, ⟨P2.good, ?_, hpre.sublist.nodup wn, fun t ht => wr _ (hpre.subset (List.mem_map.2 ⟨t, ht, rfl⟩)), ?_, ?_⟩, htr2.trans htr, hcur2.trans hcur⟩
    · intro t ht
      rcases List.mem_append.1 ht with ht | ht
      · exact P.own t ht
      · exact P2.own t ht
    · intro hh
      obtain ⟨q1, q2, q3, q4⟩ := P2.pass hh
      refine ⟨⟨ps, (N.mix (N.mix (List.range i.n) f).1 f1).1.take cnt, by rw [hps]; exact hnd, hnd2, ?_, hlt2, ?_, ?_, by rw [List.map_append, p1, q1]⟩, ?_, ?_⟩
      · intro p hpm
        obtain ⟨a1, a2, a3⟩ := hin p hpm
        refine ⟨hlt _ ?_, a1, a2, by rw [a3, hcW]⟩
        rw [← hps]
        exact List.mem_map.2 ⟨p, hpm, rfl⟩
      · rw [hc, ← hlen, ← hps, List.length_map]
      · rw [hlen2, ← hlen, ← hps, List.length_map]
      · intro t ht
        rcases List.mem_append.1 ht with ht | ht
        · exact p3 t ht
        · exact q3 t ht
      · rw [hmz, zeros_append]
        rw [q2, p2, Nat.zero_add] at q4
        exact q4
    · intro hh
      obtain ⟨b1, b2⟩ := P2.bad hh
      refine ⟨b1, fun hP => ?_⟩
      obtain ⟨q1, q2⟩ := hP
      rw [hmz, zeros_append] at q2
      rw [p2, Nat.zero_add] at b2
      rcases b2 with ⟨t, ht, hv⟩ | ⟨b2, b3⟩
      · exact q1 t (List.mem_append_right _ ht) hv
      · rcases q2 with q2 | q2
        · exact b2 q2
        · omega
  · rw [if_pos hf]
    obtain ⟨b1, b2⟩ := P.bad hf
    obtain ⟨wn, wr⟩ := weights_nodup ps [] i.n i.inc (by rw [hps]; exact hnd) List.nodup_nil (fun p hpm => ⟨(hin p hpm).1, (hin p hpm).2.1⟩) hps4 (by simp)
    have hpre : ts.map (·.co) <+: (ps.flatMap fun p => p.2.map fun j => (p.1, j)) ++ [].map fun k => (k, i.inc) := by
      rw [List.map_nil, List.append_nil]
      exact P.prefixed
    refine ⟨ts, f1, rfl, ⟨P.good, P.own, hpre.sublist.nodup wn, fun t ht => wr _ (hpre.subset (List.mem_map.2 ⟨t, ht, rfl⟩)), fun hh => absurd hh hf, fun _ => ⟨b1, fun hP => ?_⟩⟩, htr, hcur⟩
    obtain ⟨q1, q2⟩ := hP
    rw [hmz] at q2
    rw [Nat.zero_add] at b2
    rcases b2 with ⟨t, ht, hv⟩ | ⟨b2, b3⟩
    · exact q1 t ht hv
    · rcases q2 with q2 | q2
      · exact b2 q2
      · omega

/-- The mode in which a group is checked. -/
def Group.mode : Group → Mode
  | .dLdA => .online
  | .dLdW => .batch

theorem layer_none {N : Net R S G} {c : Setts R} {g : Group} {i : Info} {f : F R S G} (h0 : f.failed = 0) (hc : ¬ c.Checks N g i) : N.layer c g.mode i f = some f := by
  unfold Net.layer
  rw [if_neg (by simp [h0])]
  by_cases hi : i.idx ∈ c.ignore
  · rw [if_pos (by simpa using hi)]
  · rw [if_neg (by simpa using hi)]
    cases g with
    | dLdA => exact if_neg fun h => hc ⟨hi, h⟩
    | dLdW => exact if_neg fun h => hc ⟨hi, h⟩

theorem layer_A {N : Net R S G} {c : Setts R} {i : Info} {f : F R S G} (h0 : f.failed = 0) (hc : c.Checks N .dLdA i) : N.layer c .online i f = N.checkA c i f := by
  obtain ⟨hi, ho⟩ := hc
  unfold Net.layer
  rw [if_neg (by simp [h0]), if_neg (by simpa using hi)]
  exact if_pos ho

theorem layer_W {N : Net R S G} {c : Setts R} {i : Info} {f : F R S G} (h0 : f.failed = 0) (hc : c.Checks N .dLdW i) : N.layer c .batch i f = N.checkW c i f := by
  obtain ⟨hi, ho⟩ := hc
  unfold Net.layer
  rw [if_neg (by simp [h0]), if_neg (by simpa using hi)]
  exact if_pos ho

theorem layer_eq (N : Net R S G) (hN : N.Ok) (c : Setts R) (hv : c.group.Valid) (hvs : c.sub.Valid) (m : Mem R S) (rows M bs : Nat) (g : Group) (i : Info) (hi : i.idx ≠ 0) (hov : c.Checks N g i → NoOverflow c i)
    (f : F R S G) (h : Good c m rows M bs f) (h0 : f.failed = 0) :
    ∃ f', N.layer c g.mode i f = some f' ∧ Good c m rows M bs f' ∧ f'.training = f.training ∧ f'.cur = f.cur ∧ (f'.failed = 0 → c.Checks N g i → Accepted N c m.w rows bs g i) ∧
      (f'.failed ≠ 0 → c.Checks N g i ∧ Rejected N c m.w rows bs g i) := by
  by_cases hc : c.Checks N g i
  · cases g with
    | dLdA =>
      rw [show Group.dLdA.mode = .online from rfl, layer_A h0 hc]
      obtain ⟨ts, f', he, D, h1, h2⟩ := checkA_eq N hN c hv m rows M bs i hi (hov hc) f h h0
      exact ⟨f', he, D.good, h1, h2, fun hh _ => ⟨ts, D.own, D.pass hh⟩, fun hh => ⟨hc, ts, D.own, D.dist, D.range, (D.bad hh).2⟩⟩
    | dLdW =>
      rw [show Group.dLdW.mode = .batch from rfl, layer_W h0 hc]
      obtain ⟨ts, f', he, D, h1, h2⟩ := checkW_eq N hN c hv hvs m rows M bs i hi (hov hc) f h h0
      exact ⟨f', he, D.good, h1, h2, fun hh _ => ⟨ts, D.own, D.pass hh⟩, fun hh => ⟨hc, ts, D.own, D.dist, D.range, (D.bad hh).2⟩⟩
  · exact ⟨f, layer_none h0 hc, h, rfl, rfl, fun _ hh => absurd hh hc, fun hh => absurd h0 hh⟩

theorem walk_stop (N : Net R S G) (c : Setts R) (md : Mode) {f : F R S G} (hf : f.failed ≠ 0) : ∀ is : List Info, N.walk c md is f = some f
  | [] => rfl
  | i :: is => by
    show (N.layer c md i f).bind (N.walk c md is) = _
    unfold Net.layer
    rw [if_pos hf]
    exact walk_stop N c md hf is

theorem walk_eq (N : Net R S G) (hN : N.Ok) (c : Setts R) (hv : c.group.Valid) (hvs : c.sub.Valid) (m : Mem R S) (rows M bs : Nat) (g : Group) : ∀ (is : List Info) (f : F R S G),
    (∀ i ∈ is, i.idx ≠ 0) → (∀ i ∈ is, c.Checks N g i → NoOverflow c i) → Good c m rows M bs f → f.failed = 0 →
    ∃ f', N.walk c g.mode is f = some f' ∧ Good c m rows M bs f' ∧ f'.training = f.training ∧ f'.cur = f.cur ∧ (f'.failed = 0 → ∀ i ∈ is, c.Checks N g i → Accepted N c m.w rows bs g i) ∧
      (f'.failed ≠ 0 → ∃ i ∈ is, c.Checks N g i ∧ Rejected N c m.w rows bs g i)
  | [], f, _, _, h, h0 => ⟨f, rfl, h, rfl, rfl, by simp, fun hh => absurd h0 hh⟩
  | i :: is, f, hi, hov, h, h0 => by
    obtain ⟨f1, e1, g1, t1, c1, p1, b1⟩ := layer_eq N hN c hv hvs m rows M bs g i (hi i (by simp)) (hov i (by simp)) f h h0
    have hstep : N.walk c g.mode (i :: is) f = N.walk c g.mode is f1 := by
      show (N.layer c g.mode i f).bind (N.walk c g.mode is) = _
      rw [e1]
      rfl
    rw [hstep]
    by_cases hf : f1.failed = 0
    · obtain ⟨f', e', g', t', c', p', b'⟩ := walk_eq N hN c hv hvs m rows M bs g is f1 (fun j hj => hi j (by simp [hj])) (fun j hj => hov j (by simp [hj])) g1 hf
      refine ⟨f', e', g', t'.trans t1, c'.trans c1, ?_, ?_⟩
      · intro hh j hj
        rcases List.mem_cons.1 hj with rfl | hj
        · exact p1 hf
        · exact p' hh j hj
      · intro hh
        obtain ⟨j, hj, hb⟩ := b' hh
        exact ⟨j, List.mem_cons_of_mem _ hj, hb⟩
    · rw [walk_stop N c g.mode hf]
      exact ⟨f1, rfl, g1, t1, c1, fun hh => absurd hh hf, fun _ => ⟨i, by simp, b1 hf⟩⟩

theorem launch_eq (N : Net R S G) (hN : N.Ok) (c : Setts R) (hv : c.group.Valid) (hvs : c.sub.Valid) (m : Mem R S) (rows M bs : Nat) (g : Group) (f : F R S G) (hov : ∀ i ∈ N.root.visits, c.Checks N g i → NoOverflow c i)
    (hM : M < rows) (hI : Dh.Inv rows M true f.hold) (hb : bs = rows ∨ (0 < bs ∧ bs ≤ M)) (hbl : f.blocked = true) (hm : f.st.mem = m) (hst : f.st.insp.stack = []) (hs : f.st.insp.step = c.step) :
    ∃ f', N.launch c g.mode bs f = some f' ∧ Good c m rows M bs f' ∧ f'.training = true ∧ f'.cur = bs ∧ (f'.failed = 0 → ∀ i ∈ N.root.visits, c.Checks N g i → Accepted N c m.w rows bs g i) ∧
      (f'.failed ≠ 0 → ∃ i ∈ N.root.visits, c.Checks N g i ∧ Rejected N c m.w rows bs g i) := by
  obtain ⟨hold, eh, ih, hc⟩ : ∃ s', f.hold.prepare bs = .ok s' ∧ Dh.Inv rows M true s' ∧ s'.curB = bs := by
    obtain ⟨s', e', i'⟩ := Dh.prepare_inv hI hM hb
    refine ⟨s', e', i', ?_⟩
    unfold Dh.St.prepare at e'
    rw [hI.rows, hI.maxB] at e'
    by_cases hr : rows ≤ bs
    · rw [if_pos hr] at e'
      cases e'
      show rows = bs
      omega
    · rw [if_neg hr, if_neg (by omega)] at e'
      cases e'
      rfl
  unfold Net.launch
  rw [eh]
  obtain ⟨f', e', g', t', c', p', b'⟩ := walk_eq N hN c hv hvs m rows M bs g N.root.visits { f with hold, failed := 0, training := true, cur := bs, st := { f.st with insp := f.st.insp.reset } } hN.pos hov
    ⟨hbl, hm, rfl, hst, hs, Or.inl rfl, ih, hc⟩ rfl
  exact ⟨f', e', g', t', c', p', b'⟩

/-- `performCheck`. -/
theorem perform_eq (N : Net R S G) (hN : N.Ok) (c : Setts R) (hv : c.group.Valid) (hvs : c.sub.Valid) (m : Mem R S) (rows bs : Nat) (hov : ∀ i ∈ N.root.visits, i.idx ∉ c.ignore → NoOverflow c i) (h0 : 0 < bs) (ho : 0 < c.online)
    (hr : max bs c.online < rows ∨ (bs = rows ∧ c.online = rows)) (init : Dh.St → F R S G) (hbl : ∀ s, (init s).blocked = true) (hm : ∀ s, (init s).st.mem = m) (hst : ∀ s, (init s).st.insp.stack = [])
    (hs : ∀ s, (init s).st.insp.step = c.step) (hh : ∀ s, (init s).hold = s) :
    ∃ ok f', N.perform c rows bs init = some (ok, f') ∧ f'.blocked = true ∧ f'.st.mem = m ∧ f'.st.insp.stack = [] ∧ (f'.st.insp.toCheck = 0 ∨ f'.st.insp.phase = .analytical) ∧
      (ok = true → (∀ i ∈ N.root.visits, c.Checks N .dLdA i → Accepted N c m.w rows c.online .dLdA i) ∧ ∀ i ∈ N.root.visits, c.Checks N .dLdW i → Accepted N c m.w rows bs .dLdW i) ∧
      (ok = false → (∃ i ∈ N.root.visits, c.Checks N .dLdA i ∧ Rejected N c m.w rows c.online .dLdA i) ∨ ∃ i ∈ N.root.visits, c.Checks N .dLdW i ∧ Rejected N c m.w rows bs .dLdW i) := by
  obtain ⟨M, hMdef, hM, hon, hbs⟩ : ∃ M, (if max bs c.online = rows then 0 else max bs c.online) = M ∧ M < rows ∧ (c.online = rows ∨ (0 < c.online ∧ c.online ≤ M)) ∧ (bs = rows ∨ (0 < bs ∧ bs ≤ M)) := by
    rcases hr with hr | ⟨h1, h2⟩
    · exact ⟨_, if_neg (by omega), hr, Or.inr ⟨ho, by omega⟩, Or.inr ⟨h0, by omega⟩⟩
    · exact ⟨0, if_pos (by omega), by omega, Or.inl h2, Or.inl h1⟩
  obtain ⟨hold, he, hI⟩ := Dh.init_inv (hasY := true) hM
  unfold Net.perform
  simp only
  rw [hMdef, he]
  simp only
  obtain ⟨f1, e1, g1, t1, c1, p1, b1⟩ := launch_eq N hN c hv hvs m rows M c.online .dLdA (init hold) (fun i hi hc => hov i hi hc.1) hM (by rw [hh]; exact hI) hon (hbl _) (hm _) (hst _) (hs _)
  rw [show Mode.online = Group.dLdA.mode from rfl, e1]
  simp only [Option.bind_eq_bind, Option.bind_some]
  by_cases hf : f1.failed = 0
  · rw [if_neg (by simp [hf])]
    obtain ⟨f2, e2, g2, t2, c2, p2, b2⟩ := launch_eq N hN c hv hvs m rows M bs .dLdW f1 (fun i hi hc => hov i hi hc.1) hM g1.hold hbs g1.blocked g1.mem g1.stack g1.step
    rw [show Mode.batch = Group.dLdW.mode from rfl, e2]
    refine ⟨_, f2, rfl, g2.blocked, g2.mem, g2.stack, g2.inert, ?_, ?_⟩
    · intro hd
      exact ⟨p1 hf, p2 (by simpa using hd)⟩
    · intro hd
      exact Or.inr (b2 (by simpa using hd))
  · rw [if_pos hf]
    exact ⟨false, f1, rfl, g1.blocked, g1.mem, g1.stack, g1.inert, fun hd => absurd hd (by simp), fun _ => Or.inl (b1 hf)⟩

end Nntl.GradCheck
