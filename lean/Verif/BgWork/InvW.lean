import Verif.BgWork.Inv
/-! The workers' steps preserve the invariant. -/
namespace Nntl.BgWork
open Finset
variable {cfg : Cfg} {s s' : S} {i : Nat}

/-- What a worker's step leaves alone. -/
theorem w_frame (hw : WStep cfg s i s') : (∀ j, j ≠ i → s'.wpc j = s.wpc j ∧ s'.has j = s.has j) ∧ s'.stop = s.stop ∧ s'.go = s.go ∧ s'.fn = s.fn
    ∧ s'.tasks = s.tasks ∧ s'.cid = s.cid ∧ (s'.mpc = s.mpc ∨ s'.mpc = wakeMain s.mpc) := by
  cases hw <;> refine ⟨fun j hj => ?_, ?_, ?_, ?_, ?_, ?_, ?_⟩ <;> simp [set_ne _ _, *]

theorem w_phase (hw : WStep cfg s i s') : phase cfg.n s'.mpc = phase cfg.n s.mpc ∧ s'.mpc.holds = s.mpc.holds ∧ fnPhase s'.mpc = fnPhase s.mpc
    ∧ strict s'.mpc = strict s.mpc ∧ counted s'.mpc = counted s.mpc ∧ inExec s'.mpc = inExec s.mpc := by
  rcases (w_frame hw).2.2.2.2.2.2 with h | h <;> simp [h]

/-- Events a worker may add. -/
def Mine (i : Nat) : Ev → Prop
  | .execB _ j | .execE _ j | .pass j | .taskB _ _ j | .taskE _ j _ => j = i
  | .ret _ => False

theorem w_log (hw : WStep cfg s i s') : s'.log = s.log ∨ ∃ e, Mine i e ∧ s'.log = e :: s.log := by
  cases hw <;> first
    | exact .inl rfl
    | exact .inr ⟨_, by simp [Mine], rfl⟩

theorem w_count_ne (hw : WStep cfg s i s') {j : Nat} (hj : j ≠ i) (c : Nat) : cB s' c j = cB s c j ∧ cE s' c j = cE s c j := by
  rcases w_log hw with h | ⟨e, he, h⟩
  · simp [cB, cE, h]
  · unfold cB cE
    rw [h, List.count_cons_of_ne, List.count_cons_of_ne]
    · exact ⟨rfl, rfl⟩
    · rintro rfl; exact hj he
    · rintro rfl; exact hj he

theorem w_excl (hw : WStep cfg s i s') (hi : i < cfg.n) (I : Inv cfg s) : s'.mpc.holds = true → Free cfg s' := by
  intro hm j hj
  have hm' : s.mpc.holds = true := by rw [← (w_phase hw).2.1]; exact hm
  have F := I.excl hm'
  by_cases hji : j = i
  · subst hji
    have := F j hj
    cases hw <;> simp_all [WPc.holds]
  · rw [((w_frame hw).1 j hji).1]; exact F j hj

/-- The number of a function being executed. -/
theorem run_cid (I : Inv cfg s) (hi : i < cfg.n) {f} (h : s.wpc i = .run f) : f = s.cid := by
  have := I.wok i hi
  rw [h] at this
  unfold WOk at this
  split at this <;> simp [WPc.exc] at this
  exact this.2.2.2.2.1

theorem exec_cid (I : Inv cfg s) (hi : i < cfg.n) (h : s.wpc i = .exec) : fnPhase s.mpc = true := by
  have := I.wok i hi
  rw [h] at this
  unfold WOk at this
  generalize hm : s.mpc = m at this ⊢
  cases m <;> simp_all [phase, WPc.exc, fnPhase] <;> rename_i e <;> cases e <;> simp_all [phase, WPc.exc, fnPhase]

theorem w_wok (hw : WStep cfg s i s') (hi : i < cfg.n) (I : Inv cfg s) (j : Nat) (hj : j < cfg.n) :
    WOk cfg.n s'.mpc s'.cid j (s'.wpc j) (s'.has j) (cB s' s'.cid j) (cE s' s'.cid j) := by
  have W := I.wok j hj
  have hcid := (w_frame hw).2.2.2.2.2.1
  by_cases hji : j = i
  · subst hji
    have hph := (w_phase hw).1
    unfold WOk at W ⊢
    rw [hph, hcid]
    cases hw with
    | exec f h1 h2 =>
      have hf := I.fnok (exec_cid I hi h1)
      rw [h2] at hf
      have hf : f = s.cid := by simpa using hf
      subst hf
      simp only [set_same, cB, cE, List.count_cons, h1] at W ⊢
      generalize List.count (Ev.execB s.cid j) s.log = b at *
      generalize List.count (Ev.execE s.cid j) s.log = e at *
      split <;> rename_i hp <;> rw [hp] at W <;> simp [WPc.exc, WPc.booting] at W ⊢
      simp [W]
    | run f h1 =>
      have hf := run_cid I hi h1
      subst hf
      simp only [set_same, cB, cE, List.count_cons, h1] at W ⊢
      generalize List.count (Ev.execB s.cid j) s.log = b at *
      generalize List.count (Ev.execE s.cid j) s.log = e at *
      split <;> rename_i hp <;> rw [hp] at W <;> simp [WPc.exc, WPc.booting] at W ⊢
      simp [W]
    | _ =>
      simp only [set_same, cB, cE, List.count_cons, *] at W ⊢
      generalize List.count (Ev.execB s.cid j) s.log = b at *
      generalize List.count (Ev.execE s.cid j) s.log = e at *
      generalize s.cid = c at *
      clear hcid hph
      split <;> rename_i hp <;> rw [hp] at W <;> simp [WPc.exc, WPc.booting] at W ⊢ <;> try tauto
      try (split_ifs at W ⊢ <;> simp_all)
  · rw [((w_frame hw).1 j hji).1, ((w_frame hw).1 j hji).2, hcid, (w_count_ne hw hji _).1, (w_count_ne hw hji _).2]
    unfold WOk at W ⊢
    rwa [(w_phase hw).1]

theorem w_old (hw : WStep cfg s i s') (hi : i < cfg.n) (I : Inv cfg s) (c j : Nat) (hj : j < cfg.n) (hc : c ≠ s'.cid) :
    cB s' c j = (if 1 ≤ c ∧ c < s'.cid then 1 else 0) ∧ cE s' c j = (if 1 ≤ c ∧ c < s'.cid then 1 else 0) := by
  have hcid := (w_frame hw).2.2.2.2.2.1
  rw [hcid] at hc ⊢
  have O := I.old c j hj hc
  by_cases hji : j = i
  · subst hji
    cases hw with
    | exec f h1 h2 =>
      have hf := I.fnok (exec_cid I hi h1)
      rw [h2] at hf
      have hf : f = s.cid := by simpa using hf
      simp only [cB, cE, List.count_cons] at O ⊢
      simpa [hf, Ne.symm hc] using O
    | run f h1 =>
      have hf := run_cid I hi h1
      simp only [cB, cE, List.count_cons] at O ⊢
      simpa [hf, Ne.symm hc] using O
    | _ => simpa [cB, cE] using O
  · rw [(w_count_ne hw hji _).1, (w_count_ne hw hji _).2]; exact O

theorem w_str (hw : WStep cfg s i s') (hi : i < cfg.n) (I : Inv cfg s) (hs : strict s'.mpc = true) (j : Nat) (hj : j < cfg.n)
    (hk : ∀ k, s'.mpc = .eSet k → j < k) : s'.has j = true := by
  have hs' : strict s.mpc = true := by rw [← (w_phase hw).2.2.2.1]; exact hs
  have hm : s.mpc.holds = true := by
    generalize s.mpc = m at hs'; cases m <;> simp_all [strict, MPc.holds]
  have hk' : ∀ k, s.mpc = .eSet k → j < k := by
    intro k e; apply hk; rcases (w_frame hw).2.2.2.2.2.2 with h | h <;> rw [h, e]; rfl
  have H := I.str hs' j hj hk'
  have F := I.excl hm
  by_cases hji : j = i
  · subst hji
    have := F j hj
    cases hw <;> simp_all [WPc.holds]
  · rw [((w_frame hw).1 j hji).2]; exact H

theorem pendT (w) : pend w true = 1 := by simp [pend]
theorem pendD (h) : pend .dec h = 1 := by simp [pend]

theorem w_cnt (hw : WStep cfg s i s') (hi : i < cfg.n) (I : Inv cfg s) (hc : counted s'.mpc = true) :
    s'.cnt = ∑ j ∈ range cfg.n, pend (s'.wpc j) (s'.has j) := by
  have hc' : counted s.mpc = true := by rw [← (w_phase hw).2.2.2.2.1]; exact hc
  have C := I.cnt hc'
  have W := I.wok i hi
  cases hw with
  | clr h1 => 
    have hh : s.has i = true := by
      unfold WOk at W
      split at W <;> simp [h1, WPc.exc] at W
      exact W.2.2.2.1
    simp only [sum_set hi, ← C, h1, hh, pendT, pendD]; omega
  | dec h1 =>
    have hh : s.has i = false := by
      unfold WOk at W
      split at W <;> simp [h1, WPc.exc] at W
      exact W.2.2.2.1
    simp only [sum_setw hi, ← C, h1, hh]; simp only [pend]; simp [WPc.booting]
  | bootDec h1 =>
    have hh : s.has i = false := by
      unfold WOk at W
      split at W <;> simp [h1, WPc.exc, WPc.booting] at W
      exact W.1
    simp only [sum_setw hi, ← C, h1, hh]; simp only [pend]; simp [WPc.booting]
  | _ => simp only [sum_setw hi, ← C]; clear C; simp only [*]; simp only [pend]; simp [WPc.booting]

theorem pend_nonneg (w h) : 0 ≤ pend w h := by unfold pend; split <;> simp

theorem w_slp (hw : WStep cfg s i s') (hi : i < cfg.n) (I : Inv cfg s) (e) (hm : s'.mpc = .wsleep e) : 0 < s'.cnt := by
  have hm' : s.mpc = .wsleep e := by
    rcases (w_frame hw).2.2.2.2.2.2 with h | h
    · rw [← h, hm]
    · rw [h] at hm; generalize s.mpc = m at hm ⊢; cases m <;> simp_all [wakeMain]
  have F := I.excl (by rw [hm']; rfl) i hi
  have := I.slp e hm'
  cases hw <;> simp_all [WPc.holds]

theorem w_unl (hw : WStep cfg s i s') (hi : i < cfg.n) (I : Inv cfg s) (e) (hm : s'.mpc = .wunl e) : s'.cnt ≤ 0 := by
  have hm' : s.mpc = .wunl e := by
    rcases (w_frame hw).2.2.2.2.2.2 with h | h
    · rw [← h, hm]
    · rw [h] at hm; generalize s.mpc = m at hm ⊢; cases m <;> simp_all [wakeMain]
  have F := I.excl (by rw [hm']; rfl) i hi
  have := I.unl e hm'
  cases hw <;> simp_all [WPc.holds]

theorem w_blk (hw : WStep cfg s i s') (hi : i < cfg.n) (I : Inv cfg s) (e) (hm : s'.mpc = .wblocked e) :
    0 < s'.cnt ∨ ∃ j, j < cfg.n ∧ (s'.wpc j = .ntf ∨ s'.wpc j = .bootNtf) := by
  by_cases hd : s'.wpc i = .ntf ∨ s'.wpc i = .bootNtf
  · exact .inr ⟨i, hi, hd⟩
  · have hm' : s.mpc = .wblocked e := by
      rcases (w_frame hw).2.2.2.2.2.2 with h | h
      · rw [← h, hm]
      · rw [h] at hm; generalize s.mpc = m at hm ⊢; cases m <;> simp_all [wakeMain]
    have B := I.blk e hm'
    have hn : s.wpc i ≠ .ntf ∧ s.wpc i ≠ .bootNtf := by
      cases hw <;> simp_all [wakeMain]
    have hcnt : s'.cnt = s.cnt := by cases hw <;> simp_all
    rcases B with h | ⟨j, hj, h⟩
    · left; rw [hcnt]; exact h
    · right
      have hji : j ≠ i := by rintro rfl; tauto
      exact ⟨j, hj, by rw [((w_frame hw).1 j hji).1]; exact h⟩

theorem w_tsk (hw : WStep cfg s i s') (I : Inv cfg s) (j k : Nat) (hj : j < cfg.n)
    (h : s'.wpc j = .loop k ∨ s'.wpc j = .task k) : k < s'.tasks.length := by
  rw [(w_frame hw).2.2.2.2.1]
  by_cases hji : j = i
  · subst hji
    have := I.tsk j k hj
    cases hw <;> simp_all
  · rw [((w_frame hw).1 j hji).1] at h; exact I.tsk j k hj h

theorem w_stp (hw : WStep cfg s i s') (I : Inv cfg s) :
    s'.stop = true ↔ (s'.mpc = .xGo ∨ s'.mpc = .xNtf ∨ (∃ k, s'.mpc = .join k) ∨ s'.mpc = .gone) := by
  rw [(w_frame hw).2.1, I.stp]
  rcases (w_frame hw).2.2.2.2.2.2 with h | h <;> rw [h]
  generalize s.mpc = m; cases m <;> simp [wakeMain]

theorem w_join (hw : WStep cfg s i s') {m} (hm : s'.mpc = m) (h1 : (∀ e, m ≠ .wwoken e)) : s.mpc = m := by
  rcases (w_frame hw).2.2.2.2.2.2 with h | h
  · rw [← h, hm]
  · rw [h] at hm; subst hm; generalize s.mpc = m at h1 ⊢; cases m <;> simp_all [wakeMain]

theorem w_dne (hw : WStep cfg s i s') (I : Inv cfg s) (j : Nat) (hj : j < cfg.n) (h : s'.wpc j = .done) : s'.stop = true := by
  rw [(w_frame hw).2.1]
  by_cases hji : j = i
  · subst hji
    cases hw <;> simp_all
  · rw [((w_frame hw).1 j hji).1] at h; exact I.dne j hj h

theorem w_stays (hw : WStep cfg s i s') (j : Nat) (h : s.wpc j = .done) : s'.wpc j = .done := by
  by_cases hji : j = i
  · subst hji
    cases hw <;> simp_all
  · rw [((w_frame hw).1 j hji).1]; exact h

theorem w_ret (hw : WStep cfg s i s') (I : Inv cfg s) (l1 l2 c) (h : s'.log = l1 ++ .ret c :: l2) (j : Nat) (hj : j < cfg.n) :
    l2.count (.execB c j) = 1 ∧ l2.count (.execE c j) = 1 := by
  rcases w_log hw with h' | ⟨e, he, h'⟩
  · rw [h'] at h; exact I.ret l1 l2 c h j hj
  · rw [h'] at h
    cases l1 with
    | nil => simp at h; rw [h.1] at he; exact he.elim
    | cons x l => simp at h; exact I.ret l l2 c h.2 j hj

theorem w_prio (hw : WStep cfg s i s') (hi : i < cfg.n) (I : Inv cfg s) (j k : Nat) (hj : j < cfg.n) (hk : (s'.wpc j).next = some k) (p)
    (hp : lastPrio j s'.log = some p) (q : Nat) (hq : k ≤ q) (x) (hx : s'.tasks[q]? = some x) : x.2 ≤ p := by
  rw [(w_frame hw).2.2.2.2.1] at hx
  by_cases hji : j = i
  · subst hji
    cases hw with
    | loop k' t p' h1 h2 h3 =>
      simp [WPc.next] at hk
      simp [lastPrio] at hp
      subst hk hp
      have hlen : k' < s.tasks.length := I.tsk j k' hj (.inl h1)
      rw [List.getElem?_eq_some_iff] at h3 hx
      obtain ⟨_, h3⟩ := h3
      obtain ⟨hq', hx⟩ := hx
      rcases Nat.lt_or_eq_of_le hq with h | h
      · have := List.pairwise_iff_getElem.1 I.srt k' q hlen hq' h
        rw [h3, hx] at this
        exact this
      · subst h; rw [h3] at hx; rw [← hx]
    | lockT h1 h2 => simp [lastPrio] at hp
    | pick k' h1 h2 h3 =>
      simp [WPc.next] at hk; subst hk
      exact I.prio j k' hj (by simp [h1, WPc.next]) p hp q hq x hx
    | loopGo k' h1 h2 =>
      simp [WPc.next] at hk; subst hk
      exact I.prio j k' hj (by simp [h1, WPc.next]) p hp q (by omega) x hx
    | taskTrue k' t p' h1 h2 =>
      simp [WPc.next] at hk; subst hk
      exact I.prio j k' hj (by simp [h1, WPc.next]) p (by simpa [lastPrio] using hp) q (by omega) x hx
    | taskFalse k' t p' h1 h2 =>
      simp [WPc.next] at hk; subst hk
      exact I.prio j k' hj (by simp [h1, WPc.next]) p (by simpa [lastPrio] using hp) q (by omega) x hx
    | _ => simp [WPc.next] at hk
  · rw [((w_frame hw).1 j hji).1] at hk
    apply I.prio j k hj hk p _ q hq x hx
    rcases w_log hw with h' | ⟨e, he, h'⟩
    · rw [← h']; exact hp
    · rw [h'] at hp
      cases e <;> simp [lastPrio] at hp <;> simp [Mine] at he <;> subst he <;> simp_all [Ne.symm hji]

theorem w_retc (hw : WStep cfg s i s') (I : Inv cfg s) (c) (h : Ev.ret c ∈ s'.log) :
    1 ≤ c ∧ c ≤ s'.cid ∧ (c = s'.cid → inExec s'.mpc = false) := by
  rw [(w_frame hw).2.2.2.2.2.1, (w_phase hw).2.2.2.2.2]
  apply I.retc
  rcases w_log hw with h' | ⟨e, he, h'⟩
  · rwa [h'] at h
  · rw [h'] at h; simp at h
    rcases h with h | h
    · rw [← h] at he; exact he.elim
    · exact h

theorem inv_worker (hw : WStep cfg s i s') (hi : i < cfg.n) (I : Inv cfg s) : Inv cfg s' where
  excl := w_excl hw hi I
  wok := w_wok hw hi I
  old := w_old hw hi I
  str := w_str hw hi I
  cnt := w_cnt hw hi I
  fnok h := by
    rw [(w_frame hw).2.2.2.1, (w_frame hw).2.2.2.2.2.1]; apply I.fnok; rw [← (w_phase hw).2.2.1]; exact h
  slp := w_slp hw hi I
  blk := w_blk hw hi I
  unl := w_unl hw hi I
  tsk := w_tsk hw I
  srt := by rw [(w_frame hw).2.2.2.2.1]; exact I.srt
  stp := w_stp hw I
  dne := w_dne hw I
  gox h := by
    rw [(w_frame hw).2.2.1]; apply I.gox
    rcases h with h | ⟨k, h⟩ | h
    · exact .inl (w_join hw h (by simp))
    · exact .inr (.inl ⟨k, w_join hw h (by simp)⟩)
    · exact .inr (.inr (w_join hw h (by simp)))
  jnd k h j hj hn := w_stays hw j (I.jnd k (w_join hw h (by simp)) j hj hn)
  gnd h j hn := w_stays hw j (I.gnd (w_join hw h (by simp)) j hn)
  ret := w_ret hw I
  prio := w_prio hw hi I
  cpos h := by rw [(w_frame hw).2.2.2.2.2.1]; apply I.cpos; rw [← (w_phase hw).2.2.2.2.2]; exact h
  retc := w_retc hw I

end Nntl.BgWork
