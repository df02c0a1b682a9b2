import Verif.BgWork.InvW
/-! The steps of the main thread preserve the invariant. -/
namespace Nntl.BgWork
open Finset
variable {cfg : Cfg} {s s' : S}

theorem m_excl (hm : MStep cfg s s') (I : Inv cfg s) : s'.mpc.holds = true → Free cfg s' := by
  intro h
  have E := I.excl
  cases hm <;> simp_all [MPc.holds] <;> first | exact E | assumption

theorem m_wpc (hm : MStep cfg s s') : s'.wpc = s.wpc ∧ s'.cid = s.cid := by cases hm <;> exact ⟨rfl, rfl⟩

theorem m_count (hm : MStep cfg s s') (c j : Nat) : cB s' c j = cB s c j ∧ cE s' c j = cE s c j := by
  cases hm <;> simp [cB, cE, List.count_cons]

theorem pend_zero {n : Nat} {w : Nat → WPc} {h : Nat → Bool} (hs : ∑ j ∈ range n, pend (w j) (h j) ≤ 0) (i : Nat) (hi : i < n) :
    h i = false ∧ w i ≠ .dec ∧ (w i).booting = false := by
  have h0 : ∑ j ∈ range n, pend (w j) (h j) = 0 := le_antisymm hs (sum_nonneg fun j _ => pend_nonneg _ _)
  have := (sum_eq_zero_iff_of_nonneg (fun j _ => pend_nonneg (w j) (h j))).1 h0 i (mem_range.2 hi)
  unfold pend at this
  split at this
  · simp at this
  · rename_i hn; push Not at hn; simpa using hn

theorem m_wok (hm : MStep cfg s s') (I : Inv cfg s) (j : Nat) (hj : j < cfg.n) :
    WOk cfg.n s'.mpc s'.cid j (s'.wpc j) (s'.has j) (cB s' s'.cid j) (cE s' s'.cid j) := by
  have W := I.wok j hj
  rw [(m_count hm _ _).1, (m_count hm _ _).2, (m_wpc hm).1, (m_wpc hm).2]
  cases hm with
  | eSet k h1 h2 =>
    rw [h1] at W
    unfold WOk at W ⊢
    simp only [phase] at W ⊢
    by_cases hjk : j = k
    · subst hjk
      simp at W
      simp [W]
    · have : (j < k + 1) = (j < k) := by simp; omega
      simp only [this, set_ne _ _ hjk]; exact W
  | eSetEnd k h1 h2 =>
    rw [h1] at W
    unfold WOk at W ⊢
    simp only [phase] at W ⊢
    have : j < k := by omega
    simp only [this, hj] at W ⊢
    exact W
  | wunlExec h1 =>
    have P := pend_zero (by rw [← I.cnt (by rw [h1]; rfl)]; exact I.unl _ h1) j hj
    rw [h1] at W
    unfold WOk at W ⊢
    simp only [phase, hj, P.1, P.2.1, P.2.2] at W ⊢
    simp_all
  | wunlCtor h1 =>
    have P := pend_zero (by rw [← I.cnt (by rw [h1]; rfl)]; exact I.unl _ h1) j hj
    rw [h1] at W
    unfold WOk at W ⊢
    simp only [phase, hj, P.1, P.2.1, P.2.2] at W ⊢
    obtain ⟨-, W1, W2, W3, W4, W5⟩ := W
    rw [if_pos W5]
    exact ⟨trivial, W1, W2, trivial, W3, W4⟩
  | wlock e h1 h2 => rw [h1] at W; cases e <;> exact W
  | wtestYes e h1 h2 => rw [h1] at W; cases e <;> exact W
  | wtestNo e h1 h2 => rw [h1] at W; cases e <;> exact W
  | wsleep e h1 => rw [h1] at W; cases e <;> exact W
  | spurious e h1 => rw [h1] at W; cases e <;> exact W
  | wwoken e h1 h2 => rw [h1] at W; cases e <;> exact W
  | _ => rename_i h1 ; simp_all [WOk, phase]

theorem m_str (hm : MStep cfg s s') (I : Inv cfg s) (hs : strict s'.mpc = true) (j : Nat) (hj : j < cfg.n)
    (hk : ∀ k, s'.mpc = .eSet k → j < k) : s'.has j = true := by
  have S := I.str
  cases hm with
  | eSet k h1 h2 =>
    by_cases hjk : j = k
    · subst hjk; simp
    · simp only [set_ne _ _ hjk]
      refine S (by rw [h1]; rfl) j hj fun k' e => ?_
      rw [h1] at e; simp at e; subst e
      have := hk (k + 1) rfl; omega
  | eSetEnd k h1 h2 =>
    refine S (by rw [h1]; rfl) j hj fun k' e => ?_
    rw [h1] at e; simp at e; omega
  | eFn h1 => have := hk 0 rfl; omega
  | _ => simp_all [strict]

theorem m_cnt (hm : MStep cfg s s') (I : Inv cfg s) (hc : counted s'.mpc = true) :
    s'.cnt = ∑ j ∈ range cfg.n, pend (s'.wpc j) (s'.has j) := by
  have C := I.cnt
  have S := I.str
  cases hm with
  | eCnt h1 =>
    have : ∀ j ∈ range cfg.n, pend (s.wpc j) (s.has j) = 1 := by
      intro j hj
      rw [S (by rw [h1]; rfl) j (mem_range.1 hj) (by simp [h1]), pendT]
    simp only [sum_congr rfl this]; simp
  | _ => simp_all [counted]

theorem m_ret (hm : MStep cfg s s') (I : Inv cfg s) (l1 l2 c) (h : s'.log = l1 ++ .ret c :: l2) (j : Nat) (hj : j < cfg.n) :
    l2.count (.execB c j) = 1 ∧ l2.count (.execE c j) = 1 := by
  have R := I.ret
  cases hm with
  | eReset h1 =>
    cases l1 with
    | nil =>
      simp at h
      have W := I.wok j hj
      rw [h1] at W
      obtain ⟨rfl, rfl⟩ := h
      unfold WOk at W
      simp only [phase] at W
      have := I.cpos (by rw [h1]; rfl)
      have h0 : s.cid ≠ 0 := by omega
      simp only [h0, if_false] at W
      exact ⟨W.2.2.2.2.1, W.2.2.2.2.2⟩
    | cons x l => simp at h; exact R l l2 c h.2 j hj
  | _ => exact R l1 l2 c h j hj

theorem m_prio (hm : MStep cfg s s') (I : Inv cfg s) (j k : Nat) (hj : j < cfg.n) (hk : (s'.wpc j).next = some k) (p)
    (hp : lastPrio j s'.log = some p) (q : Nat) (hq : k ≤ q) (x) (hx : s'.tasks[q]? = some x) : x.2 ≤ p := by
  have P := I.prio j k hj (by rw [← (m_wpc hm).1]; exact hk) p
  have F := I.excl
  rw [(m_wpc hm).1] at hk
  cases hm with
  | dDo o new h1 h2 =>
    have := F (by rw [h1]; rfl) j hj
    generalize s.wpc j = w at hk this
    cases w <;> simp [WPc.next, WPc.holds] at hk this
  | eReset h1 => exact P (by simpa [lastPrio] using hp) q hq x hx
  | _ => exact P hp q hq x hx

theorem m_srt (hm : MStep cfg s s') (I : Inv cfg s) : s'.tasks.Pairwise fun a b => a.2 ≥ b.2 := by
  have S := I.srt
  cases hm with
  | dDo o new h1 h2 =>
    cases o with
    | add t p => exact h2.2
    | del => have : new = [] := h2; simp [this]
    | other => have : new = s.tasks := h2; simpa [this] using S
  | _ => exact S

theorem m_tsk (hm : MStep cfg s s') (I : Inv cfg s) (j k : Nat) (hj : j < cfg.n)
    (h : s'.wpc j = .loop k ∨ s'.wpc j = .task k) : k < s'.tasks.length := by
  rw [(m_wpc hm).1] at h
  have T := I.tsk j k hj h
  have F := I.excl
  cases hm with
  | dDo o new h1 h2 =>
    have := F (by rw [h1]; rfl) j hj
    rcases h with h | h <;> simp [h, WPc.holds] at this
  | _ => exact T

theorem inv_main (hm : MStep cfg s s') (I : Inv cfg s) : Inv cfg s' where
  excl := m_excl hm I
  wok := m_wok hm I
  old c j hj hc := by
    rw [(m_count hm _ _).1, (m_count hm _ _).2, (m_wpc hm).2]; rw [(m_wpc hm).2] at hc; exact I.old c j hj hc
  str := m_str hm I
  cnt := m_cnt hm I
  fnok h := by
    have F := I.fnok
    cases hm <;> simp_all <;> simp_all [fnPhase]
  slp e h := by
    cases hm <;> simp_all
  blk e h := by
    have S := I.slp
    cases hm <;> simp_all
  unl e h := by
    cases hm <;> simp_all
  tsk := m_tsk hm I
  srt := m_srt hm I
  stp := by
    have S := I.stp
    cases hm <;> simp_all
  dne j hj h := by
    have D := I.dne j hj (by rw [← (m_wpc hm).1]; exact h)
    cases hm <;> simp_all
  gox h := by
    have G := I.gox
    cases hm <;> simp_all
  jnd k h j hj hn := by
    have J := I.jnd
    rw [(m_wpc hm).1]
    cases hm with
    | join k' h1 h2 h3 =>
      simp at h; subst h
      by_cases hjk : j = k'
      · rw [hjk]; exact h3
      · exact J k' h1 j (by omega) hn
    | xNtf h1 => simp at h; omega
    | _ => simp_all
  gnd h j hn := by
    have J := I.jnd
    rw [(m_wpc hm).1]
    cases hm with
    | joinEnd k h1 h2 => exact J k h1 j (by omega) hn
    | _ => simp_all
  ret := m_ret hm I
  prio := m_prio hm I
  cpos h := by
    have P := I.cpos
    cases hm <;> simp_all <;> simp_all [inExec]
  retc c h := by
    have R := I.retc c
    have P := I.cpos
    cases hm <;> simp_all <;> simp_all [inExec]
    rcases h with rfl | h
    · exact ⟨P, le_refl _⟩
    · exact ⟨(R h).1, (R h).2.1⟩

theorem inv_user {c} (hu : UStep s c s') (I : Inv cfg s) : Inv cfg s' := by
  cases hu with
  | op o h =>
    exact { I with
      excl := by simp [MPc.holds]
      wok := by have W := I.wok; rw [h] at W; exact W
      str := by simp [strict]
      cnt := by have C := I.cnt; rw [h] at C; exact C
      fnok := by simp [fnPhase]
      slp := by simp
      blk := by simp
      unl := by simp
      stp := by have S := I.stp; simpa [h] using S
      gox := by simp
      jnd := by simp
      gnd := by simp
      cpos := by simp [inExec]
      retc := by have R := I.retc; simpa [h, inExec] using R }
  | destroy h =>
    exact { I with
      excl := by simp [MPc.holds]
      wok := by have W := I.wok; rw [h] at W; exact W
      str := by simp [strict]
      cnt := by have C := I.cnt; rw [h] at C; exact C
      fnok := by simp [fnPhase]
      slp := by simp
      blk := by simp
      unl := by simp
      stp := by have S := I.stp; simpa [h] using S
      gox := by simp
      jnd := by simp
      gnd := by simp
      cpos := by simp [inExec]
      retc := by have R := I.retc; simpa [h, inExec] using R }
  | exec h =>
    exact { I with
      excl := by simp [MPc.holds]
      wok := by
        intro j hj
        have W := I.wok j hj
        have O := I.old (s.cid + 1) j hj (by omega)
        rw [h] at W
        unfold WOk at W ⊢
        simp only [phase, cB, cE] at W O ⊢
        simp at W O
        simp [W, O]
      old := by
        intro c j hj hc
        have W := I.wok j hj
        have O := I.old c j hj
        rw [h] at W
        unfold WOk at W
        simp only [phase, cB, cE] at W O hc ⊢
        by_cases hcc : c = s.cid
        · subst hcc
          rw [W.2.2.2.2.1, W.2.2.2.2.2]
          by_cases h0 : s.cid = 0
          · simp [h0]
          · have : 1 ≤ s.cid := by omega
            simp [h0, this]
        · rw [(O hcc).1, (O hcc).2]
          have : (1 ≤ c ∧ c < s.cid) ↔ (1 ≤ c ∧ c < s.cid + 1) := by omega
          simp only [this, and_self]
      str := by simp [strict]
      cnt := by have C := I.cnt; rw [h] at C; exact C
      fnok := by simp [fnPhase]
      slp := by simp
      blk := by simp
      unl := by simp
      stp := by have S := I.stp; simpa [h] using S
      gox := by simp
      jnd := by simp
      gnd := by simp
      cpos := by simp [inExec]
      retc := by
        intro c hc
        have R := I.retc c hc
        simp only at hc ⊢
        refine ⟨R.1, by omega, fun e => by omega⟩ }

theorem inv_start : Inv cfg (start cfg) where
  excl := by simp [start, MPc.holds]
  wok := by intro j hj; simp [start, WOk, phase, WPc.exc, cB, cE]
  old := by intro c j hj hc; simp [start, cB, cE]
  str := by simp [start, strict]
  cnt := by intro _; simp [start, pend, WPc.booting]
  fnok := by simp [start]
  slp := by simp [start]
  blk := by simp [start]
  unl := by simp [start]
  tsk := by simp [start]
  srt := by simp [start]
  stp := by simp [start]
  dne := by simp [start]
  gox := by simp [start]
  jnd := by simp [start]
  gnd := by simp [start]
  ret := by simp [start]
  prio := by simp [start, lastPrio]
  cpos := by simp [start]
  retc := by simp [start]

theorem inv_reach (h : Reach cfg s) : Inv cfg s := by
  induction h with
  | start => exact inv_start
  | step _ hs ih =>
    cases hs with
    | user hu => exact inv_user hu ih
    | main hm => exact inv_main hm ih
    | worker i hi hw => exact inv_worker hw hi ih

end Nntl.BgWork
