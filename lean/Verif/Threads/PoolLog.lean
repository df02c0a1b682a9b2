import Verif.Threads.PoolInv
set_option linter.unusedSimpArgs false
namespace Nntl.Threads

/-- Worker has a range it did not execute yet. -/
def isPend (pc : WPc) (r : ParRange) : Bool :=
  decide (r.cnt ≠ 0) && decide (pc ≠ .lock2) && decide (pc ≠ .clr)

def pend (pc : WPc) (r x : ParRange) : Nat := if isPend pc r = true ∧ r = x then 1 else 0

/-- Main thread has its own range still to execute. -/
def mpend (m : MPc) (x : ParRange) : Nat :=
  match m with
  | .notify o | .unlock o | .own o => if o = x then 1 else 0
  | _ => 0

def MPc.inCall : MPc → Bool
  | .notify _ | .unlock _ | .own _ | .check | .wlock | .wtest | .wsleep | .wblocked | .wwoken | .wunl => true
  | _ => false

def MPc.fresh : MPc → Bool
  | .inlined | .lock | .order => true
  | _ => false

def MPc.ownDone : MPc → Bool
  | .idle | .check | .wlock | .wtest | .wsleep | .wblocked | .wwoken | .wunl => true
  | _ => false

structure InvB (cfg : Cfg) (s : Pool) : Prop where
  logId : ∀ e ∈ s.log, e.1 ≤ s.cid
  logFresh : s.mpc.fresh = true → s.cid ≠ 0 ∧ ∀ e ∈ s.log, e.1 < s.cid
  retId : ∀ e ∈ s.returned, e.1 ≤ s.cid
  retLt : s.mpc.inCall = true ∨ s.mpc.fresh = true → ∀ e ∈ s.returned, e.1 < s.cid
  retOk : ∀ e ∈ s.returned, ∀ r, s.log.count (e.1, r) = (callsOf cfg.n e.2).count r
  ctor : s.cid = 0 → ∀ i, i < cfg.n → (s.ranges i).cnt = 0
  actF : s.mpc.inCall = true → s.cid ≠ 0 → s.fn = s.cid ∧ s.jobType = s.cur.kind ∧ s.cur.inlined = false
  actR : s.mpc.inCall = true → s.cid ≠ 0 → ∀ i, i < cfg.n → (s.ranges i).cnt ≠ 0 →
      i < workingCnt cfg.n s.cur.cnt s.cur.useN ∧ s.ranges i = plan cfg.n s.cur.cnt s.cur.useN i
  actL : s.mpc.inCall = true → s.cid ≠ 0 → ∀ r,
      s.log.count (s.cid, r) + mpend s.mpc r + sumN cfg.n (fun i => pend (s.wpc i) (s.ranges i) r)
        = (callsOf cfg.n s.cur).count r
  inl : s.mpc = .inlined → s.cur.inlined = true
  own : ∀ o, s.mpc = .notify o ∨ s.mpc = .unlock o ∨ s.mpc = .own o →
      o = planMain cfg.n s.cur.cnt s.cur.useN ∧ s.cid ≠ 0
  chk : s.mpc = .check → s.cid ≠ 0
  cacheW : s.mpc.inCall = true ∨ s.mpc = .idle → s.cid ≠ 0 → s.cur.kind = .reduce → s.cur.inlined = false →
      ∀ i, i < workingCnt cfg.n s.cur.cnt s.cur.useN → isPend (s.wpc i) (s.ranges i) = false →
        s.cache (i + 1) = some (s.cid, plan cfg.n s.cur.cnt s.cur.useN i)
  cacheM : s.mpc.ownDone = true → s.cid ≠ 0 → s.cur.kind = .reduce → s.cur.inlined = false →
      s.cache 0 = some (s.cid, planMain cfg.n s.cur.cnt s.cur.useN)
  last : s.mpc = .idle → s.cid ≠ 0 → (s.cid, s.cur) ∈ s.returned

theorem invB_init (cfg : Cfg) : InvB cfg (Pool.init cfg) := by
  constructor <;> simp [Pool.init, MPc.fresh, MPc.inCall]

/-- Steps of a worker that execute nothing. -/
theorem invB_worker {cfg : Cfg} {s s' : Pool} (h : InvB cfg s) (i : Nat) (hi : i < cfg.n)
    (hw : ∀ j, j ≠ i → s'.wpc j = s.wpc j) (hr : ∀ j, j ≠ i → s'.ranges j = s.ranges j)
    (hm : s'.mpc = s.mpc ∨ (s.mpc = .wblocked ∧ s'.mpc = .wwoken))
    (hp : isPend (s'.wpc i) (s'.ranges i) = isPend (s.wpc i) (s.ranges i))
    (hri : (s'.ranges i).cnt ≠ 0 → s'.ranges i = s.ranges i)
    (h1 : s'.fn = s.fn) (h2 : s'.jobType = s.jobType) (h3 : s'.cid = s.cid) (h4 : s'.cur = s.cur)
    (h5 : s'.returned = s.returned) (h6 : s'.log = s.log) (h7 : s'.cache = s.cache) : InvB cfg s' := by
  have ePend : ∀ j, isPend (s'.wpc j) (s'.ranges j) = isPend (s.wpc j) (s.ranges j) := by
    intro j
    by_cases e : j = i
    · subst e; exact hp
    · rw [hw j e, hr j e]
  have hrj : ∀ j, (s'.ranges j).cnt ≠ 0 → s'.ranges j = s.ranges j := by
    intro j hj
    by_cases e : j = i
    · subst e; exact hri hj
    · rw [hr j e]
  have ep : ∀ r, sumN cfg.n (fun j => pend (s'.wpc j) (s'.ranges j) r)
      = sumN cfg.n (fun j => pend (s.wpc j) (s.ranges j) r) := by
    intro r
    apply sumN_congr
    intro j _
    simp only [pend, ePend j]
    cases hb : isPend (s.wpc j) (s.ranges j)
    · simp
    · have : (s'.ranges j).cnt ≠ 0 := by
        have := (ePend j).trans hb
        simp [isPend] at this; exact this.1.1
      rw [hrj j this]
  have em : s'.mpc.fresh = s.mpc.fresh ∧ s'.mpc.inCall = s.mpc.inCall ∧ (∀ r, mpend s'.mpc r = mpend s.mpc r) ∧
      s'.mpc.ownDone = s.mpc.ownDone ∧ (s'.mpc = .idle → s.mpc = .idle) ∧ (s'.mpc = .inlined → s.mpc = .inlined) ∧
      (s'.mpc = .check → s.mpc = .check) ∧ (∀ o, s'.mpc = .notify o ∨ s'.mpc = .unlock o ∨ s'.mpc = .own o → 
        s.mpc = .notify o ∨ s.mpc = .unlock o ∨ s.mpc = .own o) := by
    rcases hm with e | ⟨e1, e2⟩
    · rw [e]; simp
    · rw [e1, e2]; simp [MPc.fresh, MPc.inCall, mpend, MPc.ownDone]
  obtain ⟨em1, em2, em3, em4, em5, em6, em7, em8⟩ := em
  constructor <;> simp only [h1, h2, h3, h4, h5, h6, h7, em1, em2, em3, em4, ep, ePend]
  · exact h.logId
  · exact h.logFresh
  · exact h.retId
  · exact h.retLt
  · exact h.retOk
  · intro h0 j hj
    have := h.ctor h0 j hj
    apply Classical.byContradiction
    intro hc
    rw [hrj j hc] at hc; exact hc this
  · exact h.actF
  · intro a b j hj hc
    have e := hrj j hc
    rw [e] at hc ⊢
    exact h.actR a b j hj hc
  · exact h.actL
  · intro e; exact h.inl (em6 e)
  · intro o e; exact h.own o (em8 o e)
  · intro e; exact h.chk (em7 e)
  · intro e; exact h.cacheW (e.imp_right em5)
  · exact h.cacheM
  · intro e; exact h.last (em5 e)

theorem invB_stepWorker {cfg : Cfg} {s s' : Pool} (ha : InvA cfg s) (h : InvB cfg s) (i : Nat) (hi : i < cfg.n)
    (hs : s.stepWorker cfg i = some s') : InvB cfg s' := by
  have hwok := ha.wok i hi
  unfold Pool.stepWorker at hs
  split at hs <;> rename_i hpc <;> rw [hpc] at hwok
  case h_13 => -- work
    obtain rfl := Option.some.inj hs
    simp only [WOk] at hwok
    have hin : s.mpc.inCall = true := by
      apply Classical.byContradiction
      intro hc
      have hq : s.mpc.quiet = true := by revert hc; cases s.mpc <;> simp [MPc.inCall, MPc.quiet]
      have := ha.quiet hq i hi
      simp [owes, hpc, hwok] at this
    have hcid : s.cid ≠ 0 := fun e => hwok.1 (h.ctor e i hi)
    obtain ⟨f1, f2, f3⟩ := h.actF hin hcid
    obtain ⟨hiw, hplan⟩ := h.actR hin hcid i hi hwok.1
    have hfr : s.mpc.fresh = false := by revert hin; cases s.mpc <;> simp [MPc.inCall, MPc.fresh]
    have hidle : s.mpc ≠ .idle := by intro e; rw [e] at hin; cases hin
    have hsum : ∀ r, sumN cfg.n (fun j => pend (s.wpc j) (s.ranges j) r) =
        sumN cfg.n (fun j => pend (setW s.wpc i .lock2 j) (s.ranges j) r) + if s.ranges i = r then 1 else 0 := by
      intro r
      have := sumN_update (f := fun j => pend (s.wpc j) (s.ranges j) r)
        (g := fun j => pend (setW s.wpc i .lock2 j) (s.ranges j) r) hi
        (fun j _ hne => by rw [setW_ne _ _ _ _ hne])
      simp only [setW_self, hpc] at this
      have e1 : pend WPc.lock2 (s.ranges i) r = 0 := by simp [pend, isPend]
      have e2 : pend WPc.work (s.ranges i) r = if s.ranges i = r then 1 else 0 := by
        simp [pend, isPend, hwok.1]
      rw [e1, e2] at this
      exact this
    constructor <;> dsimp only
    · intro e he
      rcases List.mem_cons.1 he with rfl | he
      · simp [f1]
      · exact h.logId e he
    · simp [hfr]
    · exact h.retId
    · exact h.retLt
    · intro e he r
      have hlt := h.retLt (Or.inl hin) e he
      rw [List.count_cons, h.retOk e he r]
      have : ((s.fn, s.ranges i) == (e.1, r)) = false := by
        simp only [beq_eq_false_iff_ne, ne_eq, Prod.mk.injEq, not_and]
        intro hh; omega
      simp [this]
    · exact h.ctor
    · exact h.actF
    · exact h.actR
    · intro _ _ r
      have := h.actL hin hcid r
      rw [hsum r] at this
      rw [List.count_cons, f1]
      simp only [beq_iff_eq, Prod.mk.injEq, true_and]
      omega
    · exact h.inl
    · exact h.own
    · exact h.chk
    · intro hh hc hk hnl j hj hp
      rw [f2, hk]
      simp only [if_true]
      by_cases e : j = i
      · subst e; rw [setW_self, f1, hplan]
      · rw [setW_ne _ _ _ _ (by omega)]
        rw [setW_ne _ _ _ _ e] at hp
        exact h.cacheW hh hc hk hnl j hj hp
    · intro hh hc hk hnl
      split
      · rw [setW_ne _ _ _ _ (by omega)]; exact h.cacheM hh hc hk hnl
      · exact h.cacheM hh hc hk hnl
    · exact h.last
  all_goals try (split at hs <;> rename_i hfree)
  all_goals try (contradiction)
  all_goals (obtain rfl := Option.some.inj hs)
  all_goals apply invB_worker h i hi
  all_goals try (intro j hj; simp only [setW_ne _ _ _ _ hj]; done)
  all_goals simp only [setW_self, hpc]
  all_goals try rfl
  all_goals try (exact Or.inl rfl)
  all_goals try trivial
  all_goals first
    | (simp [isPend]; done)
    | (cases s.mpc <;> simp [wakeMain]; done)

theorem wakeWorker_isPend (p : WPc) (r : ParRange) : isPend (wakeWorker p) r = isPend p r := by
  cases p <;> rfl

/-- Moves of the main thread inside of a call. -/
theorem invB_main {cfg : Cfg} {s s' : Pool} (h : InvB cfg s)
    (hw : ∀ j r, isPend (s'.wpc j) r = isPend (s.wpc j) r) (hr : s'.ranges = s.ranges)
    (hm1 : s.mpc.inCall = true) (hm2 : s'.mpc.inCall = true)
    (hpd : ∀ r, mpend s'.mpc r = mpend s.mpc r)
    (hod : s'.mpc.ownDone = s.mpc.ownDone)
    (ho : ∀ o, s'.mpc = .notify o ∨ s'.mpc = .unlock o ∨ s'.mpc = .own o →
      s.mpc = .notify o ∨ s.mpc = .unlock o ∨ s.mpc = .own o)
    (hck : s'.mpc ≠ .check)
    (h1 : s'.fn = s.fn) (h2 : s'.jobType = s.jobType) (h3 : s'.cid = s.cid) (h4 : s'.cur = s.cur)
    (h5 : s'.returned = s.returned) (h6 : s'.log = s.log) (h7 : s'.cache = s.cache) : InvB cfg s' := by
  have hfr : s'.mpc.fresh = false := by revert hm2; cases s'.mpc <;> simp [MPc.inCall, MPc.fresh]
  constructor <;> simp only [h1, h2, h3, h4, h5, h6, h7, hr, hpd, hod, hw, hm2, hfr, pend]
  · exact h.logId
  · simp
  · exact h.retId
  · intro _; exact h.retLt (Or.inl hm1)
  · exact h.retOk
  · exact h.ctor
  · intro _; exact h.actF hm1
  · intro _; exact h.actR hm1
  · intro _; exact h.actL hm1
  · intro e; rw [e] at hm2; cases hm2
  · intro o e; exact h.own o (ho o e)
  · intro e; exact absurd e hck
  · intro _; exact h.cacheW (Or.inl hm1)
  · exact h.cacheM
  · intro e; rw [e] at hm2; cases hm2

/-- The call returns: every worker is through. -/
theorem invB_ret {cfg : Cfg} {s : Pool} (h : InvB cfg s) (hm1 : s.mpc.inCall = true) (hc : s.cid ≠ 0)
    (hpd : ∀ r, mpend s.mpc r = 0) (hod : s.mpc.ownDone = true)
    (hq : ∀ i, i < cfg.n → (s.ranges i).cnt = 0) : InvB cfg s.ret := by
  have hp : ∀ i, i < cfg.n → isPend (s.wpc i) (s.ranges i) = false := by
    intro i hi; simp [isPend, hq i hi]
  have hs : ∀ r, sumN cfg.n (fun i => pend (s.wpc i) (s.ranges i) r) = 0 := by
    intro r
    apply sumN_zero.2
    intro j hj; simp [pend, hp j hj]
  constructor <;> simp only [Pool.ret]
  · exact h.logId
  · simp [MPc.fresh]
  · intro e he
    rcases List.mem_cons.1 he with rfl | he
    · exact Nat.le_refl _
    · exact h.retId e he
  · simp [MPc.inCall, MPc.fresh]
  · intro e he r
    rcases List.mem_cons.1 he with rfl | he
    · have := h.actL hm1 hc r
      rw [hpd, hs] at this; simpa using this
    · exact h.retOk e he r
  · exact h.ctor
  · simp [MPc.inCall]
  · simp [MPc.inCall]
  · simp [MPc.inCall]
  · simp
  · simp
  · simp
  · intro _; exact h.cacheW (Or.inl hm1)
  · intro _; exact h.cacheM hod
  · intros; exact List.mem_cons_self

theorem cnt_zero_of_owes {pc : WPc} {c : Nat} (h : owes pc c = 0) : c = 0 := by
  cases pc <;> simp_all [owes]

/-- Positions where nothing of the log part of the invariant depends on the program counter. -/
theorem invB_quiet {cfg : Cfg} {s s' : Pool} (h : InvB cfg s)
    (hr : s'.ranges = s.ranges)
    (hm1 : s'.mpc.inCall = false) (hm2 : s'.mpc.fresh = false) (hm3 : s'.mpc.ownDone = false)
    (h3 : s'.cid = s.cid)
    (h5 : s'.returned = s.returned) (h6 : s'.log = s.log) : InvB cfg s' := by
  have hi : s'.mpc ≠ .idle := by intro e; rw [e] at hm3; cases hm3
  have hi2 : s'.mpc ≠ .inlined := by intro e; rw [e] at hm2; cases hm2
  have hi3 : s'.mpc ≠ .check := by intro e; rw [e] at hm3; cases hm3
  constructor <;> (try simp only [h3, h5, h6, hr, hm1, hm2, hm3])
  · exact h.logId
  · simp
  · exact h.retId
  · simp
  · exact h.retOk
  · exact h.ctor
  · simp
  · simp
  · simp
  · intro e; exact absurd e hi2
  · intro o e
    rcases e with e | e | e <;> rw [e] at hm1 <;> cases hm1
  · intro e; exact absurd e hi3
  · simp [hi]
  · simp
  · intro e; exact absurd e hi

theorem invB_stepMain {cfg : Cfg} {s s' : Pool} (ha : InvA cfg s) (h : InvB cfg s)
    (hs : s.stepMain cfg = some s') : InvB cfg s' := by
  unfold Pool.stepMain at hs
  split at hs <;> rename_i hpc
  all_goals try (contradiction)
  case h_4 => -- inlined
    obtain rfl := Option.some.inj hs
    have hf := h.logFresh (by rw [hpc]; rfl)
    have hc := hf.1
    have hin := h.inl hpc
    constructor <;> simp only [Pool.ret]
    · intro e he
      rcases List.mem_cons.1 he with rfl | he
      · exact Nat.le_refl _
      · exact h.logId e he
    · simp [MPc.fresh]
    · intro e he
      rcases List.mem_cons.1 he with rfl | he
      · exact Nat.le_refl _
      · exact h.retId e he
    · simp [MPc.inCall, MPc.fresh]
    · intro e he r
      rw [List.count_cons]
      rcases List.mem_cons.1 he with rfl | he
      · have h0 : s.log.count (s.cid, r) = 0 := by
          apply List.count_eq_zero_of_not_mem
          intro hm; have := hf.2 _ hm; simp at this
        simp [h0, callsOf, hin, List.count_cons]
      · have hlt := h.retLt (Or.inr (by rw [hpc]; rfl)) e he
        rw [h.retOk e he r]
        simp; omega
    · exact h.ctor
    · simp [MPc.inCall]
    · simp [MPc.inCall]
    · simp [MPc.inCall]
    · simp
    · simp
    · simp
    · simp [hin]
    · simp [hin]
    · intros; exact List.mem_cons_self
  case h_5 => -- lock
    split at hs
    · obtain rfl := Option.some.inj hs
      have hf := h.logFresh (by rw [hpc]; rfl)
      have hl := h.retLt (Or.inr (by rw [hpc]; rfl))
      constructor <;> dsimp only
      · exact h.logId
      · intro _; exact hf
      · exact h.retId
      · intro _; exact hl
      · exact h.retOk
      · exact h.ctor
      all_goals simp [MPc.inCall, MPc.ownDone]
    · contradiction
  case h_6 => -- order
    obtain rfl := Option.some.inj hs
    have hf := h.logFresh (by rw [hpc]; rfl)
    have hl := h.retLt (Or.inr (by rw [hpc]; rfl))
    have hni := ha.cin (Or.inr hpc)
    have hc1 := inlined_false hni
    have hq := ha.quiet (by rw [hpc]; rfl)
    have hx := ha.excl (by rw [hpc]; rfl)
    have hg : ∀ i, i < cfg.n → ((s.order cfg).ranges i) =
        if i < workingCnt cfg.n s.cur.cnt s.cur.useN then plan cfg.n s.cur.cnt s.cur.useN i
        else { s.ranges i with cnt := 0 } :=
      fun i hi => partition_get s.ranges cfg.n s.cur.cnt s.cur.useN ha.tid i hi
    have hown : (s.order cfg).mpc = .notify (planMain cfg.n s.cur.cnt s.cur.useN) := by
      show MPc.notify _ = _
      rw [partition_main s.ranges cfg.n s.cur.cnt s.cur.useN ha.tid]
      rfl
    have hpcs : ∀ i, i < cfg.n → s.wpc i ≠ .lock2 ∧ s.wpc i ≠ .clr := by
      intro i hi
      have h1 := hq i hi; have h3 := ha.wok i hi
      revert h1 h3
      cases s.wpc i <;> simp [owes, WOk] <;> omega
    have hpd : ∀ i, i < cfg.n → isPend ((s.order cfg).wpc i) ((s.order cfg).ranges i) =
        decide (i < workingCnt cfg.n s.cur.cnt s.cur.useN) := by
      intro i hi
      rw [hg i hi]
      have hp := plan_cnt_pos cfg.n s.cur.cnt s.cur.useN i hc1
      have := hpcs i hi
      show isPend (s.wpc i) _ = _
      split <;> simp [isPend, *]
    constructor <;> (try rw [hown]) 
    · exact h.logId
    · simp [MPc.fresh]
    · exact h.retId
    · intro _; exact hl
    · exact h.retOk
    · intro e; exact absurd e hf.1
    · intro _ _; exact ⟨rfl, rfl, hni⟩
    · intro _ _ i hi hcnt
      rw [hg i hi] at hcnt ⊢
      change i < workingCnt cfg.n s.cur.cnt s.cur.useN ∧ _ = plan cfg.n s.cur.cnt s.cur.useN i
      split at hcnt
      · rename_i hlt; simp [hlt]
      · simp at hcnt
    · intro _ _ r
      show s.log.count (s.cid, r) + _ + _ = (callsOf cfg.n s.cur).count r
      have h0 : s.log.count (s.cid, r) = 0 := by
        apply List.count_eq_zero_of_not_mem
        intro hm; have := hf.2 _ hm; simp at this
      rw [h0, callsOf_eq cfg.n s.cur hni, List.count_cons, sumN_eq_count]
      rw [sumN_split (workingCnt_le cfg.n s.cur.cnt s.cur.useN) (fun j h1 h2 => by
        have : ¬ j < workingCnt cfg.n s.cur.cnt s.cur.useN := by omega
        simp [pend, hpd j h2, this])]
      rw [sumN_congr (g := fun i => if plan cfg.n s.cur.cnt s.cur.useN i = r then 1 else 0) (fun j hj => by
        have hjn : j < cfg.n := Nat.lt_of_lt_of_le hj (workingCnt_le _ _ _)
        have h1 := hpd j hjn
        rw [hg j hjn] at h1
        simp only [hj, if_true, decide_true] at h1
        simp [pend, hg j hjn, hj, h1])]
      simp only [mpend, beq_iff_eq]
      omega
    · simp
    · intro o e
      simp only [MPc.notify.injEq, reduceCtorEq, or_false] at e
      exact ⟨e.symm, hf.1⟩
    · simp
    · intro _ _ _ _ i hi hp
      change i < workingCnt cfg.n s.cur.cnt s.cur.useN at hi
      have hjn : i < cfg.n := Nat.lt_of_lt_of_le hi (workingCnt_le _ _ _)
      rw [hpd i hjn] at hp
      simp [hi] at hp
    · simp [MPc.ownDone]
    · simp
  case h_7 o => -- notify
    obtain rfl := Option.some.inj hs
    apply invB_main h <;> simp [wakeWorker_isPend, hpc, MPc.inCall, mpend, MPc.ownDone]
  case h_8 => -- unlock
    obtain rfl := Option.some.inj hs
    apply invB_main h <;> simp [wakeWorker_isPend, hpc, MPc.inCall, mpend, MPc.ownDone]
  case h_9 o => -- own
    obtain rfl := Option.some.inj hs
    have hin : s.mpc.inCall = true := by rw [hpc]; rfl
    obtain ⟨ho, hc⟩ := h.own o (Or.inr (Or.inr hpc))
    constructor <;> dsimp only
    · intro e he
      rcases List.mem_cons.1 he with rfl | he
      · exact Nat.le_refl _
      · exact h.logId e he
    · simp [MPc.fresh]
    · exact h.retId
    · intro _; exact h.retLt (Or.inl hin)
    · intro e he r
      have hlt := h.retLt (Or.inl hin) e he
      rw [List.count_cons, h.retOk e he r]
      simp; omega
    · exact h.ctor
    · intro _; exact h.actF hin
    · intro _; exact h.actR hin
    · intro _ _ r
      have := h.actL hin hc r
      rw [hpc] at this
      simp only [mpend] at this ⊢
      rw [List.count_cons]
      simp only [beq_iff_eq, Prod.mk.injEq, true_and]
      omega
    · simp
    · simp
    · intro _; exact hc
    · intro _ _ hk hnl i hi hp
      rw [if_pos hk, setW_ne _ _ _ _ (by omega)]
      exact h.cacheW (Or.inl hin) hc hk hnl i hi hp
    · intro _ _ hk _
      rw [if_pos hk, setW_self, ho]
    · simp
  case h_10 => -- check
    have hin : s.mpc.inCall = true := by rw [hpc]; rfl
    have hc := h.chk hpc
    split at hs <;> obtain rfl := Option.some.inj hs
    · apply invB_main h <;> simp [hpc, MPc.inCall, mpend, MPc.ownDone]
    · rename_i hw
      apply invB_ret h hin hc (by simp [hpc, mpend]) (by rw [hpc]; rfl)
      intro i hi
      have := ha.work
      have h0 : sumN cfg.n (fun i => owes (s.wpc i) (s.ranges i).cnt) = 0 := by omega
      exact cnt_zero_of_owes (sumN_zero.1 h0 i hi)
  case h_11 => -- wlock
    split at hs
    · obtain rfl := Option.some.inj hs
      apply invB_main h <;> simp [hpc, MPc.inCall, mpend, MPc.ownDone]
    · contradiction
  case h_12 => -- wwoken
    split at hs
    · obtain rfl := Option.some.inj hs
      apply invB_main h <;> simp [hpc, MPc.inCall, mpend, MPc.ownDone]
    · contradiction
  case h_13 => -- wtest
    obtain rfl := Option.some.inj hs
    by_cases hw : s.working ≤ 0 <;> simp only [hw, if_true, if_false] <;>
    apply invB_main h <;> simp [hpc, MPc.inCall, mpend, MPc.ownDone]
  case h_14 => -- wsleep
    obtain rfl := Option.some.inj hs
    apply invB_main h <;> simp [hpc, MPc.inCall, mpend, MPc.ownDone]
  case h_15 => -- wunl
    have hin : s.mpc.inCall = true := by rw [hpc]; rfl
    split at hs <;> rename_i hc <;> obtain rfl := Option.some.inj hs
    · constructor <;> dsimp only
      · exact h.logId
      · simp [MPc.fresh]
      · exact h.retId
      · simp [MPc.fresh, MPc.inCall]
      · exact h.retOk
      · exact h.ctor
      all_goals simp [MPc.inCall, hc]
    · apply invB_ret h hin hc (by simp [hpc, mpend]) (by rw [hpc]; rfl)
      intro i hi
      exact cnt_zero_of_owes (ha.quiet (by rw [hpc]; rfl) i hi)
  case h_16 => -- dstop
    obtain rfl := Option.some.inj hs
    apply invB_quiet h <;> simp [MPc.inCall, MPc.fresh, MPc.ownDone]
  case h_17 => -- dnotify
    obtain rfl := Option.some.inj hs
    apply invB_quiet h <;> simp [MPc.inCall, MPc.fresh, MPc.ownDone]
  case h_18 k => -- join
    split at hs
    · split at hs
      · obtain rfl := Option.some.inj hs
        apply invB_quiet h <;> simp [MPc.inCall, MPc.fresh, MPc.ownDone]
      · contradiction
    · obtain rfl := Option.some.inj hs
      apply invB_quiet h <;> simp [MPc.inCall, MPc.fresh, MPc.ownDone]

theorem invB_step {cfg : Cfg} {s s' : Pool} (ha : InvA cfg s) (h : InvB cfg s) (a : Act) 
    (hs : s.step cfg a = some s') : InvB cfg s' := by
  cases a with
  | call c =>
    simp only [Pool.step] at hs
    split at hs
    · rename_i hpc
      obtain rfl := Option.some.inj hs
      have hq := ha.quiet (by rw [hpc]; rfl)
      have hlt : ∀ e ∈ s.returned, e.1 < s.cid + 1 := fun e he => Nat.lt_succ_of_le (h.retId e he)
      cases hc : c.inlined <;> constructor <;> dsimp only
      all_goals first
        | exact fun e he => Nat.le_succ_of_le (h.logId e he)
        | exact fun _ => ⟨Nat.succ_ne_zero _, fun e he => Nat.lt_succ_of_le (h.logId e he)⟩
        | exact fun e he => Nat.le_succ_of_le (h.retId e he)
        | exact fun _ => hlt
        | exact h.retOk
        | exact fun _ i hi => cnt_zero_of_owes (hq i hi)
        | simp [MPc.inCall, MPc.fresh, MPc.ownDone, hc]
    · contradiction
  | destroy =>
    simp only [Pool.step] at hs
    split at hs
    · obtain rfl := Option.some.inj hs
      apply invB_quiet h <;> simp [MPc.inCall, MPc.fresh, MPc.ownDone]
    · contradiction
  | main => exact invB_stepMain ha h hs
  | worker i =>
    simp only [Pool.step] at hs
    split at hs
    · exact invB_stepWorker ha h i (by assumption) hs
    · contradiction
  | spurMain =>
    simp only [Pool.step] at hs
    split at hs
    · rename_i hpc
      obtain rfl := Option.some.inj hs
      apply invB_main h <;> simp [hpc, MPc.inCall, mpend, MPc.ownDone]
    · contradiction
  | spur i =>
    simp only [Pool.step] at hs
    split at hs
    · rename_i hpc
      obtain ⟨hi, hpc⟩ := hpc
      obtain rfl := Option.some.inj hs
      apply invB_worker h i hi <;> simp_all [setW, isPend]
    · contradiction

theorem inv_exec {cfg : Cfg} : ∀ (as : List Act) {s s' : Pool}, InvA cfg s → InvB cfg s → s.exec cfg as = some s' →
    InvB cfg s'
  | [], s, s', _, h, he => by cases he; exact h
  | a :: as, s, s', ha, h, he => by
    simp only [Pool.exec, Option.bind_eq_some_iff] at he
    obtain ⟨t, h1, h2⟩ := he
    exact inv_exec as (invA_step ha a h1) (invB_step ha h a h1) h2

theorem invB_reachable {cfg : Cfg} {s : Pool} (h : Reachable cfg s) : InvB cfg s := by
  obtain ⟨as, h⟩ := h
  exact inv_exec as (invA_init cfg) (invB_init cfg) h

end Nntl.Threads
