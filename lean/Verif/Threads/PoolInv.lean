import Verif.Threads.PoolLemmas
set_option linter.unusedSimpArgs false
namespace Nntl.Threads

/-- Worker still counted in `m_workingCnt`. -/
def owes (pc : WPc) (c : Nat) : Nat :=
  match pc with
  | .boot | .bootDec | .dec => 1
  | _ => if c ≠ 0 then 1 else 0

/-- Main-thread positions where no worker has anything left to do. -/
def MPc.quiet : MPc → Bool
  | .idle | .inlined | .lock | .order | .dstop | .dnotify | .join _ | .gone | .wunl => true
  | _ => false

def MPc.stopped : MPc → Bool
  | .dnotify | .join _ | .gone => true
  | _ => false

def MPc.isNotify : MPc → Bool
  | .notify _ => true
  | _ => false

def MPc.joining : MPc → Bool
  | .join _ | .gone => true
  | _ => false

/-- Per-worker consistency between program counter and the size of its range. -/
def WOk (m : MPc) (stop : Bool) (pc : WPc) (c : Nat) : Prop :=
  match pc with
  | .boot | .bootDec | .bootNtf | .bootUnl | .sleep | .dec | .ntf | .unl2 => c = 0
  | .blocked => c ≠ 0 → m.isNotify = true
  | .unl | .chkStop => stop = false → c ≠ 0
  | .work | .lock2 | .clr => c ≠ 0 ∧ stop = false
  | .lock | .woken | .test => True
  | .done => stop = true

structure InvA (cfg : Cfg) (s : Pool) : Prop where
  tid : ∀ i, i < cfg.n → (s.ranges i).tid = i + 1
  work : s.working = (sumN cfg.n (fun i => owes (s.wpc i) (s.ranges i).cnt) : Nat)
  excl : s.mpc.holds = true → ∀ i, i < cfg.n → (s.wpc i).holds = false
  quiet : s.mpc.quiet = true → ∀ i, i < cfg.n → owes (s.wpc i) (s.ranges i).cnt = 0
  wok : ∀ i, i < cfg.n → WOk s.mpc s.stop (s.wpc i) (s.ranges i).cnt
  stp : s.stop = s.mpc.stopped
  wsl : s.mpc = .wsleep → 0 < s.working
  wbl : s.mpc = .wblocked → 0 < s.working ∨ ∃ i, i < cfg.n ∧ (s.wpc i = .ntf ∨ s.wpc i = .bootNtf)
  lst : s.lost = true → s.mpc.joining = true
  nst : s.mpc.joining = true → s.lost = false → ∀ i, i < cfg.n → s.wpc i ≠ .sleep ∧ s.wpc i ≠ .blocked
  joi : ∀ k, s.mpc = .join k → ∀ i, i < cfg.n → i < k → s.wpc i = .done
  gon : s.mpc = .gone → ∀ i, i < cfg.n → s.wpc i = .done
  cin : (s.mpc = .lock ∨ s.mpc = .order) → s.cur.inlined = false

theorem invA_init (cfg : Cfg) : InvA cfg (Pool.init cfg) where
  tid := by intro i _; rfl
  work := by
    have : ∀ n, sumN n (fun _ => 1) = n := by
      intro n; induction n with
      | zero => rfl
      | succ n ih => simp [sumN, ih]
    simp [Pool.init, owes, this]
  excl := by simp [Pool.init, MPc.holds]
  quiet := by simp [Pool.init, MPc.quiet]
  wok := by simp [Pool.init, WOk]
  stp := by simp [Pool.init, MPc.stopped]
  wsl := by simp [Pool.init]
  wbl := by simp [Pool.init]
  lst := by simp [Pool.init]
  nst := by simp [Pool.init, MPc.joining]
  joi := by simp [Pool.init]
  gon := by simp [Pool.init]
  cin := by simp [Pool.init]

/-- Steps of the main thread that change nothing but its program counter. -/
theorem invA_mpc {cfg : Cfg} {s s' : Pool} (h : InvA cfg s) 
    (hw : s'.wpc = s.wpc) (hr : s'.ranges = s.ranges) (hk : s'.working = s.working)
    (hst : s'.stop = s'.mpc.stopped) (hl : s'.lost = s.lost)
    (hstop : s.stop = true → s'.stop = true) (hstop' : s'.stop = true → s.mpc.quiet = true)
    (hn : s.mpc.isNotify = false)
    (hexcl : s'.mpc.holds = true → s.mpc.holds = true ∨ s.freeForMain cfg = true)
    (hq : s'.mpc.quiet = true → s.mpc.quiet = true ∨ s.working ≤ 0)
    (hsl : s'.mpc = .wsleep → 0 < s.working)
    (hbl : s'.mpc = .wblocked → s.mpc = .wblocked ∨ s.mpc = .wsleep)
    (hlj : s.mpc.joining = s'.mpc.joining)
    (hj : ∀ k, s'.mpc = .join k → ∀ i, i < cfg.n → i < k → s.wpc i = .done)
    (hg : s'.mpc = .gone → ∀ i, i < cfg.n → s.wpc i = .done)
    (hc : (s'.mpc = .lock ∨ s'.mpc = .order) → s'.cur.inlined = false) : InvA cfg s' where
  tid := by rw [hr]; exact h.tid
  work := by rw [hr, hw, hk]; exact h.work
  excl := by
    intro hh i hi
    rw [hw]
    rcases hexcl hh with h1 | h1
    · exact h.excl h1 i hi
    · simp only [Pool.freeForMain, decide_eq_true_eq] at h1; exact h1 i hi
  quiet := by
    intro hh i hi
    rw [hw, hr]
    rcases hq hh with h1 | h1
    · exact h.quiet h1 i hi
    · have h2 := h.work
      have : sumN cfg.n (fun i => owes (s.wpc i) (s.ranges i).cnt) = 0 := by omega
      exact sumN_zero.1 this i hi
  wok := by
    intro i hi
    rw [hw, hr]
    have h1 := h.wok i hi
    have h3 := h.quiet
    revert h1
    cases hs : s.stop <;> cases hs' : s'.stop
    · cases hp : s.wpc i <;> simp [WOk, hn] <;> intros <;> contradiction
    · have h4 := h3 (hstop' hs') i hi
      cases hp : s.wpc i <;> simp [WOk, hn] <;> simp_all [owes]
    · simp_all
    · cases hp : s.wpc i <;> simp [WOk, hn]
      intros; contradiction
  stp := hst
  wsl := by rw [hk]; exact hsl
  wbl := by
    intro hb
    rw [hk, hw]
    rcases hbl hb with h1 | h1
    · exact h.wbl h1
    · exact Or.inl (h.wsl h1)
  lst := by rw [hl, ← hlj]; exact h.lst
  nst := by rw [hl, ← hlj, hw]; exact h.nst
  joi := by rw [hw]; exact hj
  gon := by rw [hw]; exact hg
  cin := hc

/-- A worker's step. -/
theorem invA_worker {cfg : Cfg} {s s' : Pool} (h : InvA cfg s) (i : Nat) (hi : i < cfg.n)
    (hw : ∀ j, j ≠ i → s'.wpc j = s.wpc j) (hr : ∀ j, j ≠ i → s'.ranges j = s.ranges j)
    (hrt : (s'.ranges i).tid = i + 1)
    (hm : s'.mpc = s.mpc ∨ (s.mpc = .wblocked ∧ s'.mpc = .wwoken))
    (hst : s'.stop = s.stop) (hl : s'.lost = s.lost)
    (hk : s'.working + owes (s.wpc i) (s.ranges i).cnt = s.working + owes (s'.wpc i) (s'.ranges i).cnt)
    (hle : owes (s'.wpc i) (s'.ranges i).cnt ≤ owes (s.wpc i) (s.ranges i).cnt)
    (hex : s.mpc.holds = true → (s'.wpc i).holds = false)
    (hok : WOk s'.mpc s.stop (s'.wpc i) (s'.ranges i).cnt)
    (hsl : s.mpc = .wsleep → s'.working = s.working)
    (hbl : s'.mpc = .wblocked → (s.wpc i ≠ .ntf ∧ s.wpc i ≠ .bootNtf) ∧
        (s'.working = s.working ∨ s'.wpc i = .ntf ∨ s'.wpc i = .bootNtf))
    (hns : s'.wpc i = .sleep → s.stop = false) 
    (hnb : s'.wpc i = .blocked → s.wpc i = .sleep)
    (hd : s.wpc i ≠ .done) (hcu : s'.cur = s.cur) : InvA cfg s' where
  tid := by
    intro j hj
    by_cases e : j = i
    · subst e; exact hrt
    · rw [hr j e]; exact h.tid j hj
  work := by
    have := sumN_update (f := fun i => owes (s.wpc i) (s.ranges i).cnt)
      (g := fun i => owes (s'.wpc i) (s'.ranges i).cnt) hi
      (fun j _ hne => by rw [hw j hne, hr j hne])
    have := h.work
    omega
  excl := by
    intro hh j hj
    have hh' : s.mpc.holds = true := by
      rcases hm with e | ⟨e1, e2⟩
      · rw [e] at hh; exact hh
      · rw [e2] at hh; simp [MPc.holds] at hh
    by_cases e : j = i
    · subst e; exact hex hh'
    · rw [hw j e]; exact h.excl hh' j hj
  quiet := by
    intro hh j hj
    have hh' : s.mpc.quiet = true := by
      rcases hm with e | ⟨e1, e2⟩
      · rw [e] at hh; exact hh
      · rw [e2] at hh; simp [MPc.quiet] at hh
    by_cases e : j = i
    · subst e; have := h.quiet hh' j hj; omega
    · rw [hw j e, hr j e]; exact h.quiet hh' j hj
  wok := by
    intro j hj
    rw [hst]
    by_cases e : j = i
    · subst e; exact hok
    · rw [hw j e, hr j e]
      have := h.wok j hj
      rcases hm with e | ⟨e1, e2⟩
      · rw [e]; exact this
      · rw [e1] at this; rw [e2]
        cases hp : s.wpc j <;> simp_all [WOk, MPc.isNotify]
  stp := by
    rw [hst, h.stp]
    rcases hm with e | ⟨e1, e2⟩
    · rw [e]
    · rw [e1, e2]; rfl
  wsl := by
    intro hh
    rcases hm with e | ⟨e1, e2⟩
    · rw [e] at hh; rw [hsl hh]; exact h.wsl hh
    · rw [e2] at hh; cases hh
  wbl := by
    intro hh
    have hh' : s.mpc = .wblocked := by
      rcases hm with e | ⟨e1, e2⟩
      · rw [e] at hh; exact hh
      · rw [e2] at hh; cases hh
    obtain ⟨hb1, hb2⟩ := hbl hh
    rcases hb2 with hb2 | hb2
    · rcases h.wbl hh' with h1 | ⟨j, hj, h1⟩
      · exact Or.inl (hb2 ▸ h1)
      · refine Or.inr ⟨j, hj, ?_⟩
        by_cases e : j = i
        · subst e; rcases h1 with h1 | h1
          · exact absurd h1 hb1.1
          · exact absurd h1 hb1.2
        · rw [hw j e]; exact h1
    · exact Or.inr ⟨i, hi, hb2⟩
  lst := by
    intro hh
    have := h.lst (hl ▸ hh)
    rcases hm with e | ⟨e1, e2⟩
    · rw [e]; exact this
    · rw [e1] at this; cases this
  nst := by
    intro hh hll j hj
    have hh' : s.mpc.joining = true := by
      rcases hm with e | ⟨e1, e2⟩
      · rw [e] at hh; exact hh
      · rw [e2] at hh; cases hh
    have hs : s.stop = true := by
      rw [h.stp]; revert hh'; cases s.mpc <;> simp [MPc.joining, MPc.stopped]
    have hall := h.nst hh' (hl ▸ hll)
    by_cases e : j = i
    · subst e
      refine ⟨fun hc => ?_, fun hc => ?_⟩
      · have := hns hc; simp_all
      · exact (hall j hj).1 (hnb hc)
    · rw [hw j e]; exact hall j hj
  joi := by
    intro k hh j hj hjk
    have hh' : s.mpc = .join k := by
      rcases hm with e | ⟨e1, e2⟩
      · rw [e] at hh; exact hh
      · rw [e2] at hh; cases hh
    have := h.joi k hh' j hj hjk
    have e : j ≠ i := fun e => hd (e ▸ this)
    rw [hw j e]; exact this
  gon := by
    intro hh j hj
    have hh' : s.mpc = .gone := by
      rcases hm with e | ⟨e1, e2⟩
      · rw [e] at hh; exact hh
      · rw [e2] at hh; cases hh
    have := h.gon hh' j hj
    have e : j ≠ i := fun e => hd (e ▸ this)
    rw [hw j e]; exact this
  cin := by
    rw [hcu]
    rcases hm with e | ⟨e1, e2⟩
    · rw [e]; exact h.cin
    · rw [e2]; simp

theorem setW_self (f : Nat → α) (i : Nat) (v : α) : setW f i v i = v := by simp [setW]
theorem setW_ne (f : Nat → α) (i j : Nat) (v : α) (h : j ≠ i) : setW f i v j = f j := by simp [setW, h]

theorem invA_stepWorker {cfg : Cfg} {s s' : Pool} (h : InvA cfg s) (i : Nat) (hi : i < cfg.n)
    (hs : s.stepWorker cfg i = some s') : InvA cfg s' := by
  have hwok := h.wok i hi
  have hexc := h.excl
  unfold Pool.stepWorker at hs
  split at hs <;> rename_i hpc <;> rw [hpc] at hwok
  all_goals try (split at hs <;> rename_i hfree)
  all_goals try (contradiction)
  all_goals (obtain rfl := Option.some.inj hs)
  all_goals apply invA_worker h i hi
  all_goals try (intro j hj; simp only [setW_ne _ _ _ _ hj]; done)
  all_goals simp only [setW_self, hpc]
  all_goals try (exact h.tid i hi)
  all_goals try rfl
  all_goals try (exact Or.inl rfl)
  all_goals try trivial
  all_goals try (simp_all [WOk, owes, WPc.holds, WPc.holdsSh, WPc.holdsEx]; done)
  all_goals first
    | (intro hh; have := hexc hh i hi; rw [hpc] at this; simp [WPc.holds, WPc.holdsSh, WPc.holdsEx] at this; done)
    | (intro hh; simp [Pool.freeForBoot, Pool.freeForShared, hh] at hfree; done)
    | (intro hh; have := hexc (by rw [hh]; rfl) i hi; rw [hpc] at this
       simp [WPc.holds, WPc.holdsSh, WPc.holdsEx] at this; done)
    | (cases s.mpc <;> simp [wakeMain]; done)
    | (revert hfree; cases s.stop <;> simp [WOk]; done)

theorem wakeWorker_owes (p : WPc) (c : Nat) : owes (wakeWorker p) c = owes p c := by
  cases p <;> rfl
theorem wakeWorker_holds (p : WPc) : (wakeWorker p).holds = p.holds := by
  cases p <;> rfl

theorem invA_stepMain {cfg : Cfg} {s s' : Pool} (h : InvA cfg s) 
    (hs : s.stepMain cfg = some s') : InvA cfg s' := by
  have hstp := h.stp
  have hcin := h.cin
  unfold Pool.stepMain at hs
  split at hs <;> rename_i hpc <;> rw [hpc] at hstp hcin
  all_goals try (contradiction)
  case h_4 => -- inlined
    obtain rfl := Option.some.inj hs
    apply invA_mpc h <;> simp_all [Pool.ret, MPc.stopped, MPc.quiet, MPc.isNotify, MPc.holds, MPc.joining]
  case h_5 => -- lock
    split at hs
    · obtain rfl := Option.some.inj hs
      apply invA_mpc h <;> simp_all [Pool.ret, MPc.stopped, MPc.quiet, MPc.isNotify, MPc.holds, MPc.joining]
    · contradiction
  case h_6 => -- order
    obtain rfl := Option.some.inj hs
    have hq := h.quiet (by rw [hpc]; rfl)
    have hx := h.excl (by rw [hpc]; rfl)
    have hc1 := inlined_false (hcin (Or.inr rfl))
    have hg : ∀ i, i < cfg.n → ((s.order cfg).ranges i) =
        if i < workingCnt cfg.n s.cur.cnt s.cur.useN then plan cfg.n s.cur.cnt s.cur.useN i
        else { s.ranges i with cnt := 0 } :=
      fun i hi => partition_get s.ranges cfg.n s.cur.cnt s.cur.useN h.tid i hi
    have hpcs : ∀ i, i < cfg.n → s.wpc i = .lock ∨ s.wpc i = .blocked ∨ s.wpc i = .woken := by
      intro i hi
      have h1 := hq i hi; have h2 := hx i hi; have h3 := h.wok i hi
      rw [hstp] at h3
      revert h1 h2 h3
      cases s.wpc i <;> simp [owes, WPc.holds, WPc.holdsSh, WPc.holdsEx, WOk, MPc.stopped] <;> omega
    have ho : ∀ i, i < cfg.n → owes ((s.order cfg).wpc i) ((s.order cfg).ranges i).cnt =
        if i < workingCnt cfg.n s.cur.cnt s.cur.useN then 1 else 0 := by
      intro i hi
      rw [hg i hi]
      have hp := plan_cnt_pos cfg.n s.cur.cnt s.cur.useN i hc1
      show owes (s.wpc i) _ = _
      rcases hpcs i hi with e | e | e <;> rw [e] <;> simp only [owes] <;> split <;> simp [hp]
    have hmpc : ∃ o, (s.order cfg).mpc = .notify o := ⟨_, rfl⟩
    obtain ⟨o, hmo⟩ := hmpc
    constructor <;> (try rw [hmo])
    · intro i hi
      rw [hg i hi]; split
      · rfl
      · exact h.tid i hi
    · rw [sumN_congr ho]
      show (workingCnt cfg.n s.cur.cnt s.cur.useN : Int) = _
      rw [sumN_split (workingCnt_le cfg.n s.cur.cnt s.cur.useN) (fun j h1 _ => by simp; omega)]
      have : ∀ w, sumN w (fun i => if i < w then 1 else 0) = w := by
        intro w
        rw [sumN_congr (g := fun _ => 1) (fun j hj => by simp [hj])]
        induction w with
        | zero => rfl
        | succ n ih => simp [sumN, ih]
      rw [this]
    · intro _; exact hx
    · simp [MPc.quiet]
    · intro i hi
      show WOk _ _ (s.wpc i) _
      rcases hpcs i hi with e | e | e <;> rw [e] <;> simp [WOk, MPc.isNotify]
    · exact hstp
    · simp
    · simp
    · intro hl
      have := h.lst hl; rw [hpc] at this; cases this
    · simp [MPc.joining]
    · simp
    · simp
    · simp
  case h_7 o => -- notify
    obtain rfl := Option.some.inj hs
    constructor <;> dsimp only
    · exact h.tid
    · simp only [wakeWorker_owes]; exact h.work
    · intro _ i hi; rw [wakeWorker_holds]; exact h.excl (by rw [hpc]; rfl) i hi
    · simp [MPc.quiet]
    · intro i hi
      have := h.wok i hi
      revert this
      cases s.wpc i <;> simp [WOk, wakeWorker]
    · exact hstp
    · simp
    · simp
    · intro hl
      have := h.lst hl; rw [hpc] at this; cases this
    · simp [MPc.joining]
    · simp
    · simp
    · simp
  case h_8 => -- unlock
    obtain rfl := Option.some.inj hs
    apply invA_mpc h <;> simp_all [Pool.ret, MPc.stopped, MPc.quiet, MPc.isNotify, MPc.holds, MPc.joining]
  case h_9 => -- own
    obtain rfl := Option.some.inj hs
    apply invA_mpc h <;> simp_all [Pool.ret, MPc.stopped, MPc.quiet, MPc.isNotify, MPc.holds, MPc.joining]
  case h_10 => -- check
    split at hs <;> obtain rfl := Option.some.inj hs <;>
    apply invA_mpc h <;> simp_all [Pool.ret, MPc.stopped, MPc.quiet, MPc.isNotify, MPc.holds, MPc.joining]
  case h_11 => -- wlock
    split at hs
    · obtain rfl := Option.some.inj hs
      apply invA_mpc h <;> simp_all [Pool.ret, MPc.stopped, MPc.quiet, MPc.isNotify, MPc.holds, MPc.joining]
    · contradiction
  case h_12 => -- wwoken
    split at hs
    · obtain rfl := Option.some.inj hs
      apply invA_mpc h <;> simp_all [Pool.ret, MPc.stopped, MPc.quiet, MPc.isNotify, MPc.holds, MPc.joining]
    · contradiction
  case h_13 => -- wtest
    obtain rfl := Option.some.inj hs
    by_cases hw : s.working ≤ 0 <;> simp only [hw, if_true, if_false] <;>
    apply invA_mpc h <;> simp_all [Pool.ret, MPc.stopped, MPc.quiet, MPc.isNotify, MPc.holds, MPc.joining]
  case h_14 => -- wsleep
    obtain rfl := Option.some.inj hs
    apply invA_mpc h <;> simp_all [Pool.ret, MPc.stopped, MPc.quiet, MPc.isNotify, MPc.holds, MPc.joining]
  case h_15 => -- wunl
    split at hs <;> obtain rfl := Option.some.inj hs <;>
    apply invA_mpc h <;> simp_all [Pool.ret, MPc.stopped, MPc.quiet, MPc.isNotify, MPc.holds, MPc.joining]
  case h_16 => -- dstop
    obtain rfl := Option.some.inj hs
    apply invA_mpc h <;> simp_all [Pool.ret, MPc.stopped, MPc.quiet, MPc.isNotify, MPc.holds, MPc.joining]
  case h_17 => -- dnotify
    obtain rfl := Option.some.inj hs
    constructor <;> dsimp only
    · exact h.tid
    · simp only [wakeWorker_owes]; exact h.work
    · simp [MPc.holds]
    · intro _ i hi; rw [wakeWorker_owes]; exact h.quiet (by rw [hpc]; rfl) i hi
    · intro i hi
      have h1 := h.wok i hi
      have h2 := h.quiet (by rw [hpc]; rfl) i hi
      revert h1 h2
      cases s.wpc i <;> simp [WOk, wakeWorker, owes] <;> intros <;> simp_all
    · exact hstp
    · simp
    · simp
    · simp [MPc.joining]
    · intro _ hl i hi
      simp only [decide_eq_false_iff_not, not_exists, not_and] at hl
      have := hl i hi
      revert this
      cases s.wpc i <;> simp [wakeWorker]
    · simp
    · simp
    · simp
  case h_18 k => -- join
    split at hs
    · split at hs
      · obtain rfl := Option.some.inj hs
        have := h.joi k hpc
        apply invA_mpc h <;> simp_all [Pool.ret, MPc.stopped, MPc.quiet, MPc.isNotify, MPc.holds, MPc.joining]
        intro i hi hik
        by_cases e : i = k
        · subst e; assumption
        · exact this i hi (by omega)
      · contradiction
    · obtain rfl := Option.some.inj hs
      have := h.joi k hpc
      apply invA_mpc h <;> simp_all [Pool.ret, MPc.stopped, MPc.quiet, MPc.isNotify, MPc.holds, MPc.joining]
      intro i hi
      exact this i hi (by omega)

theorem invA_step {cfg : Cfg} {s s' : Pool} (h : InvA cfg s) (a : Act) 
    (hs : s.step cfg a = some s') : InvA cfg s' := by
  have hstp := h.stp
  cases a with
  | call c =>
    simp only [Pool.step] at hs
    split at hs
    · rename_i hpc
      rw [hpc] at hstp
      obtain rfl := Option.some.inj hs
      cases hc : c.inlined <;>
      apply invA_mpc h <;> simp_all [MPc.stopped, MPc.quiet, MPc.isNotify, MPc.holds, MPc.joining]
    · contradiction
  | destroy =>
    simp only [Pool.step] at hs
    split at hs
    · rename_i hpc
      rw [hpc] at hstp
      obtain rfl := Option.some.inj hs
      apply invA_mpc h <;> simp_all [MPc.stopped, MPc.quiet, MPc.isNotify, MPc.holds, MPc.joining]
    · contradiction
  | main => exact invA_stepMain h hs
  | worker i =>
    simp only [Pool.step] at hs
    split at hs
    · exact invA_stepWorker h i (by assumption) hs
    · contradiction
  | spurMain =>
    simp only [Pool.step] at hs
    split at hs
    · rename_i hpc
      rw [hpc] at hstp
      obtain rfl := Option.some.inj hs
      apply invA_mpc h <;> simp_all [MPc.stopped, MPc.quiet, MPc.isNotify, MPc.holds, MPc.joining]
    · contradiction
  | spur i =>
    simp only [Pool.step] at hs
    split at hs
    · rename_i hpc
      obtain ⟨hi, hpc⟩ := hpc
      obtain rfl := Option.some.inj hs
      have := h.excl
      have := h.tid i hi
      apply invA_worker h i hi <;> simp_all [setW, WOk, owes, WPc.holds, WPc.holdsSh, WPc.holdsEx]
    · contradiction

theorem invA_exec {cfg : Cfg} : ∀ (as : List Act) {s s' : Pool}, InvA cfg s → s.exec cfg as = some s' → InvA cfg s'
  | [], s, s', h, he => by cases he; exact h
  | a :: as, s, s', h, he => by
    simp only [Pool.exec, Option.bind_eq_some_iff] at he
    obtain ⟨t, h1, h2⟩ := he
    exact invA_exec as (invA_step h a h1) h2

theorem invA_reachable {cfg : Cfg} {s : Pool} (h : Reachable cfg s) : InvA cfg s := by
  obtain ⟨as, h⟩ := h
  exact invA_exec as (invA_init cfg) h

end Nntl.Threads
