import Verif.Threads.PoolLog
set_option linter.unusedSimpArgs false
namespace Nntl.Threads

theorem worker_holder_enabled {cfg : Cfg} {s : Pool} {i : Nat} (h : (s.wpc i).holds = true) :
    (s.stepWorker cfg i).isSome = true := by
  unfold Pool.stepWorker
  revert h
  cases s.wpc i <;> simp [WPc.holds, WPc.holdsSh, WPc.holdsEx]

theorem worker_enabled {cfg : Cfg} {s : Pool} {i : Nat} (hm : s.mpc.holds = false)
    (hw : ∀ j, j < cfg.n → (s.wpc j).holds = false) (h1 : s.wpc i ≠ .blocked) (h2 : s.wpc i ≠ .done) :
    (s.stepWorker cfg i).isSome = true := by
  have hb : s.freeForBoot cfg = true := by
    simp only [Pool.freeForBoot, hm, Bool.not_false, Bool.true_and, decide_eq_true_eq]; exact hw
  have hs : s.freeForShared cfg = true := by
    have : ∀ j, j < cfg.n → (s.wpc j).holdsEx = false := by
      intro j hj
      have := hw j hj
      simp [WPc.holds] at this; exact this.2
    simp only [Pool.freeForShared, hm, Bool.not_false, Bool.true_and, Bool.and_eq_true, Bool.or_eq_true,
      decide_eq_true_eq]
    exact ⟨this, Or.inr hw⟩
  unfold Pool.stepWorker
  rw [hb, hs]
  revert h1 h2
  cases s.wpc i <;> simp

theorem progress {cfg : Cfg} {s : Pool} (h : InvA cfg s) (h1 : s.mpc ≠ .idle) (h2 : s.mpc ≠ .gone)
    (hl : s.lost = false) :
    (s.step cfg .main).isSome = true ∨ ∃ i, i < cfg.n ∧ (s.step cfg (.worker i)).isSome = true := by
  by_cases hh : ∃ i, i < cfg.n ∧ (s.wpc i).holds = true
  · obtain ⟨i, hi, hh⟩ := hh
    refine Or.inr ⟨i, hi, ?_⟩
    simp only [Pool.step, hi, if_true]
    exact worker_holder_enabled hh
  · have hw : ∀ j, j < cfg.n → (s.wpc j).holds = false := by
      intro j hj
      cases e : (s.wpc j).holds
      · rfl
      · exact absurd ⟨j, hj, e⟩ hh
    have hfm : s.freeForMain cfg = true := by simp only [Pool.freeForMain, decide_eq_true_eq]; exact hw
    have hstp := h.stp
    cases hm : s.mpc with
    | idle => exact absurd hm h1
    | gone => exact absurd hm h2
    | wblocked =>
      right
      rcases h.wbl hm with hp | ⟨i, hi, hp⟩
      · have hw0 := h.work
        obtain ⟨i, hi, ho⟩ := sumN_pos (n := cfg.n) (f := fun i => owes (s.wpc i) (s.ranges i).cnt) (by omega)
        refine ⟨i, hi, ?_⟩
        simp only [Pool.step, hi, if_true]
        have hwok := h.wok i hi
        rw [hm] at hwok hstp
        apply worker_enabled (by rw [hm]; rfl) hw
        · intro e
          rw [e] at hwok ho
          simp [WOk, MPc.isNotify] at hwok
          simp [owes, hwok] at ho
        · intro e
          rw [e] at hwok
          simp [WOk, hstp, MPc.stopped] at hwok
      · have := hw i hi
        rcases hp with hp | hp <;> rw [hp] at this <;> cases this
    | join k =>
      by_cases hk : k < cfg.n
      · by_cases hd : s.wpc k = .done
        · left; simp [Pool.step, Pool.stepMain, hm, hk, hd]
        · right
          refine ⟨k, hk, ?_⟩
          simp only [Pool.step, hk, if_true]
          exact worker_enabled (by rw [hm]; rfl) hw (h.nst (by rw [hm]; rfl) hl k hk).2 hd
      · left; simp [Pool.step, Pool.stepMain, hm, hk]
    | check => left; simp only [Pool.step, Pool.stepMain, hm]; split <;> rfl
    | wunl => left; simp only [Pool.step, Pool.stepMain, hm]; split <;> rfl
    | _ => left; simp [Pool.step, Pool.stepMain, hm, hfm]

/-! ### Termination measure -/

def wt0 : WPc → Nat
  | .boot => 12 | .bootDec => 11 | .bootNtf => 10 | .bootUnl => 5
  | .lock => 4 | .woken => 4 | .test => 3 | .unl => 2 | .sleep => 1 | .chkStop => 1
  | .blocked => 0 | .done => 0
  | .dec => 11 | .ntf => 10 | .unl2 => 5
  | _ => 0
def wt1 : WPc → Nat
  | .lock => 18 | .woken => 18 | .blocked => 18 | .test => 17 | .unl => 16 | .chkStop => 15 | .work => 14
  | .lock2 => 13 | .clr => 12
  | _ => 0
def wt (pc : WPc) (c : Nat) : Nat := if c = 0 then wt0 pc else wt1 pc

def mt (n : Nat) : MPc → Nat
  | .idle | .gone | .wblocked => 0
  | .inlined => 1
  | .wsleep => 1 | .wunl => 2 | .wtest => 3 | .wlock => 4 | .wwoken => 4 | .check => 5
  | .own _ => 6 | .unlock _ => 7 | .notify _ => 8 + 4 * n | .order => 9 + 22 * n | .lock => 10 + 22 * n
  | .join k => (n - k) + 1 | .dnotify => 5 * n + 2 | .dstop => 5 * n + 3

/-- Number of steps the threads can make before everything is at rest (upper bound). -/
def Pool.fuel (cfg : Cfg) (s : Pool) : Nat :=
  mt cfg.n s.mpc + sumN cfg.n (fun i => wt (s.wpc i) (s.ranges i).cnt)

theorem wt_le (pc : WPc) (c : Nat) : wt pc c ≤ 18 := by
  unfold wt; split <;> cases pc <;> simp [wt0, wt1]
theorem wt_wake (pc : WPc) (c : Nat) : wt (wakeWorker pc) c ≤ wt pc c + 4 := by
  cases pc <;> simp [wakeWorker, wt]; split <;> simp [wt0, wt1]
theorem mt_wake (n : Nat) (m : MPc) : mt n (wakeMain m) ≤ mt n m + 4 := by
  cases m <;> simp [wakeMain, mt]

theorem fuel_worker {cfg : Cfg} {s s' : Pool} {i k : Nat} (hi : i < cfg.n)
    (hw : ∀ j, j ≠ i → s'.wpc j = s.wpc j) (hr : ∀ j, j ≠ i → s'.ranges j = s.ranges j)
    (hm : mt cfg.n s'.mpc ≤ mt cfg.n s.mpc + k)
    (h : wt (s'.wpc i) (s'.ranges i).cnt + k < wt (s.wpc i) (s.ranges i).cnt) : s'.fuel cfg < s.fuel cfg := by
  have := sumN_update (f := fun i => wt (s.wpc i) (s.ranges i).cnt)
      (g := fun i => wt (s'.wpc i) (s'.ranges i).cnt) hi
      (fun j _ hne => by rw [hw j hne, hr j hne])
  unfold Pool.fuel
  omega

theorem fuel_stepWorker {cfg : Cfg} {s s' : Pool} (h : InvA cfg s) (i : Nat) (hi : i < cfg.n)
    (hs : s.stepWorker cfg i = some s') : s'.fuel cfg < s.fuel cfg := by
  have hwok := h.wok i hi
  unfold Pool.stepWorker at hs
  split at hs <;> rename_i hpc <;> rw [hpc] at hwok
  all_goals try (split at hs <;> rename_i hfree)
  all_goals try (contradiction)
  all_goals (obtain rfl := Option.some.inj hs)
  case h_5 => exact fuel_worker (k := 4) hi (fun j hj => by simp only [setW_ne _ _ _ _ hj]) (fun j hj => rfl)
                (mt_wake _ _) (by simp only [WOk] at hwok; simp [setW_self, hpc, wt, wt0, wt1, hwok])
  case h_17 => exact fuel_worker (k := 4) hi (fun j hj => by simp only [setW_ne _ _ _ _ hj]) (fun j hj => rfl)
                (mt_wake _ _) (by simp only [WOk] at hwok; simp [setW_self, hpc, wt, wt0, wt1, hwok])
  all_goals apply fuel_worker (k := 0) hi
  all_goals try (intro j hj; simp only [setW_ne _ _ _ _ hj]; done)
  all_goals simp only [setW_self, hpc]
  all_goals try (exact Nat.le_refl _)
  all_goals simp only [WOk] at hwok
  all_goals first
    | (simp [wt, wt0, wt1, hwok]; done)
    | (simp [wt]; split <;> simp_all [wt0, wt1]; done)
    | (simp [wt]; split <;> split <;> simp_all [wt0, wt1]; done)

theorem fuel_stepMain {cfg : Cfg} {s s' : Pool}
    (hs : s.stepMain cfg = some s') : s'.fuel cfg < s.fuel cfg := by
  unfold Pool.stepMain at hs
  split at hs <;> rename_i hpc
  all_goals try (contradiction)
  case h_6 =>
    obtain rfl := Option.some.inj hs
    have hmpc : ∃ o, (s.order cfg).mpc = .notify o := ⟨_, rfl⟩
    obtain ⟨o, hmo⟩ := hmpc
    have := sumN_le_mul (n := cfg.n) (k := 18) (f := fun i => wt ((s.order cfg).wpc i) ((s.order cfg).ranges i).cnt)
      (g := fun i => wt (s.wpc i) (s.ranges i).cnt) (fun j _ => by have := wt_le ((s.order cfg).wpc j) ((s.order cfg).ranges j).cnt; omega)
    unfold Pool.fuel
    rw [hmo, hpc]
    simp only [mt] at *
    omega
  case h_7 =>
    obtain rfl := Option.some.inj hs
    have := sumN_le_mul (n := cfg.n) (k := 4) (f := fun i => wt (wakeWorker (s.wpc i)) (s.ranges i).cnt)
      (g := fun i => wt (s.wpc i) (s.ranges i).cnt) (fun j _ => wt_wake _ _)
    unfold Pool.fuel
    rw [hpc]
    simp only [mt] at *
    omega
  case h_17 =>
    obtain rfl := Option.some.inj hs
    have := sumN_le_mul (n := cfg.n) (k := 4) (f := fun i => wt (wakeWorker (s.wpc i)) (s.ranges i).cnt)
      (g := fun i => wt (s.wpc i) (s.ranges i).cnt) (fun j _ => wt_wake _ _)
    unfold Pool.fuel
    rw [hpc]
    simp only [mt] at *
    omega
  case h_18 =>
    split at hs
    · split at hs
      · obtain rfl := Option.some.inj hs
        unfold Pool.fuel
        rw [hpc]
        simp only [mt] at *
        omega
      · contradiction
    · obtain rfl := Option.some.inj hs
      unfold Pool.fuel
      rw [hpc]
      simp only [mt] at *
      omega
  all_goals try (split at hs <;> rename_i hfree)
  all_goals try (contradiction)
  all_goals (obtain rfl := Option.some.inj hs)
  all_goals (unfold Pool.fuel; rw [hpc])
  all_goals simp only [mt, Pool.ret] at *
  all_goals omega

def Act.isThread : Act → Bool
  | .main | .worker _ => true
  | _ => false
def Act.isSpurious : Act → Bool
  | .spurMain | .spur _ => true
  | _ => false

theorem fuel_thread {cfg : Cfg} {s s' : Pool} (h : InvA cfg s) (a : Act) (ha : a.isThread = true)
    (hs : s.step cfg a = some s') : s'.fuel cfg < s.fuel cfg := by
  cases a with
  | main => exact fuel_stepMain hs
  | worker i =>
    simp only [Pool.step] at hs
    split at hs
    · exact fuel_stepWorker h i (by assumption) hs
    · contradiction
  | _ => cases ha

theorem fuel_spur {cfg : Cfg} {s s' : Pool} (a : Act) (ha : a.isSpurious = true)
    (hs : s.step cfg a = some s') : s'.fuel cfg ≤ s.fuel cfg + 4 := by
  cases a with
  | spurMain =>
    simp only [Pool.step] at hs
    split at hs
    · rename_i hpc
      obtain rfl := Option.some.inj hs
      unfold Pool.fuel; rw [hpc]; simp only [mt]; omega
    · contradiction
  | spur i =>
    simp only [Pool.step] at hs
    split at hs
    · rename_i hpc
      obtain ⟨hi, hpc⟩ := hpc
      obtain rfl := Option.some.inj hs
      have := sumN_update (f := fun j => wt (s.wpc j) (s.ranges j).cnt)
        (g := fun j => wt (setW s.wpc i .woken j) (s.ranges j).cnt) hi
        (fun j _ hne => by rw [setW_ne _ _ _ _ hne])
      have h2 : wt .woken (s.ranges i).cnt ≤ wt .blocked (s.ranges i).cnt + 4 := by
        unfold wt; split <;> simp [wt0, wt1]
      unfold Pool.fuel
      simp only [setW_self, hpc] at *
      omega
    · contradiction
  | _ => cases ha

end Nntl.Threads
