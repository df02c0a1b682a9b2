import Verif.BgWork.Tasks
/-! Lemmas about progress and termination. -/
namespace Nntl.BgWork
open Finset
variable {cfg : Cfg} {s s' : S} {i : Nat}

/-- A worker that owns the lock is never stuck. -/
theorem holder_steps (I : Inv cfg s) (hi : i < cfg.n) (h : (s.wpc i).holds = true) : ∃ s', WStep cfg s i s' := by
  have T := I.tsk i
  generalize hw : s.wpc i = w at h
  cases w <;> simp [WPc.holds] at h
  case bootDec => exact ⟨_, .bootDec hw⟩
  case bootNtf => exact ⟨_, .bootNtf hw⟩
  case bootUnl => exact ⟨_, .bootUnl hw⟩
  case unl => exact ⟨_, .unl hw⟩
  case clr => exact ⟨_, .clr hw⟩
  case dec => exact ⟨_, .dec hw⟩
  case ntf => exact ⟨_, .ntf hw⟩
  case unl2 => exact ⟨_, .unl2 hw⟩
  case pick k =>
    by_cases hg : s.go = false ∧ k < s.tasks.length
    · exact ⟨_, .pick k hw hg.1 hg.2⟩
    · refine ⟨_, .pickEnd k hw ?_⟩
      by_cases hgo : s.go = true
      · exact .inl hgo
      · right; simp at hgo; by_contra h; exact hg ⟨hgo, by omega⟩
  case loop k =>
    by_cases hg : s.go = true
    · exact ⟨_, .loopGo k hw hg⟩
    · have hl := T k hi (.inl hw)
      exact ⟨_, .loop k _ _ hw (by simpa using hg) (List.getElem?_eq_getElem hl)⟩
  case task k =>
    have hl := T k hi (.inr hw)
    exact ⟨_, .taskFalse k _ _ hw (List.getElem?_eq_getElem hl)⟩
  case unlT => exact ⟨_, .unlT hw⟩

/-- A worker that has not finished the function is never stuck when the main thread does not own the lock; nor is one that has to stop. -/
theorem pending_steps (I : Inv cfg s) (hi : i < cfg.n) (hm : s.mpc.holds = false) (hd : s.wpc i ≠ .done)
    (hp : s.has i = true ∨ s.stop = true ∨ s.wpc i = .dec ∨ (s.wpc i).booting = true) : ∃ s', WStep cfg s i s' := by
  by_cases hh : (s.wpc i).holds = true
  · exact holder_steps I hi hh
  · have E := exec_cid I hi
    generalize hw : s.wpc i = w at hh hp hd E
    cases w <;> simp [WPc.holds, WPc.booting] at hh hp hd E
    case boot => exact ⟨_, .boot hw hm⟩
    case wait =>
      refine ⟨_, .wait false hw hm ?_⟩
      rcases hp with h | h
      · exact .inr (.inr (.inr h))
      · exact .inr (.inl h)
    case chkStop =>
      by_cases hs : s.stop = true
      · exact ⟨_, .stopYes hw hs⟩
      · exact ⟨_, .stopNo hw (by simpa using hs)⟩
    case chkExec =>
      by_cases hs : s.has i = true
      · exact ⟨_, .execYes hw hs⟩
      · exact ⟨_, .execNo hw (by simpa using hs)⟩
    case exec => exact ⟨_, .exec _ hw (I.fnok E)⟩
    case run f => exact ⟨_, .run f hw⟩
    case execL => exact ⟨_, .execL hw hm⟩
    case lockT => exact ⟨_, .lockT hw hm⟩

theorem cnt_pos {n : Nat} {w : Nat → WPc} {h : Nat → Bool} (hs : 0 < ∑ j ∈ range n, pend (w j) (h j)) :
    ∃ i, i < n ∧ (h i = true ∨ w i = .dec ∨ (w i).booting = true) := by
  by_contra hn
  push Not at hn
  have : ∑ j ∈ range n, pend (w j) (h j) = 0 := by
    apply sum_eq_zero
    intro j hj
    have := hn j (mem_range.1 hj)
    simp only [pend]; rw [if_neg]; tauto
  omega

/-- In any state in which the main thread is inside a function of the interface, somebody can act. -/
theorem can_step (I : Inv cfg s) (h1 : s.mpc ≠ .idle) (h2 : s.mpc ≠ .gone) : ∃ a s', (∀ c, a ≠ .user c) ∧ Step cfg s a s' := by
  have mk : (∃ s', MStep cfg s s') → ∃ a s', (∀ c, a ≠ .user c) ∧ Step cfg s a s' :=
    fun ⟨s', h⟩ => ⟨.main, s', by simp, .main h⟩
  have wk : (∃ i, i < cfg.n ∧ ∃ s', WStep cfg s i s') → ∃ a s', (∀ c, a ≠ .user c) ∧ Step cfg s a s' :=
    fun ⟨i, hi, s', h⟩ => ⟨.worker i, s', by simp, .worker i hi h⟩
  have lk : (Free cfg s → ∃ s', MStep cfg s s') → ∃ a s', (∀ c, a ≠ .user c) ∧ Step cfg s a s' := by
    intro h
    by_cases hf : Free cfg s
    · exact mk (h hf)
    · unfold Free at hf; push Not at hf
      obtain ⟨i, hi, hh⟩ := hf
      exact wk ⟨i, hi, holder_steps I hi (by simpa using hh)⟩
  generalize hm : s.mpc = m at h1 h2
  cases m with
  | idle => exact absurd rfl h1
  | gone => exact absurd rfl h2
  | dFlag o => exact mk ⟨_, .dFlag o hm⟩
  | dLock o => exact lk fun hf => ⟨_, .dLock o hm hf⟩
  | dDo o =>
    cases o with
    | add t p =>
      have : ∃ new : List (Nat × Int), new.Perm (s.tasks ++ [(t, p)]) ∧ new.Pairwise fun a b => a.2 ≥ b.2 := by
        refine ⟨(s.tasks ++ [(t, p)]).mergeSort (fun a b => decide (a.2 ≥ b.2)), List.mergeSort_perm _ _, ?_⟩
        have := List.pairwise_mergeSort (le := fun a b : Nat × Int => decide (a.2 ≥ b.2)) (by intro a b c; simp; omega) (by intro a b; simp; omega)
          (s.tasks ++ [(t, p)])
        exact this.imp (by simp)
      obtain ⟨new, h⟩ := this
      exact mk ⟨_, .dDo _ new hm h⟩
    | del => exact mk ⟨_, .dDo _ [] hm rfl⟩
    | other => exact mk ⟨_, .dDo _ s.tasks hm rfl⟩
  | dGo => exact mk ⟨_, .dGo hm⟩
  | dUnl => exact mk ⟨_, .dUnl hm⟩
  | eFlag => exact mk ⟨_, .eFlag hm⟩
  | eLock => exact lk fun hf => ⟨_, .eLock hm hf⟩
  | eFn => exact mk ⟨_, .eFn hm⟩
  | eSet k =>
    by_cases hk : k < cfg.n
    · exact mk ⟨_, .eSet k hm hk⟩
    · exact mk ⟨_, .eSetEnd k hm (by omega)⟩
  | eCnt => exact mk ⟨_, .eCnt hm⟩
  | eGo => exact mk ⟨_, .eGo hm⟩
  | eUnl => exact mk ⟨_, .eUnl hm⟩
  | wlock e => exact lk fun hf => ⟨_, .wlock e hm hf⟩
  | wtest e =>
    by_cases hc : s.cnt ≤ 0
    · exact mk ⟨_, .wtestYes e hm hc⟩
    · exact mk ⟨_, .wtestNo e hm (by omega)⟩
  | wsleep e => exact mk ⟨_, .wsleep e hm⟩
  | wblocked e => exact mk ⟨_, .spurious e hm⟩
  | wwoken e => exact lk fun hf => ⟨_, .wwoken e hm hf⟩
  | wunl e => cases e
              · exact mk ⟨_, .wunlCtor hm⟩
              · exact mk ⟨_, .wunlExec hm⟩
  | eReset => exact mk ⟨_, .eReset hm⟩
  | xStop => exact mk ⟨_, .xStop hm⟩
  | xGo => exact mk ⟨_, .xGo hm⟩
  | xNtf => exact mk ⟨_, .xNtf hm⟩
  | join k =>
    by_cases hk : k < cfg.n
    · by_cases hd : s.wpc k = .done
      · exact mk ⟨_, .join k hm hk hd⟩
      · refine wk ⟨k, hk, pending_steps I hk (by rw [hm]; rfl) hd (.inr (.inl ?_))⟩
        exact I.stp.2 (.inr (.inr (.inl ⟨k, hm⟩)))
    · exact mk ⟨_, .joinEnd k hm (by omega)⟩

/-- While the main thread waits without having been woken up, some worker can act (no lost wake-up). -/
theorem blocked_worker (I : Inv cfg s) {e} (hm : s.mpc = .wblocked e) : ∃ i, i < cfg.n ∧ ∃ s', WStep cfg s i s' := by
  rcases I.blk e hm with h | ⟨i, hi, h⟩
  · rw [I.cnt (by rw [hm]; rfl)] at h
    obtain ⟨i, hi, hp⟩ := cnt_pos h
    refine ⟨i, hi, pending_steps I hi (by rw [hm]; rfl) ?_ ?_⟩
    · intro hd
      have := I.stp.1 (I.dne i hi hd)
      simp [hm] at this
    · tauto
  · exact ⟨i, hi, holder_steps I hi (by rcases h with h | h <;> rw [h] <;> rfl)⟩

/-! ### The destructor terminates -/

def stopRank : WPc → Nat
  | .done => 0 | .chkStop => 1 | .unl => 2 | .wait => 3 | .unlT => 4 | .pick _ => 5 | .loop _ => 6 | .task _ => 7 | .lockT => 6
  | .unl2 => 4 | .ntf => 5 | .dec => 6 | .clr => 7 | .execL => 8 | .run _ => 9 | .exec => 10 | .chkExec => 11
  | .bootUnl => 4 | .bootNtf => 5 | .bootDec => 6 | .boot => 7

theorem stopRank_le (w) : stopRank w ≤ 11 := by cases w <;> simp [stopRank]

def joinRank (n : Nat) : MPc → Nat
  | .xNtf => n + 2
  | .join k => (n - k) + 1
  | _ => 0

def mu (cfg : Cfg) (s : S) : Nat := ∑ i ∈ range cfg.n, stopRank (s.wpc i) + joinRank cfg.n s.mpc

theorem sum_rank_set {n : Nat} (hi : i < n) (w : Nat → WPc) (v : WPc) (f : WPc → Nat) :
    ∑ j ∈ range n, f (set w i v j) + f (w i) = (∑ j ∈ range n, f (w j)) + f v := by
  have hm := mem_range.2 hi
  rw [← sum_erase_add _ _ hm, ← sum_erase_add (a := i) (range n) (fun j => f (w j)) hm]
  have : ∑ j ∈ (range n).erase i, f (set w i v j) = ∑ j ∈ (range n).erase i, f (w j) := by
    apply sum_congr rfl
    intro j hj
    rw [set_ne _ _ (mem_erase.1 hj).1]
  rw [this]; simp; omega

theorem stop_rank_lt (hw : WStep cfg s i s') (hs : s.stop = true) (hg : s.go = true) :
    ∃ v, s'.wpc = set s.wpc i v ∧ stopRank v < stopRank (s.wpc i) := by
  cases hw <;> first
    | (simp_all; done)
    | exact ⟨_, rfl, by simp [stopRank, *]⟩

theorem mu_lt {a} (h : Step cfg s a s') (I : Inv cfg s) (hm : s.mpc = .xNtf ∨ (∃ k, s.mpc = .join k) ∨ s.mpc = .gone) : 
    (s'.mpc = .xNtf ∨ (∃ k, s'.mpc = .join k) ∨ s'.mpc = .gone) ∧ mu cfg s' < mu cfg s := by
  cases h with
  | user hu => cases hu <;> simp_all
  | main hm' =>
    cases hm' <;> simp_all [mu, joinRank]
    omega
  | worker i hi hw =>
    obtain ⟨v, h1, h2⟩ := stop_rank_lt hw (I.stp.2 (.inr hm)) (I.gox hm)
    have hmp : s'.mpc = s.mpc := by
      rcases (w_frame hw).2.2.2.2.2.2 with h | h
      · exact h
      · rw [h]; rcases hm with h | ⟨k, h⟩ | h <;> rw [h] <;> rfl
    refine ⟨by rw [hmp]; exact hm, ?_⟩
    unfold mu
    rw [h1, hmp]
    have := sum_rank_set hi s.wpc v stopRank
    omega

theorem mu_run {l} (h : Run cfg s l s') (hr : Reach cfg s) (hm : s.mpc = .xNtf ∨ (∃ k, s.mpc = .join k) ∨ s.mpc = .gone) :
    (s'.mpc = .xNtf ∨ (∃ k, s'.mpc = .join k) ∨ s'.mpc = .gone) ∧ l.length + mu cfg s' ≤ mu cfg s := by
  induction h with
  | nil => exact ⟨hm, by simp⟩
  | step hrun h ih =>
    obtain ⟨i1, i2⟩ := ih
    obtain ⟨j1, j2⟩ := mu_lt h (inv_reach (hrun.reach hr)) i1
    exact ⟨j1, by simp; omega⟩

/-! ### How long `exec` waits -/

/-- Steps worker `i` has to make until it has reported the end of the function, when the tasks return false. -/
def execRank (L : Nat) : WPc → Nat
  | .dec => 1 | .clr => 2 | .execL => 3 | .run _ => 4 | .exec => 5 | .chkExec => 6 | .chkStop => 7 | .unl => 8 | .wait => 9
  | .unlT | .unl2 | .bootUnl => 10 | .ntf | .bootNtf => 11
  | .pick k => 11 + 3 * (L - k)
  | .loop k => 10 + 3 * (L - k)
  | .task k => 9 + 3 * (L - k)
  | .lockT => 12 + 3 * L
  | .bootDec => 12 | .boot => 13 | .done => 0

theorem exec_rank_step (hw : WStep cfg s i s') (I : Inv cfg s) (hi : i < cfg.n) (hp : s.has i = true ∨ s.wpc i = .dec)
    (hs : s.stop = false) :
    execRank s.tasks.length (s'.wpc i) + 1 + 2 * trues i s.log ≤ execRank s.tasks.length (s.wpc i) + 2 * trues i s'.log ∨ s.wpc i = .dec := by
  have T := I.tsk i
  cases hw with
  | taskTrue k t p h1 h2 =>
    left
    simp [execRank, h1, trues, List.countP_cons]; omega
  | taskFalse k t p h1 h2 =>
    have := T k hi (.inr h1)
    left
    simp [execRank, h1, trues, List.countP_cons]; omega
  | loopGo k h1 h2 =>
    have := T k hi (.inl h1)
    left
    simp [execRank, h1, trues]; omega
  | loop k t p h1 h2 h3 =>
    have := T k hi (.inl h1)
    left
    simp [execRank, h1, trues, List.countP_cons]
  | pick k h1 h2 h3 => left; simp [execRank, h1, trues]; try omega
  | pickEnd k h1 h2 => left; simp [execRank, h1, trues]; try omega
  | execNo h1 h2 => simp_all
  | dec h1 => exact .inr h1
  | stopYes h1 h2 => simp_all
  | _ => left; simp [execRank, trues, List.countP_cons, *]

/-- Waiting in `exec`. -/
def waiting : MPc → Bool
  | .wlock true | .wtest true | .wsleep true | .wblocked true | .wwoken true | .wunl true => true
  | _ => false

def publishing : MPc → Bool
  | .eFlag | .eLock | .eFn | .eSet _ | .eCnt | .eGo | .eUnl => true
  | _ => false

@[simp] theorem waiting_wlock (e) : waiting (.wlock e) = e := by cases e <;> rfl
@[simp] theorem waiting_wtest (e) : waiting (.wtest e) = e := by cases e <;> rfl
@[simp] theorem waiting_wsleep (e) : waiting (.wsleep e) = e := by cases e <;> rfl
@[simp] theorem waiting_wblocked (e) : waiting (.wblocked e) = e := by cases e <;> rfl
@[simp] theorem waiting_wwoken (e) : waiting (.wwoken e) = e := by cases e <;> rfl
@[simp] theorem waiting_wunl (e) : waiting (.wunl e) = e := by cases e <;> rfl
@[simp] theorem waiting_wake (m) : waiting (wakeMain m) = waiting m := by cases m <;> simp [wakeMain]
@[simp] theorem publishing_wake (m) : publishing (wakeMain m) = publishing m := by cases m <;> rfl

/-- The worker has not yet reported the end of the function. -/
def Owes (s : S) (i : Nat) : Prop := s.has i = true ∨ s.wpc i = .dec

theorem trues_mine {j : Nat} (h : j ≠ i) {e : Ev} (he : Mine j e) (l) : trues i (e :: l) = trues i l := by
  unfold trues
  rw [List.countP_cons]
  cases e with
  | taskE t j' r => simp [Mine] at he; subst he; cases r <;> simp [h]
  | _ => simp

theorem owes_step {a} (h : Step cfg s a s') (I : Inv cfg s) (hi : i < cfg.n) (hn : publishing s.mpc = false) (ha : a ≠ .user .exec)
    (ho : ¬ Owes s i) : publishing s'.mpc = false ∧ ¬ Owes s' i := by
  unfold Owes at ho ⊢
  push Not at ho ⊢
  cases h with
  | user hu => cases hu <;> simp_all [publishing]
  | main hm => cases hm <;> simp_all [publishing]
  | worker j hj hw =>
    refine ⟨?_, ?_⟩
    · rcases (w_frame hw).2.2.2.2.2.2 with h | h <;> rw [h] <;> simpa using hn
    · by_cases hji : i = j
      · subst hji
        have W := I.wok i hi
        cases hw with
        | clr h1 =>
          have hh : s.has i = true := by
            unfold WOk at W
            split at W <;> simp [h1, WPc.exc] at W
            exact W.2.2.2.1
          simp [hh] at ho
        | _ => simp_all
      · rw [((w_frame hw).1 i hji).1, ((w_frame hw).1 i hji).2]; exact ho

theorem owes_wait_step {a} (h : Step cfg s a s') (I : Inv cfg s) (hi : i < cfg.n) (hw : waiting s.mpc = true) (ho : Owes s i) :
    publishing s'.mpc = false ∧ (¬ Owes s' i ∨ (waiting s'.mpc = true ∧ s'.tasks = s.tasks ∧
      execRank s.tasks.length (s'.wpc i) + stepsOf i [a] + 2 * trues i s.log ≤ execRank s.tasks.length (s.wpc i) + 2 * trues i s'.log)) := by
  have hst : s.stop = false := by
    by_contra h
    have := I.stp.1 (by simpa using h)
    rcases this with h | h | ⟨k, h⟩ | h <;> rw [h] at hw <;> simp [waiting] at hw
  cases h with
  | user hu => cases hu <;> simp_all [waiting]
  | main hm =>
    have Z : ∀ e, s.mpc = .wunl e → ¬ Owes s i := by
      intro e he
      have P := pend_zero (by rw [← I.cnt (by rw [he]; rfl)]; exact I.unl _ he) i hi
      simp [Owes, P]
    cases hm <;> simp_all <;> simp_all [waiting, publishing, stepsOf]
  | worker j hj hw' =>
    refine ⟨?_, ?_⟩
    · rcases (w_frame hw').2.2.2.2.2.2 with h | h <;> rw [h] <;> generalize s.mpc = m at hw <;> cases m <;> simp_all [waiting, publishing, wakeMain]
    · have hwt : waiting s'.mpc = true := by
        rcases (w_frame hw').2.2.2.2.2.2 with h | h <;> rw [h] <;> simpa using hw
      by_cases hji : i = j
      · subst hji
        rcases exec_rank_step hw' I hi ho hst with h | h
        · right
          refine ⟨hwt, (w_frame hw').2.2.2.2.1, ?_⟩
          simp [stepsOf]; omega
        · left
          have W := I.wok i hi
          have hh : s.has i = false := by
            unfold WOk at W
            split at W <;> simp [h, WPc.exc] at W
            exact W.2.2.2.1
          cases hw' <;> simp_all [Owes]
      · right
        refine ⟨hwt, (w_frame hw').2.2.2.2.1, ?_⟩
        rw [((w_frame hw').1 i hji).1]
        have : trues i s'.log = trues i s.log := by
          rcases w_log hw' with h | ⟨e, he, h⟩ <;> rw [h]
          exact trues_mine (Ne.symm hji) he _
        rw [this]
        have : stepsOf i [Actor.worker j] = 0 := by simp [stepsOf, Ne.symm hji]
        omega

theorem stepsOf_cons (a : Actor) (l) : stepsOf i (a :: l) = stepsOf i [a] + stepsOf i l := by
  simp only [stepsOf, List.countP_cons, List.countP_nil]; omega

theorem owes_run {l} (h : Run cfg s l s') (hr : Reach cfg s) (hi : i < cfg.n) (hw : waiting s.mpc = true) (hl : .user .exec ∉ l) :
    publishing s'.mpc = false ∧ (¬ Owes s' i ∨ (waiting s'.mpc = true ∧ s'.tasks = s.tasks ∧
      execRank s.tasks.length (s'.wpc i) + stepsOf i l + 2 * trues i s.log ≤ execRank s.tasks.length (s.wpc i) + 2 * trues i s'.log)) := by
  induction h with
  | nil =>
    refine ⟨?_, .inr ⟨hw, rfl, by simp [stepsOf]⟩⟩
    generalize s.mpc = m at hw; cases m <;> simp_all [waiting, publishing]
  | step hrun h ih =>
    rename_i l s1 a s2
    simp only [List.mem_cons, not_or] at hl
    obtain ⟨p1, p2⟩ := ih hl.2
    have I := inv_reach (hrun.reach hr)
    by_cases ho : Owes s1 i
    · rcases p2 with p2 | ⟨q1, q2, q3⟩
      · exact absurd ho p2
      · obtain ⟨r1, r2⟩ := owes_wait_step h I hi q1 ho
        refine ⟨r1, r2.imp id fun ⟨t1, t2, t3⟩ => ⟨t1, by rw [t2, q2], ?_⟩⟩
        rw [q2] at t3
        rw [stepsOf_cons]
        omega
    · have := owes_step h I hi p1 (Ne.symm hl.1) ho
      exact ⟨this.1, .inl this.2⟩

end Nntl.BgWork
