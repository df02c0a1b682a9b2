import Verif.BgWork.Spec
import Verif.BgWork.InvM
/-! Lemmas about the tasks. -/
namespace Nntl.BgWork
variable {cfg : Cfg} {s s' : S} {i : Nat}

/-- Going over the tasks, owning the lock. -/
def WPc.inPass : WPc → Bool
  | .pick _ | .loop _ | .task _ | .unlT => true
  | _ => false

structure TInv (cfg : Cfg) (s : S) : Prop where
  run : ∀ i, i < cfg.n → running i s.log = (match s.wpc i with | .task k => s.tasks[k]? | _ => none)
  pick : ∀ i, i < cfg.n → ∀ k, s.wpc i = .pick k → s.go = false → rest s.tasks (passCalls i s.log) = some (s.tasks.drop k)
  loop : ∀ i, i < cfg.n → ∀ k, s.wpc i = .loop k → s.go = false → rest s.tasks (passCalls i s.log) = some (s.tasks.drop k)
  task : ∀ i, i < cfg.n → ∀ k, s.wpc i = .task k → rest s.tasks (passCalls i s.log) = some (s.tasks.drop k)
  fin : ∀ i, i < cfg.n → s.wpc i = .unlT → s.go = false → rest s.tasks (passCalls i s.log) = some []
  any : ∀ i, i < cfg.n → (s.wpc i).inPass = true → ∃ l, rest s.tasks (passCalls i s.log) = some l

theorem pass_other {i j : Nat} (h : j ≠ i) {e : Ev} (he : Mine i e) (l) : passCalls j (e :: l) = passCalls j l ∧ running j (e :: l) = running j l := by
  cases e <;> simp [passCalls, running] <;> simp [Mine] at he <;> subst he <;> simp [Ne.symm h]

theorem tinv_worker_other (hw : WStep cfg s i s') (T : TInv cfg s) (j : Nat) (hji : j ≠ i) :
    passCalls j s'.log = passCalls j s.log ∧ running j s'.log = running j s.log := by
  rcases w_log hw with h | ⟨e, he, h⟩
  · rw [h]; exact ⟨rfl, rfl⟩
  · rw [h]; exact pass_other hji he _

theorem tinv_worker (hw : WStep cfg s i s') (hi : i < cfg.n) (I : Inv cfg s) (T : TInv cfg s) : TInv cfg s' := by
  have ot : ∀ j, j ≠ i → j < cfg.n → _ := fun j h _ => tinv_worker_other hw T j h
  have fr := w_frame hw
  have ft := fr.2.2.2.2.1
  have fg := fr.2.2.1
  have fw : ∀ j, j ≠ i → s'.wpc j = s.wpc j := fun j h => (fr.1 j h).1
  constructor
  · intro j hj
    by_cases hji : j = i
    · subst hji
      have R := T.run j hj
      cases hw <;> simp_all [running]
    · rw [fw j hji, ft, (ot j hji hj).2]; exact T.run j hj
  · intro j hj k hk hg
    by_cases hji : j = i
    · subst hji
      rw [fg] at hg
      rw [ft]
      cases hw with
      | lockT h1 h2 => simp at hk; subst hk; simp [passCalls, rest]
      | loopGo k' h1 h2 => simp [hg] at h2
      | taskFalse k' t p h1 h2 =>
        simp at hk; subst hk
        have := T.task j hj k' h1
        simp only [passCalls, if_true, rest, this]
        rw [List.getElem?_eq_some_iff] at h2
        obtain ⟨hl, h2⟩ := h2
        rw [List.drop_eq_getElem_cons hl]
        simp [h2]
      | _ => simp at hk
    · rw [fw j hji] at hk; rw [ft, (ot j hji hj).1]; rw [fg] at hg; exact T.pick j hj k hk hg
  · intro j hj k hk hg
    by_cases hji : j = i
    · subst hji
      rw [fg] at hg
      rw [ft]
      cases hw with
      | pick k' h1 h2 h3 => simp at hk; subst hk; exact T.pick j hj k' h1 hg
      | taskTrue k' t p h1 h2 =>
        simp at hk; subst hk
        have := T.task j hj k' h1
        simp only [passCalls, if_true, rest, this]
        rw [List.getElem?_eq_some_iff] at h2
        obtain ⟨hl, h2⟩ := h2
        rw [List.drop_eq_getElem_cons hl]
        simp [h2]
      | _ => simp at hk
    · rw [fw j hji] at hk; rw [ft, (ot j hji hj).1]; rw [fg] at hg; exact T.loop j hj k hk hg
  · intro j hj k hk
    by_cases hji : j = i
    · subst hji
      rw [ft]
      cases hw with
      | loop k' t p h1 h2 h3 => simp at hk; subst hk; simpa [passCalls] using T.loop j hj k' h1 h2
      | _ => simp at hk
    · rw [fw j hji] at hk; rw [ft, (ot j hji hj).1]; exact T.task j hj k hk
  · intro j hj hk hg
    by_cases hji : j = i
    · subst hji
      rw [fg] at hg
      rw [ft]
      cases hw with
      | pickEnd k' h1 h2 =>
        rw [T.pick j hj k' h1 hg]
        rcases h2 with h2 | h2
        · simp [hg] at h2
        · simp [List.drop_eq_nil_of_le h2]
      | _ => simp at hk
    · rw [fw j hji] at hk; rw [ft, (ot j hji hj).1]; rw [fg] at hg; exact T.fin j hj hk hg
  · intro j hj hk
    by_cases hji : j = i
    · subst hji
      rw [ft]
      cases hw with
      | lockT h1 h2 => exact ⟨_, by simp [passCalls, rest]; rfl⟩
      | pick k' h1 h2 h3 => exact T.any j hj (by rw [h1]; rfl)
      | pickEnd k' h1 h2 => exact T.any j hj (by rw [h1]; rfl)
      | loopGo k' h1 h2 => exact T.any j hj (by rw [h1]; rfl)
      | loop k' t p h1 h2 h3 => simpa [passCalls] using T.any j hj (by rw [h1]; rfl)
      | taskTrue k' t p h1 h2 =>
        have := T.task j hj k' h1
        simp only [passCalls, if_true, rest, this]
        rw [List.getElem?_eq_some_iff] at h2
        obtain ⟨hl, h2⟩ := h2
        rw [List.drop_eq_getElem_cons hl]
        simp [h2]
      | taskFalse k' t p h1 h2 =>
        have := T.task j hj k' h1
        simp only [passCalls, if_true, rest, this]
        rw [List.getElem?_eq_some_iff] at h2
        obtain ⟨hl, h2⟩ := h2
        rw [List.drop_eq_getElem_cons hl]
        simp [h2]
      | _ => simp [WPc.inPass] at hk
    · rw [fw j hji] at hk; rw [ft, (ot j hji hj).1]; exact T.any j hj hk

theorem inPass_holds {w : WPc} (h : w.inPass = true) : w.holds = true := by cases w <;> simp_all [WPc.inPass, WPc.holds]

theorem tinv_main (hm : MStep cfg s s') (I : Inv cfg s) (T : TInv cfg s) : TInv cfg s' := by
  -- either the workers are outside, or the list stays and the flag does not go down
  by_cases hh : s.mpc.holds = true
  · have F := I.excl hh
    have N : ∀ j, j < cfg.n → (s'.wpc j).inPass = false := by
      intro j hj
      rw [(m_wpc hm).1]
      by_contra h
      have := inPass_holds (w := s.wpc j) (by simpa using h)
      rw [F j hj] at this; simp at this
    have R : ∀ j, j < cfg.n → running j s'.log = none := by
      intro j hj
      have := T.run j hj
      have n := N j hj
      rw [(m_wpc hm).1] at n
      have e : running j s.log = none := by
        rw [this]; generalize s.wpc j = w at n ⊢; cases w <;> simp_all [WPc.inPass]
      cases hm <;> simpa [running] using e
    constructor
    · intro j hj
      rw [R j hj]
      have n := N j hj
      generalize s'.wpc j = w at n ⊢; cases w <;> simp_all [WPc.inPass]
    · intro j hj k hk; have := N j hj; rw [hk] at this; simp [WPc.inPass] at this
    · intro j hj k hk; have := N j hj; rw [hk] at this; simp [WPc.inPass] at this
    · intro j hj k hk; have := N j hj; rw [hk] at this; simp [WPc.inPass] at this
    · intro j hj hk; have := N j hj; rw [hk] at this; simp [WPc.inPass] at this
    · intro j hj hk; have := N j hj; rw [hk] at this; simp at this
  · have ft : s'.tasks = s.tasks := by cases hm <;> simp_all [MPc.holds]
    have fg : s'.go = false → s.go = false := by cases hm <;> simp_all [MPc.holds]
    have fp : ∀ j, passCalls j s'.log = passCalls j s.log ∧ running j s'.log = running j s.log := by
      intro j; cases hm <;> simp [passCalls, running]
    constructor
    · intro j hj; rw [(fp j).2, (m_wpc hm).1, ft]; exact T.run j hj
    · intro j hj k hk hg; rw [(m_wpc hm).1] at hk; rw [(fp j).1, ft]; exact T.pick j hj k hk (fg hg)
    · intro j hj k hk hg; rw [(m_wpc hm).1] at hk; rw [(fp j).1, ft]; exact T.loop j hj k hk (fg hg)
    · intro j hj k hk; rw [(m_wpc hm).1] at hk; rw [(fp j).1, ft]; exact T.task j hj k hk
    · intro j hj hk hg; rw [(m_wpc hm).1] at hk; rw [(fp j).1, ft]; exact T.fin j hj hk (fg hg)
    · intro j hj hk; rw [(m_wpc hm).1] at hk; rw [(fp j).1, ft]; exact T.any j hj hk

theorem tinv_reach (h : Reach cfg s) : TInv cfg s := by
  induction h with
  | start => constructor <;> simp [start, running, WPc.inPass]
  | step hr hs ih =>
    cases hs with
    | user hu =>
      cases hu <;> exact ⟨ih.run, ih.pick, ih.loop, ih.task, ih.fin, ih.any⟩
    | main hm => exact tinv_main hm (inv_reach hr) ih
    | worker i hi hw => exact tinv_worker hw hi (inv_reach hr) ih

/-- Runs. -/
theorem Run.reach {l} (h : Run cfg s l s') (hs : Reach cfg s) : Reach cfg s' := by
  induction h with
  | nil => exact hs
  | step _ h ih => exact ih.step h

theorem Step.log {a} (h : Step cfg s a s') : ∃ l, s'.log = l ++ s.log := by
  cases h with
  | user hu => cases hu <;> exact ⟨[], rfl⟩
  | main hm => cases hm <;> first | exact ⟨[], rfl⟩ | exact ⟨[_], rfl⟩
  | worker i hi hw => cases hw <;> first | exact ⟨[], rfl⟩ | exact ⟨[_], rfl⟩

theorem Run.log {l} (h : Run cfg s l s') : ∃ k, s'.log = k ++ s.log := by
  induction h with
  | nil => exact ⟨[], rfl⟩
  | step _ h ih =>
    obtain ⟨k, hk⟩ := ih
    obtain ⟨k', hk'⟩ := h.log
    exact ⟨k' ++ k, by rw [hk', hk, List.append_assoc]⟩

end Nntl.BgWork
