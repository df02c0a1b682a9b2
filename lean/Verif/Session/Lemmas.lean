import Verif.Session.Spec
/-! Lemmas about the life of a network object. -/
namespace Nntl.Session
open Nntl.Train (CD Net)

/-- Holds in every reachable state. -/
structure Inv (s : St) : Prop where
  cap : s.cap = s.net.cd.maxFprop
  train : s.net.cd.trainBs ≤ s.net.cd.maxFprop
  told : s.told = s.net.cd.cur
  cur : s.net.cd.cur ≤ s.net.cd.maxFprop
  live : 0 < s.net.cd.maxFprop → s.opt ≠ none

/-- The state after a change of mode and batch size. -/
def moved (s : St) (t : Bool) (bs : Nat) : St :=
  { s with net := { s.net with cd := { s.net.cd with training := t, cur := bs } }, told := bs }

theorem setMode_eq {s : St} (hI : Inv s) (t : Bool) (bs : Nat) :
    s.setMode t bs = if s.net.cd.maxFprop > 0 ∧ bs > 0 ∧
      ((t = true ∧ s.net.cd.trainBs > 0 ∧ bs ≤ s.net.cd.trainBs) ∨ (t = false ∧ bs ≤ s.net.cd.maxFprop)) then
      some (moved s t bs) else none := by
  unfold St.setMode
  split
  · congr 1
    unfold CD.setMode moved
    by_cases h : (t == s.net.cd.training && bs == s.net.cd.cur) = true
    · rw [if_pos h]
      simp only [Bool.and_eq_true, beq_iff_eq] at h
      obtain ⟨h1, h2⟩ := h
      have := hI.told
      obtain ⟨⟨⟨a, b, c, d⟩, e⟩, f, g, i, j, k, l, m, n⟩ := s
      simp_all
    · rw [if_neg h]; simp
  · rfl

theorem moved_inv {s : St} (hI : Inv s) {t : Bool} {bs : Nat} (h : bs ≤ s.net.cd.maxFprop) : Inv (moved s t bs) :=
  ⟨hI.cap, hI.train, rfl, h, hI.live⟩

/-- Only the mode and the batch size have changed. -/
def Moved (s s' : St) : Prop := s' = s ∨ ∃ t bs, 0 < bs ∧ bs ≤ s.net.cd.maxFprop ∧ s' = moved s t bs

theorem Moved.refl (s : St) : Moved s s := .inl rfl

theorem moved_moved (s : St) (t t' : Bool) (b b' : Nat) : moved (moved s t b) t' b' = moved s t' b' := rfl

theorem Moved.trans {a b c : St} (h1 : Moved a b) (h2 : Moved b c) : Moved a c := by
  rcases h1 with rfl | ⟨t, bs, h1, h2', rfl⟩
  · exact h2
  · rcases h2 with rfl | ⟨t', bs', h3, h4, rfl⟩
    · exact .inr ⟨t, bs, h1, h2', rfl⟩
    · exact .inr ⟨t', bs', h3, h4, rfl⟩

theorem Moved.inv {s s' : St} (h : Moved s s') (hI : Inv s) : Inv s' := by
  rcases h with rfl | ⟨t, bs, h1, h2, rfl⟩
  · exact hI
  · exact moved_inv hI h2

theorem Moved.keeps {s s' : St} (h : Moved s s') : s'.net.cd.maxFprop = s.net.cd.maxFprop ∧ s'.net.cd.trainBs = s.net.cd.trainBs ∧
    s'.net.requireReinit = s.net.requireReinit ∧ s'.cap = s.cap ∧ s'.pre = s.pre ∧ s'.stor = s.stor ∧ s'.made = s.made ∧
    s'.opt = s.opt ∧ s'.err = s.err ∧ s'.failed = s.failed := by
  rcases h with rfl | ⟨t, bs, h1, h2, rfl⟩
  · exact ⟨rfl, rfl, rfl, rfl, rfl, rfl, rfl, rfl, rfl, rfl⟩
  · exact ⟨rfl, rfl, rfl, rfl, rfl, rfl, rfl, rfl, rfl, rfl⟩

theorem setMode_some {s s' : St} (hI : Inv s) {t : Bool} {bs : Nat} (h : s.setMode t bs = some s') :
    0 < bs ∧ bs ≤ s.net.cd.maxFprop ∧ s' = moved s t bs := by
  rw [setMode_eq hI] at h
  split at h
  · rename_i hg
    have := hI.train
    refine ⟨hg.2.1, ?_, (Option.some.inj h).symm⟩
    rcases hg.2.2 with ⟨-, -, h⟩ | ⟨-, h⟩ <;> omega
  · cases h

theorem setMode_moved {s s' : St} (hI : Inv s) {t : Bool} {bs : Nat} (h : s.setMode t bs = some s') : Moved s s' :=
  have ⟨h1, h2, h3⟩ := setMode_some hI h
  .inr ⟨t, bs, h1, h2, h3⟩

theorem setModeBs_moved {s s' : St} (hI : Inv s) {bs : Nat} (h : s.setModeBs bs = some s') : Moved s s' := by
  unfold St.setModeBs at h
  split at h <;> exact setMode_moved hI h

theorem pass_fits {s : St} (hI : Inv s) (h : 0 < s.net.cd.cur) : (s.pass s.net.cd.cur).Fits :=
  ⟨h, hI.told, by show s.net.cd.cur ≤ s.cap; rw [hI.cap]; exact hI.cur⟩

theorem fwd_some {s s' : St} (hI : Inv s) {rows : Nat} {l : List Fwd} (h : s.fwd rows = some (s', l)) :
    0 < rows ∧ rows ≤ s.net.cd.maxFprop ∧ s' = moved s false rows ∧ l = [⟨rows, false, rows, s.cap⟩] := by
  unfold St.fwd St.setModeBs at h
  split at h
  · cases h
  · rename_i hr
    simp only [Option.map_eq_some_iff, Prod.mk.injEq] at h
    obtain ⟨s1, h1, rfl, rfl⟩ := h
    obtain ⟨h2, h3, rfl⟩ := setMode_some hI h1
    exact ⟨h2, h3, rfl, rfl⟩

theorem fwd_moved {s s' : St} (hI : Inv s) {rows : Nat} {l : List Fwd} (h : s.fwd rows = some (s', l)) :
    Moved s s' ∧ ∀ f ∈ l, f.Fits ∧ f.training = false := by
  obtain ⟨h1, h2, rfl, rfl⟩ := fwd_some hI h
  refine ⟨.inr ⟨_, _, h1, h2, rfl⟩, fun f hf => ?_⟩
  rw [List.mem_singleton] at hf
  subst hf
  exact ⟨⟨h1, rfl, by rw [hI.cap]; exact h2⟩, rfl⟩

theorem fwd_total {s : St} (hI : Inv s) {rows : Nat} (h1 : 0 < rows) (h2 : rows ≤ s.net.cd.maxFprop) :
    s.fwd rows = some (moved s false rows, [⟨rows, false, rows, s.cap⟩]) := by
  unfold St.fwd St.setModeBs
  rw [if_neg (by omega), if_neg (by omega), setMode_eq hI, if_pos ⟨by omega, h1, .inr ⟨rfl, h2⟩⟩]
  rfl

theorem evaluate_moved {rows : List Nat} : ∀ {s s' : St} {l : List Fwd}, Inv s → s.evaluate rows = some (s', l) →
    Moved s s' ∧ (∀ f ∈ l, f.Fits ∧ f.training = false) ∧ l.map Fwd.rows = rows ∧
    (s.net.cd.training = false ∨ rows ≠ [] → s'.net.cd.training = false) := by
  induction rows with
  | nil =>
    intro s s' l hI h
    unfold St.evaluate at h
    cases h
    exact ⟨.refl _, by simp, rfl, fun h => h.elim id (fun h => absurd rfl h)⟩
  | cons r rs ih =>
    intro s s' l hI h
    unfold St.evaluate at h
    split at h
    · cases h
    · rename_i s1 l1 h1
      simp only [Option.map_eq_some_iff, Prod.mk.injEq] at h
      obtain ⟨⟨s2, l2⟩, h2, rfl, rfl⟩ := h
      have hs := fwd_some hI h1
      obtain ⟨m1, f1⟩ := fwd_moved hI h1
      obtain ⟨m2, f2, f3, f4⟩ := ih (m1.inv hI) h2
      refine ⟨m1.trans m2, fun f hf => ?_, ?_, fun _ => f4 (.inl ?_)⟩
      · rcases List.mem_append.mp hf with hf | hf
        · exact f1 f hf
        · exact f2 f hf
      · rw [List.map_append, f3, hs.2.2.2]; rfl
      · rw [hs.2.2.1]; rfl

theorem evaluate_total {rows : List Nat} : ∀ {s : St}, Inv s → (∀ r ∈ rows, 0 < r ∧ r ≤ s.net.cd.maxFprop) →
    ∃ s' l, s.evaluate rows = some (s', l) := by
  induction rows with
  | nil => intro s _ _; exact ⟨_, _, rfl⟩
  | cons r rs ih =>
    intro s hI h
    have h1 := h r (by simp)
    have hm : Moved s (moved s false r) := .inr ⟨_, _, h1.1, h1.2, rfl⟩
    obtain ⟨s', l, h2⟩ := ih (s := moved s false r) (hm.inv hI) (fun x hx => h x (by simp [hx]))
    refine ⟨s', [⟨r, false, r, s.cap⟩] ++ l, ?_⟩
    unfold St.evaluate
    rw [fwd_total hI h1.1 h1.2]
    dsimp only
    rw [h2]; rfl

theorem learn_fits {s : St} (hI : Inv s) (h : 0 < s.net.cd.cur) (n : Nat) : ∀ f ∈ s.learn n, f.Fits := by
  induction n with
  | zero => intro f hf; cases hf
  | succ n ih =>
    intro f hf
    rcases List.mem_cons.mp hf with rfl | hf
    · exact pass_fits hI h
    · exact ih f hf

theorem setModeBs_zero {s s' : St} (hI : Inv s) (h : s.setModeBs 0 = some s') : Moved s s' ∧ 0 < s'.net.cd.cur := by
  unfold St.setModeBs at h
  rw [if_pos rfl] at h
  obtain ⟨h1, h2, rfl⟩ := setMode_some hI h
  exact ⟨.inr ⟨_, _, h1, h2, rfl⟩, h1⟩

theorem epochs_moved {es : List (Nat × List Nat × Bool)} : ∀ {s s' : St} {l : List Fwd}, Inv s → 0 < s.net.cd.cur →
    s.epochs es = some (s', l) → Moved s s' ∧ ∀ f ∈ l, f.Fits := by
  induction es with
  | nil =>
    intro s s' l hI _ h
    unfold St.epochs at h
    cases h
    exact ⟨.refl _, by simp⟩
  | cons e es ih =>
    obtain ⟨n, rep, goOn⟩ := e
    intro s s' l hI hc h
    unfold St.epochs at h
    dsimp only at h
    split at h
    · cases h
    · rename_i s1 l1 h1
      obtain ⟨m1, f1, -⟩ := evaluate_moved hI h1
      have hl : ∀ f ∈ s.learn n ++ l1, f.Fits := by
        intro f hf
        rcases List.mem_append.mp hf with hf | hf
        · exact learn_fits hI hc n f hf
        · exact (f1 f hf).1
      split at h
      · cases h
        exact ⟨m1, hl⟩
      · split at h
        · cases h
        · rename_i s2 h2
          obtain ⟨m2, hc2⟩ := setModeBs_zero (m1.inv hI) h2
          simp only [Option.map_eq_some_iff, Prod.mk.injEq] at h
          obtain ⟨⟨s3, l3⟩, h3, rfl, rfl⟩ := h
          obtain ⟨m3, f3⟩ := ih (m2.inv (m1.inv hI)) hc2 h3
          refine ⟨(m1.trans m2).trans m3, fun f hf => ?_⟩
          rcases List.mem_append.mp hf with hf | hf
          · exact hl f hf
          · exact f3 f hf

theorem inv_fresh : Inv St.fresh := ⟨rfl, Nat.le_refl _, rfl, Nat.le_refl _, fun h => absurd h (Nat.lt_irrefl 0)⟩

theorem inv_deinit (s : St) : Inv s.deinit := ⟨rfl, Nat.le_refl _, rfl, Nat.le_refl _, fun h => absurd h (Nat.lt_irrefl 0)⟩

theorem inv_setErr {s : St} (hI : Inv s) (c : Code) : Inv (s.setErr c).1 := ⟨hI.cap, hI.train, hI.told, hI.cur, hI.live⟩

theorem inv_preinit {s : St} (hI : Inv s) (n : Nat) : Inv (s.preinit n) := ⟨hI.cap, hI.train, hI.told, hI.cur, hI.live⟩

theorem inv_math {s : St} (hI : Inv s) (b : Bool) : Inv (s.mathInit b) := by
  unfold St.mathInit; split
  · exact ⟨hI.cap, hI.train, hI.told, hI.cur, hI.live⟩
  · exact hI

/-- What a full initialisation leaves behind. -/
theorem fullInit_cases {s s' : St} {f b : Nat} {o : Outcome} {c : Code} (hb : b ≤ f) (h : s.fullInit f b o = (s', c)) :
    Inv s' ∧ s'.net.cd.training = false ∧ s'.err = s.err ∧ (c = .success → s'.net.cd.maxFprop = f ∧ s'.net.cd.trainBs = b ∧
      s'.net.cd.cur = 0 ∧ s'.net.requireReinit = s.net.requireReinit ∧ s'.opt = some (s.made + 1) ∧ s'.made = s.made + 1 ∧
      s'.stor = max s.stor (max s.pre o.need)) ∧ (∀ n, c ≠ .td n) ∧ c ≠ .diverged := by
  unfold St.fullInit at h
  dsimp only at h
  split at h
  · cases h
    exact ⟨⟨rfl, Nat.le_refl _, rfl, Nat.le_refl _, fun h => absurd h (Nat.lt_irrefl 0)⟩, rfl, rfl, (nofun), (nofun), (nofun)⟩
  · split at h
    · cases h
      exact ⟨⟨rfl, Nat.le_refl _, rfl, Nat.le_refl _, fun h => absurd h (Nat.lt_irrefl 0)⟩, rfl, rfl, (nofun), (nofun), (nofun)⟩
    · split at h
      · cases h
        exact ⟨⟨rfl, Nat.le_refl _, rfl, Nat.le_refl _, fun h => absurd h (Nat.lt_irrefl 0)⟩, rfl, rfl, (nofun), (nofun), (nofun)⟩
      · cases h
        exact ⟨⟨Nat.max_eq_left hb, hb, rfl, Nat.zero_le _, (nofun)⟩, rfl, rfl, fun _ => ⟨rfl, rfl, rfl, rfl, rfl, rfl, rfl⟩,
          (nofun), (nofun)⟩

theorem isInit_iff (n : Net) (f b : Nat) : n.isInitialized f b = true ↔
    n.requireReinit = false ∧ 0 < n.cd.maxFprop ∧ f ≤ n.cd.maxFprop ∧ b ≤ n.cd.trainBs := by
  unfold Net.isInitialized
  simp only [Bool.and_eq_true, Bool.not_eq_true', decide_eq_true_eq]
  constructor
  · rintro ⟨⟨⟨a, b⟩, c⟩, d⟩; exact ⟨a, b, c, d⟩
  · rintro ⟨a, b, c, d⟩; exact ⟨⟨⟨a, b⟩, c⟩, d⟩

/-- The two ways of an initialisation of the network. -/
theorem init_cases {s s' : St} (hI : Inv s) {f b : Nat} {o : Outcome} {c : Code} (h : s.init f b o = some (s', c)) :
    Inv s' ∧ s'.err = s.err ∧ (∀ n, c ≠ .td n) ∧ c ≠ .diverged ∧ (s.net.cd.training = false → s'.net.cd.training = false) ∧
    ((s.net.isInitialized f b = true ∧ s' = s.mathInit (decide (c = .success)) ∧ (c = .success ↔ o.mathOk = true)) ∨
     (s.net.isInitialized f b = false ∧ s'.net.cd.training = false ∧
      (c = .success → s'.net.cd.maxFprop = f ∧ s'.net.cd.trainBs = b ∧ s'.net.cd.cur = 0 ∧ s'.net.requireReinit = false ∧
        s'.opt = some (s.made + 1) ∧ s'.stor = o.need))) := by
  unfold St.init at h
  split at h
  · rename_i hg
    split at h
    · rename_i hi
      split at h
      · rename_i hm
        cases h
        exact ⟨inv_math hI _, rfl, (nofun), (nofun), fun h => h, .inl ⟨hi, by simp, by simp [hm]⟩⟩
      · rename_i hm
        cases h
        exact ⟨hI, rfl, (nofun), (nofun), fun h => h, .inl ⟨hi, by simp [St.mathInit], by simp [hm]⟩⟩
    · rename_i hi
      have h := Option.some.inj h
      obtain ⟨h1, h2, h3, h4, h5, h6⟩ := fullInit_cases (s := s.deinit) hg.2 h
      refine ⟨h1, h3, h5, h6, fun _ => h2, .inr ⟨by simpa using hi, h2, fun hc => ?_⟩⟩
      obtain ⟨a1, a2, a3, a4, a5, a6, a7⟩ := h4 hc
      exact ⟨a1, a2, a3, a4, a5, by rw [a7]; simp [St.deinit]⟩
  · cases h

end Nntl.Session
