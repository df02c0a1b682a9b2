import Verif.Session.Cases
/-! Property theorems C138 (sizes of forward passes), C139 (mode of forward passes), C140 (evaluation between trainings), C141 (last
error). -/
namespace Nntl.Session
open Nntl.Train (CD Net)

/-! ### Splitting of histories -/

theorem History.append {s s1 s2 : St} {a b : List (Call × List Fwd × Code)} (h1 : History s a s1) (h2 : History s1 b s2) :
    History s (a ++ b) s2 := by
  induction h1 with
  | nil s => exact h2
  | cons hc _ ih => exact .cons hc (ih h2)

theorem History.split {a : List (Call × List Fwd × Code)} : ∀ {s s2 : St} {b : List (Call × List Fwd × Code)},
    History s (a ++ b) s2 → ∃ s1, History s a s1 ∧ History s1 b s2 := by
  induction a with
  | nil => intro s s2 b h; exact ⟨s, .nil s, h⟩
  | cons x a ih =>
    intro s s2 b h
    cases h with
    | cons hc h' =>
      obtain ⟨s1, h1, h2⟩ := ih h'
      exact ⟨s1, .cons hc h1, h2⟩

/-- **C138 (safety).** Whatever calls are made on a network object, in any order and with any outcome, as long as no assertion is
violated: in every forward pass — inference or training — the layers have been told the size of the batch they get, and hold memory
for it. -/
theorem passes_fit {h : List (Call × List Fwd × Code)} {s : St} (hh : History St.fresh h s) :
    ∀ x ∈ h, ∀ f ∈ x.2.1, f.Fits := by
  have key : ∀ {s s' : St} {h : List (Call × List Fwd × Code)}, History s h s' → Inv s → ∀ x ∈ h, ∀ f ∈ x.2.1, f.Fits := by
    intro s s' h hh
    induction hh with
    | nil s => intro _ x hx; cases hx
    | cons hc _ ih =>
      intro hI x hx
      obtain ⟨i1, i2⟩ := call_inv hI hc
      rcases List.mem_cons.mp hx with rfl | hx
      · exact i2
      · exact ih i1 x hx
  exact key hh inv_fresh

/-- What a promise means inside. -/
def Holds (n : Nat) (s : St) : Prop := s.net.requireReinit = false ∧ 0 < s.net.cd.maxFprop ∧ n ≤ s.net.cd.maxFprop

theorem Ready.holds {s s' : St} {f b : Nat} {ok : Prop} (h : Ready s f b s' ok) (hok : ok) (hf : 0 < f) : Holds f s' := by
  cases h with
  | kept a1 a2 a3 a4 a5 a6 =>
    obtain ⟨b1, b2, b3, b4⟩ := (isInit_iff _ _ _).mp a1
    exact ⟨a4.trans b1, by omega, by omega⟩
  | anew a1 a2 =>
    obtain ⟨b1, b2, b3, b4⟩ := a2 hok
    exact ⟨b3, by omega, by omega⟩

theorem promise_holds {s s' : St} (hI : Inv s) {c : Call} {l : List Fwd} {r : Code} (h : s.call c = some (s', l, r)) {n : Nat}
    (hp : promise c r = some n) : 0 < n ∧ Holds n s' := by
  cases c with
  | fprop rows o =>
    cases r <;> simp only [promise, Option.some.injEq, reduceCtorEq] at hp
    subst hp
    obtain ⟨-, -, -, -, -, -, h1, h2, -⟩ := fprop_facts hI h
    exact ⟨h1, h2.holds rfl h1⟩
  | initFixed bs o =>
    cases r <;> simp only [promise, Option.some.injEq, reduceCtorEq] at hp
    subst hp
    simp only [St.call, Option.map_eq_some_iff, Prod.mk.injEq] at h
    obtain ⟨⟨s1, c1⟩, h1, rfl, rfl, rfl⟩ := h
    obtain ⟨-, -, -, -, -, h1, h2, -⟩ := initFixed_facts hI h1
    exact ⟨h1, h2.holds rfl h1⟩
  | initFixedTd ready made need o ok =>
    simp only [St.call, Option.map_eq_some_iff, Prod.mk.injEq] at h
    obtain ⟨⟨s1, c1⟩, h1, rfl, rfl, rfl⟩ := h
    dsimp only at hp ⊢
    obtain ⟨-, -, -, ⟨e, -, -, rfl, -⟩ | ⟨bs, k1, k2, k3, k4, k5, k6⟩⟩ := initFixedTd_facts hI h1
    · rcases ready with _ | b <;> rcases made with e' | b' <;> simp [promise] at hp
    · have hn : n = bs ∧ c1 = .success := by
        cases c1 <;> rcases ready with _ | b <;> rcases made with e' | b' <;> simp_all [promise]
      obtain ⟨rfl, rfl⟩ := hn
      exact ⟨k4, k5.holds rfl k4⟩
  | train x =>
    simp only [St.call, St.train, Option.map_eq_some_iff, Prod.mk.injEq] at h
    obtain ⟨⟨s1, l1, c1⟩, h1, h2, h3⟩ := h
    cases h3
    obtain ⟨-, -, -, ⟨e, -, rfl, -⟩ | ⟨f, b, k1, k2, k3, k4⟩⟩ := trainBody_facts hI h1
    · cases hp
    · cases r <;> simp only [promise, reduceCtorEq] at hp
      split at hp
      · cases hp
      · rename_i hd
        rw [k1] at hp
        simp only [Except.toOption, Option.map_some, Option.some.injEq] at hp
        subst hp
        rw [if_neg hd] at h2
        subst h2
        exact ⟨by omega, k4.holds (.inl rfl) (by omega)⟩
  | prepare bs => cases r <;> simp [promise] at hp
  | doFixed rows => cases r <;> simp [promise] at hp
  | evaluate rows => cases r <;> simp [promise] at hp
  | requireReinit => cases r <;> simp [promise] at hp
  | dontRequireReinit => cases r <;> simp [promise] at hp
  | deinit => cases r <;> simp [promise] at hp

/-- If a network not asked to be reinitialised is initialised anew, more is asked for than it was ready for; for a forward pass only
this means a bigger batch. -/
theorem anew_bigger {s : St} {f n : Nat} (hn : Holds n s) (h : s.net.isInitialized f 0 = false) : n ≤ f := by
  obtain ⟨h1, h2, h3⟩ := hn
  rcases Nat.lt_or_ge f n with hc | hc
  · have : s.net.isInitialized f 0 = true := (isInit_iff _ _ _).mpr ⟨h1, h2, by omega, Nat.zero_le _⟩
    rw [this] at h; cases h
  · exact hc

theorem Moved.holds {s s' : St} (h : Moved s s') {n : Nat} (hn : Holds n s) : Holds n s' := by
  obtain ⟨a1, a2, a3, -⟩ := h.keeps
  exact ⟨a3.trans hn.1, by rw [a1]; exact hn.2.1, by rw [a1]; exact hn.2.2⟩

theorem Ready.keeps {s s' : St} {f b n : Nat} {ok : Prop} (h : Ready s f b s' ok) (hok : ok) (hn : Holds n s) (hf : 0 < f)
    (hb : s.net.isInitialized f b = false → n ≤ f) : Holds n s' := by
  have h2 := h.holds hok hf
  cases h with
  | kept a1 a2 a3 a4 a5 a6 => exact ⟨h2.1, h2.2.1, by rw [a2]; exact hn.2.2⟩
  | anew a1 a2 => exact ⟨h2.1, h2.2.1, Nat.le_trans (hb a1) h2.2.2⟩

theorem doFixed_moved {s s' : St} (hI : Inv s) {rows : Nat} {l : List Fwd} (h : s.doFixed rows = some (s', l)) :
    Moved s s' ∧ l = [s'.pass rows] ∧ (s.net.cd.training = false → s'.net.cd.training = false) := by
  unfold St.doFixed at h
  split at h
  · cases h
  · split at h
    · simp only [Option.map_eq_some_iff, Prod.mk.injEq] at h
      obtain ⟨s2, h2, rfl, rfl⟩ := h
      exact ⟨setMode_moved hI h2, rfl, fun _ => by rw [(setMode_some hI h2).2.2]; rfl⟩
    · cases h
      exact ⟨.refl _, rfl, id⟩

theorem harmless_holds {s s' : St} (hI : Inv s) {c : Call} {l : List Fwd} {r : Code} (h : s.call c = some (s', l, r)) {n : Nat}
    (hh : Harmless n c r) (hn : Holds n s) : Holds n s' := by
  cases c with
  | fprop rows o =>
    obtain ⟨-, -, -, -, -, -, h1, h2, -⟩ := fprop_facts hI h
    exact h2.keeps hh hn h1 (anew_bigger hn)
  | initFixed bs o =>
    simp only [St.call, Option.map_eq_some_iff, Prod.mk.injEq] at h
    obtain ⟨⟨s1, c1⟩, h1, rfl, rfl, rfl⟩ := h
    obtain ⟨-, -, -, -, -, h1, h2, -⟩ := initFixed_facts hI h1
    exact h2.keeps hh hn h1 (anew_bigger hn)
  | initFixedTd ready made need o ok =>
    simp only [St.call, Option.map_eq_some_iff, Prod.mk.injEq] at h
    obtain ⟨⟨s1, c1⟩, h1, rfl, rfl, rfl⟩ := h
    obtain ⟨-, -, -, ⟨e, -, -, -, rfl⟩ | ⟨bs, k1, k2, k3, k4, k5, k6⟩⟩ := initFixedTd_facts hI h1
    · exact hn
    · rcases hh with hh | ⟨e, hh⟩
      · exact k5.keeps hh hn k4 (anew_bigger hn)
      · exact absurd hh (k3 e)
  | prepare bs =>
    simp only [St.call, Option.map_eq_some_iff, Prod.mk.injEq] at h
    obtain ⟨s1, h1, rfl, rfl, rfl⟩ := h
    exact (setMode_moved hI h1).holds hn
  | doFixed rows =>
    simp only [St.call, Option.map_eq_some_iff, Prod.mk.injEq] at h
    obtain ⟨⟨s1, l1⟩, h1, rfl, rfl, rfl⟩ := h
    exact (doFixed_moved hI h1).1.holds hn
  | evaluate rows =>
    simp only [St.call, Option.map_eq_some_iff, Prod.mk.injEq] at h
    obtain ⟨⟨s1, l1⟩, h1, rfl, rfl, rfl⟩ := h
    exact (evaluate_moved hI h1).1.holds hn
  | train x =>
    obtain ⟨hd, hf, hr⟩ := hh
    simp only [St.call, St.train, Option.map_eq_some_iff, Prod.mk.injEq] at h
    obtain ⟨⟨s1, l1, c1⟩, h1, h2, h3⟩ := h
    cases h3
    rw [if_neg (by rw [hd]; decide)] at h2
    subst h2
    obtain ⟨-, -, -, ⟨e, -, -, rfl, -⟩ | ⟨f, b, k1, k2, k3, k4⟩⟩ := trainBody_facts hI h1
    · exact hn
    · rcases hr with hr | hr | ⟨e, hr⟩
      · exact k4.keeps (.inl hr) hn (by omega) fun _ => hf f b k1
      · exact k4.keeps (.inr hr) hn (by omega) fun _ => hf f b k1
      · rw [k1] at hr; cases hr
  | requireReinit => exact hh.elim
  | dontRequireReinit => cases h; exact ⟨rfl, hn.2.1, hn.2.2⟩
  | deinit => exact hh.elim

/-- **C138 (partial).** After a call has promised readiness for batches of `n` rows — a successful `fprop` of `n` rows,
`init4fixedBatchFprop(n)`, the one with a training data object that leaves `n` in its argument, or `train` with `n` rows for forward
passes — and after any further calls that do not take the promise back, `doFixedBatchFprop`, `prepare_to_doFixedBatchFprop` and
evaluations of batches of up to `n` rows violate no assertion, and `fprop` of up to `n` rows neither allocates nor fails but for the
math object. Missing: a training with smaller batches for forward passes takes the promise back, see `training_revokes_promise`. -/
theorem promised_batches_accepted_partial {h1 h2 : List (Call × List Fwd × Code)} {c : Call} {l : List Fwd} {r : Code} {s : St} {n : Nat}
    (hh : History St.fresh (h1 ++ (c, l, r) :: h2) s) (hp : promise c r = some n) (h2h : ∀ x ∈ h2, Harmless n x.1 x.2.2)
    {rows : Nat} (h0 : 0 < rows) (hn : rows ≤ n) :
    (∃ s' f, s.call (.doFixed rows) = some (s', [f], .success) ∧ f.rows = rows ∧ f.Fits) ∧
    (∃ s', s.call (.prepare rows) = some (s', [], .success)) ∧
    (∀ rs : List Nat, (∀ x ∈ rs, 0 < x ∧ x ≤ n) → ∃ s' fs, s.call (.evaluate rs) = some (s', fs, .success) ∧
      fs.map Fwd.rows = rs ∧ ∀ f ∈ fs, f.Fits ∧ f.training = false) ∧
    (∀ o : Outcome, o.mathOk = true → ∃ s' f, s.call (.fprop rows o) = some (s', [f], .success) ∧ f.rows = rows ∧ f.Fits ∧
      f.training = false ∧ s'.opt = s.opt ∧ s'.cap = s.cap) := by
  obtain ⟨sa, g1, g2⟩ := hh.split
  cases g2 with
  | cons hc g3 =>
  rename_i sb
  have hIa := history_inv g1 inv_fresh
  obtain ⟨hIb, -⟩ := call_inv hIa hc
  have hb := promise_holds hIa hc hp
  have hs : Inv s ∧ Holds n s := by
    have key : ∀ {a b : St} {h : List (Call × List Fwd × Code)}, History a h b → Inv a → Holds n a →
        (∀ x ∈ h, Harmless n x.1 x.2.2) → Inv b ∧ Holds n b := by
      intro a b h hh
      induction hh with
      | nil s => intro a b _; exact ⟨a, b⟩
      | cons hc _ ih =>
        intro ha hb hx
        exact ih (call_inv ha hc).1 (harmless_holds ha hc (hx _ List.mem_cons_self) hb) (fun x hx' => hx x (by simp [hx']))
    exact key g3 hIb hb.2 h2h
  obtain ⟨hI, q1, q2, q3⟩ := hs
  have hset : s.setMode false rows = some (moved s false rows) := by
    rw [setMode_eq hI, if_pos ⟨q2, h0, .inr ⟨rfl, by omega⟩⟩]
  have hm : Moved s (moved s false rows) := .inr ⟨_, _, h0, by omega, rfl⟩
  refine ⟨?_, ⟨_, by simp only [St.call, St.prepare, hset]; rfl⟩, ?_, ?_⟩
  · have hd : ∃ s', s.doFixed rows = some (s', [s'.pass rows]) := by
      unfold St.doFixed
      rw [if_neg (by omega)]
      split
      · rw [hset]; exact ⟨_, rfl⟩
      · exact ⟨_, rfl⟩
    obtain ⟨s', hd⟩ := hd
    have hc : s.call (.doFixed rows) = some (s', [s'.pass rows], .success) := by simp only [St.call, hd]; rfl
    exact ⟨s', _, hc, rfl, (call_inv hI hc).2 _ (by simp)⟩
  · intro rs hrs
    obtain ⟨s', fs, he⟩ := evaluate_total hI (rows := rs) (fun x hx => ⟨(hrs x hx).1, Nat.le_trans (hrs x hx).2 q3⟩)
    obtain ⟨m, f1, f2, -⟩ := evaluate_moved hI he
    exact ⟨s', fs, by simp only [St.call, he]; rfl, f2, f1⟩
  · intro o ho
    have hi : s.net.isInitialized rows 0 = true := (isInit_iff _ _ _).mpr ⟨q1, q2, by omega, Nat.zero_le _⟩
    have hI2 := inv_math hI true
    have hf := fwd_total hI2 h0 (by show rows ≤ s.net.cd.maxFprop; omega)
    have hcall : s.call (.fprop rows o) = some (((moved (s.mathInit true) false rows).setErr .success).1,
        [⟨rows, false, rows, (s.mathInit true).cap⟩], .success) := by
      show s.fprop rows o = _
      unfold St.fprop St.init
      rw [if_pos ⟨h0, Nat.zero_le _⟩, if_pos hi, if_pos ho]
      dsimp only
      rw [if_neg (by simp), hf]
      rfl
    exact ⟨_, _, hcall, rfl, (call_inv hI hcall).2 _ (by simp), rfl, rfl, rfl⟩

/-- **C138 is false of the code without that restriction**: a network made ready for batches of 4 rows, then trained successfully with at
most 2 rows per forward pass, violates an assertion when it gets the batch of 4 rows. -/
theorem training_revokes_promise : ∃ (o : Outcome) (x : Session) (s : St) (l : List Fwd), x.immediatelyDeinit = false ∧
    History St.fresh [(.initFixed 4 o, [], .success), (.train x, l, .success)] s ∧
    promise (.initFixed 4 o) .success = some 4 ∧ s.call (.doFixed 4) = none := by
  refine ⟨⟨none, 0, true, true⟩, ⟨.ok (2, 2), 0, ⟨none, 0, true, true⟩, .success, true, [2, 1], [(3, [2, 1], true)], false, false⟩,
    _, _, rfl, .cons rfl (.cons rfl (.nil _)), rfl, ?_⟩
  decide

/-! ### Mode of the passes -/

/-- Mode after a call. -/
theorem call_mode {s s' : St} (hI : Inv s) {c : Call} {l : List Fwd} {r : Code} (h : s.call c = some (s', l, r)) (hc : c.isTrain = false) :
    (s.net.cd.training = false ∨ c.setsInference = true ∧ r = .success → s'.net.cd.training = false) ∧
    ((∀ k, c ≠ .doFixed k) → ∀ f ∈ l, f.training = false) := by
  cases c with
  | fprop rows o =>
    obtain ⟨-, -, -, -, h2, h3, -⟩ := fprop_facts hI h
    exact ⟨fun h => h3 (h.imp id (·.2)), fun _ f hf => (h2 f hf).2⟩
  | initFixed bs o =>
    simp only [St.call, Option.map_eq_some_iff, Prod.mk.injEq] at h
    obtain ⟨⟨s1, c1⟩, h1, rfl, rfl, rfl⟩ := h
    obtain ⟨-, -, -, -, h3, -⟩ := initFixed_facts hI h1
    exact ⟨fun h => h3 (h.imp id (·.2)), fun _ f hf => by cases hf⟩
  | initFixedTd ready made need o ok =>
    simp only [St.call, Option.map_eq_some_iff, Prod.mk.injEq] at h
    obtain ⟨⟨s1, c1⟩, h1, rfl, rfl, rfl⟩ := h
    obtain ⟨-, -, h3, -⟩ := initFixedTd_facts hI h1
    exact ⟨fun h => h3 (h.imp id (·.2)), fun _ f hf => by cases hf⟩
  | prepare bs =>
    simp only [St.call, Option.map_eq_some_iff, Prod.mk.injEq] at h
    obtain ⟨s1, h1, rfl, rfl, rfl⟩ := h
    exact ⟨fun _ => by rw [(setMode_some hI h1).2.2]; rfl, fun _ f hf => by cases hf⟩
  | doFixed rows =>
    simp only [St.call, Option.map_eq_some_iff, Prod.mk.injEq] at h
    obtain ⟨⟨s1, l1⟩, h1, rfl, rfl, rfl⟩ := h
    refine ⟨fun h => (doFixed_moved hI h1).2.2 (h.elim id fun h => ?_), fun h => absurd rfl (h rows)⟩
    cases h.1
  | evaluate rows =>
    simp only [St.call, Option.map_eq_some_iff, Prod.mk.injEq] at h
    obtain ⟨⟨s1, l1⟩, h1, rfl, rfl, rfl⟩ := h
    obtain ⟨m, f1, f2, f3⟩ := evaluate_moved hI h1
    refine ⟨fun h => f3 (.inl (h.elim id fun h => ?_)), fun _ f hf => (f1 f hf).2⟩
    cases h.1
  | train x => cases hc
  | requireReinit =>
    cases h
    exact ⟨fun h => h.elim id fun h => (by cases h.1), fun _ f hf => by cases hf⟩
  | dontRequireReinit =>
    cases h
    exact ⟨fun h => h.elim id fun h => (by cases h.1), fun _ f hf => by cases hf⟩
  | deinit =>
    cases h
    exact ⟨fun h => h.elim id fun h => (by cases h.1), fun _ f hf => by cases hf⟩

/-- **C139 (partial).** In every history the forward passes of `fprop` and of evaluations are made in inference mode. Those of
`doFixedBatchFprop` are, if the network was put into inference mode by `fprop`, `init4fixedBatchFprop` or
`prepare_to_doFixedBatchFprop` and not trained since. Missing: `doFixedBatchFprop` after a training, see
`fixed_pass_in_training_mode`. -/
theorem inference_mode_partial {h : List (Call × List Fwd × Code)} {s : St} (hh : History St.fresh h s) :
    (∀ x ∈ h, (∃ k o, x.1 = .fprop k o) ∨ (∃ k, x.1 = .evaluate k) → ∀ f ∈ x.2.1, f.training = false) ∧
    (∀ h1 h2 c l r, h = h1 ++ (c, l, r) :: h2 → c.setsInference = true → r = .success → (∀ x ∈ h2, x.1.isTrain = false) →
      (∀ x ∈ h2, ∀ f ∈ x.2.1, f.training = false) ∧
      ∀ rows s' fs r', s.call (.doFixed rows) = some (s', fs, r') → ∀ f ∈ fs, f.training = false) := by
  have key : ∀ {s s' : St} {h : List (Call × List Fwd × Code)}, History s h s' → Inv s →
      ∀ x ∈ h, (∃ k o, x.1 = .fprop k o) ∨ (∃ k, x.1 = .evaluate k) → ∀ f ∈ x.2.1, f.training = false := by
    intro s s' h hh
    induction hh with
    | nil s => intro _ x hx; cases hx
    | cons hc _ ih =>
      intro hI x hx
      rcases List.mem_cons.mp hx with rfl | hx
      · intro hk
        refine (call_mode hI hc ?_).2 ?_
        · rcases hk with ⟨k, o, hk⟩ | ⟨k, hk⟩ <;> (dsimp only at hk; subst hk; rfl)
        · rcases hk with ⟨k, o, hk⟩ | ⟨k, hk⟩ <;> (dsimp only at hk; subst hk; intro k' hk'; cases hk')
      · exact ih (call_inv hI hc).1 x hx
  have fixed : ∀ {s s' : St} {rows : Nat} {fs : List Fwd} {r : Code}, Inv s → s.net.cd.training = false →
      s.call (.doFixed rows) = some (s', fs, r) → ∀ f ∈ fs, f.training = false := by
    intro s s' rows fs r hI ht h f hf
    simp only [St.call, Option.map_eq_some_iff, Prod.mk.injEq] at h
    obtain ⟨⟨s1, l1⟩, h1, rfl, rfl, rfl⟩ := h
    obtain ⟨-, h2, h3⟩ := doFixed_moved hI h1
    rw [h2, List.mem_singleton] at hf
    subst hf
    exact h3 ht
  have run : ∀ {s s' : St} {h : List (Call × List Fwd × Code)}, History s h s' → Inv s → s.net.cd.training = false →
      (∀ x ∈ h, x.1.isTrain = false) → Inv s' ∧ s'.net.cd.training = false ∧ ∀ x ∈ h, ∀ f ∈ x.2.1, f.training = false := by
    intro s s' h hh
    induction hh with
    | nil s => intro a b _; exact ⟨a, b, fun x hx => by cases hx⟩
    | cons hc _ ih =>
      rename_i c l r h _
      intro hI ht hx
      have hm := call_mode hI hc (hx _ List.mem_cons_self)
      obtain ⟨a1, a2, a3⟩ := ih (call_inv hI hc).1 (hm.1 (.inl ht)) (fun x hx' => hx x (List.mem_cons_of_mem _ hx'))
      refine ⟨a1, a2, fun x hx' => ?_⟩
      rcases List.mem_cons.mp hx' with rfl | hx'
      · by_cases hd : ∃ k, c = .doFixed k
        · obtain ⟨k, rfl⟩ := hd
          exact fixed hI ht hc
        · exact hm.2 fun k hk => hd ⟨k, hk⟩
      · exact a3 x hx'
  refine ⟨key hh inv_fresh, ?_⟩
  rintro h1 h2 c l r rfl hc hr hx
  obtain ⟨sa, g1, g2⟩ := hh.split
  cases g2 with
  | cons hcall g3 =>
  have hIa := history_inv g1 inv_fresh
  have hnt : c.isTrain = false := by cases c <;> first | rfl | cases hc
  obtain ⟨a1, a2, a3⟩ := run g3 (call_inv hIa hcall).1 ((call_mode hIa hcall hnt).1 (.inr ⟨hc, hr⟩)) hx
  exact ⟨a3, fun rows s' fs r' hf => fixed a1 a2 hf⟩

/-- **C139 is false of the code without that restriction**: after a training with batches of 2 rows `doFixedBatchFprop` runs a batch of 2
rows in training mode (dropout and the like are on), although the network had been initialised for inference with fixed batches of up
to 4 rows, and a batch of 3 rows is then run in inference mode. -/
theorem fixed_pass_in_training_mode : ∃ (o : Outcome) (x : Session) (s : St) (l : List Fwd), x.immediatelyDeinit = false ∧
    History St.fresh [(.initFixed 4 o, [], .success), (.train x, l, .success), (.doFixed 2, [⟨2, true, 2, 4⟩], .success),
      (.doFixed 3, [⟨3, false, 3, 4⟩], .success)] s := by
  refine ⟨⟨none, 0, true, true⟩, ⟨.ok (4, 2), 0, ⟨none, 0, true, true⟩, .success, true, [4, 1], [(3, [4, 1], true)], false, false⟩,
    _, _, rfl, .cons rfl (.cons rfl (.cons rfl (.cons rfl (.nil _))))⟩

/-! ### State of the optimisers -/

theorem Ready.within {s s' : St} {f b F B : Nat} {ok : Prop} (h : Ready s f b s' ok) (hr : s.net.requireReinit = false)
    (h0 : 0 < s.net.cd.maxFprop) (hF : F ≤ s.net.cd.maxFprop) (hB : B ≤ s.net.cd.trainBs) (hf : f ≤ F) (hb : b ≤ B) :
    s'.net.cd.maxFprop = s.net.cd.maxFprop ∧ s'.net.cd.trainBs = s.net.cd.trainBs ∧ s'.net.requireReinit = false ∧ s'.opt = s.opt ∧
    s.stor ≤ s'.stor := by
  cases h with
  | kept a1 a2 a3 a4 a5 a6 => exact ⟨a2, a3, a4.trans hr, a5, a6⟩
  | anew a1 a2 =>
    have : s.net.isInitialized f b = true := (isInit_iff _ _ _).mpr ⟨hr, h0, by omega, by omega⟩
    rw [this] at a1; cases a1

theorem within_keeps {s s' : St} (hI : Inv s) {c : Call} {l : List Fwd} {r : Code} (h : s.call c = some (s', l, r)) {F B : Nat}
    (hw : Within F B c) (hr : s.net.requireReinit = false) (h0 : 0 < s.net.cd.maxFprop) (hF : F ≤ s.net.cd.maxFprop)
    (hB : B ≤ s.net.cd.trainBs) :
    s'.net.cd.maxFprop = s.net.cd.maxFprop ∧ s'.net.cd.trainBs = s.net.cd.trainBs ∧ s'.net.requireReinit = false ∧ s'.opt = s.opt ∧
    s.stor ≤ s'.stor := by
  have mv : ∀ {s1 : St}, Moved s s1 → s1.net.cd.maxFprop = s.net.cd.maxFprop ∧ s1.net.cd.trainBs = s.net.cd.trainBs ∧
      s1.net.requireReinit = false ∧ s1.opt = s.opt ∧ s.stor ≤ s1.stor := by
    intro s1 hm
    obtain ⟨a1, a2, a3, a4, a5, a6, a7, a8, -⟩ := hm.keeps
    exact ⟨a1, a2, a3.trans hr, a8, Nat.le_of_eq a6.symm⟩
  cases c with
  | fprop rows o =>
    obtain ⟨-, -, -, -, -, -, -, h2, -⟩ := fprop_facts hI h
    exact h2.within hr h0 hF hB hw (Nat.zero_le _)
  | initFixed bs o =>
    simp only [St.call, Option.map_eq_some_iff, Prod.mk.injEq] at h
    obtain ⟨⟨s1, c1⟩, h1, rfl, rfl, rfl⟩ := h
    obtain ⟨-, -, -, -, -, -, h2, -⟩ := initFixed_facts hI h1
    exact h2.within hr h0 hF hB hw (Nat.zero_le _)
  | initFixedTd ready made need o ok =>
    simp only [St.call, Option.map_eq_some_iff, Prod.mk.injEq] at h
    obtain ⟨⟨s1, c1⟩, h1, rfl, rfl, rfl⟩ := h
    obtain ⟨-, -, -, ⟨e, -, -, -, rfl⟩ | ⟨bs, k1, k2, k3, k4, k5, k6⟩⟩ := initFixedTd_facts hI h1
    · exact ⟨rfl, rfl, hr, rfl, Nat.le_refl _⟩
    · refine k5.within hr h0 hF hB ?_ (Nat.zero_le _)
      rcases k1 with rfl | ⟨rfl, rfl⟩ <;> exact hw
  | prepare bs =>
    simp only [St.call, Option.map_eq_some_iff, Prod.mk.injEq] at h
    obtain ⟨s1, h1, rfl, rfl, rfl⟩ := h
    exact mv (setMode_moved hI h1)
  | doFixed rows =>
    simp only [St.call, Option.map_eq_some_iff, Prod.mk.injEq] at h
    obtain ⟨⟨s1, l1⟩, h1, rfl, rfl, rfl⟩ := h
    exact mv (doFixed_moved hI h1).1
  | evaluate rows =>
    simp only [St.call, Option.map_eq_some_iff, Prod.mk.injEq] at h
    obtain ⟨⟨s1, l1⟩, h1, rfl, rfl, rfl⟩ := h
    exact mv (evaluate_moved hI h1).1
  | train x =>
    obtain ⟨hd, hf⟩ := hw
    simp only [St.call, St.train, Option.map_eq_some_iff, Prod.mk.injEq] at h
    obtain ⟨⟨s1, l1, c1⟩, h1, h2, h3⟩ := h
    cases h3
    rw [if_neg (by rw [hd]; decide)] at h2
    subst h2
    obtain ⟨-, -, -, ⟨e, -, -, rfl, -⟩ | ⟨f, b, k1, k2, k3, k4⟩⟩ := trainBody_facts hI h1
    · exact ⟨rfl, rfl, hr, rfl, Nat.le_refl _⟩
    · obtain ⟨f1, f2⟩ := hf f b k1
      exact k4.within hr h0 hF hB f1 f2
  | requireReinit => exact hw.elim
  | dontRequireReinit => cases h; exact ⟨rfl, rfl, rfl, rfl, Nat.le_refl _⟩
  | deinit => exact hw.elim

/-- **C140 (partial).** After a successful training with up to `f` rows in forward passes and batches of `b` rows (not deinitialised at
once), evaluations, inference and further trainings that ask for no more than that — whether they succeed or fail — leave the state of
the optimisers (momenta, averages of gradients, individual learning rates) in place: it is still the one this training has left.
Missing: bigger requests, see `bigger_evaluation_resets_optimisers`. -/
theorem evaluation_keeps_training_partial {h1 h2 : List (Call × List Fwd × Code)} {x : Session} {l : List Fwd} {s1 s : St} {f b : Nat}
    (hh1 : History St.fresh (h1 ++ [(.train x, l, .success)]) s1) (hx : x.td = .ok (f, b)) (hd : x.immediatelyDeinit = false)
    (hh2 : History s1 h2 s) (hw : ∀ y ∈ h2, Within f b y.1) :
    s1.opt ≠ none ∧ s.opt = s1.opt ∧ s1.stor ≤ s.stor := by
  obtain ⟨sa, g1, g2⟩ := hh1.split
  have hIa := history_inv g1 inv_fresh
  cases g2 with
  | cons hc g3 =>
  cases g3
  have hI1 := (call_inv hIa hc).1
  have hf : 0 < f ∧ f ≤ s1.net.cd.maxFprop ∧ b ≤ s1.net.cd.trainBs ∧ s1.net.requireReinit = false := by
    simp only [St.call, St.train, Option.map_eq_some_iff, Prod.mk.injEq] at hc
    obtain ⟨⟨s2, l2, c2⟩, k1, k2, k3⟩ := hc
    cases k3
    rw [if_neg (by rw [hd]; decide)] at k2
    subst k2
    obtain ⟨-, -, -, ⟨e, e1, -⟩ | ⟨f', b', e1, e2, e3, e4⟩⟩ := trainBody_facts hIa k1
    · rw [hx] at e1; cases e1
    · rw [hx] at e1
      cases e1
      cases e4 with
      | kept a1 a2 a3 a4 a5 a6 =>
        obtain ⟨c1, c2, c3, c4⟩ := (isInit_iff _ _ _).mp a1
        exact ⟨by omega, by rw [a2]; exact c3, by rw [a3]; exact c4, a4.trans c1⟩
      | anew a1 a2 =>
        obtain ⟨c1, c2, c3, c4⟩ := a2 (.inl rfl)
        exact ⟨by omega, Nat.le_of_eq c1.symm, Nat.le_of_eq c2.symm, c3⟩
  obtain ⟨q1, q2, q3, q4⟩ := hf
  refine ⟨hI1.live (by omega), ?_⟩
  have key : ∀ {a b' : St} {h : List (Call × List Fwd × Code)}, History a h b' → Inv a → a.net.requireReinit = false →
      f ≤ a.net.cd.maxFprop → b ≤ a.net.cd.trainBs → (∀ y ∈ h, Within f b y.1) → b'.opt = a.opt ∧ a.stor ≤ b'.stor := by
    intro a b' h hh
    induction hh with
    | nil s => intros; exact ⟨rfl, Nat.le_refl _⟩
    | cons hc _ ih =>
      intro ha hr hF hB hy
      obtain ⟨w1, w2, w3, w4, w5⟩ := within_keeps ha hc (hy _ List.mem_cons_self) hr (by omega) hF hB
      obtain ⟨z1, z2⟩ := ih (call_inv ha hc).1 w3 (by omega) (by omega) (fun y hy' => hy y (List.mem_cons_of_mem _ hy'))
      exact ⟨z1.trans w4, Nat.le_trans w5 z2⟩
  exact key hh2 hI1 q4 q2 q3 hw

/-- **C140 is false of the code without the bound**: a training leaves its optimisers in state number 1; a successful `fprop` of one row
more than the training has used for forward passes replaces it by a new one, number 2, and leaves a network that can't be trained
without being initialised anew: the next training, with the same sizes, starts from state number 3. -/
theorem bigger_evaluation_resets_optimisers : ∃ (o : Outcome) (x : Session) (s1 s2 s3 : St) (l l' : List Fwd), x.immediatelyDeinit = false ∧
    History St.fresh [(.train x, l, .success)] s1 ∧ s1.opt = some 1 ∧
    History s1 [(.fprop 5 o, [⟨5, false, 5, 5⟩], .success)] s2 ∧ s2.opt = some 2 ∧
    History s2 [(.train x, l', .success)] s3 ∧ s3.opt = some 3 := by
  refine ⟨⟨none, 0, true, true⟩, ⟨.ok (4, 2), 0, ⟨none, 0, true, true⟩, .success, true, [4, 1], [(3, [4, 1], true)], false, false⟩,
    _, _, _, _, _, rfl, .cons rfl (.nil _), rfl, .cons rfl (.nil _), rfl, .cons rfl (.nil _), rfl⟩

/-! ### Scratch memory of the training data object -/

/-- **C140 (scratch memory, partial).** After a successful `init4fixedBatchFprop(td, bs)` the math object has the scratch memory `td`
asks for, and keeps it through any calls asking for no more than `bs` rows in forward passes and not for training (with any outcome).
Missing: bigger requests, see `bigger_evaluation_takes_scratch`. -/
theorem scratch_for_data_partial {h1 h2 : List (Call × List Fwd × Code)} {ready : Option Nat} {made : Except Nat Nat} {need bs : Nat}
    {o : Outcome} {ok : Bool} {l : List Fwd} {s1 s : St} (hp : promise (.initFixedTd ready made need o ok) .success = some bs)
    (hh1 : History St.fresh (h1 ++ [(.initFixedTd ready made need o ok, l, .success)]) s1)
    (hh2 : History s1 h2 s) (hw : ∀ y ∈ h2, Within bs 0 y.1) : need ≤ s.stor := by
  obtain ⟨sa, g1, g2⟩ := hh1.split
  have hIa := history_inv g1 inv_fresh
  cases g2 with
  | cons hc g3 =>
  cases g3
  have hI1 := (call_inv hIa hc).1
  obtain ⟨p1, p2, p3, p4⟩ := promise_holds hIa hc hp
  have hst : need ≤ s1.stor := by
    simp only [St.call, Option.map_eq_some_iff, Prod.mk.injEq] at hc
    obtain ⟨⟨s2, c2⟩, k1, k2, k3, k4⟩ := hc
    dsimp only at k2 k4
    subst k2; subst k4
    obtain ⟨-, -, -, ⟨e, -, -, e1, -⟩ | ⟨bs', -, -, -, -, -, e6⟩⟩ := initFixedTd_facts hIa k1
    · cases e1
    · exact (e6 rfl).1
  have key : ∀ {a b' : St} {h : List (Call × List Fwd × Code)}, History a h b' → Inv a → a.net.requireReinit = false →
      bs ≤ a.net.cd.maxFprop → (∀ y ∈ h, Within bs 0 y.1) → a.stor ≤ b'.stor := by
    intro a b' h hh
    induction hh with
    | nil s => intros; exact Nat.le_refl _
    | cons hc _ ih =>
      intro ha hr hF hy
      obtain ⟨w1, w2, w3, w4, w5⟩ := within_keeps ha hc (hy _ List.mem_cons_self) hr (by omega) hF (Nat.zero_le _)
      exact Nat.le_trans w5 (ih (call_inv ha hc).1 w3 (by omega) (fun y hy' => hy y (List.mem_cons_of_mem _ hy')))
  exact Nat.le_trans hst (key hh2 hI1 p2 p4 hw)

/-- Without the bound it is false of the code: a successful `fprop` of a bigger batch takes the scratch memory of the data object away. -/
theorem bigger_evaluation_takes_scratch : ∃ (o : Outcome) (s1 s2 : St),
    History St.fresh [(.initFixedTd (some 4) (.ok 4) 10 o true, [], .success)] s1 ∧ s1.stor = 10 ∧
    History s1 [(.fprop 5 o, [⟨5, false, 5, 5⟩], .success)] s2 ∧ s2.stor = 3 :=
  ⟨⟨none, 3, true, true⟩, _, _, .cons rfl (.nil _), rfl, .cons rfl (.nil _), rfl⟩

/-! ### Last error -/

/-- **C141 (partial).** `get_last_error()` after `fprop`, `init4fixedBatchFprop(bs)` and `train` is the code the call has returned, and so
it is after `init4fixedBatchFprop(td, bs)` unless the initialisation of the data object fails. Missing: that failure, see
`data_failure_not_recorded`. -/
theorem last_error_partial {h : List (Call × List Fwd × Code)} {s s' : St} (hh : History St.fresh h s) {c : Call} {l : List Fwd} {r : Code}
    (hc : s.call c = some (s', l, r)) :
    ((∃ k o, c = .fprop k o) ∨ (∃ k o, c = .initFixed k o) ∨ (∃ x, c = .train x) → s'.err = r) ∧
    ((∃ a b n o k, c = .initFixedTd a b n o k) → (∀ e, r ≠ .td e) → s'.err = r) ∧
    (c.inference = false → c.isTrain = false → s'.err = s.err) := by
  have hI := history_inv hh inv_fresh
  refine ⟨?_, ?_, ?_⟩
  · rintro (⟨k, o, rfl⟩ | ⟨k, o, rfl⟩ | ⟨x, rfl⟩)
    · exact (fprop_facts hI hc).2.1
    · simp only [St.call, Option.map_eq_some_iff, Prod.mk.injEq] at hc
      obtain ⟨⟨s1, c1⟩, h1, rfl, rfl, rfl⟩ := hc
      exact (initFixed_facts hI h1).2.1
    · simp only [St.call, St.train, Option.map_eq_some_iff, Prod.mk.injEq] at hc
      obtain ⟨⟨s1, l1, c1⟩, h1, h2, h3⟩ := hc
      cases h3
      have := (trainBody_facts hI h1).2.1
      rw [← h2]
      split
      · exact this
      · exact this
  · rintro ⟨a, b, n, o, k, rfl⟩ hr
    simp only [St.call, Option.map_eq_some_iff, Prod.mk.injEq] at hc
    obtain ⟨⟨s1, c1⟩, h1, rfl, rfl, rfl⟩ := hc
    obtain ⟨-, -, -, ⟨e, -, -, e1, -⟩ | ⟨bs', -, e1, -⟩⟩ := initFixedTd_facts hI h1
    · exact absurd e1 (hr e)
    · exact e1
  · intro h1 h2
    cases c <;> first | (cases h1; done) | (cases h2; done) | (cases hc; rfl)

/-- **C141 is false of the code for that failure**: `init4fixedBatchFprop(td, bs)` returns the error of the data object while
`get_last_error()` still tells success. -/
theorem data_failure_not_recorded : ∃ (o : Outcome) (s : St),
    History St.fresh [(.initFixedTd none (.error 1) 0 o true, [], .td 1)] s ∧ s.err = .success :=
  ⟨⟨none, 0, true, true⟩, _, .cons rfl (.nil _), rfl⟩

/-- The index of a failed layer survives: a layer fails, then a training fails for its data, and the index shown with the second error is
that of the first. -/
theorem failed_layer_index_is_stale : ∃ (o : Outcome) (x : Session) (s : St),
    History St.fresh [(.fprop 4 o, [], .layer 7), (.train x, [], .td 1)] s ∧ s.err = .td 1 ∧ s.failed = 2 :=
  ⟨⟨some (2, 7), 0, true, true⟩, ⟨.error 1, 0, ⟨none, 0, true, true⟩, .success, true, [], [], false, false⟩, _,
    .cons rfl (.cons rfl (.nil _)), rfl, rfl⟩

/-- The index of the failed layer and the number of initialisations are the same. -/
def SameLayer (s s' : St) : Prop := s'.failed = s.failed ∧ s'.made = s.made

theorem setMode_same {s s' : St} {t : Bool} {bs : Nat} (h : s.setMode t bs = some s') : SameLayer s s' := by
  unfold St.setMode at h
  split at h
  · cases h; exact ⟨rfl, rfl⟩
  · cases h

theorem setModeBs_same {s s' : St} {bs : Nat} (h : s.setModeBs bs = some s') : SameLayer s s' := by
  unfold St.setModeBs at h
  split at h <;> exact setMode_same h

theorem fwd_same {s s' : St} {r : Nat} {l : List Fwd} (h : s.fwd r = some (s', l)) : SameLayer s s' := by
  unfold St.fwd at h
  split at h
  · cases h
  · simp only [Option.map_eq_some_iff, Prod.mk.injEq] at h
    obtain ⟨s1, h1, rfl, -⟩ := h
    exact setModeBs_same h1

theorem SameLayer.trans {a b c : St} (h : SameLayer a b) (h' : SameLayer b c) : SameLayer a c :=
  ⟨h'.1.trans h.1, h'.2.trans h.2⟩

theorem evaluate_same : ∀ {rs : List Nat} {s s' : St} {l : List Fwd}, s.evaluate rs = some (s', l) → SameLayer s s'
  | [], _, _, _, h => by cases h; exact ⟨rfl, rfl⟩
  | r :: rs, s, s', l, h => by
    unfold St.evaluate at h
    split at h
    · cases h
    · rename_i s1 l1 h1
      simp only [Option.map_eq_some_iff, Prod.mk.injEq] at h
      obtain ⟨⟨s2, l2⟩, h2, rfl, -⟩ := h
      exact (fwd_same h1).trans (evaluate_same h2)

theorem epochs_same : ∀ {es : List (Nat × List Nat × Bool)} {s s' : St} {l : List Fwd}, s.epochs es = some (s', l) → SameLayer s s'
  | [], _, _, _, h => by cases h; exact ⟨rfl, rfl⟩
  | (n, rep, goOn) :: es, s, s', l, h => by
    unfold St.epochs at h
    dsimp only at h
    split at h
    · cases h
    · rename_i s1 l1 h1
      split at h
      · cases h; exact evaluate_same h1
      · split at h
        · cases h
        · rename_i s2 h2
          simp only [Option.map_eq_some_iff, Prod.mk.injEq] at h
          obtain ⟨⟨s3, l3⟩, h3, rfl, -⟩ := h
          exact ((evaluate_same h1).trans (setModeBs_same h2)).trans (epochs_same h3)

/-- What a call with the initialisation `o` does to the index of the failed layer. -/
def LayerTold (o : Outcome) (s s' : St) (r : Code) : Prop :=
  (∀ c, r = .layer c → o.layers = some (s'.failed, c)) ∧
  (SameLayer s s' ∨ s'.made = s.made + 1 ∧ (o.layers = none → s'.failed = 0))

theorem LayerTold.then {o : Outcome} {s s' s'' : St} {r r' : Code} (h : LayerTold o s s' r) (h' : SameLayer s' s'')
    (hr : ∀ c, r' = .layer c → r = .layer c) : LayerTold o s s'' r' := by
  obtain ⟨a, b⟩ := h
  refine ⟨fun c hc => by rw [h'.1]; exact a c (hr c hc), ?_⟩
  rcases b with b | ⟨b1, b2⟩
  · exact .inl (b.trans h')
  · exact .inr ⟨h'.2.trans b1, fun h => h'.1.trans (b2 h)⟩

theorem fullInit_told {s s' : St} {f b : Nat} {o : Outcome} {r : Code} (h : s.fullInit f b o = (s', r)) :
    (∀ c, r = .layer c → o.layers = some (s'.failed, c)) ∧ s'.made = s.made + 1 ∧ (o.layers = none → s'.failed = 0) := by
  unfold St.fullInit at h
  dsimp only at h
  split at h
  · rename_i i c ho
    cases h
    exact ⟨fun c' hc => by cases hc; exact ho, rfl, fun h => by rw [ho] at h; cases h⟩
  · split at h
    · cases h; exact ⟨(nofun), rfl, fun _ => rfl⟩
    · split at h <;> cases h <;> exact ⟨(nofun), rfl, fun _ => rfl⟩

theorem init_told {s s' : St} {f b : Nat} {o : Outcome} {r : Code} (h : s.init f b o = some (s', r)) : LayerTold o s s' r := by
  unfold St.init at h
  split at h
  · split at h
    · split at h <;> cases h <;> exact ⟨(nofun), .inl ⟨rfl, rfl⟩⟩
    · rw [Option.some.injEq] at h
      obtain ⟨a, b, c⟩ := fullInit_told h
      exact ⟨a, .inr ⟨b, c⟩⟩
  · cases h

theorem init4train_told {s s' : St} {x : Session} {r : Code} (h : s.init4train x = some (s', r)) : LayerTold x.o s s' r := by
  unfold St.init4train at h
  split at h
  · cases h; exact ⟨(nofun), .inl ⟨rfl, rfl⟩⟩
  · split at h
    · dsimp only at h
      split at h
      · split at h <;> cases h <;> exact ⟨(nofun), .inl ⟨rfl, rfl⟩⟩
      · rw [Option.some.injEq] at h
        obtain ⟨a, b, c⟩ := fullInit_told h
        exact ⟨a, .inr ⟨b, c⟩⟩
    · cases h

/-- **C141, the failed layer.** If `fprop`, `init4fixedBatchFprop` or `train` returns the error of a layer, the index shown by
`get_last_error_string()` is that of the layer which has failed in this call. If the layers were initialised by the call and none has
failed, it is zero; if they were not, it is what it was. -/
theorem failed_layer_index {s s' : St} {c : Call} {l : List Fwd} {r : Code} {o : Outcome} (hc : s.call c = some (s', l, r))
    (h : (∃ k, c = .fprop k o) ∨ (∃ k, c = .initFixed k o) ∨ (∃ x : Session, c = .train x ∧ x.o = o ∧ ∀ e, x.onInit ≠ .layer e)) :
    (∀ e, r = .layer e → o.layers = some (s'.failed, e)) ∧
    (s'.failed = s.failed ∧ s'.made = s.made ∨ s'.made = s.made + 1 ∧ (o.layers = none → s'.failed = 0)) := by
  rcases h with ⟨k, rfl⟩ | ⟨k, rfl⟩ | ⟨x, rfl, rfl, hx⟩
  · simp only [St.call, St.fprop] at hc
    split at hc
    · cases hc
    · rename_i s1 c1 h1
      split at hc
      · cases hc
        exact (init_told h1).then ⟨rfl, rfl⟩ fun _ h => h
      · simp only [Option.map_eq_some_iff, Prod.mk.injEq] at hc
        obtain ⟨⟨s2, l2⟩, h2, rfl, rfl, rfl⟩ := hc
        exact (init_told h1).then ((fwd_same h2).trans ⟨rfl, rfl⟩) fun _ h => h
  · simp only [St.call, Option.map_eq_some_iff, Prod.mk.injEq] at hc
    obtain ⟨⟨s1, c1⟩, h1, rfl, rfl, rfl⟩ := hc
    unfold St.initFixed at h1
    split at h1
    · cases h1
    · split at h1
      · cases h1
      · rename_i s2 c2 h2
        split at h1
        · cases h1
          exact (init_told h2).then ⟨rfl, rfl⟩ fun _ h => h
        · simp only [Option.map_eq_some_iff, St.setErr, Prod.mk.injEq] at h1
          obtain ⟨s3, h3, rfl, rfl⟩ := h1
          exact (init_told h2).then ((setMode_same h3).trans ⟨rfl, rfl⟩) fun _ h => h
  · simp only [St.call, St.train, Option.map_eq_some_iff, Prod.mk.injEq] at hc
    obtain ⟨⟨s1, l1, c1⟩, h1, h2, h3⟩ := hc
    cases h3
    have key : LayerTold x.o s s1 r := by
      unfold St.trainBody at h1
      split at h1
      · cases h1
      · rename_i s2 c2 h2
        have T := init4train_told h2
        split at h1
        · cases h1
          exact T.then ⟨rfl, rfl⟩ fun _ h => h
        · split at h1
          · cases h1
            exact T.then ⟨rfl, rfl⟩ fun e h => absurd h (hx e)
          · split at h1
            · cases h1
              exact T.then ⟨rfl, rfl⟩ (nofun)
            · split at h1
              · cases h1
              · rename_i s3 l3 h3
                split at h1
                · cases h1
                · rename_i s4 h4
                  split at h1
                  · cases h1
                  · rename_i s5 l5 h5
                    cases h1
                    refine T.then ((((evaluate_same h3).trans (setModeBs_same h4)).trans (epochs_same h5)).trans ⟨rfl, rfl⟩) fun e h => ?_
                    split at h <;> cases h
    rw [← h2]
    split
    · exact key
    · exact key

/-- A history with a successful inference, a training, evaluations and reinitialisation: the hypotheses of the theorems above are met. -/
example : ∃ (o : Outcome) (x : Session) (s : St) (l : List Fwd),
    History St.fresh [(.initFixed 4 o, [], .success), (.doFixed 3, [⟨3, false, 3, 4⟩], .success), (.train x, l, .success),
      (.prepare 2, [], .success), (.doFixed 2, [⟨2, false, 2, 6⟩], .success), (.evaluate [6, 5], [⟨6, false, 6, 6⟩, ⟨5, false, 5, 6⟩], .success),
      (.requireReinit, [], .success), (.fprop 2 o, [⟨2, false, 2, 2⟩], .success)] s ∧
    promise (.train x) .success = some 6 ∧ l.length = 10 := by
  refine ⟨⟨none, 3, true, true⟩, ⟨.ok (6, 2), 5, ⟨none, 3, true, true⟩, .success, true, [6, 1], [(3, [6, 1], true), (3, [], true)], false, false⟩,
    _, _, .cons rfl (.cons rfl (.cons rfl (.cons rfl (.cons rfl (.cons rfl (.cons rfl (.cons rfl (.nil _)))))))), rfl, rfl⟩

end Nntl.Session
