import Verif.Dumper.Spec
/-! What the conditions decide. -/
namespace Nntl.Dumper

theorem bind_ok {α β : Type} (a : α) (f : α → Res β) : (Res.ok a).bind f = f a := rfl

/-- The flag of epoch `e` is set. -/
def Flag (fl : List Bool) (e : Nat) : Prop := fl[e]? = some true

theorem setFlag_ok {fl : List Bool} {i : Nat} (h : i < fl.length) : setFlag fl i = .ok (fl.set i true) := by
  rw [setFlag, if_neg (by omega), Int.toNat_natCast]

theorem setEpochs_spec (T : Nat) (hT : 0 < T) : ∀ (es : List Int) (fl : List Bool), fl.length = T → (∀ x ∈ es, 0 ≤ x) →
    ∃ fl', setEpochs T es fl = .ok fl' ∧ fl'.length = T ∧
      ∀ e, Flag fl' e ↔ Flag fl e ∨ (e < T ∧ ((e : Int) ∈ es ∨ (e + 1 = T ∧ ∃ x ∈ es, (T : Int) ≤ x)))
  | [], fl, hl, _ => ⟨fl, rfl, hl, fun e => by simp⟩
  | x :: es, fl, hl, hx => by
    have h0 := hx x (List.mem_cons_self ..)
    obtain ⟨i, hi, hiT⟩ : ∃ i : Nat, (if x < T then x else (T : Int) - 1) = i ∧ i < T := by
      split
      · exact ⟨x.toNat, by omega, by omega⟩
      · exact ⟨T - 1, by omega, by omega⟩
    obtain ⟨fl', h1, h2, h3⟩ := setEpochs_spec T hT es (fl.set i true) (by simpa using hl) (fun y hy => hx y (List.mem_cons_of_mem _ hy))
    refine ⟨fl', ?_, h2, ?_⟩
    · rw [setEpochs, hi, setFlag_ok (by omega), bind_ok, h1]
    · intro e
      rw [h3 e]
      have hs : Flag (fl.set i true) e ↔ Flag fl e ∨ e = i := by
        unfold Flag
        rw [List.getElem?_set]
        by_cases he : i = e
        · subst he
          rw [if_pos rfl, if_pos (by omega)]
          simp
        · rw [if_neg he]
          constructor
          · exact Or.inl
          · rintro (h | h)
            · exact h
            · exact absurd h.symm he
      rw [hs]
      simp only [List.mem_cons, exists_eq_or_imp]
      constructor
      · rintro ((h | rfl) | ⟨h, (h' | ⟨h', h''⟩)⟩)
        · exact .inl h
        · right
          refine ⟨hiT, ?_⟩
          split at hi
          · left; left; omega
          · right; exact ⟨by omega, .inl (by omega)⟩
        · exact .inr ⟨h, .inl (.inr h')⟩
        · exact .inr ⟨h, .inr ⟨h', .inr h''⟩⟩
      · rintro (h | ⟨h, ((h' | h') | ⟨h', (h'' | h'')⟩)⟩)
        · exact .inl (.inl h)
        · left; right; split at hi <;> omega
        · exact .inr ⟨h, .inl h'⟩
        · left; right; split at hi <;> omega
        · exact .inr ⟨h, .inr ⟨h', h''⟩⟩

/-- The condition object as it is after the initialisation, in a training of `T` epochs. `n`: the number of batches of the current epoch, if one has begun. -/
structure Ready (w : Wish) (T : Nat) (n : Option Nat) (c : Cond) : Prop where
  kind : c.kind = w.kind
  len : w.kind ≠ .firstBatches → c.flags.length = T
  flags : w.kind ≠ .firstBatches → ∀ e, Flag c.flags e ↔ e < T ∧ w.listed T e
  last : w.kind = .lastBatch ∨ w.kind = .firstN → c.lastEpoch = (T : Int) - 1
  batch : w.kind = .lastBatch ∨ w.kind = .firstN → ∀ m, n = some m → c.lastBatch = (m : Int) - 1
  init : w.kind = .calcErr ∨ w.kind = .calcErrOnly → c.initialErr = false
  count : c.count = w.count
  stride : c.stride = if w.kind = .firstBatches ∧ w.stride = 0 then 1 else w.stride

theorem initEpochs_spec (w : Wish) (T : Nat) (hT : 0 < T) (c : Cond) (he : c.epochs = w.epochs) (h0 : ∀ x ∈ w.epochs, 0 ≤ x) :
    ∃ es fl, initEpochs T c = .ok { c with epochs := es, flags := fl } ∧ fl.length = T ∧ (∀ e, Flag fl e ↔ e < T ∧ w.listed T e) ∧ (∀ x ∈ es, 0 ≤ x) := by
  have hes : ∀ x ∈ (if c.epochs.isEmpty then [(T : Int) - 1] else c.epochs), 0 ≤ x := by
    intro x hx
    split at hx
    · simp only [List.mem_singleton] at hx; omega
    · exact h0 x (he ▸ hx)
  obtain ⟨fl, h1, h2, h3⟩ := setEpochs_spec T hT _ (List.replicate T false) (by simp) hes
  refine ⟨_, fl, ?_, h2, ?_, hes⟩
  · rw [initEpochs, h1]; rfl
  · intro e
    rw [h3 e]
    have hf : ¬ Flag (List.replicate T false) e := by
      unfold Flag
      rw [List.getElem?_replicate]
      split <;> simp
    simp only [hf, false_or, Wish.listed, he]
    rcases hw : w.epochs with _ | ⟨x, l⟩
    · simp only [List.isEmpty_nil, if_true, List.mem_singleton, List.not_mem_nil, false_and, exists_false, or_false, and_true, true_and, exists_eq_left, false_or]
      omega
    · simp

theorem init_ready (w : Wish) (hw : w.Ok) (T : Nat) (hT : 0 < T) (c : Cond) (hc : c.Has w) : ∃ c', c.init T = .ok c' ∧ Ready w T none c' ∧ c'.count = w.count := by
  obtain ⟨h1, h2, h3, h4⟩ := hc
  rw [Cond.init, h1]
  rcases hk : w.kind <;> simp only []
  · obtain ⟨es, fl, e1, e2, e3, -⟩ := initEpochs_spec w T hT c h2 (hw.2 (by simp [hk]))
    refine ⟨_, e1, ⟨h1, fun _ => e2, fun _ => e3, ?_, ?_, ?_, h3, ?_⟩, h3⟩ <;> simp [hk, h4]
  · obtain ⟨es, fl, e1, e2, e3, -⟩ := initEpochs_spec w T hT { c with lastEpoch := (T : Int) - 1, lastBatch := -1 } h2 (hw.2 (by simp [hk]))
    simp only [h1, hk] at e1
    refine ⟨_, e1, ⟨hk.symm, fun _ => e2, fun _ => e3, ?_, ?_, ?_, h3, ?_⟩, h3⟩ <;> simp [hk, h4]
  · obtain ⟨es, fl, e1, e2, e3, -⟩ := initEpochs_spec w T hT { c with lastEpoch := (T : Int) - 1, lastBatch := -1 } h2 (hw.2 (by simp [hk]))
    simp only [h1, hk] at e1
    refine ⟨_, e1, ⟨hk.symm, fun _ => e2, fun _ => e3, ?_, ?_, ?_, h3, ?_⟩, h3⟩ <;> simp [hk, h4]
  · obtain ⟨es, fl, e1, e2, e3, e4⟩ := initEpochs_spec w T hT c h2 (hw.2 (by simp [hk]))
    rw [e1, bind_ok]
    refine ⟨_, rfl, ⟨h1, fun _ => e2, fun _ => e3, ?_, ?_, ?_, h3, ?_⟩, h3⟩ <;> simp [hk, h4]
    intro x hx; have := e4 x hx; omega
  · obtain ⟨es, fl, e1, e2, e3, e4⟩ := initEpochs_spec w T hT c h2 (hw.2 (by simp [hk]))
    rw [e1, bind_ok]
    refine ⟨_, rfl, ⟨h1, fun _ => e2, fun _ => e3, ?_, ?_, ?_, h3, ?_⟩, h3⟩ <;> simp [hk, h4]
    intro x hx; have := e4 x hx; omega
  · rw [if_neg (by rw [h3]; exact hw.1 hk)]
    refine ⟨_, rfl, ⟨hk.symm, ?_, ?_, ?_, ?_, ?_, h3, ?_⟩, h3⟩ <;> simp [hk, h4]

theorem flagAt_spec {w : Wish} {T : Nat} {n : Option Nat} {c : Cond} (hr : Ready w T n c) (hk : w.kind ≠ .firstBatches) {e : Nat} (he : e < T) :
    ∃ b, flagAt c.flags e = .ok b ∧ (b = true ↔ w.listed T e) := by
  have hl := hr.len hk
  have hf := hr.flags hk e
  rw [flagAt, if_neg (by omega), Int.toNat_natCast]
  unfold Flag at hf
  rw [List.getElem?_eq_getElem (by omega)] at hf ⊢
  refine ⟨_, rfl, ?_⟩
  simp only [Option.some.injEq] at hf
  rw [hf]
  exact ⟨fun h => h.2, fun h => ⟨he, h⟩⟩

theorem epochBegin_ready {w : Wish} {T : Nat} {n : Option Nat} {c : Cond} (hr : Ready w T n c) {e : Nat} (he : e < T) (m : Nat) :
    ∃ c' d, c.epochBegin e m = .ok (c', d) ∧ Ready w T (some m) c' := by
  have hk := hr.kind
  rw [Cond.epochBegin, hk]
  rcases hw : w.kind <;> simp only []
  case calcErrOnly => exact ⟨_, _, rfl, ⟨hr.kind, hr.len, hr.flags, hr.last, by simp [hw], hr.init, hr.count, hr.stride⟩⟩
  case firstBatches => exact ⟨_, _, rfl, ⟨hr.kind, hr.len, hr.flags, hr.last, by simp [hw], hr.init, hr.count, hr.stride⟩⟩
  all_goals
    obtain ⟨b, hb, -⟩ := flagAt_spec hr (by simp [hw]) he
    rw [hb, bind_ok]
    refine ⟨_, _, rfl, ⟨by simp [hr.kind, hw], hr.len, hr.flags, hr.last, ?_, hr.init, hr.count, hr.stride⟩⟩
    simp [hw]

theorem tmod_dvd (a b : Int) : a.tmod b = 0 ↔ b ∣ a := ⟨Int.dvd_of_tmod_eq_zero, Int.tmod_eq_zero_of_dvd⟩

theorem lastBatch_spec {w : Wish} {T m : Nat} {c : Cond} (hr : Ready w T (some m) c) (hk : w.kind = .lastBatch ∨ w.kind = .firstN) {e : Nat} (he : e < T) (k : Nat) :
    ∃ d, lastBatchWanted c k e = .ok d ∧ (d = true ↔ w.listed T e ∧ (if e + 1 = T then k + 1 = m else k = 0)) := by
  obtain ⟨b, hb, hb'⟩ := flagAt_spec hr (by rcases hk with h | h <;> simp [h]) he
  refine ⟨_, by rw [lastBatchWanted, hb]; rfl, ?_⟩
  rw [Bool.and_eq_true, hb', hr.last hk, hr.batch hk m rfl]
  by_cases h : e + 1 = T
  · rw [if_pos (by omega), if_pos h]
    simp only [decide_eq_true_eq]
    constructor <;> rintro ⟨a, b⟩ <;> exact ⟨a, by omega⟩
  · rw [if_neg (by omega), if_neg h]
    simp

theorem batchBegin_spec {w : Wish} {T m : Nat} {c : Cond} (hr : Ready w T (some m) c) {e : Nat} (he : e < T) (k : Nat) :
    ∃ d, c.batchBegin k e = .ok d ∧ (d = true ↔ w.batch T e m k) := by
  have hk := hr.kind
  rw [Cond.batchBegin, hk, Wish.batch]
  rcases hw : w.kind <;> simp only []
  case lastBatch => exact lastBatch_spec hr (by simp [hw]) he k
  case firstN =>
    by_cases h0 : e = 0
    · subst h0
      rw [if_pos (by omega), if_pos rfl]
      refine ⟨_, rfl, ?_⟩
      have hs := hr.stride
      rw [if_neg (by simp [hw])] at hs
      simp only [Bool.and_eq_true, Bool.or_eq_true, decide_eq_true_eq, hr.count, hs, tmod_dvd, or_assoc]
      simp
    · rw [if_neg (by omega), if_neg h0]
      exact lastBatch_spec hr (by simp [hw]) he k
  case calcErrOnly => exact ⟨_, rfl, by simp⟩
  case firstBatches =>
    have hs := hr.stride
    simp only [hw, true_and] at hs
    rw [hr.count]
    by_cases h1 : (k : Int) < w.count
    · rw [if_pos h1]
      by_cases h2 : w.stride = 0
      · rw [hs, if_pos h2, if_neg (by omega)]
        exact ⟨_, rfl, by simp [h1, h2]⟩
      · rw [hs, if_neg h2, if_neg h2]
        exact ⟨_, rfl, by simp [h1, h2, tmod_dvd]⟩
    · rw [if_neg h1]
      exact ⟨_, rfl, by simp [h1]⟩
  all_goals
    by_cases h0 : k = 0
    · subst h0
      rw [if_pos (by omega)]
      obtain ⟨b, hb, hb'⟩ := flagAt_spec hr (by simp [hw]) he
      exact ⟨b, hb, by simp [hb']⟩
    · rw [if_neg (by omega)]
      exact ⟨_, rfl, by simp [h0]⟩

theorem calcErr_spec {w : Wish} (hwk : w.Ok) {T : Nat} {n : Option Nat} {c : Cond} (hr : Ready w T n c) (e : Option Nat) (he : ∀ i, e = some i → i < T) (set : Nat) :
    ∃ d, c.calcErr (match e with | none => -1 | some e => e) set = .ok d ∧ (d = true ↔ w.err T e set) := by
  have hk := hr.kind
  rw [Cond.calcErr, hk]
  unfold Wish.err
  rcases hw : w.kind <;> simp only []
  case calcErr | calcErrOnly =>
    by_cases h0 : set = 0
    · subst h0
      rw [if_pos (by omega)]
      rcases e with _ | e
      · refine ⟨_, rfl, ?_⟩
        have := hwk.2 (by simp [hw]) (-1)
        rw [hr.init (by simp [hw])]
        simp only [true_and]
        constructor
        · intro h; cases h
        · intro h; have := this h.2; omega
      · dsimp only
        rw [if_neg (by omega)]
        obtain ⟨b, hb, hb'⟩ := flagAt_spec hr (by simp [hw]) (he e rfl)
        exact ⟨b, hb, by simp [hb']⟩
    · rw [if_neg (by omega)]
      exact ⟨_, rfl, by simp [h0]⟩
  all_goals exact ⟨_, rfl, by simp⟩

end Nntl.Dumper
