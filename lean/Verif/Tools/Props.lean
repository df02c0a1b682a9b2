import Verif.Tools.Spec
import Verif.Text.Props
import Verif.Threads.PartitionProps
/-! Properties of the small tools. -/
namespace Nntl.Tools
open Nntl.Text Nntl.Threads

/-! ### Timers -/

/-- A timer and what it has measured. -/
def Inv (t : Timer) (ds : List Int) : Prop :=
  t.repeats = ds.length ∧ t.all = ds.sum ∧ (∀ d r, ds = d :: r → t.first = d) ∧ (ds = [] → t.best = maxRep) ∧
    (ds ≠ [] → t.best ∈ ds ∧ ∀ x ∈ ds, t.best ≤ x) ∧ 0 ≤ t.start

theorem inv_store {t t' : Timer} {ds : List Int} {d : Int} (h : Inv t ds) (hd : d ≤ maxRep) (e : t.store d = some t') : Inv t' (ds ++ [d]) ∧ t'.start = t.start := by
  obtain ⟨h1, h2, h3, h4, h5, h6⟩ := h
  unfold Timer.store at e
  split at e
  · cases e
    refine ⟨⟨by simp [h1], by simp [h2, List.sum_append], ?_, by simp, fun _ => ?_, h6⟩, rfl⟩
    · intro x r hx
      cases ds with
      | nil => simp at hx; simp only [h1]; simp [hx.1]
      | cons y ys => simp at hx; simp only [h1]; simp [← hx.1, h3 y ys rfl]
    · show min d t.best ∈ _ ∧ ∀ x ∈ _, min d t.best ≤ x
      by_cases hn : ds = []
      · rw [hn]
        have := h4 hn
        refine ⟨by simp; omega, fun x hx => ?_⟩
        simp at hx; omega
      · have := h5 hn
        refine ⟨?_, fun x hx => ?_⟩
        · by_cases hlt : d ≤ t.best
          · rw [Int.min_eq_left hlt]; simp
          · rw [Int.min_eq_right (by omega)]; simp [this.1]
        · rw [List.mem_append] at hx
          cases hx with
          | inl hx => have := this.2 x hx; omega
          | inr hx => simp at hx; omega
  · cases e

theorem timer_inv (ops : List TOp) (hf : ∀ o ∈ ops, o.Fine) (t t' : Timer) (ds : List Int) (h : Inv t ds) (e : t.run ops = some t') :
    Inv t' (measured t.start ds ops) := by
  induction ops generalizing t ds with
  | nil => cases e; exact h
  | cons o os ih =>
    have hfo := hf o List.mem_cons_self
    have hfs : ∀ o ∈ os, o.Fine := fun o ho => hf o (List.mem_cons_of_mem _ ho)
    unfold Timer.run at e
    cases o with
    | reset =>
      exact ih hfs t.reset [] ⟨rfl, rfl, by simp, fun _ => rfl, by simp, h.2.2.2.2.2⟩ e
    | tic n =>
      exact ih hfs { t with start := n } ds ⟨h.1, h.2.1, h.2.2.1, h.2.2.2.1, h.2.2.2.2.1, hfo.1⟩ e
    | toc n =>
      show Inv t' (measured t.start (ds ++ [n - t.start]) os)
      simp only [Timer.step] at e
      cases hs : t.store (n - t.start) with
      | none => rw [hs] at e; cases e
      | some t1 =>
        rw [hs] at e
        have hd : n - t.start ≤ maxRep := by have := h.2.2.2.2.2; have := hfo.2; unfold maxRep; omega
        have h1 := inv_store h hd hs
        rw [← h1.2]
        have := ih hfs t1 _ h1.1 e
        rw [h1.2] at this ⊢
        exact this
    | store d =>
      show Inv t' (measured t.start (ds ++ [d]) os)
      simp only [Timer.step] at e
      cases hs : t.store d with
      | none => rw [hs] at e; cases e
      | some t1 =>
        rw [hs] at e
        have h1 := inv_store h (by have : d < 2 ^ 63 := hfo; unfold maxRep; omega) hs
        rw [← h1.2]
        exact ih hfs t1 _ h1.1 e
    | setRepeats r => exact absurd hfo id

/-- C180. After any sequence of measurements and resets a timer holds, of the durations measured since the last reset: their number, their sum, the first and
the smallest. -/
theorem timer_holds (ops : List TOp) (hf : ∀ o ∈ ops, o.Fine) (t : Timer) (e : Timer.new.run ops = some t) :
    t.repeats = (measured 0 [] ops).length ∧ t.all = (measured 0 [] ops).sum ∧ (∀ d r, measured 0 [] ops = d :: r → t.first = d) ∧
    (measured 0 [] ops ≠ [] → t.best ∈ measured 0 [] ops ∧ ∀ x ∈ measured 0 [] ops, t.best ≤ x) := by
  have h : Inv Timer.new [] := ⟨rfl, rfl, by simp, fun _ => rfl, by simp, by decide⟩
  obtain ⟨h1, h2, h3, _, h5, _⟩ := timer_inv ops hf Timer.new t [] h e
  exact ⟨h1, h2, h3, h5⟩

theorem timer_runs_aux (ops : List TOp) (t : Timer) (ds : List Int) (hall : t.all = ds.sum)
    (hs : ∀ k, -2 ^ 63 ≤ (measured t.start ds (ops.take k)).sum ∧ (measured t.start ds (ops.take k)).sum < 2 ^ 63) : ∃ t', t.run ops = some t' := by
  induction ops generalizing t ds with
  | nil => exact ⟨t, rfl⟩
  | cons o os ih =>
    have store : ∀ d, (∀ k, -2 ^ 63 ≤ (measured t.start (ds ++ [d]) (os.take k)).sum ∧ (measured t.start (ds ++ [d]) (os.take k)).sum < 2 ^ 63) →
        ∃ t', (t.store d).bind (fun t' => t'.run os) = some t' := by
      intro d hk
      have h0 := hk 0
      have e0 : measured t.start (ds ++ [d]) (os.take 0) = ds ++ [d] := by simp [measured]
      rw [e0, List.sum_append, ← hall] at h0
      simp at h0
      unfold Timer.store
      rw [if_pos (by unfold maxRep; omega)]
      exact ih { t with first := if t.repeats = 0 then d else t.first, best := min d t.best, all := t.all + d, repeats := t.repeats + 1 } (ds ++ [d])
        (by simp [List.sum_append, hall]) hk
    have hs' := fun k => hs (k + 1)
    simp only [List.take_succ_cons] at hs'
    unfold Timer.run
    cases o with
    | reset => exact ih t.reset [] rfl hs'
    | tic n => exact ih { t with start := n } ds hall hs'
    | toc n => exact store (n - t.start) hs'
    | store d => exact store d hs'
    | setRepeats r => exact ih { t with repeats := r } ds hall hs'

/-- C180. There is no overflow unless the sum of the durations overflows (292 years). -/
theorem timer_runs (ops : List TOp)
    (hs : ∀ k, -2 ^ 63 ≤ (measured 0 [] (ops.take k)).sum ∧ (measured 0 [] (ops.take k)).sum < 2 ^ 63) : ∃ t, Timer.new.run ops = some t :=
  timer_runs_aux ops Timer.new [] rfl hs

theorem shows_scale {p : Nat} {t : Text} {neg : Bool} {a d : Nat} (m : Nat) (h : Shows p t (.fin neg a d)) : Shows p t (.fin neg (a * m) (d * m)) := by
  obtain ⟨b, ip, fp, h1, h2, h3, h4, h5, h6, h7⟩ := h
  refine ⟨b, ip, fp, h1, h2, h3, h4, h5, ?_, ?_⟩
  · have := Nat.mul_le_mul_right m h6
    rw [Nat.add_mul] at this
    calc _ = 2 * (Nat.ofDigitChars 10 (ip ++ fp) 0 * d) * m := by rw [Nat.mul_assoc 2, Nat.mul_assoc _ d]
      _ ≤ _ := this
      _ = _ := by rw [Nat.mul_assoc 2, Nat.mul_right_comm]
  · have := Nat.mul_le_mul_right m h7
    rw [Nat.add_mul] at this
    calc _ = 2 * (a * 10 ^ p) * m := by rw [Nat.mul_assoc 2, Nat.mul_right_comm]
      _ ≤ _ := this
      _ = _ := by rw [Nat.mul_assoc 2, Nat.mul_assoc _ d]

theorem readable_unit (up : Nat → Bool) (p q : Per) (count : Int) (repeats k : Nat) (hr : 0 < repeats) (hk : 0 < k) (hq : q ≠ .other) (hl : q.len = p.len * k) :
    ShowsTime (fltText up false 8 3 (FVal.fin (decide (count < 0)) count.natAbs (repeats * k)) ++ " ".toList ++ padR 2 q.name) (decide (count < 0))
      (count.natAbs * p.len) repeats := by
  have h1 := shows_fltText up false 8 3 (by omega) (FVal.fin (decide (count < 0)) count.natAbs (repeats * k)) (Nat.mul_pos hr hk)
  have h2 := shows_scale p.len h1
  have e : repeats * k * p.len = repeats * q.len := by rw [hl, Nat.mul_assoc, Nat.mul_comm k]
  rw [e] at h2
  refine ⟨_, padR 2 q.name, q.len, rfl, ?_, h2⟩
  cases q with
  | other => exact absurd rfl hq
  | ns => decide
  | us => decide
  | ms => decide
  | s => decide

/-- C181. Durations in nanoseconds, as the library uses: the text shows the duration divided by the number of repetitions. -/
theorem nanoseconds_readable (up : Nat → Bool) (count : Int) (repeats : Nat) (hr : 0 < repeats) :
    ShowsTime (readable up .ns count repeats) (decide (count < 0)) count.natAbs repeats := by
  have A := fun q k hk hq hl => readable_unit up .ns q count repeats k hr hk hq hl
  simp only [Per.len, Nat.mul_one] at A
  unfold readable
  simp only
  split
  · exact A .ns 1 (by omega) (by decide) rfl
  · split
    · exact A .us 1000 (by omega) (by decide) rfl
    · split
      · exact A .ms 1000000 (by omega) (by decide) rfl
      · exact A .s 1000000000 (by omega) (by decide) rfl

/-- C181. The same for other units as long as the durations are small: below 1000 s in microseconds, milliseconds or seconds. -/
theorem readable_partial (up : Nat → Bool) (p : Per) (hp : p ≠ .other) (count : Int) (repeats : Nat) (hr : 0 < repeats)
    (h : p = .ns ∨ count * p.len < 1000 * 1000000000 * repeats) :
    ShowsTime (readable up p count repeats) (decide (count < 0)) (count.natAbs * p.len) repeats := by
  have A := fun q k hk hq hl => readable_unit up p q count repeats k hr hk hq hl
  cases p with
  | other => exact absurd rfl hp
  | ns =>
    have := nanoseconds_readable up count repeats hr
    simpa [Per.len] using this
  | us =>
    have h : count * 1000 < 1000 * 1000000000 * (repeats : Int) := by simpa [Per.len] using h
    unfold readable
    simp only
    split
    · exact A .us 1 (by omega) (by decide) rfl
    · split
      · exact A .ms 1000 (by omega) (by decide) rfl
      · split
        · exact A .s 1000000 (by omega) (by decide) rfl
        · omega
  | ms =>
    have h : count * 1000000 < 1000 * 1000000000 * (repeats : Int) := by simpa [Per.len] using h
    unfold readable
    simp only
    split
    · exact A .ms 1 (by omega) (by decide) rfl
    · split
      · exact A .s 1000 (by omega) (by decide) rfl
      · omega
  | s =>
    have h : count * 1000000000 < 1000 * 1000000000 * (repeats : Int) := by simpa [Per.len] using h
    unfold readable
    simp only
    split
    · exact A .s 1 (by omega) (by decide) rfl
    · omega

/-- C181. Durations of 1000 seconds and more in seconds are shown a thousand times too short or shorter still, in seconds. -/
theorem long_seconds_wrong (up : Nat → Bool) (count : Int) (h : 1000 ≤ count) :
    ∃ num k, readable up .s count 1 = num ++ " ".toList ++ "s ".toList ∧ 1000 ≤ k ∧ Shows 3 num (.fin false count.natAbs k) := by
  have hneg : decide (count < 0) = false := by simp; omega
  have A := fun k (hk : 0 < k) => shows_fltText up false 8 3 (by omega) (FVal.fin false count.natAbs (1 * k)) (by show 0 < 1 * k; omega)
  unfold readable
  simp only [hneg]
  rw [if_neg (by omega)]
  split
  · exact ⟨_, _, rfl, by omega, A 1000 (by omega)⟩
  · split
    · exact ⟨_, _, rfl, by omega, A 1000000 (by omega)⟩
    · exact ⟨_, _, rfl, by omega, A 1000000000 (by omega)⟩

/-- C180. The text of a timer shows the first and the best duration and the mean of all, or that there was none. -/
theorem timer_text (up : Nat → Bool) (ops : List TOp) (hf : ∀ o ∈ ops, o.Fine) (t : Timer) (e : Timer.new.run ops = some t) :
    (measured 0 [] ops = [] → t.toText up = "never run!".toList) ∧
    (∀ d r, measured 0 [] ops = d :: r → ∃ a b c m, t.toText up = a ++ "  ".toList ++ b ++ "  ".toList ++ c ∧ ShowsTime a (decide (d < 0)) d.natAbs 1 ∧
      m ∈ d :: r ∧ (∀ x ∈ d :: r, m ≤ x) ∧ ShowsTime b (decide (m < 0)) m.natAbs 1 ∧
      ShowsTime c (decide ((d :: r).sum < 0)) (d :: r).sum.natAbs (d :: r).length) := by
  obtain ⟨h1, h2, h3, h4⟩ := timer_holds ops hf t e
  refine ⟨fun h => ?_, fun d r h => ?_⟩
  · unfold Timer.toText
    rw [if_neg]
    rw [h1, h]; decide
  · have h5 := h4 (by rw [h]; simp)
    have h3' := h3 d r h
    rw [h] at h1 h2 h5
    have hp : 0 < t.repeats := by rw [h1]; simp
    refine ⟨readable up .ns t.first 1, readable up .ns t.best 1, readable up .ns t.all t.repeats, t.best, ?_, ?_, h5.1, h5.2,
      nanoseconds_readable up t.best 1 (by omega), ?_⟩
    · unfold Timer.toText; rw [if_pos hp]
    · rw [h3']; exact nanoseconds_readable up d 1 (by omega)
    · rw [← h2, ← h1]; exact nanoseconds_readable up t.all t.repeats hp

/-- C180. `set_repeats` before the first measurement loses the first duration: it stays zero. -/
theorem first_lost (r : Nat) (hr : 0 < r) (d : Int) (hd : 0 < d) (hd' : d < 2 ^ 63) :
    ∃ t, Timer.new.run [.setRepeats r, .store d] = some t ∧ t.first = 0 ∧ t.repeats = r + 1 := by
  refine ⟨{ start := 0, first := 0, best := min d maxRep, all := 0 + d, repeats := r + 1 }, ?_, rfl, rfl⟩
  have h0 : ¬ r = 0 := by omega
  have h1 : -maxRep - 1 ≤ 0 + d ∧ 0 + d ≤ maxRep := by unfold maxRep; omega
  simp [Timer.run, Timer.step, Timer.store, Timer.new, Timer.reset, h0, h1]
  unfold maxRep at *
  omega

/-! ### Sizes of batches -/

/-- Sizes that make sense: the biggest batch is not smaller than that of training. -/
def BS.Good (b : BS) : Prop := 0 < b.max ∧ b.train ≤ b.max ∧ b.max < 2 ^ 31

theorem check_good {b : BS} (h : b.Good) : b.check = some () := by
  have h0 := h.1
  have : b.isValid = some true := by
    unfold BS.isValid
    rw [if_pos (by have := h.2.1; omega)]
    simp; omega
  unfold BS.check
  rw [this]

/-- C182. Sizes can be made exactly from sizes that make sense; they are kept; the queries give them back. -/
theorem sizes_kept (m t : Nat) : (BS.make m t = if 0 < m ∧ t ≤ m ∧ m < 2 ^ 31 then some ⟨m, t⟩ else none) ∧
    ∀ b, BS.make m t = some b → b.Good ∧ b.biggest = some m ∧ b.forMode false = some m ∧ (0 < t → b.forMode true = some t) ∧ (t = 0 → b.forMode true = none) ∧
      b.isValidForTraining = some (decide (0 < t)) := by
  have hm : BS.make m t = if 0 < m ∧ t ≤ m ∧ m < 2 ^ 31 then some ⟨m, t⟩ else none := by
    unfold BS.make lenMax
    by_cases h : 0 < m ∧ t ≤ m ∧ m < 2 ^ 31
    · rw [if_pos h, if_pos (by omega)]
    · rw [if_neg h, if_neg (by omega)]
  refine ⟨hm, fun b hb => ?_⟩
  rw [hm] at hb
  split at hb
  · cases hb
    rename_i h
    have hg : BS.Good ⟨m, t⟩ := h
    refine ⟨hg, by simp [BS.biggest, check_good hg], by simp [BS.forMode, check_good hg], fun h0 => ?_, fun h0 => ?_, ?_⟩
    · simp [BS.forMode, check_good hg]; omega
    · simp [BS.forMode, check_good hg]; omega
    · unfold BS.isValidForTraining
      rw [if_pos h.2.1]
      simp; omega
  · cases hb

/-- C182. The assertions of all queries let pass exactly sizes that make sense; sizes that were never set are found invalid
without violating an assertion, all others violate one. -/
theorem sizes_checked (b : BS) (h : b.max < 2 ^ 31) : (b.check = some () ↔ b.Good) ∧ (b.biggest.isSome = true ↔ b.Good) ∧ ((b.forMode false).isSome = true ↔ b.Good) ∧
    (b.isValid = some true ↔ b.Good) ∧ (b.isValid = some false ↔ b = ⟨0, 0⟩) := by
  obtain ⟨m, t⟩ := b
  have hv : BS.isValid ⟨m, t⟩ = if m = 0 ∧ t = 0 then some false else if 0 < m ∧ t ≤ m then some true else none := by
    unfold BS.isValid
    simp only
    by_cases h0 : m = 0 ∧ t = 0
    · rw [if_pos (Or.inl h0), if_pos h0]
      simp [h0.1]
    · rw [if_neg h0]
      by_cases h1 : 0 < m ∧ t ≤ m
      · rw [if_pos h1, if_pos (by omega)]
        simp [h1.1]
      · rw [if_neg h1, if_neg (by omega)]
  have hc : BS.check ⟨m, t⟩ = some () ↔ BS.Good ⟨m, t⟩ := by
    unfold BS.check BS.Good
    rw [hv]
    simp only at h ⊢
    by_cases h0 : m = 0 ∧ t = 0
    · rw [if_pos h0]
      simp; omega
    · rw [if_neg h0]
      by_cases h1 : 0 < m ∧ t ≤ m
      · rw [if_pos h1]
        simp; omega
      · rw [if_neg h1]
        simp; omega
  refine ⟨hc, ?_, ?_, ?_, ?_⟩
  · rw [← hc]
    unfold BS.biggest
    cases BS.check ⟨m, t⟩ <;> simp
  · rw [← hc]
    unfold BS.forMode
    cases BS.check ⟨m, t⟩ <;> simp
  · rw [hv]
    unfold BS.Good
    simp only at h ⊢
    by_cases h0 : m = 0 ∧ t = 0
    · rw [if_pos h0]; simp; omega
    · rw [if_neg h0]
      by_cases h1 : 0 < m ∧ t ≤ m
      · rw [if_pos h1]; simp; omega
      · rw [if_neg h1]; simp; omega
  · rw [hv]
    by_cases h0 : m = 0 ∧ t = 0
    · rw [if_pos h0]; simp [h0]
    · rw [if_neg h0]
      by_cases h1 : 0 < m ∧ t ≤ m
      · rw [if_pos h1]; simp; omega
      · rw [if_neg h1]; simp; omega

/-- C182. Multiplication by the number of tiles and division by it give the same sizes back. -/
theorem mul_div (b c : BS) (k : Nat) (hg : b.Good) (h : b.mul k = some c) : c.Good ∧ c = ⟨b.max * k, b.train * k⟩ ∧ c.div k = some b := by
  unfold BS.mul at h
  rw [check_good hg] at h
  simp only [Option.bind_some] at h
  split at h
  · rename_i hk
    have h1 := sizes_kept (b.max * k) (b.train * k)
    have h2 := h1.2 c h
    rw [h1.1] at h
    split at h
    · cases h
      refine ⟨h2.1, rfl, ?_⟩
      unfold BS.div
      rw [check_good h2.1]
      simp only [Option.bind_some, Nat.mul_mod_left, and_true, if_pos hk, Nat.mul_div_cancel _ hk]
      exact (sizes_kept b.max b.train).1.trans (if_pos hg)
    · cases h
  · cases h

/-- C182. Division is exact for both sizes if the size for training is a multiple too, … -/
theorem div_exact_partial (b : BS) (k q : Nat) (hg : b.Good) (hk : 0 < k) (hm : b.max % k = 0) (ht : b.train = q * k) :
    ∃ c, b.div k = some c ∧ c.Good ∧ c.max * k = b.max ∧ c.train = q ∧ (0 < b.train → 0 < c.train) := by
  have hmax : b.max / k * k = b.max := Nat.div_mul_cancel (Nat.dvd_of_mod_eq_zero hm)
  have h1 : 0 < b.max / k := by
    apply Nat.pos_of_ne_zero
    intro h; rw [h] at hmax; have := hg.1; omega
  have h2 : q ≤ b.max / k := by
    rw [Nat.le_div_iff_mul_le hk, ← ht]; exact hg.2.1
  have h3 : b.max / k ≤ b.max := Nat.div_le_self _ _
  have h4 : b.train / k = q := by rw [ht, Nat.mul_div_cancel _ hk]
  have hg' : BS.Good ⟨b.max / k, q⟩ := ⟨h1, h2, by have := hg.2.2; show b.max / k < _; omega⟩
  refine ⟨⟨b.max / k, q⟩, ?_, hg', hmax, rfl, fun h => ?_⟩
  · unfold BS.div
    rw [check_good hg]
    simp only [Option.bind_some]
    rw [if_pos ⟨hk, hm⟩, h4]
    exact (sizes_kept _ _).1.trans (if_pos hg')
  · show 0 < q
    apply Nat.pos_of_ne_zero
    intro h0; rw [ht, h0] at h; omega

/-- C182. … which is not checked: a network made for training becomes one that can not be trained. -/
theorem div_loses_training (k : Nat) (hk : 1 < k) (hk' : k < 2 ^ 31) :
    ∃ b c : BS, b.Good ∧ 0 < b.train ∧ b.div k = some c ∧ c.train = 0 ∧ c.forMode true = none := by
  have hg : BS.Good ⟨k, 1⟩ := ⟨by show 0 < k; omega, by show 1 ≤ k; omega, hk'⟩
  refine ⟨⟨k, 1⟩, ⟨1, 0⟩, hg, Nat.one_pos, ?_, rfl, by decide⟩
  unfold BS.div
  rw [check_good hg]
  simp only [Option.bind_some, Nat.mod_self, and_true]
  rw [if_pos (by omega), Nat.div_self (by omega), Nat.div_eq_of_lt hk]
  rfl

/-! ### Loops over tuples -/

variable {α σ : Type}

theorem upTo_eq (t : List α) (f : α → σ → σ) (i : Nat) (h : i < t.length) (s : σ) : upTo t f i s = some ((t.take (i + 1)).foldl (fun s x => f x s) s) := by
  induction i with
  | zero =>
    cases t with
    | nil => simp at h
    | cons x t => simp [upTo]
  | succ i ih =>
    have hi := ih (by omega)
    unfold upTo
    rw [hi]
    simp only [Option.bind_some, List.getElem?_eq_getElem h, Option.map_some]
    rw [List.take_add_one (i := i + 1), List.getElem?_eq_getElem h, List.foldl_append]
    rfl

theorem upFrom1_eq (t : List α) (f : α → σ → σ) (i : Nat) (h : i + 1 < t.length) (s : σ) :
    upFrom1 t f i s = some ((t.tail.take (i + 1)).foldl (fun s x => f x s) s) := by
  cases t with
  | nil => simp at h
  | cons x t =>
    have e : ∀ i s, upFrom1 (x :: t) f i s = upTo t f i s := by
      intro i
      induction i with
      | zero => intro s; simp [upFrom1, upTo]
      | succ i ih => intro s; simp [upFrom1, upTo, ih]
    rw [e, upTo_eq t f i (by simpa using h)]
    rfl

theorem downFrom_eq (t : List α) (f : α → σ → σ) (i : Nat) (h : i < t.length) (s : σ) :
    downFrom t f i s = some ((t.take (i + 1)).reverse.foldl (fun s x => f x s) s) := by
  induction i generalizing s with
  | zero =>
    cases t with
    | nil => simp at h
    | cons x t => simp [downFrom]
  | succ i ih =>
    unfold downFrom
    rw [List.getElem?_eq_getElem h]
    simp only [Option.bind_some]
    rw [ih (by omega), List.take_add_one (i := i + 1), List.getElem?_eq_getElem h, List.reverse_append]
    rfl

theorem downTo1_eq (t : List α) (f : α → σ → σ) (i : Nat) (h : i + 1 < t.length) (s : σ) :
    downTo1 t f i s = some ((t.tail.take (i + 1)).reverse.foldl (fun s x => f x s) s) := by
  cases t with
  | nil => simp at h
  | cons x t =>
    have e : ∀ i s, downTo1 (x :: t) f i s = downFrom t f i s := by
      intro i
      induction i with
      | zero => intro s; simp [downTo1, downFrom]
      | succ i ih => intro s; simp [downTo1, downFrom, ih]
    rw [e, downFrom_eq t f i (by simpa using h)]
    rfl

/-- C183. The loops call the functor exactly once for each element they are for, in the order of the tuple (`up`) or backwards (`down`). -/
theorem loops (t : List α) (f : α → σ → σ) (s : σ) (h : 1 < t.length) :
    forEachUp t f s = some (t.foldl (fun s x => f x s) s) ∧ forEachDown t f s = some (t.reverse.foldl (fun s x => f x s) s) ∧
    forEachExcLastUp t f s = some (t.dropLast.foldl (fun s x => f x s) s) ∧ forEachExcFirstUp t f s = some (t.tail.foldl (fun s x => f x s) s) ∧
    forEachExcFirstDown t f s = some (t.tail.reverse.foldl (fun s x => f x s) s) := by
  have h1 : t.take (t.length - 1 + 1) = t := by rw [List.take_of_length_le (by omega)]
  have h2 : t.tail.take (t.length - 2 + 1) = t.tail := by rw [List.take_of_length_le (by simp; omega)]
  have h3 : t.take (t.length - 2 + 1) = t.dropLast := by rw [List.dropLast_eq_take, show t.length - 2 + 1 = t.length - 1 by omega]
  refine ⟨?_, ?_, ?_, ?_, ?_⟩
  · unfold forEachUp; rw [if_neg (by omega), upTo_eq _ _ _ (by omega), h1]
  · unfold forEachDown; rw [if_neg (by omega), downFrom_eq _ _ _ (by omega), h1]
  · unfold forEachExcLastUp; rw [if_pos h, upTo_eq _ _ _ (by omega), h3]
  · unfold forEachExcFirstUp; rw [if_pos h, upFrom1_eq _ _ _ (by omega), h2]
  · unfold forEachExcFirstDown; rw [if_pos h, downTo1_eq _ _ _ (by omega), h2]

/-- C183. One element: the loops over all elements call the functor once. -/
theorem loops_one (x : α) (f : α → σ → σ) (s : σ) : forEachUp [x] f s = some (f x s) ∧ forEachDown [x] f s = some (f x s) := ⟨rfl, rfl⟩

theorem withPrevious_length (t : List α) : (withPrevious t).length = t.length - 1 := by simp [withPrevious]

theorem withPrevious_get (t : List α) (i : Nat) (h : i + 1 < t.length) :
    (withPrevious t)[i]? = some (t[i + 1], t[i]'(by omega), i == 0) := by
  cases t with
  | nil => simp at h
  | cons x t => simp [withPrevious] ; simp at h; rw [List.getElem?_eq_getElem (by simp; omega)]; simp

theorem wpUp_eq (t : List α) (f : α → α → Bool → σ → σ) (i : Nat) (h : i + 1 < t.length) (s : σ) :
    wpUp t f i s = some (((withPrevious t).take (i + 1)).foldl (fun s e => f e.1 e.2.1 e.2.2 s) s) := by
  induction i with
  | zero =>
    unfold wpUp
    rw [List.getElem?_eq_getElem h, List.getElem?_eq_getElem (by omega), List.take_add_one, withPrevious_get t 0 h]
    simp
  | succ i ih =>
    unfold wpUp
    rw [ih (by omega), List.getElem?_eq_getElem h, List.getElem?_eq_getElem (by omega), List.take_add_one (i := i + 1), withPrevious_get t (i + 1) h]
    simp

/-- C183. `for_eachwp_up` calls the functor for each element but the first, in order, with the element before it; the flag is set for the second element only. -/
theorem loop_with_previous (t : List α) (f : α → α → Bool → σ → σ) (s : σ) (h : 1 < t.length) :
    forEachWpUp t f s = some ((withPrevious t).foldl (fun s e => f e.1 e.2.1 e.2.2 s) s) := by
  unfold forEachWpUp
  rw [if_pos h, wpUp_eq t f _ (by omega), List.take_of_length_le (by rw [withPrevious_length]; omega)]

/-! ### Denormalized numbers -/

/-- C184. `isDenormalsOn` tells whether denormalized numbers are used, as operands or as results; disabling and enabling work from any mode and leave the rounding. -/
theorem denormals_switch (m : FpMode) : (m.denormalsOn = true ↔ m.daz = false ∨ m.ftz = false) ∧ m.disable = ⟨true, true, m.chop⟩ ∧ m.enable = ⟨false, false, m.chop⟩ ∧
    m.disable.denormalsOn = false ∧ m.enable.denormalsOn = true := by
  obtain ⟨a, b, c⟩ := m
  cases a <;> cases b <;> simp [FpMode.denormalsOn, FpMode.dn, FpMode.disable, FpMode.enable, FpMode.setDn]

/-- C184. The field of the control word and the mode of the processor tell the same: what is set is reported, and setting what was reported changes nothing. -/
theorem field_reported (m : FpMode) (d : Dn) : (m.setDn d).dn = d ∧ m.setDn m.dn = m ∧ (m.setDn d).chop = m.chop := by
  obtain ⟨a, b, c⟩ := m
  refine ⟨by cases d <;> rfl, by cases a <;> cases b <;> rfl, by cases d <;> rfl⟩

theorem cache_get (calls : List ParRange) (on : Nat → Bool) (c : Nat → Nat) (i : Nat) :
    (calls.foldl (fun c r => fun i => if i = r.tid then (if on r.tid then 1 else 0) else c i) c) i =
      if i ∈ calls.map (·.tid) then (if on i then 1 else 0) else c i := by
  induction calls generalizing c with
  | nil => simp
  | cons r rs ih =>
    rw [List.foldl_cons, ih]
    by_cases h : i ∈ rs.map (·.tid)
    · have h' : i ∈ (r :: rs).map (·.tid) := List.mem_cons_of_mem _ h
      rw [if_pos h, if_pos h']
    · rw [if_neg h]
      by_cases hi : i = r.tid
      · have h' : i ∈ (r :: rs).map (·.tid) := by rw [hi]; exact List.mem_cons_self
        rw [if_pos h', if_pos hi, hi]
      · rw [if_neg hi, if_neg]
        simp only [List.map_cons, List.mem_cons, not_or]
        exact ⟨hi, h⟩

theorem sum_zero (l : List Nat) (h : ∀ x ∈ l, x = 0) : l.sum = 0 := by
  induction l with
  | nil => rfl
  | cons x l ih => rw [List.sum_cons, ih fun y hy => h y (List.mem_cons_of_mem _ hy), h x List.mem_cons_self]

theorem le_sum {l : List Nat} {x : Nat} (h : x ∈ l) : x ≤ l.sum := by
  induction l with
  | nil => cases h
  | cons y l ih =>
    rw [List.sum_cons]
    cases h with
    | head => omega
    | tail _ h => have := ih h; omega

/-- C184. The check over all threads is true exactly if some thread of the pool or the calling thread uses denormalized numbers, in whatever order the threads
get their turn, whatever ranges of work they had before. -/
theorem any_thread (ranges calls : List ParRange) (hok : RangesOk ranges) (on : Nat → Bool)
    (hp : calls.Perm (runCalls ranges (ranges.length + 1) (ranges.length + 1))) :
    anyThread ranges.length (threadsUsed ranges.length (ranges.length + 1) (ranges.length + 1)) calls on = true ↔ ∃ t, t ≤ ranges.length ∧ on t = true := by
  have hu : threadsUsed ranges.length (ranges.length + 1) (ranges.length + 1) = ranges.length + 1 := by
    by_cases h : ranges.length = 0
    · rw [h]; rfl
    · have := run_respects_useN ranges.length (ranges.length + 1) (ranges.length + 1) (by omega) (by omega) (by omega)
      have e : min ((ranges.length : Int) + 1) ((ranges.length + 1 : Nat) : Int) = ranges.length + 1 := by omega
      omega
  have ht := (run_tids ranges (ranges.length + 1) (ranges.length + 1) hok).1
  rw [hu] at ht
  have hmem : ∀ i, i ∈ calls.map (·.tid) ↔ i < ranges.length + 1 := by
    intro i
    rw [(hp.map (·.tid)).mem_iff, ht, List.mem_range]
  unfold anyThread
  simp only [if_pos hu]
  rw [decide_eq_true_iff]
  constructor
  · intro h
    apply Classical.byContradiction
    intro hno
    apply h
    apply sum_zero
    intro x hx
    rw [List.mem_map] at hx
    obtain ⟨i, hi, rfl⟩ := hx
    rw [List.mem_range] at hi
    rw [cache_get, if_pos ((hmem i).mpr hi), if_neg]
    intro hon
    exact hno ⟨i, by omega, hon⟩
  · rintro ⟨i, hi, hon⟩ h0
    have hm : (calls.foldl (fun c r => fun i => if i = r.tid then (if on r.tid then 1 else 0) else c i) (fun _ => (1 : Nat))) i ∈
        (List.range (ranges.length + 1)).map (calls.foldl (fun c r => fun i => if i = r.tid then (if on r.tid then 1 else 0) else c i) (fun _ => (1 : Nat))) :=
      List.mem_map_of_mem (List.mem_range.mpr (by omega))
    have := le_sum hm
    rw [cache_get, if_pos ((hmem i).mpr (by omega)), if_pos hon] at this
    omega

theorem modes_append (d2z rz : Bool) (ms : Nat → FpMode) (es es' : List MEvent) : modes d2z rz ms (es ++ es') = modes d2z rz (modes d2z rz ms es) es' := by
  induction es generalizing ms with
  | nil => rfl
  | cons e es ih => cases e <;> exact ih _

theorem modes_flushed (rz : Bool) (t : Nat) (ms : Nat → FpMode) (es : List MEvent) (hes : ∀ m, MEvent.own t m ∉ es) (h : (ms t).denormalsOn = false) :
    (modes true rz ms es t).denormalsOn = false := by
  induction es generalizing ms with
  | nil => exact h
  | cons e es ih =>
    have hes' : ∀ m, MEvent.own t m ∉ es := fun m hm => hes m (List.mem_cons_of_mem _ hm)
    cases e with
    | own u m =>
      refine ih _ hes' ?_
      have : t ≠ u := fun e => hes m (by rw [e]; exact List.mem_cons_self)
      simp [this, h]
    | lib u =>
      refine ih _ hes' ?_
      by_cases e : t = u
      · simp only [if_pos e, FpMode.lib]
        subst e
        have := (denormals_switch (ms t)).2.2.2.1
        have h2 : ∀ m : FpMode, m.denormalsOn = false → ({ m with chop := true } : FpMode).denormalsOn = false := fun m hm => hm
        cases rz
        · exact this
        · exact h2 _ this
      · simp [e, h]

/-- C184. In a training denormalized numbers are off in the calling thread and all threads of the pool, whatever the modes were before the pool started, and
whatever the calling thread did before it called `train`; so the check passes in any epoch, unless a functor switches the mode of a thread of the pool, or a callback that
of the calling thread. -/
theorem flushed_in_training (rz : Bool) (n : Nat) (ms : Nat → FpMode) (before after inside : List MEvent) (starts : List Nat) (hs : ∀ t, 1 ≤ t → t ≤ n → t ∈ starts)
    (ha : ∀ t m, 1 ≤ t → MEvent.own t m ∉ after) (hi : ∀ t m, MEvent.own t m ∉ inside) (t : Nat) (ht : t ≤ n) :
    (modes true rz ms (before ++ starts.map .lib ++ after ++ [.lib 0] ++ inside) t).denormalsOn = false := by
  have lib : ∀ ms : Nat → FpMode, ∀ es es', (∀ m, MEvent.own t m ∉ es') → (modes true rz ms (es ++ .lib t :: es') t).denormalsOn = false := by
    intro ms es es' h
    rw [modes_append]
    show (modes true rz _ es' t).denormalsOn = false
    refine modes_flushed rz t _ es' h ?_
    have := (denormals_switch (modes true rz ms es t)).2.2.2.1
    simp only [if_true, FpMode.lib]
    cases rz <;> exact this
  by_cases h0 : t = 0
  · subst h0
    have := lib ms (before ++ starts.map .lib ++ after) inside (fun m => hi 0 m)
    simpa using this
  · obtain ⟨l1, l2, hl⟩ := List.append_of_mem (hs t (by omega) ht)
    have := lib ms (before ++ l1.map .lib) (l2.map .lib ++ after ++ [.lib 0] ++ inside) (by
      intro m hm
      simp only [List.mem_append, List.mem_map, List.mem_singleton] at hm
      rcases hm with ((⟨_, _, hm⟩ | hm) | hm) | hm
      · cases hm
      · exact ha t m (by omega) hm
      · cases hm
      · exact hi t m hm)
    rw [hl]
    simpa using this

/-- C184. A thread that has not called `train` and has not constructed the network uses whatever mode it has: inference in a further thread may use denormalized
numbers. -/
theorem inference_elsewhere (d2z rz : Bool) (m : FpMode) (hm : m.denormalsOn = true) (t : Nat) (ts : List Nat) (ht : t ∉ ts) :
    (modes d2z rz (fun _ => m) (ts.map .lib) t).denormalsOn = true := by
  have : ∀ ms : Nat → FpMode, modes d2z rz ms (ts.map .lib) t = ms t := by
    induction ts with
    | nil => intro ms; rfl
    | cons u us ih =>
      intro ms
      show modes d2z rz _ (us.map .lib) t = _
      rw [ih (fun h => ht (List.mem_cons_of_mem _ h))]
      have : t ≠ u := fun e => ht (by rw [e]; exact List.mem_cons_self)
      simp [this]
  rw [this]
  exact hm

/-- C184. Code called in a scope with the usual rounding gets it, and the library's rounding is there again afterwards, whatever that code leaves. -/
theorem scoped_rounding (rz : Bool) (work : FpMode → FpMode) (m : FpMode) :
    (rz = true → (m.scoped rz work) = { work { m with chop := false } with chop := true }) ∧ (rz = false → m.scoped rz work = work m) := by
  cases rz <;> simp [FpMode.scoped]

end Nntl.Tools
