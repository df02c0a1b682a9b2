import Verif.Rng.Spec
import Verif.Threads.PartitionProps
import Mathlib.Tactic.Ring
import Mathlib.Tactic.Linarith
/-! Filling of arrays by several threads. -/
namespace Nntl.Rng
open Nntl.Threads
variable {σ δ β R : Type}

theorem put_same (f : Nat → β) (k : Nat) (v : β) : put f k v k = v := by simp [put]
theorem put_other (f : Nat → β) {k j : Nat} (v : β) (h : j ≠ k) : put f k v j = f j := by simp [put, h]

/-- Where thread `i` is after `c` of its steps. -/
def jobAt (g : Gen σ δ β) (d0 : δ) (rngs : Nat → σ) (r : ParRange) (c : Nat) : Job δ β :=
  let m := min (2 * r.cnt) c
  ⟨r.tid, r.offset + m / 2, r.offset + r.cnt, (after g d0 (rngs r.tid) ((m + 1) / 2)).1,
    if m % 2 = 1 then some (elem g d0 (rngs r.tid) (m / 2)) else none⟩

/-- The state is determined by how many steps each thread has made. -/
structure At (g : Gen σ δ β) (d0 : δ) (calls : List ParRange) (rngs : Nat → σ) (mem : Nat → β) (cnt : Nat → Nat) (s : Sys σ δ β) : Prop where
  len : s.jobs.length = calls.length
  job : ∀ i r, calls[i]? = some r → s.jobs[i]? = some (jobAt g d0 rngs r (cnt i))
  rng : ∀ i r, calls[i]? = some r → s.rngs r.tid = (after g d0 (rngs r.tid) ((min (2 * r.cnt) (cnt i) + 1) / 2)).2
  rngO : ∀ t, (∀ r ∈ calls, r.tid ≠ t) → s.rngs t = rngs t
  memI : ∀ i r, calls[i]? = some r → ∀ k, k < min (2 * r.cnt) (cnt i) / 2 → s.mem (r.offset + k) = elem g d0 (rngs r.tid) k
  memO : ∀ k, (∀ r ∈ calls, ¬ r.covers k) → s.mem k = mem k

/-- Different calls have different thread ids and disjoint ranges. -/
structure Apart (calls : List ParRange) : Prop where
  tid : ∀ (i j : Nat) (r q : ParRange), calls[i]? = some r → calls[j]? = some q → r.tid = q.tid → i = j
  range : ∀ (i j : Nat) (r q : ParRange) (k : Nat), calls[i]? = some r → calls[j]? = some q → r.covers k → q.covers k → i = j

theorem at_step {g : Gen σ δ β} {d0 : δ} {calls : List ParRange} {rngs : Nat → σ} {mem : Nat → β} {cnt : Nat → Nat}
    {s : Sys σ δ β} (hA : Apart calls) (h : At g d0 calls rngs mem cnt s) (i : Nat) :
    At g d0 calls rngs mem (fun j => if j = i then cnt j + 1 else cnt j) (s.step g i) := by
  unfold Sys.step
  rcases hc : calls[i]? with _ | r
  · have hj : s.jobs[i]? = none := by
      rw [List.getElem?_eq_none_iff] at hc ⊢
      rw [h.len]; exact hc
    have ne : ∀ k q, calls[k]? = some q → k ≠ i := by
      intro k q hk e; subst e; rw [hc] at hk; cases hk
    simp only [hj]
    refine ⟨h.len, ?_, ?_, h.rngO, ?_, h.memO⟩
    · intro k q hk; rw [if_neg (ne k q hk)]; exact h.job k q hk
    · intro k q hk; rw [if_neg (ne k q hk)]; exact h.rng k q hk
    · intro k q hk; rw [if_neg (ne k q hk)]; exact h.memI k q hk
  · have hj := h.job i r hc
    have hil : i < s.jobs.length := by
      rw [h.len]; exact (List.getElem?_eq_some_iff.1 hc).1
    have hmem : r ∈ calls := List.mem_of_getElem? hc
    simp only [hj]
    by_cases hodd : min (2 * r.cnt) (cnt i) % 2 = 1
    · -- store
      have hlt : cnt i < 2 * r.cnt := by omega
      have hm : min (2 * r.cnt) (cnt i) = cnt i := by omega
      have hm' : min (2 * r.cnt) (cnt i + 1) = cnt i + 1 := by omega
      have e1 : (cnt i + 1 + 1) / 2 = (cnt i + 1) / 2 := by omega
      have e2 : (cnt i + 1) / 2 = cnt i / 2 + 1 := by omega
      have e3 : ¬ (cnt i + 1) % 2 = 1 := by omega
      have e0 : cnt i % 2 = 1 := by omega
      have hreg : (jobAt g d0 rngs r (cnt i)).reg = some (elem g d0 (rngs r.tid) (cnt i / 2)) := by
        simp only [jobAt, hm]; exact if_pos e0
      have hptr : (jobAt g d0 rngs r (cnt i)).ptr = r.offset + cnt i / 2 := by simp only [jobAt, hm]
      simp only [hreg, hptr]
      have cov : r.covers (r.offset + cnt i / 2) := ⟨by omega, by omega⟩
      refine ⟨by simp [h.len], ?_, ?_, h.rngO, ?_, ?_⟩
      · intro k q hk
        dsimp only
        by_cases e : k = i
        · subst e
          have : q = r := by rw [hc] at hk; exact (Option.some.inj hk).symm
          subst this
          rw [List.getElem?_set_self hil, if_pos rfl]
          simp only [jobAt, hm, hm', e1]
          rw [if_neg e3, e2, Nat.add_assoc]
        · rw [List.getElem?_set_ne (Ne.symm e), if_neg e]; exact h.job k q hk
      · intro k q hk
        dsimp only
        by_cases e : k = i
        · subst e
          have : q = r := by rw [hc] at hk; exact (Option.some.inj hk).symm
          subst this
          rw [if_pos rfl, hm', e1]
          have := h.rng k q hk
          rw [hm] at this; exact this
        · rw [if_neg e]; exact h.rng k q hk
      · intro k q hk x hx
        dsimp only at hx ⊢
        by_cases e : k = i
        · subst e
          have : q = r := by rw [hc] at hk; exact (Option.some.inj hk).symm
          subst this
          rw [if_pos rfl, hm', e2] at hx
          by_cases ex : x = cnt k / 2
          · subst ex; exact put_same _ _ _
          · rw [put_other _ _ (by omega)]
            exact h.memI k q hk x (by rw [hm]; omega)
        · rw [if_neg e] at hx
          have hq : q.covers (q.offset + x) := ⟨by omega, by omega⟩
          rw [put_other]
          · exact h.memI k q hk x hx
          · intro he
            rw [he] at hq
            exact e (hA.range k i q r _ hk hc hq cov)
      · intro k hk
        dsimp only
        rw [put_other]
        · exact h.memO k hk
        · intro he; subst he; exact hk r hmem cov
    · have hreg : (jobAt g d0 rngs r (cnt i)).reg = none := by
        simp only [jobAt]; exact if_neg hodd
      simp only [hreg]
      by_cases hfin : 2 * r.cnt ≤ cnt i
      · -- finished
        have hm : min (2 * r.cnt) (cnt i) = 2 * r.cnt := by omega
        have hm' : min (2 * r.cnt) (cnt i + 1) = 2 * r.cnt := by omega
        have hpe : (jobAt g d0 rngs r (cnt i)).ptr = (jobAt g d0 rngs r (cnt i)).pE := by
          simp only [jobAt, hm]; omega
        rw [if_pos hpe]
        have same : ∀ k q, calls[k]? = some q →
            min (2 * q.cnt) (if k = i then cnt k + 1 else cnt k) = min (2 * q.cnt) (cnt k) := by
          intro k q hk
          by_cases e : k = i
          · subst e
            have : q = r := by rw [hc] at hk; exact (Option.some.inj hk).symm
            subst this
            rw [if_pos rfl, hm, hm']
          · rw [if_neg e]
        refine ⟨h.len, ?_, ?_, h.rngO, ?_, h.memO⟩
        · intro k q hk
          have := h.job k q hk
          rw [this]
          unfold jobAt
          rw [same k q hk]
        · intro k q hk; rw [same k q hk]; exact h.rng k q hk
        · intro k q hk; rw [same k q hk]; exact h.memI k q hk
      · -- draw
        have hm : min (2 * r.cnt) (cnt i) = cnt i := by omega
        have hm' : min (2 * r.cnt) (cnt i + 1) = cnt i + 1 := by omega
        have e0 : cnt i % 2 = 0 := by omega
        have e1 : (cnt i + 1) / 2 = cnt i / 2 := by omega
        have e2 : (cnt i + 1 + 1) / 2 = cnt i / 2 + 1 := by omega
        have e3 : (cnt i + 1) % 2 = 1 := by omega
        have hpe : ¬ (jobAt g d0 rngs r (cnt i)).ptr = (jobAt g d0 rngs r (cnt i)).pE := by
          simp only [jobAt, hm]; omega
        rw [if_neg hpe]
        have hl : (jobAt g d0 rngs r (cnt i)).loc = (after g d0 (rngs r.tid) (cnt i / 2)).1 := by
          simp only [jobAt, hm, e1]
        have ht : (jobAt g d0 rngs r (cnt i)).tid = r.tid := rfl
        have hs : s.rngs r.tid = (after g d0 (rngs r.tid) (cnt i / 2)).2 := by
          have := h.rng i r hc
          rw [hm, e1] at this; exact this
        simp only [hl, ht, hs]
        refine ⟨by simp [h.len], ?_, ?_, ?_, ?_, h.memO⟩
        · intro k q hk
          dsimp only
          by_cases e : k = i
          · subst e
            have : q = r := by rw [hc] at hk; exact (Option.some.inj hk).symm
            subst this
            rw [List.getElem?_set_self hil, if_pos rfl]
            simp only [jobAt, hm, hm', e1, e2, after]
            rw [if_pos e3]
            rfl
          · rw [List.getElem?_set_ne (Ne.symm e), if_neg e]; exact h.job k q hk
        · intro k q hk
          dsimp only
          by_cases e : k = i
          · subst e
            have : q = r := by rw [hc] at hk; exact (Option.some.inj hk).symm
            subst this
            rw [if_pos rfl, hm', e2, put_same]
            rfl
          · rw [if_neg e, put_other]
            · exact h.rng k q hk
            · intro et; exact e (hA.tid k i q r hk hc et)
        · intro t ht'
          dsimp only
          rw [put_other]
          · exact h.rngO t ht'
          · intro e; exact ht' r hmem e.symm
        · intro k q hk x hx
          dsimp only at hx ⊢
          by_cases e : k = i
          · subst e
            have : q = r := by rw [hc] at hk; exact (Option.some.inj hk).symm
            subst this
            rw [if_pos rfl, hm', e1] at hx
            exact h.memI k q hk x (by rw [hm]; exact hx)
          · rw [if_neg e] at hx; exact h.memI k q hk x hx

theorem at_run {g : Gen σ δ β} {d0 : δ} {calls : List ParRange} {rngs : Nat → σ} {mem : Nat → β} (hA : Apart calls) :
    ∀ (sched : List Nat) (cnt : Nat → Nat) (s : Sys σ δ β), At g d0 calls rngs mem cnt s →
      At g d0 calls rngs mem (fun j => cnt j + sched.count j) (s.run g sched) := by
  intro sched
  induction sched with
  | nil => intro cnt s h; simpa [Sys.run] using h
  | cons i rest ih =>
    intro cnt s h
    have := ih _ _ (at_step hA h i)
    simp only [Sys.run, List.foldl_cons] at this ⊢
    have e : (fun j => (if j = i then cnt j + 1 else cnt j) + rest.count j) = fun j => cnt j + (i :: rest).count j := by
      funext j
      rw [List.count_cons]
      by_cases hji : j = i
      · subst hji; simp; omega
      · have : (i == j) = false := by simp; exact fun h => hji h.symm
        simp [hji, this]
    rw [e] at this
    exact this

theorem at_start (g : Gen σ δ β) (ranges : List ParRange) (n : Nat) (d0 : δ) (rngs : Nat → σ) (mem : Nat → β) :
    At g d0 (runCalls ranges n 0) rngs mem (fun _ => 0) (Sys.start ranges n d0 rngs mem) := by
  refine ⟨by simp [Sys.start], ?_, ?_, ?_, ?_, ?_⟩
  · intro i r h
    simp only [Sys.start, List.getElem?_map, h, Option.map_some]
    simp [jobAt, after]
  · intro i r h; simp [Sys.start, after]
  · intro t _; rfl
  · intro i r h k hk; simp at hk
  · intro k _; rfl

/-- Explicit list of the calls. -/
theorem calls_eq {W : Nat} {ranges : List ParRange} (hp : Pool W ranges) (n : Nat) :
    runCalls ranges n 0 =
      ⟨pieceBegin n (crew W n) (crew W n - 1), pieceLen n (crew W n) (crew W n - 1), 0⟩ ::
        (List.range (crew W n - 1)).map (fun j => ⟨pieceBegin n (crew W n) j, pieceLen n (crew W n) j, j + 1⟩) := by
  by_cases hc : 1 < n
  · have h := runCalls_eq ranges n 0 hp.1 hc
    simp only at h
    have hw : workingCnt ranges.length n 0 + 1 = crew W n := by
      have := hp.2
      unfold workingCnt useNThreads crew
      have h0 : ¬ ((1:Int) < 0 ∧ (0:Int) ≤ ranges.length + 1) := by omega
      have h1 : ¬ n ≤ 1 := by omega
      rw [if_neg h0, if_neg h1]
      by_cases h2 : n > ranges.length
      · rw [if_pos h2, Nat.min_eq_left (by omega)]; omega
      · rw [if_neg h2, Nat.min_eq_right (by omega)]; omega
    have hw' : workingCnt ranges.length n 0 = crew W n - 1 := by omega
    rw [h, hw, hw']
    have hT : 0 < crew W n := by rw [← hw]; omega
    have tot := pre_total n (crew W n - 1)
    rw [show crew W n - 1 + 1 = crew W n by omega] at tot
    have hs := pre_succ (n / crew W n) (n % crew W n) (crew W n - 1)
    rw [show crew W n - 1 + 1 = crew W n by omega, tot] at hs
    congr 1
    simp only [pieceBegin, pieceLen]
    unfold pre at hs ⊢
    congr 1
    exact Nat.sub_eq_of_eq_add (by rw [Nat.add_comm]; exact hs)
  · have : n = 0 ∨ n = 1 := by omega
    rcases this with rfl | rfl <;> simp [runCalls, crew, pieceBegin, pieceLen]

theorem crew_pos {W : Nat} (hW : 0 < W) (n : Nat) : 0 < crew W n := by unfold crew; split <;> omega

/-- Call number of piece `j`. -/
theorem call_of_piece {W : Nat} {ranges : List ParRange} (hp : Pool W ranges) (n j : Nat) (hj : j < crew W n) :
    ∃ i : Nat, (runCalls ranges n 0)[i]? = some (⟨pieceBegin n (crew W n) j, pieceLen n (crew W n) j, pieceOwner (crew W n) j⟩ : ParRange) := by
  rw [calls_eq hp n]
  by_cases h : j + 1 = crew W n
  · refine ⟨0, ?_⟩
    have e : j = crew W n - 1 := by omega
    simp only [List.getElem?_cons_zero, pieceOwner, if_pos h]
    rw [e]
  · refine ⟨j + 1, ?_⟩
    have : j < crew W n - 1 := by omega
    simp [pieceOwner, h, this]

theorem piece_of_call {W : Nat} {ranges : List ParRange} (hp : Pool W ranges) (n i : Nat) (r : ParRange)
    (h : (runCalls ranges n 0)[i]? = some r) :
    ∃ j, j < crew W n ∧ i = pieceOwner (crew W n) j ∧
      r = ⟨pieceBegin n (crew W n) j, pieceLen n (crew W n) j, pieceOwner (crew W n) j⟩ := by
  have hT := crew_pos (W := W) (by have := hp.2; omega) n
  rw [calls_eq hp n] at h
  cases i with
  | zero =>
    simp only [List.getElem?_cons_zero, Option.some.injEq] at h
    refine ⟨crew W n - 1, by omega, ?_, ?_⟩
    · simp [pieceOwner]; omega
    · rw [← h]; simp [pieceOwner]; omega
  | succ i =>
    simp only [List.getElem?_cons_succ, List.getElem?_map] at h
    rcases hi : (List.range (crew W n - 1))[i]? with _ | x
    · rw [hi] at h; cases h
    · rw [hi] at h
      have hx := List.getElem?_eq_some_iff.1 hi
      obtain ⟨h1, h2⟩ := hx
      simp at h1 h2
      subst h2
      refine ⟨i, by omega, ?_, ?_⟩
      · simp [pieceOwner]; omega
      · simp only [Option.map_some, Option.some.injEq] at h
        rw [← h]; simp [pieceOwner]; omega

theorem calls_apart {W : Nat} {ranges : List ParRange} (hp : Pool W ranges) (n : Nat) : Apart (runCalls ranges n 0) := by
  refine ⟨?_, ?_⟩
  · intro i j r q hi hj e
    obtain ⟨a, ha, ea, ra⟩ := piece_of_call hp n i r hi
    obtain ⟨b, hb, eb, rb⟩ := piece_of_call hp n j q hj
    rw [ra, rb] at e
    simp only at e
    omega
  · intro i j r q k hi hj hr hq
    have h1 := run_processes_each_item_once ranges n 0 hp.1 k
    by_contra hne
    have key : 2 ≤ timesProcessed (runCalls ranges n 0) k := by
      unfold timesProcessed
      generalize hl : runCalls ranges n 0 = l at *
      have hr' : (fun r : ParRange => decide (r.offset ≤ k) && decide (k < r.offset + r.cnt)) r = true := by
        simp [hr.1, hr.2]
      have hq' : (fun r : ParRange => decide (r.offset ≤ k) && decide (k < r.offset + r.cnt)) q = true := by
        simp [hq.1, hq.2]
      generalize (fun r : ParRange => decide (r.offset ≤ k) && decide (k < r.offset + r.cnt)) = P at *
      clear h1 hl
      -- two different positions satisfy the predicate
      have gen : ∀ (l : List ParRange) (i j : Nat), i < j → ∀ r q, l[i]? = some r → l[j]? = some q → P r = true → P q = true →
          2 ≤ l.countP P := by
        intro l
        induction l with
        | nil => intro i j _ r q h; simp at h
        | cons a l ih =>
          intro i j hij r q h1 h2 pr pq
          cases j with
          | zero => omega
          | succ j =>
            rw [List.getElem?_cons_succ] at h2
            cases i with
            | zero =>
              simp only [List.getElem?_cons_zero, Option.some.injEq] at h1
              subst h1
              rw [List.countP_cons, if_pos pr]
              have : 0 < l.countP P := List.countP_pos_iff.2 ⟨q, List.mem_of_getElem? h2, pq⟩
              omega
            | succ i =>
              rw [List.getElem?_cons_succ] at h1
              have := ih i j (by omega) r q h1 h2 pr pq
              rw [List.countP_cons]; omega
      rcases Nat.lt_or_gt_of_ne hne with h | h
      · exact gen l i j h r q hi hj hr' hq'
      · exact gen l j i h q r hj hi hq' hr'
    rw [h1] at key
    split at key <;> omega

/-- The state after any schedule. -/
theorem at_sched (g : Gen σ δ β) {W : Nat} {ranges : List ParRange} (hp : Pool W ranges) (n : Nat) (d0 : δ) (rngs : Nat → σ)
    (mem : Nat → β) (sched : List Nat) :
    At g d0 (runCalls ranges n 0) rngs mem sched.count ((Sys.start ranges n d0 rngs mem).run g sched) := by
  have := at_run (calls_apart hp n) sched _ _ (at_start g ranges n d0 rngs mem)
  simpa using this

theorem finished_iff {g : Gen σ δ β} {d0 : δ} {calls : List ParRange} {rngs : Nat → σ} {mem : Nat → β} {cnt : Nat → Nat}
    {s : Sys σ δ β} (h : At g d0 calls rngs mem cnt s) :
    s.finished = true ↔ ∀ i r, calls[i]? = some r → 2 * r.cnt ≤ cnt i := by
  have key : ∀ (r : ParRange) (c : Nat), ((jobAt g d0 rngs r c).ptr == (jobAt g d0 rngs r c).pE && (jobAt g d0 rngs r c).reg.isNone) = true ↔
      2 * r.cnt ≤ c := by
    intro r c
    simp only [jobAt, Bool.and_eq_true, beq_iff_eq]
    constructor
    · rintro ⟨h1, _⟩; omega
    · intro h
      have hm : min (2 * r.cnt) c = 2 * r.cnt := by omega
      rw [hm]
      refine ⟨by omega, ?_⟩
      rw [if_neg (by omega)]; rfl
  unfold Sys.finished
  rw [List.all_eq_true]
  constructor
  · intro hall i r hi
    have hj := h.job i r hi
    exact (key r (cnt i)).1 (hall _ (List.mem_of_getElem? hj))
  · intro hall j hj
    obtain ⟨i, hi, rfl⟩ := List.mem_iff_getElem.1 hj
    have hil : i < calls.length := by rw [← h.len]; exact hi
    have hji := h.job i calls[i] (List.getElem?_eq_getElem hil)
    rw [List.getElem?_eq_getElem hi, Option.some.injEq] at hji
    rw [hji]
    exact (key _ _).2 (hall i calls[i] (List.getElem?_eq_getElem hil))

theorem covered_lt {W : Nat} {ranges : List ParRange} (hp : Pool W ranges) (n : Nat) :
    ∀ r ∈ runCalls ranges n 0, ∀ k, r.covers k → k < n := by
  intro r hr k hk
  have h1 := run_processes_each_item_once ranges n 0 hp.1 k
  by_contra hn
  rw [if_neg hn] at h1
  have := List.countP_eq_zero.1 h1 r hr
  simp at this
  exact absurd hk.2 (by have := this hk.1; omega)

theorem filled_of_at {g : Gen σ δ β} {d0 : δ} {W n : Nat} {ranges : List ParRange} {rngs : Nat → σ} {mem : Nat → β} {cnt : Nat → Nat}
    {s : Sys σ δ β} (hp : Pool W ranges) (h : At g d0 (runCalls ranges n 0) rngs mem cnt s)
    (hf : ∀ i r, (runCalls ranges n 0)[i]? = some r → 2 * r.cnt ≤ cnt i) : Filled g d0 W n rngs mem s.rngs s.mem := by
  refine ⟨?_, ?_, ?_, ?_⟩
  · intro j hj i hi
    obtain ⟨c, hc⟩ := call_of_piece hp n j hj
    have hcnt := hf c _ hc
    have := h.memI c _ hc i (by simp only at hcnt ⊢; omega)
    exact this
  · intro k hk
    refine h.memO k ?_
    intro r hr hcov
    have := covered_lt hp n r hr k hcov
    omega
  · intro j hj
    obtain ⟨c, hc⟩ := call_of_piece hp n j hj
    have hcnt := hf c _ hc
    have := h.rng c _ hc
    simp only at hcnt this
    rw [show (min (2 * pieceLen n (crew W n) j) (cnt c) + 1) / 2 = pieceLen n (crew W n) j by omega] at this
    exact this
  · intro t ht
    refine h.rngO t ?_
    intro r hr e
    obtain ⟨i, hi, rfl⟩ := List.mem_iff_getElem.1 hr
    obtain ⟨j, hj, ej, rj⟩ := piece_of_call hp n i _ (List.getElem?_eq_getElem hi)
    rw [rj] at e
    simp only [pieceOwner] at e
    split at e <;> omega

/-! ### One thread -/

theorem loop_eq (g : Gen σ δ β) : ∀ (n ptr : Nat) (d : δ) (s : σ) (mem : Nat → β),
    (loop g n ptr d s mem).1 = (after g d s n).2 ∧
    (∀ i, i < n → (loop g n ptr d s mem).2 (ptr + i) = elem g d s i) ∧
    (∀ k, (k < ptr ∨ ptr + n ≤ k) → (loop g n ptr d s mem).2 k = mem k) := by
  have shift : ∀ (d : δ) (s : σ) (k : Nat), after g d s (k + 1) = after g (g d s).2.1 (g d s).2.2 k := by
    intro d s k
    induction k with
    | zero => rfl
    | succ k ih => rw [after]; simp only [ih]; rfl
  intro n
  induction n with
  | zero => intro ptr d s mem; simp [loop, after]
  | succ n ih =>
    intro ptr d s mem
    obtain ⟨h1, h2, h3⟩ := ih (ptr + 1) (g d s).2.1 (g d s).2.2 (put mem ptr (g d s).1)
    simp only [loop]
    refine ⟨by rw [h1, shift], ?_, ?_⟩
    · intro i hi
      cases i with
      | zero =>
        have := h3 ptr (Or.inl (by omega))
        rw [put_same] at this
        exact this
      | succ i =>
        have := h2 i (by omega)
        rw [show ptr + (i + 1) = ptr + 1 + i by omega, this]
        unfold elem
        rw [shift]
    · intro k hk
      rw [h3 k (by omega), put_other _ _ (by omega)]

theorem filledSt (g : Gen σ δ β) (n : Nat) (d0 : δ) (rngs : Nat → σ) (mem : Nat → β) :
    Filled g d0 1 n rngs mem (fillSt g n d0 rngs mem).1 (fillSt g n d0 rngs mem).2 := by
  obtain ⟨h1, h2, h3⟩ := loop_eq g n 0 d0 (rngs 0) mem
  have hT : crew 1 n = 1 := by unfold crew; split <;> omega
  unfold fillSt
  refine ⟨?_, ?_, ?_, ?_⟩
  · rw [hT]
    intro j hj i hi
    have : j = 0 := by omega
    subst this
    have hi' : i < n := by
      simpa [pieceLen, Nat.mod_one] using hi
    simpa [pieceBegin, pieceOwner] using h2 i hi'
  · intro k hk; exact h3 k (Or.inr (by omega))
  · rw [hT]
    intro j hj
    have : j = 0 := by omega
    subst this
    simp [pieceOwner, pieceLen, put, h1, Nat.mod_one]
  · rw [hT]
    intro t ht
    exact put_other _ _ (by omega)

/-- The outcome is determined. -/
theorem Filled.unique {g : Gen σ δ β} {d0 : δ} {W n : Nat} {rngs rngs1 rngs2 R1 R2 : Nat → σ} {mem mem1 M1 M2 : Nat → β} (hW : 0 < W)
    (he : ∀ t, t < W → rngs1 t = rngs2 t)
    (h1 : Filled g d0 W n rngs1 mem R1 M1) (h2 : Filled g d0 W n rngs2 mem1 R2 M2) :
    (∀ k, k < n → M1 k = M2 k) ∧ ∀ t, t < W → R1 t = R2 t := by
  have hcW : crew W n ≤ W := by unfold crew; split <;> omega
  have hT := crew_pos hW n
  have ow : ∀ j, j < crew W n → pieceOwner (crew W n) j < W := by
    intro j hj; unfold pieceOwner; split <;> omega
  refine ⟨?_, ?_⟩
  · intro k hk
    -- the piece of `k`
    have : ∃ j, j < crew W n ∧ ∃ i, i < pieceLen n (crew W n) j ∧ k = pieceBegin n (crew W n) j + i := by
      generalize crew W n = T at *
      have tot := pre_total n (T - 1)
      rw [show T - 1 + 1 = T by omega] at tot
      have key : ∀ m, k < pre (n / T) (n % T) m → ∃ j, j < m ∧ ∃ i, i < pieceLen n T j ∧ k = pieceBegin n T j + i := by
        intro m
        induction m with
        | zero => intro h; simp [pre] at h
        | succ m ih =>
          intro h
          by_cases hlt : k < pre (n / T) (n % T) m
          · obtain ⟨j, hj, r⟩ := ih hlt; exact ⟨j, by omega, r⟩
          · rw [pre_succ] at h
            refine ⟨m, by omega, k - pre (n / T) (n % T) m, ?_, ?_⟩
            · unfold pieceLen; omega
            · unfold pieceBegin; unfold pre at hlt ⊢; omega
      exact key T (by omega)
    obtain ⟨j, hj, i, hi, rfl⟩ := this
    rw [h1.inside j hj i hi, h2.inside j hj i hi, he _ (ow j hj)]
  · intro t ht
    by_cases hc : crew W n ≤ t
    · rw [h1.idle t hc, h2.idle t hc, he t ht]
    · -- `t` owns a piece
      have : ∃ j, j < crew W n ∧ pieceOwner (crew W n) j = t := by
        by_cases h0 : t = 0
        · refine ⟨crew W n - 1, by omega, ?_⟩
          unfold pieceOwner; rw [if_pos (by omega)]; exact h0.symm
        · refine ⟨t - 1, by omega, ?_⟩
          unfold pieceOwner; rw [if_neg (by omega)]; omega
      obtain ⟨j, hj, rfl⟩ := this
      rw [h1.busy j hj, h2.busy j hj, he _ (ow j hj)]

end Nntl.Rng
