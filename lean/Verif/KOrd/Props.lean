import Verif.KOrd.Agg
import Verif.Kernel.Each
import Mathlib.Order.OrderDual
import Mathlib.Order.Nat
/-! C45 and C46. -/
namespace Nntl.KOrd
open Nntl.Kernel
variable {α : Type}

/-- Calls of `mcwFindKOrdered`, `nntl/interface/math/mathn.h` 5186–5269, for batch after batch: every call shares the `cols` columns out among
threads in its own way (`run` 5200); `next` is `bNextBatch` of the first call. A batch is the values of each of its columns. -/
def Searches (better : α → α → Bool) (ext : α) (k cols : Nat) : Bool → List (Exec × (Nat → List α)) → (Nat → Cache α) → (Nat → Cache α) → Prop
  | _, [], m, m' => m' = m
  | next, (ex, src) :: calls, m, m' => ∃ m1, Runs ex cols (eachSteps fun col c => column better ext k next c (src col)) m m1 ∧
      Searches better ext k cols true calls m1 m'

theorem searches_next [LinearOrder α] {better : α → α → Bool} {ext : α} {k cols : Nat} (hb : ∀ a b, better a b = true ↔ b < a) (hext : ∀ a, ext ≤ a)
    (hk : 0 < k) {col : Nat} (hcol : col < cols) : ∀ (calls : List (Exec × (Nat → List α))) (m m' : Nat → Cache α) (seen : List α),
    (∀ q ∈ calls, q.1.Ok) → Searches better ext k cols true calls m m' → KBest ext k (m col) seen →
    KBest ext k (m' col) (seen ++ (calls.map fun q => q.2 col).flatten) ∧
    ∀ before last, calls = before ++ [last] → IndexOk ext k (m' col) (seen ++ (before.map fun q => q.2 col).flatten) (last.2 col) := by
  intro calls
  induction calls with
  | nil =>
    intro m m' seen _ h hseen
    have h : m' = m := h
    subst h
    exact ⟨by simpa using hseen, fun before last h => by simp at h⟩
  | cons q calls ih =>
    intro m m' seen hok h hseen
    obtain ⟨m1, h1, h2⟩ := h
    have hc := each_result q.1 (hok q (List.mem_cons_self ..)) cols (by omega) _ h1 col
    rw [if_pos hcol] at hc
    have hinv := column_next hb hk hext hseen (q.2 col)
    rw [← hc] at hinv
    obtain ⟨a1, a2⟩ := ih m1 m' _ (fun q hq => hok q (List.mem_cons_of_mem _ hq)) h2 hinv.best
    refine ⟨by simpa using a1, fun before last he => ?_⟩
    cases before with
    | nil =>
      simp only [List.nil_append, List.cons.injEq] at he
      obtain ⟨rfl, rfl⟩ := he
      have h2 : m' = m1 := h2
      subst h2
      simpa using hinv.idx
    | cons x before =>
      simp only [List.cons_append, List.cons.injEq] at he
      obtain ⟨rfl, he⟩ := he
      simpa using a2 before last he

/-- **C45.** Whatever is in the helper matrix before: after any number of batches, each searched by threads in any manner, every column of the
helper holds the `k` best distinct values of all the batches in order (`KBest`); a value from an earlier batch, or a free place, has
no index, any other value has the index of its first occurrence in the last batch. "Better" is "greater" in an arbitrary linear order
with a worst element `ext` (`most_extreme`). -/
theorem k_best_distinct_in_every_column [LinearOrder α] {better : α → α → Bool} {ext : α} {k cols : Nat}
    (hb : ∀ a b, better a b = true ↔ b < a) (hext : ∀ a, ext ≤ a) (hk : 0 < k)
    (calls : List (Exec × (Nat → List α))) (last : Exec × (Nat → List α)) (hok : ∀ q ∈ calls ++ [last], q.1.Ok) (m m' : Nat → Cache α)
    (h : Searches better ext k cols false (calls ++ [last]) m m') (col : Nat) (hcol : col < cols) :
    KBest ext k (m' col) (((calls ++ [last]).map fun q => q.2 col).flatten) ∧
    IndexOk ext k (m' col) (calls.map fun q => q.2 col).flatten (last.2 col) := by
  cases calls with
  | nil =>
    obtain ⟨m1, h1, h2⟩ := h
    have h2 : m' = m1 := h2
    subst h2
    have hc := each_result last.1 (hok last (by simp)) cols (by omega) _ h1 col
    rw [if_pos hcol] at hc
    have hinv := column_first hb hk hext (m col) (last.2 col)
    rw [← hc] at hinv
    exact ⟨by simpa using hinv.best, by simpa using hinv.idx⟩
  | cons q calls =>
    obtain ⟨m1, h1, h2⟩ := h
    have hc := each_result q.1 (hok q (by simp)) cols (by omega) _ h1 col
    rw [if_pos hcol] at hc
    have hinv := column_first hb hk hext (m col) (q.2 col)
    rw [← hc] at hinv
    obtain ⟨a1, a2⟩ := searches_next hb hext hk hcol (calls ++ [last]) m1 m' _ (fun q hq => hok q (List.mem_cons_of_mem _ hq)) h2 hinv.best
    exact ⟨by simpa using a1, by simpa using a2 calls last rfl⟩

/-- **C45**, columns beyond the last one are not touched. -/
theorem search_leaves_the_rest {better : α → α → Bool} {ext : α} {k cols : Nat} (hc : 0 < cols) : ∀ (calls : List (Exec × (Nat → List α))) (next : Bool)
    (m m' : Nat → Cache α), (∀ q ∈ calls, q.1.Ok) → Searches better ext k cols next calls m m' → ∀ col, ¬ col < cols → m' col = m col := by
  intro calls
  induction calls with
  | nil => intro next m m' _ h col _; have h : m' = m := h; rw [h]
  | cons q calls ih =>
    intro next m m' hok h col hcol
    obtain ⟨m1, h1, h2⟩ := h
    rw [ih true m1 m' (fun q hq => hok q (List.mem_cons_of_mem _ hq)) h2 col hcol,
      each_result q.1 (hok q (List.mem_cons_self ..)) cols hc _ h1 col, if_neg hcol]

/-- **C45**, the greatest: `mcwFindKBiggestDistinct`. -/
theorem k_biggest_distinct [LinearOrder α] {lowest : α} {k cols : Nat} (hl : ∀ a, lowest ≤ a) (hk : 0 < k)
    (calls : List (Exec × (Nat → List α))) (last : Exec × (Nat → List α)) (hok : ∀ q ∈ calls ++ [last], q.1.Ok) (m m' : Nat → Cache α)
    (h : Searches biggestDistinct lowest k cols false (calls ++ [last]) m m') (col : Nat) (hcol : col < cols) :
    KBest lowest k (m' col) (((calls ++ [last]).map fun q => q.2 col).flatten) ∧
    IndexOk lowest k (m' col) (calls.map fun q => q.2 col).flatten (last.2 col) :=
  k_best_distinct_in_every_column (fun a b => by simp [biggestDistinct]) hl hk calls last hok m m' h col hcol

/-- **C45**, the least: `mcwFindKSmallestDistinct`; the order is turned around. -/
theorem k_smallest_distinct [LinearOrder α] {max : α} {k cols : Nat} (hl : ∀ a, a ≤ max) (hk : 0 < k)
    (calls : List (Exec × (Nat → List α))) (last : Exec × (Nat → List α)) (hok : ∀ q ∈ calls ++ [last], q.1.Ok) (m m' : Nat → Cache α)
    (h : Searches smallestDistinct max k cols false (calls ++ [last]) m m') (col : Nat) (hcol : col < cols) :
    KBest (α := αᵒᵈ) (OrderDual.toDual max) k (m' col) (((calls ++ [last]).map fun q => q.2 col).flatten) ∧
    IndexOk (α := αᵒᵈ) (OrderDual.toDual max) k (m' col) (calls.map fun q => q.2 col).flatten (last.2 col) := by
  have hb : ∀ a b : αᵒᵈ, (smallestDistinct (α := α) a b : Bool) = true ↔ b < a := by
    intro a b
    simp only [smallestDistinct, decide_eq_true_eq]
    exact Iff.rfl
  exact k_best_distinct_in_every_column (α := αᵒᵈ) hb (fun a => hl a) hk calls last hok m m' h col hcol

/-- **C45**, with equal values: the cache holds the `k` best values, equal ones as often as they occur. -/
theorem k_best_in_every_column [LinearOrder α] {better : α → α → Bool} {ext : α} {k cols : Nat}
    (hb : ∀ a b, better a b = true ↔ b ≤ a) (hk : 0 < k) (col : Nat) (hcol : col < cols) :
    ∀ (calls : List (Exec × (Nat → List α))) (m m' : Nat → Cache α), calls ≠ [] → (∀ q ∈ calls, q.1.Ok) →
      Searches better ext k cols false calls m m' → KBestAll ext k (m' col) ((calls.map fun q => q.2 col).flatten) := by
  have next : ∀ (calls : List (Exec × (Nat → List α))) (m m' : Nat → Cache α) (seen : List α), (∀ q ∈ calls, q.1.Ok) →
      Searches better ext k cols true calls m m' → KBestAll ext k (m col) seen →
      KBestAll ext k (m' col) (seen ++ (calls.map fun q => q.2 col).flatten) := by
    intro calls
    induction calls with
    | nil => intro m m' seen _ h hs; have h : m' = m := h; subst h; simpa using hs
    | cons q calls ih =>
      intro m m' seen hok h hs
      obtain ⟨m1, h1, h2⟩ := h
      have hc := each_result q.1 (hok q (List.mem_cons_self ..)) cols (by omega) _ h1 col
      rw [if_pos hcol] at hc
      have := column_next_all hb hk hs (q.2 col)
      rw [← hc] at this
      simpa using ih m1 m' _ (fun q hq => hok q (List.mem_cons_of_mem _ hq)) h2 this
  intro calls m m' hne hok h
  cases calls with
  | nil => exact absurd rfl hne
  | cons q calls =>
    obtain ⟨m1, h1, h2⟩ := h
    have hc := each_result q.1 (hok q (List.mem_cons_self ..)) cols (by omega) _ h1 col
    rw [if_pos hcol] at hc
    have := column_first_all hb hk (m col) (q.2 col) (ext := ext)
    rw [← hc] at this
    simpa using next calls m1 m' _ (fun q hq => hok q (List.mem_cons_of_mem _ hq)) h2 this

/-! ### C46 -/

theorem runBatches_next [LinearOrder α] {better : α → α → Bool} {ext : α} {k : Nat} (hb : ∀ a b, better a b = true ↔ b < a) (hext : ∀ a, ext ≤ a)
    (hk : 0 < k) : ∀ (bs done : List (List α)) (c : Cache α) (d : Nat → Dse α), done ≠ [] → KBest ext k c done.flatten → StrictAsc k c →
    (∀ j < k, (d j).val = (c j).1) → Located ext k d done →
    ∀ s, s = runBatches better ext k bs done.length (c, d) →
    KBest ext k s.1 (done ++ bs).flatten ∧ (∀ j < k, (s.2 j).val = (s.1 j).1) ∧ Located ext k s.2 (done ++ bs) := by
  intro bs
  induction bs with
  | nil =>
    intro done c d _ hbest _ hval hloc s hs
    simp only [runBatches] at hs
    subst hs
    rw [List.append_nil]
    exact ⟨hbest, hval, hloc⟩
  | cons src bs ih =>
    intro done c d hne hbest hasc hval hloc s hs
    simp only [runBatches] at hs
    have hlen : done.length ≠ 0 := by simpa using hne
    have hdec : decide (done.length ≠ 0) = true := by simpa using hne
    rw [hdec] at hs
    have hinv := column_next hb hk hext hbest src
    have hasc' : StrictAsc k (column better ext k true c src) := by
      refine feedAll_strictAsc hb hk hext _ _ _ fun i j hij hj => ?_
      rw [if_pos hj, if_pos (by omega)]; exact hasc i j hij hj
    have hkept : Kept k (fun j => if j < k then ((c j).1, none) else c j) (column better ext k true c src) := by
      refine feedAll_kept better ext hk _ _ _ fun j hj _ => ⟨j, Nat.le_refl _, hj, rfl, fun _ r' _ _ => rfl⟩
    have hflat : (done ++ [src]).flatten = done.flatten ++ src := by simp
    have hgrow : ∀ e : Dse α, (e.val = ext ∨ ∃ i b, e.idx = some i ∧ done[e.batch]? = some b ∧ b[i]? = some e.val) →
        (e.val = ext ∨ ∃ i b, e.idx = some i ∧ (done ++ [src])[e.batch]? = some b ∧ b[i]? = some e.val) := by
      rintro e (h | ⟨i, b, h1, h2, h3⟩)
      · exact .inl h
      · refine .inr ⟨i, b, h1, ?_, h3⟩
        rw [List.getElem?_append_left (List.getElem?_eq_some_iff.1 h2).1]; exact h2
    have hagg := aggLoop_spec (k := k) (c0 := fun j => if j < k then ((c j).1, none) else c j) (c := column better ext k true c src) (d0 := d)
      (b := done.length) (fun e => e.val = ext ∨ ∃ i b, e.idx = some i ∧ (done ++ [src])[e.batch]? = some b ∧ b[i]? = some e.val)
      (fun i j hij hj => by simp only; rw [if_pos hj, if_pos (by omega)]; exact hasc i j hij hj)
      (fun j hj => ⟨by rw [if_pos hj]; exact hval j hj, hgrow _ (hloc j hj)⟩) hkept
      (fun j hj i hi => by
        rcases hinv.idx j hj with ⟨hn, _⟩ | ⟨i', h1, h2, _, _⟩
        · rw [hn] at hi; cases hi
        · rw [h1] at hi; cases hi
          exact .inr ⟨i, src, rfl, by simp, h2⟩)
      k 0 d (by omega) (fun j hj => by omega) (fun j _ => rfl)
    have := ih (done ++ [src]) (column better ext k true c src) (aggregate k (column better ext k true c src) done.length d)
      (by simp) (by rw [hflat]; exact hinv.best) hasc' (fun j hj => by unfold aggregate; rw [if_neg hlen]; exact (hagg j hj).1)
      (fun j hj => by unfold aggregate; rw [if_neg hlen]; exact (hagg j hj).2) s (by rw [hs]; simp)
    simpa using this

/-- **C46** (distinct orders). When the first batch has at least `k − 1` distinct values (other than `ext`), then after any number of batches,
each searched and then aggregated, the aggregator holds exactly the `k` best distinct values of all the batches in order, and each comes
with the number of a batch and an index in it at which the value occurs.

Partial: for the orders that admit equal values, and for a first batch with fewer distinct values, this is false —
`aggregation_loses_values_with_ties`, `aggregation_loses_values_with_free_places`. -/
theorem aggregation_locates_the_best_partial [LinearOrder α] {better : α → α → Bool} {ext : α} {k : Nat} (hb : ∀ a b, better a b = true ↔ b < a)
    (hext : ∀ a, ext ≤ a) (hk : 0 < k) (first : List α) (bs : List (List α)) (l : List α) (hl : l.Nodup) (hlen : k - 1 ≤ l.length)
    (hmem : ∀ v ∈ l, v ∈ first ∧ v ≠ ext) (s0 s : Cache α × (Nat → Dse α)) (hs : s = runBatches better ext k (first :: bs) 0 s0) :
    KBest ext k (fun j => ((s.2 j).val, (s.2 j).idx)) (first :: bs).flatten ∧ Located ext k s.2 (first :: bs) := by
  simp only [runBatches] at hs
  have hinv := column_first hb hk hext s0.1 first
  have hd : decide ((0 : Nat) ≠ 0) = false := rfl
  rw [hd] at hs
  have h0 := runBatches_next hb hext hk bs [first] (column better ext k false s0.1 first) (aggregate k (column better ext k false s0.1 first) 0 s0.2)
    (by simp) (by simpa using hinv.best) (strictAsc_of_distinct hk hext hinv.best l hl hlen (by simpa using hmem))
    (fun j hj => by unfold aggregate; rw [if_pos rfl]; rfl)
    (fun j hj => by
      unfold aggregate; rw [if_pos rfl]
      rcases hinv.idx j hj with ⟨hn, h | h⟩ | ⟨i, h1, h2, _, _⟩
      · exact .inl h
      · simp at h
      · exact .inr ⟨i, first, h1, by simp [aggFirst], h2⟩)
    s (by rw [hs]; rfl)
  obtain ⟨a1, a2, a3⟩ := h0
  refine ⟨⟨fun i j hij hj => ?_, fun j hj => ?_, fun v hv => ?_⟩, by simpa using a3⟩
  · simp only; rw [a2 i (by omega), a2 j hj]; exact a1.asc i j hij hj
  · simp only; rw [a2 j hj]; exact a1.sub j hj
  · simp only
    rw [a2 0 hk]
    rcases a1.top v hv with h | ⟨j, hj, h⟩ | h
    · exact .inl h
    · exact .inr (.inl ⟨j, hj, by rw [a2 j hj]; exact h⟩)
    · exact .inr (.inr h)

/-- **C46 fails for orders that admit equal values**: the two greatest of 5, 5 and — in the next batch — 7 are 5 and 7, and the search
finds them, but the aggregator stops at the first 5 and never takes up the 7. -/
theorem aggregation_loses_values_with_ties :
    let s := runBatches (α := Nat) biggest 0 2 [[5, 5], [7]] 0 (fun _ => (0, none), fun _ => ⟨0, 0, none⟩)
    (s.1 0).1 = 5 ∧ (s.1 1).1 = 7 ∧ (s.2 0).val = 5 ∧ (s.2 1).val = 5 := by decide

/-- **C46 fails for distinct orders when the first batch leaves two places free**: the three greatest of 5 and — in the next batch — 7
are 5 and 7, the aggregator keeps 5 only. (In debug builds an assertion, `is_hlprmtx_ok` 5188, stops the program first.) -/
theorem aggregation_loses_values_with_free_places :
    let s := runBatches (α := Nat) biggestDistinct 0 3 [[5], [7]] 0 (fun _ => (0, none), fun _ => ⟨0, 0, none⟩)
    (s.1 1).1 = 5 ∧ (s.1 2).1 = 7 ∧ (s.2 0).val = 0 ∧ (s.2 1).val = 0 ∧ (s.2 2).val = 5 := by decide

/-! ### The hypotheses are met -/

/-- Three batches, one of them searched by two threads: what the theorem says is not trivial. -/
example : ∃ m', Searches (α := Nat) biggestDistinct 0 2 3 false
    [(.st, fun col => [3 + col, 3 + col, 1]), (.mt (Threads.initRanges 2), fun _ => [9, 2]), (.st, fun _ => [4])] (fun _ _ => (0, none)) m' := by
  obtain ⟨m1, h1⟩ := runs_exists .st 3 (eachSteps fun col c => column (α := Nat) biggestDistinct 0 2 false c [3 + col, 3 + col, 1]) (fun _ _ => (0, none))
  obtain ⟨m2, h2⟩ := runs_exists (.mt (Threads.initRanges 2)) 3 (eachSteps fun _ c => column (α := Nat) biggestDistinct 0 2 true c [9, 2]) m1
  obtain ⟨m3, h3⟩ := runs_exists .st 3 (eachSteps fun _ c => column (α := Nat) biggestDistinct 0 2 true c [4]) m2
  exact ⟨m3, m1, h1, m2, h2, m3, h3, rfl⟩

/-- The search on numbers: of 3, 3, 1, then 9, 2, the two best distinct values are 3 (of the first batch) and 9 (at index 0). -/
example : let c := findBatches (α := Nat) biggestDistinct 0 2 (fun _ => (7, some 7)) [[3, 3, 1], [9, 2]]
    c 0 = (3, none) ∧ c 1 = (9, some 0) := by decide

example : let c := findBatches (α := Nat) smallest 100 3 (fun _ => (7, some 7)) [[3, 3, 1], [9, 2]]
    (c 0).1 = 3 ∧ (c 1).1 = 2 ∧ (c 2).1 = 1 := by decide

/-- The aggregation on numbers: two places, three batches. -/
example : let s := runBatches (α := Nat) biggestDistinct 0 2 [[3, 5], [7, 4], [4, 5, 6]] 0 (fun _ => (0, none), fun _ => ⟨0, 0, none⟩)
    s.2 0 = ⟨2, 6, some 2⟩ ∧ s.2 1 = ⟨1, 7, some 0⟩ := by decide

example : Located 0 2 (runBatches (α := Nat) biggestDistinct 0 2 [[3, 5], [7, 4], [4, 5, 6]] 0 (fun _ => (0, none), fun _ => ⟨0, 0, none⟩)).2
    [[3, 5], [7, 4], [4, 5, 6]] :=
  (aggregation_locates_the_best_partial (better := biggestDistinct) (ext := 0) (k := 2) (fun a b => by simp [biggestDistinct]) (fun a => Nat.zero_le a)
    (by decide) [3, 5] [[7, 4], [4, 5, 6]] [3] (by decide) (by decide) (by decide) _ _ rfl).2

end Nntl.KOrd
