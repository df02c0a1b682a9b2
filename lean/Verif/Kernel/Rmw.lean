import Verif.Kernel.Writes
/-!
Execution of kernels that update elements in place. A thread is the list of its steps in program order; a step reads and
rewrites one cell (a cell may stand for the elements with one index of several arrays). Threads run concurrently: their steps
are interleaved arbitrarily, but every thread keeps its own order.
-/
namespace Nntl.Kernel
open Nntl.Threads
variable {σ τ : Type}

/-- One step: cell number and what is done to the cell. -/
abbrev Step (σ : Type) := Nat × (σ → σ)

/-- Perform steps one after another. -/
def runSteps (m : Nat → σ) : List (Step σ) → Nat → σ
  | [] => m
  | s :: ss => runSteps (fun k => if k = s.1 then s.2 (m k) else m k) ss

/-- `w` is an interleaving of the lists `ts`. -/
inductive Interleaves {τ : Type} : List (List τ) → List τ → Prop
  | done (ts : List (List τ)) (h : ∀ t ∈ ts, t = []) : Interleaves ts []
  | step (pre post : List (List τ)) (x : τ) (l w : List τ) (h : Interleaves (pre ++ l :: post) w) :
      Interleaves (pre ++ (x :: l) :: post) (x :: w)

/-- What the steps that touch cell `k` do to it, in order. -/
def atCell (k : Nat) (w : List (Step σ)) (v : σ) : σ := (w.filter fun s => s.1 == k).foldl (fun v s => s.2 v) v

/-- The threads of a run over `cnt` items: kernel applied to each of the ranges. -/
def Exec.threads (e : Exec) (cnt : Nat) (kernel : Nat → Nat → List τ) : List (List τ) :=
  (e.calls cnt).map fun r => kernel r.1 r.2

/-- `m'` is a possible memory after the kernel was run on `cnt` items. -/
def Runs (e : Exec) (cnt : Nat) (kernel : Nat → Nat → List (Step σ)) (m m' : Nat → σ) : Prop :=
  ∃ w, Interleaves (e.threads cnt kernel) w ∧ m' = runSteps m w

theorem runSteps_at (w : List (Step σ)) : ∀ (m : Nat → σ) (k : Nat), runSteps m w k = atCell k w (m k) := by
  induction w with
  | nil => intro m k; rfl
  | cons s ss ih =>
    intro m k
    rw [runSteps, ih]
    unfold atCell
    rw [List.filter_cons]
    by_cases h : s.1 = k
    · simp [h]
    · have h' : ¬ k = s.1 := fun h' => h h'.symm
      simp [h, h']

theorem interleaves_filter (p : τ → Bool) {ts : List (List τ)} {w : List τ} (h : Interleaves ts w) :
    Interleaves (ts.map (List.filter p)) (w.filter p) := by
  induction h with
  | done ts h =>
    refine .done _ ?_
    intro t ht
    obtain ⟨t', ht', rfl⟩ := List.mem_map.1 ht
    rw [h t' ht']; rfl
  | step pre post x l w _ ih =>
    rw [List.map_append, List.map_cons] at ih ⊢
    rw [List.filter_cons, List.filter_cons]
    by_cases hp : p x = true
    · rw [if_pos hp, if_pos hp]
      exact .step _ _ _ _ _ ih
    · rw [if_neg hp, if_neg hp]
      exact ih

theorem interleaves_single {ts : List (List τ)} {w : List τ} (h : Interleaves ts w) :
    ∀ (pre post : List (List τ)) (l : List τ), ts = pre ++ l :: post → (∀ t ∈ pre ++ post, t = []) → w = l := by
  induction h with
  | done ts h =>
    intro pre post l he _
    exact (h l (by rw [he]; simp)).symm
  | step pre' post' x l' w _ ih =>
    intro pre post l he hall
    -- the list holding `x` must be `l`
    have hx : pre'.length = pre.length := by
      apply Decidable.byContradiction
      intro hne
      have hg : (pre' ++ (x :: l') :: post')[pre'.length]? = some (x :: l') := by simp
      rw [he] at hg
      have hm : (x :: l') ∈ pre ++ post := by
        rcases Nat.lt_or_ge pre'.length pre.length with hlt | hge
        · rw [List.getElem?_append_left hlt] at hg
          exact List.mem_append_left _ (List.mem_of_getElem? hg)
        · rw [List.getElem?_append_right hge] at hg
          obtain ⟨j, hj⟩ : ∃ j, pre'.length - pre.length = j + 1 := ⟨pre'.length - pre.length - 1, by omega⟩
          rw [hj, List.getElem?_cons_succ] at hg
          exact List.mem_append_right _ (List.mem_of_getElem? hg)
      cases hall _ hm
    obtain ⟨h1, h2⟩ := List.append_inj he hx
    injection h2 with h3 h4
    subst h1 h4
    rw [← h3, ih pre' post' l' rfl hall]

theorem interleaves_all_nil {ts : List (List τ)} {w : List τ} (h : Interleaves ts w) (ha : ∀ t ∈ ts, t = []) : w = [] := by
  cases h with
  | done _ _ => rfl
  | step pre post x l w _ => cases ha (x :: l) (by simp)

/-- Program order of one thread is an interleaving. -/
theorem interleaves_one (l : List τ) : Interleaves [l] l := by
  induction l with
  | nil => exact .done _ (by simp)
  | cons x l ih => exact .step [] [] x l l ih

/-- Running the threads one after another is an interleaving. -/
theorem interleaves_flatten (ts : List (List τ)) : Interleaves ts ts.flatten := by
  have key : ∀ (pre ts : List (List τ)), (∀ t ∈ pre, t = []) → Interleaves (pre ++ ts) ts.flatten := by
    intro pre ts
    induction ts generalizing pre with
    | nil => intro h; exact .done _ (by simpa using h)
    | cons l ts ih =>
      intro h
      induction l with
      | nil =>
        have := ih (pre ++ [[]]) (by
          intro t ht
          rcases List.mem_append.1 ht with h1 | h1
          · exact h t h1
          · simpa using h1)
        simpa using this
      | cons x l ihl => exact .step pre ts x l _ ihl
  exact key [] ts (by simp)

theorem runs_exists (e : Exec) (cnt : Nat) (kernel : Nat → Nat → List (Step σ)) (m : Nat → σ) :
    ∃ m', Runs e cnt kernel m m' := ⟨_, _, interleaves_flatten _, rfl⟩

/-- Every item is in exactly one range. -/
theorem calls_split (e : Exec) (he : e.Ok) (cnt k : Nat) (hk : k < cnt) :
    ∃ pre r post, e.calls cnt = pre ++ r :: post ∧ r.1 ≤ k ∧ k < r.2 ∧ ∀ q ∈ pre ++ post, ¬ (q.1 ≤ k ∧ k < q.2) := by
  cases e with
  | st => exact ⟨[], (0, cnt), [], rfl, Nat.zero_le _, hk, by simp⟩
  | mt rs =>
    have h := run_processes_each_item_once rs cnt 0 he k
    rw [if_pos hk] at h
    unfold timesProcessed at h
    have hpos : 0 < (runCalls rs cnt 0).countP
        (fun r => decide (r.offset ≤ k) && decide (k < r.offset + r.cnt)) := by omega
    obtain ⟨r, hr, hc⟩ := List.countP_pos_iff.1 hpos
    obtain ⟨pre, post, hs⟩ := List.append_of_mem hr
    rw [hs, List.countP_append, List.countP_cons, if_pos hc] at h
    have h1 : List.countP (fun r => decide (r.offset ≤ k) && decide (k < r.offset + r.cnt)) pre = 0 := by omega
    have h2 : List.countP (fun r => decide (r.offset ≤ k) && decide (k < r.offset + r.cnt)) post = 0 := by omega
    simp only [Bool.and_eq_true, decide_eq_true_eq] at hc
    refine ⟨pre.map fun r => (r.offset, r.offset + r.cnt), (r.offset, r.offset + r.cnt),
      post.map fun r => (r.offset, r.offset + r.cnt), ?_, hc.1, hc.2, ?_⟩
    · show List.map _ (runCalls rs cnt 0) = _
      rw [hs, List.map_append, List.map_cons]
    · intro q hq
      rw [← List.map_append] at hq
      obtain ⟨q', hq', rfl⟩ := List.mem_map.1 hq
      have : ¬ (decide (q'.offset ≤ k) && decide (k < q'.offset + q'.cnt)) = true := by
        rcases List.mem_append.1 hq' with h3 | h3
        · exact List.countP_eq_zero.1 h1 q' h3
        · exact List.countP_eq_zero.1 h2 q' h3
      simpa using this

/-- **Every interleaving of the threads gives the same result**, when each cell `k` belongs to one item `own k` and the kernel, given
the range `[b,e)`, does the steps `S k` to the cells of the items in the range, and touches no other cell. -/
theorem runs_result (e : Exec) (he : e.Ok) (cnt : Nat) (hc : 0 < cnt) (kernel : Nat → Nat → List (Step σ)) (own : Nat → Nat)
    (S : Nat → List (σ → σ))
    (hk : ∀ b e', b < e' → e' ≤ cnt → ∀ k, ((kernel b e').filter fun s => s.1 == k).map (·.2) =
      if b ≤ own k ∧ own k < e' then S k else [])
    {m m' : Nat → σ} (h : Runs e cnt kernel m m') (k : Nat) :
    m' k = if own k < cnt then (S k).foldl (fun v f => f v) (m k) else m k := by
  obtain ⟨w, hw, rfl⟩ := h
  have hf := interleaves_filter (fun s : Step σ => s.1 == k) hw
  have hfold : ∀ (l : List (Step σ)) (v : σ), l.foldl (fun v s => s.2 v) v = (l.map (·.2)).foldl (fun v f => f v) v := by
    intro l v; rw [List.foldl_map]
  rw [runSteps_at, atCell, hfold]
  by_cases ho : own k < cnt
  · rw [if_pos ho]
    obtain ⟨pre, r, post, hs, h1, h2, h3⟩ := calls_split e he cnt (own k) ho
    have hb : ∀ q ∈ e.calls cnt, q.1 < q.2 ∧ q.2 ≤ cnt := calls_bounds e he cnt hc
    have hr := hb r (by rw [hs]; simp)
    rw [Exec.threads, hs, List.map_append, List.map_append, List.map_cons, List.map_cons] at hf
    rw [interleaves_single hf _ _ _ rfl, hk _ _ hr.1 hr.2 k, if_pos ⟨h1, h2⟩]
    intro t ht
    rw [← List.map_append, ← List.map_append, List.map_map] at ht
    obtain ⟨q, hq, rfl⟩ := List.mem_map.1 ht
    have hq' := hb q (by
      rw [hs]
      rcases List.mem_append.1 hq with h4 | h4
      · exact List.mem_append_left _ h4
      · exact List.mem_append_right _ (List.mem_cons_of_mem _ h4))
    have := hk _ _ hq'.1 hq'.2 k
    rw [if_neg (h3 q hq)] at this
    exact List.map_eq_nil_iff.1 this
  · rw [if_neg ho]
    have : (w.filter fun s => s.1 == k) = [] := by
      refine interleaves_all_nil hf ?_
      intro t ht
      rw [Exec.threads, List.map_map] at ht
      obtain ⟨q, hq, rfl⟩ := List.mem_map.1 ht
      have hq' := calls_bounds e he cnt hc q hq
      have := hk _ _ hq'.1 hq'.2 k
      rw [if_neg (by omega)] at this
      exact List.map_eq_nil_iff.1 this
    rw [this]; rfl

end Nntl.Kernel
