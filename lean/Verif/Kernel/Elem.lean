import Verif.Kernel.RowLemmas
/-! Kernels that update every element of a (part of a) column-major matrix once, with a function that may depend on the row and the column,
going through the elements column by column or row by row, alone or shared out among threads by columns or by rows. -/
namespace Nntl.Kernel
open Nntl.Threads
variable {σ : Type}

/-- Elements of the columns `[cb,ce)` and rows `[rb,re)`, column by column (`_mrwVecOperation_st_cw`, `nntl/interface/math/smath.h` 710–739, for
operations that change the matrix). -/
def elemCw (f : Nat → Nat → σ → σ) (rows cb ce rb re : Nat) : List (Step σ) :=
  (List.range' cb (ce - cb)).flatMap fun c => (List.range' rb (re - rb)).map fun r => (rows * c + r, f r c)

/-- The same, row by row (`_mrwVecOperation_st_rw`, `nntl/interface/math/smath.h` 743–765, for operations that change the matrix). -/
def elemRw (f : Nat → Nat → σ → σ) (rows cb ce rb re : Nat) : List (Step σ) :=
  (List.range' rb (re - rb)).flatMap fun r => (List.range' cb (ce - cb)).map fun c => (rows * c + r, f r c)

/-- How the work is shared out. -/
inductive Share where
  /-- one thread, or threads that take rows (`_processMtx_rw`, `nntl/interface/math/smath.h` 951–957) -/
  | byRows (ex : Exec)
  /-- threads that take columns (`_processMtx_cw`, `nntl/interface/math/smath.h` 818–838) -/
  | byCols (ex : Exec)

/-- The pool is in a proper state. -/
def Share.Ok : Share → Prop
  | .byRows ex => ex.Ok
  | .byCols ex => ex.Ok

/-- An update of every element of a `rows × cols` matrix; `rw` tells the order inside of a thread. -/
def ElemRuns (sh : Share) (rw : Bool) (f : Nat → Nat → σ → σ) (rows cols : Nat) (m m' : Nat → σ) : Prop :=
  let k := if rw then elemRw f rows else elemCw f rows
  match sh with
  | .byRows ex => Runs ex rows (fun rb re => k 0 cols rb re) m m'
  | .byCols ex => Runs ex cols (fun cb ce => k cb ce 0 rows) m m'

theorem cell_inj {rows c r k : Nat} (hr : r < rows) : rows * c + r = k ↔ c = k / rows ∧ r = k % rows := by
  constructor
  · rintro rfl
    rw [Nat.mul_add_div (by omega), Nat.div_eq_of_lt hr, Nat.mul_add_mod, Nat.mod_eq_of_lt hr]
    exact ⟨by omega, rfl⟩
  · rintro ⟨rfl, rfl⟩
    exact Nat.div_add_mod k rows

theorem filter_cells_rows (f : Nat → Nat → σ → σ) (rows c k : Nat) : ∀ n rb, rb + n ≤ rows →
    (((List.range' rb n).map fun r => ((rows * c + r, f r c) : Step σ)).filter fun s => s.1 == k).map (·.2) =
      if c = k / rows ∧ rb ≤ k % rows ∧ k % rows < rb + n then [f (k % rows) (k / rows)] else [] := by
  intro n
  induction n with
  | zero => intro rb _; rw [if_neg (by omega)]; rfl
  | succ n ih =>
    intro rb h
    rw [List.range'_succ, List.map_cons, List.filter_cons]
    have hi := cell_inj (c := c) (k := k) (show rb < rows by omega)
    by_cases he : rows * c + rb = k
    · obtain ⟨h1, h2⟩ := hi.1 he
      rw [if_pos (by simpa using he), List.map_cons, ih _ (by omega), if_neg (by omega), if_pos (by omega)]
      rw [← h1, ← h2]
    · rw [if_neg (by simpa using he), ih _ (by omega)]
      by_cases h2 : c = k / rows ∧ rb + 1 ≤ k % rows ∧ k % rows < rb + 1 + n
      · rw [if_pos h2, if_pos (by omega)]
      · rw [if_neg h2, if_neg]
        rintro ⟨a1, a2, a3⟩
        apply he
        apply hi.2 ⟨a1, ?_⟩
        omega

theorem filter_cells_cols (f : Nat → Nat → σ → σ) (rows r k : Nat) (hr : r < rows) : ∀ n cb,
    (((List.range' cb n).map fun c => ((rows * c + r, f r c) : Step σ)).filter fun s => s.1 == k).map (·.2) =
      if r = k % rows ∧ cb ≤ k / rows ∧ k / rows < cb + n then [f (k % rows) (k / rows)] else [] := by
  intro n
  induction n with
  | zero => intro cb; rw [if_neg (by omega)]; rfl
  | succ n ih =>
    intro cb
    rw [List.range'_succ, List.map_cons, List.filter_cons]
    have hi := cell_inj (c := cb) (k := k) hr
    by_cases he : rows * cb + r = k
    · obtain ⟨h1, h2⟩ := hi.1 he
      rw [if_pos (by simpa using he), List.map_cons, ih, if_neg (by omega), if_pos (by omega)]
      rw [← h1, ← h2]
    · rw [if_neg (by simpa using he), ih]
      by_cases h2 : r = k % rows ∧ cb + 1 ≤ k / rows ∧ k / rows < cb + 1 + n
      · rw [if_pos h2, if_pos (by omega)]
      · rw [if_neg h2, if_neg]
        rintro ⟨a1, a2, a3⟩
        apply he
        apply hi.2 ⟨?_, a1⟩
        omega

theorem filter_flatMap_one {τ : Type} (g : Nat → List (Step σ)) (k q : Nat) (S : List (σ → σ)) :
    ∀ n b, (∀ i, b ≤ i → i < b + n → ((g i).filter fun s => s.1 == k).map (·.2) = if i = q then S else []) →
      (((List.range' b n).flatMap g).filter fun s => s.1 == k).map (·.2) = if b ≤ q ∧ q < b + n then S else [] := by
  intro n
  induction n with
  | zero => intro b _; rw [if_neg (by omega)]; rfl
  | succ n ih =>
    intro b h
    rw [List.range'_succ, List.flatMap_cons, List.filter_append, List.map_append, h b (by omega) (by omega),
      ih (b + 1) (fun i h1 h2 => h i (by omega) (by omega))]
    by_cases h1 : b = q
    · rw [if_pos h1, if_neg (by omega), if_pos (by omega), List.append_nil]
    · rw [if_neg h1, List.nil_append]
      by_cases h2 : b + 1 ≤ q ∧ q < b + 1 + n
      · rw [if_pos h2, if_pos (by omega)]
      · rw [if_neg h2, if_neg (by omega)]

theorem filter_elemCw (f : Nat → Nat → σ → σ) (rows cb ce rb re k : Nat) (hre : re ≤ rows) (hrb : rb ≤ re) :
    ((elemCw f rows cb ce rb re).filter fun s => s.1 == k).map (·.2) =
      if (cb ≤ k / rows ∧ k / rows < ce) ∧ rb ≤ k % rows ∧ k % rows < re then [f (k % rows) (k / rows)] else [] := by
  unfold elemCw
  rw [filter_flatMap_one (τ := Unit) _ k (k / rows) (if rb ≤ k % rows ∧ k % rows < re then [f (k % rows) (k / rows)] else [])]
  · by_cases h : (cb ≤ k / rows ∧ k / rows < ce)
    · by_cases h2 : rb ≤ k % rows ∧ k % rows < re
      · rw [if_pos (by omega), if_pos h2, if_pos ⟨h, h2⟩]
      · rw [if_pos (by omega), if_neg h2, if_neg (fun hh => h2 hh.2)]
    · rw [if_neg (by omega), if_neg (fun hh => h hh.1)]
  · intro c _ _
    rw [filter_cells_rows f rows c k (re - rb) rb (by omega)]
    by_cases h : c = k / rows
    · rw [if_pos h]
      by_cases h2 : rb ≤ k % rows ∧ k % rows < re
      · rw [if_pos (by omega), if_pos h2]
      · rw [if_neg (by omega), if_neg h2]
    · rw [if_neg h, if_neg (fun hh => h hh.1)]

theorem filter_elemRw (f : Nat → Nat → σ → σ) (rows cb ce rb re k : Nat) (hre : re ≤ rows) (hrb : rb ≤ re) :
    ((elemRw f rows cb ce rb re).filter fun s => s.1 == k).map (·.2) =
      if (cb ≤ k / rows ∧ k / rows < ce) ∧ rb ≤ k % rows ∧ k % rows < re then [f (k % rows) (k / rows)] else [] := by
  unfold elemRw
  rw [filter_flatMap_one (τ := Unit) _ k (k % rows) (if cb ≤ k / rows ∧ k / rows < ce then [f (k % rows) (k / rows)] else [])]
  · by_cases h : rb ≤ k % rows ∧ k % rows < re
    · by_cases h2 : cb ≤ k / rows ∧ k / rows < ce
      · rw [if_pos (by omega), if_pos h2, if_pos ⟨h2, h⟩]
      · rw [if_pos (by omega), if_neg h2, if_neg (fun hh => h2 hh.1)]
    · rw [if_neg (by omega), if_neg (fun hh => h hh.2)]
  · intro r h1 h2
    rw [filter_cells_cols f rows r k (by omega) (ce - cb) cb]
    by_cases h : r = k % rows
    · rw [if_pos h]
      by_cases h2 : cb ≤ k / rows ∧ k / rows < ce
      · rw [if_pos (by omega), if_pos h2]
      · rw [if_neg (by omega), if_neg h2]
    · rw [if_neg h, if_neg (fun hh => h hh.1)]

/-- However the work is shared out and done: every element of the matrix is updated exactly once and nothing else is. -/
theorem elem_result (sh : Share) (hsh : sh.Ok) (rw' : Bool) (f : Nat → Nat → σ → σ) {rows cols : Nat} (hr : 0 < rows) (hc : 0 < cols) {m m' : Nat → σ}
    (h : ElemRuns sh rw' f rows cols m m') (k : Nat) : m' k = if k / rows < cols then f (k % rows) (k / rows) (m k) else m k := by
  have hmod : k % rows < rows := Nat.mod_lt _ hr
  have hker : ∀ cb ce rb re k, re ≤ rows → rb ≤ re → (((if rw' then elemRw f rows else elemCw f rows) cb ce rb re).filter fun s => s.1 == k).map (·.2) =
      if (cb ≤ k / rows ∧ k / rows < ce) ∧ rb ≤ k % rows ∧ k % rows < re then [f (k % rows) (k / rows)] else [] := by
    intro cb ce rb re k h1 h2
    cases rw' with
    | true => exact filter_elemRw f rows cb ce rb re k h1 h2
    | false => exact filter_elemCw f rows cb ce rb re k h1 h2
  cases sh with
  | byRows ex =>
    have := runs_result ex hsh rows hr _ (fun k => k % rows) (fun k => if k / rows < cols then [f (k % rows) (k / rows)] else [])
      (fun b e hbe hle k => by
        rw [hker 0 cols b e k hle (by omega)]
        by_cases h1 : b ≤ k % rows ∧ k % rows < e
        · rw [if_pos h1]
          by_cases h2 : k / rows < cols
          · rw [if_pos ⟨⟨Nat.zero_le _, h2⟩, h1⟩, if_pos h2]
          · rw [if_neg (fun hh => h2 hh.1.2), if_neg h2]
        · rw [if_neg h1, if_neg (fun hh => h1 hh.2)]) h k
    rw [this, if_pos hmod]
    by_cases h2 : k / rows < cols
    · rw [if_pos h2, if_pos h2]; rfl
    · rw [if_neg h2, if_neg h2]; rfl
  | byCols ex =>
    have := runs_result ex hsh cols hc _ (fun k => k / rows) (fun k => [f (k % rows) (k / rows)])
      (fun b e hbe hle k => by
        rw [hker b e 0 rows k (Nat.le_refl _) (Nat.zero_le _)]
        have : k % rows < rows := Nat.mod_lt _ hr
        by_cases h1 : b ≤ k / rows ∧ k / rows < e
        · rw [if_pos h1, if_pos ⟨h1, Nat.zero_le _, this⟩]
        · rw [if_neg h1, if_neg (fun hh => h1 hh.1)]) h k
    rw [this]
    rfl

/-- In terms of rows and columns. -/
theorem elem_result_cell (sh : Share) (hsh : sh.Ok) (rw' : Bool) (f : Nat → Nat → σ → σ) {rows cols : Nat} (hr : 0 < rows) (hc : 0 < cols) {m m' : Nat → σ}
    (h : ElemRuns sh rw' f rows cols m m') :
    (∀ r c, r < rows → c < cols → m' (r + rows * c) = f r c (m (r + rows * c))) ∧ ∀ k, rows * cols ≤ k → m' k = m k := by
  have key := elem_result sh hsh rw' f hr hc h
  constructor
  · intro r c hr' hc'
    obtain ⟨h1, h2⟩ := (cell_inj (c := c) (k := r + rows * c) hr').1 (Nat.add_comm _ _)
    rw [key, ← h1, ← h2, if_pos hc']
  · intro k hk
    rw [key, if_neg]
    intro hh
    have := (Nat.div_lt_iff_lt_mul hr).1 hh
    rw [Nat.mul_comm] at this
    omega

theorem elemRuns_exists (sh : Share) (rw' : Bool) (f : Nat → Nat → σ → σ) (rows cols : Nat) (m : Nat → σ) : ∃ m', ElemRuns sh rw' f rows cols m m' := by
  cases sh with
  | byRows ex => exact runs_exists ex rows _ m
  | byCols ex => exact runs_exists ex cols _ m

end Nntl.Kernel
