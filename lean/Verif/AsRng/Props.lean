import Verif.AsRng.Spec
import Verif.DataBuf.AnyProps
import Verif.Rng.RangeProps
import Mathlib.Tactic.Ring
import Mathlib.Tactic.Linarith
/-! C134: what filling calls of the asynchronous generator give. -/
namespace Nntl.AsRng
open Nntl.DataBuf Nntl.Threads
variable {σ δ R : Type}

theorem setT_same {β : Type} (f : Task → β) (t : Task) (v : β) : setT f t v t = v := if_pos rfl
theorem setT_ne {β : Type} (f : Task → β) {t u : Task} (v : β) (h : u ≠ t) : setT f t v u = f u := if_neg h
theorem setN_same {β : Type} (f : Nat → β) (i : Nat) (v : β) : setN f i v i = v := if_pos rfl
theorem setN_ne {β : Type} (f : Nat → β) {i j : Nat} (v : β) (h : j ≠ i) : setN f i v j = f j := if_neg h

theorem asked_eq (c : Call R) : asked c = c.n := by cases c <;> rfl
theorem kind_eq (c : Call R) : kind c = c.task := by cases c <;> rfl

/-- A number a background thread may make. -/
def Makes [Field R] (E : Rng.Env σ δ R) (t : Task) (x : R) : Prop := ∃ c, x = (next E t c).1

theorem generate_makes [Field R] (E : Rng.Env σ δ R) (t : Task) : ∀ (n : Nat) (c : Ctx σ δ), (generate E t n c).1.length = n ∧
    ∀ x ∈ (generate E t n c).1, Makes E t x
  | 0, _ => ⟨rfl, by simp [generate]⟩
  | n + 1, c => by
    obtain ⟨h1, h2⟩ := generate_makes E t n (next E t c).2
    refine ⟨by simp [generate, h1], fun x hx => ?_⟩
    simp only [generate, List.mem_cons] at hx
    rcases hx with rfl | hx
    · exact ⟨c, rfl⟩
    · exact h2 x hx

theorem scaling_eq [Field R] [DecidableEq R] (span ofs v : R) : scaling span ofs 1 0 v = ofs + span * v := by
  unfold scaling
  by_cases h1 : ofs = 0 <;> by_cases h2 : span = 1 <;> simp [h1, h2] <;> ring

theorem scale_drawn [Field R] [DecidableEq R] (E : Rng.Env σ δ R) (c : Call R) {v : R} (h : Makes E c.task v) : Drawn E c (c.scale v) := by
  obtain ⟨x, rfl⟩ := h
  cases c with
  | vec n a => exact ⟨x.rng, by simp only [Call.scale, scaling_eq]; simp only [Call.task, next]; ring⟩
  | between n neg pos => exact ⟨x.rng, by simp only [Call.scale, scaling_eq]; simp only [Call.task, next]⟩
  | norm n => exact ⟨x.rng, rfl⟩
  | normal n m st =>
    refine ⟨x.distr, x.rng, ?_⟩
    simp only [Call.scale, scaling_eq]
    simp only [Call.task, next, Rng.gNormal]; ring

theorem copyOut_lt {b : Buf R} {D : List R} {r : Range} (h : Held b D r) (arr : Nat → R) : ∀ k, k < r.size → copyOut b r arr k ∈ D := by
  intro k hk
  cases r with
  | one p n =>
    simp only [Range.size] at hk
    simp only [copyOut, hk, if_true]
    exact (h.inside (p + k) ⟨by omega, by omega⟩).2
  | two p n1 n2 =>
    simp only [Range.size] at hk
    simp only [copyOut]
    by_cases c : n1 ≤ k
    · rw [if_pos ⟨c, hk⟩]; exact (h.inside (k - n1) (.inr (by omega))).2
    · rw [if_neg (by omega), if_pos (by omega)]; exact (h.inside (p + k) (.inl ⟨by omega, by omega⟩)).2

theorem copyOut_ge {b : Buf R} {r : Range} (arr : Nat → R) : ∀ k, r.size ≤ k → copyOut b r arr k = arr k := by
  intro k hk
  cases r with
  | one p n =>
    simp only [Range.size] at hk
    simp only [copyOut]; rw [if_neg (by omega)]
  | two p n1 n2 =>
    simp only [Range.size] at hk
    simp only [copyOut]; rw [if_neg (by omega), if_neg (by omega)]

/-- A call passed to the base class. -/
theorem pass_filled [Field R] [LinearOrder R] (E : Rng.Env σ δ R) {W : Nat} {ranges : List ParRange} (hp : Rng.Pool W ranges) (m M : Rng.Mt σ)
    (arr : Nat → R) (sched : List Nat) (c : Call R) (o : Rng.Out R) (h : m.call E ranges arr sched c.op = some (M, o)) :
    ∃ xs, o = .reals xs ∧ xs.length = c.n ∧ ∀ x ∈ xs, Drawn E c x := by
  cases c with
  | vec n a =>
    refine Rng.call_all (P := Drawn E (.vec n a)) (fun d s => ⟨s, ?_⟩) hp h
    simp only [Rng.gSym, Rng.gUni]; ring
  | between n neg pos =>
    refine Rng.call_all (P := Drawn E (.between n neg pos)) (fun d s => ⟨s, ?_⟩) hp h
    simp only [Rng.gBetween, Rng.gUni]; ring
  | norm n => exact Rng.call_all (P := Drawn E (.norm n)) (fun d s => ⟨s, rfl⟩) hp h
  | normal n m st => exact Rng.call_all (P := Drawn E (.normal n m st)) (fun d s => ⟨d, s, rfl⟩) hp h

/-- Holds in all reachable states. -/
structure J [Field R] [LinearOrder R] (E : Rng.Env σ δ R) (s : Sys σ δ R) : Prop where
  inv : ∀ t, Inv (s.as.buf t) (s.made t)
  gen : ∀ t x, x ∈ s.made t → Makes E t x
  busy : ∀ i t g, s.busy i = some (t, g) → g ≠ 0 ∧ g ≤ memCount E.thr t ∧ i < s.as.wc
  idle : s.as.main = none → (∀ i, s.busy i = none) ∧ s.as.tasks = []
  call : ∀ c r arr, s.call = some (c, r, arr) → Held (s.as.buf c.task) (s.made c.task) r ∧ r.size = c.n
  results : ∀ x ∈ s.results, FilledBy E x.call x.before x.after

theorem init_cases {mul : Nat → Nat} {alloc : Nat → Option (Nat → R)} {a a' : As σ δ R} {b : Bool} (h : a.initRng mul alloc = some (b, a')) :
    b = true ∧ a.main = none ∧ a'.mt = a.mt ∧ a'.wc = a.wc ∧ a'.ctx = a.ctx ∧
    ((a'.main = none ∧ a'.buf = a.buf ∧ a'.tasks = a.tasks) ∨ (a'.main.isSome = true ∧ ∀ t, ∃ n mem, a'.buf t = Buf.init n mem)) := by
  unfold As.initRng As.initAsynch at h
  cases hm : a.main with
  | some n => simp [hm] at h
  | none =>
    simp only [hm, Option.isSome_none, Bool.false_eq_true, if_false] at h
    split at h
    · simp at h
    · rename_i b' a'' heq
      obtain ⟨rfl, rfl⟩ := Prod.mk.inj (Option.some.inj h)
      split at heq
      · obtain ⟨-, rfl⟩ := Prod.mk.inj (Option.some.inj heq)
        exact ⟨rfl, rfl, rfl, rfl, rfl, .inl ⟨rfl, rfl, rfl⟩⟩
      · split at heq
        · obtain ⟨-, rfl⟩ := Prod.mk.inj (Option.some.inj heq)
          exact ⟨rfl, rfl, rfl, rfl, rfl, .inl ⟨rfl, rfl, rfl⟩⟩
        · obtain ⟨-, rfl⟩ := Prod.mk.inj (Option.some.inj heq)
          refine ⟨rfl, rfl, rfl, rfl, rfl, .inr ⟨rfl, fun t => ?_⟩⟩
          dsimp only
          split
          · exact ⟨_, _, rfl⟩
          · exact ⟨_, _, rfl⟩

theorem init_inv (n : Nat) (mem : Nat → R) (D : List R) : Inv (Buf.init n mem) D :=
  ⟨Nat.zero_le _, Nat.zero_le _, Nat.zero_le _, .inr ⟨Nat.le_refl _, by simp [Buf.init], by simp [Buf.init]⟩⟩

theorem j_step [Field R] [LinearOrder R] {E : Rng.Env σ δ R} {mul : Nat → Nat} {W : Nat} {s s' : Sys σ δ R} (h : J E s)
    (hs : Step E mul (Rng.Pool W) s s') : J E s' := by
  cases hs with
  | work i t hi ht hb =>
    refine ⟨fun u => ?_, h.gen, fun j u g hj => ?_, fun hm => ?_, fun c r arr hc => ?_, h.results⟩
    · dsimp only
      by_cases e : u = t
      · subst e; rw [setT_same]; exact inv_shouldWork (h.inv u) _
      · rw [setT_ne _ _ e]; exact h.inv u
    · dsimp only at hj
      by_cases e : j = i
      · subst e
        rw [setN_same] at hj
        split at hj
        · cases hj
        · rename_i hne
          obtain ⟨rfl, rfl⟩ := Prod.mk.inj (Option.some.inj hj)
          exact ⟨hne, shouldWork_le _ _, hi⟩
      · rw [setN_ne _ _ e] at hj; exact h.busy j u g hj
    · exact absurd ht (by rw [(h.idle hm).2]; simp)
    · obtain ⟨h1, h2⟩ := h.call c r arr hc
      refine ⟨?_, h2⟩
      dsimp only
      by_cases e : c.task = t
      · rw [e, setT_same]; rw [e] at h1; exact held_shouldWork h1 _
      · rw [setT_ne _ _ e]; exact h1
  | done i t g hi hb =>
    obtain ⟨g1, g2⟩ := generate_makes E t g (s.as.ctx i)
    have hx : (generate E t g (s.as.ctx i)).1 ≠ [] := by
      intro e; rw [e] at g1; exact (h.busy i t g hb).1 g1.symm
    refine ⟨fun u => ?_, fun u x hu => ?_, fun j u g' hj => ?_, fun hm => ?_, fun c r arr hc => ?_, h.results⟩
    · dsimp only
      by_cases e : u = t
      · subst e; rw [setT_same, setT_same]; exact (inv_done (h.inv u) hx).1
      · rw [setT_ne _ _ e, setT_ne _ _ e]; exact h.inv u
    · dsimp only at hu
      by_cases e : u = t
      · subst e
        rw [setT_same] at hu
        rcases List.mem_append.1 hu with hu | hu
        · exact h.gen u x hu
        · exact g2 x hu
      · rw [setT_ne _ _ e] at hu; exact h.gen u x hu
    · dsimp only at hj
      by_cases e : j = i
      · subst e; rw [setN_same] at hj; cases hj
      · rw [setN_ne _ _ e] at hj; exact h.busy j u g' hj
    · have := (h.idle hm).1 i; rw [hb] at this; cases this
    · obtain ⟨h1, h2⟩ := h.call c r arr hc
      refine ⟨?_, h2⟩
      dsimp only
      by_cases e : c.task = t
      · rw [e, setT_same, setT_same]; rw [e] at h1; exact held_done (h.inv t) h1 hx
      · rw [setT_ne _ _ e, setT_ne _ _ e]; exact h1
  | take c arr r hf hm hz hr =>
    refine ⟨h.inv, h.gen, h.busy, h.idle, fun c' r' arr' hc => ?_, h.results⟩
    obtain ⟨rfl, hc'⟩ := Prod.mk.inj (Option.some.inj hc)
    obtain ⟨rfl, rfl⟩ := Prod.mk.inj hc'
    exact acquire_held (h.inv _) hr
  | release c arr r hc =>
    obtain ⟨h1, h2⟩ := h.call c r arr hc
    refine ⟨fun u => ?_, h.gen, h.busy, h.idle, by simp, fun x hx => ?_⟩
    · dsimp only
      by_cases e : u = c.task
      · subst e; rw [setT_same]; exact inv_release (h.inv _) h1
      · rw [setT_ne _ _ e]; exact h.inv u
    · rcases List.mem_append.1 hx with hx | hx
      · exact h.results x hx
      · rw [List.mem_singleton] at hx
        subst hx
        refine ⟨fun k hk => ?_, fun k hk => ?_⟩
        · rw [asked_eq] at hk
          dsimp only at hk
          simp only [scaleArr, hk, if_true]
          exact scale_drawn E c (h.gen _ _ (copyOut_lt h1 arr k (by omega)))
        · rw [asked_eq] at hk
          dsimp only at hk
          simp only [scaleArr]
          rw [if_neg (by omega)]
          exact copyOut_ge arr k (by omega)
  | pass c arr ranges sched mt xs hf hP hr hc =>
    refine ⟨h.inv, h.gen, h.busy, h.idle, h.call, fun x hx => ?_⟩
    rcases List.mem_append.1 hx with hx | hx
    · exact h.results x hx
    · rw [List.mem_singleton] at hx
      subst hx
      obtain ⟨ys, e, hl, hd⟩ := pass_filled E hP s.as.mt mt arr sched c _ hc
      obtain rfl : xs = ys := by injection e
      refine ⟨fun k hk => ?_, fun k hk => ?_⟩
      · rw [asked_eq] at hk
        dsimp only at hk
        dsimp only
        rw [List.getElem?_eq_getElem (by omega)]
        exact hd _ (List.getElem_mem _)
      · rw [asked_eq] at hk
        dsimp only at hk
        dsimp only
        rw [List.getElem?_eq_none (by omega)]; rfl
  | other => exact ⟨h.inv, h.gen, h.busy, h.idle, h.call, h.results⟩
  | seed => exact ⟨h.inv, h.gen, h.busy, h.idle, h.call, h.results⟩
  | seedThread => exact ⟨h.inv, h.gen, h.busy, h.idle, h.call, h.results⟩
  | seeded => exact ⟨h.inv, h.gen, h.busy, h.idle, h.call, h.results⟩
  | preinit => exact ⟨h.inv, h.gen, h.busy, h.idle, h.call, h.results⟩
  | init alloc b a hf hi =>
    obtain ⟨-, h0, -, hw, -, hc⟩ := init_cases hi
    rcases hc with ⟨h1, h2, h3⟩ | ⟨h1, h2⟩
    · simp only [h1, Option.isSome_none, Bool.false_eq_true, if_false]
      refine ⟨by dsimp only; rw [h2]; exact h.inv, h.gen, by dsimp only; rw [hw]; exact h.busy, fun _ => ?_, fun c r arr e => ?_, h.results⟩
      · exact ⟨(h.idle h0).1, h3.trans (h.idle h0).2⟩
      · rw [hf.1] at e; cases e
    · simp only [h1, if_true]
      refine ⟨fun t => ?_, by simp, by dsimp only; rw [hw]; exact h.busy, fun e => ?_, fun c r arr e => ?_, h.results⟩
      · obtain ⟨n, mem, e⟩ := h2 t
        dsimp only; rw [e]; exact init_inv _ _ _
      · dsimp only at e; rw [e] at h1; cases h1
      · rw [hf.1] at e; cases e
  | deinit hf hb =>
    exact ⟨h.inv, h.gen, h.busy, fun _ => ⟨hb, rfl⟩, fun c r arr e => (by rw [hf.1] at e; cases e), h.results⟩

/-- A fresh object: constructed, no buffers yet. -/
theorem construct_fresh (E : Rng.Env σ δ R) {W wc : Nat} {sd : Int} {junk : Nat → σ} {mem : Nat → R} {a0 : As σ δ R}
    (h : As.construct E W wc sd junk mem = some a0) :
    a0.main = none ∧ a0.tasks = [] ∧ a0.wc = wc ∧ (∀ t, a0.size t = 0) ∧ ∀ t, a0.buf t = Buf.init 0 mem := by
  unfold As.construct at h
  split at h
  · cases h
  · split at h
    · obtain rfl := Option.some.inj h; exact ⟨rfl, rfl, rfl, fun _ => rfl, fun _ => rfl⟩
    · cases h

theorem reach_j [Field R] [LinearOrder R] {E : Rng.Env σ δ R} {mul : Nat → Nat} {W wc : Nat} {sd : Int} {junk : Nat → σ} {mem : Nat → R} {a0 : As σ δ R}
    (h0 : As.construct E W wc sd junk mem = some a0) {s : Sys σ δ R} (h : Reach E mul (Rng.Pool W) a0 s) : J E s := by
  induction h with
  | start =>
    obtain ⟨h1, h2, -, -, h3⟩ := construct_fresh E h0
    refine ⟨fun t => ?_, by simp [Sys.start], by simp [Sys.start], fun _ => ⟨fun _ => rfl, h2⟩, by simp [Sys.start], by simp [Sys.start]⟩
    simp only [Sys.start]; rw [h3]; exact init_inv _ _ _
  | step _ hs ih => exact j_step ih hs

/-- **C134.** In every history of the object - any calls in any order, with any number of background threads that fill the buffers meanwhile, after
failed allocations, after seeding and repeated initialisation, and whatever was claimed - every finished filling call has filled exactly the
elements asked for with drawn numbers moved to the range of the call, be they taken from a buffer or made by the base class. -/
theorem filling_calls_fill [Field R] [LinearOrder R] {E : Rng.Env σ δ R} {mul : Nat → Nat} {W wc : Nat} {sd : Int} {junk : Nat → σ} {mem : Nat → R}
    {a0 : As σ δ R} (h0 : As.construct E W wc sd junk mem = some a0) {s : Sys σ δ R} (h : Reach E mul (Rng.Pool W) a0 s) :
    ∀ x ∈ s.results, FilledBy E x.call x.before x.after := (reach_j h0 h).results

/-- **C134.** So the numbers are in the promised ranges: `[-a, a)`, `[neg, pos)`, `[0, 1)`. -/
theorem filling_calls_in_range [Field R] [LinearOrder R] [IsStrictOrderedRing R] {E : Rng.Env σ δ R} (hu : Rng.UnitDraws E.B) {mul : Nat → Nat}
    {W wc : Nat} {sd : Int} {junk : Nat → σ} {mem : Nat → R} {a0 : As σ δ R} (h0 : As.construct E W wc sd junk mem = some a0) {s : Sys σ δ R}
    (h : Reach E mul (Rng.Pool W) a0 s) : ∀ x ∈ s.results,
    (∀ n a, x.call = .vec n a → 0 < a → ∀ k, k < n → -a ≤ x.after k ∧ x.after k < a) ∧
    (∀ n neg pos, x.call = .between n neg pos → neg < pos → ∀ k, k < n → neg ≤ x.after k ∧ x.after k < pos) ∧
    (∀ n, x.call = .norm n → ∀ k, k < n → 0 ≤ x.after k ∧ x.after k < 1) := by
  intro x hx
  have hf := filling_calls_fill h0 h x hx
  refine ⟨fun n a e ha k hk => ?_, fun n neg pos e hl k hk => ?_, fun n e k hk => ?_⟩
  · obtain ⟨f, -⟩ := hf
    rw [e] at f
    obtain ⟨v, hv⟩ := f k hk
    obtain ⟨u0, u1⟩ := hu v
    rw [hv]
    constructor <;> nlinarith
  · obtain ⟨f, -⟩ := hf
    rw [e] at f
    obtain ⟨v, hv⟩ := f k hk
    obtain ⟨u0, u1⟩ := hu v
    rw [hv]
    constructor <;> nlinarith
  · obtain ⟨f, -⟩ := hf
    rw [e] at f
    obtain ⟨v, hv⟩ := f k hk
    rw [hv]; exact hu v

/-- **C134.** The temporary memory of the background threads: a thread writes as many numbers as it was granted, all inside of its own piece, and
pieces of different threads are disjoint parts of one block. -/
theorem temporary_memory [Field R] [LinearOrder R] {E : Rng.Env σ δ R} {mul : Nat → Nat} {W wc : Nat} {sd : Int} {junk : Nat → σ} {mem : Nat → R}
    {a0 : As σ δ R} (h0 : As.construct E W wc sd junk mem = some a0) {s : Sys σ δ R} (h : Reach E mul (Rng.Pool W) a0 s)
    (i : Nat) (t : Task) (g : Nat) (hb : s.busy i = some (t, g)) (k : Nat) (hk : k < g) :
    tmpBegin E.thr i + k < tmpTotal E.thr s.as.wc ∧
    ∀ j u g', s.busy j = some (u, g') → j ≠ i → ∀ k', k' < g' → tmpBegin E.thr i + k ≠ tmpBegin E.thr j + k' := by
  have key : ∀ (t : Task) (g : Nat), g ≤ memCount E.thr t → g ≤ maxSize E.thr := by
    intro t g hg; unfold maxSize; cases t <;> omega
  have hj := (reach_j h0 h).busy
  obtain ⟨-, b1, b2⟩ := hj i t g hb
  have b1 := key t g b1
  unfold tmpBegin tmpTotal
  refine ⟨?_, ?_⟩
  · calc i * maxSize E.thr + k < i * maxSize E.thr + maxSize E.thr := by omega
      _ = (i + 1) * maxSize E.thr := by ring
      _ ≤ s.as.wc * maxSize E.thr := Nat.mul_le_mul_right _ b2
  · intro j u g' hb' hne k' hk' e
    obtain ⟨-, c1, -⟩ := hj j u g' hb'
    have c1 := key u g' c1
    rcases Nat.lt_or_ge i j with hl | hl
    · have : (i + 1) * maxSize E.thr ≤ j * maxSize E.thr := Nat.mul_le_mul_right _ hl
      have e2 : (i + 1) * maxSize E.thr = i * maxSize E.thr + maxSize E.thr := by ring
      omega
    · have : (j + 1) * maxSize E.thr ≤ i * maxSize E.thr := Nat.mul_le_mul_right _ (by omega)
      have e2 : (j + 1) * maxSize E.thr = j * maxSize E.thr + maxSize E.thr := by ring
      omega

end Nntl.AsRng
