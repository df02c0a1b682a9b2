import Verif.Rng.Lemmas
/-! C107: filling of arrays with random numbers by several threads. C109: seeding. -/
namespace Nntl.Rng
open Nntl.Threads
variable {σ δ β R : Type}

/-- **C107a.** Whatever the schedule of the threads, a filling call of the multi-threaded generator that returned has filled exactly its `n`
elements, piece by piece from the streams of the threads; a short array is filled from the stream of the calling thread alone. -/
theorem fill_exact {bnd : Nat} {g : Gen σ δ β} {W : Nat} {ranges : List ParRange} (hp : Pool W ranges) {n : Nat} {d0 : δ} {rngs rngs' : Nat → σ}
    {mem mem' : Nat → β} {sched : List Nat} (h : fill bnd g ranges n d0 rngs mem sched = some (rngs', mem')) :
    Filled g d0 (if n < bnd then 1 else W) n rngs mem rngs' mem' := by
  unfold fill at h
  by_cases hb : n < bnd
  · rw [if_pos hb] at h ⊢
    have e := Option.some.inj h
    have := filledSt g n d0 rngs mem
    rw [e] at this
    exact this
  · rw [if_neg hb] at h ⊢
    unfold fillMt at h
    simp only at h
    have hA := at_sched g hp n d0 rngs mem sched
    by_cases hf : ((Sys.start ranges n d0 rngs mem).run g sched).finished = true
    · rw [if_pos hf] at h
      have e := Option.some.inj h
      have := filled_of_at hp hA ((finished_iff hA).1 hf)
      rw [Prod.mk.injEq] at e
      rw [e.1, e.2] at this
      exact this
    · rw [if_neg hf] at h; cases h

/-- **C107b.** The call returns as soon as every thread has made two steps (take an element, store it) for every element of its piece; there
is nothing else to wait for. -/
theorem fill_returns_iff {bnd : Nat} (g : Gen σ δ β) {W : Nat} {ranges : List ParRange} (hp : Pool W ranges) {n : Nat} (d0 : δ) (rngs : Nat → σ)
    (mem : Nat → β) (sched : List Nat) (hb : bnd ≤ n) :
    (fill bnd g ranges n d0 rngs mem sched).isSome = true ↔
      ∀ j, j < crew W n → 2 * pieceLen n (crew W n) j ≤ sched.count (pieceOwner (crew W n) j) := by
  have hA := at_sched g hp n d0 rngs mem sched
  have hiff := finished_iff hA
  have e : (fill bnd g ranges n d0 rngs mem sched).isSome = ((Sys.start ranges n d0 rngs mem).run g sched).finished := by
    unfold fill
    rw [if_neg (by omega)]
    unfold fillMt
    simp only
    cases hf : ((Sys.start ranges n d0 rngs mem).run g sched).finished <;> simp
  rw [e, hiff]
  constructor
  · intro h j hj
    have : ∃ i, (runCalls ranges n 0)[i]? = some (⟨pieceBegin n (crew W n) j, pieceLen n (crew W n) j, pieceOwner (crew W n) j⟩ : ParRange) :=
      call_of_piece hp n j hj
    obtain ⟨i, hi⟩ := this
    obtain ⟨j', hj', ei, er⟩ := piece_of_call hp n i _ hi
    have := h i _ hi
    have eo : pieceOwner (crew W n) j = pieceOwner (crew W n) j' := by
      have := congrArg ParRange.tid er; exact this
    rw [eo, ← ei]; exact this
  · intro h i r hi
    obtain ⟨j, hj, ei, er⟩ := piece_of_call hp n i r hi
    rw [ei, er]; exact h j hj

/-- **C107c.** At no moment, finished or not, anything outside of the `n` elements is touched, and the stream of a thread that takes no part. -/
theorem fill_never_outside (g : Gen σ δ β) {W : Nat} {ranges : List ParRange} (hp : Pool W ranges) (n : Nat) (d0 : δ) (rngs : Nat → σ)
    (mem : Nat → β) (sched : List Nat) :
    (∀ k, n ≤ k → ((Sys.start ranges n d0 rngs mem).run g sched).mem k = mem k) ∧
    (∀ t, crew W n ≤ t → ((Sys.start ranges n d0 rngs mem).run g sched).rngs t = rngs t) := by
  have hA := at_sched g hp n d0 rngs mem sched
  refine ⟨?_, ?_⟩
  · intro k hk
    refine hA.memO k ?_
    intro r hr hcov
    have := covered_lt hp n r hr k hcov
    omega
  · intro t ht
    refine hA.rngO t ?_
    intro r hr e
    obtain ⟨i, hi, rfl⟩ := List.mem_iff_getElem.1 hr
    obtain ⟨j, hj, ej, rj⟩ := piece_of_call hp n i _ (List.getElem?_eq_getElem hi)
    rw [rj] at e
    simp only [pieceOwner] at e
    split at e <;> omega

/-- **C107d.** The pieces are the whole array: every element lies in exactly one of them. -/
theorem pieces_partition (n T : Nat) (hT : 0 < T) (k : Nat) (hk : k < n) :
    (∃ j, j < T ∧ ∃ i, i < pieceLen n T j ∧ k = pieceBegin n T j + i) ∧
    ∀ j j' i i', i < pieceLen n T j → i' < pieceLen n T j' → k = pieceBegin n T j + i → k = pieceBegin n T j' + i' → j = j' ∧ i = i' := by
  have tot := pre_total n (T - 1)
  rw [show T - 1 + 1 = T by omega] at tot
  have succ : ∀ m, pieceBegin n T (m + 1) = pieceBegin n T m + pieceLen n T m := fun m => pre_succ (n / T) (n % T) m
  have mono : ∀ a b, a ≤ b → pieceBegin n T a ≤ pieceBegin n T b := fun a b h => pre_mono (n / T) (n % T) h
  refine ⟨?_, ?_⟩
  · have key : ∀ m, k < pieceBegin n T m → ∃ j, j < m ∧ ∃ i, i < pieceLen n T j ∧ k = pieceBegin n T j + i := by
      intro m
      induction m with
      | zero => intro h; simp [pieceBegin] at h
      | succ m ih =>
        intro h
        by_cases hlt : k < pieceBegin n T m
        · obtain ⟨j, hj, r⟩ := ih hlt; exact ⟨j, by omega, r⟩
        · rw [succ] at h
          exact ⟨m, by omega, k - pieceBegin n T m, by omega, by omega⟩
    exact key T (by show k < pre (n / T) (n % T) T; omega)
  · intro j j' i i' h1 h2 e1 e2
    have : j = j' := by
      rcases Nat.lt_trichotomy j j' with h | h | h
      · have a := mono (j + 1) j' h
        rw [succ] at a; omega
      · exact h
      · have a := mono (j' + 1) j h
        rw [succ] at a; omega
    subst this
    exact ⟨rfl, by omega⟩

/-- **C107e.** The outcome does not depend on the schedule, nor on what the pool did before: two calls with the same streams on pools of the
same size leave the same elements and the same streams. -/
theorem fill_schedule_free {bnd : Nat} {g : Gen σ δ β} {W : Nat} {ranges1 ranges2 : List ParRange} (hp1 : Pool W ranges1) (hp2 : Pool W ranges2)
    {n : Nat} {d0 : δ} {rngs1 rngs2 R1 R2 : Nat → σ} {mem1 mem2 M1 M2 : Nat → β} {sched1 sched2 : List Nat}
    (he : ∀ t, t < W → rngs1 t = rngs2 t)
    (h1 : fill bnd g ranges1 n d0 rngs1 mem1 sched1 = some (R1, M1)) (h2 : fill bnd g ranges2 n d0 rngs2 mem2 sched2 = some (R2, M2)) :
    (∀ k, k < n → M1 k = M2 k) ∧ ∀ t, t < W → R1 t = R2 t := by
  have f1 := fill_exact hp1 h1
  have f2 := fill_exact hp2 h2
  have hW : 0 < W := by have := hp1.2; omega
  by_cases hb : n < bnd
  · rw [if_pos hb] at f1 f2
    obtain ⟨a, b⟩ := Filled.unique (rngs := rngs1) (by omega) (fun t ht => he t (by omega)) f1 f2
    refine ⟨a, ?_⟩
    intro t ht
    by_cases h0 : t < 1
    · exact b t h0
    · have hc : crew 1 n ≤ t := by
        have : crew 1 n ≤ 1 := by unfold crew; split <;> omega
        omega
      rw [f1.idle t hc, f2.idle t hc, he t ht]
  · rw [if_neg hb] at f1 f2
    exact Filled.unique (rngs := rngs1) hW he f1 f2

/-! ### Seeding -/

theorem seed_rngs (B : Base σ R) {W : Nat} {ranges : List ParRange} (hp : Pool W ranges) (s : Int) (m : Mt σ) (t : Nat) :
    (m.seed B ranges s).rngs t = if t < W then B.initArr s t else m.rngs t := by
  have key : ∀ (l : List ParRange) (f : Nat → σ),
      l.foldl (fun f r => put f r.tid (B.initArr s r.tid)) f t = if t ∈ l.map (·.tid) then B.initArr s t else f t := by
    intro l
    induction l with
    | nil => intro f; simp
    | cons r l ih =>
      intro f
      rw [List.foldl_cons, ih]
      by_cases h1 : t ∈ l.map (·.tid)
      · have h2 : t ∈ (r :: l).map (·.tid) := by rw [List.map_cons]; exact List.mem_cons_of_mem _ h1
        rw [if_pos h1, if_pos h2]
      · rw [if_neg h1]
        by_cases h3 : t = r.tid
        · have h2 : t ∈ (r :: l).map (·.tid) := by rw [List.map_cons, h3]; exact List.mem_cons_self
          rw [if_pos h2, h3, put_same]
        · have h2 : ¬ t ∈ (r :: l).map (·.tid) := by
            rw [List.map_cons, List.mem_cons]; rintro (h | h); exacts [h3 h, h1 h]
          rw [if_neg h2, put_other _ _ h3]
  unfold Mt.seed
  simp only
  rw [key]
  obtain ⟨ht, _⟩ := run_tids ranges (ranges.length + 1) 0 hp.1
  rw [ht]
  have hused : threadsUsed ranges.length (ranges.length + 1) 0 = W := by
    have := hp.2
    unfold threadsUsed workingCnt useNThreads
    have h0 : ¬ ((1:Int) < 0 ∧ (0:Int) ≤ ranges.length + 1) := by omega
    rw [if_neg h0]
    by_cases h1 : ranges.length + 1 ≤ 1
    · rw [if_pos h1]; omega
    · rw [if_neg h1, if_pos (by omega)]; omega
  rw [hused]
  exact if_congr List.mem_range rfl rfl

/-- **C109a.** `seed(s)` seeds the stream of every thread, each with the pair of the seed and its number, whatever was before. -/
theorem seed_sets_all_streams (B : Base σ R) {W : Nat} {ranges : List ParRange} (hp : Pool W ranges) (s : Int) (m : Mt σ) :
    (∀ t, t < W → (m.seed B ranges s).rngs t = B.initArr s t) ∧ (m.seed B ranges s).lastSeed = s :=
  ⟨fun t ht => by rw [seed_rngs B hp, if_pos ht], rfl⟩

/-- If the generator tells pairs apart, streams of different threads or different seeds are different. -/
theorem seeded_streams_differ (B : Base σ R) (hinj : ∀ a b c d, B.initArr a b = B.initArr c d → a = c ∧ b = d) {W : Nat}
    {ranges : List ParRange} (hp : Pool W ranges) (s s' : Int) (m m' : Mt σ) (t t' : Nat) (ht : t < W) (ht' : t' < W)
    (h : (m.seed B ranges s).rngs t = (m'.seed B ranges s').rngs t') : s = s' ∧ t = t' := by
  rw [(seed_sets_all_streams B hp s m).1 t ht, (seed_sets_all_streams B hp s' m').1 t' ht'] at h
  have := hinj _ _ _ _ h
  exact ⟨this.1, by omega⟩

/-- Two objects that will behave alike. -/
def Alike (W : Nat) (m m' : Mt σ) : Prop := (∀ t, t < W → m.rngs t = m'.rngs t) ∧ m.lastSeed = m'.lastSeed

theorem filled_alike {bnd : Nat} {g : Gen σ δ R} {d0 : δ} {W n : Nat} {r1 r2 : List ParRange} (hp1 : Pool W r1) (hp2 : Pool W r2)
    {m1 m2 M1 M2 : Mt σ} {a1 a2 : Nat → R} {s1 s2 : List Nat} {o1 o2 : Out R} (he : Alike W m1 m2)
    (h1 : m1.filled bnd g d0 r1 n a1 s1 = some (M1, o1)) (h2 : m2.filled bnd g d0 r2 n a2 s2 = some (M2, o2)) :
    o1 = o2 ∧ Alike W M1 M2 := by
  unfold Mt.filled at h1 h2
  rcases f1 : fill bnd g r1 n d0 m1.rngs a1 s1 with _ | ⟨R1, A1⟩
  · rw [f1] at h1; cases h1
  · rcases f2 : fill bnd g r2 n d0 m2.rngs a2 s2 with _ | ⟨R2, A2⟩
    · rw [f2] at h2; cases h2
    · rw [f1, Option.map_some, Option.some.injEq, Prod.mk.injEq] at h1
      rw [f2, Option.map_some, Option.some.injEq, Prod.mk.injEq] at h2
      obtain ⟨k1, k2⟩ := fill_schedule_free hp1 hp2 he.1 f1 f2
      refine ⟨?_, ?_⟩
      · rw [← h1.2, ← h2.2]
        congr 1
        apply List.map_congr_left
        intro k hk
        exact k1 k (List.mem_range.1 hk)
      · rw [← h1.1, ← h2.1]
        exact ⟨k2, he.2⟩

theorem call_alike [Field R] [LinearOrder R] (E : Env σ δ R) {W : Nat} {r1 r2 : List ParRange} (hp1 : Pool W r1) (hp2 : Pool W r2)
    {m1 m2 M1 M2 : Mt σ} {a1 a2 : Nat → R} {s1 s2 : List Nat} {o1 o2 : Out R} (he : Alike W m1 m2) (o : Op R)
    (h1 : m1.call E r1 a1 s1 o = some (M1, o1)) (h2 : m2.call E r2 a2 s2 o = some (M2, o2)) :
    o1 = o2 ∧ Alike W M1 M2 := by
  have hW : 0 < W := by have := hp1.2; omega
  have h0 := he.1 0 hW
  have seed : ∀ s, Alike W (m1.seed E.B r1 s) (m2.seed E.B r2 s) := by
    intro s
    refine ⟨?_, rfl⟩
    intro t ht
    rw [seed_rngs E.B hp1, seed_rngs E.B hp2, if_pos ht, if_pos ht]
  have one : ∀ (x : σ), Alike W { m1 with rngs := put m1.rngs 0 x } { m2 with rngs := put m2.rngs 0 x } := by
    intro x
    refine ⟨?_, he.2⟩
    intro t ht
    by_cases h : t = 0
    · subst h; simp [put]
    · simp only; rw [put_other _ _ h, put_other _ _ h]; exact he.1 t ht
  cases o with
  | seed s =>
    simp only [Mt.call, Option.some.injEq, Prod.mk.injEq] at h1 h2
    rw [← h1.1, ← h2.1, ← h1.2, ← h2.2]
    exact ⟨rfl, seed s⟩
  | reseed =>
    simp only [Mt.call, Option.some.injEq, Prod.mk.injEq] at h1 h2
    rw [← h1.1, ← h2.1, ← h1.2, ← h2.2]
    refine ⟨rfl, ?_⟩
    unfold Mt.reseed
    rw [he.2]
    exact seed _
  | vec n a => exact filled_alike hp1 hp2 he h1 h2
  | between n a b => exact filled_alike hp1 hp2 he h1 h2
  | norm n => exact filled_alike hp1 hp2 he h1 h2
  | gtz n a => exact filled_alike hp1 hp2 he h1 h2
  | bern n p a b => exact filled_alike hp1 hp2 he h1 h2
  | normal n a b => exact filled_alike hp1 hp2 he h1 h2
  | genI k =>
    simp only [Mt.call, Option.some.injEq, Prod.mk.injEq] at h1 h2
    rw [← h1.1, ← h2.1, ← h1.2, ← h2.2, h0]
    exact ⟨rfl, one _⟩
  | genInt =>
    simp only [Mt.call, Option.some.injEq, Prod.mk.injEq] at h1 h2
    rw [← h1.1, ← h2.1, ← h1.2, ← h2.2, h0]
    exact ⟨rfl, one _⟩
  | genF a =>
    simp only [Mt.call, Option.some.injEq, Prod.mk.injEq] at h1 h2
    rw [← h1.1, ← h2.1, ← h1.2, ← h2.2, h0]
    exact ⟨rfl, one _⟩

theorem calls_alike [Field R] [LinearOrder R] (E : Env σ δ R) {W : Nat} : ∀ (c1 c2 : List (Op R × World R)),
    c1.map Prod.fst = c2.map Prod.fst → (∀ c ∈ c1, Pool W c.2.ranges) → (∀ c ∈ c2, Pool W c.2.ranges) →
    ∀ (m1 m2 M1 M2 : Mt σ) (o1 o2 : List (Out R)), Alike W m1 m2 →
      m1.calls E c1 = some (M1, o1) → m2.calls E c2 = some (M2, o2) → o1 = o2 ∧ Alike W M1 M2 := by
  intro c1
  induction c1 with
  | nil =>
    intro c2 hm _ _ m1 m2 M1 M2 o1 o2 he h1 h2
    cases c2 with
    | cons => simp at hm
    | nil =>
      simp only [Mt.calls, Option.some.injEq, Prod.mk.injEq] at h1 h2
      rw [← h1.1, ← h2.1, ← h1.2, ← h2.2]
      exact ⟨rfl, he⟩
  | cons x c1 ih =>
    intro c2 hm hp1 hp2 m1 m2 M1 M2 o1 o2 he h1 h2
    cases c2 with
    | nil => simp at hm
    | cons y c2 =>
      obtain ⟨ox, wx⟩ := x
      obtain ⟨oy, wy⟩ := y
      simp only [List.map_cons, List.cons.injEq] at hm
      obtain ⟨rfl, hm⟩ := hm
      simp only [Mt.calls] at h1 h2
      rcases k1 : m1.call E wx.ranges wx.mem wx.sched ox with _ | ⟨A1, x1⟩
      · rw [k1] at h1; cases h1
      · rcases k2 : m2.call E wy.ranges wy.mem wy.sched ox with _ | ⟨A2, x2⟩
        · rw [k2] at h2; cases h2
        · rw [k1] at h1
          rw [k2] at h2
          simp only at h1 h2
          obtain ⟨e, hal⟩ := call_alike E (hp1 _ List.mem_cons_self) (hp2 _ List.mem_cons_self) he ox k1 k2
          rcases q1 : A1.calls E c1 with _ | ⟨B1, y1⟩
          · rw [q1] at h1; cases h1
          · rcases q2 : A2.calls E c2 with _ | ⟨B2, y2⟩
            · rw [q2] at h2; cases h2
            · rw [q1, Option.map_some, Option.some.injEq, Prod.mk.injEq] at h1
              rw [q2, Option.map_some, Option.some.injEq, Prod.mk.injEq] at h2
              obtain ⟨e2, hal2⟩ := ih c2 hm (fun c hc => hp1 c (List.mem_cons_of_mem _ hc)) (fun c hc => hp2 c (List.mem_cons_of_mem _ hc))
                A1 A2 B1 B2 y1 y2 hal q1 q2
              rw [← h1.1, ← h2.1, ← h1.2, ← h2.2, e, e2]
              exact ⟨rfl, hal2⟩

/-- **C109b.** After `seed(s)` everything the generator gives is determined by the seed, the number of threads and the calls: not by the state
and history of the object, the schedules of the threads, what the pool did, or what the arrays held. -/
theorem seeded_calls_repeat [Field R] [LinearOrder R] (E : Env σ δ R) {W : Nat} (s : Int) (c1 c2 : List (Op R × World R))
    (hm : c1.map Prod.fst = c2.map Prod.fst) (w1 w2 : World R) (hw1 : Pool W w1.ranges) (hw2 : Pool W w2.ranges)
    (hp1 : ∀ c ∈ c1, Pool W c.2.ranges) (hp2 : ∀ c ∈ c2, Pool W c.2.ranges) (m1 m2 M1 M2 : Mt σ) (o1 o2 : List (Out R))
    (h1 : m1.calls E ((.seed s, w1) :: c1) = some (M1, o1)) (h2 : m2.calls E ((.seed s, w2) :: c2) = some (M2, o2)) : o1 = o2 := by
  simp only [Mt.calls, Mt.call] at h1 h2
  rcases q1 : (m1.seed E.B w1.ranges s).calls E c1 with _ | ⟨B1, y1⟩
  · rw [q1] at h1; cases h1
  · rcases q2 : (m2.seed E.B w2.ranges s).calls E c2 with _ | ⟨B2, y2⟩
    · rw [q2] at h2; cases h2
    · rw [q1, Option.map_some, Option.some.injEq, Prod.mk.injEq] at h1
      rw [q2, Option.map_some, Option.some.injEq, Prod.mk.injEq] at h2
      have hal : Alike W (m1.seed E.B w1.ranges s) (m2.seed E.B w2.ranges s) := by
        refine ⟨?_, rfl⟩
        intro t ht
        rw [seed_rngs E.B hw1, seed_rngs E.B hw2, if_pos ht, if_pos ht]
      obtain ⟨e, _⟩ := calls_alike E c1 c2 hm hp1 hp2 _ _ _ _ _ _ hal q1 q2
      rw [← h1.2, ← h2.2, e]

/-- Calls other than `seed` keep the remembered seed. -/
theorem call_lastSeed [Field R] [LinearOrder R] (E : Env σ δ R) {m M : Mt σ} {o : Op R} {w : World R} {x : Out R}
    (hns : ∀ s, o ≠ .seed s) (h : m.call E w.ranges w.mem w.sched o = some (M, x)) : M.lastSeed = m.lastSeed := by
  have fl : ∀ {δ' : Type} (bnd : Nat) (g : Gen σ δ' R) (d0 : δ') (n : Nat), m.filled bnd g d0 w.ranges n w.mem w.sched = some (M, x) →
      M.lastSeed = m.lastSeed := by
    intro δ' bnd g d0 n h
    unfold Mt.filled at h
    rcases f1 : fill bnd g w.ranges n d0 m.rngs w.mem w.sched with _ | ⟨R1, A1⟩
    · rw [f1] at h; cases h
    · rw [f1, Option.map_some, Option.some.injEq, Prod.mk.injEq] at h
      rw [← h.1]
  cases o with
  | seed s => exact absurd rfl (hns s)
  | reseed => simp only [Mt.call, Option.some.injEq, Prod.mk.injEq] at h; rw [← h.1]; rfl
  | vec n a => exact fl _ _ _ _ h
  | between n a b => exact fl _ _ _ _ h
  | norm n => exact fl _ _ _ _ h
  | gtz n a => exact fl _ _ _ _ h
  | bern n p a b => exact fl _ _ _ _ h
  | normal n a b => exact fl _ _ _ _ h
  | genI k => simp only [Mt.call, Option.some.injEq, Prod.mk.injEq] at h; rw [← h.1]
  | genInt => simp only [Mt.call, Option.some.injEq, Prod.mk.injEq] at h; rw [← h.1]
  | genF a => simp only [Mt.call, Option.some.injEq, Prod.mk.injEq] at h; rw [← h.1]

/-- **C109c.** `reseed()` starts over: after `seed(s)` and any calls, `reseed()` and some calls give what these calls give right after
`seed(s)`. -/
theorem reseed_starts_over [Field R] [LinearOrder R] (E : Env σ δ R) {W : Nat} (s : Int) (c c1 c2 : List (Op R × World R))
    (hns : ∀ x ∈ c, ∀ s, x.1 ≠ .seed s) (hm : c1.map Prod.fst = c2.map Prod.fst) (w w1 w2 : World R)
    (hw1 : Pool W w1.ranges) (hw2 : Pool W w2.ranges) (hp1 : ∀ c ∈ c1, Pool W c.2.ranges) (hp2 : ∀ c ∈ c2, Pool W c.2.ranges)
    (m1 m1' m2 M1 M2 : Mt σ) (o o1 o2 : List (Out R))
    (h0 : m1.calls E ((.seed s, w) :: c) = some (m1', o))
    (h1 : m1'.calls E ((.reseed, w1) :: c1) = some (M1, .nothing :: o1))
    (h2 : m2.calls E ((.seed s, w2) :: c2) = some (M2, .nothing :: o2)) : o1 = o2 := by
  have hls : ∀ (c : List (Op R × World R)), (∀ x ∈ c, ∀ s, x.1 ≠ .seed s) → ∀ (m M : Mt σ) (o : List (Out R)),
      m.calls E c = some (M, o) → M.lastSeed = m.lastSeed := by
    intro c
    induction c with
    | nil => intro _ m M o h; simp only [Mt.calls, Option.some.injEq, Prod.mk.injEq] at h; rw [← h.1]
    | cons x c ih =>
      intro hns m M o h
      obtain ⟨op, w⟩ := x
      simp only [Mt.calls] at h
      rcases k : m.call E w.ranges w.mem w.sched op with _ | ⟨A, y⟩
      · rw [k] at h; cases h
      · rw [k] at h
        simp only at h
        rcases q : A.calls E c with _ | ⟨B, z⟩
        · rw [q] at h; cases h
        · rw [q, Option.map_some, Option.some.injEq, Prod.mk.injEq] at h
          rw [← h.1, ih (fun x hx => hns x (List.mem_cons_of_mem _ hx)) A B z q]
          exact call_lastSeed E (hns _ List.mem_cons_self) k
  have hs : m1'.lastSeed = s := by
    simp only [Mt.calls, Mt.call] at h0
    rcases q : (m1.seed E.B w.ranges s).calls E c with _ | ⟨B, z⟩
    · rw [q] at h0; cases h0
    · rw [q, Option.map_some, Option.some.injEq, Prod.mk.injEq] at h0
      rw [← h0.1]
      exact hls c hns _ _ _ q
  have h1' : m1'.calls E ((.seed s, w1) :: c1) = some (M1, .nothing :: o1) := by
    simp only [Mt.calls, Mt.call, Mt.reseed, hs] at h1 ⊢
    exact h1
  have := seeded_calls_repeat E s c1 c2 hm w1 w2 hw1 hw2 hp1 hp2 m1' m2 M1 M2 _ _ h1' h2
  exact (List.cons.inj this).2

/-! ### The constructor seeds differently -/

/-- **C109d.** The constructor is defined when all sums of the seed and the thread numbers fit `int`. -/
theorem construct_defined_iff (B : Base σ R) (wc : Nat) (s : Int) (hs : isInt s) (junk : Nat → σ) :
    (Mt.construct B wc s junk).isSome = true ↔ s + (wc - 1 : Nat) ≤ 2147483647 := by
  unfold Mt.construct isInt at *
  constructor
  · intro h
    by_cases hc : ∀ i, i < wc → (-2147483648 ≤ s + (i : Int) ∧ s + (i : Int) ≤ 2147483647)
    · by_cases h0 : wc = 0
      · subst h0; simp; omega
      · have := hc (wc - 1) (by omega); omega
    · simp [hc] at h
  · intro h
    have : ∀ i, i < wc → (-2147483648 ≤ s + (i : Int) ∧ s + (i : Int) ≤ 2147483647) := by
      intro i hi; omega
    rw [if_pos this]; rfl

/-- **C109e.** Generators constructed with neighbouring seeds share all streams but one: thread `i+1` of the first is thread `i` of the second.
(Seeds of different runs come from the time in seconds.) -/
theorem adjacent_constructions_share_streams (B : Base σ R) (wc : Nat) (s : Int) (j1 j2 : Nat → σ) (m1 m2 : Mt σ)
    (h1 : Mt.construct B wc s j1 = some m1) (h2 : Mt.construct B wc (s + 1) j2 = some m2) (i : Nat) (hi : i + 1 < wc) :
    m1.rngs (i + 1) = m2.rngs i := by
  unfold Mt.construct at h1 h2
  split at h1
  · split at h2
    · have e1 := Option.some.inj h1
      have e2 := Option.some.inj h2
      rw [← e1, ← e2]
      simp only
      rw [if_pos hi, if_pos (by omega)]
      congr 1
      push_cast
      ring
    · cases h2
  · cases h1

/-- A generator to look at: the state is a list of what it was seeded with and a counter. -/
def toy : Base (List Int × Nat) Rat where
  init s := ([s], 0)
  initArr a b := ([a, b], 0)
  real s := (mkRat (s.1.sum * 3 % 7 + s.2) 1000, (s.1, s.2 + 1))
  bits s := (s.2, (s.1, s.2 + 1))
  irandX s lo hi := (if hi < lo then -2147483648 else lo + (s.2 : Int) % (hi - lo + 1), (s.1, s.2 + 1))

/-- **C109f.** `reseed()` of a freshly constructed generator does not start over: the constructor had seeded the streams in another way. -/
theorem reseed_of_constructed_differs : ∃ (m : Mt (List Int × Nat)), Mt.construct toy 2 5 (fun _ => ([], 0)) = some m ∧
    (m.reseed toy (initRanges 1)).rngs 0 ≠ m.rngs 0 := by
  refine ⟨_, rfl, ?_⟩
  decide +kernel

/-- **C107f.** The elements do depend on the number of threads: the same seed on machines with 2 and with 3 threads. -/
theorem result_depends_on_number_of_threads : ∃ (m2 m3 : Mt (List Int × Nat)) (s2 s3 : List Nat) (x2 x3 : (Nat → List Int × Nat) × (Nat → Rat)),
    m2 = (⟨fun _ => ([], 0), 0⟩ : Mt (List Int × Nat)).seed toy (initRanges 1) 1 ∧
    m3 = (⟨fun _ => ([], 0), 0⟩ : Mt (List Int × Nat)).seed toy (initRanges 2) 1 ∧
    fill 3 (gNorm toy) (initRanges 1) 3 () m2.rngs (fun _ => 0) s2 = some x2 ∧
    fill 3 (gNorm toy) (initRanges 2) 3 () m3.rngs (fun _ => 0) s3 = some x3 ∧ x2.2 1 ≠ x3.2 1 := by
  refine ⟨_, _, [0, 1, 0, 1, 1, 1], [0, 1, 2, 0, 1, 2], _, _, rfl, rfl, rfl, rfl, ?_⟩
  decide +kernel

/-! ### The seed of 64 bits -/

theorem s64to32_halves (a b : Nat) (ha : a < 4294967296) (hb : b < 4294967296) : s64to32 (a * 4294967296 + b) = b ^^^ a := by
  unfold s64to32
  rw [Nat.shiftRight_eq_div_pow]
  have e1 : (a * 4294967296 + b) % 4294967296 = b := by omega
  have e2 : (a * 4294967296 + b) / 2 ^ 32 % 4294967296 = a := by
    have : (a * 4294967296 + b) / 2 ^ 32 = a := by norm_num; omega
    rw [this]; omega
  rw [e1, e2]

/-- **C109g.** `seed64` folds the halves of its argument: small seeds keep their meaning, but all arguments with equal halves seed alike, and
so do arguments with swapped halves. -/
theorem seed64_fold (a b : Nat) (ha : a < 4294967296) (hb : b < 4294967296) :
    seed64 b = toInt32 b ∧ seed64 (a * 4294967296 + b) = seed64 (b * 4294967296 + a) ∧ seed64 (a * 4294967296 + a) = 0 ∧
      isInt (seed64 (a * 4294967296 + b)) := by
  refine ⟨?_, ?_, ?_, ?_⟩
  · have := s64to32_halves 0 b (by omega) hb
    unfold seed64
    rw [show (0 * 4294967296 + b) = b by omega] at this
    rw [this, Nat.xor_zero]
  · unfold seed64
    rw [s64to32_halves a b ha hb, s64to32_halves b a hb ha, Nat.xor_comm]
  · unfold seed64
    rw [s64to32_halves a a ha ha, Nat.xor_self]
    decide
  · unfold seed64 toInt32 isInt; omega

/- Non-vacuity: a pool of two workers that has already worked; a schedule that ends; a state in the middle. -/
example : Pool 3 (partitionCountToWorkers (initRanges 2) 7 0).1 := ⟨partition_ok _ _ _ (initRanges_ok 2), by decide⟩
example : (fill 3 (gNorm toy) (initRanges 2) 5 () (fun _ => ([3], 0)) (fun _ => 0) [1, 1, 0, 2, 2, 1, 2, 2, 0, 1]).isSome = true := by
  decide +kernel
example : (fill 3 (gNorm toy) (initRanges 2) 5 () (fun _ => ([3], 0)) (fun _ => 0) [1, 1, 0, 2, 2, 1, 2, 2, 0]).isSome = false := by
  decide +kernel
example : (List.range 4).map (pieceBegin 10 4) = [0, 3, 6, 8] ∧ (List.range 4).map (pieceLen 10 4) = [3, 3, 2, 2] ∧
    (List.range 4).map (pieceOwner 4) = [1, 2, 3, 0] := by decide
/-- An environment for the examples. -/
def toyEnv : Env (List Int × Nat) Unit Rat := ⟨toy, fun d s => ((toy.real s).1, d, (toy.real s).2), (), ⟨3, 3, 3, 3, 3⟩⟩
example : ((⟨fun _ => ([], 9), 4⟩ : Mt (List Int × Nat)).calls toyEnv
    [(.seed 1, ⟨initRanges 1, fun _ => 5, []⟩), (.norm 3, ⟨initRanges 1, fun _ => 7, [0, 1, 0, 1, 1, 1]⟩), (.genInt, ⟨initRanges 1, fun _ => 5, []⟩)]).map
    Prod.snd = some [.nothing, .reals [mkRat 6 1000, mkRat 7 1000, mkRat 3 1000], .int 1] := by
  have e : (List.range 3).map (((Sys.start (initRanges 1) 3 () ((⟨fun _ => ([], 9), 4⟩ : Mt (List Int × Nat)).seed toy (initRanges 1) 1).rngs
      (fun _ => (7 : Rat))).run (gNorm toy) [0, 1, 0, 1, 1, 1]).mem) = [mkRat 6 1000, mkRat 7 1000, mkRat 3 1000] := by decide +kernel
  rw [← e]
  rfl

end Nntl.Rng
