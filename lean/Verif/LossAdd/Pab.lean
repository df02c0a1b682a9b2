import Verif.LossAdd.Reg
/-! Penalties on activations: memory (C175), what a batch does after any history (C176). -/
namespace Nntl.LossAdd
open Nntl.Matrix

/-! ### Initialisation -/

theorem initAll_get (R C : Nat) (as : List Add) (oks : List Bool) (i : Nat) :
    (initAll R C as oks).1[i]? = (as[i]?).map fun a => (a.init R C (oks[i]?.getD true)).1 := by
  induction as generalizing oks i with
  | nil => simp [initAll]
  | cons a as ih =>
    cases i with
    | zero => cases oks <;> simp [initAll]
    | succ i =>
      simp only [initAll, List.getElem?_cons_succ, ih]
      cases oks <;> simp

theorem initAll_ok (R C : Nat) (as : List Add) (oks : List Bool) :
    (initAll R C as oks).2 = true ↔ ∀ (i : Nat) (a : Add), as[i]? = some a → (a.init R C (oks[i]?.getD true)).2 = true := by
  induction as generalizing oks with
  | nil => simp [initAll]
  | cons a as ih =>
    simp only [initAll, Bool.and_eq_true, ih]
    constructor
    · rintro ⟨h0, h⟩ i b hb
      cases i with
      | zero =>
        simp only [List.getElem?_cons_zero, Option.some.injEq] at hb
        subst hb
        cases oks <;> simpa using h0
      | succ i =>
        have := h i b (by simpa using hb)
        cases oks <;> simpa using this
    · intro h
      refine ⟨?_, fun i b hb => ?_⟩
      · have := h 0 a (by simp)
        cases oks <;> simpa using this
      · have := h (i + 1) b (by simpa using hb)
        cases oks <;> simpa using this

/-- **C175** Initialisation succeeds exactly if the memory of every addendum that keeps something of the forward pass is got (and is not empty). -/
theorem init_succeeds (R C : Nat) (as : List Add) (oks : List Bool) :
    (layerInit R C as oks).2 = true ↔
      ∀ (i : Nat) (a : Add), as[i]? = some a → a.kind.onFprop = true → 0 < R ∧ 0 < C ∧ oks[i]?.getD true = true := by
  have : (layerInit R C as oks).2 = true ↔ (initAll R C as oks).2 = true := by
    unfold layerInit
    simp only
    split <;> simp_all
  rw [this, initAll_ok]
  refine forall_congr' fun i => forall_congr' fun a => forall_congr' fun ha => ?_
  unfold Add.init
  by_cases hf : a.kind.onFprop = true
  · simp only [hf, if_true, true_implies]
    by_cases h0 : R = 0 ∨ C = 0
    · rw [if_pos h0]
      simp only [Bool.false_eq_true, false_iff]
      omega
    · rw [if_neg h0]
      cases oks[i]?.getD true <;> simp <;> omega
  · simp [hf]

/-- Kind and scale are what they were. -/
theorem init_keeps (R C : Nat) (a : Add) (ok : Bool) : (a.init R C ok).1.kind = a.kind ∧ (a.init R C ok).1.scale = a.scale := by
  unfold Add.init
  split
  · split
    · exact ⟨rfl, rfl⟩
    · split <;> exact ⟨rfl, rfl⟩
  · exact ⟨rfl, rfl⟩

/-- **C175** Initialisation and deinitialisation leave the settings alone; after a failed initialisation and after deinitialisation no addendum
holds memory; after a successful one each addendum calculated in the forward pass has room for the biggest batch. -/
theorem init_effects (R C : Nat) (as : List Add) (oks : List Bool) :
    (∀ i : Nat, ((layerInit R C as oks).1[i]?).map (fun a : Add => (a.kind, a.scale)) = (as[i]?).map fun a : Add => (a.kind, a.scale)) ∧
    (∀ i : Nat, ((deinitAll as)[i]?).map (fun a : Add => (a.kind, a.scale)) = (as[i]?).map fun a : Add => (a.kind, a.scale)) ∧
    (∀ a ∈ deinitAll as, a.mem = none) ∧
    ((layerInit R C as oks).2 = false → ∀ a ∈ (layerInit R C as oks).1, a.mem = none) ∧
    ((layerInit R C as oks).2 = true → ∀ a ∈ (layerInit R C as oks).1, a.kind.onFprop = true → ∃ k, a.mem = some k ∧ k.max = R * C) := by
  have keep : ∀ (l : List Add) (i : Nat), ((deinitAll l)[i]?).map (fun a : Add => (a.kind, a.scale)) = (l[i]?).map fun a : Add => (a.kind, a.scale) := by
    intro l i
    unfold deinitAll
    rw [List.getElem?_map]
    cases l[i]? <;> rfl
  have none : ∀ (l : List Add), ∀ a ∈ deinitAll l, a.mem = none := by
    intro l a ha
    unfold deinitAll at ha
    obtain ⟨b, -, rfl⟩ := List.mem_map.1 ha
    rfl
  have keep' : ∀ i : Nat, ((initAll R C as oks).1[i]?).map (fun a : Add => (a.kind, a.scale)) = (as[i]?).map fun a : Add => (a.kind, a.scale) := by
    intro i
    rw [initAll_get]
    cases as[i]? with
    | none => rfl
    | some a =>
      simp only [Option.map_some]
      rw [(init_keeps R C a _).1, (init_keeps R C a _).2]
  refine ⟨?_, keep as, none as, ?_, ?_⟩
  · intro i
    unfold layerInit
    simp only
    split
    · exact keep' i
    · rw [keep, keep']
  · intro h
    unfold layerInit at h ⊢
    simp only at h ⊢
    split
    · rename_i h2; rw [if_pos h2] at h; rw [h] at h2; cases h2
    · exact none _
  · intro h a ha hf
    unfold layerInit at h ha
    simp only at h ha
    split at ha
    · rename_i h2
      obtain ⟨i, hi⟩ := List.getElem?_of_mem ha
      rw [initAll_get] at hi
      cases e : as[i]? with
      | none => rw [e] at hi; cases hi
      | some b =>
        rw [e] at hi
        simp only [Option.map_some, Option.some.injEq] at hi
        have ok := (initAll_ok R C as oks).1 h2 i b e
        have hb : b.kind.onFprop = true := by rw [← (init_keeps R C b (oks[i]?.getD true)).1, hi]; exact hf
        rw [← hi]
        unfold Add.init at ok ⊢
        rw [if_pos hb] at ok ⊢
        split at ok
        · cases ok
        · split at ok
          · rename_i h3 h4
            rw [if_neg h3, if_pos h4]
            exact ⟨_, rfl, rfl⟩
          · cases ok
    · rename_i h2
      rw [if_neg h2] at h
      cases h

/-! ### A batch -/

/-- What the addendums see of the activations. -/
structure Sees (v act : Mtx Rat) (gate S m : Nat) : Prop where
  emul : v.emul = false
  rows : v.rows = S
  cols : v.cols = m
  els : ∀ r < S, ∀ c < m, els v r c = entry act r (c + gate)

theorem hideBiases_acts {act : Mtx Rat} {S n : Nat} (h : IsActs act S n) :
    ∃ v b, act.hideBiases = some (v, b) ∧ v.restoreBiases b = some act ∧ Sees v act 0 S n := by
  obtain ⟨h1, h2, h3, h4, h5, h6, h7⟩ := h
  unfold Mtx.hideBiases
  cases he : act.emul with
  | false =>
    refine ⟨act, false, by simp, by simp [Mtx.restoreBiases, he, h2], ⟨he, h3, by rw [h4, he]; rfl, fun r _ c _ => ?_⟩⟩
    simp [els, entry, Mtx.cell]
  | true =>
    have hc : act.cols = n + 1 := by rw [h4, he]; rfl
    have e1 : act.hideLastCol = some { act with cols := act.cols - 1 } := by
      unfold Mtx.hideLastCol
      rw [if_pos ⟨by simp [Mtx.empty, h1], by omega⟩]
    refine ⟨{ act with cols := act.cols - 1, emul := false }, true, by simp [h2, e1], ?_, ⟨rfl, h3, by show act.cols - 1 = n; omega, fun r _ c _ => ?_⟩⟩
    · have e2 : ({ act with cols := act.cols - 1, emul := false } : Mtx Rat).restoreLastCol = some { act with emul := false } := by
        have e : act.cols - 1 + 1 = act.cols := by omega
        unfold Mtx.restoreLastCol
        rw [if_pos]
        · simp only [e]
        · refine ⟨by simp [Mtx.empty, h1], by show act.cols - 1 ≥ 1; omega, ?_⟩
          show act.maxSize ≥ act.rows * (act.cols - 1 + 1)
          rw [e]; exact h5
      unfold Mtx.restoreBiases
      rw [if_neg (by simp [h2]), if_pos rfl, e2, Option.map_some, ← he]
    · simp [els, entry, Mtx.cell]

theorem noGate_acts {m : Mtx Rat} {gate S n : Nat} (hb : m.bir = false) (hr : m.rows = S) (hc : m.colsNoBias = n) (hg : gate < n) :
    ∃ v, noGate gate m = some v ∧ Sees v m gate S (n - gate) ∧ (∀ p, v.data p = m.data (S * gate + p)) ∧ v.rows = S := by
  unfold noGate
  rw [if_neg (by simp [hb]), if_neg (by omega)]
  refine ⟨_, rfl, ⟨rfl, hr, by show m.colsNoBias - gate = _; rw [hc], fun r _ c _ => ?_⟩, fun p => by show m.data (m.rows * gate + p) = _; rw [hr], hr⟩
  show m.data (m.rows * gate + (r + m.rows * c)) = m.data (r + m.rows * (c + gate))
  rw [Nat.mul_add]
  congr 1
  omega

/-- Room for `N` elements in each addendum calculated in the forward pass. -/
def Ready (N : Nat) (as : List Add) : Prop := ∀ a ∈ as, a.kind.onFprop = true → ∃ k, a.mem = some k ∧ k.max = N

/-- The addendum after the forward pass. -/
def seen (v : Mtx Rat) (a : Add) : Add :=
  if a.kind.onFprop && a.on then
    { a with mem := a.mem.map fun k => { k with rows := v.rows, cols := v.cols, el := some (a.kind.term v.rows v.cols (els v)) } }
  else a

theorem fpropAll_eq {v : Mtx Rat} {N : Nat} (hv : v.emul = false) (hN : v.rows * v.cols ≤ N) {as : List Add} (h : Ready N as) :
    fpropAll v as = some (as.map (seen v)) := by
  induction as with
  | nil => rfl
  | cons a as ih =>
    have ih := ih fun x hx => h x (List.mem_cons_of_mem _ hx)
    unfold fpropAll
    have : (if (a.kind.onFprop && a.on) = true then a.onFpropCall v else some a) = some (seen v a) := by
      unfold seen
      split
      · rename_i hc
        simp only [Bool.and_eq_true] at hc
        obtain ⟨k, hk, hmax⟩ := h a (List.mem_cons_self ..) hc.1
        unfold Add.onFpropCall
        simp only [hv, hk, Bool.false_eq_true, if_false, Option.map_some]
        rw [if_neg (by omega)]
      · rfl
    rw [this, ih]
    rfl

theorem seen_same (v : Mtx Rat) (a : Add) : (seen v a).kind = a.kind ∧ (seen v a).scale = a.scale := by
  unfold seen; split <;> exact ⟨rfl, rfl⟩

theorem seen_on (v : Mtx Rat) (a : Add) : (seen v a).on = a.on := by
  unfold Add.on; rw [(seen_same v a).2]

theorem ready_seen {v : Mtx Rat} {N : Nat} {as : List Add} (h : Ready N as) : Ready N (as.map (seen v)) := by
  intro a ha hf
  obtain ⟨b, hb, rfl⟩ := List.mem_map.1 ha
  rw [(seen_same v b).1] at hf
  obtain ⟨k, hk, hm⟩ := h b hb hf
  unfold seen
  split
  · rw [hk]
    exact ⟨_, rfl, hm⟩
  · exact ⟨k, hk, hm⟩

/-- What is appended by an addendum: its term of the forward or the backward activations. -/
def termOf (k : Kind) (S m : Nat) (x y : Nat → Nat → Rat) : Nat → Nat → Rat := k.term S m (if k.onFprop then x else y)

theorem dLossAdd_seen {N : Nat} {as : List Add} (h : Ready N as) {a : Add} (ha : a ∈ as) (hon : a.on = true) {v v' d : Mtx Rat} {S m : Nat}
    (h1 : v'.emul = false) (h2 : d.emul = false) (h3 : v.rows = S ∧ v.cols = m) (h4 : v'.rows = S ∧ v'.cols = m) (h5 : d.rows = S ∧ d.cols = m) :
    (seen v a).dLossAdd v' d = some (appendTo a.kind.nz a.scale (termOf a.kind S m (els v) (els v')) d) := by
  unfold Add.dLossAdd termOf
  rw [(seen_same v a).1, (seen_same v a).2]
  simp only [h1, h2, h4.1, h4.2, h5.1, h5.2, Bool.or_self, Bool.false_eq_true, if_false, ne_eq, not_true, or_self]
  by_cases hf : a.kind.onFprop = true
  · obtain ⟨k, hk, -⟩ := h a ha hf
    have : (seen v a).mem = some { k with rows := v.rows, cols := v.cols, el := some (a.kind.term v.rows v.cols (els v)) } := by
      unfold seen; simp [hf, hon, hk]
    rw [if_pos hf, this]
    simp [h3.1, h3.2, hf]
  · simp [hf]

theorem bpropAll_eq {N : Nat} {as : List Add} (h : Ready N as) {v v' d : Mtx Rat} {S m : Nat} (h1 : v'.emul = false)
    (h2 : d.emul = false) (h3 : v.rows = S ∧ v.cols = m) (h4 : v'.rows = S ∧ v'.cols = m) (h5 : d.rows = S ∧ d.cols = m) :
    ∃ d', bpropAll v' (as.map (seen v)) d = some d' ∧ SameBut d d' ∧ ∀ r < S, ∀ c < m,
      entry d' r c = as.foldl (fun x a => appended a.kind.nz a.scale (termOf a.kind S m (els v) (els v') r c) x) (entry d r c) := by
  induction as generalizing d with
  | nil => exact ⟨d, rfl, ⟨rfl, fun _ _ => rfl⟩, fun _ _ _ _ => rfl⟩
  | cons a as ih =>
    have hih : Ready N as := fun x hx => h x (List.mem_cons_of_mem _ hx)
    have first : ∃ d1, (if (seen v a).on = true then (seen v a).dLossAdd v' d else some d) = some d1 ∧ SameBut d d1 ∧
        ∀ r < S, ∀ c < m, entry d1 r c = appended a.kind.nz a.scale (termOf a.kind S m (els v) (els v') r c) (entry d r c) := by
      rw [seen_on]
      by_cases hon : a.on = true
      · rw [if_pos hon, dLossAdd_seen h (List.mem_cons_self ..) hon h1 h2 h3 h4 h5]
        refine ⟨_, rfl, ⟨rfl, fun p hp => appendTo_out _ _ _ _ hp⟩, fun r hr c hc => ?_⟩
        exact appendTo_entry _ _ _ _ (by omega) (by omega)
      · rw [if_neg hon]
        have : a.scale = 0 := by simpa [Add.on] using hon
        exact ⟨d, rfl, ⟨rfl, fun _ _ => rfl⟩, fun r _ c _ => by rw [this, appended_zero]⟩
    obtain ⟨d1, e1, s1, v1⟩ := first
    obtain ⟨d2, e2, s2, v2⟩ := ih hih (d := d1) (by rw [s1.1]; exact h2) ⟨by rw [s1.rows]; exact h5.1, by rw [s1.cols]; exact h5.2⟩
    refine ⟨d2, by rw [List.map_cons, bpropAll, e1, Option.bind_some, e2], s1.trans s2, fun r hr c hc => ?_⟩
    rw [v2 r hr c hc, v1 r hr c hc]
    rfl

/-- The classes of addendums look at the elements of the matrix only. -/
def Local (as : List Add) : Prop := ∀ a ∈ as, ∀ R C (x y : Nat → Nat → Rat), (∀ r < R, ∀ c < C, x r c = y r c) →
  a.kind.val R C x = a.kind.val R C y ∧ ∀ r < R, ∀ c < C, a.kind.term R C x r c = a.kind.term R C y r c

theorem foldl_congr {β : Type} {l : List β} {f g : Rat → β → Rat} (h : ∀ x, ∀ b ∈ l, f x b = g x b) (x : Rat) : l.foldl f x = l.foldl g x := by
  induction l generalizing x with
  | nil => rfl
  | cons b l ih =>
    rw [List.foldl_cons, List.foldl_cons, h x b (List.mem_cons_self ..), ih fun x c hc => h x c (List.mem_cons_of_mem _ hc)]

theorem termOf_local {as : List Add} (hl : Local as) {a : Add} (ha : a ∈ as) {S m gate : Nat} {v v' act act' : Mtx Rat}
    (h : Sees v act gate S m) (h' : Sees v' act' gate S m) {r c : Nat} (hr : r < S) (hc : c < m) :
    termOf a.kind S m (els v) (els v') r c =
      a.kind.term S m (fun i j => entry (if a.kind.onFprop then act else act') i (j + gate)) r c := by
  unfold termOf
  by_cases hf : a.kind.onFprop = true
  · simp only [hf, if_true]
    exact (hl a ha S m _ _ h.els).2 r hr c hc
  · simp only [hf]
    exact (hl a ha S m _ _ h'.els).2 r hr c hc

/-- One batch when memory is there. -/
theorem batch_eq {gate R n : Nat} {as : List Add} (h : Ready (R * n) as) (hl : Local as) (hg : gate < n) {b : Batch} {S : Nat} (hS : S ≤ R)
    (ha : IsActs b.act S n) (ha' : IsActs b.act' S n) (hG : IsGrad b.g S n) (hgate : 0 < gate → b.act.emul = true ∧ b.act'.emul = true) :
    ∃ as' g', fprop gate as b.act = some (as', b.act) ∧ bprop gate as' b.act' b.g = some (b.act', g') ∧ Ready (R * n) as' ∧
      as'.map (fun a : Add => (a.kind, a.scale)) = as.map (fun a : Add => (a.kind, a.scale)) ∧
      SameBut b.g g' ∧ (∀ r < S, ∀ c < gate, entry g' r c = entry b.g r c) ∧
      ∀ r < S, ∀ c, gate ≤ c → c < n → entry g' r c = as.foldl (fun x a => appended a.kind.nz a.scale
        (a.kind.term S (n - gate) (fun i j => entry (if a.kind.onFprop then b.act else b.act') i (j + gate)) r (c - gate)) x) (entry b.g r c) := by
  have hfit : S * (n - gate) ≤ R * n := Nat.mul_le_mul hS (by omega)
  have hmap : ∀ v : Mtx Rat, (as.map (seen v)).map (fun a : Add => (a.kind, a.scale)) = as.map (fun a : Add => (a.kind, a.scale)) := by
    intro v
    rw [List.map_map]
    apply List.map_congr_left
    intro a _
    simp only [Function.comp, (seen_same v a).1, (seen_same v a).2]
  obtain ⟨g1, g2, g3, g4⟩ := hG
  by_cases h0 : gate = 0
  · subst h0
    obtain ⟨v, bb, e1, e2, hv⟩ := hideBiases_acts ha
    obtain ⟨v', bb', e1', e2', hv'⟩ := hideBiases_acts ha'
    have f1 := fpropAll_eq hv.emul (by rw [hv.rows, hv.cols]; simpa using hfit) h
    obtain ⟨d', f2, f3, f4⟩ := bpropAll_eq h hv'.emul g1 ⟨hv.rows, hv.cols⟩ ⟨hv'.rows, hv'.cols⟩ ⟨g3, g4⟩ (v := v)
    refine ⟨as.map (seen v), d', ?_, ?_, ready_seen h, hmap v, f3, fun _ _ c hc => by omega, ?_⟩
    · unfold fprop
      simp [ha.2.1, e1, f1, e2]
    · unfold bprop
      simp [ha'.2.1, e1', f2, e2']
    · intro r hr c _ hc
      rw [f4 r hr c hc]
      apply foldl_congr
      intro x a hma
      rw [termOf_local hl hma hv hv' hr hc]
      rfl
  · have hge := hgate (by omega)
    have hcn : ∀ {m : Mtx Rat}, IsActs m S n → m.emul = true → m.colsNoBias = n := by
      intro m hm he
      obtain ⟨-, h2, -, h4, -⟩ := hm
      unfold Mtx.colsNoBias
      rw [h4, he, h2]
      simp
    obtain ⟨v, e1, hv, -, -⟩ := noGate_acts ha.2.1 ha.2.2.1 (hcn ha hge.1) hg
    obtain ⟨v', e1', hv', -, -⟩ := noGate_acts ha'.2.1 ha'.2.2.1 (hcn ha' hge.2) hg
    have hgn : b.g.colsNoBias = n := by unfold Mtx.colsNoBias; rw [g1, g4]; simp
    obtain ⟨d, e3, hd, hdd, hdr⟩ := noGate_acts g2 g3 hgn hg
    have f1 := fpropAll_eq hv.emul (by rw [hv.rows, hv.cols]; exact hfit) h
    obtain ⟨d', f2, f3, f4⟩ := bpropAll_eq h hv'.emul hd.emul ⟨hv.rows, hv.cols⟩ ⟨hv'.rows, hv'.cols⟩ ⟨hd.rows, hd.cols⟩ (v := v)
    refine ⟨as.map (seen v), putBack gate b.g d', ?_, ?_, ready_seen h, hmap v, ⟨rfl, fun p hp => ?_⟩, ?_, ?_⟩
    · unfold fprop
      simp [ha.2.1, h0, hge.1, e1, f1]
    · unfold bprop
      have hx : b.act'.colsNoBias = b.g.cols := by rw [hcn ha' hge.2, g4]
      simp [ha'.2.1, h0, hge.2, g1, ha'.2.2.1, g3, hx, e1', e3, f2]
    · show (if p < b.g.rows * gate then b.g.data p else d'.data (p - b.g.rows * gate)) = _
      rw [g3, g4] at hp
      have hsplit : S * n = S * gate + S * (n - gate) := by rw [← Nat.mul_add]; congr 1; omega
      rw [g3, if_neg (by omega), f3.2 _ (by rw [hd.rows, hd.cols]; omega), hdd]
      congr 1
      omega
    · intro r hr c hc
      show (if r + b.g.rows * c < b.g.rows * gate then b.g.data (r + b.g.rows * c) else _) = b.g.data (r + b.g.rows * c)
      rw [g3, if_pos (cell_lt hr hc)]
    · intro r hr c hc1 hc2
      have hk : r + S * c = S * gate + (r + S * (c - gate)) := by
        have : S * c = S * gate + S * (c - gate) := by rw [← Nat.mul_add]; congr 1; omega
        omega
      have e : entry (putBack gate b.g d') r c = entry d' r (c - gate) := by
        show (if r + b.g.rows * c < b.g.rows * gate then b.g.data _ else d'.data (r + b.g.rows * c - b.g.rows * gate)) = d'.data (r + d'.rows * (c - gate))
        have hrows : d'.rows = S := by rw [f3.rows, hd.rows]
        rw [hrows, g3, if_neg (by omega)]
        congr 1
        omega
      have e2 : entry d r (c - gate) = entry b.g r c := by
        show d.data (r + d.rows * (c - gate)) = b.g.data (r + b.g.rows * c)
        rw [hdd, hd.rows, g3, hk]
      rw [e, f4 r hr (c - gate) (by omega), e2]
      apply foldl_congr
      intro x a hma
      rw [termOf_local hl hma hv hv' hr (by omega)]

theorem ready_scale {N i : Nat} {x : Rat} {as : List Add} (h : Ready N as) : Ready N (scaleAt i x as) := by
  intro a ha hf
  obtain ⟨j, hj⟩ := List.getElem?_of_mem ha
  rw [scaleAt_get] at hj
  cases e : as[j]? with
  | none => rw [e] at hj; cases hj
  | some b =>
    rw [e] at hj
    simp only [Option.map_some, Option.some.injEq] at hj
    have hb := List.mem_of_getElem? e
    subst hj
    by_cases hji : j = i
    · simp only [hji, if_true] at hf ⊢
      exact h b hb hf
    · simp only [hji, if_false] at hf ⊢
      exact h b hb hf

theorem local_of_kinds {as as' : List Add} (h : as'.map (fun a => a.kind) = as.map (fun a => a.kind)) (hl : Local as) : Local as' := by
  intro a ha
  have : a.kind ∈ as'.map (fun a => a.kind) := List.mem_map.2 ⟨a, ha, rfl⟩
  rw [h] at this
  obtain ⟨b, hb, e⟩ := List.mem_map.1 this
  rw [← e]
  exact hl b hb

theorem run_append (gate : Nat) (as : List Add) (xs ys : List Ev) : run gate as (xs ++ ys) = (run gate as xs).bind fun as' => run gate as' ys := by
  induction xs generalizing as with
  | nil => rfl
  | cons e xs ih =>
    simp only [List.cons_append, run]
    cases step gate as e with
    | none => rfl
    | some a => simp only [Option.bind_some, ih]

theorem map_get {as as' : List Add} (h : as'.map (fun a : Add => (a.kind, a.scale)) = as.map (fun a : Add => (a.kind, a.scale))) (i : Nat) :
    (as'[i]?).map (fun a : Add => (a.kind, a.scale)) = (as[i]?).map (fun a : Add => (a.kind, a.scale)) := by
  rw [← List.getElem?_map, h, List.getElem?_map]

theorem kinds_of_map {as as' : List Add} (h : as'.map (fun a : Add => (a.kind, a.scale)) = as.map (fun a : Add => (a.kind, a.scale))) :
    as'.map (fun a => a.kind) = as.map (fun a => a.kind) := by
  have := congrArg (List.map Prod.fst) h
  simpa [List.map_map, Function.comp_def] using this

theorem steps_ok {gate R n : Nat} (hg : gate < n) {as : List Add} (h : Ready (R * n) as) (hl : Local as) {ss : List Step}
    (hs : ∀ s ∈ ss, s.Ok gate R n as.length) :
    ∃ as', run gate as (ss.flatMap Step.evs) = some as' ∧ Ready (R * n) as' ∧
      as'.map (fun a => a.kind) = as.map (fun a => a.kind) ∧
      ∀ i : Nat, (as'[i]?).map (fun a : Add => (a.kind, a.scale)) = (as[i]?).map fun a : Add => (a.kind, scaleNow ss i a.scale) := by
  induction ss generalizing as with
  | nil => exact ⟨as, rfl, h, rfl, fun _ => rfl⟩
  | cons s ss ih =>
    have one : ∃ as1, run gate as s.evs = some as1 ∧ Ready (R * n) as1 ∧ as1.map (fun a => a.kind) = as.map (fun a => a.kind) ∧
        ∀ i : Nat, (as1[i]?).map (fun a : Add => (a.kind, a.scale)) = (as[i]?).map fun a => (a.kind, s.scaleOf i a.scale) := by
      have hs0 := hs s (List.mem_cons_self ..)
      cases s with
      | scale i x =>
        refine ⟨scaleAt i x as, ?_, ready_scale h, ?_, fun j => ?_⟩
        · simp only [Step.evs, run, step]
          rw [if_pos (show i < as.length from hs0)]
          rfl
        · apply List.ext_getElem?
          intro j
          rw [List.getElem?_map, List.getElem?_map, scaleAt_get]
          cases as[j]? with
          | none => rfl
          | some a => by_cases e : j = i <;> simp [e]
        · rw [scaleAt_get]
          cases as[j]? with
          | none => rfl
          | some a =>
            by_cases e : j = i
            · simp [e, Step.scaleOf]
            · simp [e, Ne.symm e, Step.scaleOf]
      | batch b =>
        obtain ⟨S, hS, q1, q2, q3, q4⟩ := hs0
        obtain ⟨as1, g', e1, e2, r1, m1, -⟩ := batch_eq h hl hg hS q1 q2 q3 q4
        refine ⟨as1, ?_, r1, kinds_of_map m1, fun i => map_get m1 i⟩
        simp only [Step.evs, run, step, e1, Option.map_some, Option.bind_some, e2]
    obtain ⟨as1, e1, r1, k1, v1⟩ := one
    have hlen : as1.length = as.length := by
      have := congrArg List.length k1
      simpa using this
    obtain ⟨as2, e2, r2, k2, v2⟩ := ih r1 (local_of_kinds k1 hl) fun t ht => by
      rw [hlen]; exact hs t (List.mem_cons_of_mem _ ht)
    refine ⟨as2, by rw [List.flatMap_cons, run_append, e1, Option.bind_some, e2], r2, k2.trans k1, fun i => ?_⟩
    rw [v2 i]
    have := v1 i
    cases ea : as1[i]? with
    | none => rw [ea] at this; cases eb : as[i]? with
      | none => rfl
      | some b => rw [eb] at this; cases this
    | some a =>
      rw [ea] at this
      cases eb : as[i]? with
      | none => rw [eb] at this; cases this
      | some b =>
        rw [eb] at this
        simp only [Option.map_some, Option.some.injEq, Prod.mk.injEq] at this ⊢
        refine ⟨this.1, ?_⟩
        rw [this.2]
        rfl

/-- **C176** After a successful initialisation, any sequence of training batches (of any sizes up to the biggest) and of settings between them, a
batch goes through without a failure, and the gradient is what it was with the terms of the addendums appended in the order of the
tuple, each multiplied by the scale asked for last: terms of the activations of the forward pass of this very batch for addendums
calculated there, of those of the backward pass for others. Columns of the gate are left alone, the activations are what they were. -/
theorem batch_after_history {gate R n : Nat} (hg : gate < n) {as0 : List Add} {oks : List Bool} (hinit : (layerInit R n as0 oks).2 = true)
    (hl : Local as0) {ss : List Step} (hs : ∀ s ∈ ss, s.Ok gate R n as0.length) {b : Batch} {S : Nat} (hS : S ≤ R)
    (ha : IsActs b.act S n) (ha' : IsActs b.act' S n) (hG : IsGrad b.g S n) (hgate : 0 < gate → b.act.emul = true ∧ b.act'.emul = true) :
    ∃ as1 as2 g', run gate (layerInit R n as0 oks).1 (ss.flatMap Step.evs) = some as1 ∧
      fprop gate as1 b.act = some (as2, b.act) ∧ bprop gate as2 b.act' b.g = some (b.act', g') ∧
      SameBut b.g g' ∧ (∀ r < S, ∀ c < gate, entry g' r c = entry b.g r c) ∧
      ∀ r < S, ∀ c, gate ≤ c → c < n → entry g' r c = as0.zipIdx.foldl (fun x p => appended p.1.kind.nz (scaleNow ss p.2 p.1.scale)
        (p.1.kind.term S (n - gate) (fun i j => entry (if p.1.kind.onFprop then b.act else b.act') i (j + gate)) r (c - gate)) x)
        (entry b.g r c) := by
  obtain ⟨i1, -, -, -, i5⟩ := init_effects R n as0 oks
  have hready : Ready (R * n) (layerInit R n as0 oks).1 := i5 hinit
  have hmap : (layerInit R n as0 oks).1.map (fun a : Add => (a.kind, a.scale)) = as0.map (fun a : Add => (a.kind, a.scale)) := by
    apply List.ext_getElem?
    intro i
    rw [List.getElem?_map, List.getElem?_map, i1]
  have hlen : (layerInit R n as0 oks).1.length = as0.length := by
    have := congrArg List.length hmap
    simpa using this
  have hl1 := local_of_kinds (kinds_of_map hmap) hl
  obtain ⟨as1, e1, r1, k1, v1⟩ := steps_ok hg hready hl1 (ss := ss) fun s hs' => by rw [hlen]; exact hs s hs'
  obtain ⟨as2, g', e2, e3, -, -, s1, q1, q2⟩ := batch_eq r1 (local_of_kinds k1 hl1) hg hS ha ha' hG hgate
  refine ⟨as1, as2, g', e1, e2, e3, s1, q1, fun r hr c hc1 hc2 => ?_⟩
  rw [q2 r hr c hc1 hc2]
  let f : Rat → Kind × Rat → Rat := fun x p => appended p.1.nz p.2
    (p.1.term S (n - gate) (fun i j => entry (if p.1.onFprop then b.act else b.act') i (j + gate)) r (c - gate)) x
  have l1 : as1.map (fun a : Add => (a.kind, a.scale)) = as0.zipIdx.map fun p => (p.1.kind, scaleNow ss p.2 p.1.scale) := by
    apply List.ext_getElem?
    intro i
    rw [List.getElem?_map, List.getElem?_map, List.getElem?_zipIdx, v1 i]
    have := i1 i
    cases ea : (layerInit R n as0 oks).1[i]? with
    | none => rw [ea] at this; cases eb : as0[i]? with
      | none => rfl
      | some b => rw [eb] at this; cases this
    | some a =>
      rw [ea] at this
      cases eb : as0[i]? with
      | none => rw [eb] at this; cases this
      | some b =>
        rw [eb] at this
        simp only [Option.map_some, Option.some.injEq, Prod.mk.injEq, Nat.zero_add] at this ⊢
        rw [this.1, this.2]
        exact ⟨rfl, rfl⟩
  have := congrArg (fun l => List.foldl f (entry b.g r c) l) l1
  simp only [List.foldl_map] at this
  exact this

theorem foldl_zero {β : Type} (l : List β) (f : Rat → β → Rat) (h : ∀ b ∈ l, f 0 b = 0) : l.foldl f 0 = 0 := by
  induction l with
  | nil => rfl
  | cons b l ih => rw [List.foldl_cons, h b (List.mem_cons_self ..), ih fun x hx => h x (List.mem_cons_of_mem _ hx)]

/-- **C176** If all addendums that are switched on are of the kind that is appended to non-zero elements only, zero elements of the gradient
(those of dropped neurons) stay zero, after any history. -/
theorem zero_stays {gate R n : Nat} (hg : gate < n) {as0 : List Add} {oks : List Bool} (hinit : (layerInit R n as0 oks).2 = true)
    (hl : Local as0) {ss : List Step} (hs : ∀ s ∈ ss, s.Ok gate R n as0.length) {b : Batch} {S : Nat} (hS : S ≤ R)
    (ha : IsActs b.act S n) (ha' : IsActs b.act' S n) (hG : IsGrad b.g S n) (hgate : 0 < gate → b.act.emul = true ∧ b.act'.emul = true)
    (hz : ∀ (i : Nat) (a : Add), as0[i]? = some a → scaleNow ss i a.scale ≠ 0 → a.kind.nz = true) :
    ∃ as1 as2 g', run gate (layerInit R n as0 oks).1 (ss.flatMap Step.evs) = some as1 ∧
      fprop gate as1 b.act = some (as2, b.act) ∧ bprop gate as2 b.act' b.g = some (b.act', g') ∧
      ∀ r < S, ∀ c < n, entry b.g r c = 0 → entry g' r c = 0 := by
  obtain ⟨as1, as2, g', e1, e2, e3, -, q1, q2⟩ := batch_after_history hg hinit hl hs hS ha ha' hG hgate
  refine ⟨as1, as2, g', e1, e2, e3, fun r hr c hc h0 => ?_⟩
  by_cases hcg : c < gate
  · rw [q1 r hr c hcg, h0]
  · rw [q2 r hr c (by omega) hc, h0]
    apply foldl_zero
    rintro ⟨a, i⟩ hp
    have hm := List.mem_zipIdx hp
    have hget : as0[i]? = some a := by
      obtain ⟨-, h2, h3⟩ := hm
      rw [List.getElem?_eq_some_iff]
      refine ⟨by omega, ?_⟩
      simp only [Nat.sub_zero] at h3
      exact h3.symm
    by_cases hsc : scaleNow ss i a.scale = 0
    · simp only [hsc, appended_zero]
    · simp [appended, hz i a hget hsc]

theorem lossAll_eq (v : Mtx Rat) (as : List Add) (s : Rat) :
    lossAll v as s = s + (as.map fun a => a.scale * a.kind.val v.rows v.cols (els v)).sum := by
  induction as generalizing s with
  | nil => simp [lossAll, Rat.add_zero]
  | cons a as ih =>
    simp only [lossAll, ih, List.map_cons, List.sum_cons]
    by_cases hon : a.on = true
    · rw [if_pos hon, Rat.add_assoc]; rfl
    · rw [if_neg hon]
      have : a.scale = 0 := by simpa [Add.on] using hon
      rw [this, Rat.zero_mul, Rat.zero_add]

/-- **C176** The value the layer adds to the loss: the sum over its addendums of the scale times what the class computes of all neurons — those of a
gate included. The activations are what they were. -/
theorem penalty_value {as : List Add} (hl : Local as) {act : Mtx Rat} {S n : Nat} (ha : IsActs act S n) :
    loss as act = some ((as.map fun a => a.scale * a.kind.val S n (entry act)).sum, act) := by
  obtain ⟨v, b, e1, e2, hv⟩ := hideBiases_acts ha
  unfold loss
  simp only [ha.2.1, Bool.false_eq_true, if_false, e1, Option.bind_some, e2]
  congr 2
  rw [lossAll_eq, Rat.zero_add]
  congr 1
  apply List.map_congr_left
  intro a hma
  rw [hv.rows, hv.cols, (hl a hma S n (els v) (entry act) hv.els).1]

end Nntl.LossAdd
