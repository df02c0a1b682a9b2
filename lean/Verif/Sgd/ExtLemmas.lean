import Verif.Sgd.ExtSpec
import Verif.Backprop.Lex

/-! Networks with dropout and penalties on activations as functions of their weights and of random numbers. -/
namespace Nntl.Sgd

open Nntl.Layers Nntl.Pass Nntl.Backprop
open Finset

/-- The value of a penalty and its domain depend on the activations only. -/
structure PenLocal (p : Pen) : Prop where
  val : ∀ R n A B, (∀ r < R, ∀ c < n, A r c = B r c) → p.val R n A = p.val R n B
  ok : ∀ R n A B, (∀ r < R, ∀ c < n, A r c = B r c) → p.ok R n A → p.ok R n B

/-- A reader of weights that also knows how often random numbers were drawn: `noted b k s` if the mode is `b`, and every dropout has drawn `k` times. -/
structure BReader (S : Type) : Type 1 extends Reader S where
  noted : Bool → ℕ → S → Prop

def BReader.over {S T U : Type} (n : ℕ) (A : BReader S) (B : BReader T) (f : U → S) (g : U → T) : BReader U :=
  ⟨A.toReader.over n B.toReader f g, fun b k u => A.noted b k (f u) ∧ B.noted b k (g u)⟩

/-- The number of the last draw. -/
def lastDraw (b : Bool) (k : ℕ) : Option ℕ := if b then some (k - 1) else none

/-- As `IsNet`, for layers with dropout and penalties. -/
structure BIsNet {o : Obj ℝ} {L : Law o} (D : Diff L) (A : BReader o.S) (ms : List MatInfo) (F : Option ℕ → (ℕ → Mat ℝ) → ℕ → Mat ℝ → Mat ℝ)
    (Pn : Option ℕ → (ℕ → Mat ℝ) → ℕ → Mat ℝ → ℝ) (Sm : Option ℕ → (ℕ → Mat ℝ) → ℕ → Mat ℝ → Prop) (gw : ℕ → ℕ → ℕ → GradWorks ℝ) (upd : ℕ → Bool) : Prop where
  reads : Reads A.toReader ms gw
  ws : D.ws = ms.map toWt
  fwd : ∀ b k R s X, 0 < R → A.noted b k s → ∀ r < R, ∀ c < o.neurons, L.fwd R s X r c = F (lastDraw b k) (A.get s) R X r c
  pen : ∀ b k R s X, 0 < R → A.noted b k s → D.pen R s X = Pn (lastDraw b k) (A.get s) R X
  line : ∀ s V t, Same ms (A.get (D.line s V t)) fun i c j => A.get s i c j + t * V i c j
  lineN : ∀ b k s V t, A.noted b k s → A.noted b k (D.line s V t)
  step : ∀ s g s', D.Step s g s' → Stepped A.toReader ms upd s g s'
  stepN : ∀ b k s g s', D.Step s g s' → A.noted b k s → A.noted b k s'
  mode : ∀ b s, Kept A.toReader ms s (o.mode b s)
  modeN : ∀ b b' k s, A.noted b k s → A.noted b' k (o.mode b' s)
  resize : ∀ R s, Kept A.toReader ms s (o.resize R s)
  resizeN : ∀ b k R s, A.noted b k s → A.noted b k (o.resize R s)
  fprop : ∀ R s I T O, Passed A.toReader ms s (o.fprop R s I T O).s fun b => ∃ R', L.Inv b R' s
  fpropN : ∀ b k R s I T O, A.noted b k s → A.noted b (if b then k + 1 else k) (o.fprop R s I T O).s
  bpropN : ∀ b k R need s I T O G P, A.noted b k s → A.noted b k (o.bprop R need s I T O G P).s
  loc : ∀ k W W' R X X', 0 < R → Same ms W W' → (∀ r < R, ∀ j < o.inc, X r j = X' r j) → ∀ r < R, ∀ c < o.neurons, F k W R X r c = F k W' R X' r c
  penLoc : ∀ k W W' R X X', 0 < R → Same ms W W' → (∀ r < R, ∀ j < o.inc, X r j = X' r j) → Pn k W R X = Pn k W' R X'
  smooth : ∀ b k R s X, 0 < R → A.noted b k s → Sm (lastDraw b k) (A.get s) R X → D.Smooth R s X
  smLoc : ∀ k W W' R X X', 0 < R → Same ms W W' → (∀ r < R, ∀ j < o.inc, X r j = X' r j) → Sm k W R X → Sm k W' R X'

/-! ### A wrapped layer -/

theorem dropped_eq {e : Ext} (he : e.Ok) {b : Bool} {k : ℕ} {s : LexS ℝ} (h1 : s.training = b) (h2 : e.drop.isSome = true → s.drawn = k) (R : ℕ) (Y : Mat ℝ)
    (r c : ℕ) : e.cfg.dropped s R Y r c = thinned e (lastDraw b k) R r c (Y r c) := by
  unfold LexCfg.dropped LexCfg.active LexCfg.last thinned lastDraw
  rw [h1]
  cases b with
  | false => rfl
  | true =>
    simp only [if_true]
    cases hd : e.drop with
    | none => simp only [Ext.cfg, hd, Option.map_none]
    | some d =>
      obtain ⟨kind, p⟩ := d
      rw [h2 (by rw [hd]; rfl)]
      simp only [Ext.cfg, hd, Option.map_some]
      rw [cellOf_eq (he.prob kind p hd).1 (he.prob kind p hd).2 (fun al mean var hk => he.var al mean var p (by rw [hd, hk]))]

theorem lex_fprop_inner {x : LexCfg ℝ} {o : Obj ℝ} (R : ℕ) (s : o.S × LexS ℝ) (I T O : Mem ℝ) :
    ((lex x o).fprop R s I T O).s.1 = (o.fprop R s.1 I T O).s := by
  simp only [lex]
  cases x.drop with
  | none => rfl
  | some cell => cases s.2.training <;> rfl

theorem lex_fprop_noted {e : Ext} {o : Obj ℝ} {b : Bool} {k : ℕ} (R : ℕ) (s : o.S × LexS ℝ) (I T O : Mem ℝ)
    (h : s.2.training = b ∧ (e.drop.isSome = true → s.2.drawn = k)) :
    ((lex e.cfg o).fprop R s I T O).s.2.training = b ∧
      (e.drop.isSome = true → ((lex e.cfg o).fprop R s I T O).s.2.drawn = if b then k + 1 else k) := by
  obtain ⟨h1, h2⟩ := h
  simp only [lex]
  cases hd : e.drop with
  | none =>
    have hc : e.cfg.drop = none := by simp only [Ext.cfg, hd, Option.map_none]
    rw [hc]
    refine ⟨?_, fun h => by cases h⟩
    dsimp only
    split <;> exact h1
  | some d =>
    have hc : e.cfg.drop = some (cellOf d.1 d.2) := by simp only [Ext.cfg, hd, Option.map_some]
    have h3 := h2 (by rw [hd]; rfl)
    rw [hc]
    dsimp only
    cases b with
    | true =>
      simp only [h1, if_true]
      exact ⟨trivial, fun _ => by rw [h3]⟩
    | false =>
      simp only [h1, Bool.false_eq_true, if_false]
      exact ⟨trivial, fun _ => h3⟩

theorem sum_pens_congr {R n : ℕ} {A B : Mat ℝ} (h : ∀ r < R, ∀ c < n, A r c = B r c) (ps : List Pen) (hp : ∀ p ∈ ps, PenLocal p) :
    (ps.map fun p => p.val R n A).sum = (ps.map fun p => p.val R n B).sum := by
  congr 1
  exact List.map_congr_left fun p hm => (hp p hm).val R n A B h

section
variable {o : Obj ℝ} {L : Law o} {D : Diff L} {A : Reader o.S} {ms : List MatInfo} {F : (ℕ → Mat ℝ) → (ℕ → ℝ) → ℕ → ℝ} {Sm : (ℕ → Mat ℝ) → (ℕ → ℝ) → Prop}
  {gw : ℕ → ℕ → ℕ → GradWorks ℝ} {upd : ℕ → Bool}

theorem lex_isNet {e : Ext} (he : e.Ok) (hl : ∀ p ∈ e.pens, PenLocal p) (h : IsNet D A ms F Sm gw upd) (hz : ∀ R s X, D.pen R s X = 0) :
    BIsNet (lexDiff e.cfg e.pens D)
      (⟨⟨fun s : o.S × LexS ℝ => A.get s.1, fun s => A.cells s.1⟩, fun b k s => s.2.training = b ∧ (e.drop.isSome = true → s.2.drawn = k)⟩ : BReader (o.S × LexS ℝ)) ms
      (fun k W R X r c => thinned e k R r c (F W (X r) c)) (fun _ W R X => (e.pens.map fun p => p.val R o.neurons fun r c => F W (X r) c).sum)
      (fun _ W R X => (∀ r < R, Sm W (X r)) ∧ ∀ p ∈ e.pens, p.ok R o.neurons fun r c => F W (X r) c) gw upd where
  reads := ⟨fun s => h.reads.wts s.1, fun s => h.reads.own s.1⟩
  ws := h.ws
  fwd := fun b k R s X h0 hn r hr c hc => by
    show e.cfg.dropped s.2 R (L.fwd R s.1 X) r c = _
    rw [dropped_eq he hn.1 hn.2, h.fwd R s.1 X h0 r hr c hc]
  pen := fun b k R s X h0 _ => by
    show D.pen R s.1 X + (e.pens.map fun p => p.val R (o.neurons - 0) (colsFrom 0 (L.fwd R s.1 X))).sum = _
    rw [hz, zero_add]
    exact sum_pens_congr (fun r hr c hc => by
      unfold colsFrom
      rw [Nat.zero_add, h.fwd R s.1 X h0 r hr c hc]) _ hl
  line := fun s V t => h.line s.1 V t
  lineN := fun _ _ _ _ _ hn => hn
  step := fun s g s' hs => h.step s.1 g s'.1 hs.1
  stepN := fun b k s g s' hs hn => by
    have e2 : s'.2 = s.2 := hs.2
    show s'.2.training = b ∧ _
    rw [e2]
    exact hn
  mode := fun b s => h.mode b s.1
  modeN := fun _ _ _ _ hn => ⟨rfl, hn.2⟩
  resize := fun R s => h.resize R s.1
  resizeN := fun _ _ _ _ hn => hn
  fprop := fun R s I T O i m hi => by
    obtain ⟨b, h1, h2⟩ := h.fprop R s.1 I T O i m hi
    refine ⟨b, ?_, fun b' ⟨R', hb⟩ => h2 b' ⟨R', hb.1⟩⟩
    exact (congrArg (fun z => A.cells z i) (lex_fprop_inner R s I T O)).trans h1
  fpropN := fun b k R s I T O hn => lex_fprop_noted R s I T O hn
  bpropN := fun b k R need s I T O G P hn => hn
  loc := fun k W W' R X X' h0 hw hx r hr c hc => by
    show thinned e k R r c _ = thinned e k R r c _
    rw [h.loc W W' (X r) (X' r) hw (hx r hr) c hc]
  penLoc := fun k W W' R X X' h0 hw hx => sum_pens_congr (fun r hr c hc => h.loc W W' (X r) (X' r) hw (hx r hr) c hc) _ hl
  smooth := fun b k R s X h0 hn hs => ⟨h.smooth R s.1 X h0 hs.1, fun p hp => (hl p hp).ok _ _ _ _ (fun r hr c hc => by
    show F (A.get s.1) (X r) c = colsFrom 0 (L.fwd R s.1 X) r c
    unfold colsFrom
    rw [Nat.zero_add, h.fwd R s.1 X h0 r hr c hc]) (hs.2 p hp)⟩
  smLoc := fun k W W' R X X' h0 hw hx hs => ⟨fun r hr => h.smLoc _ _ _ _ hw (hx r hr) (hs.1 r hr), fun p hp =>
    (hl p hp).ok _ _ _ _ (fun r hr c hc => h.loc W W' (X r) (X' r) hw (hx r hr) c hc) (hs.2 p hp)⟩

end

/-! ### Packs -/

section
variable {l u : Obj ℝ} {L : Law l} {U : Law u} {D : Diff L} {E : Diff U} {A : BReader l.S} {B : BReader u.S} {ms ms' : List MatInfo}
  {F F' : Option ℕ → (ℕ → Mat ℝ) → ℕ → Mat ℝ → Mat ℝ} {Pn Pn' : Option ℕ → (ℕ → Mat ℝ) → ℕ → Mat ℝ → ℝ}
  {Sm Sm' : Option ℕ → (ℕ → Mat ℝ) → ℕ → Mat ℝ → Prop} {gw : ℕ → ℕ → ℕ → GradWorks ℝ} {upd : ℕ → Bool}

theorem BIsNet.length (h : BIsNet D A ms F Pn Sm gw upd) : D.ws.length = ms.length := by rw [h.ws, List.length_map]

theorem over_isNetB (hD : BIsNet D A ms F Pn Sm gw upd) (hE : BIsNet E B ms' F' Pn' Sm' gw upd) (hi : u.inc = l.neurons) :
    BIsNet (overDiff D E) (A.over ms.length B (fun s : l.S × Stor ℝ × u.S => s.1) fun s => s.2.2) (ms ++ ms')
      (fun k W R X => F' k (after ms.length W) R (F k W R X)) (fun k W R X => Pn k W R X + Pn' k (after ms.length W) R (F k W R X))
      (fun k W R X => Sm k W R X ∧ Sm' k (after ms.length W) R (F k W R X)) gw upd := by
  have hf : ∀ b k R (s : l.S × u.S) X, 0 < R → A.noted b k s.1 → ∀ r < R, ∀ j < u.inc,
      L.fwd R s.1 X r j = F (lastDraw b k) (glue ms.length (A.get s.1) (B.get s.2)) R X r j := fun b k R s X h0 hn r hr j hj => by
    rw [hi] at hj
    rw [hD.fwd b k R s.1 X h0 hn r hr j hj]
    exact hD.loc _ _ _ _ _ _ h0 (same_glue rfl _ _).symm (fun _ _ _ _ => rfl) r hr j hj
  exact {
    reads := reads_over hD.reads hE.reads _ _
    ws := by show D.ws ++ E.ws = _; rw [hD.ws, hE.ws, List.map_append]
    fwd := fun b k R s X h0 hn r hr c hc => by
      show U.fwd R s.2.2 (L.fwd R s.1 X) r c = F' (lastDraw b k) (after ms.length (glue ms.length (A.get s.1) (B.get s.2.2))) R
        (F (lastDraw b k) (glue ms.length (A.get s.1) (B.get s.2.2)) R X) r c
      rw [hE.fwd b k R s.2.2 _ h0 hn.2 r hr c hc, after_glue]
      exact hE.loc _ _ _ _ _ _ h0 (Same.refl _ _) (fun r hr j hj => hf b k R (s.1, s.2.2) X h0 hn.1 r hr j hj) r hr c hc
    pen := fun b k R s X h0 hn => by
      show D.pen R s.1 X + E.pen R s.2.2 (L.fwd R s.1 X) = Pn (lastDraw b k) (glue ms.length (A.get s.1) (B.get s.2.2)) R X +
        Pn' (lastDraw b k) (after ms.length (glue ms.length (A.get s.1) (B.get s.2.2))) R (F (lastDraw b k) (glue ms.length (A.get s.1) (B.get s.2.2)) R X)
      rw [hD.pen b k R s.1 X h0 hn.1, hE.pen b k R s.2.2 _ h0 hn.2, after_glue]
      exact congr (congrArg _ (hD.penLoc _ _ _ _ _ _ h0 (same_glue rfl _ _).symm fun _ _ _ _ => rfl))
        (hE.penLoc _ _ _ _ _ _ h0 (Same.refl _ _) fun r hr j hj => hf b k R (s.1, s.2.2) X h0 hn.1 r hr j hj)
    line := fun s V t => by
      refine same_append.2 ⟨(same_glue rfl _ _).trans ((hD.line s.1 V t).trans ?_), ?_⟩
      · intro i m hi c hc j hj
        exact congrArg (· + t * V i c j) (same_glue rfl (A.get s.1) (B.get s.2.2) i m hi c hc j hj).symm
      · show Same ms' (after ms.length (glue ms.length (A.get (D.line s.1 V t)) (B.get (E.line s.2.2 (fun i => V (D.ws.length + i)) t)))) _
        rw [after_glue]
        refine (hE.line s.2.2 (fun i => V (D.ws.length + i)) t).trans ?_
        intro i m hi c hc j hj
        have e : (glue ms.length (A.get s.1) (B.get s.2.2)) (ms.length + i) = B.get s.2.2 i := congrFun (after_glue ms.length (A.get s.1) (B.get s.2.2)) i
        show _ = (glue ms.length (A.get s.1) (B.get s.2.2)) (ms.length + i) c j + t * V (ms.length + i) c j
        rw [e, hD.length]
    lineN := fun b k s V t hn => ⟨hD.lineN b k s.1 V t hn.1, hE.lineN b k s.2.2 _ t hn.2⟩
    step := fun s g s' h => stepped_over (hD.step s.1 g s'.1 h.1) (by
      have := hE.step s.2.2 _ s'.2.2 h.2
      rw [hD.length] at this
      exact this)
    stepN := fun b k s g s' h hn => ⟨hD.stepN b k s.1 g s'.1 h.1 hn.1, hE.stepN b k s.2.2 _ s'.2.2 h.2 hn.2⟩
    mode := fun b s => kept_over (hD.mode b s.1) (hE.mode b s.2.2)
    modeN := fun b b' k s hn => ⟨hD.modeN b b' k s.1 hn.1, hE.modeN b b' k s.2.2 hn.2⟩
    resize := fun R s => kept_over (hD.resize R s.1) (hE.resize R s.2.2)
    resizeN := fun b k R s hn => ⟨hD.resizeN b k R s.1 hn.1, hE.resizeN b k R s.2.2 hn.2⟩
    fprop := fun R s I T O => passed_over (hD.fprop R s.1 _ _ _) (hE.fprop R s.2.2 _ _ _) fun b ⟨R', h⟩ => ⟨⟨R', h.1⟩, R', h.2.1⟩
    fpropN := fun b k R s I T O hn => ⟨hD.fpropN b k R s.1 _ _ _ hn.1, hE.fpropN b k R s.2.2 _ _ _ hn.2⟩
    bpropN := fun b k R need s I T O G P hn => by
      refine ⟨?_, hE.bpropN b k R true s.2.2 _ _ _ _ _ hn.2⟩
      show A.noted b k (BOut.s (if (u.bprop R true s.2.2 s.2.1.m T O G P).flag then _ else _))
      split <;> exact hD.bpropN b k R need s.1 _ _ _ _ _ hn.1
    loc := fun k W W' R X X' h0 hw hx r hr c hc => by
      obtain ⟨h1, h2⟩ := same_append.1 hw
      exact hE.loc _ _ _ _ _ _ h0 h2 (fun r hr j hj => hD.loc _ _ _ _ _ _ h0 h1 hx r hr j (hi ▸ hj)) r hr c hc
    penLoc := fun k W W' R X X' h0 hw hx => by
      obtain ⟨h1, h2⟩ := same_append.1 hw
      exact congr (congrArg _ (hD.penLoc _ _ _ _ _ _ h0 h1 hx))
        (hE.penLoc _ _ _ _ _ _ h0 h2 fun r hr j hj => hD.loc _ _ _ _ _ _ h0 h1 hx r hr j (hi ▸ hj))
    smooth := fun b k R s X h0 hn h => by
      have h : Sm (lastDraw b k) (glue ms.length (A.get s.1) (B.get s.2.2)) R X ∧
        Sm' (lastDraw b k) (after ms.length (glue ms.length (A.get s.1) (B.get s.2.2))) R (F (lastDraw b k) (glue ms.length (A.get s.1) (B.get s.2.2)) R X) := h
      rw [after_glue] at h
      exact ⟨hD.smooth b k R s.1 X h0 hn.1 (hD.smLoc _ _ _ _ _ _ h0 (same_glue rfl _ _) (fun _ _ _ _ => rfl) h.1),
        hE.smooth b k R s.2.2 _ h0 hn.2 (hE.smLoc _ _ _ _ _ _ h0 (Same.refl _ _) (fun r hr j hj => (hf b k R (s.1, s.2.2) X h0 hn.1 r hr j hj).symm) h.2)⟩
    smLoc := fun k W W' R X X' h0 hw hx h => by
      obtain ⟨h1, h2⟩ := same_append.1 hw
      exact ⟨hD.smLoc _ _ _ _ _ _ h0 h1 hx h.1, hE.smLoc _ _ _ _ _ _ h0 h2 (fun r hr j hj => hD.loc _ _ _ _ _ _ h0 h1 hx r hr j (hi ▸ hj)) h.2⟩ }

theorem rolled {R k m : ℕ} (h0 : 0 < R) {X X' : Mat ℝ} (hx : ∀ r < R, ∀ j < k * m, X r j = X' r j) : ∀ q < k * R, ∀ j < m,
    X (q % R) (q / R * m + j) = X' (q % R) (q / R * m + j) := fun q hq j hj => by
  refine hx _ (Nat.mod_lt _ h0) _ ?_
  have ht : q / R < k := Nat.div_lt_of_lt_mul (by rwa [Nat.mul_comm])
  calc q / R * m + j < q / R * m + m := by omega
    _ = (q / R + 1) * m := by rw [Nat.add_mul, Nat.one_mul]
    _ ≤ k * m := Nat.mul_le_mul_right _ ht

theorem unrolled {R k m r c : ℕ} (hr : r < R) (hc : c < k * m) : c / m * R + r < k * R ∧ c % m < m := by
  have hm : 0 < m := by
    rcases Nat.eq_zero_or_pos m with h | h
    · rw [h, Nat.mul_zero] at hc; omega
    · exact h
  have ht : c / m < k := Nat.div_lt_of_lt_mul (by rwa [Nat.mul_comm])
  refine ⟨?_, Nat.mod_lt _ hm⟩
  calc c / m * R + r < c / m * R + R := by omega
    _ = (c / m + 1) * R := by rw [Nat.add_mul, Nat.one_mul]
    _ ≤ k * R := Nat.mul_le_mul_right _ ht

theorem tile_isNetB {k cap : ℕ} (hk : 0 < k) (hD : BIsNet D A ms F Pn Sm gw upd) :
    BIsNet (tileDiff k cap D) (⟨⟨fun s : l.S × Stor ℝ × Stor ℝ => A.get s.1, fun s => A.cells s.1⟩, fun b n s => A.noted b n s.1⟩ : BReader (l.S × Stor ℝ × Stor ℝ))
      (ms.map fun m => { m with tiles := k * m.tiles })
      (fun d W R X r c => F d W (k * R) (fun q j => X (q % R) (q / R * l.inc + j)) (c / l.neurons * R + r) (c % l.neurons))
      (fun d W R X => Pn d W (k * R) (fun q j => X (q % R) (q / R * l.inc + j)))
      (fun d W R X => Sm d W (k * R) (fun q j => X (q % R) (q / R * l.inc + j))) gw upd where
  reads := ⟨fun s => each_retile.2 (hD.reads.wts s.1), fun s => each_retile.2 (hD.reads.own s.1)⟩
  ws := by
    show D.ws.map _ = _
    rw [hD.ws, List.map_map, List.map_map]
    rfl
  fwd := fun b d R s X h0 hn r hr c hc =>
    hD.fwd b d (k * R) s.1 (roll R l.inc X) (Nat.mul_pos hk h0) hn _ (unrolled hr hc).1 _ (unrolled hr hc).2
  pen := fun b d R s X h0 hn => hD.pen b d (k * R) s.1 (roll R l.inc X) (Nat.mul_pos hk h0) hn
  line := fun s V t => same_retile.2 (hD.line s.1 V t)
  lineN := fun b d s V t hn => hD.lineN b d s.1 V t hn
  step := fun s g s' h => each_retile.2 (hD.step s.1 g s'.1 h)
  stepN := fun b d s g s' h hn => hD.stepN b d s.1 g s'.1 h hn
  mode := fun b s => each_retile.2 (hD.mode b s.1)
  modeN := fun b b' d s hn => hD.modeN b b' d s.1 hn
  resize := fun R s => each_retile.2 (hD.resize _ s.1)
  resizeN := fun b d R s hn => hD.resizeN b d _ s.1 hn
  fprop := fun R s I T O => each_retile.2 fun i m hi => by
    obtain ⟨b, h1, h2⟩ := hD.fprop (k * R) s.1 _ _ _ i m hi
    exact ⟨b, h1, fun b' ⟨R', h⟩ => h2 b' ⟨_, h.1⟩⟩
  fpropN := fun b d R s I T O hn => hD.fpropN b d (k * R) s.1 _ _ _ hn
  bpropN := fun b d R need s I T O G P hn => hD.bpropN b d (k * R) need s.1 _ _ _ _ _ hn
  loc := fun d W W' R X X' h0 hw hx r hr c hc =>
    hD.loc _ _ _ _ _ _ (Nat.mul_pos hk h0) (same_retile.1 hw) (rolled h0 hx) _ (unrolled hr hc).1 _ (unrolled hr hc).2
  penLoc := fun d W W' R X X' h0 hw hx => hD.penLoc _ _ _ _ _ _ (Nat.mul_pos hk h0) (same_retile.1 hw) (rolled h0 hx)
  smooth := fun b d R s X h0 hn h => hD.smooth b d (k * R) s.1 (roll R l.inc X) (Nat.mul_pos hk h0) hn h
  smLoc := fun d W W' R X X' h0 hw hx h => hD.smLoc _ _ _ _ _ _ (Nat.mul_pos hk h0) (same_retile.1 hw) (rolled h0 hx) h

end

/-- The same for the inner layers of a horizontal pack. -/
structure FIsNetB (inc : ℕ) (fs : List (Fld ℝ)) (Ls : Laws fs) (Ds : Diffs fs Ls) (A : BReader (FState fs)) (ms : List MatInfo)
    (F : Option ℕ → (ℕ → Mat ℝ) → ℕ → Mat ℝ → Mat ℝ) (Pn : Option ℕ → (ℕ → Mat ℝ) → ℕ → Mat ℝ → ℝ) (Sm : Option ℕ → (ℕ → Mat ℝ) → ℕ → Mat ℝ → Prop)
    (gw : ℕ → ℕ → ℕ → GradWorks ℝ) (upd : ℕ → Bool) : Prop where
  reads : Reads A.toReader ms gw
  ws : fWs fs Ls Ds = ms.map toWt
  fwd : ∀ b k R s X, 0 < R → A.noted b k s → ∀ r < R, ∀ c < fNeurons fs, fFwd R X fs Ls s r c = F (lastDraw b k) (A.get s) R X r c
  pen : ∀ b k R s X, 0 < R → A.noted b k s → fPen R X fs Ls Ds s = Pn (lastDraw b k) (A.get s) R X
  line : ∀ s V t, Same ms (A.get (fLine fs Ls Ds s V t)) fun i c j => A.get s i c j + t * V i c j
  lineN : ∀ b k s V t, A.noted b k s → A.noted b k (fLine fs Ls Ds s V t)
  step : ∀ s g s', fStep fs Ls Ds s g s' → Stepped A.toReader ms upd s g s'
  stepN : ∀ b k s g s', fStep fs Ls Ds s g s' → A.noted b k s → A.noted b k s'
  mode : ∀ b s, Kept A.toReader ms s (fMode b fs s)
  modeN : ∀ b b' k s, A.noted b k s → A.noted b' k (fMode b' fs s)
  resize : ∀ R s, Kept A.toReader ms s (fResize R fs s)
  resizeN : ∀ b k R s, A.noted b k s → A.noted b k (fResize R fs s)
  fprop : ∀ R used fo s I T O, Passed A.toReader ms s (fFprop R inc used fs fo s I T O).s fun b => ∃ R', fInv b R' fs Ls s
  fpropN : ∀ b k R used fo s I T O, A.noted b k s → A.noted b (if b then k + 1 else k) (fFprop R inc used fs fo s I T O).s
  bpropN : ∀ b k R bias buf need fo s I T O G P, A.noted b k s → A.noted b k (fBprop R inc bias buf need fs fo s I T O G P).s
  loc : ∀ k W W' R X X', 0 < R → Same ms W W' → (∀ r < R, ∀ j < inc, X r j = X' r j) → ∀ r < R, ∀ c < fNeurons fs, F k W R X r c = F k W' R X' r c
  penLoc : ∀ k W W' R X X', 0 < R → Same ms W W' → (∀ r < R, ∀ j < inc, X r j = X' r j) → Pn k W R X = Pn k W' R X'
  smooth : ∀ b k R s X, 0 < R → A.noted b k s → Sm (lastDraw b k) (A.get s) R X → fSmooth R X fs Ls Ds s
  smLoc : ∀ k W W' R X X', 0 < R → Same ms W W' → (∀ r < R, ∀ j < inc, X r j = X' r j) → Sm k W R X → Sm k W' R X'

theorem nil_isNetB (inc : ℕ) (Ls : Laws []) (gw : ℕ → ℕ → ℕ → GradWorks ℝ) (upd : ℕ → Bool) (F : Option ℕ → (ℕ → Mat ℝ) → ℕ → Mat ℝ → Mat ℝ)
    (A : Reader (FState ([] : List (Fld ℝ)))) : FIsNetB inc [] Ls ⟨⟩ ⟨A, fun _ _ _ => True⟩ [] F (fun _ _ _ _ => 0) (fun _ _ _ _ => True) gw upd where
  reads := ⟨fun _ i m hi => absurd (lt_of_getElem? hi) (Nat.not_lt_zero i), fun _ i m hi => absurd (lt_of_getElem? hi) (Nat.not_lt_zero i)⟩
  ws := rfl
  fwd := fun _ _ _ _ _ _ _ _ _ c hc => absurd hc (Nat.not_lt_zero c)
  pen := fun _ _ _ _ _ _ _ => rfl
  line := fun _ _ _ i m hi => absurd (lt_of_getElem? hi) (Nat.not_lt_zero i)
  lineN := fun _ _ _ _ _ _ => trivial
  step := fun _ _ _ _ i m hi => absurd (lt_of_getElem? hi) (Nat.not_lt_zero i)
  stepN := fun _ _ _ _ _ _ _ => trivial
  mode := fun _ _ i m hi => absurd (lt_of_getElem? hi) (Nat.not_lt_zero i)
  modeN := fun _ _ _ _ _ => trivial
  resize := fun _ _ i m hi => absurd (lt_of_getElem? hi) (Nat.not_lt_zero i)
  resizeN := fun _ _ _ _ _ => trivial
  fprop := fun _ _ _ _ _ _ _ i m hi => absurd (lt_of_getElem? hi) (Nat.not_lt_zero i)
  fpropN := fun _ _ _ _ _ _ _ _ _ _ => trivial
  bpropN := fun _ _ _ _ _ _ _ _ _ _ _ _ _ _ => trivial
  loc := fun _ _ _ _ _ _ _ _ _ _ _ c hc => absurd hc (Nat.not_lt_zero c)
  penLoc := fun _ _ _ _ _ _ _ _ _ => rfl
  smooth := fun _ _ _ _ _ _ _ _ => trivial
  smLoc := fun _ _ _ _ _ _ _ _ _ _ => trivial

theorem cons_isNetB {inc : ℕ} {f : Fld ℝ} {fs : List (Fld ℝ)} {Ls : Laws (f :: fs)} {D : Diff Ls.head} {Ds : Diffs fs Ls.tail}
    {A : BReader f.obj.S} {B : BReader (FState fs)} {ms ms' : List MatInfo} {F F' : Option ℕ → (ℕ → Mat ℝ) → ℕ → Mat ℝ → Mat ℝ}
    {Pn Pn' : Option ℕ → (ℕ → Mat ℝ) → ℕ → Mat ℝ → ℝ} {Sm Sm' : Option ℕ → (ℕ → Mat ℝ) → ℕ → Mat ℝ → Prop} {gw : ℕ → ℕ → ℕ → GradWorks ℝ} {upd : ℕ → Bool}
    (hD : BIsNet D A ms F Pn Sm gw upd) (hE : FIsNetB inc fs Ls.tail Ds B ms' F' Pn' Sm' gw upd) (hi : f.ofs + f.obj.inc ≤ inc) :
    FIsNetB inc (f :: fs) Ls (D, Ds) (A.over ms.length B (fun s : FState (f :: fs) => s.1) fun s => s.2) (ms ++ ms')
      (fun k W R X r c => if c < f.obj.neurons then F k W R (fun q j => X q (f.ofs + j)) r c else F' k (after ms.length W) R X r (c - f.obj.neurons))
      (fun k W R X => Pn k W R (fun q j => X q (f.ofs + j)) + Pn' k (after ms.length W) R X)
      (fun k W R X => Sm k W R (fun q j => X q (f.ofs + j)) ∧ Sm' k (after ms.length W) R X) gw upd := by
  exact {
    reads := reads_over hD.reads hE.reads _ _
    ws := by show D.ws ++ fWs fs Ls.tail Ds = _; rw [hD.ws, hE.ws, List.map_append]
    fwd := fun b k R s X h0 hn r hr c hc => by
      have hc : c < f.obj.neurons + fNeurons fs := hc
      show (if c < f.obj.neurons then Ls.head.fwd R s.1 (colsFrom f.ofs X) r c else fFwd R X fs Ls.tail s.2 r (c - f.obj.neurons)) =
        if c < f.obj.neurons then F (lastDraw b k) (glue ms.length (A.get s.1) (B.get s.2)) R (fun q j => X q (f.ofs + j)) r c
        else F' (lastDraw b k) (after ms.length (glue ms.length (A.get s.1) (B.get s.2))) R X r (c - f.obj.neurons)
      by_cases h : c < f.obj.neurons
      · rw [if_pos h, if_pos h, hD.fwd b k R s.1 _ h0 hn.1 r hr c h]
        exact hD.loc _ _ _ _ _ _ h0 (same_glue rfl _ _).symm (fun _ _ _ _ => rfl) r hr c h
      · rw [if_neg h, if_neg h, after_glue, hE.fwd b k R s.2 X h0 hn.2 r hr _ (by omega)]
    pen := fun b k R s X h0 hn => by
      show D.pen R s.1 (colsFrom f.ofs X) + fPen R X fs Ls.tail Ds s.2 =
        Pn (lastDraw b k) (glue ms.length (A.get s.1) (B.get s.2)) R (fun q j => X q (f.ofs + j)) +
        Pn' (lastDraw b k) (after ms.length (glue ms.length (A.get s.1) (B.get s.2))) R X
      rw [after_glue, hD.pen b k R s.1 _ h0 hn.1, hE.pen b k R s.2 X h0 hn.2]
      exact congrArg (· + _) (hD.penLoc _ _ _ _ _ _ h0 (same_glue rfl _ _).symm fun _ _ _ _ => rfl)
    line := fun s V t => by
      refine same_append.2 ⟨(same_glue rfl _ _).trans ((hD.line s.1 V t).trans ?_), ?_⟩
      · intro i m hi c hc j hj
        exact congrArg (· + t * V i c j) (same_glue rfl (A.get s.1) (B.get s.2) i m hi c hc j hj).symm
      · show Same ms' (after ms.length (glue ms.length (A.get (D.line s.1 V t)) (B.get (fLine fs Ls.tail Ds s.2 (fun i => V (D.ws.length + i)) t)))) _
        rw [after_glue]
        refine (hE.line s.2 (fun i => V (D.ws.length + i)) t).trans ?_
        intro i m hi c hc j hj
        have e : (glue ms.length (A.get s.1) (B.get s.2)) (ms.length + i) = B.get s.2 i := congrFun (after_glue ms.length (A.get s.1) (B.get s.2)) i
        show _ = (glue ms.length (A.get s.1) (B.get s.2)) (ms.length + i) c j + t * V (ms.length + i) c j
        rw [e, hD.length]
    lineN := fun b k s V t hn => ⟨hD.lineN b k s.1 V t hn.1, hE.lineN b k s.2 _ t hn.2⟩
    step := fun s g s' h => stepped_over (hD.step s.1 g s'.1 h.1) (by
      have := hE.step s.2 _ s'.2 h.2
      rw [hD.length] at this
      exact this)
    stepN := fun b k s g s' h hn => ⟨hD.stepN b k s.1 g s'.1 h.1 hn.1, hE.stepN b k s.2 _ s'.2 h.2 hn.2⟩
    mode := fun b s => kept_over (hD.mode b s.1) (hE.mode b s.2)
    modeN := fun b b' k s hn => ⟨hD.modeN b b' k s.1 hn.1, hE.modeN b b' k s.2 hn.2⟩
    resize := fun R s => kept_over (hD.resize R s.1) (hE.resize R s.2)
    resizeN := fun b k R s hn => ⟨hD.resizeN b k R s.1 hn.1, hE.resizeN b k R s.2 hn.2⟩
    fprop := fun R used fo s I T O => passed_over (hD.fprop R s.1 _ _ _) (hE.fprop R used _ s.2 _ _ _) fun b ⟨R', h⟩ => ⟨⟨R', h.1⟩, R', h.2⟩
    fpropN := fun b k R used fo s I T O hn => ⟨hD.fpropN b k R s.1 _ _ _ hn.1, hE.fpropN b k R used _ s.2 _ _ _ hn.2⟩
    bpropN := fun b k R bias buf need fo s I T O G P hn => ⟨hD.bpropN b k R need s.1 _ _ _ _ _ hn.1, hE.bpropN b k R bias buf need _ s.2 _ _ _ _ _ hn.2⟩
    loc := fun k W W' R X X' h0 hw hx r hr c hc => by
      have hc : c < f.obj.neurons + fNeurons fs := hc
      obtain ⟨h1, h2⟩ := same_append.1 hw
      by_cases h : c < f.obj.neurons
      · simp only [if_pos h]
        exact hD.loc _ _ _ _ _ _ h0 h1 (fun r hr j hj => hx r hr _ (by omega)) r hr c h
      · simp only [if_neg h]
        exact hE.loc _ _ _ _ _ _ h0 h2 hx r hr _ (by omega)
    penLoc := fun k W W' R X X' h0 hw hx => by
      obtain ⟨h1, h2⟩ := same_append.1 hw
      exact congr (congrArg _ (hD.penLoc _ _ _ _ _ _ h0 h1 fun r hr j hj => hx r hr _ (by omega))) (hE.penLoc _ _ _ _ _ _ h0 h2 hx)
    smooth := fun b k R s X h0 hn h => by
      have h : Sm (lastDraw b k) (glue ms.length (A.get s.1) (B.get s.2)) R (fun q j => X q (f.ofs + j)) ∧
        Sm' (lastDraw b k) (after ms.length (glue ms.length (A.get s.1) (B.get s.2))) R X := h
      rw [after_glue] at h
      exact ⟨hD.smooth b k R s.1 _ h0 hn.1 (hD.smLoc _ _ _ _ _ _ h0 (same_glue rfl _ _) (fun _ _ _ _ => rfl) h.1), hE.smooth b k R s.2 X h0 hn.2 h.2⟩
    smLoc := fun k W W' R X X' h0 hw hx h => by
      obtain ⟨h1, h2⟩ := same_append.1 hw
      exact ⟨hD.smLoc _ _ _ _ _ _ h0 h1 (fun r hr j hj => hx r hr _ (by omega)) h.1, hE.smLoc _ _ _ _ _ _ h0 h2 hx h.2⟩ }

theorem horiz_isNetB {inc bias buf cap : ℕ} {fs : List (Fld ℝ)} {Ls : Laws fs} {Ds : Diffs fs Ls} {A : BReader (FState fs)} {ms : List MatInfo}
    {F : Option ℕ → (ℕ → Mat ℝ) → ℕ → Mat ℝ → Mat ℝ} {Pn : Option ℕ → (ℕ → Mat ℝ) → ℕ → Mat ℝ → ℝ} {Sm : Option ℕ → (ℕ → Mat ℝ) → ℕ → Mat ℝ → Prop}
    {gw : ℕ → ℕ → ℕ → GradWorks ℝ} {upd : ℕ → Bool} (h : FIsNetB inc fs Ls Ds A ms F Pn Sm gw upd) :
    BIsNet (horizDiff inc bias buf cap Ds) A ms F Pn Sm gw upd where
  reads := h.reads
  ws := h.ws
  fwd := h.fwd
  pen := h.pen
  line := h.line
  lineN := h.lineN
  step := h.step
  stepN := h.stepN
  mode := h.mode
  modeN := h.modeN
  resize := h.resize
  resizeN := h.resizeN
  fprop := fun R s I T O => h.fprop R _ 0 s I T O
  fpropN := fun b k R s I T O hn => h.fpropN b k R _ 0 s I T O hn
  bpropN := fun b k R need s I T O G P hn => h.bpropN b k R _ _ need 0 s I T O G _ hn
  loc := h.loc
  penLoc := h.penLoc
  smooth := h.smooth
  smLoc := h.smLoc

/-! ### Trees -/

section
variable {gw : ℕ → ℕ → ℕ → GradWorks ℝ} {act : ℕ → Act.Act} {upd : ℕ → Bool} {e : ℕ → Ext}

mutual
/-- The weights in a state of a tree, and the number of draws. -/
noncomputable def treeGetB (gw : ℕ → ℕ → ℕ → GradWorks ℝ) (act : ℕ → Act.Act) (upd : ℕ → Bool) (e : ℕ → Ext) :
    (l : Layer) → (inc : BS) → (n : ℕ) → BReader (sem (exLayers gw act upd e) l inc n).obj.S
  | .leaf id l, _, n =>
    (⟨⟨fun s : FcS (gw id l.neurons (n + 1)) × LexS ℝ => (fcReader (gw id l.neurons (n + 1))).get s.1, fun s => (fcReader (gw id l.neurons (n + 1))).cells s.1⟩,
      fun b k s => s.2.training = b ∧ ((e id).drop.isSome = true → s.2.drawn = k)⟩ : BReader (FcS (gw id l.neurons (n + 1)) × LexS ℝ))
  | .vert _ f r, inc, n => stackGetB gw act upd e r inc (sem (exLayers gw act upd e) f inc n) (mats f n).length (treeGetB gw act upd e f inc n)
  | .horiz _ _ fs, inc, _ => fieldsGetB gw act upd e fs inc
  | .tile _ k l, inc, n =>
    (⟨⟨fun (s : (sem (exLayers gw act upd e) l (inc.mul k) (n / k)).obj.S × Stor ℝ × Stor ℝ) => (treeGetB gw act upd e l (inc.mul k) (n / k)).get s.1,
      fun (s : (sem (exLayers gw act upd e) l (inc.mul k) (n / k)).obj.S × Stor ℝ × Stor ℝ) => (treeGetB gw act upd e l (inc.mul k) (n / k)).cells s.1⟩,
      fun b d s => (treeGetB gw act upd e l (inc.mul k) (n / k)).noted b d s.1⟩ : BReader ((sem (exLayers gw act upd e) l (inc.mul k) (n / k)).obj.S × Stor ℝ × Stor ℝ))
  termination_by structural l => l
noncomputable def stackGetB (gw : ℕ → ℕ → ℕ → GradWorks ℝ) (act : ℕ → Act.Act) (upd : ℕ → Bool) (e : ℕ → Ext) :
    (r : Stack) → (inc : BS) → (acc : Sem ℝ) → ℕ → BReader acc.obj.S → BReader (semStack (exLayers gw act upd e) r inc acc).obj.S
  | .nil, _, _, _, A => A
  | .cons l r, inc, acc, len, A => stackGetB gw act upd e r inc
      ⟨over acc.obj (sem (exLayers gw act upd e) l inc acc.obj.neurons).obj, overLaw acc.law (sem (exLayers gw act upd e) l inc acc.obj.neurons).law⟩
      (len + (mats l acc.obj.neurons).length)
      (A.over len (treeGetB gw act upd e l inc acc.obj.neurons)
        (fun s : acc.obj.S × Stor ℝ × (sem (exLayers gw act upd e) l inc acc.obj.neurons).obj.S => s.1) fun s => s.2.2)
noncomputable def fieldsGetB (gw : ℕ → ℕ → ℕ → GradWorks ℝ) (act : ℕ → Act.Act) (upd : ℕ → Bool) (e : ℕ → Ext) :
    (fs : Fields) → (inc : BS) → BReader (FState (semFields (exLayers gw act upd e) fs inc).fs)
  | .nil, _ => ⟨⟨fun _ _ _ _ => 0, fun _ _ => ⟨bare, (), fun _ _ => 0⟩⟩, fun _ _ _ => True⟩
  | .cons _ cnt l r, inc => (treeGetB gw act upd e l inc cnt).over (mats l cnt).length (fieldsGetB gw act upd e r inc)
      (fun s : (sem (exLayers gw act upd e) l inc cnt).obj.S × FState (semFields (exLayers gw act upd e) r inc).fs => s.1) fun s => s.2
end

/-- What is needed of the activation functions and of the extensions. -/
structure ExtsOk (act : ℕ → Act.Act) (e : ℕ → Ext) : Prop where
  args : ∀ id, (act id).Args
  exts : ∀ id, (e id).Ok
  pens : ∀ id, ∀ p ∈ (e id).pens, PenLocal p

theorem exLeaf_isNet (ha : ExtsOk act e) (id : ℕ) (l : Leaf) (inc : BS) (n : ℕ) :
    BIsNet (exDiff gw act upd e id l inc n) (treeGetB gw act upd e (.leaf id l) inc n) [⟨id, l.neurons, n + 1, 1⟩]
      (fun k W R X r c => thinned (e id) k R r c (plainActs (act id).fn n (W 0) X r c))
      (fun _ W R X => ((e id).pens.map fun p => p.val R l.neurons (plainActs (act id).fn n (W 0) X)).sum)
      (fun _ W R X => (∀ r < R, ∀ c < l.neurons, DifferentiableAt ℝ (act id).fn (neuron n (W 0) (X r) c)) ∧
        ∀ p ∈ (e id).pens, p.ok R l.neurons (plainActs (act id).fn n (W 0) X)) gw upd :=
  lex_isNet (ha.exts id) (ha.pens id) (fc_isNet (gw := gw) (upd := upd) (NT := inc.maxTrainBS) (ha.args id)) fun _ _ _ => rfl

mutual
theorem tree_isNetB (ha : ExtsOk act e) (l : Layer) (inc : BS) (n : ℕ) (hp : l.AllPacks FieldsInside Divisible n) (hx : NoExtra l) :
    BIsNet (semDiff (exDiff gw act upd e) l inc n) (treeGetB gw act upd e l inc n) (mats l n) (fun k => batchFn (fun id => (act id).fn) e k l n)
      (fun k => penalties (fun id => (act id).fn) e k l n) (fun k => SmoothOn (fun id => (act id).fn) e k l n) gw upd := by
  match l with
  | .leaf id l => exact exLeaf_isNet ha id l inc n
  | .vert _ f r =>
    obtain ⟨_, h2, h3⟩ := semDiff_ok (DI := exDiff gw act upd e) f inc n hp.1 (allLeaves_of (exDiff_ok ha.exts) f) hx.1
    exact stack_isNetB ha r inc f.neurons hp.2 hx.2 (sem (exLayers gw act upd e) f inc n) h3 (semDiff (exDiff gw act upd e) f inc n)
      (treeGetB gw act upd e f inc n) _ _ _ _ (tree_isNetB ha f inc n hp.1 hx.1)
  | .horiz _ add fs =>
    simp only [Layer.AllPacks] at hp
    exact horiz_isNetB (fields_isNetB ha fs inc n hp.1 hp.2 hx.2)
  | .tile id k l =>
    obtain ⟨⟨hk, hm⟩, hp⟩ := hp
    obtain ⟨_, h2, h3⟩ := semDiff_ok (DI := exDiff gw act upd e) l (inc.mul k) (n / k) hp (allLeaves_of (exDiff_ok ha.exts) l) hx
    have := tile_isNetB (cap := ((layerInit true (.tile id k l) inc n).getD Lid.zero).dLdA) hk (tree_isNetB ha l (inc.mul k) (n / k) hp hx)
    rw [h2, h3] at this
    exact this
theorem stack_isNetB (ha : ExtsOk act e) (r : Stack) (inc : BS) (m : ℕ) (hp : r.AllPacks FieldsInside Divisible m) (hx : NoExtraS r) (acc : Sem ℝ)
    (hm : acc.obj.neurons = m) (D : Diff acc.law) (get : BReader acc.obj.S) (ms : List MatInfo) (F : Option ℕ → (ℕ → Mat ℝ) → ℕ → Mat ℝ → Mat ℝ)
    (Pn : Option ℕ → (ℕ → Mat ℝ) → ℕ → Mat ℝ → ℝ) (Sm : Option ℕ → (ℕ → Mat ℝ) → ℕ → Mat ℝ → Prop) (h : BIsNet D get ms F Pn Sm gw upd) :
    BIsNet (stackDiff (exDiff gw act upd e) r inc acc D) (stackGetB gw act upd e r inc acc ms.length get) (ms ++ matsS r m)
      (fun k W R X => batchFnS (fun id => (act id).fn) e k r m (after ms.length W) R (F k W R X))
      (fun k W R X => Pn k W R X + penaltiesS (fun id => (act id).fn) e k r m (after ms.length W) R (F k W R X))
      (fun k W R X => Sm k W R X ∧ SmoothOnS (fun id => (act id).fn) e k r m (after ms.length W) R (F k W R X)) gw upd := by
  match r with
  | .nil =>
    simp only [matsS, List.append_nil, batchFnS, penaltiesS, SmoothOnS, and_true, add_zero]
    exact h
  | .cons l r =>
    subst hm
    obtain ⟨_, h2, h3⟩ := semDiff_ok (DI := exDiff gw act upd e) l inc acc.obj.neurons hp.1 (allLeaves_of (exDiff_ok ha.exts) l) hx.1
    have := stack_isNetB ha r inc l.neurons hp.2 hx.2
      ⟨over acc.obj (sem (exLayers gw act upd e) l inc acc.obj.neurons).obj, overLaw acc.law (sem (exLayers gw act upd e) l inc acc.obj.neurons).law⟩ h3
      (overDiff D (semDiff (exDiff gw act upd e) l inc acc.obj.neurons))
      (get.over ms.length (treeGetB gw act upd e l inc acc.obj.neurons) (fun s : acc.obj.S × Stor ℝ × (sem (exLayers gw act upd e) l inc acc.obj.neurons).obj.S => s.1)
        fun s => s.2.2) _ _ _ _ (over_isNetB h (tree_isNetB ha l inc acc.obj.neurons hp.1 hx.1) h2)
    have e1 : ∀ W, after (ms ++ mats l acc.obj.neurons).length W = after (mats l acc.obj.neurons).length (after ms.length W) := by
      intro W
      funext i
      unfold after
      rw [List.length_append, Nat.add_assoc]
    simp only [e1] at this
    rw [List.append_assoc, List.length_append] at this
    simp only [and_assoc, add_assoc] at this
    exact this
theorem fields_isNetB (ha : ExtsOk act e) (fs : Fields) (inc : BS) (n : ℕ) (hin : FieldsInside n fs.coords) (hp : fs.AllPacks FieldsInside Divisible)
    (hx : NoExtraF fs) :
    FIsNetB n (semFields (exLayers gw act upd e) fs inc).fs (semFields (exLayers gw act upd e) fs inc).laws (fieldsDiff (exDiff gw act upd e) fs inc)
      (fieldsGetB gw act upd e fs inc) (matsF fs) (fun k => batchFnF (fun id => (act id).fn) e k fs) (fun k => penaltiesF (fun id => (act id).fn) e k fs)
      (fun k => SmoothOnF (fun id => (act id).fn) e k fs) gw upd := by
  match fs with
  | .nil => exact nil_isNetB _ _ _ _ _ _
  | .cons ofs cnt l r =>
    obtain ⟨_, h2, h3⟩ := semDiff_ok (DI := exDiff gw act upd e) l inc cnt hp.1 (allLeaves_of (exDiff_ok ha.exts) l) hx.1
    have := cons_isNetB (f := ⟨ofs, cnt, (sem (exLayers gw act upd e) l inc cnt).obj⟩) (Ls := .cons (f := ⟨ofs, cnt, (sem (exLayers gw act upd e) l inc cnt).obj⟩)
      (sem (exLayers gw act upd e) l inc cnt).law (semFields (exLayers gw act upd e) r inc).laws) (tree_isNetB ha l inc cnt hp.1 hx.1)
      (fields_isNetB ha r inc n (fun c hc => hin c (List.mem_cons_of_mem _ hc)) hp.2 hx.2) (by
        have := hin (ofs, cnt) List.mem_cons_self
        rw [h2]
        exact this)
    rw [h3] at this
    exact this
end

end

end Nntl.Sgd
