import Verif.Life.OwnRun
/-! Careful programs meet living objects only. -/
namespace Nntl.Life

theorem mathAt_ok {w : World} {i : Nat} {m : MathO} (h : w.maths i = some m) (ha : m.alive = true) : w.mathAt (some i) = .ok (i, m) := by
  unfold World.mathAt; simp only [h, ha, if_true]
theorem rngAt_ok {w : World} {i : Nat} {m : RngO} (h : w.rngs i = some m) (ha : m.alive = true) : w.rngAt (some i) = .ok (i, m) := by
  unfold World.rngAt; simp only [h, ha, if_true]
theorem inspAt_ok {w : World} {i : Nat} {m : InspO} (h : w.insps i = some m) (ha : m.alive = true) : w.inspAt (some i) = .ok (i, m) := by
  unfold World.inspAt; simp only [h, ha, if_true]
theorem layAt_ok {w : World} {i : Nat} {m : LayO} (h : w.lays i = some m) (ha : m.alive = true) : w.layAt i = .ok m := by
  unfold World.layAt; simp only [h, ha, if_true]
theorem netAt_ok {w : World} {i : Nat} {m : NetO} (h : w.nets i = some m) (ha : m.alive = true) : w.netAt i = .ok m := by
  unfold World.netAt; simp only [h, ha, if_true]

theorem ok_bind {α β : Type} (a : α) (f : α → Out β) : (Out.ok a >>= f) = f a := rfl
theorem ok_bind' {α β : Type} (a : α) (f : α → Out β) : (Out.ok a).bind f = f a := rfl

/-- What a living network finds. -/
structure NetOk (w : World) (n : Nat) (x : NetO) : Prop where
  lay : ∃ l, w.lays x.lay = some l ∧ l.alive = true ∧ (x.init = true → l.cd = some n)
  math : ∃ i m, x.math = some i ∧ w.maths i = some m ∧ m.alive = true ∧ (x.init = true → ∀ l, w.lays x.lay = some l → l.req ≤ m.min ∧ m.min ≤ m.stor)
  rng : ∃ r g, x.rng = some r ∧ w.rngs r = some g ∧ g.alive = true ∧ (g.mt = true → ∃ j, g.thr = some j ∧ MathLives w j)
  insp : ∃ i, x.insp = some i ∧ InspLives w i

structure Inv (w : World) : Prop where
  nets : ∀ n x, Lives w n x → NetOk w n x
  fM : ∀ i, w.nM ≤ i → w.maths i = none
  fR : ∀ i, w.nR ≤ i → w.rngs i = none
  fI : ∀ i, w.nI ≤ i → w.insps i = none
  fL : ∀ i, w.nL ≤ i → w.lays i = none
  fN : ∀ i, w.nN ≤ i → w.nets i = none
  passes : ∀ p, p ∈ w.passes → p.1 = p.2

theorem NetOk.mono {w w' : World} {n : Nat} {x : NetO} (h : NetOk w n x)
    (hl : ∀ l, w.lays x.lay = some l → ∃ l', w'.lays x.lay = some l' ∧ l'.alive = l.alive ∧ l'.req = l.req ∧ (x.init = true → l'.cd = l.cd))
    (hm : ∀ i m, x.math = some i → w.maths i = some m → ∃ m', w'.maths i = some m' ∧ m'.alive = m.alive ∧ (x.init = true → m.min ≤ m'.min ∧ (m.min ≤ m.stor → m'.min ≤ m'.stor)))
    (hj : ∀ j, DrawsWith w x j → MathLives w j → MathLives w' j)
    (hr : ∀ r g, x.rng = some r → w.rngs r = some g → ∃ g', w'.rngs r = some g' ∧ g'.alive = g.alive ∧ g'.mt = g.mt ∧ (g.mt = true → g'.thr = g.thr))
    (hi : ∀ i, x.insp = some i → InspLives w i → InspLives w' i) : NetOk w' n x where
  lay := by
    obtain ⟨l, l1, l2, l3⟩ := h.lay
    obtain ⟨l', e1, e2, _, e4⟩ := hl l l1
    exact ⟨l', e1, e2.trans l2, fun hx => (e4 hx).trans (l3 hx)⟩
  math := by
    obtain ⟨l, l1, _, _⟩ := h.lay
    obtain ⟨l', e1, _, e3, _⟩ := hl l l1
    obtain ⟨i, m, m1, m2, m3, m4⟩ := h.math
    obtain ⟨m', d1, d2, d3⟩ := hm i m m1 m2
    refine ⟨i, m', m1, d1, d2.trans m3, fun hx l2 hl2 => ?_⟩
    rw [e1] at hl2; cases hl2
    rw [e3]
    exact ⟨Nat.le_trans (m4 hx l l1).1 (d3 hx).1, (d3 hx).2 (m4 hx l l1).2⟩
  rng := by
    obtain ⟨r, g, r1, r2, r3, r4⟩ := h.rng
    obtain ⟨g', d1, d2, d3, d4⟩ := hr r g r1 r2
    refine ⟨r, g', r1, d1, d2.trans r3, fun ht => ?_⟩
    rw [d3] at ht
    obtain ⟨j, j1, j2⟩ := r4 ht
    exact ⟨j, (d4 ht).trans j1, hj j ⟨r, g, r1, r2, ht, j1⟩ j2⟩
  insp := by
    obtain ⟨i, i1, i2⟩ := h.insp
    exact ⟨i, i1, hi i i1 i2⟩

theorem same_l {w : World} {x : NetO} (l : LayO) (h : w.lays x.lay = some l) :
    ∃ l', w.lays x.lay = some l' ∧ l'.alive = l.alive ∧ l'.req = l.req ∧ (x.init = true → l'.cd = l.cd) := ⟨l, h, rfl, rfl, fun _ => rfl⟩
theorem same_m {w : World} {x : NetO} (i : Nat) (m : MathO) (_ : x.math = some i) (h : w.maths i = some m) :
    ∃ m', w.maths i = some m' ∧ m'.alive = m.alive ∧ (x.init = true → m.min ≤ m'.min ∧ (m.min ≤ m.stor → m'.min ≤ m'.stor)) := ⟨m, h, rfl, fun _ => ⟨Nat.le_refl _, id⟩⟩
theorem same_r {w : World} {x : NetO} (r : Nat) (g : RngO) (_ : x.rng = some r) (h : w.rngs r = some g) :
    ∃ g', w.rngs r = some g' ∧ g'.alive = g.alive ∧ g'.mt = g.mt ∧ (g.mt = true → g'.thr = g.thr) := ⟨g, h, rfl, rfl, fun _ => rfl⟩

/-! ### Objects are added -/

theorem Inv.addMath {w : World} (h : Inv w) (o : Option Nat) : Inv (w.addMath o) := by
  have key : ∀ i m, w.maths i = some m → (w.addMath o).maths i = some m := fun i m hm => by
    have : i ≠ w.nM := fun e => by rw [e, h.fM w.nM (Nat.le_refl _)] at hm; cases hm
    exact (put_ne _ _ this).trans hm
  exact
  { nets := fun n x hx => (h.nets n x hx).mono same_l (fun i m _ hm => ⟨m, key i m hm, rfl, fun _ => ⟨Nat.le_refl _, id⟩⟩)
      (fun j _ ⟨m, m1, m2⟩ => ⟨m, key j m m1, m2⟩) same_r (fun _ _ k => k)
    fM := fun i hi => (put_ne _ _ (by have : w.nM + 1 ≤ i := hi; omega)).trans (h.fM i (by have : w.nM + 1 ≤ i := hi; omega))
    fR := h.fR, fI := h.fI, fL := h.fL, fN := h.fN, passes := h.passes }

theorem Inv.addRng {w : World} (h : Inv w) (mt : Bool) (t o : Option Nat) : Inv (w.addRng mt t o) := by
  have key : ∀ i m, w.rngs i = some m → (w.addRng mt t o).rngs i = some m := fun i m hm => by
    have : i ≠ w.nR := fun e => by rw [e, h.fR w.nR (Nat.le_refl _)] at hm; cases hm
    exact (put_ne _ _ this).trans hm
  exact
  { nets := fun n x hx => (h.nets n x hx).mono same_l same_m (fun _ _ k => k)
      (fun r g _ hg => ⟨g, key r g hg, rfl, rfl, fun _ => rfl⟩) (fun _ _ k => k)
    fR := fun i hi => (put_ne _ _ (by have : w.nR + 1 ≤ i := hi; omega)).trans (h.fR i (by have : w.nR + 1 ≤ i := hi; omega))
    fM := h.fM, fI := h.fI, fL := h.fL, fN := h.fN, passes := h.passes }

theorem Inv.addInsp {w : World} (h : Inv w) (o : Option Nat) : Inv (w.addInsp o) := by
  have key : ∀ i m, w.insps i = some m → (w.addInsp o).insps i = some m := fun i m hm => by
    have : i ≠ w.nI := fun e => by rw [e, h.fI w.nI (Nat.le_refl _)] at hm; cases hm
    exact (put_ne _ _ this).trans hm
  exact
  { nets := fun n x hx => (h.nets n x hx).mono same_l same_m (fun _ _ k => k) same_r (fun i _ ⟨m, m1, m2⟩ => ⟨m, key i m m1, m2⟩)
    fI := fun i hi => (put_ne _ _ (by have : w.nI + 1 ≤ i := hi; omega)).trans (h.fI i (by have : w.nI + 1 ≤ i := hi; omega))
    fM := h.fM, fR := h.fR, fL := h.fL, fN := h.fN, passes := h.passes }

theorem Inv.addLay {w : World} (h : Inv w) (req : Nat) : Inv { w with lays := put w.lays w.nL ⟨true, none, req⟩, nL := w.nL + 1 } := by
  have key : ∀ i m, w.lays i = some m → put w.lays w.nL ⟨true, none, req⟩ i = some m := fun i m hm => by
    have : i ≠ w.nL := fun e => by rw [e, h.fL w.nL (Nat.le_refl _)] at hm; cases hm
    exact (put_ne _ _ this).trans hm
  exact
  { nets := fun n x hx => (h.nets n x hx).mono (fun l hl => ⟨l, key _ l hl, rfl, rfl, fun _ => rfl⟩) same_m (fun _ _ k => k) same_r (fun _ _ k => k)
    fL := fun i hi => (put_ne _ _ (by have : w.nL + 1 ≤ i := hi; omega)).trans (h.fL i (by have : w.nL + 1 ≤ i := hi; omega))
    fM := h.fM, fR := h.fR, fI := h.fI, fN := h.fN, passes := h.passes }

/-! ### The constructor -/

theorem makeMath_ok {w : World} (h : Inv w) (p : Option Nat) (hp : ∀ i, p = some i → MathLives w i) :
    ∃ a i, w.makeMath true p = (a, some i) ∧ Inv a ∧ MathLives a i ∧ (∀ j, MathLives w j → MathLives a j) ∧
      a.rngs = w.rngs ∧ a.insps = w.insps ∧ a.lays = w.lays := by
  cases p with
  | some i => exact ⟨w, i, rfl, h, hp i rfl, fun _ k => k, rfl, rfl, rfl⟩
  | none =>
    refine ⟨w.addMath (some w.nN), w.nM, rfl, h.addMath _, ⟨_, put_self _ _ _, rfl⟩, fun j ⟨m, m1, m2⟩ => ⟨m, ?_, m2⟩, rfl, rfl, rfl⟩
    have : j ≠ w.nM := fun e => by rw [e, h.fM w.nM (Nat.le_refl _)] at m1; cases m1
    exact (put_ne _ _ this).trans m1

theorem makeRng_ok {dbg mt : Bool} {w : World} (h : Inv w) (p : Option Nat) (hp : ∀ r, p = some r → ∃ g, w.rngs r = some g ∧ g.alive = true ∧ g.mt = mt ∧
      (mt = true → g.thr = none ∨ (dbg = false ∧ ∃ j, g.thr = some j ∧ MathLives w j))) :
    ∃ a r g, w.makeRng mt true p = (a, some r) ∧ Inv a ∧ a.rngs r = some g ∧ g.alive = true ∧ g.mt = mt ∧
      (mt = true → g.thr = none ∨ (dbg = false ∧ ∃ j, g.thr = some j ∧ MathLives w j)) ∧ a.maths = w.maths ∧ a.insps = w.insps ∧ a.lays = w.lays := by
  cases p with
  | some r =>
    obtain ⟨g, g1, g2, g3, g4⟩ := hp r rfl
    exact ⟨w, r, g, rfl, h, g1, g2, g3, g4, rfl, rfl, rfl⟩
  | none =>
    exact ⟨w.addRng mt none (some w.nN), w.nR, _, rfl, h.addRng _ _ _, put_self _ _ _, rfl, rfl, fun _ => Or.inl rfl, rfl, rfl, rfl⟩

theorem makeInsp_ok {w : World} (h : Inv w) (p : Option Nat) (hp : ∀ i, p = some i → InspLives w i) :
    ∃ a i, w.makeInsp true p = (a, some i) ∧ Inv a ∧ InspLives a i ∧ a.maths = w.maths ∧ a.rngs = w.rngs ∧ a.lays = w.lays := by
  cases p with
  | some i => exact ⟨w, i, rfl, h, hp i rfl, rfl, rfl, rfl⟩
  | none => exact ⟨w.addInsp (some w.nN), w.nI, rfl, h.addInsp _, ⟨_, put_self _ _ _, rfl⟩, rfl, rfl, rfl⟩

theorem attach_ok {dbg mt : Bool} {w : World} (h : Inv w) {i r : Nat} {g : RngO} (hi : MathLives w i) (hr : w.rngs r = some g) (ha : g.alive = true)
    (hg : g.mt = mt) (ht : mt = true → g.thr = none ∨ (dbg = false ∧ ∃ j, g.thr = some j ∧ MathLives w j)) :
    ∃ d g', w.attach dbg mt (some i) (some r) = .ok d ∧ Inv d ∧ d.rngs r = some g' ∧ g'.alive = true ∧
      (g'.mt = true → ∃ j, g'.thr = some j ∧ MathLives d j) ∧ d.maths = w.maths ∧ d.insps = w.insps ∧ d.lays = w.lays := by
  by_cases hm : mt = true
  · obtain ⟨m, m1, m2⟩ := hi
    unfold World.attach
    rw [if_pos hm, rngAt_ok hr ha, ok_bind, mathAt_ok m1 m2, ok_bind]
    rcases ht hm with h0 | ⟨hd, j, j1, j2⟩
    · have hn : ¬(g.thr.isSome = true) := by rw [h0]; nofun
      rw [if_neg hn]
      refine ⟨_, { g with thr := some i }, rfl, ?_, put_self _ _ _, ha, fun _ => ⟨i, rfl, m, m1, m2⟩, rfl, rfl, rfl⟩
      exact
      { nets := fun n x hx => (h.nets n x hx).mono same_l same_m (fun _ _ k => k) (fun q g' e1 e2 => by
          by_cases hq : q = r
          · subst hq
            rw [hr] at e2; cases e2
            obtain ⟨r', g', r1, r2, _, r4⟩ := (h.nets n x hx).rng
            rw [e1] at r1; cases r1
            rw [hr] at r2; cases r2
            obtain ⟨j, j1, _⟩ := r4 (hg.trans hm)
            rw [h0] at j1; cases j1
          · exact ⟨g', (put_ne _ _ hq).trans e2, rfl, rfl, fun _ => rfl⟩) (fun _ _ k => k)
        fM := h.fM, fI := h.fI, fL := h.fL, fN := h.fN, passes := h.passes
        fR := fun k hk => by
          have : k ≠ r := fun e => by rw [e] at hk; rw [h.fR r hk] at hr; cases hr
          exact (put_ne _ _ this).trans (h.fR k hk) }
    · have hs : g.thr.isSome = true := by rw [j1]; rfl
      have hd' : ¬(dbg = true) := by rw [hd]; nofun
      rw [if_pos hs, if_neg hd']
      exact ⟨w, g, rfl, h, hr, ha, fun _ => ⟨j, j1, j2⟩, rfl, rfl, rfl⟩
  · unfold World.attach
    rw [if_neg hm]
    exact ⟨w, g, rfl, h, hr, ha, fun e => absurd (hg.symm.trans e) hm, rfl, rfl, rfl⟩

theorem make_ok {dbg : Bool} {w : World} (h : Inv w) {lay : Nat} {pI pM pR : Option Nat} {mt : Bool} (hl : LayLives w lay)
    (hI : ∀ i, pI = some i → InspLives w i) (hM : ∀ i, pM = some i → MathLives w i)
    (hR : ∀ r, pR = some r → ∃ g, w.rngs r = some g ∧ g.alive = true ∧ g.mt = mt ∧
        (mt = true → g.thr = none ∨ (dbg = false ∧ ∃ j, g.thr = some j ∧ MathLives w j))) :
    ∃ w', make dbg w lay pI pM pR mt true true true = .ok w' ∧ Inv w' := by
  obtain ⟨a, i, ea, ha, hi, hmono, ar, ai, al⟩ := makeMath_ok h pM hM
  obtain ⟨b, r, g, eb, hb, br, bra, bmt, bthr, bm, bi, bl⟩ := makeRng_ok (dbg := dbg) (mt := mt) ha pR (fun r hr => by
    obtain ⟨g, g1, g2, g3, g4⟩ := hR r hr
    refine ⟨g, by rw [ar]; exact g1, g2, g3, fun e => ?_⟩
    rcases g4 e with k | ⟨k, j, j1, j2⟩
    · exact Or.inl k
    · exact Or.inr ⟨k, j, j1, hmono j j2⟩)
  obtain ⟨c, ii, ec, hc, hci, cm, cr, cl⟩ := makeInsp_ok hb pI (fun k hk => by
    obtain ⟨m, m1, m2⟩ := hI k hk
    exact ⟨m, by rw [bi, ai]; exact m1, m2⟩)
  have liftM : ∀ j, MathLives a j → MathLives c j := fun j ⟨m, m1, m2⟩ => ⟨m, by rw [cm, bm]; exact m1, m2⟩
  obtain ⟨d, g', ed, hd, dr, dra, dthr, dm, di, dl⟩ := attach_ok (dbg := dbg) hc (liftM i hi) (r := r) (g := g) (by rw [cr]; exact br) bra bmt (fun e => by
    rcases bthr e with k | ⟨k, j, j1, j2⟩
    · exact Or.inl k
    · exact Or.inr ⟨k, j, j1, liftM j j2⟩)
  have e : make dbg w lay pI pM pR mt true true true
      = .ok { d with nets := put d.nets d.nN ⟨true, lay, some i, some r, some ii, pM.isNone, pR.isNone, pI.isNone, false⟩, nN := d.nN + 1 } := by
    unfold make
    simp only [ea, eb, ec, Option.isNone_some, Bool.and_false, Bool.false_eq_true, if_false]
    rw [ed]; rfl
  refine ⟨_, e, ?_⟩
  have keep : ∀ n x, Lives d n x → put d.nets d.nN ⟨true, lay, some i, some r, some ii, pM.isNone, pR.isNone, pI.isNone, false⟩ n = some x := fun n x hx => by
    have : n ≠ d.nN := fun e => by have := hx.1; rw [e, hd.fN d.nN (Nat.le_refl _)] at this; cases this
    exact (put_ne _ _ this).trans hx.1
  exact
  { nets := fun n x hx => by
      by_cases hn : n = d.nN
      · subst hn
        have e1 := hx.1
        have e2 : some x = some _ := e1.symm.trans (put_self _ _ _)
        cases e2
        obtain ⟨l, l1, l2⟩ := hl
        obtain ⟨m, m1, m2⟩ := liftM i hi
        obtain ⟨q, q1, q2⟩ := hci
        exact
        { lay := ⟨l, by show d.lays lay = _; rw [dl, cl, bl, al]; exact l1, l2, nofun⟩
          math := ⟨i, m, rfl, by show d.maths i = _; rw [dm]; exact m1, m2, nofun⟩
          rng := ⟨r, g', rfl, dr, dra, dthr⟩
          insp := ⟨ii, rfl, q, by show d.insps ii = _; rw [di]; exact q1, q2⟩ }
      · have hx' : Lives d n x := ⟨(put_ne _ _ hn).symm.trans hx.1, hx.2⟩
        exact (hd.nets n x hx').mono same_l same_m (fun _ _ k => k) same_r (fun _ _ k => k)
    fM := hd.fM, fR := hd.fR, fI := hd.fI, fL := hd.fL, passes := hd.passes
    fN := fun k hk => (put_ne _ _ (by have : d.nN + 1 ≤ k := hk; omega)).trans (hd.fN k (by have : d.nN + 1 ≤ k := hk; omega)) }

/-! ### Initialisation -/

theorem deinit_ok {w : World} (h : Inv w) {n : Nat} {x : NetO} (hx : Lives w n x) (ha : Alone w n x) :
    ∃ w', deinit w n = .ok w' ∧ Inv w' ∧ Lives w' n { x with init := false } ∧ Alone w' n { x with init := false } ∧
      (∃ l, w'.lays x.lay = some l ∧ l.cd = none) := by
  have hn := h.nets n x hx
  obtain ⟨l, l1, l2, l3⟩ := hn.lay
  obtain ⟨i, m, m1, m2, m3, m4⟩ := hn.math
  obtain ⟨r, g, r1, r2, r3, r4⟩ := hn.rng
  have e : deinit w n = .ok { w with
      lays := put w.lays x.lay { l with cd := none }
      maths := put w.maths i { m with min := 0, stor := 0 }
      nets := put w.nets n { x with init := false } } := by
    unfold deinit
    rw [netAt_ok hx.1 hx.2, ok_bind, layAt_ok l1 l2, ok_bind, r1, rngAt_ok r2 r3, ok_bind, m1, mathAt_ok m2 m3, ok_bind]; rfl
  have lm : ∀ j, MathLives w j → ∃ m', put w.maths i { m with min := 0, stor := 0 } j = some m' ∧ m'.alive = true := fun j ⟨q, q1, q2⟩ => by
    by_cases hj : j = i
    · subst hj; exact ⟨_, put_self _ _ _, m3⟩
    · exact ⟨q, (put_ne _ _ hj).trans q1, q2⟩
  refine ⟨_, e, ?_, ⟨put_self _ _ _, hx.2⟩, ?_, ⟨_, put_self _ _ _, rfl⟩⟩
  · exact
    { nets := fun k y hy => by
        by_cases hk : k = n
        · subst hk
          have e2 : some y = some _ := hy.1.symm.trans (put_self _ _ _)
          cases e2
          exact
          { lay := ⟨_, put_self _ _ _, l2, nofun⟩
            math := ⟨i, _, m1, put_self _ _ _, m3, nofun⟩
            rng := ⟨r, g, r1, r2, r3, fun ht => by
              obtain ⟨j, j1, j2⟩ := r4 ht
              exact ⟨j, j1, lm j j2⟩⟩
            insp := hn.insp }
        · have hy' : Lives w k y := ⟨(put_ne _ _ hk).symm.trans hy.1, hy.2⟩
          have hal := ha k y hk hy'
          refine (h.nets k y hy').mono (fun l' hl' => ?_) (fun i' m' e1 e2 => ?_) (fun j _ hj => lm j hj) same_r (fun _ _ k => k)
          · by_cases hq : y.lay = x.lay
            · rw [hq, l1] at hl'; cases hl'
              refine ⟨_, (congrArg _ hq).trans (put_self _ _ _), rfl, rfl, fun hi => absurd hq (hal hi).1⟩
            · exact ⟨l', (put_ne _ _ hq).trans hl', rfl, rfl, fun _ => rfl⟩
          · by_cases hq : i' = i
            · subst hq
              rw [m2] at e2; cases e2
              exact ⟨_, put_self _ _ _, rfl, fun hi => absurd (e1.trans m1.symm) (hal hi).2⟩
            · exact ⟨m', (put_ne _ _ hq).trans e2, rfl, fun _ => ⟨Nat.le_refl _, id⟩⟩
      fR := h.fR, fI := h.fI, passes := h.passes
      fM := fun k hk => by
        have : k ≠ i := fun e => by rw [e] at hk; rw [h.fM i hk] at m2; cases m2
        exact (put_ne _ _ this).trans (h.fM k hk)
      fL := fun k hk => by
        have : k ≠ x.lay := fun e => by rw [e] at hk; rw [h.fL _ hk] at l1; cases l1
        exact (put_ne _ _ this).trans (h.fL k hk)
      fN := fun k hk => by
        have : k ≠ n := fun e => by have := hx.1; rw [e] at hk; rw [h.fN _ hk] at this; cases this
        exact (put_ne _ _ this).trans (h.fN k hk) }
  · intro k y hk hy hi
    exact ha k y hk ⟨(put_ne _ _ hk).symm.trans hy.1, hy.2⟩ hi

theorem fullInit_ok {dbg : Bool} {w : World} (h : Inv w) {n : Nat} {x : NetO} (hx : Lives w n x) (ha : Alone w n x)
    (hc : ∃ l, w.lays x.lay = some l ∧ l.cd = none) : ∃ w', fullInit dbg w n = .ok w' ∧ Inv w' ∧ Lives w' n { x with init := true } := by
  have hn := h.nets n x hx
  obtain ⟨l, l1, l2, _⟩ := hn.lay
  obtain ⟨i, m, m1, m2, m3, m4⟩ := hn.math
  obtain ⟨r, g, r1, r2, r3, r4⟩ := hn.rng
  obtain ⟨s, s1, t, t1, t2⟩ := hn.insp
  have l3 : l.cd = none := by
    obtain ⟨l', e1, e2⟩ := hc
    rw [l1] at e1; cases e1; exact e2
  have e : fullInit dbg w n = .ok { w with
      lays := put w.lays x.lay { l with cd := some n }
      maths := put w.maths i (initMath { m with min := max m.min l.req })
      nets := put w.nets n { x with init := true } } := by
    unfold fullInit
    rw [netAt_ok hx.1 hx.2, ok_bind, s1, inspAt_ok t1 t2, ok_bind, layAt_ok l1 l2, ok_bind, l3, m1, mathAt_ok m2 m3, r1, rngAt_ok r2 r3]
    simp only [Option.isSome_none, Bool.and_false, Bool.false_eq_true, if_false]
    rfl
  have lm : ∀ j, MathLives w j → ∃ m', put w.maths i (initMath { m with min := max m.min l.req }) j = some m' ∧ m'.alive = true := fun j ⟨q, q1, q2⟩ => by
    by_cases hj : j = i
    · subst hj; exact ⟨_, put_self _ _ _, m3⟩
    · exact ⟨q, (put_ne _ _ hj).trans q1, q2⟩
  refine ⟨_, e, ?_, ⟨put_self _ _ _, hx.2⟩⟩
  exact
    { nets := fun k y hy => by
        by_cases hk : k = n
        · subst hk
          have e2 : some y = some _ := hy.1.symm.trans (put_self _ _ _)
          cases e2
          exact
          { lay := ⟨_, put_self _ _ _, l2, fun _ => rfl⟩
            math := ⟨i, _, m1, put_self _ _ _, m3, fun _ l' hl' => by
              have e3 : some l' = some _ := hl'.symm.trans (put_self _ _ _)
              cases e3
              exact ⟨Nat.le_max_right _ _, Nat.le_max_right _ _⟩⟩
            rng := ⟨r, g, r1, r2, r3, fun ht => by
              obtain ⟨j, j1, j2⟩ := r4 ht
              exact ⟨j, j1, lm j j2⟩⟩
            insp := hn.insp }
        · have hy' : Lives w k y := ⟨(put_ne _ _ hk).symm.trans hy.1, hy.2⟩
          have hal := ha k y hk hy'
          refine (h.nets k y hy').mono (fun l' hl' => ?_) (fun i' m' e1 e2 => ?_) (fun j _ hj => lm j hj) same_r (fun _ _ k => k)
          · by_cases hq : y.lay = x.lay
            · rw [hq, l1] at hl'; cases hl'
              refine ⟨_, (congrArg _ hq).trans (put_self _ _ _), rfl, rfl, fun hi => absurd hq (hal hi).1⟩
            · exact ⟨l', (put_ne _ _ hq).trans hl', rfl, rfl, fun _ => rfl⟩
          · by_cases hq : i' = i
            · subst hq
              rw [m2] at e2; cases e2
              exact ⟨_, put_self _ _ _, rfl, fun hi => absurd (e1.trans m1.symm) (hal hi).2⟩
            · exact ⟨m', (put_ne _ _ hq).trans e2, rfl, fun _ => ⟨Nat.le_refl _, id⟩⟩
      fR := h.fR, fI := h.fI, passes := h.passes
      fM := fun k hk => by
        have : k ≠ i := fun e => by rw [e] at hk; rw [h.fM i hk] at m2; cases m2
        exact (put_ne _ _ this).trans (h.fM k hk)
      fL := fun k hk => by
        have : k ≠ x.lay := fun e => by rw [e] at hk; rw [h.fL _ hk] at l1; cases l1
        exact (put_ne _ _ this).trans (h.fL k hk)
      fN := fun k hk => by
        have : k ≠ n := fun e => by have := hx.1; rw [e] at hk; rw [h.fN _ hk] at this; cases this
        exact (put_ne _ _ this).trans (h.fN k hk) }

theorem initNet_ok {dbg : Bool} {w : World} (h : Inv w) {n : Nat} {x : NetO} {again : Bool} (hx : Lives w n x) (ha : x.init = false ∨ again = true → Alone w n x) :
    ∃ w', initNet dbg w n again = .ok w' ∧ Inv w' ∧ Lives w' n { x with init := true } := by
  unfold initNet
  rw [netAt_ok hx.1 hx.2, ok_bind]
  by_cases hd : (x.init && !again) = true
  · have hn := h.nets n x hx
    obtain ⟨i, m, m1, m2, m3, m4⟩ := hn.math
    obtain ⟨s, s1, t, t1, t2⟩ := hn.insp
    rw [if_pos hd, m1, mathAt_ok m2 m3, ok_bind, s1, inspAt_ok t1 t2, ok_bind]
    have hxi : x.init = true := by
      rw [Bool.and_eq_true] at hd; exact hd.1
    refine ⟨_, rfl, ?_, ⟨?_, hx.2⟩⟩
    · have lm : ∀ j, MathLives w j → ∃ m', put w.maths i (initMath m) j = some m' ∧ m'.alive = true := fun j ⟨q, q1, q2⟩ => by
        by_cases hj : j = i
        · subst hj; exact ⟨_, put_self _ _ _, m3⟩
        · exact ⟨q, (put_ne _ _ hj).trans q1, q2⟩
      exact
      { nets := fun k y hy => (h.nets k y hy).mono same_l (fun i' m' e1 e2 => by
          by_cases hq : i' = i
          · subst hq
            rw [m2] at e2; cases e2
            exact ⟨_, put_self _ _ _, rfl, fun _ => ⟨Nat.le_refl _, fun _ => Nat.le_max_right _ _⟩⟩
          · exact ⟨m', (put_ne _ _ hq).trans e2, rfl, fun _ => ⟨Nat.le_refl _, id⟩⟩) (fun j _ hj => lm j hj) same_r (fun _ _ k => k)
        fR := h.fR, fI := h.fI, passes := h.passes, fL := h.fL, fN := h.fN
        fM := fun k hk => by
          have : k ≠ i := fun e => by rw [e] at hk; rw [h.fM i hk] at m2; cases m2
          exact (put_ne _ _ this).trans (h.fM k hk) }
    · have : ({ x with init := true } : NetO) = x := by cases x; simp only at hxi; subst hxi; rfl
      rw [m1, s1] at this
      rw [this]; exact hx.1
  · have hal : Alone w n x := ha (by
      by_cases hi : x.init = true
      · by_cases hg : again = true
        · exact Or.inr hg
        · have : again = false := by simpa using hg
          exact absurd (by rw [hi, this]; rfl) hd
      · exact Or.inl (by simpa using hi))
    rw [if_neg hd]
    obtain ⟨u, hu, iu, lu, au, cu⟩ := deinit_ok h hx hal
    rw [hu, ok_bind]
    obtain ⟨v, hv, iv, lv⟩ := fullInit_ok (dbg := dbg) iu lu au cu
    exact ⟨v, hv, iv, lv⟩

theorem draw_ok {w : World} {r : Nat} {g : RngO} (h1 : w.rngs r = some g) (h2 : g.alive = true) (h3 : g.mt = true → ∃ j, g.thr = some j ∧ MathLives w j) :
    w.draw (some r) = .ok () := by
  unfold World.draw
  rw [rngAt_ok h1 h2, ok_bind]
  by_cases hm : g.mt = true
  · obtain ⟨j, j1, m, m1, m2⟩ := h3 hm
    rw [if_pos hm, j1, mathAt_ok m1 m2]; rfl
  · rw [if_neg hm]; rfl

theorem pass_ok {dbg : Bool} {w : World} (h : Inv w) {n : Nat} {x : NetO} {again : Bool} (hx : Lives w n x) (ha : x.init = false ∨ again = true → Alone w n x) :
    ∃ w', pass dbg w n again = .ok w' ∧ Inv w' ∧ Lives w' n { x with init := true } := by
  obtain ⟨u, hu, iu, lu⟩ := initNet_ok (dbg := dbg) h hx ha
  have hn := iu.nets n _ lu
  obtain ⟨l, l1, l2, l3⟩ := hn.lay
  obtain ⟨i, m, m1, m2, m3, m4⟩ := hn.math
  obtain ⟨r, g, r1, r2, r3, r4⟩ := hn.rng
  obtain ⟨s, s1, t, t1, t2⟩ := hn.insp
  have hmin : ¬(m.min < l.req) := Nat.not_lt.2 (m4 rfl l l1).1
  have hsm : ¬(m.stor < m.min) := Nat.not_lt.2 (m4 rfl l l1).2
  have hst : ¬(m.stor < l.req) := Nat.not_lt.2 (Nat.le_trans (m4 rfl l l1).1 (m4 rfl l l1).2)
  have e : pass dbg w n again = .ok { u with passes := (n, n) :: u.passes } := by
    unfold pass
    rw [hu, ok_bind, netAt_ok lu.1 lu.2, ok_bind, layAt_ok l1 l2, ok_bind, l3 rfl]
    simp only
    rw [netAt_ok lu.1 lu.2, ok_bind, m1, mathAt_ok m2 m3, ok_bind]
    simp only
    rw [if_neg (by rw [decide_eq_false hsm, Bool.and_false]; nofun), if_neg hmin, if_neg hst, s1, inspAt_ok t1 t2, ok_bind, r1, draw_ok r2 r3 r4, ok_bind]; rfl
  refine ⟨_, e, ?_, lu⟩
  exact
  { nets := fun k y hy => (iu.nets k y hy).mono same_l same_m (fun _ _ k => k) same_r (fun _ _ k => k)
    fM := iu.fM, fR := iu.fR, fI := iu.fI, fL := iu.fL, fN := iu.fN
    passes := fun p hp => by
      rcases List.mem_cons.1 hp with e | hp
      · rw [e]
      · exact iu.passes p hp }

/-- What a call that runs a network leaves alone. -/
structure Frame (w w' : World) (n : Nat) : Prop where
  rngs : w'.rngs = w.rngs
  insps : w'.insps = w.insps
  nets : ∀ k, k ≠ n → w'.nets k = w.nets k
  lays : ∀ i l, w.lays i = some l → ∃ l', w'.lays i = some l' ∧ l'.alive = l.alive

theorem Frame.trans {a b c : World} {n : Nat} (h : Frame a b n) (k : Frame b c n) : Frame a c n :=
  ⟨k.rngs.trans h.rngs, k.insps.trans h.insps, fun j hj => (k.nets j hj).trans (h.nets j hj), fun i l hl => by
    obtain ⟨l', e1, e2⟩ := h.lays i l hl
    obtain ⟨l'', d1, d2⟩ := k.lays i l' e1
    exact ⟨l'', d1, d2.trans e2⟩⟩

theorem put_lays {w : World} {j : Nat} {l : LayO} (hl : w.lays j = some l) (l0 : LayO) (h0 : l0.alive = l.alive) :
    ∀ i q, w.lays i = some q → ∃ l', put w.lays j l0 i = some l' ∧ l'.alive = q.alive := by
  intro i q hq
  by_cases hi : i = j
  · subst hi; rw [hl] at hq; cases hq
    exact ⟨l0, put_self _ _ _, h0⟩
  · exact ⟨q, (put_ne _ _ hi).trans hq, rfl⟩

theorem deinit_frame {w w' : World} {n : Nat} (h : deinit w n = .ok w') : Frame w w' n ∧ w'.passes = w.passes := by
  unfold deinit at h
  obtain ⟨x, hx, h⟩ := bind_ok' h
  obtain ⟨l, hl, h⟩ := bind_ok' h
  obtain ⟨r, hr, h⟩ := bind_ok' h
  obtain ⟨m, hm, h⟩ := bind_ok' h
  cases h
  exact ⟨⟨rfl, rfl, fun k hk => put_ne _ _ hk, put_lays (layAt_inv hl).1 _ rfl⟩, rfl⟩

theorem fullInit_frame {dbg : Bool} {w w' : World} {n : Nat} (h : fullInit dbg w n = .ok w') : Frame w w' n ∧ w'.passes = w.passes := by
  unfold fullInit at h
  obtain ⟨x, hx, h⟩ := bind_ok' h
  obtain ⟨_, _, h⟩ := bind_ok' h
  obtain ⟨l, hl, h⟩ := bind_ok' h
  by_cases hd : (dbg && l.cd.isSome) = true
  · rw [if_pos hd] at h; cases h
  · rw [if_neg hd] at h
    obtain ⟨m, hm, h⟩ := bind_ok' h
    obtain ⟨_, _, h⟩ := bind_ok' h
    cases h
    exact ⟨⟨rfl, rfl, fun k hk => put_ne _ _ hk, put_lays (layAt_inv hl).1 _ rfl⟩, rfl⟩

theorem initNet_frame {dbg : Bool} {w w' : World} {n : Nat} {again : Bool} (h : initNet dbg w n again = .ok w') : Frame w w' n ∧ w'.passes = w.passes := by
  unfold initNet at h
  obtain ⟨x, hx, h⟩ := bind_ok' h
  by_cases hd : (x.init && !again) = true
  · rw [if_pos hd] at h
    obtain ⟨m, hm, h⟩ := bind_ok' h
    obtain ⟨_, _, h⟩ := bind_ok' h
    cases h
    exact ⟨⟨rfl, rfl, fun _ _ => rfl, fun i l hl => ⟨l, hl, rfl⟩⟩, rfl⟩
  · rw [if_neg hd] at h
    obtain ⟨u, hu, h⟩ := bind_ok' h
    have a := deinit_frame hu
    have b := fullInit_frame h
    exact ⟨a.1.trans b.1, b.2.trans a.2⟩

theorem pass_frame {dbg : Bool} {w w' : World} {n : Nat} {again : Bool} (h : pass dbg w n again = .ok w') :
    Frame w w' n ∧ ∃ k, w'.passes = (n, k) :: w.passes := by
  unfold pass at h
  obtain ⟨u, hu, h⟩ := bind_ok' h
  obtain ⟨x, _, h⟩ := bind_ok' h
  obtain ⟨l, _, h⟩ := bind_ok' h
  have hv := initNet_frame hu
  cases hc : l.cd with
  | none =>
    rw [hc] at h
    by_cases hd : dbg = true
    · rw [if_pos hd] at h; cases h
    · rw [if_neg hd] at h; cases h
  | some k =>
    rw [hc] at h
    obtain ⟨y, _, h⟩ := bind_ok' h
    obtain ⟨m, _, h⟩ := bind_ok' h
    by_cases h0 : (dbg && decide (m.2.stor < m.2.min)) = true
    · rw [if_pos h0] at h; cases h
    rw [if_neg h0] at h
    by_cases hd : m.2.min < l.req
    · rw [if_pos hd] at h; cases h
    rw [if_neg hd] at h
    by_cases h2 : m.2.stor < l.req
    · rw [if_pos h2] at h; cases h
    · rw [if_neg h2] at h
      obtain ⟨_, _, h⟩ := bind_ok' h
      obtain ⟨_, _, h⟩ := bind_ok' h
      cases h
      exact ⟨⟨hv.1.rngs, hv.1.insps, hv.1.nets, hv.1.lays⟩, k, by show (n, k) :: u.passes = _; rw [hv.2]⟩

/-! ### Destruction -/

theorem delMath_ok {w : World} (h : Inv w) {i : Nat} (hi : MathLives w i) :
    ∃ w', w.deleteMath (some i) = .ok w' ∧ w' = { w with maths := w'.maths } ∧ (∀ j, j ≠ i → w'.maths j = w.maths j) ∧ ∀ k, w.nM ≤ k → w'.maths k = none := by
  obtain ⟨m, m1, m2⟩ := hi
  refine ⟨{ w with maths := put w.maths i { m with alive := false } }, ?_, rfl, fun j hj => put_ne _ _ hj, fun k hk => ?_⟩
  · show (w.mathAt (some i)).bind _ = _
    rw [mathAt_ok m1 m2]; rfl
  · have : k ≠ i := fun e => by rw [e] at hk; rw [h.fM i hk] at m1; cases m1
    exact (put_ne _ _ this).trans (h.fM k hk)

theorem delRng_ok {w : World} (hf : ∀ i, w.nR ≤ i → w.rngs i = none) {i : Nat} (hi : ∃ g, w.rngs i = some g ∧ g.alive = true) :
    ∃ w', w.deleteRng (some i) = .ok w' ∧ w' = { w with rngs := w'.rngs } ∧ (∀ j, j ≠ i → w'.rngs j = w.rngs j) ∧ ∀ k, w.nR ≤ k → w'.rngs k = none := by
  obtain ⟨m, m1, m2⟩ := hi
  refine ⟨{ w with rngs := put w.rngs i { m with alive := false } }, ?_, rfl, fun j hj => put_ne _ _ hj, fun k hk => ?_⟩
  · show (w.rngAt (some i)).bind _ = _
    rw [rngAt_ok m1 m2]; rfl
  · have : k ≠ i := fun e => by rw [e] at hk; rw [hf i hk] at m1; cases m1
    exact (put_ne _ _ this).trans (hf k hk)

theorem delInsp_ok {w : World} (hf : ∀ i, w.nI ≤ i → w.insps i = none) {i : Nat} (hi : InspLives w i) :
    ∃ w', w.deleteInsp (some i) = .ok w' ∧ w' = { w with insps := w'.insps } ∧ (∀ j, j ≠ i → w'.insps j = w.insps j) ∧
      ∀ k, w.nI ≤ k → w'.insps k = none := by
  obtain ⟨m, m1, m2⟩ := hi
  refine ⟨{ w with insps := put w.insps i { m with alive := false } }, ?_, rfl, fun j hj => put_ne _ _ hj, fun k hk => ?_⟩
  · show (w.inspAt (some i)).bind _ = _
    rw [inspAt_ok m1 m2]; rfl
  · have : k ≠ i := fun e => by rw [e] at hk; rw [hf i hk] at m1; cases m1
    exact (put_ne _ _ this).trans (hf k hk)

theorem destroy_ok {w : World} (h : Inv w) {n : Nat} {x : NetO} (hx : Lives w n x) (hc : ∀ k y, k ≠ n → Lives w k y →
      (x.ownM = true → y.math ≠ x.math ∧ ∀ j, x.math = some j → ¬DrawsWith w y j) ∧ (x.ownR = true → y.rng ≠ x.rng) ∧ (x.ownI = true → y.insp ≠ x.insp)) :
    ∃ w', destroy w n = .ok w' ∧ Inv w' := by
  have hn := h.nets n x hx
  obtain ⟨i, m, m1, m2, m3, m4⟩ := hn.math
  obtain ⟨r, g, r1, r2, r3, r4⟩ := hn.rng
  obtain ⟨s, s1, hs⟩ := hn.insp
  have A : ∃ a, (if x.ownM = true then w.deleteMath x.math else .ok w) = .ok a ∧ a = { w with maths := a.maths } ∧
      (∀ j, (x.ownM = true → j ≠ i) → a.maths j = w.maths j) ∧ ∀ k, w.nM ≤ k → a.maths k = none := by
    by_cases ho : x.ownM = true
    · obtain ⟨a, a1, a2, a3, a4⟩ := delMath_ok h ⟨m, m2, m3⟩
      exact ⟨a, by rw [if_pos ho, m1]; exact a1, a2, fun j hj => a3 j (hj ho), a4⟩
    · exact ⟨w, if_neg ho, rfl, fun _ _ => rfl, h.fM⟩
  obtain ⟨a, a1, a2, a3, a4⟩ := A
  have ar : a.rngs = w.rngs := by rw [a2]
  have anR : a.nR = w.nR := by rw [a2]
  have B : ∃ b, (if x.ownR = true then a.deleteRng x.rng else .ok a) = .ok b ∧ b = { a with rngs := b.rngs } ∧
      (∀ j, (x.ownR = true → j ≠ r) → b.rngs j = w.rngs j) ∧ ∀ k, w.nR ≤ k → b.rngs k = none := by
    by_cases ho : x.ownR = true
    · obtain ⟨b, b1, b2, b3, b4⟩ := delRng_ok (w := a) (by rw [ar, anR]; exact h.fR) (i := r) ⟨g, by rw [ar]; exact r2, r3⟩
      exact ⟨b, by rw [if_pos ho, r1]; exact b1, b2, fun j hj => by rw [b3 j (hj ho), ar], fun k hk => b4 k (by rw [anR]; exact hk)⟩
    · exact ⟨a, if_neg ho, rfl, fun _ _ => by rw [ar], fun k hk => by rw [ar]; exact h.fR k hk⟩
  obtain ⟨b, b1, b2, b3, b4⟩ := B
  have bi : b.insps = w.insps := by rw [b2, a2]
  have bnI : b.nI = w.nI := by rw [b2, a2]
  have C : ∃ c, (if x.ownI = true then b.deleteInsp x.insp else .ok b) = .ok c ∧ c = { b with insps := c.insps } ∧
      (∀ j, (x.ownI = true → j ≠ s) → c.insps j = w.insps j) ∧ ∀ k, w.nI ≤ k → c.insps k = none := by
    by_cases ho : x.ownI = true
    · obtain ⟨c, c1, c2, c3, c4⟩ := delInsp_ok (w := b) (by rw [bi, bnI]; exact h.fI) (i := s) (by
        obtain ⟨t, t1, t2⟩ := hs
        exact ⟨t, by rw [bi]; exact t1, t2⟩)
      exact ⟨c, by rw [if_pos ho, s1]; exact c1, c2, fun j hj => by rw [c3 j (hj ho), bi], fun k hk => c4 k (by rw [bnI]; exact hk)⟩
    · exact ⟨b, if_neg ho, rfl, fun _ _ => by rw [bi], fun k hk => by rw [bi]; exact h.fI k hk⟩
  obtain ⟨c, c1, c2, c3, c4⟩ := C
  have cm : c.maths = a.maths := by rw [c2, b2]
  have cr : c.rngs = b.rngs := by rw [c2]
  have cl : c.lays = w.lays := by rw [c2, b2, a2]
  have cn : c.nets = w.nets := by rw [c2, b2, a2]
  have e : destroy w n = .ok { c with nets := put c.nets n { x with alive := false } } := by
    unfold destroy
    rw [netAt_ok hx.1 hx.2, ok_bind', a1, ok_bind', b1, ok_bind', c1, ok_bind']
  refine ⟨_, e, ?_⟩
  exact
  { nets := fun k y hy => by
      have hk : k ≠ n := fun ek => by
        subst ek
        have e2 : some y = some _ := hy.1.symm.trans (put_self _ _ _)
        cases e2
        exact absurd hy.2 nofun
      have hy' : Lives w k y := ⟨by rw [← cn]; exact (put_ne _ _ hk).symm.trans hy.1, hy.2⟩
      obtain ⟨q1, q2, q3⟩ := hc k y hk hy'
      refine (h.nets k y hy').mono (fun l hl => ⟨l, ?_, rfl, rfl, fun _ => rfl⟩) (fun i' m' e1 e2 => ⟨m', ?_, rfl, fun _ => ⟨Nat.le_refl _, id⟩⟩)
        (fun j hj ⟨q, d1, d2⟩ => ⟨q, ?_, d2⟩) (fun r' g' e1 e2 => ⟨g', ?_, rfl, rfl, fun _ => rfl⟩) (fun i' e1 ⟨q, d1, d2⟩ => ⟨q, ?_, d2⟩)
      · show c.lays _ = _; rw [cl]; exact hl
      · show c.maths _ = _; rw [cm, a3 i' (fun ho ei => (q1 ho).1 (by rw [e1, m1, ei]))]; exact e2
      · show c.maths _ = _; rw [cm, a3 j (fun ho ei => (q1 ho).2 i m1 (by rw [← ei]; exact hj))]; exact d1
      · show c.rngs _ = _; rw [cr, b3 r' (fun ho ei => (q2 ho) (by rw [e1, r1, ei]))]; exact e2
      · show c.insps _ = _; rw [c3 i' (fun ho ei => (q3 ho) (by rw [e1, s1, ei]))]; exact d1
    fM := fun k hk => by
      show c.maths k = none; rw [cm]; exact a4 k (by have : c.nM ≤ k := hk; rw [c2, b2, a2] at this; exact this)
    fR := fun k hk => by
      show c.rngs k = none; rw [cr]; exact b4 k (by have : c.nR ≤ k := hk; rw [c2, b2, a2] at this; exact this)
    fI := fun k hk => c4 k (by have : c.nI ≤ k := hk; rw [c2, b2, a2] at this; exact this)
    fL := fun k hk => by
      show c.lays k = none; rw [cl]; exact h.fL k (by have : c.nL ≤ k := hk; rw [c2, b2, a2] at this; exact this)
    fN := fun k hk => by
      have hk' : w.nN ≤ k := by have : c.nN ≤ k := hk; rw [c2, b2, a2] at this; exact this
      have : k ≠ n := fun e => by have := hx.1; rw [e] at hk'; rw [h.fN _ hk'] at this; cases this
      exact (put_ne _ _ this).trans (by rw [cn]; exact h.fN k hk')
    passes := fun p hp => h.passes p (by have : p ∈ c.passes := hp; rw [c2, b2, a2] at this; exact this) }

theorem step_ok {dbg : Bool} {w : World} (h : Inv w) {o : Op} (hc : Careful dbg w o) : ∃ w', step dbg w o = .ok w' ∧ Inv w' := by
  cases o with
  | newMath => exact ⟨_, rfl, h.addMath _⟩
  | newInsp => exact ⟨_, rfl, h.addInsp _⟩
  | newLay req => exact ⟨_, rfl, h.addLay req⟩
  | newRng mt thr =>
    cases thr with
    | none => exact ⟨_, rfl, h.addRng _ _ _⟩
    | some i =>
      obtain ⟨m, m1, m2⟩ := hc i rfl
      refine ⟨_, ?_, h.addRng mt (some i) none⟩
      show (w.mathAt (some i)).bind _ = _
      rw [mathAt_ok m1 m2]; rfl
  | make lay pI pM pR mt okM okR okI =>
    obtain ⟨e1, e2, e3, hl, hI, hM, hR⟩ := hc
    subst e1; subst e2; subst e3
    exact make_ok h hl hI hM hR
  | pass n again =>
    obtain ⟨x, hx, ha⟩ := hc
    obtain ⟨w', h1, h2, _⟩ := pass_ok h hx ha
    exact ⟨w', h1, h2⟩
  | deinit n =>
    obtain ⟨x, hx, ha⟩ := hc
    obtain ⟨w', h1, h2, _⟩ := deinit_ok h hx ha
    exact ⟨w', h1, h2⟩
  | destroy n =>
    obtain ⟨x, hx, ha⟩ := hc
    exact destroy_ok h hx ha
  | copy n => exact hc.elim
  | draw r =>
    obtain ⟨g, g1, g2, g3⟩ := hc
    refine ⟨w, ?_, h⟩
    show (w.draw (some r)).bind _ = _
    rw [draw_ok g1 g2 g3]; rfl
  | delMath i =>
    obtain ⟨hi, hn⟩ := hc
    obtain ⟨a, a1, a2, a3, a4⟩ := delMath_ok h hi
    refine ⟨a, a1, ?_⟩
    rw [a2]
    exact
    { nets := fun k y hy => by
        obtain ⟨q1, q2⟩ := hn k y hy
        refine (h.nets k y hy).mono same_l (fun i' m' e1 e2 => ⟨m', ?_, rfl, fun _ => ⟨Nat.le_refl _, id⟩⟩) (fun j hj ⟨q, d1, d2⟩ => ⟨q, ?_, d2⟩) same_r (fun _ _ k => k)
        · show a.maths _ = _; rw [a3 i' (fun ei => q1 (by rw [e1, ei]))]; exact e2
        · show a.maths _ = _; rw [a3 j (fun ei => q2 (by rw [← ei]; exact hj))]; exact d1
      fM := a4, fR := h.fR, fI := h.fI, fL := h.fL, fN := h.fN, passes := h.passes }
  | delRng i =>
    obtain ⟨hi, hn⟩ := hc
    obtain ⟨a, a1, a2, a3, a4⟩ := delRng_ok h.fR hi
    refine ⟨a, a1, ?_⟩
    rw [a2]
    exact
    { nets := fun k y hy => by
        refine (h.nets k y hy).mono same_l same_m (fun _ _ k => k) (fun r' g' e1 e2 => ⟨g', ?_, rfl, rfl, fun _ => rfl⟩) (fun _ _ k => k)
        show a.rngs _ = _; rw [a3 r' (fun ei => hn k y hy (by rw [e1, ei]))]; exact e2
      fM := h.fM, fR := a4, fI := h.fI, fL := h.fL, fN := h.fN, passes := h.passes }
  | delInsp i =>
    obtain ⟨hi, hn⟩ := hc
    obtain ⟨a, a1, a2, a3, a4⟩ := delInsp_ok h.fI hi
    refine ⟨a, a1, ?_⟩
    rw [a2]
    exact
    { nets := fun k y hy => by
        refine (h.nets k y hy).mono same_l same_m (fun _ _ k => k) same_r (fun i' e1 ⟨q, d1, d2⟩ => ⟨q, ?_, d2⟩)
        show a.insps _ = _; rw [a3 i' (fun ei => hn k y hy (by rw [e1, ei]))]; exact d1
      fM := h.fM, fR := h.fR, fI := a4, fL := h.fL, fN := h.fN, passes := h.passes }
  | delLay i =>
    obtain ⟨⟨l, l1, l2⟩, hn⟩ := hc
    refine ⟨{ w with lays := put w.lays i { l with alive := false } }, ?_, ?_⟩
    · show (w.layAt i).bind _ = _
      rw [layAt_ok l1 l2]; rfl
    · exact
      { nets := fun k y hy => (h.nets k y hy).mono (fun l' hl' => ⟨l', (put_ne _ _ (hn k y hy)).trans hl', rfl, rfl, fun _ => rfl⟩) same_m (fun _ _ k => k) same_r
          (fun _ _ k => k)
        fM := h.fM, fR := h.fR, fI := h.fI, fN := h.fN, passes := h.passes
        fL := fun k hk => by
          have : k ≠ i := fun e => by rw [e] at hk; rw [h.fL i hk] at l1; cases l1
          exact (put_ne _ _ this).trans (h.fL k hk) }

theorem Inv.empty : Inv World.empty :=
  ⟨fun n x h => (by cases h.1), fun _ _ => rfl, fun _ _ => rfl, fun _ _ => rfl, fun _ _ => rfl, fun _ _ => rfl, fun p h => (by cases h)⟩

theorem run_ok {dbg : Bool} : ∀ {ops : List Op} {w : World}, Inv w → AllCareful dbg ops w → ∃ w', run dbg ops w = .ok w' ∧ Inv w'
  | [], w, h, _ => ⟨w, rfl, h⟩
  | o :: os, w, h, hc => by
    obtain ⟨u, hu, iu⟩ := step_ok h hc.1
    obtain ⟨v, hv, iv⟩ := run_ok iu (hc.2 u hu)
    refine ⟨v, ?_, iv⟩
    show (step dbg w o).bind _ = _
    rw [hu]; exact hv

end Nntl.Life
