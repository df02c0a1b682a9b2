import Verif.Life.OwnInv
/-! The invariant of ownership holds in every run without copies. -/
namespace Nntl.Life

def fM (w : World) : Objs := fun i => (w.maths i).map fun m => (m.alive, m.by_)
def fR (w : World) : Objs := fun i => (w.rngs i).map fun m => (m.alive, m.by_)
def fI (w : World) : Objs := fun i => (w.insps i).map fun m => (m.alive, m.by_)
def gM (w : World) : Owners := fun n => (w.nets n).map fun x => (x.alive, own x.ownM x.math)
def gR (w : World) : Owners := fun n => (w.nets n).map fun x => (x.alive, own x.ownR x.rng)
def gI (w : World) : Owners := fun n => (w.nets n).map fun x => (x.alive, own x.ownI x.insp)

structure OwnInv (w : World) (ops : List Op) : Prop where
  m : KInv (fM w) (gM w) w.nM w.nN (fun i => Op.delMath i ∈ ops)
  r : KInv (fR w) (gR w) w.nR w.nN (fun i => Op.delRng i ∈ ops)
  i : KInv (fI w) (gI w) w.nI w.nN (fun i => Op.delInsp i ∈ ops)

theorem map_put {α β : Type} (f : Nat → Option α) (i : Nat) (x : α) (t : α → β) :
    (fun j => (put f i x j).map t) = put (fun j => (f j).map t) i (t x) := by
  funext j
  unfold put
  by_cases hj : j = i
  · rw [if_pos hj, if_pos hj]; rfl
  · rw [if_neg hj, if_neg hj]

theorem OwnInv.of_view {w w' : World} {ops : List Op} (h : OwnInv w ops) (hv : view w' = view w ∧ w'.nN = w.nN ∧ w'.nM = w.nM ∧ w'.nR = w.nR ∧ w'.nI = w.nI) :
    OwnInv w' ops := by
  obtain ⟨v, e1, e2, e3, e4⟩ := hv
  have a1 : fM w' = fM w := congrArg View.m v
  have a2 : fR w' = fR w := congrArg View.r v
  have a3 : fI w' = fI w := congrArg View.i v
  have a4 : ∀ n, (view w').n n = (view w).n n := fun n => congrFun (congrArg View.n v) n
  have b1 : gM w' = gM w := by
    funext n
    have := congrArg (Option.map fun t => (t.1, t.2.1)) (a4 n)
    simp only [view, Option.map_map] at this
    exact this
  have b2 : gR w' = gR w := by
    funext n
    have := congrArg (Option.map fun t => (t.1, t.2.2.1)) (a4 n)
    simp only [view, Option.map_map] at this
    exact this
  have b3 : gI w' = gI w := by
    funext n
    have := congrArg (Option.map fun t => (t.1, t.2.2.2)) (a4 n)
    simp only [view, Option.map_map] at this
    exact this
  exact ⟨by rw [a1, b1, e1, e2]; exact h.m, by rw [a2, b2, e1, e3]; exact h.r, by rw [a3, b3, e1, e4]; exact h.i⟩

/-- An action that destroys no object of the user. -/
def NoDel (o : Op) : Prop := (∀ i, o ≠ .delMath i) ∧ (∀ i, o ≠ .delRng i) ∧ ∀ i, o ≠ .delInsp i

theorem OwnInv.snoc {w : World} {ops : List Op} {o : Op} (h : OwnInv w ops) (ho : NoDel o) : OwnInv w (ops ++ [o]) :=
  ⟨h.m.congr fun i => by simp [List.mem_append, Ne.symm (ho.1 i)],
    h.r.congr fun i => by simp [List.mem_append, Ne.symm (ho.2.1 i)],
    h.i.congr fun i => by simp [List.mem_append, Ne.symm (ho.2.2 i)]⟩

/-- The three places where a network gets an object. -/
theorem KInv.make {f f' : Objs} {g g' : Owners} {cnt cnt' nN : Nat} {del : Nat → Prop} (h : KInv f g cnt nN del) (p q : Option Nat)
    (hg : g' = put g nN (true, own p.isNone q)) (hf : (p.isNone = true → (q = none ∧ f' = f ∧ cnt' = cnt) ∨
      (q = some cnt ∧ f' = put f cnt (true, some nN) ∧ cnt' = cnt + 1)) ∧ (p.isNone = false → f' = f ∧ cnt' = cnt)) : KInv f' g' cnt' (nN + 1) del := by
  rw [hg]
  by_cases hp : p.isNone = true
  · rcases hf.1 hp with ⟨hq, e1, e2⟩ | ⟨hq, e1, e2⟩
    · rw [e1, e2]
      exact h.addNet _ (fun i e => by rw [hp, hq] at e; cases e)
    · rw [e1, e2, hp, hq]
      exact h.addOwn
  · have hp' : p.isNone = false := Bool.eq_false_iff.2 hp
    obtain ⟨e1, e2⟩ := hf.2 hp'
    rw [e1, e2, hp']
    exact h.addNet _ (fun i e => by cases e)

theorem makeMath_eff (w : World) (ok : Bool) (p : Option Nat) :
    (w.makeMath ok p).1 = { w with maths := (w.makeMath ok p).1.maths, nM := (w.makeMath ok p).1.nM } ∧
      (p.isNone = true → ((w.makeMath ok p).2 = none ∧ fM (w.makeMath ok p).1 = fM w ∧ (w.makeMath ok p).1.nM = w.nM) ∨
        ((w.makeMath ok p).2 = some w.nM ∧ fM (w.makeMath ok p).1 = put (fM w) w.nM (true, some w.nN) ∧ (w.makeMath ok p).1.nM = w.nM + 1)) ∧
      (p.isNone = false → fM (w.makeMath ok p).1 = fM w ∧ (w.makeMath ok p).1.nM = w.nM) := by
  cases p with
  | some i => exact ⟨rfl, fun h => (by cases h), fun _ => ⟨rfl, rfl⟩⟩
  | none =>
    cases ok with
    | true => exact ⟨rfl, fun _ => Or.inr ⟨rfl, map_put _ _ _ _, rfl⟩, fun h => by cases h⟩
    | false => exact ⟨rfl, fun _ => Or.inl ⟨rfl, rfl, rfl⟩, fun h => by cases h⟩

theorem makeRng_eff (w : World) (mt ok : Bool) (p : Option Nat) :
    (w.makeRng mt ok p).1 = { w with rngs := (w.makeRng mt ok p).1.rngs, nR := (w.makeRng mt ok p).1.nR } ∧
      (p.isNone = true → ((w.makeRng mt ok p).2 = none ∧ fR (w.makeRng mt ok p).1 = fR w ∧ (w.makeRng mt ok p).1.nR = w.nR) ∨
        ((w.makeRng mt ok p).2 = some w.nR ∧ fR (w.makeRng mt ok p).1 = put (fR w) w.nR (true, some w.nN) ∧ (w.makeRng mt ok p).1.nR = w.nR + 1)) ∧
      (p.isNone = false → fR (w.makeRng mt ok p).1 = fR w ∧ (w.makeRng mt ok p).1.nR = w.nR) := by
  cases p with
  | some i => exact ⟨rfl, fun h => (by cases h), fun _ => ⟨rfl, rfl⟩⟩
  | none =>
    cases ok with
    | true => exact ⟨rfl, fun _ => Or.inr ⟨rfl, map_put _ _ _ _, rfl⟩, fun h => by cases h⟩
    | false => exact ⟨rfl, fun _ => Or.inl ⟨rfl, rfl, rfl⟩, fun h => by cases h⟩

theorem makeInsp_eff (w : World) (ok : Bool) (p : Option Nat) :
    (w.makeInsp ok p).1 = { w with insps := (w.makeInsp ok p).1.insps, nI := (w.makeInsp ok p).1.nI } ∧
      (p.isNone = true → ((w.makeInsp ok p).2 = none ∧ fI (w.makeInsp ok p).1 = fI w ∧ (w.makeInsp ok p).1.nI = w.nI) ∨
        ((w.makeInsp ok p).2 = some w.nI ∧ fI (w.makeInsp ok p).1 = put (fI w) w.nI (true, some w.nN) ∧ (w.makeInsp ok p).1.nI = w.nI + 1)) ∧
      (p.isNone = false → fI (w.makeInsp ok p).1 = fI w ∧ (w.makeInsp ok p).1.nI = w.nI) := by
  cases p with
  | some i => exact ⟨rfl, fun h => (by cases h), fun _ => ⟨rfl, rfl⟩⟩
  | none =>
    cases ok with
    | true => exact ⟨rfl, fun _ => Or.inr ⟨rfl, map_put _ _ _ _, rfl⟩, fun h => by cases h⟩
    | false => exact ⟨rfl, fun _ => Or.inl ⟨rfl, rfl, rfl⟩, fun h => by cases h⟩

theorem make_inv {dbg : Bool} {w w' : World} {lay : Nat} {pI pM pR : Option Nat} {mt okM okR okI : Bool} (h : make dbg w lay pI pM pR mt okM okR okI = .ok w') :
    ∃ a1 a2 b1 b2 c1 c2 d, w.makeMath okM pM = (a1, a2) ∧ a1.makeRng mt okR pR = (b1, b2) ∧ b1.makeInsp okI pI = (c1, c2) ∧
      c1.attach dbg mt a2 b2 = .ok d ∧
      w' = { d with nets := put d.nets d.nN ⟨true, lay, a2, b2, c2, pM.isNone, pR.isNone, pI.isNone, false⟩, nN := d.nN + 1 } := by
  unfold make at h
  simp only at h
  by_cases h1 : (dbg && (w.makeMath okM pM).2.isNone) = true
  · rw [if_pos h1] at h; cases h
  · rw [if_neg h1] at h
    by_cases h2 : (dbg && ((w.makeMath okM pM).1.makeRng mt okR pR).2.isNone) = true
    · rw [if_pos h2] at h; cases h
    · rw [if_neg h2] at h
      by_cases h3 : (dbg && (((w.makeMath okM pM).1.makeRng mt okR pR).1.makeInsp okI pI).2.isNone) = true
      · rw [if_pos h3] at h; cases h
      · rw [if_neg h3] at h
        obtain ⟨d, hd, h⟩ := bind_ok' h
        cases h
        exact ⟨_, _, _, _, _, _, d, rfl, rfl, rfl, hd, rfl⟩

theorem OwnInv.make {dbg : Bool} {w w' : World} {ops : List Op} {lay : Nat} {pI pM pR : Option Nat} {mt okM okR okI : Bool} (h : OwnInv w ops)
    (hs : make dbg w lay pI pM pR mt okM okR okI = .ok w') : OwnInv w' ops := by
  obtain ⟨a1, a2, b1, b2, c1, c2, d, ea, eb, ec, ed, e⟩ := make_inv hs
  have ha := makeMath_eff w okM pM
  rw [ea] at ha
  simp only at ha
  have hb := makeRng_eff a1 mt okR pR
  rw [eb] at hb
  simp only at hb
  have hc := makeInsp_eff b1 okI pI
  rw [ec] at hc
  simp only at hc
  obtain ⟨v, n1, n2, n3, n4⟩ := attach_view ed
  have hN : d.nN = w.nN := by rw [n1, hc.1, hb.1, ha.1]
  have hnets : view d = view c1 := v
  have gN : ∀ n, (view d).n n = (view w).n n := by
    intro n
    rw [v, hc.1, hb.1, ha.1]; rfl
  have kM : gM d = gM w := by
    funext n
    have := congrArg (Option.map fun t => (t.1, t.2.1)) (gN n)
    simp only [view, Option.map_map] at this
    exact this
  have kR : gR d = gR w := by
    funext n
    have := congrArg (Option.map fun t => (t.1, t.2.2.1)) (gN n)
    simp only [view, Option.map_map] at this
    exact this
  have kI : gI d = gI w := by
    funext n
    have := congrArg (Option.map fun t => (t.1, t.2.2.2)) (gN n)
    simp only [view, Option.map_map] at this
    exact this
  have fMd : fM d = fM a1 := by
    have e1 : fM d = fM c1 := congrArg View.m v
    rw [e1, hc.1, hb.1]; rfl
  have fRd : fR d = fR b1 := by
    have e1 : fR d = fR c1 := congrArg View.r v
    rw [e1, hc.1]; rfl
  have fId : fI d = fI c1 := congrArg View.i v
  have nMd : d.nM = a1.nM := by rw [n2, hc.1, hb.1]
  have nRd : d.nR = b1.nR := by rw [n3, hc.1]
  have nId : d.nI = c1.nI := n4
  have fRa : fR a1 = fR w := by rw [ha.1]; rfl
  have nRa : a1.nR = w.nR := by rw [ha.1]
  have nNa : a1.nN = w.nN := by rw [ha.1]
  have fIb : fI b1 = fI w := by rw [hb.1, ha.1]; rfl
  have nIb : b1.nI = w.nI := by rw [hb.1, ha.1]
  have nNb : b1.nN = w.nN := by rw [hb.1, ha.1]
  rw [fRa, nRa, nNa] at hb
  rw [fIb, nIb, nNb] at hc
  subst e
  refine ⟨?_, ?_, ?_⟩
  · show KInv (fM d) (fun n => (put d.nets d.nN _ n).map _) d.nM (d.nN + 1) _
    rw [map_put, hN]
    exact h.m.make pM a2 (by rw [← kM]; rfl) (by rw [fMd, nMd]; exact ha.2)
  · show KInv (fR d) (fun n => (put d.nets d.nN _ n).map _) d.nR (d.nN + 1) _
    rw [map_put, hN]
    exact h.r.make pR b2 (by rw [← kR]; rfl) (by rw [fRd, nRd]; exact hb.2)
  · show KInv (fI d) (fun n => (put d.nets d.nN _ n).map _) d.nI (d.nN + 1) _
    rw [map_put, hN]
    exact h.i.make pI c2 (by rw [← kI]; rfl) (by rw [fId, nId]; exact hc.2)

/-- What the destructor does to the objects of one kind. -/
theorem KInv.drop {f f' : Objs} {g : Owners} {cnt nN : Nat} {del : Nat → Prop} (h : KInv f g cnt nN del) {n : Nat} {b : Bool} {p : Option Nat}
    (hn : g n = some (true, own b p)) (hf : (b = false ∨ p = none → f' = f) ∧
      (∀ i, b = true → p = some i → ∃ o, f i = some (true, o) ∧ f' = put f i (false, o))) : KInv f' (put g n (false, own b p)) cnt nN del := by
  by_cases hb : b = true
  · cases p with
    | none =>
      rw [hf.1 (Or.inr rfl)]
      exact h.dropNet hn (fun i e => by rw [hb] at e; cases e)
    | some i =>
      obtain ⟨o, h1, h2⟩ := hf.2 i hb rfl
      rw [h2]
      rw [hb] at hn ⊢
      exact h.dropOwn hn h1
  · have hb' : b = false := by simpa using hb
    rw [hf.1 (Or.inl hb')]
    exact h.dropNet hn (fun i e => by rw [hb'] at e; cases e)

theorem deleteMath_eff {w a : World} {b : Bool} {p : Option Nat} (h : (if b = true then w.deleteMath p else .ok w) = .ok a) :
    a = { w with maths := a.maths } ∧ (b = false ∨ p = none → fM a = fM w) ∧
      (∀ i, b = true → p = some i → ∃ o, fM w i = some (true, o) ∧ fM a = put (fM w) i (false, o)) := by
  by_cases hb : b = true
  · rw [if_pos hb] at h
    cases p with
    | none => cases h; exact ⟨rfl, fun _ => rfl, fun i _ e => by cases e⟩
    | some i =>
      obtain ⟨m, hm, h⟩ := bind_ok h
      cases h
      obtain ⟨e1, e2, e3⟩ := mathAt_inv hm
      cases e1
      refine ⟨rfl, fun k => ?_, fun j _ e => ?_⟩
      · rcases k with k | k
        · rw [hb] at k; cases k
        · cases k
      · cases e
        exact ⟨m.2.by_, by show Option.map _ _ = _; rw [e2, ← e3]; rfl, map_put _ _ _ _⟩
  · rw [if_neg hb] at h
    cases h
    exact ⟨rfl, fun _ => rfl, fun i e => absurd e hb⟩

theorem deleteRng_eff {w a : World} {b : Bool} {p : Option Nat} (h : (if b = true then w.deleteRng p else .ok w) = .ok a) :
    a = { w with rngs := a.rngs } ∧ (b = false ∨ p = none → fR a = fR w) ∧
      (∀ i, b = true → p = some i → ∃ o, fR w i = some (true, o) ∧ fR a = put (fR w) i (false, o)) := by
  by_cases hb : b = true
  · rw [if_pos hb] at h
    cases p with
    | none => cases h; exact ⟨rfl, fun _ => rfl, fun i _ e => by cases e⟩
    | some i =>
      obtain ⟨m, hm, h⟩ := bind_ok h
      cases h
      obtain ⟨e1, e2, e3⟩ := rngAt_inv hm
      cases e1
      refine ⟨rfl, fun k => ?_, fun j _ e => ?_⟩
      · rcases k with k | k
        · rw [hb] at k; cases k
        · cases k
      · cases e
        exact ⟨m.2.by_, by show Option.map _ _ = _; rw [e2, ← e3]; rfl, map_put _ _ _ _⟩
  · rw [if_neg hb] at h
    cases h
    exact ⟨rfl, fun _ => rfl, fun i e => absurd e hb⟩

theorem deleteInsp_eff {w a : World} {b : Bool} {p : Option Nat} (h : (if b = true then w.deleteInsp p else .ok w) = .ok a) :
    a = { w with insps := a.insps } ∧ (b = false ∨ p = none → fI a = fI w) ∧
      (∀ i, b = true → p = some i → ∃ o, fI w i = some (true, o) ∧ fI a = put (fI w) i (false, o)) := by
  by_cases hb : b = true
  · rw [if_pos hb] at h
    cases p with
    | none => cases h; exact ⟨rfl, fun _ => rfl, fun i _ e => by cases e⟩
    | some i =>
      obtain ⟨m, hm, h⟩ := bind_ok h
      cases h
      obtain ⟨e1, e2, e3⟩ := inspAt_inv hm
      cases e1
      refine ⟨rfl, fun k => ?_, fun j _ e => ?_⟩
      · rcases k with k | k
        · rw [hb] at k; cases k
        · cases k
      · cases e
        exact ⟨m.2.by_, by show Option.map _ _ = _; rw [e2, ← e3]; rfl, map_put _ _ _ _⟩
  · rw [if_neg hb] at h
    cases h
    exact ⟨rfl, fun _ => rfl, fun i e => absurd e hb⟩

theorem OwnInv.destroy {w w' : World} {ops : List Op} {n : Nat} (h : OwnInv w ops) (hs : destroy w n = .ok w') : OwnInv w' ops := by
  unfold Life.destroy at hs
  obtain ⟨x, hx, hs⟩ := bind_ok hs
  obtain ⟨a, ha, hs⟩ := bind_ok hs
  obtain ⟨b, hb, hs⟩ := bind_ok hs
  obtain ⟨c, hc, hs⟩ := bind_ok hs
  cases hs
  obtain ⟨x1, x2⟩ := netAt_inv hx
  have ha := deleteMath_eff ha
  have hb := deleteRng_eff hb
  have hc := deleteInsp_eff hc
  have fRa : fR a = fR w := by rw [ha.1]; rfl
  have fIb : fI b = fI w := by rw [hb.1, ha.1]; rfl
  rw [fRa] at hb
  rw [fIb] at hc
  have fMc : fM c = fM a := by rw [hc.1, hb.1]; rfl
  have fRc : fR c = fR b := by rw [hc.1]; rfl
  have nets : c.nets = w.nets := by rw [hc.1, hb.1, ha.1]
  have nM : c.nM = w.nM := by rw [hc.1, hb.1, ha.1]
  have nR : c.nR = w.nR := by rw [hc.1, hb.1, ha.1]
  have nI : c.nI = w.nI := by rw [hc.1, hb.1, ha.1]
  have nN : c.nN = w.nN := by rw [hc.1, hb.1, ha.1]
  refine ⟨?_, ?_, ?_⟩
  · show KInv (fM c) (fun k => (put c.nets n _ k).map _) c.nM c.nN _
    rw [map_put, nets, nM, nN, fMc]
    exact h.m.drop (b := x.ownM) (p := x.math) (by show Option.map _ _ = _; rw [x1, ← x2]; rfl) ha.2
  · show KInv (fR c) (fun k => (put c.nets n _ k).map _) c.nR c.nN _
    rw [map_put, nets, nR, nN, fRc]
    exact h.r.drop (b := x.ownR) (p := x.rng) (by show Option.map _ _ = _; rw [x1, ← x2]; rfl) hb.2
  · show KInv (fI c) (fun k => (put c.nets n _ k).map _) c.nI c.nN _
    rw [map_put, nets, nI, nN]
    exact h.i.drop (b := x.ownI) (p := x.insp) (by show Option.map _ _ = _; rw [x1, ← x2]; rfl) hc.2

theorem OwnInv.step {dbg : Bool} {w w' : World} {ops : List Op} {o : Op} (h : OwnInv w ops) (ho : ∀ n, o ≠ .copy n) (hs : step dbg w o = .ok w') :
    OwnInv w' (ops ++ [o]) := by
  cases o with
  | newMath =>
    cases hs
    refine OwnInv.snoc (ho := ⟨fun _ => nofun, fun _ => nofun, fun _ => nofun⟩) ⟨?_, h.r, h.i⟩
    show KInv (fun i => (put w.maths w.nM _ i).map _) (gM w) (w.nM + 1) w.nN _
    rw [map_put]; exact h.m.addUser
  | newRng mt thr =>
    have key : OwnInv (w.addRng mt thr none) ops := by
      refine ⟨h.m, ?_, h.i⟩
      show KInv (fun i => (put w.rngs w.nR _ i).map _) (gR w) (w.nR + 1) w.nN _
      rw [map_put]; exact h.r.addUser
    refine OwnInv.snoc (ho := ⟨fun _ => nofun, fun _ => nofun, fun _ => nofun⟩) ?_
    cases thr with
    | none => cases hs; exact key
    | some i =>
      obtain ⟨_, _, hs⟩ := bind_ok hs
      cases hs; exact key
  | newInsp =>
    cases hs
    refine OwnInv.snoc (ho := ⟨fun _ => nofun, fun _ => nofun, fun _ => nofun⟩) ⟨h.m, h.r, ?_⟩
    show KInv (fun i => (put w.insps w.nI _ i).map _) (gI w) (w.nI + 1) w.nN _
    rw [map_put]; exact h.i.addUser
  | newLay req =>
    cases hs
    exact OwnInv.snoc (ho := ⟨fun _ => nofun, fun _ => nofun, fun _ => nofun⟩) ⟨h.m, h.r, h.i⟩
  | make lay pI pM pR mt okM okR okI => exact (h.make hs).snoc ⟨fun _ => nofun, fun _ => nofun, fun _ => nofun⟩
  | pass n again => exact (h.of_view (pass_view hs)).snoc ⟨fun _ => nofun, fun _ => nofun, fun _ => nofun⟩
  | deinit n => exact (h.of_view (deinit_view hs)).snoc ⟨fun _ => nofun, fun _ => nofun, fun _ => nofun⟩
  | destroy n => exact (h.destroy hs).snoc ⟨fun _ => nofun, fun _ => nofun, fun _ => nofun⟩
  | copy n => exact absurd rfl (ho n)
  | draw r =>
    obtain ⟨_, _, hs⟩ := bind_ok hs
    cases hs
    exact h.snoc ⟨fun _ => nofun, fun _ => nofun, fun _ => nofun⟩
  | delMath i =>
    have e := deleteMath_eff (b := true) (p := some i) (w := w) (a := w') (by rw [if_pos rfl]; exact hs)
    obtain ⟨o, e1, e2⟩ := e.2.2 i rfl rfl
    refine ⟨?_, ?_, ?_⟩
    · rw [e2, e.1]
      exact (h.m.userDel e1).congr fun j => by simp [List.mem_append, or_comm]
    · rw [e.1]; exact h.r.congr fun j => by simp [List.mem_append]
    · rw [e.1]; exact h.i.congr fun j => by simp [List.mem_append]
  | delRng i =>
    have e := deleteRng_eff (b := true) (p := some i) (w := w) (a := w') (by rw [if_pos rfl]; exact hs)
    obtain ⟨o, e1, e2⟩ := e.2.2 i rfl rfl
    refine ⟨?_, ?_, ?_⟩
    · rw [e.1]; exact h.m.congr fun j => by simp [List.mem_append]
    · rw [e2, e.1]
      exact (h.r.userDel e1).congr fun j => by simp [List.mem_append, or_comm]
    · rw [e.1]; exact h.i.congr fun j => by simp [List.mem_append]
  | delInsp i =>
    have e := deleteInsp_eff (b := true) (p := some i) (w := w) (a := w') (by rw [if_pos rfl]; exact hs)
    obtain ⟨o, e1, e2⟩ := e.2.2 i rfl rfl
    refine ⟨?_, ?_, ?_⟩
    · rw [e.1]; exact h.m.congr fun j => by simp [List.mem_append]
    · rw [e.1]; exact h.r.congr fun j => by simp [List.mem_append]
    · rw [e2, e.1]
      exact (h.i.userDel e1).congr fun j => by simp [List.mem_append, or_comm]
  | delLay i =>
    obtain ⟨_, _, hs⟩ := bind_ok hs
    cases hs
    exact OwnInv.snoc (ho := ⟨fun _ => nofun, fun _ => nofun, fun _ => nofun⟩) ⟨h.m, h.r, h.i⟩

theorem OwnInv.run {dbg : Bool} {w' : World} : ∀ {ops : List Op} {w : World} {hist : List Op}, OwnInv w hist → NoCopies ops → run dbg ops w = .ok w' →
    OwnInv w' (hist ++ ops)
  | [], w, hist, h, _, hs => by cases hs; rw [List.append_nil]; exact h
  | o :: os, w, hist, h, hn, hs => by
    obtain ⟨u, hu, hs⟩ := bind_ok hs
    have := OwnInv.run (h.step (fun n e => hn n (by rw [e]; exact List.mem_cons_self)) hu) (fun n hm => hn n (List.mem_cons_of_mem _ hm)) hs
    rwa [List.append_assoc] at this

theorem OwnInv.empty : OwnInv World.empty [] := by
  have k : ∀ del : Nat → Prop, (∀ i, ¬del i) → KInv (fun _ => none) (fun _ => none) 0 0 del := fun del hd =>
    ⟨fun _ _ => rfl, fun _ _ => rfl, fun i _ => hd i, fun _ _ _ h => (by cases h), fun _ _ _ h => (by cases h), fun _ _ _ h => (by cases h)⟩
  exact ⟨k _ fun _ => nofun, k _ fun _ => nofun, k _ fun _ => nofun⟩

end Nntl.Life
