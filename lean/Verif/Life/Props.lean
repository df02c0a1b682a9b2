import Verif.Life.Safe
/-! Theorems about lifetimes. -/
namespace Nntl.Life

/-! ## C165: who destroys what -/

theorem rights_of {w : World} {f : Objs} {cnt : Nat} {g : Owners} {del : Nat → Prop} (h : KInv f g cnt w.nN del)
    (hg : ∀ n, (∃ q, g n = some (true, q)) ↔ ∃ x, Lives w n x) {i : Nat} {b : Bool} {o : Option Nat} (hf : f i = some (b, o)) :
    LivesByRights w b o (del i) := by
  refine (h.rights i b o hf).trans (and_congr Iff.rfl (forall_congr' fun n => forall_congr' fun _ => hg n))

theorem lives_iff {w : World} {t : NetO → Option (Option Nat)} (n : Nat) :
    (∃ q, (w.nets n).map (fun x => (x.alive, t x)) = some (true, q)) ↔ ∃ x, Lives w n x := by
  constructor
  · rintro ⟨q, hq⟩
    cases hx : w.nets n with
    | none => rw [hx] at hq; cases hq
    | some x =>
      rw [hx] at hq
      have : (x.alive, t x) = (true, q) := Option.some.inj hq
      exact ⟨x, hx, (congrArg Prod.fst this)⟩
  · rintro ⟨x, h1, h2⟩
    exact ⟨t x, by rw [h1, ← h2]; rfl⟩

/-- Whatever a program without copies of networks does, as long as it runs: a mathematics, a generator or an inspector lives exactly as long as the program has
not destroyed it itself and the network that has made it, if it was made by one, lives. In particular objects of the user are destroyed by nobody else, and
those of a network neither earlier nor later than the network. Partial: with copies it fails, see `copy_destroys_twice`. -/
theorem lifetimes_partial (dbg : Bool) (ops : List Op) (w : World) (hn : NoCopies ops) (h : run dbg ops World.empty = .ok w) :
    (∀ i m, w.maths i = some m → LivesByRights w m.alive m.by_ (Op.delMath i ∈ ops)) ∧
      (∀ i m, w.rngs i = some m → LivesByRights w m.alive m.by_ (Op.delRng i ∈ ops)) ∧
      (∀ i m, w.insps i = some m → LivesByRights w m.alive m.by_ (Op.delInsp i ∈ ops)) := by
  have k := OwnInv.run OwnInv.empty hn h
  rw [List.nil_append] at k
  exact ⟨fun i m hm => rights_of k.m lives_iff (i := i) (by show Option.map _ _ = _; rw [hm]; rfl),
    fun i m hm => rights_of k.r lives_iff (i := i) (by show Option.map _ _ = _; rw [hm]; rfl),
    fun i m hm => rights_of k.i lives_iff (i := i) (by show Option.map _ _ = _; rw [hm]; rfl)⟩

theorem alive_of {w : World} {f : Objs} {cnt : Nat} {g : Owners} {del : Nat → Prop} (h : KInv f g cnt w.nN del) {n : Nat} {b : Bool} {p : Option Nat}
    (hn : g n = some (true, own b p)) (hd : ∀ i, b = true → p = some i → ¬del i) : ∀ i, b = true → p = some i → ∃ o, f i = some (true, o) := by
  intro i hb hp
  have hn' : g n = some (true, some (some i)) := by rw [hn, hb, hp]; rfl
  obtain ⟨c, hc⟩ := h.owner n _ i hn'
  have : c = true := (h.rights i c _ hc).2 ⟨hd i hb hp, fun k hk => by cases hk; exact ⟨_, hn'⟩⟩
  exact ⟨some n, by rw [hc, this]⟩

/-- A living network can always be destroyed, provided the program has not copied networks and has not destroyed the objects that the network has made itself;
nothing is destroyed twice. -/
theorem destructor_ends (dbg : Bool) (ops : List Op) (w : World) (hn : NoCopies ops) (h : run dbg ops World.empty = .ok w) (n : Nat) (x : NetO)
    (hx : Lives w n x) (hm : ∀ i, x.ownM = true → x.math = some i → Op.delMath i ∉ ops) (hr : ∀ i, x.ownR = true → x.rng = some i → Op.delRng i ∉ ops)
    (hi : ∀ i, x.ownI = true → x.insp = some i → Op.delInsp i ∉ ops) : ∃ w', step dbg w (.destroy n) = .ok w' ∧ ∀ y, ¬Lives w' n y := by
  have k := OwnInv.run OwnInv.empty hn h
  rw [List.nil_append] at k
  have km := alive_of k.m (n := n) (b := x.ownM) (p := x.math) (by show Option.map _ _ = _; rw [hx.1, ← hx.2]; rfl) hm
  have kr := alive_of k.r (n := n) (b := x.ownR) (p := x.rng) (by show Option.map _ _ = _; rw [hx.1, ← hx.2]; rfl) hr
  have ki := alive_of k.i (n := n) (b := x.ownI) (p := x.insp) (by show Option.map _ _ = _; rw [hx.1, ← hx.2]; rfl) hi
  have A : ∃ a, (if x.ownM = true then w.deleteMath x.math else .ok w) = .ok a := by
    by_cases ho : x.ownM = true
    · rw [if_pos ho]
      cases hp : x.math with
      | none => exact ⟨_, rfl⟩
      | some i =>
        obtain ⟨o, e⟩ := km i ho hp
        cases hw : w.maths i with
        | none => have e' : Option.map _ (w.maths i) = _ := e; rw [hw] at e'; cases e'
        | some m =>
          have e' : Option.map _ (w.maths i) = _ := e
          rw [hw] at e'
          have ha : m.alive = true := congrArg Prod.fst (Option.some.inj e')
          exact ⟨_, by show (w.mathAt (some i)).bind _ = _; rw [mathAt_ok hw ha]; rfl⟩
    · exact ⟨w, if_neg ho⟩
  obtain ⟨a, a1⟩ := A
  have ae := (deleteMath_eff a1).1
  have ar : a.rngs = w.rngs := by rw [ae]
  have B : ∃ b, (if x.ownR = true then a.deleteRng x.rng else .ok a) = .ok b := by
    by_cases ho : x.ownR = true
    · rw [if_pos ho]
      cases hp : x.rng with
      | none => exact ⟨_, rfl⟩
      | some i =>
        obtain ⟨o, e⟩ := kr i ho hp
        cases hw : w.rngs i with
        | none => have e' : Option.map _ (w.rngs i) = _ := e; rw [hw] at e'; cases e'
        | some m =>
          have e' : Option.map _ (w.rngs i) = _ := e
          rw [hw] at e'
          have ha : m.alive = true := congrArg Prod.fst (Option.some.inj e')
          exact ⟨_, by show (a.rngAt (some i)).bind _ = _; rw [rngAt_ok (by rw [ar]; exact hw) ha]; rfl⟩
    · exact ⟨a, if_neg ho⟩
  obtain ⟨b, b1⟩ := B
  have be := (deleteRng_eff b1).1
  have bi : b.insps = w.insps := by rw [be, ae]
  have C : ∃ c, (if x.ownI = true then b.deleteInsp x.insp else .ok b) = .ok c := by
    by_cases ho : x.ownI = true
    · rw [if_pos ho]
      cases hp : x.insp with
      | none => exact ⟨_, rfl⟩
      | some i =>
        obtain ⟨o, e⟩ := ki i ho hp
        cases hw : w.insps i with
        | none => have e' : Option.map _ (w.insps i) = _ := e; rw [hw] at e'; cases e'
        | some m =>
          have e' : Option.map _ (w.insps i) = _ := e
          rw [hw] at e'
          have ha : m.alive = true := congrArg Prod.fst (Option.some.inj e')
          exact ⟨_, by show (b.inspAt (some i)).bind _ = _; rw [inspAt_ok (by rw [bi]; exact hw) ha]; rfl⟩
    · exact ⟨b, if_neg ho⟩
  obtain ⟨c, c1⟩ := C
  refine ⟨{ c with nets := put c.nets n { x with alive := false } }, ?_, ?_⟩
  · show destroy w n = _
    unfold destroy
    rw [netAt_ok hx.1 hx.2, ok_bind', a1, ok_bind', b1, ok_bind', c1, ok_bind']
  · intro y hy
    have e2 : some y = some _ := hy.1.symm.trans (put_self _ _ _)
    cases e2
    exact absurd hy.2 nofun

/-- What the constructor makes: with the objects that are passed the network works, and nothing of their kind is made; of the other kinds the network makes one
object each, and these are the ones it will destroy. -/
theorem construct_tells (dbg : Bool) (w w' : World) (lay : Nat) (pI pM pR : Option Nat) (mt : Bool)
    (h : step dbg w (.make lay pI pM pR mt true true true) = .ok w') :
    ∃ x, Lives w' w.nN x ∧ x.lay = lay ∧ x.init = false ∧
      (∀ i, pM = some i → x.math = some i ∧ x.ownM = false ∧ w'.nM = w.nM) ∧
      (pM = none → x.math = some w.nM ∧ x.ownM = true ∧ w'.nM = w.nM + 1 ∧ ∃ m, w'.maths w.nM = some m ∧ m.alive = true ∧ m.by_ = some w.nN) ∧
      (∀ i, pR = some i → x.rng = some i ∧ x.ownR = false ∧ w'.nR = w.nR) ∧
      (pR = none → x.rng = some w.nR ∧ x.ownR = true ∧ w'.nR = w.nR + 1 ∧ ∃ m, w'.rngs w.nR = some m ∧ m.alive = true ∧ m.by_ = some w.nN ∧
        m.mt = mt ∧ m.thr = if mt then x.math else none) ∧
      (∀ i, pI = some i → x.insp = some i ∧ x.ownI = false ∧ w'.nI = w.nI) ∧
      (pI = none → x.insp = some w.nI ∧ x.ownI = true ∧ w'.nI = w.nI + 1 ∧ ∃ m, w'.insps w.nI = some m ∧ m.alive = true ∧ m.by_ = some w.nN) := by
  obtain ⟨a1, a2, b1, b2, c1, c2, d, ea, eb, ec, ed, e⟩ := make_inv (show make dbg w lay pI pM pR mt true true true = .ok w' from h)
  obtain ⟨_, n1, n2, n3, n4⟩ := attach_view ed
  have dm : d.maths = c1.maths ∧ d.insps = c1.insps ∧ d.nets = c1.nets := by
    unfold World.attach at ed
    by_cases hm : mt = true
    · rw [if_pos hm] at ed
      obtain ⟨r, _, ed⟩ := bind_ok' ed
      obtain ⟨m, _, ed⟩ := bind_ok' ed
      by_cases ht : r.2.thr.isSome = true
      · rw [if_pos ht] at ed
        by_cases hd : dbg = true
        · rw [if_pos hd] at ed; cases ed
        · rw [if_neg hd] at ed; cases ed; exact ⟨rfl, rfl, rfl⟩
      · rw [if_neg ht] at ed; cases ed; exact ⟨rfl, rfl, rfl⟩
    · rw [if_neg hm] at ed; cases ed; exact ⟨rfl, rfl, rfl⟩
  have hN : d.nN = w.nN := by
    rw [n1]
    cases pM <;> cases ea <;> cases pR <;> cases eb <;> cases pI <;> cases ec <;> rfl
  subst e
  refine ⟨⟨true, lay, a2, b2, c2, pM.isNone, pR.isNone, pI.isNone, false⟩, ⟨by show put d.nets d.nN _ w.nN = _; rw [hN]; exact put_self _ _ _, rfl⟩, rfl, rfl,
    ?_, ?_, ?_, ?_, ?_, ?_⟩
  · intro i hi
    subst hi; cases ea
    refine ⟨rfl, rfl, ?_⟩
    show d.nM = w.nM
    rw [n2]
    cases pR <;> cases eb <;> cases pI <;> cases ec <;> rfl
  · intro hi
    subst hi; cases ea
    refine ⟨rfl, rfl, ?_, ⟨true, 0, 0, some w.nN⟩, ?_, rfl, rfl⟩
    · show d.nM = w.nM + 1
      rw [n2]
      cases pR <;> cases eb <;> cases pI <;> cases ec <;> rfl
    · show d.maths w.nM = _
      rw [dm.1]
      cases pR <;> cases eb <;> cases pI <;> cases ec <;> exact put_self _ _ _
  · intro i hi
    subst hi; cases eb
    refine ⟨rfl, rfl, ?_⟩
    show d.nR = w.nR
    rw [n3]
    cases pM <;> cases ea <;> cases pI <;> cases ec <;> rfl
  · intro hi
    subst hi; cases eb
    have hR : a1.nR = w.nR := by cases pM <;> cases ea <;> rfl
    have hA : a1.nN = w.nN := by cases pM <;> cases ea <;> rfl
    have hc : c1.rngs = put a1.rngs a1.nR ⟨true, mt, none, some a1.nN⟩ := by cases pI <;> cases ec <;> rfl
    have hcn : c1.nR = a1.nR + 1 := by cases pI <;> cases ec <;> rfl
    refine ⟨by show some a1.nR = _; rw [hR], rfl, by show d.nR = _; rw [n3, hcn, hR], ?_⟩
    have hat : c1.rngs a1.nR = some ⟨true, mt, none, some a1.nN⟩ := by rw [hc]; exact put_self _ _ _
    unfold World.attach at ed
    by_cases hm : mt = true
    · rw [if_pos hm] at ed
      rw [rngAt_ok hat rfl, ok_bind] at ed
      obtain ⟨m, hm', ed⟩ := bind_ok' ed
      have hf : ¬((none : Option Nat).isSome = true) := nofun
      rw [if_neg hf] at ed
      cases ed
      refine ⟨⟨true, mt, some m.1, some a1.nN⟩, ?_, rfl, by rw [← hA], rfl, ?_⟩
      · show put c1.rngs a1.nR _ w.nR = _
        rw [hR]; exact put_self _ _ _
      · show some m.1 = _
        rw [if_pos hm]
        exact (mathAt_inv hm').1.symm
    · rw [if_neg hm] at ed
      cases ed
      refine ⟨⟨true, mt, none, some a1.nN⟩, by show c1.rngs w.nR = _; rw [← hR]; exact hat, rfl, by rw [← hA], rfl, ?_⟩
      show none = _
      rw [if_neg hm]
  · intro i hi
    subst hi; cases ec
    refine ⟨rfl, rfl, ?_⟩
    show d.nI = w.nI
    rw [n4]
    cases pM <;> cases ea <;> cases pR <;> cases eb <;> rfl
  · intro hi
    subst hi; cases ec
    have hI : b1.nI = w.nI := by cases pM <;> cases ea <;> cases pR <;> cases eb <;> rfl
    have hA : b1.nN = w.nN := by cases pM <;> cases ea <;> cases pR <;> cases eb <;> rfl
    refine ⟨by show some b1.nI = _; rw [hI], rfl, by show d.nI = _; rw [n4, ← hI]; rfl, ⟨true, some b1.nN⟩, ?_, rfl, by rw [← hA]⟩
    show d.insps w.nI = _
    rw [dm.2.1, ← hI]; exact put_self _ _ _

/-! ## C166: nothing destroyed is touched -/

/-- A careful program never touches a destroyed object, never ends in a failed assertion or for lack of temporary memory, and whenever it runs a network, the
layers work with the data of this very network. -/
theorem careful_is_safe (dbg : Bool) (ops : List Op) (h : AllCareful dbg ops World.empty) :
    ∃ w, run dbg ops World.empty = .ok w ∧ ∀ n k, (n, k) ∈ w.passes → k = n := by
  obtain ⟨w, h1, h2⟩ := run_ok Inv.empty h
  exact ⟨w, h1, fun n k hp => (h2.passes (n, k) hp).symm⟩

/-! ## C167: layers outlive their networks -/

/-- After any careful program, layers that no living network has can be given to a new network, whatever networks had them before: it is made and runs with its
own data; the pointers to the data of destroyed networks that the layers still hold are not followed. -/
theorem layers_reused (dbg : Bool) (ops : List Op) (w : World) (h : AllCareful dbg ops World.empty) (hw : run dbg ops World.empty = .ok w) (lay : Nat)
    (hl : LayLives w lay) (hn : ∀ k y, Lives w k y → y.lay ≠ lay) (mt again : Bool) :
    ∃ w', run dbg [.make lay none none none mt true true true, .pass w.nN again, .pass w.nN again, .destroy w.nN] w = .ok w' ∧
      w'.passes = (w.nN, w.nN) :: (w.nN, w.nN) :: w.passes ∧ LayLives w' lay := by
  have iw : Inv w := by
    obtain ⟨w2, h1, h2⟩ := run_ok Inv.empty h
    rw [hw] at h1; cases h1; exact h2
  obtain ⟨u, hu, iu⟩ := make_ok (dbg := dbg) iw (lay := lay) (pI := none) (pM := none) (pR := none) (mt := mt) hl nofun nofun nofun
  obtain ⟨x, hx, e1, e2, _, e3, _, e4, _, e5⟩ := construct_tells dbg w u lay none none none mt hu
  have hold : ∀ k y, k ≠ w.nN → Lives u k y → Lives w k y := by
    obtain ⟨a1, a2, b1, b2, c1, c2, d, ea, eb, ec, ed, e⟩ := make_inv hu
    cases ea; cases eb; cases ec
    obtain ⟨_, n1, _⟩ := attach_view ed
    have dn : d.nets = w.nets := by
      unfold World.attach at ed
      by_cases hm : mt = true
      · rw [if_pos hm] at ed
        obtain ⟨r, _, ed⟩ := bind_ok' ed
        obtain ⟨m, _, ed⟩ := bind_ok' ed
        by_cases ht : r.2.thr.isSome = true
        · rw [if_pos ht] at ed
          by_cases hd : dbg = true
          · rw [if_pos hd] at ed; cases ed
          · rw [if_neg hd] at ed; cases ed; rfl
        · rw [if_neg ht] at ed; cases ed; rfl
      · rw [if_neg hm] at ed; cases ed; rfl
    have dN : d.nN = w.nN := n1
    intro k y hk hy
    subst e
    refine ⟨?_, hy.2⟩
    have := hy.1
    rw [← dn]
    exact (put_ne _ _ (by rw [dN]; exact hk)).symm.trans this
  have fresh : ∀ k y, k ≠ w.nN → Lives u k y → y.lay ≠ lay ∧ y.math ≠ some w.nM ∧ y.rng ≠ some w.nR ∧ y.insp ≠ some w.nI ∧ ¬DrawsWith u y w.nM := by
    intro k y hk hy
    have hy' := hold k y hk hy
    have ok := iw.nets k y hy'
    refine ⟨hn k y hy', fun e => ?_, fun e => ?_, fun e => ?_, ?_⟩
    · obtain ⟨i, m, m1, m2, _⟩ := ok.math
      rw [e] at m1; cases m1
      rw [iw.fM _ (Nat.le_refl _)] at m2; cases m2
    · obtain ⟨i, m, m1, m2, _⟩ := ok.rng
      rw [e] at m1; cases m1
      rw [iw.fR _ (Nat.le_refl _)] at m2; cases m2
    · obtain ⟨i, m1, m, m2, _⟩ := ok.insp
      rw [e] at m1; cases m1
      rw [iw.fI _ (Nat.le_refl _)] at m2; cases m2
    · rintro ⟨r, g, r1, r2, r3, r4⟩
      obtain ⟨i, m, m1, m2, m3, m4⟩ := ok.rng
      rw [r1] at m1; cases m1
      have hrn : r ≠ w.nR := fun e => by rw [e, iw.fR _ (Nat.le_refl _)] at m2; cases m2
      have hsame : u.rngs r = w.rngs r := by
        obtain ⟨a1, a2, b1, b2, c1, c2, d, ea, eb, ec, ed, e⟩ := make_inv hu
        cases ea; cases eb; cases ec
        subst e
        show d.rngs r = _
        unfold World.attach at ed
        have hat : ((w.addMath (some w.nN)).addRng mt none (some w.nN)).rngs w.nR = some ⟨true, mt, none, some w.nN⟩ := put_self _ _ _
        by_cases hm : mt = true
        · rw [if_pos hm] at ed
          have hat' : (((w.addMath (some w.nN)).addRng mt none (some w.nN)).addInsp (some w.nN)).rngAt (some w.nR)
              = .ok (w.nR, ⟨true, mt, none, some w.nN⟩) := rngAt_ok hat rfl
          obtain ⟨q, hq, ed⟩ := bind_ok' ed
          have hq' : q = (w.nR, ⟨true, mt, none, some w.nN⟩) := by
            have := hat'.symm.trans hq; cases this; rfl
          subst hq'
          obtain ⟨m', _, ed⟩ := bind_ok' ed
          have hf : ¬((none : Option Nat).isSome = true) := nofun
          rw [if_neg hf] at ed
          cases ed
          exact (put_ne _ _ hrn).trans (put_ne _ _ hrn)
        · rw [if_neg hm] at ed; cases ed
          exact put_ne _ _ hrn
      rw [hsame, m2] at r2; cases r2
      obtain ⟨j, j1, q, q1, _⟩ := m4 r3
      rw [r4] at j1; cases j1
      rw [iw.fM _ (Nat.le_refl _)] at q1; cases q1
  have hxm : x.math = some w.nM := (e3 rfl).1
  have hal : ∀ (v : World) (z : NetO), z.lay = lay → z.math = some w.nM → (∀ k, k ≠ w.nN → v.nets k = u.nets k) → Alone v w.nN z := by
    intro v z z1 z2 hv k y hk hy _
    have hy' : Lives u k y := ⟨(hv k hk).symm.trans hy.1, hy.2⟩
    obtain ⟨f1, f2, _⟩ := fresh k y hk hy'
    exact ⟨by rw [z1]; exact f1, by rw [z2]; exact f2⟩
  obtain ⟨p, hp, ip, lp⟩ := pass_ok (dbg := dbg) (again := again) iu hx (fun _ => hal u x e1 hxm fun _ _ => rfl)
  obtain ⟨fp, kp, ep⟩ := pass_frame hp
  obtain ⟨q, hq, iq, lq⟩ := pass_ok (dbg := dbg) (again := again) ip lp (fun _ => hal p _ e1 hxm fp.nets)
  obtain ⟨fq, kq, eq⟩ := pass_frame hq
  have hf := fp.trans fq
  obtain ⟨z, hz, iz⟩ := destroy_ok iq lq (fun k y hk hy => by
    have hy' : Lives u k y := ⟨(hf.nets k hk).symm.trans hy.1, hy.2⟩
    obtain ⟨_, f2, f3, f4, f5⟩ := fresh k y hk hy'
    refine ⟨fun _ => ⟨by rw [show ({ ({ x with init := true } : NetO) with init := true } : NetO).math = x.math from rfl, hxm]; exact f2, fun j hj => ?_⟩,
      fun _ => by rw [show ({ ({ x with init := true } : NetO) with init := true } : NetO).rng = x.rng from rfl, (e4 rfl).1]; exact f3,
      fun _ => by rw [show ({ ({ x with init := true } : NetO) with init := true } : NetO).insp = x.insp from rfl, (e5 rfl).1]; exact f4⟩
    have hj' : x.math = some j := hj
    rw [hxm] at hj'; cases hj'
    rintro ⟨r, g, r1, r2, r3⟩
    exact f5 ⟨r, g, r1, by rw [← hf.rngs]; exact r2, r3⟩)
  have hpk : kp = w.nN := (ip.passes (w.nN, kp) (by rw [ep]; exact List.mem_cons_self)).symm
  have hqk : kq = w.nN := (iq.passes (w.nN, kq) (by rw [eq]; exact List.mem_cons_self)).symm
  have hul : u.lays = w.lays ∧ u.passes = w.passes := by
    obtain ⟨a1, a2, b1, b2, c1, c2, d, ea, eb, ec, ed, e⟩ := make_inv hu
    cases ea; cases eb; cases ec
    have dn : d.lays = w.lays ∧ d.passes = w.passes := by
      unfold World.attach at ed
      by_cases hm : mt = true
      · rw [if_pos hm] at ed
        obtain ⟨r, _, ed⟩ := bind_ok' ed
        obtain ⟨m, _, ed⟩ := bind_ok' ed
        by_cases ht : r.2.thr.isSome = true
        · rw [if_pos ht] at ed
          by_cases hd : dbg = true
          · rw [if_pos hd] at ed; cases ed
          · rw [if_neg hd] at ed; cases ed; exact ⟨rfl, rfl⟩
        · rw [if_neg ht] at ed; cases ed; exact ⟨rfl, rfl⟩
      · rw [if_neg hm] at ed; cases ed; exact ⟨rfl, rfl⟩
    subst e
    exact dn
  have hzl : z.lays = q.lays ∧ z.passes = q.passes := by
    have hz' := hz
    unfold destroy at hz'
    obtain ⟨y, _, hz'⟩ := bind_ok hz'
    obtain ⟨a, ha, hz'⟩ := bind_ok hz'
    obtain ⟨b, hb, hz'⟩ := bind_ok hz'
    obtain ⟨c, hc, hz'⟩ := bind_ok hz'
    cases hz'
    have ha := (deleteMath_eff ha).1
    have hb := (deleteRng_eff hb).1
    have hc := (deleteInsp_eff hc).1
    exact ⟨by show c.lays = _; rw [hc, hb, ha], by show c.passes = _; rw [hc, hb, ha]⟩
  refine ⟨z, ?_, ?_, ?_⟩
  · show (make dbg w lay none none none mt true true true).bind _ = _
    rw [hu, ok_bind']
    show (pass dbg u w.nN again).bind _ = _
    rw [hp, ok_bind']
    show (pass dbg p w.nN again).bind _ = _
    rw [hq, ok_bind']
    show (destroy q w.nN).bind _ = _
    rw [hz, ok_bind']; rfl
  · rw [hzl.2, eq, ep, hpk, hqk, hul.2]
  · obtain ⟨l, l1, l2⟩ := hl
    obtain ⟨l', d1, d2⟩ := hf.lays lay l (by rw [hul.1]; exact l1)
    exact ⟨l', by rw [hzl.1]; exact d1, d2.trans l2⟩

end Nntl.Life
