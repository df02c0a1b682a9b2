import Verif.Pass.DetSpec
/-! Twins stay twins: one kind of layer after the other, then trees. -/
namespace Nntl.Pass
open Nntl.Layers

variable {α : Type}

theorem Agree.refl (m n : Nat) (X : Mat α) : Agree m n X X := fun _ _ _ _ => rfl
theorem Agree.symm {m n : Nat} {X Y : Mat α} (h : Agree m n X Y) : Agree m n Y X := fun r hr c hc => (h r hr c hc).symm
theorem Agree.trans {m n : Nat} {X Y Z : Mat α} (h : Agree m n X Y) (h' : Agree m n Y Z) : Agree m n X Z :=
  fun r hr c hc => (h r hr c hc).trans (h' r hr c hc)

theorem Agree.cols {R n ofs cnt : Nat} {X Y : Mat α} (h : Agree R n X Y) (ho : ofs + cnt ≤ n) : Agree R cnt (colsFrom ofs X) (colsFrom ofs Y) :=
  fun r hr c hc => h r hr (ofs + c) (by omega)

/-! ### Fully connected layers -/

theorem preAct_agree [One α] {a : Arith α} (ha : a.Ok) {R n m : Nat} {w v X Y : Mat α} (hw : Agree m (n + 1) w v) (hX : Agree R n X Y) :
    Agree R m (preAct a n w X) (preAct a n v Y) := by
  intro r hr c hc
  refine ha _ _ _ _ _ (fun j hj => ?_) (fun j hj => hw c hc j hj)
  simp only [withOnes]
  split
  · rename_i h; exact hX r hr j h
  · rfl

theorem gradW_agree [One α] {a : Arith α} (ha : a.Ok) {R n m : Nat} {X Y Z V : Mat α} (hX : Agree R n X Y) (hZ : Agree R m Z V) :
    Agree m (n + 1) (gradW a R n X Z) (gradW a R n Y V) := by
  intro c hc j hj
  simp only [gradW]
  congr 1
  refine ha _ _ _ _ _ (fun r hr => hZ r hr c hc) (fun r hr => ?_)
  simp only [withOnes]
  split
  · rename_i h; exact hX r hr j h
  · rfl

theorem fcTwin_updated {gw : GradWorks α} {Q : gw.G → gw.G → Prop} {m k : Nat} (hg : gw.Local m k Q) {upd : Bool} {s t s' t' : FcS gw} {d e : Mat α}
    (h : FcTwin m k Q s t) (hd : Agree m k d e) (hs : Updated upd m k s d s') (ht : Updated upd m k t e t') : FcTwin m k Q s' t' := by
  unfold Updated at hs ht
  cases upd
  · simp only [Bool.false_eq_true, if_false] at hs ht
    rw [hs, ht]; exact h
  · simp only [if_true] at hs ht
    obtain ⟨d', hd', rfl⟩ := hs
    obtain ⟨e', he', rfl⟩ := ht
    exact hg.apply _ _ _ _ _ _ h.1 h.2 fun r hr c hc => by rw [hd' r hr c hc, he' r hr c hc, hd r hr c hc]

theorem fcTwin_refl {gw : GradWorks α} {Q : gw.G → gw.G → Prop} {m k : Nat} (hg : gw.Local m k Q) (s : FcS gw) : FcTwin m k Q s s :=
  ⟨hg.refl _, Agree.refl _ _ _⟩
theorem fcTwin_symm {gw : GradWorks α} {Q : gw.G → gw.G → Prop} {m k : Nat} (hg : gw.Local m k Q) {s t : FcS gw} (h : FcTwin m k Q s t) :
    FcTwin m k Q t s := ⟨hg.symm _ _ h.1, h.2.symm⟩
theorem fcTwin_trans {gw : GradWorks α} {Q : gw.G → gw.G → Prop} {m k : Nat} (hg : gw.Local m k Q) {s t u : FcS gw} (h : FcTwin m k Q s t)
    (h' : FcTwin m k Q t u) : FcTwin m k Q s u := ⟨hg.trans _ _ _ h.1 h'.1, h.2.trans h'.2⟩

theorem fc_det [One α] {a : Arith α} (ha : a.Ok) {gw : GradWorks α} {f df : α → α} {upd : Bool} {NT n m : Nat} {Q : gw.G → gw.G → Prop}
    (hg : gw.Local m (n + 1) Q) : Det (fcLaw a gw f df upd NT n m) (FcTwin m (n + 1) Q) where
  refl := fcTwin_refl hg
  symm := fun _ _ => fcTwin_symm hg
  trans := fun _ _ _ => fcTwin_trans hg
  mode := fun _ s => ⟨hg.refl _, Agree.refl _ _ _⟩
  resize := fun _ s => fcTwin_refl hg s
  idle := fun R s A T O h => by
    have h : s.training = false := h
    simp only [fc, h, Bool.false_eq_true, if_false]
    exact fcTwin_refl hg s
  pass := fun R s t A T O A' T' O' hs ht h => by
    have hs : s.training = true := hs
    have ht : t.training = true := ht
    simp only [fc, hs, ht, if_true]
    exact hg.pre _ _ _ _ h.1 h.2
  fwd := fun b R s t X Y _ _ h hX r hr c hc => by
    simp only [fcLaw]
    rw [preAct_agree ha h.2 hX r hr c hc]
  bwd := fun R s t X Y G H _ _ h hX hG r hr j hj => by
    simp only [fcLaw]
    refine ha _ _ _ _ _ (fun c hc => ?_) (fun c hc => h.2 c hc j (Nat.lt_succ_of_lt hj))
    rw [preAct_agree ha h.2 hX r hr c hc, hG r hr c hc]
  upd := fun R s t X Y G H s' t' _ _ h hX hG hs ht =>
    fcTwin_updated hg h (gradW_agree ha hX fun r hr c hc => by rw [preAct_agree ha h.2 hX r hr c hc, hG r hr c hc]) hs ht

theorem identity_det (n : Nat) : Det (identityLaw (α := α) n) fun _ _ => True where
  refl := fun _ => trivial
  symm := fun _ _ _ => trivial
  trans := fun _ _ _ _ _ => trivial
  mode := fun _ _ => trivial
  resize := fun _ _ => trivial
  idle := fun _ _ _ _ _ _ => trivial
  pass := fun _ _ _ _ _ _ _ _ _ _ _ _ => trivial
  fwd := fun _ _ _ _ _ _ _ _ _ h => h
  bwd := fun _ _ _ _ _ _ _ _ _ _ _ h => h
  upd := fun _ _ _ _ _ _ _ _ _ _ _ _ _ _ _ _ => trivial

/-! ### Dropout and penalties -/

theorem lex_det {x : LexCfg α} {o : Obj α} {L : Law o} {E : o.S → o.S → Prop} (h : Det L E) (hg : x.gate ≤ o.neurons) (ha : ∀ a ∈ x.adds, a.Ok) :
    Det (lexLaw x L) (LexTwin E) := by
  have hdown : ∀ R (s t : o.S × LexS α) Y Z G H, s.2.training = true → t.2.training = true → s.2.drawn = t.2.drawn → Agree R o.neurons Y Z →
      Agree R o.neurons G H → Agree R o.neurons (x.down s.2 R o.neurons Y G) (x.down t.2 R o.neurons Z H) := by
    intro R s t Y Z G H hs ht hd hY hG r hr c hc
    have hm : x.masked s.2 R Y G r c = x.masked t.2 R Z H r c := by
      unfold LexCfg.masked LexCfg.active LexCfg.last
      rw [hs, ht, hd]
      simp only [if_true]
      cases x.drop with
      | none => exact hG r hr c hc
      | some cell => simp only [hY r hr c hc, hG r hr c hc]
    unfold LexCfg.down LexCfg.penalised
    split
    · exact hm
    · rename_i hcg
      rw [hm]
      generalize x.masked t.2 R Z H r c = d
      have : ∀ (as : List (Addend α)), (∀ a ∈ as, a.Ok) → ∀ d,
          as.foldl (fun d a => a.app d (a.term R (o.neurons - x.gate) (colsFrom x.gate Y) r (c - x.gate))) d =
          as.foldl (fun d a => a.app d (a.term R (o.neurons - x.gate) (colsFrom x.gate Z) r (c - x.gate))) d := by
        intro as
        induction as with
        | nil => intro _ d; rfl
        | cons a as ih =>
          intro ha d
          simp only [List.foldl_cons]
          rw [ha a List.mem_cons_self R _ _ _ (hY.cols (by omega)) r hr (c - x.gate) (by omega)]
          exact ih (fun b hb => ha b (List.mem_cons_of_mem _ hb)) _
      exact this x.adds ha d
  exact {
    refl := fun s => ⟨h.refl _, rfl⟩
    symm := fun s t e => ⟨h.symm _ _ e.1, e.2.symm⟩
    trans := fun s t u e e' => ⟨h.trans _ _ _ e.1 e'.1, e.2.trans e'.2⟩
    mode := fun b s => ⟨h.mode b s.1, rfl⟩
    resize := fun R s => ⟨h.resize R s.1, rfl⟩
    idle := fun R s A T O hi => by
      obtain ⟨h1, h2⟩ := hi
      have e := h.idle R s.1 A T O h1
      cases hd : x.drop <;> simp only [lex, h2, hd, Bool.false_eq_true, if_false] <;> exact ⟨e, rfl⟩
    pass := fun R s t A T O A' T' O' hs ht e => by
      obtain ⟨h1, h2⟩ := hs
      obtain ⟨h3, h4⟩ := ht
      have e' := h.pass R s.1 t.1 A T O A' T' O' h1 h3 e.1
      cases hd : x.drop <;> simp only [lex, h2, h4, hd, if_true] <;> refine ⟨e', ?_⟩
      · exact e.2
      · simp only [e.2]
    fwd := fun b R s t X Y hs ht e hX r hr c hc => by
      obtain ⟨h1, h2⟩ := hs
      obtain ⟨h3, h4⟩ := ht
      have e' := h.fwd b R s.1 t.1 X Y h1 h3 e.1 hX r hr c hc
      simp only [lexLaw]
      unfold LexCfg.dropped LexCfg.active LexCfg.last
      rw [h2, h4, e.2]
      generalize (if b = true then x.drop else none) = q
      cases q with
      | none => exact e'
      | some cell => simp only [e']
    bwd := fun R s t X Y G H hs ht e hX hG =>
      h.bwd R s.1 t.1 X Y _ _ hs.1 ht.1 e.1 hX (hdown R s t _ _ G H hs.2 ht.2 e.2 (h.fwd true R s.1 t.1 X Y hs.1 ht.1 e.1 hX) hG)
    upd := fun R s t X Y G H s' t' hs ht e hX hG us ut =>
      ⟨h.upd R s.1 t.1 X Y _ _ s'.1 t'.1 hs.1 ht.1 e.1 hX (hdown R s t _ _ G H hs.2 ht.2 e.2 (h.fwd true R s.1 t.1 X Y hs.1 ht.1 e.1 hX) hG) us.1 ut.1,
        by rw [us.2, ut.2]; exact e.2⟩ }

/-! ### Packs -/

theorem over_det [One α] {l u : Obj α} {L : Law l} {U : Law u} {E : l.S → l.S → Prop} {F : u.S → u.S → Prop} (h : Det L E) (k : Det U F)
    (hn : u.inc = l.neurons) : Det (overLaw L U) fun s t => E s.1 t.1 ∧ F s.2.2 t.2.2 where
  refl := fun s => ⟨h.refl _, k.refl _⟩
  symm := fun s t e => ⟨h.symm _ _ e.1, k.symm _ _ e.2⟩
  trans := fun s t u e e' => ⟨h.trans _ _ _ e.1 e'.1, k.trans _ _ _ e.2 e'.2⟩
  mode := fun b s => ⟨h.mode b s.1, k.mode b s.2.2⟩
  resize := fun R s => ⟨h.resize R s.1, k.resize R s.2.2⟩
  idle := fun R s A T O hi => ⟨h.idle _ _ _ _ _ hi.1, k.idle _ _ _ _ _ hi.2.1⟩
  pass := fun R s t A T O A' T' O' hs ht e => ⟨h.pass _ _ _ _ _ _ _ _ _ hs.1 ht.1 e.1, k.pass _ _ _ _ _ _ _ _ _ hs.2.1 ht.2.1 e.2⟩
  fwd := fun b R s t X Y hs ht e hX => k.fwd b R _ _ _ _ hs.2.1 ht.2.1 e.2 (hn ▸ h.fwd b R _ _ _ _ hs.1 ht.1 e.1 hX)
  bwd := fun R s t X Y G H hs ht e hX hG => by
    have h1 : Agree R u.inc (L.fwd R s.1 X) (L.fwd R t.1 Y) := hn ▸ h.fwd true R _ _ _ _ hs.1 ht.1 e.1 hX
    exact h.bwd R _ _ _ _ _ _ hs.1 ht.1 e.1 hX (hn ▸ k.bwd R _ _ _ _ _ _ hs.2.1 ht.2.1 e.2 h1 hG)
  upd := fun R s t X Y G H s' t' hs ht e hX hG us ut => by
    have h1 : Agree R u.inc (L.fwd R s.1 X) (L.fwd R t.1 Y) := hn ▸ h.fwd true R _ _ _ _ hs.1 ht.1 e.1 hX
    exact ⟨h.upd R _ _ _ _ _ _ _ _ hs.1 ht.1 e.1 hX (hn ▸ k.bwd R _ _ _ _ _ _ hs.2.1 ht.2.1 e.2 h1 hG) us.2 ut.2,
      k.upd R _ _ _ _ _ _ _ _ hs.2.1 ht.2.1 e.2 h1 hG us.1 ut.1⟩

theorem frozen_det [Zero α] [One α] {l u : Obj α} {L : Law l} {U : Law u} {E : l.S → l.S → Prop} {F : u.S → u.S → Prop} (h : Det L E) (k : Det U F)
    (hn : u.inc = l.neurons) : Det (frozenLaw L U) fun s t => E s.1 t.1 ∧ F s.2.2 t.2.2 where
  refl := fun s => ⟨h.refl _, k.refl _⟩
  symm := fun s t e => ⟨h.symm _ _ e.1, k.symm _ _ e.2⟩
  trans := fun s t u e e' => ⟨h.trans _ _ _ e.1 e'.1, k.trans _ _ _ e.2 e'.2⟩
  mode := fun b s => ⟨h.mode b s.1, k.mode b s.2.2⟩
  resize := fun R s => ⟨h.resize R s.1, k.resize R s.2.2⟩
  idle := fun R s A T O hi => ⟨h.idle _ _ _ _ _ hi.1, k.idle _ _ _ _ _ hi.2.1⟩
  pass := fun R s t A T O A' T' O' hs ht e => ⟨h.pass _ _ _ _ _ _ _ _ _ hs.1 ht.1 e.1, k.pass _ _ _ _ _ _ _ _ _ hs.2.1 ht.2.1 e.2⟩
  fwd := fun b R s t X Y hs ht e hX => k.fwd b R _ _ _ _ hs.2.1 ht.2.1 e.2 (hn ▸ h.fwd b R _ _ _ _ hs.1 ht.1 e.1 hX)
  bwd := fun _ _ _ _ _ _ _ _ _ _ _ _ _ _ _ _ => rfl
  upd := fun R s t X Y G H s' t' hs ht e hX hG us ut => by
    have h1 : Agree R u.inc (L.fwd R s.1 X) (L.fwd R t.1 Y) := hn ▸ h.fwd true R _ _ _ _ hs.1 ht.1 e.1 hX
    exact ⟨by rw [us.1, ut.1]; exact e.1, k.upd R _ _ _ _ _ _ _ _ hs.2.1 ht.2.1 e.2 h1 hG us.2 ut.2⟩

theorem tile_det [One α] {k cap : Nat} {l : Obj α} {L : Law l} {E : l.S → l.S → Prop} (h : Det L E) :
    Det (tileLaw k cap L) fun s t => E s.1 t.1 := by
  have hroll : ∀ R m (X Y : Mat α), Agree R (k * m) X Y → Agree (k * R) m (roll R m X) (roll R m Y) := by
    intro R m X Y hX q hq c hc
    have hR : 0 < R := Nat.pos_of_ne_zero fun h => by subst h; simp at hq
    refine hX _ (Nat.mod_lt _ hR) _ ?_
    have h1 : q / R < k := (Nat.div_lt_iff_lt_mul hR).2 hq
    have : (q / R + 1) * m ≤ k * m := Nat.mul_le_mul_right m h1
    rw [Nat.add_mul, Nat.one_mul] at this
    omega
  have hunroll : ∀ R m (X Y : Mat α), Agree (k * R) m X Y → Agree R (k * m) (unroll R m X) (unroll R m Y) := by
    intro R m X Y hX r hr c hc
    have hm : 0 < m := Nat.pos_of_ne_zero fun h => by subst h; simp at hc
    refine hX _ ?_ _ (Nat.mod_lt _ hm)
    have h1 : c / m < k := (Nat.div_lt_iff_lt_mul hm).2 hc
    have : (c / m + 1) * R ≤ k * R := Nat.mul_le_mul_right R h1
    rw [Nat.add_mul, Nat.one_mul] at this
    omega
  exact {
    refl := fun s => h.refl _
    symm := fun s t e => h.symm _ _ e
    trans := fun s t u e e' => h.trans _ _ _ e e'
    mode := fun b s => h.mode b s.1
    resize := fun R s => h.resize _ s.1
    idle := fun R s A T O hi => h.idle _ _ _ _ _ hi.1
    pass := fun R s t A T O A' T' O' hs ht e => h.pass _ _ _ _ _ _ _ _ _ hs.1 ht.1 e
    fwd := fun b R s t X Y hs ht e hX => hunroll _ _ _ _ (h.fwd b _ _ _ _ _ hs.1 ht.1 e (hroll _ _ _ _ hX))
    bwd := fun R s t X Y G H hs ht e hX hG => hunroll _ _ _ _ (h.bwd _ _ _ _ _ _ _ hs.1 ht.1 e (hroll _ _ _ _ hX) (hroll _ _ _ _ hG))
    upd := fun R s t X Y G H s' t' hs ht e hX hG us ut => h.upd _ _ _ _ _ _ _ _ _ hs.1 ht.1 e (hroll _ _ _ _ hX) (hroll _ _ _ _ hG) us ut }

/-- All inner layers have twins, and their fields are inside of the input. -/
def fDet (inc : Nat) : (fs : List (Fld α)) → Laws fs → FTwins fs → Prop
  | [], _, _ => True
  | f :: fs, Ls, E => Det Ls.head E.1.E ∧ f.obj.inc = f.cnt ∧ f.ofs + f.cnt ≤ inc ∧ fDet inc fs Ls.tail E.2

theorem fTwin_refl {inc : Nat} : (fs : List (Fld α)) → (Ls : Laws fs) → (E : FTwins fs) → fDet inc fs Ls E → ∀ s, fTwin fs E s s
  | [], _, _, _, _ => trivial
  | _ :: fs, Ls, E, h, s => ⟨h.1.refl _, fTwin_refl fs Ls.tail E.2 h.2.2.2 s.2⟩

theorem fTwin_symm {inc : Nat} : (fs : List (Fld α)) → (Ls : Laws fs) → (E : FTwins fs) → fDet inc fs Ls E → ∀ s t, fTwin fs E s t → fTwin fs E t s
  | [], _, _, _, _, _, _ => trivial
  | _ :: fs, Ls, E, h, _, _, e => ⟨h.1.symm _ _ e.1, fTwin_symm fs Ls.tail E.2 h.2.2.2 _ _ e.2⟩

theorem fTwin_trans {inc : Nat} : (fs : List (Fld α)) → (Ls : Laws fs) → (E : FTwins fs) → fDet inc fs Ls E → ∀ s t u, fTwin fs E s t →
    fTwin fs E t u → fTwin fs E s u
  | [], _, _, _, _, _, _, _, _ => trivial
  | _ :: fs, Ls, E, h, _, _, _, e, e' => ⟨h.1.trans _ _ _ e.1 e'.1, fTwin_trans fs Ls.tail E.2 h.2.2.2 _ _ _ e.2 e'.2⟩

theorem fTwin_mode {inc : Nat} (b : Bool) : (fs : List (Fld α)) → (Ls : Laws fs) → (E : FTwins fs) → fDet inc fs Ls E → ∀ s, fTwin fs E s (fMode b fs s)
  | [], _, _, _, _ => trivial
  | _ :: fs, Ls, E, h, s => ⟨h.1.mode b _, fTwin_mode b fs Ls.tail E.2 h.2.2.2 s.2⟩

theorem fTwin_resize {inc : Nat} (R : Nat) : (fs : List (Fld α)) → (Ls : Laws fs) → (E : FTwins fs) → fDet inc fs Ls E → ∀ s,
    fTwin fs E s (fResize R fs s)
  | [], _, _, _, _ => trivial
  | _ :: fs, Ls, E, h, s => ⟨h.1.resize R _, fTwin_resize R fs Ls.tail E.2 h.2.2.2 s.2⟩

theorem fTwin_idle [One α] {inc : Nat} (R i used : Nat) : (fs : List (Fld α)) → (Ls : Laws fs) → (E : FTwins fs) → fDet inc fs Ls E → ∀ fo s A T O,
    fInv false R fs Ls s → fTwin fs E s (fFprop R i used fs fo s A T O).s
  | [], _, _, _, _, _, _, _, _, _ => trivial
  | _ :: fs, Ls, E, h, _, s, _, _, _, hi => ⟨h.1.idle _ _ _ _ _ hi.1, fTwin_idle R i used fs Ls.tail E.2 h.2.2.2 _ s.2 _ _ _ hi.2⟩

theorem fTwin_pass [One α] {inc : Nat} (R i used : Nat) : (fs : List (Fld α)) → (Ls : Laws fs) → (E : FTwins fs) → fDet inc fs Ls E →
    ∀ fo s t A T O A' T' O', fInv true R fs Ls s → fInv true R fs Ls t → fTwin fs E s t →
      fTwin fs E (fFprop R i used fs fo s A T O).s (fFprop R i used fs fo t A' T' O').s
  | [], _, _, _, _, _, _, _, _, _, _, _, _, _, _, _ => trivial
  | _ :: fs, Ls, E, h, _, s, t, _, _, _, _, _, _, hs, ht, e =>
    ⟨h.1.pass _ _ _ _ _ _ _ _ _ hs.1 ht.1 e.1, fTwin_pass R i used fs Ls.tail E.2 h.2.2.2 _ s.2 t.2 _ _ _ _ _ _ hs.2 ht.2 e.2⟩

theorem fTwin_fwd {inc R : Nat} {X Y : Mat α} (b : Bool) (hX : Agree R inc X Y) : (fs : List (Fld α)) → (Ls : Laws fs) → (E : FTwins fs) →
    fDet inc fs Ls E → ∀ s t, fInv b R fs Ls s → fInv b R fs Ls t → fTwin fs E s t → Agree R (fNeurons fs) (fFwd R X fs Ls s) (fFwd R Y fs Ls t)
  | [], _, _, _, _, _, _, _, _ => fun _ _ c hc => absurd hc (Nat.not_lt_zero c)
  | f :: fs, Ls, E, h, s, t, hs, ht, e => fun r hr c hc => by
    simp only [fFwd]
    simp only [fNeurons] at hc
    split
    · rename_i hc'
      exact h.1.fwd b R _ _ _ _ hs.1 ht.1 e.1 (by rw [h.2.1]; exact hX.cols h.2.2.1) r hr c hc'
    · exact fTwin_fwd b hX fs Ls.tail E.2 h.2.2.2 s.2 t.2 hs.2 ht.2 e.2 r hr _ (by omega)

theorem fTwin_bwd [Zero α] [Add α] {inc R : Nat} {X Y : Mat α} (hX : Agree R inc X Y) : (fs : List (Fld α)) → (Ls : Laws fs) → (E : FTwins fs) →
    fDet inc fs Ls E → ∀ s t G H, fInv true R fs Ls s → fInv true R fs Ls t → fTwin fs E s t → Agree R (fNeurons fs) G H →
      Agree R inc (fBwd R X fs Ls s G) (fBwd R Y fs Ls t H)
  | [], _, _, _, _, _, _, _, _, _, _, _ => fun _ _ _ _ => rfl
  | f :: fs, Ls, E, h, s, t, G, H, hs, ht, e, hG => fun r hr c hc => by
    have h1 := fTwin_bwd hX fs Ls.tail E.2 h.2.2.2 s.2 t.2 (colsFrom f.obj.neurons G) (colsFrom f.obj.neurons H) hs.2 ht.2 e.2
      (hG.cols (Nat.le_refl _)) r hr c hc
    simp only [fBwd]
    rw [h1]
    split
    · rename_i hc'
      rw [h.1.bwd R _ _ _ _ _ _ hs.1 ht.1 e.1 (by rw [h.2.1]; exact hX.cols h.2.2.1)
        (fun r hr c hc => hG r hr c (by simp only [fNeurons]; omega)) r hr (c - f.ofs) (by rw [h.2.1]; omega)]
    · rfl

theorem fTwin_upd {inc R : Nat} {X Y : Mat α} (hX : Agree R inc X Y) : (fs : List (Fld α)) → (Ls : Laws fs) → (E : FTwins fs) →
    fDet inc fs Ls E → ∀ s t G H s' t', fInv true R fs Ls s → fInv true R fs Ls t → fTwin fs E s t → Agree R (fNeurons fs) G H →
      fUpd R X fs Ls s G s' → fUpd R Y fs Ls t H t' → fTwin fs E s' t'
  | [], _, _, _, _, _, _, _, _, _, _, _, _, _, _, _ => trivial
  | f :: fs, Ls, E, h, s, t, G, H, s', t', hs, ht, e, hG, us, ut =>
    ⟨h.1.upd R _ _ _ _ _ _ _ _ hs.1 ht.1 e.1 (by rw [h.2.1]; exact hX.cols h.2.2.1)
      (fun r hr c hc => hG r hr c (by simp only [fNeurons]; omega)) us.1 ut.1,
     fTwin_upd hX fs Ls.tail E.2 h.2.2.2 s.2 t.2 _ _ s'.2 t'.2 hs.2 ht.2 e.2 (hG.cols (Nat.le_refl _)) us.2 ut.2⟩

theorem horiz_det [Zero α] [One α] [Add α] {inc bias buf cap : Nat} {fs : List (Fld α)} {Ls : Laws fs} {E : FTwins fs} (h : fDet inc fs Ls E) :
    Det (horizLaw inc bias buf cap Ls) (fTwin fs E) where
  refl := fTwin_refl fs Ls E h
  symm := fTwin_symm fs Ls E h
  trans := fTwin_trans fs Ls E h
  mode := fun b => fTwin_mode b fs Ls E h
  resize := fun R => fTwin_resize R fs Ls E h
  idle := fun R s A T O => fTwin_idle R _ _ fs Ls E h 0 s A T O
  pass := fun R s t A T O A' T' O' => fTwin_pass R _ _ fs Ls E h 0 s t A T O A' T' O'
  fwd := fun b R s t X Y hs ht e hX => fTwin_fwd b hX fs Ls E h s t hs ht e
  bwd := fun R s t X Y G H hs ht e hX hG => fTwin_bwd hX fs Ls E h s t G H hs ht e hG
  upd := fun R s t X Y G H s' t' hs ht e hX hG us ut => fTwin_upd hX fs Ls E h s t G H s' t' hs ht e hG us ut

/-! ### Trees -/

/-- An elementary layer has the sizes it should have, and twins. -/
structure LeafDet {I : Nat → Leaf → BS → Nat → Sem α} (E : ∀ id l inc n, Twin (I id l inc n).obj) (l : Leaf) : Prop where
  sizes : ∀ id inc n, (I id l inc n).obj.inc = n ∧ (I id l inc n).obj.neurons = l.neurons
  det : ∀ id inc n, Det (I id l inc n).law (E id l inc n).E

variable [Zero α] [One α] [Add α]

mutual
theorem tree_det {I : Nat → Leaf → BS → Nat → Sem α} {E : ∀ id l inc n, Twin (I id l inc n).obj} (l : Layer) (inc : BS) (n : Nat)
    (hp : l.AllPacks FieldsInside Divisible n) (hl : l.AllLeaves (LeafDet E)) (hx : NoExtra l) :
    Det (sem I l inc n).law (treeTwin E l inc n).E ∧ (sem I l inc n).obj.inc = n ∧ (sem I l inc n).obj.neurons = l.neurons := by
  match l with
  | .leaf id l => exact ⟨hl.det id inc n, hl.sizes id inc n⟩
  | .vert _ f r =>
    obtain ⟨h1, h2, h3⟩ := tree_det f inc n hp.1 hl.1 hx.1
    obtain ⟨a1, a2, a3⟩ := stack_det r inc f.neurons hp.2 hl.2 hx.2 (sem I f inc n) h3 (treeTwin E f inc n) h1
    exact ⟨a1, a2.trans h2, a3⟩
  | .horiz _ add fs =>
    simp only [Layer.AllPacks] at hp
    obtain ⟨h1, h2⟩ := fields_det fs inc n hp.1 hp.2 hl hx.2
    refine ⟨horiz_det h1, rfl, ?_⟩
    have := hx.1
    subst this
    exact h2
  | .tile _ k l =>
    obtain ⟨⟨hk, hm⟩, hp⟩ := hp
    obtain ⟨h1, h2, h3⟩ := tree_det l (inc.mul k) (n / k) hp hl hx
    refine ⟨tile_det h1, ?_, ?_⟩
    · have := Nat.div_add_mod n k
      show k * (sem I l (inc.mul k) (n / k)).obj.inc = n
      rw [h2]; omega
    · show k * (sem I l (inc.mul k) (n / k)).obj.neurons = _
      rw [h3]; rfl
theorem stack_det {I : Nat → Leaf → BS → Nat → Sem α} {E : ∀ id l inc n, Twin (I id l inc n).obj} (r : Stack) (inc : BS) (m : Nat)
    (hp : r.AllPacks FieldsInside Divisible m) (hl : r.AllLeaves (LeafDet E)) (hx : NoExtraS r) (acc : Sem α) (hm : acc.obj.neurons = m)
    (A : Twin acc.obj) (hA : Det acc.law A.E) :
    Det (semStack I r inc acc).law (stackTwin E r inc acc A).E ∧ (semStack I r inc acc).obj.inc = acc.obj.inc ∧
      (semStack I r inc acc).obj.neurons = r.top m := by
  match r with
  | .nil => exact ⟨hA, rfl, hm⟩
  | .cons l r =>
    obtain ⟨h1, h2, h3⟩ := tree_det (E := E) l inc m hp.1 hl.1 hx.1
    subst hm
    obtain ⟨a1, a2, a3⟩ := stack_det (E := E) r inc l.neurons hp.2 hl.2 hx.2
      ⟨over acc.obj (sem I l inc acc.obj.neurons).obj, overLaw acc.law (sem I l inc acc.obj.neurons).law⟩ h3
      ⟨fun s t => A.E s.1 t.1 ∧ (treeTwin E l inc acc.obj.neurons).E s.2.2 t.2.2⟩ (over_det hA h1 h2)
    exact ⟨a1, a2, a3⟩
theorem fields_det {I : Nat → Leaf → BS → Nat → Sem α} {E : ∀ id l inc n, Twin (I id l inc n).obj} (fs : Fields) (inc : BS) (n : Nat)
    (hr : FieldsInside n fs.coords) (hp : fs.AllPacks FieldsInside Divisible) (hl : fs.AllLeaves (LeafDet E)) (hx : NoExtraF fs) :
    fDet n (semFields I fs inc).fs (semFields I fs inc).laws (fieldsTwin E fs inc) ∧ fNeurons (semFields I fs inc).fs = fs.neurons := by
  match fs with
  | .nil => exact ⟨trivial, rfl⟩
  | .cons ofs cnt l r =>
    obtain ⟨h1, h2, h3⟩ := tree_det (E := E) l inc cnt hp.1 hl.1 hx.1
    obtain ⟨a1, a2⟩ := fields_det (E := E) r inc n (fun c hc => hr c (List.mem_cons_of_mem _ hc)) hp.2 hl.2 hx.2
    refine ⟨⟨h1, h2, hr (ofs, cnt) List.mem_cons_self, a1⟩, ?_⟩
    show (sem I l inc cnt).obj.neurons + fNeurons (semFields I r inc).fs = _
    rw [h3, a2]; rfl
end

end Nntl.Pass
