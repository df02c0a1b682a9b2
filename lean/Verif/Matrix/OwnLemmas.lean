import Mathlib.Tactic.ByContra
import Verif.Matrix.OwnModel
/-! Ownership invariant behind C11. -/
namespace Nntl.Matrix.Own
set_option linter.unusedSimpArgs false
variable {α : Type}

abbrev Ptr := Nat × Nat

/-- The pointer an object is responsible for. -/
def ownH : Option Hdr → Option Ptr
  | some h => if h.ext then none else h.ptr
  | none => none

theorem ownH_null (h : Hdr) (hp : h.ptr = none) : ownH (some h) = none := by
  simp only [ownH, hp]; split <;> rfl

def own (w : World α) (id : Nat) : Option Ptr := ownH (w.hdr id)

def updO (o : Nat → Option Ptr) (id : Nat) (p : Option Ptr) : Nat → Option Ptr := fun i => if i = id then p else o i

/-- Ownership invariant over (who owns what, allocated blocks, freed pointers, next fresh block). -/
structure AInv (n0 : Nat) (o : Nat → Option Ptr) (al : List Nat) (fr : List Ptr) (nx : Nat) : Prop where
  fresh : ∀ b ∈ al, b < nx
  user : ∀ b ∈ al, n0 ≤ b
  n0le : n0 ≤ nx
  nodup : fr.Nodup
  alloced : ∀ p ∈ fr, p.2 = 0 ∧ p.1 ∈ al
  owned : ∀ id p, o id = some p → p.2 = 0 ∧ p.1 ∈ al ∧ p ∉ fr
  unique : ∀ i j p, o i = some p → o j = some p → i = j
  complete : ∀ b ∈ al, (b, 0) ∈ fr ∨ ∃ id, o id = some (b, 0)

theorem ainv_free {n0 o al fr nx} (h : AInv n0 o al fr nx) (id : Nat) :
    AInv n0 (updO o id none) al ((o id).toList ++ fr) nx := by
  cases hp : o id with
  | none =>
    have : updO o id none = o := by
      funext i; unfold updO; split
      · rename_i hi; rw [hi, hp]
      · rfl
    rw [this]; exact h
  | some p =>
    have hop := h.owned id p hp
    constructor
    · exact h.fresh
    · exact h.user
    · exact h.n0le
    · simp only [Option.toList, List.cons_append, List.nil_append, List.nodup_cons]
      exact ⟨hop.2.2, h.nodup⟩
    · intro q hq
      simp only [Option.toList, List.cons_append, List.nil_append, List.mem_cons] at hq
      rcases hq with rfl | hq
      · exact ⟨hop.1, hop.2.1⟩
      · exact h.alloced q hq
    · intro i q hi
      unfold updO at hi
      split at hi
      · contradiction
      · rename_i hne
        have := h.owned i q hi
        refine ⟨this.1, this.2.1, ?_⟩
        simp only [Option.toList, List.cons_append, List.nil_append, List.mem_cons, not_or]
        refine ⟨?_, this.2.2⟩
        rintro rfl
        exact hne (h.unique i id q hi hp)
    · intro i j q hi hj
      unfold updO at hi hj
      split at hi
      · contradiction
      · split at hj
        · contradiction
        · exact h.unique i j q hi hj
    · intro b hb
      rcases h.complete b hb with h1 | ⟨i, h1⟩
      · left; simp [h1]
      · by_cases hi : i = id
        · left; subst hi; rw [hp] at h1; cases h1; simp
        · right; exact ⟨i, by unfold updO; rw [if_neg hi]; exact h1⟩

theorem ainv_alloc {n0 o al fr nx} (h : AInv n0 o al fr nx) (id : Nat) (hid : o id = none) :
    AInv n0 (updO o id (some (nx, 0))) (nx :: al) fr (nx + 1) := by
  constructor
  · intro b hb
    rcases List.mem_cons.mp hb with rfl | hb
    · omega
    · have := h.fresh b hb; omega
  · intro b hb
    rcases List.mem_cons.mp hb with rfl | hb
    · exact h.n0le
    · exact h.user b hb
  · have := h.n0le; omega
  · exact h.nodup
  · intro p hp
    have := h.alloced p hp
    exact ⟨this.1, List.mem_cons_of_mem _ this.2⟩
  · intro i p hi
    unfold updO at hi
    split at hi
    · cases hi
      refine ⟨rfl, List.mem_cons_self, ?_⟩
      intro hf
      have := h.fresh _ (h.alloced _ hf).2
      simp at this
    · have := h.owned i p hi
      exact ⟨this.1, List.mem_cons_of_mem _ this.2.1, this.2.2⟩
  · intro i j p hi hj
    unfold updO at hi hj
    split at hi <;> split at hj
    · omega
    · cases hi
      have := h.fresh _ (h.owned j _ hj).2.1
      simp at this
    · cases hj
      have := h.fresh _ (h.owned i _ hi).2.1
      simp at this
    · exact h.unique i j p hi hj
  · intro b hb
    rcases List.mem_cons.mp hb with rfl | hb
    · right; exact ⟨id, by simp [updO]⟩
    · rcases h.complete b hb with h1 | ⟨i, h1⟩
      · left; exact h1
      · right
        refine ⟨i, ?_⟩
        unfold updO; rw [if_neg]
        · exact h1
        · rintro rfl; rw [hid] at h1; contradiction

theorem ainv_move {n0 o al fr nx} (h : AInv n0 o al fr nx) (id src : Nat) (hid : o id = none) (hne : id ≠ src) :
    AInv n0 (updO (updO o id (o src)) src none) al fr nx := by
  constructor
  · exact h.fresh
  · exact h.user
  · exact h.n0le
  · exact h.nodup
  · exact h.alloced
  · intro i p hi
    unfold updO at hi
    split at hi
    · contradiction
    · split at hi
      · exact h.owned src p hi
      · exact h.owned i p hi
  · intro i j p hi hj
    unfold updO at hi hj
    split at hi
    · contradiction
    · split at hj
      · contradiction
      · split at hi <;> split at hj
        · omega
        · have := h.unique src j p hi hj; omega
        · have := h.unique i src p hi hj; omega
        · exact h.unique i j p hi hj
  · intro b hb
    rcases h.complete b hb with h1 | ⟨i, h1⟩
    · left; exact h1
    · right
      by_cases hi : i = src
      · subst hi
        refine ⟨id, ?_⟩
        unfold updO; rw [if_neg hne, if_pos rfl]; exact h1
      · refine ⟨i, ?_⟩
        unfold updO; rw [if_neg hi, if_neg]
        · exact h1
        · rintro rfl; rw [hid] at h1; contradiction

def WInv (n0 : Nat) (w : World α) : Prop := AInv n0 (own w) w.allocs w.frees w.next

theorem own_put (w : World α) (id : Nat) (h : Option Hdr) : own (w.put id h) = updO (own w) id (ownH h) := by
  funext i
  simp only [own, World.put, updO]
  split <;> rfl

@[simp] theorem put_allocs (w : World α) (id h) : (w.put id h).allocs = w.allocs := rfl
@[simp] theorem put_frees (w : World α) (id h) : (w.put id h).frees = w.frees := rfl
@[simp] theorem put_next (w : World α) (id h) : (w.put id h).next = w.next := rfl

theorem updO_updO (o : Nat → Option Ptr) (id p q) : updO (updO o id p) id q = updO o id q := by
  funext i; unfold updO; split <;> rfl

theorem updO_same (o : Nat → Option Ptr) (id p) (h : o id = p) : updO o id p = o := by
  funext i; unfold updO; split
  · rename_i hi; rw [hi, h]
  · rfl

/-- Changing a header without changing what it owns. -/
theorem winv_put_same {n0} {w : World α} (hw : WInv n0 w) (id : Nat) (h : Option Hdr) (he : ownH h = own w id) :
    WInv n0 (w.put id h) := by
  unfold WInv; rw [own_put, he, updO_same _ _ _ rfl]; exact hw

theorem release_frees (w : World α) (p : Option Ptr) : (w.release p).frees = p.toList ++ w.frees := by
  cases p <;> rfl
theorem release_allocs (w : World α) (p : Option Ptr) : (w.release p).allocs = w.allocs := by cases p <;> rfl
theorem release_next (w : World α) (p : Option Ptr) : (w.release p).next = w.next := by cases p <;> rfl
theorem release_hdr (w : World α) (p : Option Ptr) : (w.release p).hdr = w.hdr := by cases p <;> rfl

/-- Free what the object owns and give it a header owning nothing. -/
theorem winv_free {n0} {w : World α} (hw : WInv n0 w) (id : Nat) (h : Hdr) (hh : w.hdr id = some h) (h' : Option Hdr)
    (he : ownH h' = none) : WInv n0 ((w.hfree h).put id h') := by
  have hf := ainv_free hw id
  have ho : own w id = if h.ext then none else h.ptr := by simp [own, hh, ownH]
  unfold WInv
  rw [own_put, he]
  unfold World.hfree
  cases hx : h.ext with
  | true => simp [hx] at ho; simpa [ho, hx] using hf
  | false =>
    simp [hx] at ho
    have hown : own (w.release h.ptr) = own w := by funext i; simp [own, release_hdr]
    simp only [Bool.false_eq_true, if_false, put_allocs, put_frees, put_next, release_frees, release_allocs, release_next, hown]
    rw [ho] at hf; exact hf

theorem hfree_hdr (w : World α) (h : Hdr) : (w.hfree h).hdr = w.hdr := by
  unfold World.hfree; split
  · rfl
  · exact release_hdr _ _

/-- Allocate into an object that owns nothing. -/
theorem winv_malloc {n0} {w : World α} (hw : WInv n0 w) (id : Nat) (hid : own w id = none) (junk : Nat → α) (ok : Bool)
    (w2 : World α) (p : Option Ptr) (hm : w.malloc junk ok = (w2, p)) (h' : Hdr) (he : h'.ext = false) (hp : h'.ptr = p) :
    WInv n0 (w2.put id (some h')) := by
  unfold World.malloc at hm
  cases ok with
  | false =>
    simp only [Bool.false_eq_true, if_false] at hm
    cases hm
    apply winv_put_same hw
    simp [ownH, he, hp, hid]
  | true =>
    simp only [if_true] at hm
    cases hm
    unfold WInv
    rw [own_put]
    have := ainv_alloc hw id hid
    have e : ownH (some h') = some (w.next, 0) := by simp [ownH, he, hp]
    rw [e]; exact this

/-- `winv_malloc` when the object's previous pointer was released just before. -/
theorem winv_realloc {n0} {w : World α} (hw : WInv n0 w) (id : Nat) (h : Hdr) (hh : w.hdr id = some h) (hx : h.ext = false)
    (junk : Nat → α) (ok : Bool) (w2 : World α) (p : Option Ptr) (hm : (w.release h.ptr).malloc junk ok = (w2, p))
    (h' : Hdr) (he : h'.ext = false) (hp : h'.ptr = p) : WInv n0 (w2.put id (some h')) := by
  have h1 := winv_free hw id h hh none rfl
  have h2 : (w.hfree h).put id none = (w.release h.ptr).put id none := by simp [World.hfree, hx]
  rw [h2] at h1
  have h3 : own ((w.release h.ptr).put id none) id = none := by simp [own, World.put, ownH]
  have h4 : ((w.release h.ptr).put id none).malloc junk ok = (w2.put id none, p) := by
    unfold World.malloc at hm ⊢
    cases ok
    · simp at hm ⊢; obtain ⟨rfl, rfl⟩ := hm; exact ⟨rfl, rfl⟩
    · simp at hm ⊢; obtain ⟨rfl, rfl⟩ := hm; exact ⟨rfl, rfl⟩
  have h5 := winv_malloc h1 id h3 junk ok _ p h4 h' he hp
  have h6 : (w2.put id none).put id (some h') = w2.put id (some h') := by
    simp only [World.put, World.mk.injEq, true_and]
    funext i; split <;> rfl
  rwa [h6] at h5

theorem winv_implResize {n0} {w : World α} (hw : WInv n0 w) (id : Nat) (h : Hdr) (hh : w.hdr id = some h) (r c junk ok)
    (w' : World α) (b : Bool) (hr : w.implResize id h r c junk ok = some (w', b)) : WInv n0 w' := by
  unfold World.implResize at hr
  split at hr
  · cases hr; exact hw
  · split at hr
    · cases hr; exact hw
    · split at hr
      · contradiction
      · rename_i hx
        simp only at hr
        cases hr
        exact winv_realloc hw id h hh (by simpa using hx) junk ok _ _ rfl _ (by simpa using hx) rfl

theorem winv_resize {n0} {w : World α} (hw : WInv n0 w) (id : Nat) (h : Hdr) (hh : w.hdr id = some h) (r c junk ok)
    (w' : World α) (b : Bool) (hr : w.resize id h r c junk ok = some (w', b)) : WInv n0 w' := by
  unfold World.resize at hr
  split at hr
  · cases hr; exact hw
  · exact winv_implResize hw id h hh _ _ _ _ _ _ hr

theorem winv_mem {n0} {w : World α} (hw : WInv n0 w) (m : Nat → Nat → α) : WInv n0 { w with mem := m } := hw

theorem put_hdr_self (w : World α) (id h) : (w.put id h).hdr id = h := by simp [World.put]

theorem ownH_eq (w : World α) (id : Nat) (h : Hdr) (hh : w.hdr id = some h) : own w id = if h.ext then none else h.ptr := by
  simp [own, hh, ownH]

theorem winv_cloneTo {n0} {w : World α} (hw : WInv n0 w) (s d junk ok) (w' : World α) (b : Bool)
    (hr : w.cloneTo s d junk ok = some (w', b)) : WInv n0 w' := by
  unfold World.cloneTo at hr
  split at hr
  · rename_i hs hd hhs hhd
    split at hr
    · contradiction
    · split at hr
      · rename_i hx
        split at hr
        · cases hr; exact hw
        · split at hr
          · cases hr
            exact winv_put_same (winv_mem hw _) d _ (ownH_eq w d hd hhd).symm
          · contradiction
      · rename_i hx
        have h0 : WInv n0 (w.put d (some { hd with emul := false })) :=
          winv_put_same hw d _ (by rw [ownH_eq w d hd hhd]; simp [ownH])
        split at hr
        · contradiction
        · rename_i hres
          cases hr
          exact winv_resize h0 d _ (put_hdr_self _ _ _) _ _ _ _ _ _ hres
        · rename_i w1 hres
          have h1 := winv_resize h0 d _ (put_hdr_self _ _ _) _ _ _ _ _ _ hres
          split at hr
          · rename_i hd1 hps hhd1
            split at hr
            · cases hr
              exact winv_put_same (winv_mem h1 _) d _ (ownH_eq w1 d hd1 hhd1).symm
            · contradiction
          · contradiction
  · contradiction

theorem winv_step {n0} {w w' : World α} (hw : WInv n0 w) (o : Op α) (h : o.step w = some w') : WInv n0 w' := by
  cases o with
  | create id =>
    simp only [Op.step] at h
    split at h
    · contradiction
    · rename_i hn
      cases h
      have : w.hdr id = none := by simpa using hn
      exact winv_put_same hw id _ (by simp [ownH, own, this])
  | createSized id r c e b junk ok =>
    simp only [Op.step] at h
    split at h
    · contradiction
    · rename_i hn
      cases h
      have : w.hdr id = none := by
        cases hx : w.hdr id with
        | none => rfl
        | some x => simp [hx] at hn
      exact winv_malloc hw id (by simp [own, this, ownH]) junk ok _ _ rfl _ rfl rfl
  | createExt id p r c e b =>
    simp only [Op.step] at h
    split at h
    · contradiction
    · rename_i hn
      cases h
      have : w.hdr id = none := by
        cases hx : w.hdr id with
        | none => rfl
        | some x => simp [hx] at hn
      exact winv_put_same hw id _ (by simp [ownH, own, this])
  | moveCreate id src =>
    simp only [Op.step] at h
    split at h
    · contradiction
    · rename_i hs hhs
      split at h
      · contradiction
      · rename_i hn
        cases h
        have hid : w.hdr id = none := by simpa using hn
        have hne : id ≠ src := by rintro rfl; rw [hid] at hhs; contradiction
        unfold WInv
        rw [own_put, own_put]
        have := ainv_move hw id src (by simp [own, hid, ownH]) hne
        have e1 : own w src = ownH (some hs) := by simp [own, hhs]
        have e2 : ownH (some hs.freed) = none := ownH_null _ rfl
        rw [e2, ← e1]; exact this
  | moveAssign id src =>
    simp only [Op.step] at h
    split at h
    · rename_i hd hs hhd hhs
      split at h
      · cases h; exact hw
      · rename_i hne
        cases h
        have h1 := winv_free hw id hd hhd none rfl
        have hid : own ((w.hfree hd).put id none) id = none := by simp [own, World.put, ownH]
        have := ainv_move h1 id src hid hne
        have e1 : own ((w.hfree hd).put id none) src = ownH (some hs) := by
          simp only [own, World.put]
          rw [if_neg (Ne.symm hne), hfree_hdr, hhs]
        have e2 : ownH (some hs.freed) = none := ownH_null _ rfl
        rw [e1, own_put, updO_updO] at this
        unfold WInv
        rw [own_put, own_put, e2]
        exact this
    · contradiction
  | destroy id =>
    simp only [Op.step] at h
    split at h
    · contradiction
    · rename_i hd hhd
      cases h; exact winv_free hw id hd hhd none rfl
  | clear id =>
    simp only [Op.step] at h
    split at h
    · contradiction
    · rename_i hd hhd
      cases h; exact winv_free hw id hd hhd _ (ownH_null _ rfl)
  | resize id r c junk ok =>
    simp only [Op.step] at h
    split at h
    · contradiction
    · rename_i hd hhd
      cases hr : w.resize id hd r c junk ok with
      | none => rw [hr] at h; contradiction
      | some q => rw [hr] at h; cases h; exact winv_resize hw id hd hhd _ _ _ _ _ q.2 hr
  | dResize id r c junk ok =>
    simp only [Op.step] at h
    split at h
    · contradiction
    · rename_i hd hhd
      cases hr : ((w.hfree hd).put id (some hd.freed)).resize id hd.freed r c junk ok with
      | none => rw [hr] at h; contradiction
      | some q =>
        rw [hr] at h; cases h
        exact winv_resize (winv_free hw id hd hhd _ (ownH_null _ rfl)) id _ (put_hdr_self _ _ _) _ _ _ _ _ q.2 hr
  | dResizeNe id ne e b junk ok =>
    simp only [Op.step] at h
    split at h
    · contradiction
    · rename_i hd hhd
      split at h
      · contradiction
      · have key : ∀ w2 p, (w.hfree hd).malloc junk ok = (w2, p) → ∀ h' : Hdr, (p = none → ownH (some h') = none) →
            (p ≠ none → h'.ext = false ∧ h'.ptr = p) → WInv n0 (w2.put id (some h')) := by
          intro w2 p hm h' hp1 hp2
          have h1 := winv_free hw id hd hhd none rfl
          have h3 : own ((w.hfree hd).put id none) id = none := by simp [own, World.put, ownH]
          have h4 : ((w.hfree hd).put id none).malloc junk ok = (w2.put id none, p) := by
            unfold World.malloc at hm ⊢
            cases ok
            · simp at hm ⊢; obtain ⟨rfl, rfl⟩ := hm; exact ⟨rfl, rfl⟩
            · simp at hm ⊢; obtain ⟨rfl, rfl⟩ := hm; exact ⟨rfl, rfl⟩
          have h6 : (w2.put id none).put id (some h') = w2.put id (some h') := by
            simp only [World.put, World.mk.injEq, true_and]
            funext i; split <;> rfl
          cases p with
          | none =>
            have hok : ok = false := by
              cases ok
              · rfl
              · simp [World.malloc] at hm
            subst hok
            simp [World.malloc] at h4
            rw [← h6, ← h4]
            exact winv_put_same h1 id _ (by rw [hp1 rfl, h3])
          | some q =>
            have := hp2 (by simp)
            have h5 := winv_malloc h1 id h3 junk ok _ _ h4 h' this.1 this.2
            rwa [h6] at h5
        split at h
        · rename_i w2 hm
          cases h
          exact key w2 none hm _ (fun _ => ownH_null _ rfl) (fun hh => absurd rfl hh)
        · rename_i w2 p hm
          cases h
          exact key w2 (some p) hm _ (fun hh => by simp at hh) (fun _ => ⟨rfl, rfl⟩)
  | useExternal id p r c e b =>
    simp only [Op.step] at h
    split at h
    · contradiction
    · rename_i hd hhd
      split at h
      · contradiction
      · cases h; exact winv_free hw id hd hhd _ (by simp [ownH])
  | useInternal id r c e b junk ok =>
    simp only [Op.step] at h
    split at h
    · contradiction
    · rename_i hd hhd
      split at h
      · cases h; exact winv_free hw id hd hhd _ (ownH_null _ rfl)
      · generalize hq : World.resize _ _ _ _ _ _ _ = q at h
        cases q with
        | none => contradiction
        | some q =>
          cases h
          exact winv_resize (winv_free hw id hd hhd _ (ownH_null _ rfl)) id _ (put_hdr_self _ _ _) _ _ _ _ _ q.2 hq
  | cloneTo s d junk ok =>
    simp only [Op.step] at h
    cases hr : w.cloneTo s d junk ok with
    | none => rw [hr] at h; contradiction
    | some q => rw [hr] at h; cases h; exact winv_cloneTo hw s d junk ok _ q.2 hr
  | write id k v =>
    simp only [Op.step] at h
    split at h
    · split at h
      · split at h
        · cases h; exact winv_mem hw _
        · contradiction
      · contradiction
    · contradiction
  | setShape id r c =>
    simp only [Op.step] at h
    split at h
    · contradiction
    · rename_i hd hhd
      cases h
      exact winv_put_same hw id _ (by rw [ownH_eq w id hd hhd]; simp [ownH])

theorem winv_init (mem : Nat → Nat → α) (n0 : Nat) : WInv n0 (World.init mem n0) := by
  constructor <;> simp [World.init, own, ownH]

theorem winv_run {n0} (ops : List (Op α)) {w w' : World α} (hw : WInv n0 w) (h : run ops w = some w') : WInv n0 w' := by
  induction ops generalizing w with
  | nil => simp only [run, List.foldlM_nil] at h; cases h; exact hw
  | cons o os ih =>
    simp only [run, List.foldlM_cons] at h
    cases hs : o.step w with
    | none => rw [hs] at h; contradiction
    | some w1 => rw [hs] at h; exact ih (winv_step hw o hs) h

end Nntl.Matrix.Own
