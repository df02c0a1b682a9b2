import Mathlib.Data.List.Nodup
import Verif.Matrix.OwnLemmas
import Verif.Matrix.Lemmas
/-! Property theorems C11 (storage released exactly once) and C08 (a clone is independent). -/
namespace Nntl.Matrix.Own
variable {α : Type}

/-- Reachable worlds: any operation history from the empty world. -/
def Reaches (mem : Nat → Nat → α) (userBlocks : Nat) (w : World α) : Prop :=
  ∃ ops, run ops (World.init mem userBlocks) = some w

/-- No block is released twice, only blocks allocated by a matrix are released (never an interior pointer), and memory
of the user is never released. -/
theorem released_at_most_once (mem : Nat → Nat → α) (n : Nat) (w : World α) (h : Reaches mem n w) :
    w.frees.Nodup ∧ (∀ p ∈ w.frees, p.2 = 0 ∧ p.1 ∈ w.allocs) ∧ (∀ p ∈ w.frees, n ≤ p.1) := by
  obtain ⟨ops, h⟩ := h
  have hw := winv_run ops (winv_init mem n) h
  exact ⟨hw.nodup, hw.alloced, fun p hp => hw.user _ (hw.alloced p hp).2⟩

/-- When all matrices are destroyed, every block ever allocated has been released. -/
theorem nothing_leaked (mem : Nat → Nat → α) (n : Nat) (w : World α) (h : Reaches mem n w)
    (hall : ∀ id, w.hdr id = none) : ∀ b ∈ w.allocs, (b, 0) ∈ w.frees := by
  obtain ⟨ops, h⟩ := h
  have hw := winv_run ops (winv_init mem n) h
  intro b hb
  rcases hw.complete b hb with h1 | ⟨id, h1⟩
  · exact h1
  · simp [own, hall id, ownH] at h1

/-- Combined: after destruction of all matrices each allocated block occurs exactly once among the releases. -/
theorem released_exactly_once (mem : Nat → Nat → α) (n : Nat) (w : World α) (h : Reaches mem n w)
    (hall : ∀ id, w.hdr id = none) : ∀ b ∈ w.allocs, w.frees.count (b, 0) = 1 := by
  intro b hb
  have h1 := nothing_leaked mem n w h hall b hb
  have h2 := (released_at_most_once mem n w h).1
  have h3 : 0 < w.frees.count (b, 0) := List.count_pos_iff.mpr h1
  have h4 : w.frees.count (b, 0) ≤ 1 := List.nodup_iff_count_le_one.mp h2 (b, 0)
  omega

/-- The storage an object manages itself is not released while the object is alive and is managed by no other object. -/
theorem managed_storage_is_live (mem : Nat → Nat → α) (n : Nat) (w : World α) (h : Reaches mem n w) (id : Nat) (hd : Hdr)
    (hh : w.hdr id = some hd) (hx : hd.ext = false) (p : Nat × Nat) (hp : hd.ptr = some p) :
    p ∉ w.frees ∧ ∀ id' hd', w.hdr id' = some hd' → hd'.ext = false → hd'.ptr = some p → id' = id := by
  obtain ⟨ops, h⟩ := h
  have hw := winv_run ops (winv_init mem n) h
  have ho : own w id = some p := by rw [ownH_eq w id hd hh, hx]; simpa using hp
  refine ⟨(hw.owned id p ho).2.2, ?_⟩
  intro id' hd' hh' hx' hp'
  have ho' : own w id' = some p := by rw [ownH_eq w id' hd' hh', hx']; simpa using hp'
  exact hw.unique id' id p ho' ho

/-- non-vacuity: create, resize, move, alias as external storage, destroy everything; one block, released once. -/
example : ∃ w, run [Op.createSized 0 2 3 true false (fun _ => (0:Int)) true, .create 1, .resize 1 5 5 (fun _ => 0) true,
    .moveAssign 1 0, .createExt 2 (8, 0) 2 2 false false, .clear 2, .resize 0 1 1 (fun _ => 0) true, .destroy 2,
    .destroy 0, .destroy 1] (World.init (fun _ _ => 0) 7) = some w ∧ w.allocs = [9, 8, 7] ∧ w.frees = [(7,0), (9,0), (8,0)] :=
  ⟨_, rfl, rfl, rfl⟩

/-! ## C08: independence of a clone -/

/-- Later writes: each pair is a cell index and a value, written through object `id`. -/
def writes (id : Nat) (ws : List (Nat × α)) : List (Op α) := ws.map fun kv => Op.write id kv.1 kv.2

theorem writes_frame (id : Nat) (ws : List (Nat × α)) (w w' : World α) (h : run (writes id ws) w = some w') :
    w'.hdr = w.hdr ∧ ∀ b k, (∀ hd p, w.hdr id = some hd → hd.ptr = some p → p.1 ≠ b) → w'.mem b k = w.mem b k := by
  induction ws generalizing w with
  | nil => simp only [writes, List.map_nil, run, List.foldlM_nil] at h; cases h; exact ⟨rfl, fun _ _ _ => rfl⟩
  | cons kv ws ih =>
    simp only [writes, List.map_cons, run, List.foldlM_cons] at h
    cases hs : (Op.write id kv.1 kv.2).step w with
    | none => rw [hs] at h; contradiction
    | some w1 =>
      rw [hs] at h
      obtain ⟨h1, h2⟩ := ih w1 h
      simp only [Op.step] at hs
      split at hs
      · rename_i hd hhd
        split at hs
        · rename_i p hp
          split at hs
          · cases hs
            refine ⟨h1, ?_⟩
            intro b k hb
            rw [h2 b k hb]
            simp only
            rw [if_neg]
            rintro ⟨rfl, _⟩
            exact hb hd p hhd hp rfl
          · contradiction
        · contradiction
      · contradiction

/-- A matrix cloned between two objects that manage their storage: the clone reads like the source, and afterwards no
history of writes through one of them changes what is read through the other. -/
theorem clone_independent (mem : Nat → Nat → α) (n : Nat) (w w1 : World α) (hr : Reaches mem n w) (s d : Nat)
    (junk : Nat → α) (ok : Bool) (hc : w.cloneTo s d junk ok = some (w1, true))
    (hsx : ∀ h, w.hdr s = some h → h.ext = false) (hdx : ∀ h, w.hdr d = some h → h.ext = false) :
    (∀ r c, w1.get d r c = w1.get s r c) ∧ (∀ r c, w1.get s r c = w.get s r c) ∧
    (∀ ws w2, run (writes s ws) w1 = some w2 → ∀ r c, w2.get d r c = w1.get d r c) ∧
    (∀ ws w2, run (writes d ws) w1 = some w2 → ∀ r c, w2.get s r c = w1.get s r c) := by
  obtain ⟨ops, hr⟩ := hr
  have hw := winv_run ops (winv_init mem n) hr
  have hw1 := winv_cloneTo hw s d junk ok w1 true hc
  -- headers of both objects after the clone
  unfold World.cloneTo at hc
  split at hc
  · rename_i hs hd hhs hhd
    have hsx := hsx hs hhs
    have hdx := hdx hd hhd
    rw [if_neg (by simp [hdx] : ¬ hd.ext = true)] at hc
    split at hc
    · contradiction
    · rename_i hne
      split at hc
      · contradiction
      · cases hc
      · rename_i wr hres
        split at hc
        · rename_i ps hd1 hps hhd1
          split at hc
          · rename_i pd hpd
            cases hc
            -- facts about the resized world
            have hh : wr.hdr s = some hs ∧ (∀ k, wr.mem ps.1 k = w.mem ps.1 k) ∧ hd1.rows = hs.rows ∧ hd1.cols = hs.cols ∧ hd1.ext = false := by
              unfold World.resize at hres
              split at hres
              · cases hres
              · simp only [Bool.false_and, Bool.toNat_false, Nat.add_zero] at hres
                unfold World.implResize at hres
                split at hres
                · cases hres
                · split at hres
                  · rename_i hsz
                    cases hres
                    simp only [World.put, if_true] at hhd1
                    cases hhd1
                    refine ⟨?_, fun _ => rfl, hsz.1.symm, hsz.2.symm, hdx⟩
                    simp only [World.put]; rw [if_neg hne, hhs]
                  · split at hres
                    · contradiction
                    · simp only at hres
                      have hpslt : ps.1 < w.next := by
                        have : own w s = some ps := by rw [ownH_eq w s hs hhs, hsx]; simpa using hps
                        exact hw.fresh _ (hw.owned s ps this).2.1
                      cases ok with
                      | false =>
                        simp [World.malloc] at hres
                      | true =>
                        simp only [World.malloc, if_true, Option.some.injEq, Prod.mk.injEq] at hres
                        obtain ⟨rfl, _⟩ := hres
                        simp only [World.put, if_true] at hhd1
                        cases hhd1
                        refine ⟨?_, ?_, rfl, rfl, hdx⟩
                        · simp only [World.put]; rw [if_neg hne, release_hdr]; simp only; rw [if_neg hne, hhs]
                        · intro k
                          simp only [World.put, release_next]
                          rw [if_neg (by omega)]
                          cases hd.ptr <;> rfl
            obtain ⟨hhs1, hmem, hrows, hcols, hd1x⟩ := hh
            -- distinct blocks
            have hdist : ps.1 ≠ pd.1 := by
              intro he
              have o1 : own ((wr.copy ps pd (hs.rows * hs.cols)).put d (some { hd1 with emul := hs.emul, bir := hs.bir })) s = some ps := by
                rw [ownH_eq _ s hs (by simp only [World.put, World.copy]; rw [if_neg hne, hhs1]), hsx]; simpa using hps
              have o2 : own ((wr.copy ps pd (hs.rows * hs.cols)).put d (some { hd1 with emul := hs.emul, bir := hs.bir })) d = some pd := by
                rw [ownH_eq _ d _ (put_hdr_self _ _ _)]
                simp [hd1x, hpd]
              have e1 := (hw1.owned s ps o1).1
              have e2 := (hw1.owned d pd o2).1
              have : ps = pd := Prod.ext he (by omega)
              subst this
              exact hne (hw1.unique s d ps o1 o2)
            have gs : ((wr.copy ps pd (hs.rows * hs.cols)).put d (some { hd1 with emul := hs.emul, bir := hs.bir })).hdr s = some hs := by
              simp only [World.put, World.copy]; rw [if_neg hne, hhs1]
            have gd : ((wr.copy ps pd (hs.rows * hs.cols)).put d (some { hd1 with emul := hs.emul, bir := hs.bir })).hdr d
                = some { hd1 with emul := hs.emul, bir := hs.bir } := by
              exact put_hdr_self _ _ _
            refine ⟨?_, ?_, ?_, ?_⟩
            · intro r c
              unfold World.get
              rw [gs, gd]
              simp only [hps, hpd, hrows, hcols]
              split
              · rename_i hrc
                have := Nntl.Matrix.cell_lt hrc.1 hrc.2
                simp only [World.put, World.copy]
                rw [if_pos ⟨trivial, by omega, by omega⟩, if_neg (fun hh => hdist hh.1)]
                congr 2; omega
              · rfl
            · intro r c
              unfold World.get
              rw [gs, hhs]
              simp only [hps]
              split
              · simp only [World.put, World.copy]
                rw [if_neg (fun hh => hdist hh.1), hmem]
              · rfl
            · intro ws w2 hrun r c
              obtain ⟨hh1, hh2⟩ := writes_frame s ws _ w2 hrun
              unfold World.get
              rw [hh1, gd]
              simp only [hpd]
              split
              · refine congrArg some (hh2 _ _ ?_)
                intro hd' p' hx hy
                rw [gs] at hx; cases hx
                rw [hps] at hy; cases hy
                exact hdist
              · rfl
            · intro ws w2 hrun r c
              obtain ⟨hh1, hh2⟩ := writes_frame d ws _ w2 hrun
              unfold World.get
              rw [hh1, gs]
              simp only [hps]
              split
              · refine congrArg some (hh2 _ _ ?_)
                intro hd' p' hx hy
                rw [gd] at hx; cases hx
                simp only [hpd] at hy; cases hy
                exact fun he => hdist he.symm
              · rfl
          · contradiction
        · contradiction
  · contradiction

/-- non-vacuity: a clone of a 1x2 matrix with biases -/
example : ∃ w w1, run [Op.createSized 0 1 2 true false (fun k => (k:Int)) true, .createSized 1 4 4 false true (fun _ => 9) true]
    (World.init (fun _ _ => 0) 0) = some w ∧ w.cloneTo 0 1 (fun _ => 8) true = some (w1, true) ∧ w1.get 1 0 2 = some 2 :=
  ⟨_, _, rfl, rfl, rfl⟩

/-- The object `id` exists and holds nothing. -/
def HoldsNothing (w : World α) (id : Nat) : Prop := ∃ h, w.hdr id = some h ∧ h.ptr = none ∧ h.rows = 0 ∧ h.cols = 0

/-- Moving a matrix (constructing or assigning) hands everything over: the target has the size, the flags and the elements the source had,
whether the source owned them or used storage of the user, the source holds nothing, no other matrix changes and nothing is copied. -/
theorem move_hands_over (w w' : World α) (id src : Nat) (hne : id ≠ src)
    (h : (Op.moveCreate id src).step w = some w' ∨ (Op.moveAssign id src).step w = some w') :
    w'.hdr id = w.hdr src ∧ (∀ r c, w'.get id r c = w.get src r c) ∧ HoldsNothing w' src ∧
    (∀ i, i ≠ id → i ≠ src → w'.hdr i = w.hdr i ∧ ∀ r c, w'.get i r c = w.get i r c) ∧ w'.mem = w.mem := by
  have key : ∀ (w0 : World α) (hs : Hdr), w0.hdr = w.hdr → w0.mem = w.mem → w.hdr src = some hs →
      w' = (w0.put id (some hs)).put src (some hs.freed) →
      w'.hdr id = w.hdr src ∧ (∀ r c, w'.get id r c = w.get src r c) ∧ HoldsNothing w' src ∧
      (∀ i, i ≠ id → i ≠ src → w'.hdr i = w.hdr i ∧ ∀ r c, w'.get i r c = w.get i r c) ∧ w'.mem = w.mem := by
    intro w0 hs e0 em hs' e
    have hid : w'.hdr id = w.hdr src := by rw [e, hs']; simp [World.put, hne]
    have hm : w'.mem = w.mem := by rw [e]; exact em
    have ho : ∀ i, i ≠ id → i ≠ src → w'.hdr i = w.hdr i := by
      intro i h1 h2; rw [e]; simp [World.put, h1, h2, e0]
    refine ⟨hid, ?_, ⟨hs.freed, by rw [e]; simp [World.put], rfl, rfl, rfl⟩, fun i h1 h2 => ⟨ho i h1 h2, ?_⟩, hm⟩
    · intro r c; simp only [World.get, hid, hm]
    · intro r c; simp only [World.get, ho i h1 h2, hm]
  rcases h with h | h
  · simp only [Op.step] at h
    cases hs : w.hdr src with
    | none => rw [hs] at h; cases h
    | some s =>
      rw [hs] at h
      simp only at h
      by_cases hi : (w.hdr id).isSome
      · rw [if_pos hi] at h; cases h
      · rw [if_neg hi] at h; cases h
        have := key w s rfl rfl hs rfl
        rwa [hs] at this
  · simp only [Op.step] at h
    cases hi : w.hdr id with
    | none => rw [hi] at h; cases h
    | some d =>
      cases hs : w.hdr src with
      | none => rw [hi, hs] at h; cases h
      | some s =>
        rw [hi, hs] at h
        simp only [if_neg hne] at h
        cases h
        have := key (w.hfree d) s (by unfold World.hfree World.release; cases d.ext <;> cases d.ptr <;> rfl)
          (by unfold World.hfree World.release; cases d.ext <;> cases d.ptr <;> rfl) hs rfl
        rwa [hs] at this

/-- `clear` leaves a matrix that holds nothing and manages its own storage again; no other matrix changes. -/
theorem clear_empties (w w' : World α) (id : Nat) (h : (Op.clear id).step w = some w') :
    HoldsNothing w' id ∧ (∀ hd, w'.hdr id = some hd → hd.ext = false) ∧
    ∀ i, i ≠ id → w'.hdr i = w.hdr i ∧ ∀ r c, w'.get i r c = w.get i r c := by
  simp only [Op.step] at h
  cases hi : w.hdr id with
  | none => rw [hi] at h; cases h
  | some d =>
    rw [hi] at h
    cases h
    have e1 : (w.hfree d).hdr = w.hdr := by unfold World.hfree World.release; cases d.ext <;> cases d.ptr <;> rfl
    have e2 : (w.hfree d).mem = w.mem := by unfold World.hfree World.release; cases d.ext <;> cases d.ptr <;> rfl
    refine ⟨⟨{ d.freed with ext := false, bir := false }, by simp only [World.put, if_true], rfl, rfl, rfl⟩, ?_, ?_⟩
    · intro hd e; simp only [World.put, if_true] at e; cases e; rfl
    · intro i hne
      have e3 : ∀ x, ((w.hfree d).put id x).hdr i = w.hdr i := by intro x; simp only [World.put, if_neg hne, e1]
      refine ⟨e3 _, fun r c => ?_⟩
      simp only [World.get, e3]
      rw [show ∀ x, ((w.hfree d).put id x).mem = w.mem from fun _ => e2]

/-- A matrix of 2 × 3 is moved into an existing one and cleared there. -/
example : let w : World Nat := World.init (fun _ _ => 0) 1
    ∃ w1 w2 w3, run [.createSized 0 2 3 false false id true, .createSized 1 1 1 true false id true] w = some w1 ∧
      (Op.moveAssign 1 0).step w1 = some w2 ∧ w2.get 1 1 2 = some 5 ∧ w2.frees = [(2, 0)] ∧
      (Op.clear 1).step w2 = some w3 ∧ w3.frees = [(1, 0), (2, 0)] :=
  ⟨_, _, _, rfl, rfl, rfl, rfl, rfl, rfl⟩

/-- A matrix that used storage of the user and was moved from is empty, but not like a new one: it can not be given another size. -/
theorem moved_from_external_stuck (w w' : World α) (id src : Nat) (hne : id ≠ src) (hd : Hdr) (he : w.hdr src = some hd) (hx : hd.ext = true)
    (h : (Op.moveCreate id src).step w = some w' ∨ (Op.moveAssign id src).step w = some w') (r c : Nat) (hr : r ≠ 0) (hc : c ≠ 0)
    (junk : Nat → α) (ok : Bool) : HoldsNothing w' src ∧ (Op.resize src r c junk ok).step w' = none := by
  refine ⟨(move_hands_over w w' id src hne h).2.2.1, ?_⟩
  have hs : w'.hdr src = some hd.freed := by
    rcases h with h | h
    · simp only [Op.step, he] at h
      by_cases hi : (w.hdr id).isSome
      · rw [if_pos hi] at h; cases h
      · rw [if_neg hi] at h; cases h; simp [World.put]
    · simp only [Op.step, he] at h
      cases hi : w.hdr id with
      | none => rw [hi] at h; cases h
      | some d => rw [hi] at h; simp only [if_neg hne] at h; cases h; simp [World.put]
  simp only [Op.step, hs, World.resize, World.implResize]
  simp [hr, hc, Hdr.freed, hx]

end Nntl.Matrix.Own
