import Verif.Life.Props
/-! Where the claims about lifetimes end, and cases that meet the hypotheses. -/
namespace Nntl.Life

/-- C165 without the restriction is false: a network can be copied, and then its objects are destroyed twice. -/
theorem copy_destroys_twice (dbg : Bool) :
    run dbg [.newLay 5, .make 0 none none none false true true true, .copy 0, .destroy 1, .destroy 0] World.empty = .ub := by
  cases dbg <;> rfl

/-- The copy keeps working with the objects of the original after they are gone. -/
theorem copy_uses_the_destroyed (dbg : Bool) :
    run dbg [.newLay 5, .make 0 none none none false true true true, .copy 0, .destroy 0, .pass 1 false] World.empty = .ub := by
  cases dbg <;> rfl

/-- No memory for one of the objects a network makes: with assertions the program ends; without them the constructor itself or the first use of the network goes
through a null pointer. -/
theorem lack_of_memory :
    run true [.newLay 5, .make 0 none none none true true false true] World.empty = .abort ∧
      run false [.newLay 5, .make 0 none none none true true false true] World.empty = .ub ∧
      run false [.newLay 5, .make 0 none none none false true true false, .pass 0 false] World.empty = .ub := ⟨rfl, rfl, rfl⟩

/-- C166, the generator: the one of the user is attached to the threads of the mathematics a network has made, and stays so when the network is destroyed.
Drawing from it afterwards touches a destroyed pool. -/
theorem generator_dangles (dbg : Bool) :
    run dbg [.newLay 5, .newRng true none, .make 0 none none (some 0) true true true true, .pass 0 false, .destroy 0, .draw 0] World.empty = .ub := by
  cases dbg <;> rfl

/-- The same generator given to the next network: with assertions the constructor ends the program, without them the network works with the destroyed pool. -/
theorem generator_not_reusable :
    run true [.newLay 5, .newRng true none, .make 0 none none (some 0) true true true true, .destroy 0,
      .make 0 none none (some 0) true true true true] World.empty = .abort ∧
      run false [.newLay 5, .newRng true none, .make 0 none none (some 0) true true true true, .destroy 0,
      .make 0 none none (some 0) true true true true, .pass 1 false] World.empty = .ub := ⟨rfl, rfl⟩

/-- With assertions a network cannot be given a generator that has its pool already, not even the pool of the very mathematics that is given. -/
theorem generator_with_pool :
    run true [.newMath, .newRng true (some 0), .newLay 5, .make 0 none (some 0) (some 0) true true true true] World.empty = .abort := rfl

/-- C166, layers of two networks: after both are initialised, the first is run with the data of the second; … -/
theorem layers_of_another :
    ∃ w, run true [.newLay 5, .make 0 none none none true true true true, .make 0 none none none true true true true, .pass 0 false, .pass 1 false,
      .pass 0 false] World.empty = .ok w ∧ w.passes = [(0, 1), (1, 1), (0, 0)] := ⟨_, rfl, rfl⟩

/-- … after the second is destroyed, with destroyed data; … -/
theorem layers_dangle (dbg : Bool) :
    run dbg [.newLay 5, .make 0 none none none true true true true, .make 0 none none none true true true true, .pass 0 false, .pass 1 false, .destroy 1,
      .pass 0 false] World.empty = .ub := by cases dbg <;> rfl

/-- … and after the first is deinitialised, the second finds no data at all. -/
theorem layers_without_data :
    run true [.newLay 5, .make 0 none none none true true true true, .make 0 none none none true true true true, .pass 0 false, .pass 1 false, .deinit 0,
      .pass 1 false] World.empty = .abort ∧
    run false [.newLay 5, .make 0 none none none true true true true, .make 0 none none none true true true true, .pass 0 false, .pass 1 false, .deinit 0,
      .pass 1 false] World.empty = .ub := ⟨rfl, rfl⟩

/-- C166, mathematics of two networks with layers of their own: the initialisation of the second takes the temporary memory away from the first, and the next run
of the first ends the program. -/
theorem shared_math_aborts (dbg : Bool) :
    run dbg [.newMath, .newLay 5, .newLay 3, .make 0 none (some 0) none false true true true, .make 1 none (some 0) none false true true true, .pass 0 false,
      .pass 1 false, .pass 0 false] World.empty = .abort := by cases dbg <;> rfl

/-- So does `deinit` of a network that was never run. -/
theorem shared_math_deinit_aborts (dbg : Bool) :
    run dbg [.newMath, .newLay 5, .newLay 3, .make 0 none (some 0) none false true true true, .make 1 none (some 0) none false true true true, .pass 0 false,
      .deinit 1, .pass 0 false] World.empty = .abort := by cases dbg <;> rfl

/-- If the networks are run in the other order the mistake is not noticed: the memory is enough by chance. -/
theorem shared_math_by_chance :
    ∃ w, run true [.newMath, .newLay 5, .newLay 3, .make 0 none (some 0) none false true true true, .make 1 none (some 0) none false true true true,
      .pass 1 false, .pass 0 false, .pass 1 false] World.empty = .ok w ∧ w.passes = [(1, 1), (0, 0), (1, 1)] := ⟨_, rfl, rfl⟩

/-! ### Cases that meet the hypotheses -/

/-- A network with mathematics and inspector of the user, run and run again with larger batches, then destroyed. -/
def one : List Op :=
  [.newLay 5, .newMath, .newInsp, .make 0 (some 0) (some 0) none true true true true, .pass 0 false, .pass 0 true, .destroy 0, .delMath 0]

example : NoCopies one := by
  intro n h
  simp only [one, List.mem_cons, List.not_mem_nil, reduceCtorEq, or_self] at h

theorem lone {n : Nat} {x : NetO} {w : World} (h : ∀ k y, k ≠ n → ¬Lives w k y) : Alone w n x := fun k y hk hy => absurd hy (h k y hk)

theorem only0 {w : World} (h : ∀ k, w.nets (k + 1) = none) (k : Nat) (y : NetO) (hk : k ≠ 0) : ¬Lives w k y := fun hy => by
  match k, hk, hy with
  | 0, hk, _ => exact hk rfl
  | k + 1, _, ⟨e, _⟩ => rw [h k] at e; cases e

theorem pass0 {w w' : World} {again : Bool} (h : pass true w 0 again = .ok w') (hw : ∀ k, w.nets (k + 1) = none) : ∀ k, w'.nets (k + 1) = none :=
  fun k => ((pass_frame h).1.nets (k + 1) (Nat.succ_ne_zero k)).trans (hw k)

theorem live_pass {w w' : World} {x : NetO} {again : Bool} (iw : Inv w) (hx : Lives w 0 x) (hw : ∀ k, w.nets (k + 1) = none)
    (h : pass true w 0 again = .ok w') : Inv w' ∧ Lives w' 0 { x with init := true } := by
  obtain ⟨v, h1, h2, h3⟩ := pass_ok (dbg := true) (again := again) iw hx (fun _ => lone (only0 hw))
  rw [h] at h1; cases h1
  exact ⟨h2, h3⟩

/-- The program is careful, also with assertions. -/
theorem one_careful : AllCareful true one World.empty := by
  refine ⟨trivial, fun w h => ?_⟩; cases h
  refine ⟨trivial, fun w h => ?_⟩; cases h
  refine ⟨trivial, fun w h => ?_⟩; cases h
  refine ⟨⟨rfl, rfl, rfl, ⟨_, rfl, rfl⟩, fun i h => (by cases h; exact ⟨_, rfl, rfl⟩), fun i h => (by cases h; exact ⟨_, rfl, rfl⟩), nofun⟩, fun w h => ?_⟩
  have i4 : Inv w := by
    obtain ⟨v, v1, v2⟩ := step_ok (dbg := true) (((Inv.empty.addLay 5).addMath none).addInsp none)
      (o := .make 0 (some 0) (some 0) none true true true true)
      ⟨rfl, rfl, rfl, ⟨_, rfl, rfl⟩, fun i h => (by cases h; exact ⟨_, rfl, rfl⟩), fun i h => (by cases h; exact ⟨_, rfl, rfl⟩), nofun⟩
    have : Out.ok v = Out.ok w := v1.symm.trans h
    cases this; exact v2
  have n4 : ∀ k, w.nets (k + 1) = none := by cases h; exact fun k => rfl
  have l4 : Lives w 0 ⟨true, 0, some 0, some 0, some 0, false, true, false, false⟩ := by cases h; exact ⟨rfl, rfl⟩
  clear h
  refine ⟨⟨_, l4, fun _ => lone (only0 n4)⟩, fun w5 h => ?_⟩
  obtain ⟨i5, l5⟩ := live_pass i4 l4 n4 h
  have n5 := pass0 h n4
  refine ⟨⟨_, l5, fun _ => lone (only0 n5)⟩, fun w6 h => ?_⟩
  obtain ⟨i6, l6⟩ := live_pass i5 l5 n5 h
  have n6 := pass0 h n5
  refine ⟨⟨_, l6, fun k y hk hy => absurd hy (only0 n6 k y hk)⟩, fun w7 h => ?_⟩
  have h' : destroy w6 0 = .ok w7 := h
  unfold destroy at h'
  rw [netAt_ok l6.1 l6.2, ok_bind', if_neg nofun, ok_bind', if_pos rfl] at h'
  obtain ⟨b, hb, h'⟩ := bind_ok h'
  rw [if_neg nofun, ok_bind'] at h'
  have hb := (deleteRng_eff (b := true) (by rw [if_pos rfl]; exact hb)).1
  have bm : b.maths = w6.maths := by rw [hb]
  have bn : b.nets = w6.nets := by rw [hb]
  cases h'
  obtain ⟨i, m, e1, e2, e3, _⟩ := (i6.nets 0 _ l6).math
  cases e1
  refine ⟨⟨⟨m, by show b.maths 0 = _; rw [bm]; exact e2, e3⟩, fun k y hy => ?_⟩, fun _ _ => trivial⟩
  match k, hy with
  | 0, ⟨e, ea⟩ =>
    cases e; cases ea
  | k + 1, ⟨e, _⟩ =>
    have e2 : b.nets (k + 1) = some y := e
    rw [bn, n6 k] at e2; cases e2

/-- It runs the network twice, with its own data. -/
example : ∃ w, run true one World.empty = .ok w ∧ w.passes = [(0, 0), (0, 0)] := ⟨_, rfl, rfl⟩

/-- After the network is destroyed the layers hold the pointer to its data (C167), and no living network has them. -/
example : ∃ w l, run true one World.empty = .ok w ∧ w.lays 0 = some l ∧ l.alive = true ∧ l.cd = some 0 ∧ ∀ y, ¬Lives w 0 y := by
  refine ⟨_, _, rfl, rfl, rfl, rfl, fun y hy => ?_⟩
  obtain ⟨e, ea⟩ := hy
  cases e; cases ea

/-- The mathematics of the user lives until the program destroys it, the generator the network had made until the network is destroyed (C165). -/
example : ∃ w m g, run true (one.take 7) World.empty = .ok w ∧ w.maths 0 = some m ∧ m.by_ = none ∧ m.alive = true ∧
    w.rngs 0 = some g ∧ g.by_ = some 0 ∧ g.alive = false := ⟨_, _, _, rfl, rfl, rfl, rfl, rfl, rfl, rfl⟩

end Nntl.Life
