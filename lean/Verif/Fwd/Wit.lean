import Verif.Fwd.Props
/-
Concrete programs: the hypotheses of the theorems are met, and what goes wrong.
-/
namespace Nntl.Fwd

/-- A functor that adds its arguments up and returns the sum so far, of a given size and alignment. -/
def adder (size align : Nat) : FType Nat Nat Nat :=
  ⟨size, align, true, true, true, true, fun s x => (s + x, s + x)⟩

/-- A functor of 8 bytes that adds its state to the argument and does not change. -/
def shifter : FType Nat Nat Nat := ⟨8, 8, true, true, true, true, fun s x => (s, s + x)⟩

/-- Handles of the thread pools (workers.h:43: two pointers) on a 64-bit platform with 8-byte `aligned_storage`. Types:
0 is small, 1 is not, 2 is aligned to 16 bytes, 3 is constant. -/
def poolEnv : Env Nat Nat Nat :=
  ⟨.cmc, 16, 8, 8, fun t => match t with
    | 0 => adder 8 8
    | 1 => adder 24 8
    | 2 => adder 16 16
    | _ => shifter⟩

/-- `forwarder` with its default size. -/
def fwdEnv : Env Nat Nat Nat := { poolEnv with kind := .fwd, N := 32 }

def oneObj (t s : Nat) : World Nat := ⟨fun a => if a = 5 then some ⟨t, s⟩ else none, fun _ => Handle.fresh⟩

theorem reaches_oneObj (t s : Nat) : run poolEnv World.start [.new 5 t s] = .ok (oneObj t s, [.none]) := rfl

/-- **C168.** A non-trivial program: put, call, copy the handle, call both, end the functor, call both, empty one, ask. -/
example : seen (run poolEnv World.start
    [.new 5 0 100, .give 0 5 .lv, .callH 0 1, .copy 1 0, .callH 1 10, .callH 0 2, .kill 5, .callH 0 3, .callH 1 20,
     .reset 0, .test 0, .test 1]) =
    .ok [.none, .none, .res 101, .none, .res 111, .res 103, .none, .res 106, .res 131, .none, .bool false, .bool true] :=
  rfl

/-- **C168.** A call of an empty handle is undefined behaviour (there is no check in the code); `forwarder` cannot be
assigned a null pointer. -/
theorem empty_and_null :
    step poolEnv World.start (.callH 0 1) = .ub ∧ step fwdEnv (oneObj 0 0) (.null 0) = .reject ∧
    step poolEnv (oneObj 0 0) (.null 0) = .ok (setH (oneObj 0 0) 0 Handle.fresh, .none) :=
  ⟨rfl, rfl, rfl⟩

/-- **C168.** A functor aligned stricter than the storage passes every static assertion and is constructed at an
address that does not suit it. -/
theorem overaligned_functor :
    Compiles poolEnv (poolEnv.ty 2) .lv ∧ Small poolEnv (poolEnv.ty 2) ∧
    step poolEnv (oneObj 2 0) (.give 0 5 .lv) = .ub := by
  refine ⟨by decide, by decide, rfl⟩

/-- **C169.** The hypotheses are met: a small functor is given, its original is called and ends, the handle goes on. -/
example : ∃ w2 w3 : World Nat, run poolEnv (setH (oneObj 0 100) 0 ⟨some (.val 0), .bytes 100⟩)
      [.callH 0 7, .callObj 5 50, .kill 5] = .ok (w2, [.res 107, .res 150, .none]) ∧ w2.objs 5 = none ∧
    step poolEnv w2 (.callH 0 1) = .ok (w3, .res 108) := by
  obtain ⟨w3, h, _⟩ := kept_copy (e := poolEnv) (w := oneObj 0 100) (h := 0) (a := 5) (t := 0) (s := 100) (c := .lv)
    (put := .give 0 5 .lv) (w1 := setH (oneObj 0 100) 0 ⟨some (.val 0), .bytes 100⟩) (o := .none)
    rfl (.inr ⟨rfl, by decide⟩) rfl
    (ops := [.callH 0 7, .callObj 5 50, .kill 5]) (obs := [.res 107, .res 150, .none]) rfl
    (by
      intro op ho
      simp only [List.mem_cons, List.not_mem_nil, or_false] at ho
      rcases ho with rfl | rfl | rfl <;> exact fun h => h) 1
  exact ⟨_, w3, rfl, rfl, h⟩

/-- **C170.** The hypotheses are met: a functor that is not small is given; the handle and the functor are one. -/
example : ∃ w1 w2 : World Nat, step poolEnv (oneObj 1 100) (.give 0 5 .lv) = .ok (w1, .none) ∧
    ¬ Small poolEnv (poolEnv.ty 1) ∧
    run poolEnv w1 [.callObj 5 50, .callH 0 7] = .ok (w2, [.res 150, .res 157]) ∧ w2.objs 5 = some ⟨1, 157⟩ :=
  ⟨_, _, rfl, by decide, rfl, rfl⟩

/-- **C170.** A handle to a functor that ended silently calls a later functor of the same type at the same address. -/
theorem address_reused :
    seen (run poolEnv World.start [.new 5 1 100, .give 0 5 .lv, .kill 5, .new 5 1 7, .callH 0 1]) =
      .ok [.none, .none, .none, .none, .res 8] := rfl

/-- **C171.** `add_task` of a temporary functor that is not small compiles; the task dangles when `add_task` returns. -/
theorem temporary_task_dangles :
    ∃ w' : World Nat, addTaskTemp poolEnv World.start 0 5 1 100 = .ok w' ∧ step poolEnv w' (.callH 0 1) = .ub :=
  ⟨_, rfl, rfl⟩

/-- **C171.** A small temporary, which could have been kept, does not compile; a small lvalue is kept. -/
example : addTaskTemp poolEnv World.start 0 5 0 100 = .reject ∧
    ∃ w', addTask poolEnv (oneObj 0 100) 0 5 .lv = .ok w' := ⟨rfl, _, rfl⟩

/-- Four calls of one `run`: three workers and the calling thread. -/
def fourCalls : List (Who × Nat) := [(.worker, 25), (.main, 10), (.worker, 25), (.worker, 40)]

/-- **C172.** The same summing functor gives the user 10 when it has 8 bytes and 100 when it has 24. -/
theorem size_decides_sum :
    (∃ w' : World Nat, poolRun poolEnv (oneObj 0 0) 0 5 fourCalls = .ok (w', [25, 10, 50, 90]) ∧
      w'.objs 5 = some ⟨0, 10⟩) ∧
    (∃ w' : World Nat, poolRun poolEnv (oneObj 1 0) 0 5 fourCalls = .ok (w', [25, 35, 60, 100]) ∧
      w'.objs 5 = some ⟨1, 100⟩) ∧
    (poolEnv.ty 0).call = (poolEnv.ty 1).call :=
  ⟨⟨_, rfl, rfl⟩, ⟨_, rfl, rfl⟩, rfl⟩

/-- **C172.** The hypotheses of the theorem on constant functors are met. -/
example : ∃ w' : World Nat, poolRun poolEnv (oneObj 3 1) 0 5 fourCalls = .ok (w', [26, 11, 26, 41]) ∧
    w'.objs = (oneObj 3 1).objs :=
  run_constant_functor (e := poolEnv) (t := 3) rfl (fun _ _ => rfl) (.inl ⟨by decide, by decide, by decide⟩) fourCalls

end Nntl.Fwd
