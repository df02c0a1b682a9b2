import Verif.Sync.Model
/-! Vocabulary for C112–C114. -/
namespace Nntl.Sync
variable {L D : Type}

/-- The thread leaves its critical section in this step. -/
def leaves (body : Nat → List (L × D → L × D)) (s : SL L D) (t : Nat) : Bool :=
  match s.pc t with
  | .inside k => decide ((body t).length ≤ k)
  | _ => false

/-- The threads that left their critical sections, in the order of leaving. -/
def left (body : Nat → List (L × D → L × D)) : SL L D → List Nat → List Nat
  | _, [] => []
  | s, t :: ts => (if leaves body s t then [t] else []) ++ left body (s.step body t) ts

/-- Some steps of thread `t`, all at once: on its local variables and the shared data. -/
def atomically (fs : List (L × D → L × D)) (t : Nat) (m : (Nat → L) × D) : (Nat → L) × D :=
  let x := fs.foldl (fun p f => f p) (m.1 t, m.2)
  (upd m.1 t x.1, x.2)

/-- Whole critical sections one after the other. -/
def oneByOne (body : Nat → List (L × D → L × D)) (order : List Nat) (m : (Nat → L) × D) : (Nat → L) × D :=
  order.foldl (fun m t => atomically (body t) t m) m

/-- The same priorities. -/
def Same (cnt : Nat) (a b : Prio) : Prop := a.cls = b.cls ∧ a.main = b.main ∧ ∀ i, i < cnt → a.wk i = b.wk i

end Nntl.Sync
