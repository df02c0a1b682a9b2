import Verif.AsRng.Model
/-! What the asynchronous generator should give. -/
namespace Nntl.AsRng
variable {σ δ R : Type}

/-- `x` is a number the call may give: a number drawn from a stream (or a standard normal deviate), moved to the range of the call. -/
def Drawn [Field R] (E : Rng.Env σ δ R) (c : Call R) (x : R) : Prop :=
  match c with
  | .vec _ a => ∃ s, x = -a + 2 * a * (E.B.real s).1
  | .between _ neg pos => ∃ s, x = neg + (pos - neg) * (E.B.real s).1
  | .norm _ => ∃ s, x = (E.B.real s).1
  | .normal _ m st => ∃ d s, x = m + st * (E.std d s).1

/-- Length the caller asked for. -/
def asked : Call R → Nat
  | .vec n _ => n
  | .between n _ _ => n
  | .norm n => n
  | .normal n _ _ => n

/-- The array is filled with drawn numbers, and nothing behind it is touched. -/
def FilledBy [Field R] (E : Rng.Env σ δ R) (c : Call R) (before after : Nat → R) : Prop :=
  (∀ k, k < asked c → Drawn E c (after k)) ∧ ∀ k, asked c ≤ k → after k = before k

/-- Kind of numbers a call needs. -/
def kind : Call R → Task
  | .vec _ _ => .norm
  | .between _ _ _ => .norm
  | .norm _ => .norm
  | .normal _ _ _ => .normal

end Nntl.AsRng
