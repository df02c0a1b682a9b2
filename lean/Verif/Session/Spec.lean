import Verif.Session.Model
/-! Notions used by the statements about the life of a network object (C138-C141). -/
namespace Nntl.Session

/-- The layers were told the size of the batch they get, and hold memory for it. -/
def Fwd.Fits (f : Fwd) : Prop := 0 < f.rows ∧ f.told = f.rows ∧ f.rows ≤ f.cap

/-- The batch size the network has been promised to be ready for, by a call with its answer. -/
def promise : Call → Code → Option Nat
  | .fprop rows _, .success => some rows
  | .initFixed bs _, .success => some bs
  | .initFixedTd (some bs) _ _ _ _, .success => some bs
  | .initFixedTd none (.ok bs) _ _ _, .success => some bs
  | .train x, .success => if x.immediatelyDeinit then none else x.td.toOption.map (·.1)
  | _, _ => none

/-- Calls that do not take back the promise of batch size `n`: none of them fails in an initialisation, deinitialises or asks for
reinitialisation, and a training is run with at least `n` rows for forward passes. -/
def Harmless (n : Nat) : Call → Code → Prop
  | .fprop _ _, r => r = .success
  | .initFixed _ _, r => r = .success
  | .initFixedTd _ _ _ _ _, r => r = .success ∨ ∃ c, r = .td c
  | .train x, r => x.immediatelyDeinit = false ∧ (∀ f b, x.td = .ok (f, b) → n ≤ f) ∧ (r = .success ∨ r = .diverged ∨ ∃ c, x.td = .error c)
  | .requireReinit, _ => False
  | .deinit, _ => False
  | _, _ => True

/-- Calls meant for inference. -/
def Call.inference : Call → Bool
  | .fprop _ _ | .initFixed _ _ | .initFixedTd _ _ _ _ _ | .prepare _ | .doFixed _ | .evaluate _ => true
  | _ => false

/-- Calls that put the network into inference mode when they succeed. -/
def Call.setsInference : Call → Bool
  | .fprop _ _ | .initFixed _ _ | .initFixedTd _ _ _ _ _ | .prepare _ => true
  | _ => false

def Call.isTrain : Call → Bool
  | .train _ => true
  | _ => false

/-- Calls asking for no more than `f` rows in a forward pass and `b` rows in a training batch, not deinitialising. -/
def Within (f b : Nat) : Call → Prop
  | .fprop rows _ => rows ≤ f
  | .initFixed bs _ => bs ≤ f
  | .initFixedTd (some bs) _ _ _ _ => bs ≤ f
  | .initFixedTd none (.ok bs) _ _ _ => bs ≤ f
  | .train x => x.immediatelyDeinit = false ∧ ∀ f' b', x.td = .ok (f', b') → f' ≤ f ∧ b' ≤ b
  | .requireReinit => False
  | .deinit => False
  | _ => True

end Nntl.Session
