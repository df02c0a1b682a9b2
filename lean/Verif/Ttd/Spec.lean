import Verif.Ttd.Model
/-! Vocabulary of the properties C148-C151. -/
namespace Nntl.Ttd
variable {P : Type}

/-- The numbers of samples fit into a matrix, and a base sample stands for at least one sample. -/
structure Src.Fits (c : Src) : Prop where
  sibs : 0 < c.sibs
  base : ∀ s, (c.base s : Int) ≤ vmax

/-- One call of the public interface that may change the object. -/
inductive Step (c : Src) : TT P → TT P → Prop where
  | deinit (t) : Step c t (deinit t)
  | train (t maxF maxB memOk fOk) : Step c t (init4train c t maxF maxB memOk fOk).t
  | inference (t maxF fOk) : Step c t (init4inference c t maxF fOk).t
  | epoch {t cd arg shuffle t' n calls} : (∀ l : List Nat, (shuffle l).Perm l) →
      onNextEpoch c t cd arg shuffle = some (t', n, calls) → Step c t t'
  | walk {t s cd arg e t' n calls} : walkOverSet c t s cd arg e = some (t', n, calls) → Step c t t'
  | reset (t) : Step c t (resetNorm t)
  | fix (t p) : Step c t (fixX t p)

/-- States reachable from a new object by any sequence of calls. -/
inductive Reach (c : Src) : TT P → Prop where
  | fresh : Reach c fresh
  | step {t t'} : Reach c t → Step c t t' → Reach c t'

/-- The walk over the base samples `0 .. total-1` of a set: `n` calls, call number `i` asks for the `len i` samples from `ofs i`
on, without gaps, repetitions or empty requests. -/
def CoversInOrder (n : Nat) (ofs len : Nat → Nat) (total : Nat) : Prop :=
  (∀ i, i < n → 0 < len i) ∧ (∀ i, i < n → ofs i + len i = if i + 1 < n then ofs (i + 1) else total) ∧ (0 < n → ofs 0 = 0)

end Nntl.Ttd
