import Verif.Life.Model
/-! Words for the statements about lifetimes. -/
namespace Nntl.Life

/-- `n` is a network that is not destroyed. -/
def Lives (w : World) (n : Nat) (x : NetO) : Prop := w.nets n = some x ∧ x.alive = true
def MathLives (w : World) (i : Nat) : Prop := ∃ m, w.maths i = some m ∧ m.alive = true
def InspLives (w : World) (i : Nat) : Prop := ∃ m, w.insps i = some m ∧ m.alive = true
def LayLives (w : World) (i : Nat) : Prop := ∃ m, w.lays i = some m ∧ m.alive = true

/-- The generator of network `y` works with the threads of the mathematics `j`. -/
def DrawsWith (w : World) (y : NetO) (j : Nat) : Prop := ∃ r g, y.rng = some r ∧ w.rngs r = some g ∧ g.mt = true ∧ g.thr = some j

/-- No other living network that is initialised has the layers or the mathematics of network `n`. -/
def Alone (w : World) (n : Nat) (x : NetO) : Prop := ∀ k y, k ≠ n → Lives w k y → y.init = true → y.lay ≠ x.lay ∧ y.math ≠ x.math

/-- What a program has to observe:
* memory is found for the objects a network makes, the objects that are passed to it live, a generator that works with threads has no pool yet (with assertions)
  or its pool lives;
* a network is initialised or deinitialised only while no other initialised network has its layers or its mathematics;
* what a network has made is not used by another living network when it is destroyed, neither is its pool of threads;
* nothing is destroyed that a living network uses, and networks are not copied. -/
def Careful (dbg : Bool) (w : World) : Op → Prop
  | .newMath => True
  | .newInsp => True
  | .newLay _ => True
  | .newRng _ thr => ∀ i, thr = some i → MathLives w i
  | .make lay pI pM pR mt okM okR okI =>
    okM = true ∧ okR = true ∧ okI = true ∧ LayLives w lay ∧ (∀ i, pI = some i → InspLives w i) ∧ (∀ i, pM = some i → MathLives w i) ∧
      (∀ r, pR = some r → ∃ g, w.rngs r = some g ∧ g.alive = true ∧ g.mt = mt ∧
        (mt = true → g.thr = none ∨ (dbg = false ∧ ∃ j, g.thr = some j ∧ MathLives w j)))
  | .pass n again => ∃ x, Lives w n x ∧ (x.init = false ∨ again = true → Alone w n x)
  | .deinit n => ∃ x, Lives w n x ∧ Alone w n x
  | .destroy n => ∃ x, Lives w n x ∧ ∀ k y, k ≠ n → Lives w k y →
      (x.ownM = true → y.math ≠ x.math ∧ ∀ j, x.math = some j → ¬DrawsWith w y j) ∧ (x.ownR = true → y.rng ≠ x.rng) ∧ (x.ownI = true → y.insp ≠ x.insp)
  | .copy _ => False
  | .draw r => ∃ g, w.rngs r = some g ∧ g.alive = true ∧ (g.mt = true → ∃ j, g.thr = some j ∧ MathLives w j)
  | .delMath i => MathLives w i ∧ ∀ k y, Lives w k y → y.math ≠ some i ∧ ¬DrawsWith w y i
  | .delRng i => (∃ g, w.rngs i = some g ∧ g.alive = true) ∧ ∀ k y, Lives w k y → y.rng ≠ some i
  | .delInsp i => InspLives w i ∧ ∀ k y, Lives w k y → y.insp ≠ some i
  | .delLay i => LayLives w i ∧ ∀ k y, Lives w k y → y.lay ≠ i

/-- Every action of the program is careful in the world it is done in. -/
def AllCareful (dbg : Bool) : List Op → World → Prop
  | [], _ => True
  | o :: os, w => Careful dbg w o ∧ ∀ w', step dbg w o = .ok w' → AllCareful dbg os w'

/-- An object lives exactly as long as the user has not destroyed it and the network that has made it, if there is one, lives. -/
def LivesByRights (w : World) (alive : Bool) (by_ : Option Nat) (deleted : Prop) : Prop :=
  alive = true ↔ ¬deleted ∧ ∀ n, by_ = some n → ∃ x, Lives w n x

/-- The program copies no network. -/
def NoCopies (ops : List Op) : Prop := ∀ n, Op.copy n ∉ ops

end Nntl.Life
