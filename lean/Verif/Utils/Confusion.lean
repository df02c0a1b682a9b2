/-!
Model of `nntl/utils/confusion_mtx.h`: counters of binary classification. Counters are 32-bit signed integers
(`vec_len_t`, common.h), a counter of a fresh object is indeterminate (`none`).
-/
namespace Nntl.Utils.Cm

/-- How a call ends. `ub`: reading an indeterminate counter or signed overflow. -/
inductive Out (α : Type) where
  | ok (a : α)
  | ub

/-- Sequencing. -/
def Out.bind {α β : Type} : Out α → (α → Out β) → Out β
  | .ok a, f => f a
  | .ub, _ => .ub

/-- `m_asArray`, confusion_mtx.h 48–56: index 0 true negatives, 1 false negatives, 2 false positives, 3 true positives. -/
structure Mtx where
  tn : Option Int
  fn : Option Int
  fp : Option Int
  tp : Option Int
  deriving DecidableEq

/-- The constructor, confusion_mtx.h 134: nothing is initialised. -/
def Mtx.fresh : Mtx := ⟨none, none, none, none⟩

/-- `clear`, confusion_mtx.h 137–139. -/
def Mtx.clear : Mtx := ⟨some 0, some 0, some 0, some 0⟩

/-- Addition of `vec_len_t` values. -/
def add32 (a b : Int) : Out Int := if -2147483648 ≤ a + b ∧ a + b ≤ 2147483647 then .ok (a + b) else .ub

/-- Multiplication of `vec_len_t` values. -/
def mul32 (a b : Int) : Out Int := if -2147483648 ≤ a * b ∧ a * b ≤ 2147483647 then .ok (a * b) else .ub

/-- Subtraction of `vec_len_t` values. -/
def sub32 (a b : Int) : Out Int := if -2147483648 ≤ a - b ∧ a - b ≤ 2147483647 then .ok (a - b) else .ub

/-- Reading a counter. -/
def rd : Option Int → Out Int
  | some v => .ok v
  | none => .ub

/-- `++counter`. -/
def inc (c : Option Int) : Out (Option Int) := (rd c).bind fun v => (add32 v 1).bind fun w => .ok (some w)

/-- The element of the array with the index `k`. -/
def Mtx.get (m : Mtx) : Nat → Option Int
  | 0 => m.tn
  | 1 => m.fn
  | 2 => m.fp
  | _ => m.tp

/-- Storing into the element with the index `k`. -/
def Mtx.put (m : Mtx) (v : Option Int) : Nat → Mtx
  | 0 => { m with tn := v }
  | 1 => { m with fn := v }
  | 2 => { m with fp := v }
  | _ => { m with tp := v }

/-- `update`, confusion_mtx.h 59–61: `++m_asArray[bModelPredictsTrue * 2 + bGroundTrue]`. -/
def Mtx.update (m : Mtx) (truth pred : Bool) : Out Mtx :=
  let k := pred.toNat * 2 + truth.toNat
  (inc (m.get k)).bind fun v => .ok (m.put v k)

/-- Body of the loop of `operator+=`, confusion_mtx.h 147–152, for the index `i`. -/
def addAt (a b : Mtx) (i : Nat) : Out Mtx :=
  (rd (a.get i)).bind fun x => (rd (b.get i)).bind fun y => (add32 x y).bind fun z => .ok (a.put (some z) i)

/-- A number of objects (an array of counters per thread, say); `operator=`, `operator+=` and `reduce` work on objects, which may be
the same. -/
abbrev Bank := Nat → Mtx

/-- Replace one object. -/
def Bank.set (b : Bank) (i : Nat) (m : Mtx) : Bank := fun j => if j = i then m else b j

/-- `operator+=`, confusion_mtx.h 147–152: the right side is read again at every index (it may be the left side). -/
def plusEq (b : Bank) (i j : Nat) : Out Bank :=
  (addAt (b i) (b j) 0).bind fun m0 =>
  let b := b.set i m0
  (addAt (b i) (b j) 1).bind fun m1 =>
  let b := b.set i m1
  (addAt (b i) (b j) 2).bind fun m2 =>
  let b := b.set i m2
  (addAt (b i) (b j) 3).bind fun m3 => .ok (b.set i m3)

/-- The loop of `reduce`, confusion_mtx.h 156: `for (i = 1; i < cnt; ++i) *this += pCM[i]`, `n` turns left. -/
def reduceLoop (i : Nat) : Nat → Nat → Bank → Out Bank
  | 0, _, b => .ok b
  | n + 1, j, b => (plusEq b i j).bind fun b => reduceLoop i n (j + 1) b

/-- `reduce`, confusion_mtx.h 153–157: object `i` becomes the sum of the objects `first … first+cnt-1`. A `cnt` that is not positive violates the
assertion of line 154; without assertions the object is a copy of the first one then. -/
def reduce (b : Bank) (i first cnt : Nat) : Out Bank := reduceLoop i (cnt - 1) (first + 1) (b.set i (b first))

/-- Calls on the objects. -/
inductive Op where
  | clear (i : Nat)
  | update (i : Nat) (truth pred : Bool)
  | assign (i j : Nat)
  | plus (i j : Nat)
  | reduce (i first cnt : Nat)

/-- One call. `operator=`: confusion_mtx.h 144–146 (copying indeterminate values is undefined behaviour). -/
def step (b : Bank) : Op → Out Bank
  | .clear i => .ok (b.set i .clear)
  | .update i t p => ((b i).update t p).bind fun m => .ok (b.set i m)
  | .assign i j => if (b j).tn = none ∨ (b j).fn = none ∨ (b j).fp = none ∨ (b j).tp = none then .ub else .ok (b.set i (b j))
  | .plus i j => plusEq b i j
  | .reduce i f c => reduce b i f c

/-- A sequence of calls. -/
def run : Bank → List Op → Out Bank
  | b, [] => .ok b
  | b, o :: os => (step b o).bind fun b => run b os

/-- `MCC`, confusion_mtx.h 110–113, the integer part: denominator and numerator in 32-bit arithmetic, multiplications from left to right. -/
def mccInts (tp fp tn fn : Int) : Out (Int × Int) :=
  (add32 tp fp).bind fun a => (add32 tp fn).bind fun b => (add32 tn fp).bind fun c => (add32 tn fn).bind fun d =>
  (mul32 a b).bind fun ab => (mul32 ab c).bind fun abc => (mul32 abc d).bind fun den =>
  if den = 0 then .ok (0, 0) else
  (mul32 tp tn).bind fun x => (mul32 fp fn).bind fun y => (sub32 x y).bind fun num => .ok (num, den)

end Nntl.Utils.Cm
