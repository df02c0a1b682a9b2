import Mathlib.Algebra.Field.Rat
import Mathlib.Algebra.Order.Field.Rat
/-! Patterns of bits of the elements of a matrix. Not code of the library: what IEEE-754 says about `float` and `double`, and the non-negative
numbers of integral types. -/
namespace Nntl.MtxTest

/-- The types of elements: `float`, `double`, an integral type. -/
inductive VT where
  | f32 | f64 | int
  deriving DecidableEq, Repr

/-- Bits of the whole. -/
def VT.width : VT → Nat
  | .f32 => 32 | .f64 => 64 | .int => 64

/-- Bits of the exponent and of the mantissa of the floating point types. -/
def VT.exp : VT → Nat
  | .f32 => 8 | .f64 => 11 | .int => 0
def VT.man : VT → Nat
  | .f32 => 23 | .f64 => 52 | .int => 64

/-- An element: its bits as a number. -/
structure Bits (t : VT) where
  v : Nat
  lt : v < 2 ^ t.width
  deriving DecidableEq

/-- The field of the exponent, the field of the mantissa, the sign. -/
def Bits.e {t : VT} (b : Bits t) : Nat := b.v / 2 ^ t.man % 2 ^ t.exp
def Bits.m {t : VT} (b : Bits t) : Nat := b.v % 2 ^ t.man
def Bits.neg {t : VT} (b : Bits t) : Bool := b.v / 2 ^ (t.man + t.exp) != 0

/-- The magnitude of a finite number: `m·2^(2-2^(w-1)-p)` for subnormal numbers, `(2^p+m)·2^(e+1-2^(w-1)-p)` for the others; `w`, `p` the widths of
the two fields. -/
def Bits.mag {t : VT} (b : Bits t) : ℚ :=
  if b.e = 0 then (b.m : ℚ) * 2 / 2 ^ (2 ^ (t.exp - 1) - 1 + t.man)
  else ((2 ^ t.man + b.m : ℕ) : ℚ) * 2 ^ b.e / 2 ^ (2 ^ (t.exp - 1) - 1 + t.man)

/-- The number a pattern denotes; infinities and NaNs denote none. -/
def Bits.num {t : VT} (b : Bits t) : Option ℚ :=
  match t with
  | .int => some (b.v : ℚ)
  | _ => if b.e = 2 ^ t.exp - 1 then none else some (if b.neg then -b.mag else b.mag)

/-- Not a number: the exponent consists of ones and the mantissa is not zero. -/
def Bits.nan {t : VT} (b : Bits t) : Prop := t ≠ .int ∧ b.e = 2 ^ t.exp - 1 ∧ b.m ≠ 0

end Nntl.MtxTest
