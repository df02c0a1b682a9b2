import Verif.Text.Model
/-! What the texts are meant to say. -/
namespace Nntl.Text

/-- The text shows the integer: blanks, decimal digits with a sign, blanks. -/
def ShowsInt (t : Text) (z : Int) : Prop :=
  ∃ b ds b', t = b ++ (if z < 0 then ['-'] else []) ++ ds ++ b' ∧ (∀ c ∈ b ++ b', c = ' ') ∧ (∀ c ∈ ds, c.isDigit) ∧ ds ≠ [] ∧
    Nat.ofDigitChars 10 ds 0 = z.natAbs

/-- The text shows the number with `p` digits behind the point: blanks, sign, digits, point, `p` digits; the number shown differs from `a / d` by at
most half of `10 ^ -p` (multiplied by `2 * d * 10 ^ p` here). A text in the place of a number that is not finite follows blanks. -/
def Shows (p : Nat) (t : Text) : FVal → Prop
  | .fin neg a d =>
    ∃ b ip fp, t = b ++ (if neg then ['-'] else []) ++ ip ++ '.' :: fp ∧ (∀ c ∈ b, c = ' ') ∧ (∀ c ∈ ip ++ fp, c.isDigit) ∧ ip ≠ [] ∧ fp.length = p ∧
      2 * (Nat.ofDigitChars 10 (ip ++ fp) 0 * d) ≤ 2 * (a * 10 ^ p) + d ∧ 2 * (a * 10 ^ p) ≤ 2 * (Nat.ofDigitChars 10 (ip ++ fp) 0 * d) + d
  | .odd s => ∃ b, t = b ++ s ∧ ∀ c ∈ b, c = ' '

/-- A number to be printed is all right: the denominator is not zero. -/
def FVal.Ok : FVal → Prop
  | .fin _ _ d => 0 < d
  | .odd _ => True

/-- Below `10 ^ k` in magnitude by at least one; if not finite, described by at most nine characters (`-nan(ind)`). -/
def FVal.Below (k : Nat) : FVal → Prop
  | .fin _ a d => 0 < d ∧ a + d ≤ 10 ^ k * d
  | .odd t => t.length ≤ 9

/-- The share of wrong answers in percent is that of the counters. -/
def IsPercent (v : FVal) (c : Counts) : Prop :=
  match v with
  | .fin neg a d => (if neg then -(a : Int) else a) * c.total = ((c.total : Int) - c.correct) * 100 * d ∧ 0 < c.total ∧ 0 < d
  | .odd _ => c.total = 0

/-- ASCII characters that are not zero. -/
def Ascii (t : Text) : Prop := ∀ c ∈ t, 0 < c.toNat ∧ c.toNat < 128

end Nntl.Text
