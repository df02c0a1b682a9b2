import Verif.Tools.Model
import Verif.Text.Spec
/-! What the tools are meant to do. -/
namespace Nntl.Tools
open Nntl.Text

/-- The durations measured since the last `reset`, in order. -/
def measured (start : Int) (acc : List Int) : List TOp → List Int
  | [] => acc
  | .reset :: os => measured start [] os
  | .tic n :: os => measured n acc os
  | .toc n :: os => measured start (acc ++ [n - start]) os
  | .store d :: os => measured start (acc ++ [d]) os
  | .setRepeats _ :: os => measured start acc os

/-- Times of a steady clock, durations of 64 bits, and no `set_repeats`. -/
def TOp.Fine : TOp → Prop
  | .tic n | .toc n => 0 ≤ n ∧ n < 2 ^ 63
  | .store d => d < 2 ^ 63
  | .setRepeats _ => False
  | .reset => True

/-- The units that occur and their lengths in nanoseconds. -/
def units : List (Text × Nat) := [("ns".toList, 1), ("us".toList, 1000), ("ms".toList, 1000000), ("s ".toList, 1000000000)]

/-- The text shows the duration of `a / d` nanoseconds (with the sign) with three digits behind the point, in one of the units. -/
def ShowsTime (t : Text) (neg : Bool) (a d : Nat) : Prop :=
  ∃ num name len, t = num ++ " ".toList ++ name ∧ (name, len) ∈ units ∧ Shows 3 num (.fin neg a (d * len))

/-- The length of a unit in nanoseconds (of the four units). -/
def Per.len : Per → Nat
  | .ns => 1
  | .us => 1000
  | .ms => 1000000
  | .s => 1000000000
  | .other => 60000000000

/-- What the elements are called with in `for_eachwp_up`: each element but the first, the one before it, and whether it is the second. -/
def withPrevious {α : Type} (t : List α) : List (α × α × Bool) := (t.tail.zip t).zipIdx.map fun e => (e.1.1, e.1.2, e.2 == 0)

end Nntl.Tools
