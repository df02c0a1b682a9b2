import Verif.DataBuf.Model
/-! Vocabulary of C22-C24: producers and consumer around the buffer, with logs of what was delivered and consumed. -/
namespace Nntl.DataBuf
variable {α : Type}

/-- Length of a range. -/
def Range.size : Range → Nat
  | .one _ n => n
  | .two _ n1 n2 => n1 + n2

/-- What a caller sees who walks over the one or two arrays of a range. -/
def Buf.read (b : Buf α) : Range → List α
  | .one p n => (List.range n).map fun i => b.mem (p + i)
  | .two p n1 n2 => (List.range n1).map (fun i => b.mem (p + i)) ++ (List.range n2).map fun i => b.mem i

/-- The buffer presents the queue `l` to its consumer: any positive number of elements up to the length of `l` can be acquired, and then
the first elements of `l` are seen; other requests are refused. -/
def Presents (b : Buf α) (l : List α) : Prop :=
  ∀ n, if 0 < n ∧ n ≤ l.length then ∃ r, b.acquire n = some r ∧ r.size = n ∧ b.read r = l.take n else b.acquire n = none

/-- The whole system. `claims`: sizes granted to producers that have not delivered yet. `acq`: the range the consumer holds.
`delivered`, `consumed`: all values handed over by producers, and all values read by the consumer, in order. -/
structure Sys (α : Type) where
  buf : Buf α
  claims : List Nat
  acq : Option Range
  delivered : List α
  consumed : List α

def Sys.init (total : Nat) (mem : Nat → α) : Sys α := ⟨Buf.init total mem, [], none, [], []⟩

/-- One step of any thread. `G s n`: a producer may ask for `n` elements in the state `s`. -/
inductive Step (G : Sys α → Nat → Prop) : Sys α → Sys α → Prop
  | refused (s : Sys α) (n : Nat) (hn : 0 < n) (hg : G s n) (hr : (s.buf.shouldWork n).2 = 0) :
      Step G s { s with buf := (s.buf.shouldWork n).1 }
  | claim (s : Sys α) (n : Nat) (hn : 0 < n) (hg : G s n) (hr : (s.buf.shouldWork n).2 ≠ 0) :
      Step G s { s with buf := (s.buf.shouldWork n).1, claims := (s.buf.shouldWork n).2 :: s.claims }
  | deliver (s : Sys α) (l1 l2 : List Nat) (xs : List α) (hc : s.claims = l1 ++ xs.length :: l2) :
      Step G s { s with buf := s.buf.done xs, claims := l1 ++ l2, delivered := s.delivered ++ xs }
  | acquire (s : Sys α) (n : Nat) (r : Range) (ha : s.acq = none) (hr : s.buf.acquire n = some r) :
      Step G s { s with acq := some r }
  /-- the first `k > 0` elements of the acquired range are used, and the range is released (`k = r.size` without `shrink`) -/
  | release (s : Sys α) (r : Range) (k : Nat) (ha : s.acq = some r) (hk : 0 < k) (hkn : k ≤ r.size) :
      Step G s { s with buf := s.buf.release (r.shrink k), acq := none, consumed := s.consumed ++ (s.buf.read r).take k }

inductive Reach (G : Sys α → Nat → Prop) (total : Nat) (mem : Nat → α) : Sys α → Prop
  | init : Reach G total mem (Sys.init total mem)
  | step {s s' : Sys α} : Reach G total mem s → Step G s s' → Reach G total mem s'

/-- At most one claim outstanding. -/
def OneClaim (s : Sys α) (_ : Nat) : Prop := s.claims = []
/-- There is unread data, or not all of the buffer is claimed. -/
def NotAllClaimed (s : Sys α) (_ : Nat) : Prop := s.consumed.length < s.delivered.length ∨ s.claims.sum < s.buf.total
/-- `p` producers that ask for at most `N` elements. -/
def Producers (p N : Nat) (s : Sys α) (n : Nat) : Prop := s.claims.length < p ∧ n ≤ N
/-- No restriction. -/
def Any (_ : Sys α) (_ : Nat) : Prop := True

end Nntl.DataBuf
