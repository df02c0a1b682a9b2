import Verif.Istor.Model
/-! Specification for C38 and C68. -/
namespace Nntl.Istor

/-- What a client does with the storage between `init` and `deinit`: takes a block, or gives back a block it holds (`release i` is the
`i`-th of the live blocks, the most recent one first). -/
inductive Op
  | take (n : Nat)
  | release (i : Nat)

/-- A live block: where it begins and its size. -/
structure Block where
  ptr : Nat
  len : Nat
deriving DecidableEq, Repr

/-- One operation; `none` means that the program was aborted. -/
def step (s : Istor) (live : List Block) : Op → Option (Istor × List Block)
  | .take n => (s.alloc n).map fun r => (r.2, ⟨r.1, n⟩ :: live)
  | .release i =>
    match live[i]? with
    | none => some (s, live)
    | some b => (s.free b.ptr b.len).map fun s' => (s', live.eraseIdx i)

/-- A history of operations. -/
def runOps : List Op → Istor → List Block → Option (Istor × List Block)
  | [], s, live => some (s, live)
  | o :: os, s, live => (step s live o).bind fun r => runOps os r.1 r.2

/-- Two blocks have no element in common. -/
def Block.Disjoint (a b : Block) : Prop := ∀ k, ¬((a.ptr ≤ k ∧ k < a.ptr + a.len) ∧ (b.ptr ≤ k ∧ k < b.ptr + b.len))

/-- The most memory held at one time. -/
def Use.peak : Use → Nat
  | .skip => 0
  | .seq a b => max a.peak b.peak
  | .hold n body => n + body.peak

end Nntl.Istor
