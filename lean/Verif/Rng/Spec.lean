import Verif.Rng.Model
/-! Specifications for the random number generators. -/
namespace Nntl.Rng
variable {σ δ β R : Type}

/-- The local object and the stream after `k` elements. -/
def after (g : Gen σ δ β) (d : δ) (s : σ) : Nat → δ × σ
  | 0 => (d, s)
  | k + 1 => let p := after g d s k; ((g p.1 p.2).2.1, (g p.1 p.2).2.2)

/-- Element number `k` (from 0) a stream makes. -/
def elem (g : Gen σ δ β) (d : δ) (s : σ) (k : Nat) : β := (g (after g d s k).1 (after g d s k).2).1

/-- Threads that take part in filling `n` elements, of `W` threads. -/
def crew (W n : Nat) : Nat := if n ≤ 1 then 1 else min W n

/-- The array is cut into `T` consecutive pieces, the first `n % T` of them one element longer: where piece `j` begins and how long it is. -/
def pieceBegin (n T j : Nat) : Nat := j * (n / T) + min j (n % T)
def pieceLen (n T j : Nat) : Nat := n / T + if j < n % T then 1 else 0

/-- The stream that makes piece `j`: pieces go to the threads 1, 2, .. of the pool, the last one is done by the calling thread, number 0. -/
def pieceOwner (T j : Nat) : Nat := if j + 1 = T then 0 else j + 1

/-- The outcome of filling `n` elements with `W` threads: piece `j` holds the next elements of the stream of its thread, in their order;
nothing outside of the `n` elements is touched; each stream moves on by the length of its piece, the streams of idle threads stay. -/
structure Filled (g : Gen σ δ β) (d0 : δ) (W n : Nat) (rngs : Nat → σ) (mem : Nat → β) (rngs' : Nat → σ) (mem' : Nat → β) : Prop where
  inside : ∀ j, j < crew W n → ∀ i, i < pieceLen n (crew W n) j →
    mem' (pieceBegin n (crew W n) j + i) = elem g d0 (rngs (pieceOwner (crew W n) j)) i
  outside : ∀ k, n ≤ k → mem' k = mem k
  busy : ∀ j, j < crew W n →
    rngs' (pieceOwner (crew W n) j) = (after g d0 (rngs (pieceOwner (crew W n) j)) (pieceLen n (crew W n) j)).2
  idle : ∀ t, crew W n ≤ t → rngs' t = rngs t

/-- The pool of threads: ids of its ranges are 1, 2, .. (`Workers` constructor, workers.h:114-116), `W` threads with the calling one. -/
def Pool (W : Nat) (ranges : List Threads.ParRange) : Prop := Threads.RangesOk ranges ∧ ranges.length + 1 = W

end Nntl.Rng
