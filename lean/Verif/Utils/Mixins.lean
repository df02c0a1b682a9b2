/-!
Model of `nntl/utils/mixins.h`: indices of mixins and the shared storage of their binary options. A mixin template is represented by a number
(two templates are `is_same` iff the numbers are equal); `cnt t` is its `opts_total`.
-/
namespace Nntl.Utils.Mx

/-- `ref_index` with `mixin_ref_index_imp` and `mixin_ref_index_imp0`, mixins.h 84–105. `none`: the template does not compile (an empty list with `I ≠ 1`). -/
def refIndex (check n : Nat) : Nat → List Nat → Option Nat
  | 1, _ => some n
  | _, [] => none
  | i, h :: tl => if check = h then some (n - i + 1) else refIndex check n (i - 1) tl

/-- `make_mixin_vec`, mixins.h 111–114: the index every mixin of the list gets as its template parameter. -/
def mixinVec (l : List Nat) : List (Option Nat) := l.map fun m => refIndex m l.length l.length l

/-- `make_mixin_options_count_vec_c`, mixins.h 123–135: the root's count followed by the counts of the mixins. -/
def countVec (root : Nat) (cnt : Nat → Nat) (l : List Nat) : List Nat := l.foldl (fun st m => st ++ [cnt m]) [root]

/-- `get_cumsum`, mixins.h 138–143. -/
def cumsum (l : List Nat) : Nat := l.foldl (fun a b => a + b) 0

/-- `make_cumsum_vec_c`, mixins.h 146–159. -/
def cumsumVec (l : List Nat) : List Nat := l.foldl (fun st c => st ++ [st.getLastD 0 + c]) [0]

/-- How an access ends; `ub`: outside the `bitset` (its `operator[]` does not check), or a type that does not compile. -/
inductive Out (α : Type) where
  | ok (a : α)
  | ub

/-- `binary_options_storage::get`, mixins.h 168–171, for the mixin index `mi`. `bits` is the bitset of `N` bits. -/
def get (ofs : List Nat) (bits : List Bool) (mi o : Nat) : Out Bool :=
  match ofs[mi]? with
  | none => .ub
  | some f => match bits[o + f]? with
    | none => .ub
    | some b => .ok b

/-- `binary_options_storage::set`, mixins.h 173–176. -/
def set (ofs : List Nat) (bits : List Bool) (mi o : Nat) (b : Bool) : Out (List Bool) :=
  match ofs[mi]? with
  | none => .ub
  | some f => if o + f < bits.length then .ok (bits.set (o + f) b) else .ub

/-- A class built from a root with `root` options and the mixins `l` (grad_works.h 146–152, 192). -/
structure Cls where
  root : Nat
  cnt : Nat → Nat
  mixins : List Nat

/-- The offsets of the class, grad_works.h 149–150. -/
def Cls.ofs (c : Cls) : List Nat := cumsumVec (countVec c.root c.cnt c.mixins)

/-- The storage after construction: `TotalOpts` zero bits, grad_works.h 152, 192. -/
def Cls.fresh (c : Cls) : List Bool := List.replicate (cumsum (countVec c.root c.cnt c.mixins)) false

/-- Who accesses the storage: the root (index 0) or the mixin at a position of the list, with the index it was given (`NNTL_METHODS_MIXIN_OPTIONS(MixinIdx)`,
`NNTL_METHODS_MIXIN_ROOT_OPTIONS()`, mixins.h 49–60). -/
inductive Who where
  | root
  | mixin (pos : Nat)
  deriving DecidableEq

/-- The index used by an accessor. -/
def Cls.idx (c : Cls) : Who → Option Nat
  | .root => some 0
  | .mixin p => ((mixinVec c.mixins)[p]?).join

/-- `get_opt`, mixins.h 52, 58. -/
def Cls.getOpt (c : Cls) (bits : List Bool) (w : Who) (o : Nat) : Out Bool :=
  match c.idx w with
  | none => .ub
  | some i => get c.ofs bits i o

/-- `set_opt`, mixins.h 53, 59. -/
def Cls.setOpt (c : Cls) (bits : List Bool) (w : Who) (o : Nat) (b : Bool) : Out (List Bool) :=
  match c.idx w with
  | none => .ub
  | some i => set c.ofs bits i o b

/-- A sequence of `set_opt` calls. -/
def Cls.run (c : Cls) : List Bool → List (Who × Nat × Bool) → Out (List Bool)
  | bits, [] => .ok bits
  | bits, (w, o, b) :: l =>
    match c.setOpt bits w o b with
    | .ok bits' => c.run bits' l
    | .ub => .ub

end Nntl.Utils.Mx
