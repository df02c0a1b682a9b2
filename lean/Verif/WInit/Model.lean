import Verif.Norm.Model
/-!
Model of the initialisation of weights: the schemes of `/repo/nntl/weights_init/static.h` and the data driven normalisation `LSUVExt` of
`/repo/nntl/weights_init/LsuvExt.h`.

A weight matrix with `rows` neurons and `cols - 1` incoming neurons is its memory `Nat → K`: the weight of the connection from the incoming neuron `c` to neuron
`r` is the cell `r + rows * c`, the biases are the last column. Numbers are elements of an ordered field (no rounding). Random numbers are an arbitrary
stream: draw number `i` of the object is `xi i`. Messages are not modelled.
-/
namespace Nntl.WInit
open Nntl.Kernel Nntl.Threads Nntl.Norm
variable {K : Type} [Field K] [LinearOrder K]

/-- One write. -/
def put {α : Type} (w : Nat → α) (k : Nat) (v : α) : Nat → α := fun i => if i = k then v else w i

/-! ### Schemes that only draw numbers -/

/-- `distr_normal_naive::gen_vector`, `nntl/interface/rng/distr_normal_naive.h` 61–64: `n` more elements from `p` on, the next draw is `i`. -/
def genVector (xi : Nat → K) : Nat → Nat → Nat → (Nat → K) → (Nat → K)
  | 0, _, _, w => w
  | n + 1, p, i, w => genVector xi n (p + 1) (i + 1) (put w p (xi i))

/-- `_fill_seq_elements` as called by `smatrix::fill_column_with`, `nntl/interface/math/smatrix.h` 563–570. -/
def fillSeq (v : K) : Nat → Nat → (Nat → K) → (Nat → K)
  | 0, _, w => w
  | n + 1, p, w => fillSeq v n (p + 1) (put w p v)

/-- `fill_column_with`. -/
def fillColumn (rows c : Nat) (v : K) (w : Nat → K) : Nat → K := fillSeq v rows (rows * c) w

/-- `He_Zhang::make_weights` static.h 89–112, `He_Zhang2::make_weights` 118–141 and `SNNInit` 146. The deviations the schemes use are a part of the draws. -/
def heZhang (xi : Nat → K) (rows cols : Nat) (w : Nat → K) : Nat → K :=
  fillColumn rows (cols - 1) 0 (genVector xi (rows * (cols - 1)) 0 0 w)

/-- `OrthoInit::make_weights` static.h 235–263. `svd w w' b` is `mSVD_Orthogonalize_ss` changing `w` into `w'` and returning `b`; `n` attempts are left; the next draw
is `i`. The result is the weights before the gain and the returned flag. -/
def orthoLoop (svd : (Nat → K) → (Nat → K) → Bool → Prop) (xi : Nat → K) (numel : Nat) : Nat → Nat → (Nat → K) → (Nat → K) × Bool → Prop
  | 0, _, w, r => r = (w, false)
  | n + 1, i, w, r => ∃ w1 b, svd (genVector xi numel 0 i w) w1 b ∧ if b then r = (w1, true) else orthoLoop svd xi numel n (i + numel) w1 r

/-- `OrthoInit::make_weights`: the gain is applied unless it is 1 (`evMulC_ip`, `nntl/interface/math/mathn.h` 1645–1661). -/
def orthoInit (ex : Exec) (svd : (Nat → K) → (Nat → K) → Bool → Prop) (xi : Nat → K) (rows cols maxTries : Nat) (gain : K) (w : Nat → K)
    (r : (Nat → K) × Bool) : Prop :=
  ∃ r1, orthoLoop svd xi (rows * cols) maxTries 0 w r1 ∧
    ∃ w2, (if gain ≠ 1 then Runs ex (rows * cols) (eachSteps fun _ v => v * gain) r1.1 w2 else w2 = r1.1) ∧ r = (w2, r1.2)

/-! ### Sparse initialisation -/

/-- The loop over `cIdx`, static.h 200–202, from `c` on with `n` more iterations; the next number is `xi i`. `none`: an element behind the end of the array of the
indices is read. -/
def sparseRow (xi : Nat → K) (rows r : Nat) (idxs : List Nat) : Nat → Nat → Nat → (Nat → K) → Option (Nat → K)
  | 0, _, _, w => some w
  | n + 1, c, i, w =>
    match idxs[c]? with
    | none => none
    | some col => sparseRow xi rows r idxs n (c + 1) (i + 1) (put w (r + rows * col) (xi i))

/-- The loop over the rows 198–203 from `r` on with `n` more iterations: the indices of the previous row are shuffled (`random_shuffle`, any permutation may come out). -/
def sparseRows (xi : Nat → K) (rows nz : Nat) : Nat → Nat → Nat → List Nat → (Nat → K) → Option (Nat → K) → Prop
  | 0, _, _, _, w, o => o = some w
  | n + 1, r, i, idxs, w, o => ∃ idxs' : List Nat, idxs'.Perm idxs ∧
    match sparseRow xi rows r idxs' nz 0 i w with
    | none => o = none
    | some w1 => sparseRows xi rows nz n (r + 1) (i + nz) idxs' w1 o

/-- `zeros()` on a matrix without emulated biases, `smatrix.h` 1103–1107. -/
def zeros (numel : Nat) (w : Nat → K) : Nat → K := fun k => if k < numel then 0 else w k

/-- `Martens_SI::make_weights` static.h 159–213 when the allocations succeed. The numbers of the matrix `src` are the draws `xi`. The assertion 175 is not modelled
(it is compiled out in release builds). -/
def martens (xi : Nat → K) (rows cols nz : Nat) (biases : K) (w : Nat → K) (o : Option (Nat → K)) : Prop :=
  ∃ o1, sparseRows xi rows nz rows 0 0 (List.range (cols - 1)) (zeros (rows * cols) w) o1 ∧
    o = if biases ≠ 0 then o1.map (fillColumn rows (cols - 1) biases) else o1

/-! ### LSUV: changing weights -/

/-- The loop 328–330 over the biases: `n` more elements from `p` on. -/
def addLoop (v : K) : Nat → Nat → (Nat → K) → (Nat → K)
  | 0, _, w => w
  | n + 1, p, w => addLoop v n (p + 1) (put w p (w p + v))

/-- `_WeightsNorm_whole::normalize_whole`, LsuvExt.h 316–332. -/
def normWhole (ex : Exec) (rows cols : Nat) (s : Setts K) (act scaleVal centralVal : K) (bScale bCentral : Bool) (w w' : Nat → K) : Prop :=
  let sv := if bScale then s.targetScale / scaleVal else 1
  ∃ w1, (if bScale then Runs ex (rows * cols) (eachSteps fun _ v => v * sv) w w1 else w1 = w) ∧
    w' = if bCentral then addLoop ((s.targetCentral - centralVal) * act * sv) (rows * cols - rows * (cols - 1)) (rows * (cols - 1)) w1 else w1

/-- The loop 381–384 over a row from the cell `p` on. -/
def strideMul (ld e : Nat) (mv : K) (p : Nat) (w : Nat → K) : Nat → K :=
  if _h : p < e ∧ 0 < ld then strideMul ld e mv (p + ld) (put w p (w p * mv)) else w
  termination_by e - p

/-- `_WeightsNorm_cw::normalize_cw`, LsuvExt.h 369–391. -/
def normRow (rows cols : Nat) (s : Setts K) (act : K) (col : Nat) (scaleVal centralVal : K) (bScale bCentral : Bool) (w : Nat → K) : Nat → K :=
  let sv := if bScale then s.targetScale / scaleVal else 1
  let w1 := if bScale then strideMul rows (rows * cols) sv col w else w
  if bCentral then put w1 (col + rows * (cols - 1)) (w1 (col + rows * (cols - 1)) + (s.targetCentral - centralVal) * act * sv) else w1

/-- The loop of `mtx2Normal::normalize_whole` (`nntl/utils/mtx2Normal.h` 370–417) with the functor of LSUV: `m` measures the layer for the present weights, `n` tries are left. The
result is the returned flag and the weights. -/
def wholeTries (ex : Exec) (rows cols : Nat) (s : Setts K) (act : K) (m : (Nat → K) → Meas K) : Nat → (Nat → K) → Bool × (Nat → K) → Prop
  | 0, w, r => r = (false, w)
  | n + 1, w, r =>
    let bS := doScale s (m w)
    let bC := doCentral s (m w)
    if (!(m w).centralGood || !(m w).scaleGood) && s.badBreak then r = (false, w)
    else ∃ w1, (if bS || bC then normWhole ex rows cols s act (m w).scale (m w).central bS bC w w1 else w1 = w) ∧
      if (!bS || scaleOk s (m w)) && (!bC || centralOk s (m w)) then r = (true, w1) else wholeTries ex rows cols s act m n w1 r

/-- The loop over the columns of `mtx2Normal::normalize_cw` 500–556 with the functor of LSUV: the weights, `bColumnOk`, `bAllScaleOk && bAllCentrOk`, and whether it
returned because of bad statistics. -/
def rowTries (rows cols : Nat) (s : Setts K) (act : K) (m : Nat → Meas K) : List Nat → (Nat → K) → (Nat → Bool) → Bool → (Nat → K) × (Nat → Bool) × Bool × Bool
  | [], w, ok, all => (w, ok, all, false)
  | c :: cs, w, ok, all =>
    if ok c then rowTries rows cols s act m cs w ok all
    else
      let bS := doScale s (m c)
      let bC := doCentral s (m c)
      let tS := !bS || scaleOk s (m c)
      let tC := !bC || centralOk s (m c)
      if (!(m c).centralGood || !(m c).scaleGood) && s.badBreak then (w, ok, all && (tS && tC), true)
      else rowTries rows cols s act m cs (if bS || bC then normRow rows cols s act c (m c).scale (m c).central bS bC w else w)
        (put ok c (tS && tC)) (all && (tS && tC))

/-- The loop of `mtx2Normal::normalize_cw` 463–569; statistics of all the neurons are measured before any of them is changed. -/
def cwTries (rows cols : Nat) (s : Setts K) (act : K) (m : (Nat → K) → Nat → Meas K) : Nat → (Nat → K) → (Nat → Bool) → Bool × (Nat → K)
  | 0, w, _ => (false, w)
  | n + 1, w, ok =>
    let p := rowTries rows cols s act (m w) (List.range rows) w ok true
    if p.2.2.2 then (false, p.1)
    else if p.2.2.1 then (true, p.1)
    else cwTries rows cols s act m n p.1 p.2.1

/-! ### LSUV: layers -/

/-- `WeightNormSetts` 58–70; the batches are a part of what is measured. -/
structure LSetts (K : Type) extends Setts K where
  maxReinit : Nat
  individual : Bool
  overPre : Bool

/-- What LSUV sees of the network. Layers are named by their indexes; `Nat → Nat → K` are the weights of all the layers. -/
structure Net (K : Type) where
  rows : Nat → Nat
  cols : Nat → Nat
  learnable : Nat → Bool
  setts : Nat → LSetts K
  /-- `act_scaling_coeff()` -/
  actSc : Nat → K
  /-- statistics over all the activations of layer `k` computed by `doFixedBatchFprop` when `ign` are the flags `bIgnoreActivation()` of the layers -/
  meas : (ign : Nat → Bool) → (ws : Nat → Nat → K) → (k : Nat) → Meas K
  /-- the same over the activations of a neuron -/
  measN : (ign : Nat → Bool) → (ws : Nat → Nat → K) → (k : Nat) → (neuron : Nat) → Meas K
  /-- what `reinit_weights()` may leave in the weights of a layer -/
  reinit : (k : Nat) → (Nat → K) → (Nat → K) → Prop
  ex : Nat → Exec

/-- Weights and flags of the layers, `m_firstFailedLayerIdx`. -/
structure St (K : Type) where
  ws : Nat → Nat → K
  ign : Nat → Bool
  fail : Nat

/-- `_processWeights_individual` 401–405 or `_processWeights_shared` 339–343 on layer `k`, with `normalize_cw` 445–570 and `normalize_whole` 356–417 of
mtx2Normal.h: the flag and the weights of the layer. -/
def process (N : Net K) (k : Nat) (act : K) (s : St K) (w : Nat → K) (r : Bool × (Nat → K)) : Prop :=
  let st := (N.setts k).toSetts
  if !(st.normScale || st.normCentral) || decide (st.maxTries = 0) then r = (true, w)
  else if (N.setts k).individual then
    r = cwTries (N.rows k) (N.cols k) st act (fun w => N.measN s.ign (put s.ws k w) k) st.maxTries w (fun _ => false)
  else wholeTries (N.ex k) (N.rows k) (N.cols k) st act (fun w => N.meas s.ign (put s.ws k w) k) st.maxTries w r

/-- The loop 214–230 with `n` attempts left. -/
def attempts (N : Net K) (k : Nat) (act : K) (s : St K) : Nat → (Nat → K) → Bool × (Nat → K) → Prop
  | 0, w, r => r = (false, w)
  | n + 1, w, r => ∃ p, process N k act s w p ∧
    if p.1 then r = p
    else ∃ w1, (if 0 < n then N.reinit k p.2 w1 else w1 = p.2) ∧ attempts N k act s n w1 r

/-- `_processLayer` 191–238. -/
def processLayer (N : Net K) (k : Nat) (s s' : St K) : Prop :=
  if N.learnable k then
    let st := N.setts k
    if (!st.normCentral && !st.normScale) || decide (st.maxTries = 0) then s' = s
    else
      let s1 : St K := { s with ign := put s.ign k st.overPre }
      let act := if st.overPre then 1 else N.actSc k
      ∃ r, attempts N k act s1 st.maxReinit (s.ws k) r ∧
        s' = { ws := put s.ws k r.2, ign := put s1.ign k false, fail := if r.1 then s.fail else if s.fail = 0 then k else s.fail }
  else s' = s

/-- A layer with its inner layers (none for a layer that is not a pack). -/
inductive Tree where
  | node (k : Nat) (inner : List Tree)

mutual
/-- `operator()` 159–171: the inner layers (`for_each_packed_layer` 176, upwards), then the layer itself. -/
def walk (N : Net K) : Tree → St K → St K → Prop
  | .node k inner, s, s' => ∃ s1, walkAll N inner s s1 ∧ processLayer N k s1 s'
/-- The layers of a pack, upwards. -/
def walkAll (N : Net K) : List Tree → St K → St K → Prop
  | [], s, s' => s' = s
  | t :: ts, s, s' => ∃ s1, walk N t s s1 ∧ walkAll N ts s1 s'
end

/-- `run` 129–157 over `layers` (all but the input layer) with `samples` training samples; the returned flag and the state. The batch size is a part of what is
measured; initialisation of the net for inference (`prepareToBatchSize`) keeps weights and flags and is assumed to succeed. -/
def run (N : Net K) (layers : List Tree) (samples : Nat) (s : St K) (r : Bool × St K) : Prop :=
  let s0 := { s with fail := 0 }
  if samples < 2 then r = (false, s0)
  else ∃ s1, walkAll N layers s0 s1 ∧ r = (decide (s1.fail = 0), s1)

end Nntl.WInit
