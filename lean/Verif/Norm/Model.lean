import Verif.Kernel.Elem
import Verif.Kernel.Each
import Mathlib.Algebra.Order.Field.Basic
/-!
Model of data normalisation: `/repo/nntl/utils/mtx2Normal.h` and its use for data sets in `/repo/nntl/train_data/_td_norm.h`,
`_td_base.h`, `inmem_train_data.h` and `transf_train_data.h`.

Numbers are elements of an arbitrary ordered field (no rounding; the casts between `StatsT` and `RealT` are identities). What the
statistics functor measures is an arbitrary function of the data it walks over: the accumulators of boost are not modelled, only the
values they give. `bScaleGood`, `bCentralGood` (the value is finite) and `bScaleSpecial` are a part of the measurement. Messages are not modelled.
-/
namespace Nntl.Norm
open Nntl.Kernel Nntl.Matrix Nntl.Threads
variable {K : Type} [Field K] [LinearOrder K]

/-- `ScaleCentralData`, mtx2Normal.h 76–85. -/
structure Stat (K : Type) where
  sc : K
  ofs : K
  bScale : Bool
  bOffset : Bool

/-- Default constructor 84 and `reset` 171–175. -/
def Stat.init : Stat K := { sc := 1, ofs := 0, bScale := false, bOffset := false }

/-- `_upd_scale` 122–126. -/
def Stat.updScale (s : Stat K) (v : K) : Stat K := { s with sc := s.sc * v, ofs := s.ofs * v, bScale := true }

/-- `_upd_ofs` 128–131. -/
def Stat.updOfs (s : Stat K) (v : K) : Stat K := { s with ofs := s.ofs + v, bOffset := true }

/-- `_upd_both` 135–139. -/
def Stat.updBoth (s : Stat K) (vSc vOfs : K) : Stat K :=
  { sc := s.sc * vSc, ofs := vSc * s.ofs + vOfs, bScale := true, bOffset := true }

/-- `_upd_all_typed` 144–162 (both variants; the conversion is exact here). -/
def Stat.updAll (s other : Stat K) : Stat K :=
  let s := if other.bScale then s.updScale other.sc else s
  if other.bOffset then s.updOfs other.ofs else s

/-! ### Changing a matrix -/

/-- `_ievMulCAddC_ip_st`, `_ievMulC_ip_st`, `_ievAddC_ip_st` with `bIgnoreBias` (`nntl/interface/math/mathn.h` 1606–1626, 1693–1712, 1855–1874): the
work of one thread on the range `[b,e)`; `f` is what is done to an element. -/
def nbKernel (m : Mtx K) (f : K → K) (b e : Nat) : List (Step K) :=
  if m.bir && m.emul then elemCw (fun _ _ => f) m.rows b e 0 (m.rows - 1) else eachSteps (fun _ => f) b e

/-- `_universal_range_BiR_aware(true)`, `nntl/interface/math/smatrix.h` 1272–1277. -/
def nbRange (m : Mtx K) : Nat :=
  if m.bir && m.emul then m.cols else if m.bir then m.numel else m.numelNoBias

/-- `evMulCAddC_ip_nb`, `evMulC_ip_nb`, `evAddC_ip_nb` (`mathn.h` 1576–1605, 1667–1692, 1828–1854) in the one-thread (`.st`) or many-threads variant. -/
def nbElems (ex : Exec) (f : K → K) (m m' : Mtx K) : Prop :=
  ∃ d, Runs ex (nbRange m) (nbKernel m f) m.data d ∧ m' = { m with data := d }

/-- `upd_mtx_scale_central::whole` 188–202. -/
def whole (ex : Exec) (st : Stat K) (m m' : Mtx K) : Prop :=
  if st.bScale then
    if st.bOffset then nbElems ex (fun v => st.sc * v + st.ofs) m m'
    else nbElems ex (fun v => v * st.sc) m m'
  else if st.bOffset then nbElems ex (fun v => v + st.ofs) m m'
  else m' = m

/-- One column of `batchwise_st` 229–252. -/
def colSteps (st : Stat K) (rows c : Nat) : List (Step K) :=
  let go (f : K → K) := (List.range' 0 rows).map fun r => ((rows * c + r, f) : Step K)
  if st.bScale || st.bOffset then
    if st.bScale then
      if st.bOffset then go (fun v => st.sc * v + st.ofs) else go (fun v => v * st.sc)
    else go (fun v => v + st.ofs)
  else []

/-- `batchwise` 205–212 and `batchwise_st` 215–253: the columns without the biases are shared out among the threads. `none` of the assertions is
modelled except for `bBatchInColumn` (a hypothesis of the theorems). -/
def batchwise (ex : Exec) (st : Nat → Stat K) (m m' : Mtx K) : Prop :=
  ∃ d, Runs ex m.colsNoBias (fun b e => (List.range' b (e - b)).flatMap fun c => colSteps (st c) m.rows c) m.data d ∧ m' = { m with data := d }

/-! ### The loops -/

/-- `Settings` 51–74. -/
structure Setts (K : Type) where
  targetScale : K
  targetCentral : K
  scaleTol : K
  centralTol : K
  maxTries : Nat
  normScale : Bool
  normCentral : Bool
  badBreak : Bool

/-- `bShouldNormalize` 71–73. -/
def Setts.should (s : Setts K) : Bool := (s.normCentral || s.normScale) && decide (0 < s.maxTries)

/-- What `get_scale` and `get_central` say about the data. -/
structure Meas (K : Type) where
  scale : K
  central : K
  special : Bool
  scaleGood : Bool
  centralGood : Bool

/-- `bScaleIsOk`, `bCentralIsOk` 389–390 (510–511). -/
def scaleOk (s : Setts K) (m : Meas K) : Bool := decide (|m.scale - s.targetScale| < s.scaleTol)
def centralOk (s : Setts K) (m : Meas K) : Bool := decide (|m.central - s.targetCentral| < s.centralTol)
/-- `bDoScale`, `bDoCentral` 392–393 (513–514). -/
def doScale (s : Setts K) (m : Meas K) : Bool := !scaleOk s m && m.scaleGood && s.normScale && !m.special
def doCentral (s : Setts K) (m : Meas K) : Bool := !centralOk s m && m.centralGood && s.normCentral

/-- What a data source does for the normalisation. -/
structure Td (S K : Type) where
  /-- `prepareToWalk`, `walk` and the statistics over the training set as it is seen now -/
  meas : S → Meas K
  /-- `_fix_trainX_whole` -/
  fixTrain : Stat K → S → S → Prop

/-- `_Norm_whole::normalize_whole`, `_td_norm.h` 149–161: the updated cumulative statistics and what is passed to `_fix_trainX_whole`. -/
def normStep (s : Setts K) (st : Stat K) (scaleVal centralVal : K) (bScale bCentral : Bool) : Stat K × Stat K :=
  let sv := if bScale then s.targetScale / scaleVal else 1
  let st := if bScale then st.updScale sv else st
  let cv := if bCentral then (s.targetCentral - centralVal) * sv else centralVal
  let st := if bCentral then st.updOfs cv else st
  (st, { sc := sv, ofs := cv, bScale := bScale, bOffset := bCentral })

/-- Outcome of a loop: the returned flag, the cumulative statistics, the data source, and (for the specification only) the list of the
arguments of the calls of `_fix_trainX_*`. -/
structure Res (S T : Type) where
  ok : Bool
  stat : T
  state : S
  sent : List T

/-- The loop of `normalize_whole`, mtx2Normal.h 369–417, with `n` tries left. -/
def wholeLoop {S : Type} (s : Setts K) (td : Td S K) : Nat → Stat K → S → Res S (Stat K) → Prop
  | 0, st, x, r => r = ⟨false, st, x, []⟩
  | n + 1, st, x, r =>
    let m := td.meas x
    let bS := doScale s m
    let bC := doCentral s m
    if (!m.centralGood || !m.scaleGood) && s.badBreak then r = ⟨false, st, x, []⟩
    else
      let p := normStep s st m.scale m.central bS bC
      let st1 := if bS || bC then p.1 else st
      let tr := if bS || bC then [p.2] else []
      ∃ x1, (if bS || bC then td.fixTrain p.2 x x1 else x1 = x) ∧
        if (!bS || scaleOk s m) && (!bC || centralOk s m) then r = ⟨true, st1, x1, tr⟩
        else ∃ r', wholeLoop s td n st1 x1 r' ∧ r = ⟨r'.ok, r'.stat, r'.state, tr ++ r'.sent⟩

/-- `mtx2Normal::normalize_whole` 358–418. -/
def normalizeWhole {S : Type} (s : Setts K) (td : Td S K) (x : S) (r : Res S (Stat K)) : Prop :=
  if !(s.normScale || s.normCentral) || decide (s.maxTries = 0) then r = ⟨true, .init, x, []⟩ else wholeLoop s td s.maxTries .init x r

/-- `td_norm::normalize_data_whole`, `_td_norm.h` 296–319, on a properly initialised data source, and `_fix_dataX_whole`, `_td_base.h` 200–223; `others` is
the `_do_fix_dataX_whole` of the data source. The result carries what was returned. -/
def normalizeDataWhole {S : Type} (s : Setts K) (td : Td S K) (others : Stat K → S → S → Prop) (x : S) (r : Res S (Stat K)) : Prop :=
  if !s.should then r = ⟨true, .init, x, []⟩
  else ∃ l, normalizeWhole s td x l ∧
    if l.ok then
      if !l.stat.bScale && !l.stat.bOffset then r = ⟨false, l.stat, l.state, l.sent⟩
      else ∃ x', others l.stat l.state x' ∧ r = ⟨true, l.stat, x', l.sent⟩
    else r = l

/-! ### Column by column -/

/-- What a data source does for the normalisation of columns. -/
structure TdCw (S K : Type) where
  /-- the statistics of a column of the training set as it is seen now -/
  meas : S → Nat → Meas K
  /-- `_fix_trainX_cw` -/
  fixTrain : (Nat → Stat K) → S → S → Prop

/-- State of one pass over the columns, mtx2Normal.h 490–559: `m_Stats`, `m_iterStats`, `bColumnOk`, `bAllScaleOk`, `bAllCentrOk`. -/
structure Cw (K : Type) where
  stats : Nat → Stat K
  iter : Nat → Stat K
  ok : Nat → Bool
  allScale : Bool
  allCentr : Bool

/-- `f` changed at one place. -/
def at1 {α : Type} (f : Nat → α) (c : Nat) (v : α) : Nat → α := fun i => if i = c then v else f i

/-- `_Norm_cw::normalize_cw`, `_td_norm.h` 241–253, with `_upd_scale` and `_upd_ofs` 206–215. -/
def normColStep (s : Setts K) (w : Cw K) (c : Nat) (scaleVal centralVal : K) (bScale bCentral : Bool) : Cw K :=
  let sv := if bScale then s.targetScale / scaleVal else 1
  let w := if bScale then { w with stats := at1 w.stats c ((w.stats c).updScale sv), iter := at1 w.iter c ((w.iter c).updScale sv) } else w
  if bCentral then
    let o := (s.targetCentral - centralVal) * sv
    { w with stats := at1 w.stats c ((w.stats c).updOfs o), iter := at1 w.iter c ((w.iter c).updOfs o) }
  else w

/-- The loop over the columns 497–547; the flag is the `return false` on bad statistics. -/
def cwCols (s : Setts K) (meas : Nat → Meas K) : List Nat → Cw K → Cw K × Bool
  | [], w => (w, false)
  | c :: cs, w =>
    if w.ok c then cwCols s meas cs w
    else
      let m := meas c
      let bS := doScale s m
      let bC := doCentral s m
      let tS := !bS || scaleOk s m
      let tC := !bC || centralOk s m
      let w := { w with allScale := w.allScale && tS, allCentr := w.allCentr && tC }
      if (!m.centralGood || !m.scaleGood) && s.badBreak then (w, true)
      else
        let w := if bS || bC then normColStep s w c m.scale m.central bS bC else w
        cwCols s meas cs { w with ok := at1 w.ok c (tS && tC) }

/-- The loop of `normalize_cw` 463–562 with `n` tries left, over `cols` columns. `cw_begin`, `cw_end`: `_td_norm.h` 227–239. -/
def cwLoop {S : Type} (s : Setts K) (td : TdCw S K) (cols : Nat) : Nat → (Nat → Stat K) → (Nat → Bool) → S → Res S (Nat → Stat K) → Prop
  | 0, st, _, x, r => r = ⟨false, st, x, []⟩
  | n + 1, st, ok, x, r =>
    let p := cwCols s (td.meas x) (List.range cols) ⟨st, fun _ => .init, ok, true, true⟩
    ∃ x1, td.fixTrain p.1.iter x x1 ∧
      if p.2 then r = ⟨false, p.1.stats, x1, [p.1.iter]⟩
      else if p.1.allScale && p.1.allCentr then r = ⟨true, p.1.stats, x1, [p.1.iter]⟩
      else ∃ r', cwLoop s td cols n p.1.stats p.1.ok x1 r' ∧ r = ⟨r'.ok, r'.stat, r'.state, p.1.iter :: r'.sent⟩

/-- `mtx2Normal::normalize_cw` 447–563. -/
def normalizeCw {S : Type} (s : Setts K) (td : TdCw S K) (cols : Nat) (x : S) (r : Res S (Nat → Stat K)) : Prop :=
  if !(s.normScale || s.normCentral) || decide (s.maxTries = 0) then r = ⟨true, fun _ => .init, x, []⟩
  else cwLoop s td cols s.maxTries (fun _ => .init) (fun _ => false) x r

/-- `td_norm::normalize_data_cw`, `_td_norm.h` 322–341, and `_fix_dataX_cw`, `_td_base.h` 225–263. -/
def normalizeDataCw {S : Type} (s : Setts K) (td : TdCw S K) (cols : Nat) (others : (Nat → Stat K) → S → S → Prop) (x : S)
    (r : Res S (Nat → Stat K)) : Prop :=
  if !s.should then r = ⟨true, fun _ => .init, x, []⟩
  else ∃ l, normalizeCw s td cols x l ∧
    if l.ok then
      if (List.range cols).all fun c => !(l.stat c).bScale && !(l.stat c).bOffset then r = ⟨false, l.stat, l.state, l.sent⟩
      else ∃ x', others l.stat l.state x' ∧ r = ⟨true, l.stat, x', l.sent⟩
    else r = l

/-! ### Data sources -/

/-- `X_mutable(i)` of in-memory data: set number 0 is the training set. -/
def setAt (ds : Nat → Mtx K) (i : Nat) (m : Mtx K) : Nat → Mtx K := fun j => if j = i then m else ds j

/-- `_fix_trainX_whole(cd, st, dsId)`, `inmem_train_data.h` 85–90. `ex` is the variant of the kernels chosen for the set. -/
def inmemFix (ex : Nat → Exec) (st : Stat K) (i : Nat) (ds ds' : Nat → Mtx K) : Prop :=
  ∃ m', whole (ex i) st (ds i) m' ∧ ds' = setAt ds i m'

/-- The loop of `_do_fix_dataX_whole`, `_td_base.h` 182–189, over the sets `[i, i+n)`. -/
def inmemOthers (ex : Nat → Exec) (st : Stat K) : Nat → Nat → (Nat → Mtx K) → (Nat → Mtx K) → Prop
  | _, 0, ds, ds' => ds' = ds
  | i, n + 1, ds, ds' => ∃ d1, inmemFix ex st i ds d1 ∧ inmemOthers ex st (i + 1) n d1 ds'

/-- In-memory data source; `meas` is an arbitrary statistic of the training matrix. -/
def inmem (ex : Nat → Exec) (meas : Mtx K → Meas K) : Td (Nat → Mtx K) K where
  meas ds := meas (ds 0)
  fixTrain st ds ds' := inmemFix ex st 0 ds ds'

/-- Normalisation of in-memory data with `dc` sets, `test_set_id = 1`. -/
def inmemWhole (ex : Nat → Exec) (meas : Mtx K → Meas K) (dc : Nat) (s : Setts K) (ds : Nat → Mtx K) (r : Res (Nat → Mtx K) (Stat K)) : Prop :=
  normalizeDataWhole s (inmem ex meas) (fun st => inmemOthers ex st 1 (dc - 1)) ds r

/-- `_fix_trainX_cw(cd, st, dsId)`, `inmem_train_data.h` 92–97. -/
def inmemFixCw (ex : Nat → Exec) (st : Nat → Stat K) (i : Nat) (ds ds' : Nat → Mtx K) : Prop :=
  ∃ m', batchwise (ex i) st (ds i) m' ∧ ds' = setAt ds i m'

/-- The loop of `_do_fix_dataX_cw`, `_td_base.h` 190–198. -/
def inmemOthersCw (ex : Nat → Exec) (st : Nat → Stat K) : Nat → Nat → (Nat → Mtx K) → (Nat → Mtx K) → Prop
  | _, 0, ds, ds' => ds' = ds
  | i, n + 1, ds, ds' => ∃ d1, inmemFixCw ex st i ds d1 ∧ inmemOthersCw ex st (i + 1) n d1 ds'

/-- A column of a matrix. -/
def colOf (m : Mtx K) (c : Nat) : List K := (List.range m.rows).map fun r => m.data (r + m.rows * c)

/-- In-memory data source, columns; `meas c` is an arbitrary statistic of the elements of column `c`. -/
def inmemCw (ex : Nat → Exec) (meas : Nat → List K → Meas K) : TdCw (Nat → Mtx K) K where
  meas ds c := meas c (colOf (ds 0) c)
  fixTrain st ds ds' := inmemFixCw ex st 0 ds ds'

/-- Normalisation of the columns of in-memory data, `xWidth()` columns. -/
def inmemColumns (ex : Nat → Exec) (meas : Nat → List K → Meas K) (dc : Nat) (s : Setts K) (ds : Nat → Mtx K)
    (r : Res (Nat → Mtx K) (Nat → Stat K)) : Prop :=
  normalizeDataCw s (inmemCw ex meas) (ds 0).colsNoBias (fun st => inmemOthersCw ex st 1 (dc - 1)) ds r

/-- What `_norm_visitor` does to an element of a batch under `m_NormalizationPrms` (`transf_train_data.h` 487–510; `none` is `monostate`). -/
def prmsApply (p : Option (Stat K)) (v : K) : K :=
  match p with
  | none => v
  | some st => if st.bScale then (if st.bOffset then st.sc * v + st.ofs else v * st.sc) else if st.bOffset then v + st.ofs else v

/-- `_fix_trainX_whole` of the transforming data source, `transf_train_data.h` 532–543. -/
def transfFix (st : Stat K) (p p' : Option (Stat K)) : Prop :=
  p' = some (match p with | some old => old.updAll st | none => st)

/-- The transforming data source over fixed raw data: its state is `m_NormalizationPrms`; `meas f` are the statistics of the raw training data with every
element changed by `f`. -/
def transf (meas : (K → K) → Meas K) : Td (Option (Stat K)) K where
  meas p := meas (prmsApply p)
  fixTrain := transfFix

/-- `normalize_data` of the transforming data source, `transf_train_data.h` 523–528 (`reset_normalization` first), `_do_fix_dataX_whole` 566–569. -/
def transfWhole (meas : (K → K) → Meas K) (s : Setts K) (r : Res (Option (Stat K)) (Stat K)) : Prop :=
  normalizeDataWhole s (transf meas) (fun st _ p' => p' = some st) none r

end Nntl.Norm
