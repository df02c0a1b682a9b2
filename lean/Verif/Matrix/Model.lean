/-!
Model of one matrix object: `smatrix` / `smatrix_deform`.
Source: /repo/nntl/interface/math/smatrix.h

A matrix is a header plus the contents of the storage its data pointer points to. `vec_len_t`/`numel_cnt_t` are `Nat`
(no overflow). Memory given by the allocator has arbitrary contents (`junk`) and the allocator may fail (`ok = false`).
Operations return `none` where the code would call `abort()` or where an `NNTL_ASSERT` precondition is violated
(the assertion exists in debug builds only; in release builds such a call is undefined behaviour).
-/
namespace Nntl.Matrix

/-- smatrix.h:257-294 (`m_pData`, `m_rows`, `m_cols`, `m_bEmulateBiases`, `m_bDontManageStorage`, `m_bHoleyBiases`,
`m_bBatchInRow`) and smatrix.h:1303 (`m_maxSize`, debug builds). `cap` is the number of elements that really can be
addressed from `m_pData`; `cap = 0` stands for `m_pData == nullptr`. -/
structure Mtx (α : Type) where
  data : Nat → α
  cap : Nat
  rows : Nat
  cols : Nat
  emul : Bool
  ext : Bool
  holey : Bool
  bir : Bool
  maxSize : Nat

variable {α : Type}

/-- `empty()` smatrix.h:925. -/
def Mtx.empty (m : Mtx α) : Bool := m.cap == 0

/-- Default constructor smatrix.h:333-334. -/
def Mtx.default (d : Nat → α) : Mtx α :=
  { data := d, cap := 0, rows := 0, cols := 0, emul := false, ext := false, holey := false, bir := false, maxSize := 0 }

/-- `has_bias_row` / `has_bias_column` smatrix.h:456-461. -/
def Mtx.hasBiasRow (m : Mtx α) : Bool := m.bir && m.emul
def Mtx.hasBiasCol (m : Mtx α) : Bool := !m.bir && m.emul

/-- `cols_no_bias` smatrix.h:809-812, `rows_no_bias` smatrix.h:822-825. -/
def Mtx.colsNoBias (m : Mtx α) : Nat := m.cols - (m.emul && !m.bir).toNat
def Mtx.rowsNoBias (m : Mtx α) : Nat := m.rows - (m.emul && m.bir).toNat

/-- `numel` smatrix.h:848, `numel_no_bias_sBiR` smatrix.h:867. -/
def Mtx.numel (m : Mtx α) : Nat := m.rows * m.cols
def Mtx.numelNoBias (m : Mtx α) : Nat := m.rowsNoBias * m.colsNoBias

/-- Column-major cell of an element: `r + sNumel(ldim(), c)`, smatrix.h:1008,1013; `ldim() == m_rows` (803). -/
def Mtx.cell (m : Mtx α) (r c : Nat) : Nat := r + m.rows * c

def upd (d : Nat → α) (k : Nat) (v : α) : Nat → α := fun j => if j = k then v else d j

/-- `get` smatrix.h:1010-1014. -/
def Mtx.get (m : Mtx α) (r c : Nat) : Option α :=
  if r < m.rows ∧ c < m.cols then some (m.data (m.cell r c)) else none

/-- `set` smatrix.h:1005-1009. -/
def Mtx.set (m : Mtx α) (r c : Nat) (v : α) : Option (Mtx α) :=
  if r < m.rows ∧ c < m.cols then some { m with data := upd m.data (m.cell r c) v } else none

/-- `_fill_seq_elements` smatrix.h:601-604: `for i < n: p[i] = v`. -/
def fillSeq (d : Nat → α) (ofs : Nat) (v : α) : Nat → Nat → α
  | 0 => d
  | n + 1 => upd (fillSeq d ofs v n) (ofs + n) v

/-- The loop of `fill_row_with` smatrix.h:583-588: writes at `r, r+ld, r+2ld, ..` while below `r + ld*cols`. -/
def fillStride (d : Nat → α) (r ld : Nat) (v : α) : Nat → Nat → α
  | 0 => d
  | n + 1 => upd (fillStride d r ld v n) (r + ld * n) v

/-- `fill_column_with` smatrix.h:563-570. -/
def Mtx.fillCol (m : Mtx α) (c : Nat) (v : α) : Mtx α :=
  { m with data := fillSeq m.data (m.rows * c) v m.rows }
/-- `fill_row_with` smatrix.h:579-589. -/
def Mtx.fillRow (m : Mtx α) (r : Nat) (v : α) : Mtx α :=
  { m with data := fillStride m.data r m.rows v m.cols }

/-- `set_biases` smatrix.h:609-617. -/
def Mtx.setBiases [OfNat α 1] (m : Mtx α) : Mtx α :=
  let m := if m.bir then m.fillRow (m.rows - 1) 1 else m.fillCol (m.cols - 1) 1
  { m with holey := false }

/-- `_impl_resize` smatrix.h:1054-1066 together with `_realloc` 297-316. `none`: `abort()` at line 300. -/
def Mtx.implResize (m : Mtx α) (r c : Nat) (junk : Nat → α) (ok : Bool) : Option (Mtx α × Bool) :=
  if r = 0 ∨ c = 0 then some (m, false)
  else if r = m.rows ∧ c = m.cols then some (m, true)
  else if m.ext then none
  else some ({ m with rows := r, cols := c, data := junk, cap := if ok then r * c else 0, holey := false }, ok)

/-- `resize(r, c)` smatrix.h:1035-1052. -/
def Mtx.resize [OfNat α 1] (m : Mtx α) (r c : Nat) (junk : Nat → α) (ok : Bool) : Option (Mtx α × Bool) :=
  if r = 0 ∨ c = 0 then some (m, false)
  else
    match m.implResize (r + (m.emul && m.bir).toNat) (c + (m.emul && !m.bir).toNat) junk ok with
    | none => none
    | some (m', b) => some (if b && m'.emul then m'.setBiases else m', b)

/-- Constructor smatrix.h:337-347 (`ok`: the allocation succeeds). -/
def Mtx.make [OfNat α 1] (r c : Nat) (emul bir : Bool) (junk : Nat → α) : Mtx α :=
  let r' := r + (emul && bir).toNat
  let c' := c + (emul && !bir).toNat
  let m : Mtx α := { data := junk, cap := r' * c', rows := r', cols := c', emul, ext := false, holey := false, bir,
                     maxSize := r' * c' }
  if emul then m.setBiases else m

/-- `zeros` smatrix.h:1104-1108. -/
def Mtx.zeros [OfNat α 1] [OfNat α 0] (m : Mtx α) : Mtx α :=
  if m.bir then
    let m := { m with data := fillSeq m.data 0 0 m.numel }
    if m.emul then m.fillRow (m.rows - 1) 1 else m
  else { m with data := fillSeq m.data 0 0 m.numelNoBias }

/-- `ones` smatrix.h:1111-1114. -/
def Mtx.ones [OfNat α 1] (m : Mtx α) : Mtx α :=
  { m with data := fillSeq m.data 0 1 m.numel, holey := false }

/-- `fill` smatrix.h:1090-1094. -/
def Mtx.fill (m : Mtx α) (v : α) : Mtx α := { m with data := fillSeq m.data 0 v m.numel }

/-- `memcpy` of the first `n` elements. -/
def copyN (dst src : Nat → α) : Nat → Nat → α
  | 0 => dst
  | n + 1 => upd (copyN dst src n) n (src n)

/-- `fill_from_array_no_bias` smatrix.h:1132-1146 (asserts the default layout when biases are emulated). -/
def Mtx.fillFromArrayNoBias (m : Mtx α) (src : Nat → α) : Option (Mtx α) :=
  if m.emul && m.bir then none else some { m with data := copyN m.data src m.numelNoBias }

/-- `copy_to` smatrix.h:525-538; result: destination and the returned flag. -/
def Mtx.copyTo (m dest : Mtx α) : Mtx α × Bool :=
  if dest.numel ≠ m.numel ∨ dest.emul ≠ m.emul then (dest, false)
  else ({ dest with data := copyN dest.data m.data m.numel, holey := m.holey, rows := m.rows, cols := m.cols,
                    bir := m.bir }, true)

/-- `clone_to` smatrix.h:475-487. -/
def Mtx.cloneTo [OfNat α 1] (m dest : Mtx α) (junk : Nat → α) (ok : Bool) : Option (Mtx α × Bool) :=
  if dest.ext then
    if dest.rows ≠ m.rows ∨ dest.cols ≠ m.cols then some (dest, false)
    else some (m.copyTo { dest with emul := m.emul })
  else
    match Mtx.resize { dest with emul := false } m.rows m.cols junk ok with
    | none => none
    | some (d, false) => some (d, false)
    | some (d, true) => some (m.copyTo { d with emul := m.emul })

/-- `clone_to_no_bias` smatrix.h:491-509 (asserts the default layout when biases are emulated). -/
def Mtx.cloneToNoBias [OfNat α 1] (m dest : Mtx α) (junk : Nat → α) (ok : Bool) : Option (Mtx α × Bool) :=
  if m.emul && m.bir then none
  else
    let fin (d : Mtx α) : Mtx α × Bool :=
      ({ d with emul := false, holey := false, bir := m.bir, data := copyN d.data m.data m.numelNoBias }, true)
    if dest.ext then
      if dest.rows ≠ m.rows ∨ dest.cols ≠ m.colsNoBias then some (dest, false) else some (fin dest)
    else
      match dest.resize m.rows m.colsNoBias junk ok with
      | none => none
      | some (d, false) => some (d, false)
      | some (d, true) => some (fin d)

/-- `operator==` smatrix.h:542-547. -/
def Mtx.eqv (a b : Mtx α) : Prop :=
  a.emul = b.emul ∧ a.bir = b.bir ∧ a.rows = b.rows ∧ a.cols = b.cols ∧ a.holey = b.holey ∧
    ∀ k, k < a.numel → a.data k = b.data k

/-! ### smatrix_deform (smatrix.h:1296-1701). Asserted preconditions give `none`. -/

/-- `smatrix_deform::resize(r,c)` 1443-1450: `_free()` first, `m_maxSize` updated. -/
def Mtx.dResize [OfNat α 1] (m : Mtx α) (r c : Nat) (junk : Nat → α) (ok : Bool) : Option (Mtx α × Bool) :=
  match Mtx.resize { m with cap := 0, rows := 0, cols := 0, maxSize := 0 } r c junk ok with
  | none => none
  | some (m', b) => some (if b then { m' with maxSize := m'.numel } else m', b)

/-- `smatrix_deform::resize(ne, ..)` 1480-1497 (successful allocation). -/
def Mtx.dResizeNe (_m : Mtx α) (ne : Nat) (emul holey bir : Bool) (junk : Nat → α) : Mtx α :=
  { data := junk, cap := ne, rows := 0, cols := 0, emul, ext := false, holey, bir, maxSize := ne }

/-- `useExternalStorage(ptr, r, c, ..)` 1499-1506, 1206-1225; `avail` elements are available at `ptr`. -/
def Mtx.dUseExternal (_m : Mtx α) (d : Nat → α) (avail r c : Nat) (emul holey bir : Bool) : Option (Mtx α) :=
  if 0 < r ∧ 0 < c ∧ r * c ≤ avail then
    some { data := d, cap := avail, rows := r, cols := c, emul, ext := true, holey, bir, maxSize := r * c }
  else none

/-- `update_on_hidden_resize` 1436-1440. -/
def Mtx.updateOnHiddenResize (m : Mtx α) : Mtx α := { m with maxSize := m.numel }

/-- `deform_cols` 1566-1572. -/
def Mtx.deformCols (m : Mtx α) (c : Nat) : Option (Mtx α) :=
  if !m.empty ∧ m.maxSize ≥ m.rows * c then some { m with cols := c } else none
/-- `hide_last_col` 1573-1576. -/
def Mtx.hideLastCol (m : Mtx α) : Option (Mtx α) :=
  if !m.empty ∧ m.cols ≥ 2 then some { m with cols := m.cols - 1 } else none
/-- `restore_last_col` 1577-1581. -/
def Mtx.restoreLastCol (m : Mtx α) : Option (Mtx α) :=
  if !m.empty ∧ m.cols ≥ 1 ∧ m.maxSize ≥ m.rows * (m.cols + 1) then some { m with cols := m.cols + 1 } else none
/-- `hide_last_n_cols` 1584-1590. -/
def Mtx.hideLastNCols (m : Mtx α) (n : Nat) : Option (Mtx α × Bool) :=
  if !m.empty ∧ m.cols > n + m.emul.toNat then
    let b := m.emul && !m.bir
    some ({ m with cols := m.cols - (n + b.toNat), emul := if b then false else m.emul }, b)
  else none
/-- `restore_last_n_cols` 1592-1597. -/
def Mtx.restoreLastNCols (m : Mtx α) (b : Bool) (n : Nat) : Option (Mtx α) :=
  if !m.empty ∧ m.cols ≥ 1 ∧ m.maxSize ≥ m.rows * (m.cols + n + b.toNat) then
    some { m with cols := m.cols + (n + b.toNat), emul := if b then true else m.emul }
  else none
/-- `hide_biases` 1600-1608. -/
def Mtx.hideBiases (m : Mtx α) : Option (Mtx α × Bool) :=
  if m.emul && m.bir then none
  else if m.emul then (m.hideLastCol).map (fun m' => ({ m' with emul := false }, true))
  else some (m, false)
/-- `restore_biases` 1610-1617. -/
def Mtx.restoreBiases (m : Mtx α) (b : Bool) : Option (Mtx α) :=
  if m.emul || m.bir then none
  else if b then (m.restoreLastCol).map (fun m' => { m' with emul := true })
  else some m
/-- `deform_rows` 1630-1636. -/
def Mtx.deformRows (m : Mtx α) (r : Nat) : Option (Mtx α) :=
  if !m.empty ∧ m.maxSize ≥ r * m.cols then some { m with rows := r } else none
/-- `deform` 1637-1642. -/
def Mtx.deform (m : Mtx α) (r c : Nat) : Option (Mtx α) :=
  if !m.empty ∧ m.maxSize ≥ r * c then some { m with rows := r, cols := c } else none
/-- `batch_size` 467-469. -/
def Mtx.batchSize (m : Mtx α) : Nat := if m.bir then m.cols else m.rows
/-- `sample_size` 464-466. -/
def Mtx.sampleSize (m : Mtx α) : Nat := if m.bir then m.rowsNoBias else m.colsNoBias
/-- `deform_batch_size` 1654-1656 (`deform_sample_size` 1660-1662 with roles swapped). -/
def Mtx.deformBatchSize (m : Mtx α) (bs : Nat) : Option (Mtx α) :=
  if m.bir then m.deformCols bs else m.deformRows bs
def Mtx.deformSampleSize (m : Mtx α) (ss : Nat) : Option (Mtx α) :=
  if m.bir then m.deformRows ss else m.deformCols ss
/-- `deform_batch_size_with_biases` 1647-1651. -/
def Mtx.deformBatchSizeWithBiases [OfNat α 1] (m : Mtx α) (bs : Nat) : Option (Mtx α) :=
  (m.deformBatchSize bs).map fun m' =>
    if m.batchSize = bs then m' else if m'.emul then m'.setBiases else m'
/-- `deform_dataset` 1664-1677. -/
def Mtx.deformDataset [OfNat α 1] (m : Mtx α) (bs ss : Nat) : Option (Mtx α) :=
  if !m.empty ∧ m.maxSize ≥ bs * ss then
    let m' := { m with rows := if m.bir then ss else bs, cols := if m.bir then bs else ss }
    some (if m.rows = m'.rows ∧ m.cols = m'.cols then m' else if m'.emul then m'.setBiases else m')
  else none
/-- `on_transposition` 1696-1700. -/
def Mtx.onTransposition (m : Mtx α) : Option (Mtx α) :=
  if !m.empty ∧ m.rows ≠ 0 ∧ m.cols ≠ 0 then some { m with rows := m.cols, cols := m.rows, bir := !m.bir } else none

/-! ### Triangular enumeration -/

/-- `sNumelTriangl` smatrix.h:873-876. -/
def numelTriangl (n : Nat) : Nat := n * (n - 1) / 2

/-- `ceil((sqrt(8k+9)-1)/2)` (smatrix.h:886, 902). The double-precision square root is replaced by exact real
arithmetic: the result is the least `c` with `sqrt(8k+9) ≤ 2c+1`, i.e. `8k+9 ≤ (2c+1)^2`; found by search from 0
(`fuel` steps; `k+2` always suffice). -/
def ceilRoot (k : Nat) : Nat → Nat → Nat
  | 0, c => c
  | fuel + 1, c => if 8 * k + 9 ≤ (2 * c + 1) * (2 * c + 1) then c else ceilRoot k fuel (c + 1)

/-- `sTrianglCoordsFromIdx<false>` smatrix.h:882-891: (row, column). -/
def upperCoords (k : Nat) : Nat × Nat :=
  let ci := ceilRoot k (k + 2) 0
  (k - ci * (ci - 1) / 2, ci)

/-- `sTrianglCoordsFromIdx<true>` smatrix.h:892-909: (row, column). -/
def lowerCoords (n k : Nat) : Nat × Nat :=
  if k = numelTriangl n then (0, n - 1)
  else
    let k' := numelTriangl n - k - 1
    let ci := ceilRoot k' (k' + 2) 0
    (n - 1 - (k' - ci * (ci - 1) / 2), n - 1 - ci)

end Nntl.Matrix
