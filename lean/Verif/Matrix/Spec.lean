import Verif.Matrix.Model
/-!
Specifications of the matrix properties C06-C10 (independent of the loops of the model: they only look at matrix
elements through coordinates).
-/
namespace Nntl.Matrix
variable {α : Type}

/-- Coordinate `(r,c)` belongs to the emulated bias vector: last column of the default layout, last row of the
batch-in-row layout. -/
def IsBias (m : Mtx α) (r c : Nat) : Prop := m.emul = true ∧ (if m.bir then r + 1 = m.rows else c + 1 = m.cols)

/-- Every element of the bias vector of a non-empty matrix reads as one. -/
def BiasesAreOnes [OfNat α 1] (m : Mtx α) : Prop :=
  m.cap ≠ 0 → ∀ r c, r < m.rows → c < m.cols → IsBias m r c → m.get r c = some 1

/-- The visible area fits into the storage. -/
def InStorage (m : Mtx α) : Prop := m.rows * m.cols ≤ m.cap

/-- Operations of the C07 histories. `write` is a write through a no-bias iterator, i.e. at a data coordinate. -/
inductive BOp (α : Type) where
  | resize (r c : Nat) (junk : Nat → α) (ok : Bool)
  | dResize (r c : Nat) (junk : Nat → α) (ok : Bool)
  | write (r c : Nat) (v : α)
  | zeros | ones | setBiases
  | fillArray (src : Nat → α)
  | copyFrom (src : Mtx α)
  | cloneFrom (src : Mtx α) (junk : Nat → α) (ok : Bool)
  | deformBatch (bs : Nat)
  | deformDataset (bs ss : Nat)
  | hideCols (n : Nat) | restoreCols
  | hideBiases | restoreBiases

/-- One operation. The second component remembers a pending hide: `some (n, b)` = `n` data columns are hidden and `b` is
what the hide call returned. While something is hidden the data may be written, but shape-changing operations are
illegal (`none`), as are operations whose assertions fail. Sources of copies must themselves have proper biases. -/
def BOp.step [OfNat α 1] [OfNat α 0] : BOp α → Mtx α × Option (Nat × Bool) → Option (Mtx α × Option (Nat × Bool))
  | .write r c v, (m, h) => if r < m.rowsNoBias ∧ c < m.colsNoBias then (m.set r c v).map (·, h) else none
  | .zeros, (m, h) => if m.empty then none else some (m.zeros, h)
  | .ones, (m, h) => if m.empty then none else some (m.ones, h)
  | .fillArray s, (m, h) => (m.fillFromArrayNoBias s).map (·, h)
  | .setBiases, (m, none) => if m.emul && !m.empty then some (m.setBiases, none) else none
  | .resize r c j ok, (m, none) => (m.resize r c j ok).map (fun p => (p.1, none))
  | .dResize r c j ok, (m, none) => (m.dResize r c j ok).map (fun p => (p.1, none))
  | .copyFrom s, (m, none) => some ((s.copyTo m).1, none)
  | .cloneFrom s j ok, (m, none) => (s.cloneTo m j ok).map (fun p => (p.1, none))
  | .deformBatch bs, (m, none) => (m.deformBatchSizeWithBiases bs).map (·, none)
  | .deformDataset bs ss, (m, none) => (m.deformDataset bs ss).map (·, none)
  | .hideCols n, (m, none) => (m.hideLastNCols n).map (fun p => (p.1, some (n, p.2)))
  | .restoreCols, (m, some (n, b)) => (m.restoreLastNCols b n).map (·, none)
  | .hideBiases, (m, none) => m.hideBiases.map (fun p => (p.1, some (0, p.2)))
  | .restoreBiases, (m, some (n, b)) => if n = 0 then (m.restoreBiases b).map (·, none) else none
  | _, _ => none

/-- The source of a copy has ones in its bias vector and really has storage. -/
def BOp.srcOk [OfNat α 1] : BOp α → Prop
  | .copyFrom s => BiasesAreOnes s ∧ s.cap ≠ 0
  | .cloneFrom s _ _ => BiasesAreOnes s ∧ s.cap ≠ 0
  | _ => True

def BOp.run [OfNat α 1] [OfNat α 0] (ops : List (BOp α)) (s : Mtx α × Option (Nat × Bool)) :
    Option (Mtx α × Option (Nat × Bool)) :=
  ops.foldlM (fun s o => o.step s) s

/-- Operations of the C10 histories: everything `smatrix_deform` offers that changes shape or flags. -/
inductive DOp (α : Type) where
  | resize (r c : Nat) (junk : Nat → α) (ok : Bool)
  | resizeNe (ne : Nat) (emul holey bir : Bool) (junk : Nat → α)
  | useExternal (d : Nat → α) (avail r c : Nat) (emul holey bir : Bool)
  | cols (c : Nat) | rows (r : Nat) | deform (r c : Nat)
  | batch (bs : Nat) | sample (ss : Nat) | batchBias (bs : Nat) | dataset (bs ss : Nat)
  | hideCol | restoreCol | hideCols (n : Nat) | restoreCols (b : Bool) (n : Nat)
  | hideBiases | restoreBiases (b : Bool)
  | transposed

def DOp.step [OfNat α 1] : DOp α → Mtx α → Option (Mtx α)
  | .resize r c j ok, m => (m.dResize r c j ok).map Prod.fst
  | .resizeNe n e h b j, m => some (m.dResizeNe n e h b j)
  | .useExternal d a r c e h b, m => m.dUseExternal d a r c e h b
  | .cols c, m => m.deformCols c
  | .rows r, m => m.deformRows r
  | .deform r c, m => m.deform r c
  | .batch b, m => m.deformBatchSize b
  | .sample s, m => m.deformSampleSize s
  | .batchBias b, m => m.deformBatchSizeWithBiases b
  | .dataset b s, m => m.deformDataset b s
  | .hideCol, m => m.hideLastCol
  | .restoreCol, m => m.restoreLastCol
  | .hideCols n, m => (m.hideLastNCols n).map Prod.fst
  | .restoreCols b n, m => m.restoreLastNCols b n
  | .hideBiases, m => m.hideBiases.map Prod.fst
  | .restoreBiases b, m => m.restoreBiases b
  | .transposed, m => m.onTransposition

/-- The operations that only reinterpret the storage. -/
def DOp.pure : DOp α → Bool
  | .resize .. | .resizeNe .. | .useExternal .. | .batchBias .. | .dataset .. => false
  | _ => true

def DOp.run [OfNat α 1] (ops : List (DOp α)) (m : Mtx α) : Option (Mtx α) := ops.foldlM (fun s o => o.step s) m

end Nntl.Matrix
