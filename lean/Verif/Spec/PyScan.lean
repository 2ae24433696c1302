import Verif.Model.PyScan
import Verif.Spec.PyStat
import Verif.Spec.Cumulative
import Verif.Spec.Diff
/-
What the operations of Model/PyScan are meant to compute.
-/
namespace Lacuna
variable {V : Type}

/-- What is accumulated. -/
def ScanOp.agg [Zero V] [One V] [Add V] [Mul V] : ScanOp → List V → V
  | .sum => List.sum
  | .prod => List.prod

/-- The axis argument names exactly one of the two axes of a matrix: the columns (`rowwise = false`, axis 0 is
run through) or the rows (`rowwise = true`, axis 1 is run through). -/
def AxisArg.Single (axis : AxisArg) (rowwise : Bool) : Prop :=
  axis.Valid 2 ∧ axis.covers 2 0 = !rowwise ∧ axis.covers 2 1 = rowwise

/-- The dense array of the shape whose element at a cell aggregates the elements of `f` from the start of the
row (column) up to this cell. -/
def IsScan [Zero V] (agg : List V → V) (rowwise : Bool) (shape : List Nat) (f : List Int → V) (r : NdArr V) : Prop :=
  ∃ n m, shape = [n, m] ∧ r.shape = [n, m] ∧
    (if rowwise then IsScanRows else IsScanCols) agg n m (fun i j => f [(i : Int), (j : Int)]) r.data

/-- A CSC matrix with at most one stored entry in every row (nothing is asked of the other classes). -/
def SpVal.RowsApart : SpVal V → Prop
  | .mat .csc a => ∀ i j k, a.stored j i ≠ none → a.stored k i ≠ none → j = k
  | _ => True

/-- The type of `diff(x, n=n)`: the extent that is run through shrinks by `n`, at most to zero. -/
def Ty.diff (rowwise : Bool) (n : Nat) : Ty → Ty
  | .mat f r c => if rowwise then .mat f r (c - n) else .mat f (r - n) c
  | .coo r c => if rowwise then .coo r (c - n) else .coo (r - n) c
  | .nd s => .nd s

/-- Valid up to the order of the entries within the lines. -/
def SpVal.Loose : SpVal V → Prop
  | .mat _ a => a.WFU
  | v => v.Valid

/-- The elements of `diff(x, n=n)`. -/
def diffCells [Sub V] (rowwise : Bool) (n : Nat) (f : List Int → V) : List Int → V
  | [i, j] => if rowwise then diffN n (fun k => f [i, (k : Int)]) j.toNat else diffN n (fun k => f [(k : Int), j]) i.toNat
  | _ => f []

/-- `w` holds the `n`-th differences of `v` along the rows or down the columns: right type and elements.  Unless
`v` is a CSC matrix, `w` is a valid value that stores no cell twice; the lines of a CSC result may be unsorted. -/
structure SpVal.IsDiffOf [Zero V] [Add V] [Sub V] (w v : SpVal V) (rowwise : Bool) (n : Nat) : Prop where
  ty : w.ty = v.ty.diff rowwise n
  loose : w.Loose
  valid : (∀ a, v ≠ .mat .csc a) → w.Valid ∧ w.ty.SizeOk w.nnz ∧ w.Once
  cell : ∀ x, InBounds w.ty.shape x → w.cell x = diffCells rowwise n v.cell x

/-- No stored entry is zero. -/
def SpVal.NoZeros [Zero V] [BEq V] : SpVal V → Prop
  | .mat _ a => ∀ x ∈ a.data, (x == 0) = false
  | .coo a => ∀ x ∈ a.data, (x == 0) = false
  | .nd a => ∀ x ∈ a.data, (x == 0) = false

end Lacuna
