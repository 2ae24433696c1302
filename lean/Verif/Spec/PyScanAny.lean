import Verif.Spec.PyScan
import Verif.Spec.PyAny
import Verif.Spec.DiffAny
/-
What `cumsum`, `cumprod` and `diff` compute in any arithmetic.
-/
namespace Lacuna
variable {V : Type}

/-- `c` assigns to every cell the sum of the numbers held there, added in some order; nothing to a cell that holds
nothing. -/
def CellSumsOf [Add V] (shape : List Nat) (held : List Int → List V) (c : List Int → Option V) : Prop :=
  ∀ x, InBounds shape x → ∃ l, l.Perm (held x) ∧ c x = sumAll l

def SpVal.CellSums [Add V] (v : SpVal V) (c : List Int → Option V) : Prop := CellSumsOf v.ty.shape v.held c

/-- What the kernels accumulate over cells: the numbers that are there, added to 0 from left to right; multiplied
to 1 from left to right, but 0 as soon as a cell is empty. -/
def ScanOp.bits [Zero V] [One V] [Add V] [Mul V] : ScanOp → List (Option V) → V
  | .sum, l => (l.filterMap id).foldl (· + ·) 0
  | .prod, l => if l.any Option.isNone then 0 else (l.filterMap id).foldl (· * ·) 1

/-- The cells from the start of the row (column) up to `(i, j)`. -/
def upTo {α : Type} (rowwise : Bool) (c : List Int → α) (i j : Nat) : List α :=
  if rowwise then (List.range (j + 1)).map fun (k : Nat) => c [(i : Int), (k : Int)]
  else (List.range (i + 1)).map fun (k : Nat) => c [(k : Int), (j : Int)]

/-- A dense array of the shape.  Its element at a cell and the cells up to this one are related by `P`. -/
def IsScanBy {α : Type} [Zero V] (P : List α → V → Prop) (rowwise : Bool) (shape : List Nat) (c : List Int → α) (r : NdArr V) :
    Prop :=
  ∃ n m, shape = [n, m] ∧ r.shape = [n, m] ∧ r.data.length = n * m ∧
    ∀ i j, i < n → j < m → P (upTo rowwise c i j) (r.data.getD (i * m + j) 0)

/-- The dense array of the shape whose element at a cell aggregates the cells up to this one. -/
def IsScanOf [Zero V] (agg : List (Option V) → V) (rowwise : Bool) (shape : List Nat) (c : List Int → Option V)
    (r : NdArr V) : Prop :=
  IsScanBy (fun l v => v = agg l) rowwise shape c r

/-- The cells of `diff(x, n=n)`: repeated differences of neighbouring cells without zeros; with `n = 0` the zeros
are dropped along the rows and kept down the columns. -/
def diffBits [BEq V] [Zero V] [Add V] [Neg V] (rowwise : Bool) (n : Nat) (c : List Int → Option V) : List Int → Option V
  | [i, j] =>
    if rowwise then
      if n = 0 then keepNz (c [i, j]) else diffOpt n (fun k => c [i, (k : Int)]) j.toNat
    else diffOpt n (fun k => c [(k : Int), j]) i.toNat
  | _ => none

/-- `w` has the type of the `n`-th differences of `v` and stores no cell twice.  It is valid, except that the
lines of a CSC result may be unsorted. -/
structure SpVal.DiffTyped (w v : SpVal V) (rowwise : Bool) (n : Nat) : Prop where
  ty : w.ty = v.ty.diff rowwise n
  loose : w.Loose
  once : w.Once
  valid : (∀ a, v ≠ .mat .csc a) → w.Valid ∧ w.ty.SizeOk w.nnz

/-- The same number, or both zero (of either sign). -/
def SameNum [BEq V] [Zero V] (a b : V) : Prop := a = b ∨ ((a == 0) = true ∧ (b == 0) = true)

/-- The laws of subtraction that `diff` relies on.  They hold for IEEE numbers if the sign of a NaN is ignored. -/
structure SubLaws (V : Type) [BEq V] [Zero V] [Add V] [Sub V] [Neg V] : Prop where
  comm : ∀ a b : V, a + b = b + a
  sub : ∀ a b : V, b - a = b + -a
  zero : ((0 : V) == 0) = true
  neg : ∀ a : V, (a == 0) = true → (-a == 0) = true
  sub_zero : ∀ a b : V, (a == 0) = true → SameNum (b - a) b
  zero_sub : ∀ a b : V, (b == 0) = true → SameNum (b - a) (-a)

end Lacuna
