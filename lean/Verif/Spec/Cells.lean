import Verif.Spec.Dense
import Verif.Spec.Nd
/-
Specification layer: the dense contents of an array as lists of elements, implicit zeros
included.  Reductions are specified over these lists.
-/
namespace Lacuna
universe u
variable {V : Type u} [Add V] [Zero V]

/-- All elements of an `n × m` matrix given by its element function, row by row. -/
def cellsOf (n m : Nat) (f : Nat → Nat → V) : List V :=
  (List.range n).flatMap fun i => (List.range m).map (f i)

/-- All elements of a CSR matrix. -/
def Csr.cells (a : Csr V) : List V := cellsOf a.nrows a.ncols a.val
/-- All elements of row `i`. -/
def Csr.rowCells (a : Csr V) (i : Nat) : List V := (List.range a.ncols).map (a.val i)
/-- All elements of column `j`. -/
def Csr.colCells (a : Csr V) (j : Nat) : List V := (List.range a.nrows).map fun i => a.val i j

/-- All elements of a CSC matrix. -/
def Csc.cells (a : Csc V) : List V := cellsOf a.nrows a.ncols a.val
/-- All elements of row `i`. -/
def Csc.rowCells (a : Csc V) (i : Nat) : List V := (List.range a.ncols).map (a.val i)
/-- All elements of column `j`. -/
def Csc.colCells (a : Csc V) (j : Nat) : List V := (List.range a.nrows).map fun i => a.val i j

/-- All elements of a COO matrix. -/
def Coo.cells (a : Coo V) : List V := cellsOf a.nrows a.ncols a.val
/-- All elements of row `i`. -/
def Coo.rowCells (a : Coo V) (i : Nat) : List V := (List.range a.ncols).map (a.val i)
/-- All elements of column `j`. -/
def Coo.colCells (a : Coo V) (j : Nat) : List V := (List.range a.nrows).map fun i => a.val i j

/-- All elements of an N-D array in row-major order. -/
def CooNd.cells (a : CooNd V) : List V := (indicesOf a.shape).map a.val

end Lacuna
