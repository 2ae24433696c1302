import Verif.Model.PyLinalg
import Verif.Spec.Linalg
import Verif.Spec.Matmul
/-
Vocabulary for the Python linear algebra functions.
-/
namespace Lacuna
variable {V : Type}

/-- The matrix a native object stands for. -/
def Native.val [AddMonoid V] : Native V → Nat → Nat → V
  | .csr a => a.val
  | .csc a => a.val
  | .coo a => a.val

/-- Number of stored entries. -/
def Native.nnz : Native V → Nat
  | .csr a => a.data.length
  | .csc a => a.data.length
  | .coo a => a.data.length

/-- The documented invariants (order and repetition of the indices are free). -/
def Native.Valid : Native V → Prop
  | .csr a => a.WFU
  | .csc a => a.WFU
  | .coo a => a.WF ∧ a.I64

/-- The arrays and a dense vector along either axis fit into memory. -/
def Native.Fits (a : Native V) : Prop :=
  8 * ((a.rows : Int) + 1) ≤ i64Max ∧ 8 * ((a.cols : Int) + 1) ≤ i64Max ∧ 24 * (a.nnz : Int) ≤ i64Max

/-- The object holds the native matrix `a`: shape, arrays and handle agree. -/
def PySp.Holds (x : PySp V) (a : Native V) : Prop :=
  x.nrows = a.rows ∧ x.ncols = a.cols ∧ x.handle = some a ∧ x.parts = .ok a

/-- A dense array in memory. -/
def DenseNd.Ok (y : DenseNd V) : Prop := y.data.length = y.shape.prod ∧ 8 * (y.data.length : Int) ≤ i64Max

/-- The object of class `COOND` with the contents of `a`. -/
def PyNd.of (a : CooNd V) : PyNd V := ⟨a.shape.map Int.ofNat, a.indices, a.data⟩

/-- The axis of an N-D array that an `axes` argument selects: `1` the last one, a pair its first
element. -/
def NdAxis (ndim : Nat) (axes : AxesArg) (axis : Nat) : Prop :=
  (axes = .int 1 ∧ axis + 1 = ndim) ∨ ∃ ps qs, axes = .pair ((axis : Int) :: ps) (0 :: qs)

end Lacuna
