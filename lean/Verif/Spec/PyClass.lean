import Verif.Model.PyClass
import Verif.Model.Scalar
/-
What an expression over `CSR` (`CSC`) objects should evaluate to: the validated literals
combined by the list-level kernels (whose dense meaning is the subject of C05–C12 and C24).
-/
namespace Lacuna
variable {V : Type}

/-- The arrays of every literal exist in memory: at most `isize::MAX` bytes each, and the
elements are `i64`. -/
def MatExpr.Mem : MatExpr V → Prop
  | .lit _ _ indptr indices data =>
    8 * (indptr.length : Int) ≤ i64Max ∧ 8 * (indices.length : Int) ≤ i64Max ∧
    8 * (data.length : Int) ≤ i64Max ∧ ∀ j ∈ indices, j ≤ i64Max
  | .bin _ a b => a.Mem ∧ b.Mem
  | .scale _ a => a.Mem
  | .abs a => a.Mem

/-- Every literal passes the validation of the native constructor. -/
def MatExpr.LitsOk (f : Fmt) : MatExpr V → Prop
  | .lit nrows ncols indptr indices data => ∃ c, nativeNew f nrows ncols indptr indices data true = .ok c
  | .bin _ a b => a.LitsOk f ∧ b.LitsOk f
  | .scale _ a => a.LitsOk f
  | .abs a => a.LitsOk f

section
variable [Zero V] [One V] [Add V] [Sub V] [Mul V] [Div V] [BEq V] [HasFinite V] [HasFloor V]
  [HasPowf V] [HasAbs V]

/-- The list-level kernel of an operator, `none` on a shape mismatch. -/
def BinOp.kernel (f : Fmt) (op : BinOp) (a b : Comp V) : Option (Comp V) :=
  match f with
  | .csr => (match op with
    | .add => addCsr a.toCsr b.toCsr
    | .sub => subCsr a.toCsr b.toCsr
    | .mul => hadamardCsr a.toCsr b.toCsr
    | .div => divCsr a.toCsr b.toCsr
    | .floordiv => floordivCsr a.toCsr b.toCsr
    | .rem => remCsr a.toCsr b.toCsr
    | .pow => powCsr a.toCsr b.toCsr).map Csr.comp
  | .csc => (match op with
    | .add => addCsc a.toCsc b.toCsc
    | .sub => subCsc a.toCsc b.toCsc
    | .mul => hadamardCsc a.toCsc b.toCsc
    | .div => divCsc a.toCsc b.toCsc
    | .floordiv => floordivCsc a.toCsc b.toCsc
    | .rem => remCsc a.toCsc b.toCsc
    | .pow => powCsc a.toCsc b.toCsc).map Csc.comp

/-- The value of an expression: the exception of the leftmost invalid literal, a panic for a
shape mismatch or a result that does not fit into memory, otherwise the matrix. -/
def MatExpr.value (f : Fmt) : MatExpr V → Except PyErr (Comp V)
  | .lit nrows ncols indptr indices data => nativeNew f nrows ncols indptr indices data true
  | .bin op a b => do
    let x ← a.value f
    let y ← b.value f
    match op.kernel f x y with
    | none => .error .panic
    | some c => if c.Alloc then .ok c else .error .panic
  | .scale alpha a => do
    let x ← a.value f
    pure { x with data := mulScalarData alpha x.data }
  | .abs a => do
    let x ← a.value f
    pure { x with data := x.data.map fabs }

end

/-- The object that holds a validated matrix: arrays and native copy agree. -/
def PyMat.of (f : Fmt) (c : Comp V) : PyMat V :=
  ⟨f.rows c, f.cols c, c.indptr, c.indices, c.data, some c⟩

end Lacuna
