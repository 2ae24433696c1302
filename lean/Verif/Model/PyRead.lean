import Verif.Model.PyIndex
import Verif.Model.PyLinProg
/-
Reading the results of Python programs: `toarray`, `nnz`, subscripts and the comparison functions as
the last step of a program of Model/PyProg.

Sources: python/lacuna/sparse/csr.py 207–210, 664–736, csc.py 92–95, 365–374, coo.py 92–95, 236–247,
coond.py 127–130, base.py 54–72, python/lacuna/array_api/_dispatch/elementwise.py 45–90, 106–199.

Simplifications: as in Model/PyIndex and Model/PyProg; a failing allocation of the dense array is not
modelled; a dense operand of a comparison is a contiguous `float64` array, a scalar one of rank zero;
two dense operands are handed to NumPy, which is not modelled.
-/
namespace Lacuna
variable {V : Type}

section
variable [Zero V] [Add V]

/-- `np.zeros(shape)` rejects negative dimensions. -/
def npShape (shape : List Int) : Except PyErr (List Nat) :=
  if ∃ d ∈ shape, d < 0 then .error .valueError else .ok (shape.map Int.toNat)

/-- `x.toarray()` (csr.py 720–736, csc.py 365–374, coo.py 236–247); `COOND` has no such method
(coond.py, base.py 23–51). -/
def PyObj.toarray : PyObj V → Except PyErr (DenseNd V)
  | .mat .csr x => (npShape [x.nrows, x.ncols]).bind fun s =>
      (toarrayCsr ⟨x.nrows.toNat, x.ncols.toNat, x.indptr, x.indices, x.data⟩).map fun d => ⟨s, d⟩
  | .mat .csc x => (npShape [x.nrows, x.ncols]).bind fun s =>
      (toarrayCsc ⟨x.nrows.toNat, x.ncols.toNat, x.indptr, x.indices, x.data⟩).map fun d => ⟨s, d⟩
  | .coo x => (npShape [x.nrows, x.ncols]).bind fun s =>
      (toarrayCoo ⟨x.nrows.toNat, x.ncols.toNat, x.row, x.col, x.data⟩).map fun d => ⟨s, d⟩
  | .nd _ => .error .attributeError

/-- The local function `_dense` of the comparison functions (elementwise.py 48–60 and its five copies). -/
def PyObj.dense : PyObj V → Except PyErr (DenseNd V)
  | .nd x => (npShape x.shape).bind fun s =>
      (denseNd ⟨x.shape.map Int.toNat, x.indices, x.data⟩).map fun d => ⟨s, d⟩
  | x => x.toarray

/-- `x.nnz`. -/
def PyObj.nnz : PyObj V → Nat
  | .mat _ x => x.data.length
  | .coo x => x.data.length
  | .nd x => x.data.length

/-! ### Subscripts -/

/-- The key in `x[key]`: `i, j`, `i, :`, `:, j`, `:, :` or a single integer. -/
inductive Key
  | cell (i j : Int) | row (i : Int) | col (j : Int) | all | single (i : Int)

/-- What `x[key]` returns. -/
inductive ReadRes (V : Type)
  | cell (v : V)
  | line (l : List V)

/-- `x[key]`: `CSR.__getitem__` (csr.py 665–717); the other classes are not subscriptable. -/
def PyObj.getItem (search : List Int → Int → Nat) (key : Key) : PyObj V → Except PyErr (ReadRes V)
  | .mat .csr x =>
    let a : Csr V := ⟨x.nrows.toNat, x.ncols.toNat, x.indptr, x.indices, x.data⟩
    match key with
    | .cell i j => (getItemCsr search a i j).map .cell
    | .row i => (npShape [x.ncols]).bind fun _ => (getRowCsr a i).map .line
    | .col j => (npShape [x.nrows]).bind fun _ => (getColCsr search a j).map .line
    | _ => .error .notImplemented
  | _ => .error .typeError

end

/-! ### Comparisons -/

/-- `equal`, `not_equal`, `less`, `less_equal`, `greater`, `greater_equal`. -/
inductive CmpOp
  | eq | ne | lt | le | gt | ge
deriving DecidableEq

/-- NumPy's comparison of two numbers (IEEE: every comparison with a `NaN` is false, except `!=`). -/
def CmpOp.run [BEq V] [HasLt V] (op : CmpOp) (x y : V) : Bool :=
  match op with
  | .eq => x == y
  | .ne => !(x == y)
  | .lt => flt x y
  | .le => flt x y || x == y
  | .gt => flt y x
  | .ge => flt y x || x == y

/-- A shape extended with ones on the left to `n` dimensions. -/
def padTo (n : Nat) (s : List Nat) : List Nat := List.replicate (n - s.length) 1 ++ s

/-- NumPy's common shape of two operands: the shapes are aligned at the right, missing dimensions are `1`,
two dimensions must be equal unless one of them is `1`. -/
def npBroadcast (s t : List Nat) : Option (List Nat) :=
  let n := max s.length t.length
  ((padTo n s).zip (padTo n t)).mapM fun d =>
    if d.1 = d.2 then some d.1 else if d.1 = 1 then some d.2 else if d.2 = 1 then some d.1 else none

/-- The strides (in elements) of a contiguous array of shape `s`; zero along a dimension of length one. -/
def npStrides : List Nat → List Nat
  | [] => []
  | d :: s => (if d = 1 then 0 else s.prod) :: npStrides s

/-- Where NumPy finds the element of an operand of shape `s` that belongs to the cell `x` of the common
shape. -/
def npOffset (s : List Nat) (x : List Int) : Nat :=
  (List.zipWith (fun (i : Int) st => i.toNat * st) (x.drop (x.length - s.length)) (npStrides s)).sum

/-- `np.equal(x, y)` and its five siblings. -/
def npCompare [Zero V] [BEq V] [HasLt V] (op : CmpOp) (x y : DenseNd V) : Except PyErr (DenseNd Bool) :=
  match npBroadcast x.shape y.shape with
  | none => .error .valueError
  | some s => .ok ⟨s, (indicesOf s).map fun i =>
      op.run (x.data.getD (npOffset x.shape i) 0) (y.data.getD (npOffset y.shape i) 0)⟩

section
variable [Zero V] [Add V] [Mul V] [BEq V] [HasLt V]

/-- `equal(x, y)` and its five siblings (elementwise.py 45–66, 69–90, 106–199); `numpy` is what NumPy's
array API does with two arrays (65–66 and so on). -/
def CmpCall (numpy : CmpOp → DenseNd V → DenseNd V → PyRes (DenseNd Bool)) (op : CmpOp) (x y : LinArg V) :
    PyRes (DenseNd Bool) :=
  match x, y with
  | .dense x, .dense y => numpy op x y
  | x, y =>
    PyRes.ofExcept ((dens x).bind fun xd => (dens y).bind fun yd => npCompare op xd yd)
where
  /-- elementwise.py 48–60 -/
  dens : LinArg V → Except PyErr (DenseNd V)
    | .sparse x => x.dense
    | .dense y => .ok y

variable [One V] [Sub V] [Div V] [Neg V] [NatCast V] [HasFinite V] [HasFloor V] [HasPowf V] [HasAbs V] [HasNan V]

/-- `e.toarray()`. -/
def Prog.Toarray (env : PyEnv V) (e : Prog V) (out : PyRes (DenseNd V)) : Prop :=
  ∃ o, e.Eval env o ∧ out = o.bind fun x => .ofExcept x.toarray

/-- `e.nnz`. -/
def Prog.Nnz (env : PyEnv V) (e : Prog V) (out : PyRes Nat) : Prop :=
  ∃ o, e.Eval env o ∧ out = o.bind fun x => .ret x.nnz

/-- `e[key]`. -/
def Prog.GetItem (env : PyEnv V) (search : List Int → Int → Nat) (key : Key) (e : Prog V) (out : PyRes (ReadRes V)) : Prop :=
  ∃ o, e.Eval env o ∧ out = o.bind fun x => .ofExcept (x.getItem search key)

/-- An operand of a comparison: a program or a dense array. -/
inductive CmpArg (V : Type)
  | prog (e : Prog V)
  | array (y : DenseNd V)

/-- Evaluation of an operand. -/
def CmpArg.Eval (env : PyEnv V) : CmpArg V → PyRes (LinArg V) → Prop
  | .prog e, out => ∃ o, e.Eval env o ∧ out = o.bind fun x => .ret (.sparse x)
  | .array y, out => out = .ret (.dense y)

/-- `equal(x, y)` and its siblings on two operands, evaluated from left to right. -/
def Compare (env : PyEnv V) (numpy : CmpOp → DenseNd V → DenseNd V → PyRes (DenseNd Bool)) (op : CmpOp) (x y : CmpArg V)
    (out : PyRes (DenseNd Bool)) : Prop :=
  ∃ ox, x.Eval env ox ∧ ox.Then (fun vx out => ∃ oy, y.Eval env oy ∧ oy.Then (fun vy out => out = CmpCall numpy op vx vy) out) out

end
end Lacuna
