import Verif.Model.PyLinalg
import Verif.Model.PyStat
/-
The linear algebra functions of the array API (python/lacuna/array_api/linalg/__init__.py) with
their whole case analysis on the classes of the two operands, and as the last step of a program of
Model/PyProg.

Simplifications: as in Model/PyLinalg; an operand is an object of one of the four sparse classes or
a contiguous `float64` array; two arrays are handed to NumPy, which is not modelled.
-/
namespace Lacuna
variable {V : Type}

/-- An object of the class `CSR`, `CSC` or `COO` (Model/PyProg) in the form of Model/PyLinalg: the same
attributes (csr.py 74–83, csc.py 66–75, coo.py 66–76). -/
def PyObj.sp : PyObj V → Option (PySp V)
  | .mat .csr x => some ⟨.csr, x.nrows, x.ncols, x.indptr, x.indices, x.data, x.handle.map fun a => .csr a.toCsr⟩
  | .mat .csc x => some ⟨.csc, x.nrows, x.ncols, x.indptr, x.indices, x.data, x.handle.map fun a => .csc a.toCsc⟩
  | .coo x => some ⟨.coo, x.nrows, x.ncols, x.row, x.col, x.data, x.handle.map .coo⟩
  | .nd _ => none

/-- An operand. -/
inductive LinArg (V : Type)
  | sparse (x : PyObj V)
  | dense (y : DenseNd V)

/-- A result. -/
inductive LinRes (V : Type)
  | dense (r : DenseNd V)
  | sparse (r : PyObj V)

/-- `matmul(x, y)`, `tensordot(x, y, axes=axes)`, `vecdot(x, y, axis=axis)`. -/
inductive LinFn
  | matmul
  | tensordot (axes : AxesArg)
  | vecdot (axis : Option Int)

section
variable [Zero V] [Add V] [Mul V] [BEq V] [HasFma V]

/-- A sparse left and a dense right operand: 24–40 and 47–49 (`matmul`), 62–137 (`tensordot`), 150–192
(`vecdot`). -/
def LinSparseDense (env : PyEnv V) (fn : LinFn) (x : PyObj V) (y : DenseNd V) (out : PyRes (LinRes V)) : Prop :=
  match x, x.sp, fn with
  | _, some s, .matmul => ∃ o, PyMatmul env.dbg env.threads s y o ∧ out = o.bind fun r => .ret (.dense r)
  | _, some s, .tensordot axes => ∃ o, PyTensordot env.dbg env.threads axes s y o ∧ out = o.bind fun r => .ret (.dense r)
  | _, some s, .vecdot axis => ∃ o, PyVecdot env.dbg env.threads axis s y o ∧ out = o.bind fun r => .ret (.dense r)
  | .nd x, _, .tensordot axes => ∃ o, PyTensordotNd env.dbg env.ndSort axes x y o ∧ out = o.bind fun r => .ret (.sparse (.nd r))
  | .nd x, _, .vecdot axis => ∃ o, PyVecdotNd env.dbg env.ndSort axis x y o ∧ out = o.bind fun r => .ret (.sparse (.nd r))
  | _, _, _ => out = .raises .notImplemented

/-- The three functions; `numpy` is what NumPy does with two arrays (51–52, 140–141, 195–196).  19–22, 42–45,
47–49 (`matmul`), 59–60, 139 (`tensordot`), 148–149, 150–153 (`vecdot`). -/
def LinCall (env : PyEnv V) (numpy : LinFn → DenseNd V → DenseNd V → PyRes (LinRes V) → Prop) (fn : LinFn) (x y : LinArg V)
    (out : PyRes (LinRes V)) : Prop :=
  match x, y with
  | .sparse _, .sparse _ => out = .raises .notImplemented
  | .sparse x, .dense y => LinSparseDense env fn x y out
  | .dense _, .sparse _ => out = .raises .notImplemented
  | .dense x, .dense y => numpy fn x y out

variable [One V] [Sub V] [Div V] [Neg V] [NatCast V] [HasFinite V] [HasFloor V] [HasPowf V] [HasAbs V] [HasLt V] [HasNan V]

/-- A program whose result is the left operand of a linear algebra function. -/
def Prog.Linalg (env : PyEnv V) (fn : LinFn) (e : Prog V) (y : DenseNd V) (out : PyRes (LinRes V)) : Prop :=
  ∃ o, e.Eval env o ∧ o.Then (fun x out => LinSparseDense env fn x y out) out

end

end Lacuna
