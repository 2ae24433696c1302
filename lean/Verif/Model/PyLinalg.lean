import Verif.Model.PyClass
import Verif.Model.PtrSpmm
import Verif.Model.PtrNdAcc
import Verif.Model.Matmul
/-
The linear algebra functions of the array API (python/lacuna/array_api/linalg/__init__.py) on
objects of the four classes `CSR`, `CSC`, `COO` and `COOND`, down to the unsafe kernels:
`matmul` (17–52), `tensordot` (55–141), `vecdot` (144–196), with the `__matmul__` methods and
the native bindings they go through.

Simplifications: as in Model/PyClass; the dense operand is a contiguous `float64` array,
written as its shape and the row-major list of its elements; `shape` of a `COO` object has two
elements; NumPy's integer arithmetic on shapes does not overflow.
-/
namespace Lacuna
variable {V : Type}

/-- A dense array. -/
structure DenseNd (V : Type) where
  shape : List Nat
  data : List V
deriving DecidableEq

/-! ### Objects -/

/-- The three two-dimensional classes. -/
inductive Cls
  | csr | csc | coo
deriving DecidableEq, Repr

/-- A native matrix (`Csr64`, `Csc64`, `Coo64` or the local of a `*_from_parts` function). -/
inductive Native (V : Type)
  | csr (a : Csr V)
  | csc (a : Csc V)
  | coo (a : Coo V)

def Native.rows : Native V → Nat
  | .csr a => a.nrows
  | .csc a => a.nrows
  | .coo a => a.nrows

def Native.cols : Native V → Nat
  | .csr a => a.ncols
  | .csc a => a.ncols
  | .coo a => a.ncols

/-- An object of class `CSR`, `CSC` (`ix1` is `indptr`, `ix2` is `indices`) or `COO` (`row`,
`col`): the attributes set by `__init__`. -/
structure PySp (V : Type) where
  cls : Cls
  nrows : Int
  ncols : Int
  ix1 : List Int
  ix2 : List Int
  data : List V
  /-- `self._handle` -/
  handle : Option (Native V)

/-- Construction of a native matrix from Python arguments: types/csr.rs 20–40, csc.rs 20–38,
coo.rs 19–37 and the first lines of the `*_from_parts` functions of array_api/linalg.rs. -/
def nativeOf (cls : Cls) (nrows ncols : Int) (ix1 ix2 : List Int) (data : List V) (check : Bool) :
    Except PyErr (Native V) := do
  let r ← pyUsize nrows
  let c ← pyUsize ncols
  match cls with
  | .csr => ((Csr.fromParts r c ix1 ix2 data check).mapError fun _ => .valueError).map .csr
  | .csc => ((Csc.fromParts r c ix1 ix2 data check).mapError fun _ => .valueError).map .csc
  | .coo => ((Coo.fromParts r c ix1 ix2 data check).mapError fun _ => .valueError).map .coo

/-- `CSR.__init__` (csr.py 65–83), `CSC.__init__` (csc.py 62–75), `COO.__init__` (coo.py 62–76).
The latter two turn a rejection by the native constructor into an object without handle. -/
def PySp.new (cls : Cls) (nrows ncols : Int) (ix1 ix2 : List Int) (data : List V) (check : Bool) :
    Except PyErr (PySp V) :=
  match cls with
  | .csr => do
    if check then
      let _ ← nativeOf .csr nrows ncols ix1 ix2 data true
    pure ⟨.csr, nrows, ncols, ix1, ix2, data, (nativeOf .csr nrows ncols ix1 ix2 data false).toOption⟩
  | cls => pure ⟨cls, nrows, ncols, ix1, ix2, data, (nativeOf cls nrows ncols ix1 ix2 data check).toOption⟩

/-- The arrays of the object through a binding called with `check=False`. -/
def PySp.parts (x : PySp V) : Except PyErr (Native V) :=
  nativeOf x.cls x.nrows x.ncols x.ix1 x.ix2 x.data false

/-- What `__matmul__` works on: csr.py 235–254 falls back on the arrays, csc.py 109–119 and
coo.py 107–119 raise `RuntimeError`. -/
def PySp.operand (x : PySp V) : Except PyErr (Native V) :=
  match x.handle with
  | some a => .ok a
  | none => if x.cls = .csr then x.parts else .error .runtimeError

/-- An object of class `COOND`. -/
structure PyNd (V : Type) where
  shape : List Int
  indices : List Int
  data : List V

/-- `COOND.__init__` (coond.py 98–108).  The argument `check` has no effect when the native
core is present. -/
def PyNd.new (shape indices : List Int) (data : List V) : Except PyErr (PyNd V) :=
  if shape.length < 1 then .error .valueError
  else if indices.length % shape.length ≠ 0 then .error .valueError
  else .ok ⟨shape, indices, data⟩

/-- `convert_shape_i64_to_usize` (helpers.rs 9–24). -/
def shapeUsize (shape : List Int) : Except PyErr (List Nat) :=
  if ∀ s ∈ shape, 0 ≤ s then .ok (shape.map Int.toNat) else .error .valueError

/-- The native array of a `coond_*_from_parts` binding called with `check=False`. -/
def PyNd.parts (x : PyNd V) : Except PyErr (CooNd V) := do
  let s ← shapeUsize x.shape
  (CooNd.fromParts s x.indices x.data false).mapError fun _ => .valueError

/-- The returned triple becomes a `COOND`: `convert_shape_usize_to_i64` (helpers.rs 55–60, panics on
a dimension above `i64::MAX`), then the constructor. -/
def PyNd.wrap (r : CooNd V) : PyRes (PyNd V) :=
  if ∀ d ∈ r.shape, (d : Int) ≤ i64Max then .ofExcept (PyNd.new (r.shape.map Int.ofNat) r.indices r.data)
  else .raises .panic

/-! ### Native entry points -/

section
variable [Zero V] [Add V] [Mul V] [BEq V] [HasFma V]

/-- `spmv` of the three native classes (types/csr.rs 44–52, csc.rs 44–52, coo.rs 47–55) and
`spmv_from_parts`. -/
def SpmvOut (dbg : Bool) (nthreads N : Nat) : Native V → List V → Except Fault (List V) → Prop
  | .csr a, x, out => SpmvPtrRun dbg N a x out
  | .csc a, x, out => SpmvCscPtr dbg N nthreads a x out
  | .coo a, x, out => SpmvCooPtr dbg N nthreads a x out

/-- The kernel of `vecdot` along axis 0. -/
def VecdotOut (dbg : Bool) (nthreads N : Nat) : Native V → List V → Except Fault (List V) → Prop
  | .csr a, x, out => VecdotCsrPtr dbg a x out
  | .csc a, x, out => VecdotCscPtrRun dbg N a x out
  | .coo a, x, out => VecdotCooPtr dbg N nthreads a x out

/-- The sparse times dense kernels. -/
def SpmmOut (dbg : Bool) (N : Nat) : Native V → List V → Nat → Except Fault (List V) → Prop
  | .csr a, b, k, out => SpmmCsrPtr dbg N a b k out
  | .csc a, b, k, out => SpmmCscPtr dbg N a b k out
  | .coo a, b, k, out => SpmmCooPtr dbg N a b k out

/-- The three `tensordot_*_dense_axes1x0_f64_i64` (tensordot.rs 50–61, 93–104, 136–147). -/
def TensordotOut (dbg : Bool) (N : Nat) (a : Native V) (b : List V) (bShape : List Nat)
    (out : Except Fault (List V)) : Prop :=
  match tensordotCols a.cols b.length bShape with
  | none => out = .error .panic
  | some k => SpmmOut dbg N a b k out

/-- `Array2::from_shape_vec((nrows, k), c)`, an error becoming `ValueError`. -/
def fromShapeVec (rows k : Nat) (c : List V) : PyRes (DenseNd V) :=
  if c.length = rows * k then .ret ⟨[rows, k], c⟩ else .raises .valueError

/-! ### The `@` operator -/

/-- `x @ y` for a one-dimensional `y` (csr.py 235–245, csc.py 105–112, coo.py 103–110). -/
def MatVec (dbg : Bool) (nthreads : Nat) (x : PySp V) (y : List V) (out : PyRes (DenseNd V)) : Prop :=
  if (y.length : Int) ≠ x.ncols then out = .raises .valueError
  else match x.operand with
    | .error e => out = .raises e
    | .ok a => ∃ o, Settles (fun N => SpmvOut dbg nthreads N a y) o ∧
        out = (PyRes.ofKernel o).bind fun r => .ret ⟨[r.length], r⟩

/-- `x @ y` for `y` of shape `(m, k)` (csr.py 246–252, csc.py 113–119, coo.py 111–117); the native
methods compare `m` with the native number of columns (csc.rs 67, coo.rs 70, csr.rs 67,
linalg.rs `spmm_from_parts`). -/
def MatMat (dbg : Bool) (x : PySp V) (m k : Nat) (y : List V) (out : PyRes (DenseNd V)) : Prop :=
  if (m : Int) ≠ x.ncols then out = .raises .valueError
  else match x.operand with
    | .error e => out = .raises e
    | .ok a => if m ≠ a.cols then out = .raises .valueError
      else ∃ o, Settles (fun N => SpmmOut dbg N a y k) o ∧
        out = (PyRes.ofKernel o).bind (fromShapeVec a.rows k)

/-- `x @ y`. -/
def AtMul (dbg : Bool) (nthreads : Nat) (x : PySp V) (y : DenseNd V) (out : PyRes (DenseNd V)) : Prop :=
  match y.shape with
  | [_] => MatVec dbg nthreads x y.data out
  | [m, k] => MatMat dbg x m k y.data out
  | _ => out = .raises .valueError

/-! ### `matmul` -/

/-- `matmul(x, y)` for a sparse two-dimensional `x` and a dense `y` (24–40). -/
def PyMatmul (dbg : Bool) (nthreads : Nat) (x : PySp V) (y : DenseNd V) (out : PyRes (DenseNd V)) : Prop :=
  if y.shape.length ≤ 2 then AtMul dbg nthreads x y out
  else
    let batch := y.shape.take (y.shape.length - 2)
    let k := y.shape.getD (y.shape.length - 2) 0
    let n := y.shape.getD (y.shape.length - 1) 0
    if (k : Int) ≠ x.ncols then out = .raises .valueError
    else ∃ o, AtMul dbg nthreads x ⟨[k, batch.prod * n], swap01 batch.prod k n y.data⟩ o ∧
      out = o.bind fun r => .ret ⟨batch ++ [x.nrows.toNat, n], swap01 x.nrows.toNat batch.prod n r.data⟩

/-! ### `tensordot` -/

/-- The argument `axes`: an integer or a pair; a bare integer within the pair is written as a list of
one element. -/
inductive AxesArg
  | int (n : Int)
  | pair (x y : List Int)
deriving DecidableEq, Repr

/-- 63–75: only the first element of each list is looked at. -/
def axes2d : AxesArg → Except PyErr Unit
  | .int n => if n ≠ 1 then .error .notImplemented else .ok ()
  | .pair (a :: _) (b :: _) => if a ≠ 1 ∨ b ≠ 0 then .error .notImplemented else .ok ()
  | .pair _ _ => .error .indexError

/-- `tensordot` for `CSR`, `CSC` and `COO` (62–110). -/
def PyTensordot (dbg : Bool) (nthreads : Nat) (axes : AxesArg) (x : PySp V) (y : DenseNd V)
    (out : PyRes (DenseNd V)) : Prop :=
  match axes2d axes with
  | .error e => out = .raises e
  | .ok () =>
    match y.shape with
    | [] => out = .raises .indexError
    | [d] => if (d : Int) ≠ x.ncols then out = .raises .valueError else MatVec dbg nthreads x y.data out
    | d :: rest =>
      if (d : Int) ≠ x.ncols then out = .raises .valueError
      else match x.parts with
        | .error e => out = .raises e
        | .ok a => if d ≠ a.cols then out = .raises .valueError
          else ∃ o, Settles (fun N => TensordotOut dbg N a y.data (d :: rest)) o ∧
            out = ((PyRes.ofKernel o).bind (fromShapeVec a.rows rest.prod)).bind fun r =>
              .ret ⟨a.rows :: rest, r.data⟩

/-- Python's `t[i]` for a tuple: negative positions count from the end. -/
def pyIndex {α : Type} (t : List α) (i : Int) : Except PyErr α :=
  match t[(if i < 0 then i + t.length else i).toNat]? with
  | some v => if 0 ≤ i + t.length then .ok v else .error .indexError
  | none => .error .indexError

/-- 113–123. -/
def axesNd (ndim : Nat) : AxesArg → Except PyErr Int
  | .int n => if n ≠ 1 then .error .notImplemented else .ok ((ndim : Int) - 1)
  | .pair (a :: _) (b :: _) => if b ≠ 0 then .error .notImplemented else .ok a
  | .pair _ _ => .error .indexError

/-- `usize::try_from(axis)` of the bindings, an error becoming `ValueError`. -/
def axisUsize (axis : Int) : Except PyErr Nat := if 0 ≤ axis then .ok axis.toNat else .error .valueError

/-- `tensordot` for `COOND` (112–137) with the binding `coond_tensordot_dense_axis_from_parts`. -/
def PyTensordotNd (dbg : Bool) (sort : List (Nat × V) → List (Nat × V)) (axes : AxesArg) (x : PyNd V) (y : DenseNd V)
    (out : PyRes (PyNd V)) : Prop :=
  match (do
      let axis ← axesNd x.shape.length axes
      let d ← pyIndex y.shape 0
      let s ← pyIndex x.shape axis
      if (d : Int) ≠ s then .error .valueError
      let a ← x.parts
      let ax ← axisUsize axis
      pure (a, ax) : Except PyErr (CooNd V × Nat)) with
  | .error e => out = .raises e
  | .ok (a, ax) => ∃ o, Settles (fun N o => o = tensordotNdP dbg N sort a ax y.data y.shape) o ∧
      out = (PyRes.ofKernel o).bind PyNd.wrap

/-! ### `vecdot` -/

/-- `vecdot` for `CSR`, `CSC` and `COO` (150–178). -/
def PyVecdot (dbg : Bool) (nthreads : Nat) (axis : Option Int) (x : PySp V) (y : DenseNd V)
    (out : PyRes (DenseNd V)) : Prop :=
  match y.shape with
  | [n] =>
    if axis = none ∨ axis = some (-1) ∨ axis = some 1 then
      if (n : Int) ≠ x.ncols then out = .raises .valueError else MatVec dbg nthreads x y.data out
    else if axis = some 0 then
      if (n : Int) ≠ x.nrows then out = .raises .valueError
      else match x.parts with
        | .error e => out = .raises e
        | .ok a => ∃ o, Settles (fun N => VecdotOut dbg nthreads N a y.data) o ∧
            out = (PyRes.ofKernel o).bind fun r => .ret ⟨[r.length], r⟩
    else out = .raises .notImplemented
  | _ => out = .raises .notImplemented

/-- `vecdot` for `COOND` (180–192) with the binding `coond_vecdot_axis_from_parts` and
`vecdot_coond_dense_axis_f64_i64` (vecdot.rs 498–506, whose two assertions are repeated by
`spmv_coond_f64_i64`). -/
def PyVecdotNd (dbg : Bool) (sort : List (Nat × V) → List (Nat × V)) (axis : Option Int) (x : PyNd V) (y : DenseNd V)
    (out : PyRes (PyNd V)) : Prop :=
  match y.shape with
  | [n] =>
    match (do
        let ax := if axis = none ∨ axis = some (-1) then (x.shape.length : Int) - 1 else axis.getD 0
        let s ← pyIndex x.shape ax
        if (n : Int) ≠ s then .error .valueError
        let a ← x.parts
        let ax ← axisUsize ax
        pure (a, ax) : Except PyErr (CooNd V × Nat)) with
    | .error e => out = .raises e
    | .ok (a, ax) => ∃ o, Settles (fun N o => o = spmvNdP dbg N sort a ax y.data) o ∧
        out = (PyRes.ofKernel o).bind PyNd.wrap
  | _ => out = .raises .notImplemented

end

end Lacuna
