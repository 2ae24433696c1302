import Verif.Model.PyLinalg
/-
How NumPy arrays reach the native core: their memory layout and dtype.

The linear algebra functions (python/lacuna/array_api/linalg/__init__.py, `__matmul__` of
sparse/csr.py, csc.py, coo.py) and the constructors of the three two-dimensional classes on arrays
that are views with arbitrary strides.  Model/PyLinalg and Model/PyClass are about contiguous
`float64` arrays; the definitions here follow them line by line and add the conversions.

NumPy and rust-numpy 0.27 (Cargo.lock) by their documentation: `PyReadonlyArray1<f64>` is extracted from
arrays of dtype float64 with one dimension only, else `TypeError`; `as_slice` gives the memory of
an array that is C or Fortran contiguous, else `NotContiguousError`, which becomes `TypeError`;
`as_array().iter()` visits the elements in logical order; PyO3 converts all arguments before the
body runs.

Simplifications: strides are multiples of the size of an element; arrays are aligned and of
native byte order; for an array of another dtype the memory holds the values that `astype(float64)`
gives.
-/
namespace Lacuna
variable {V : Type}

/-! ### Arrays -/

/-- An `ndarray`: element `x` is at `start + Σ x_k * strides_k`. -/
structure NdView (V : Type) where
  shape : List Nat
  strides : List Int
  start : Int
  mem : Int → V

/-- The elements in row-major order. -/
def viewElems (mem : Int → V) : List Nat → List Int → Int → List V
  | [], _, p => [mem p]
  | d :: ds, ss, p => (List.range d).flatMap fun (i : Nat) => viewElems mem ds ss.tail (p + (i : Int) * ss.headD 0)

def NdView.elems (v : NdView V) : List V := viewElems v.mem v.shape v.strides v.start

/-- The same array as Model/PyLinalg writes it. -/
def NdView.toDense (v : NdView V) : DenseNd V := ⟨v.shape, v.elems⟩

/-- The elements follow each other in row-major order at distance `s`; axes of length 1 do not matter. -/
def Uniform (s : Int) : List Nat → List Int → Prop
  | [], _ => True
  | d :: ds, ss => (d = 1 ∨ ss.headD 0 = ds.prod * s) ∧ Uniform s ds ss.tail

instance (s : Int) : ∀ (ds : List Nat) (ss : List Int), Decidable (Uniform s ds ss)
  | [], _ => .isTrue trivial
  | d :: ds, ss =>
    have := instDecidableUniform s ds ss.tail
    inferInstanceAs (Decidable ((d = 1 ∨ ss.headD 0 = ds.prod * s) ∧ Uniform s ds ss.tail))

/-- `acc` is the product of the axes before. -/
def UniformF : Nat → List Nat → List Int → Prop
  | _, [], _ => True
  | acc, d :: ds, ss => (d = 1 ∨ ss.headD 0 = acc) ∧ UniformF (acc * d) ds ss.tail

instance : ∀ (acc : Nat) (ds : List Nat) (ss : List Int), Decidable (UniformF acc ds ss)
  | _, [], _ => .isTrue trivial
  | acc, d :: ds, ss =>
    have := instDecidableUniformF (acc * d) ds ss.tail
    inferInstanceAs (Decidable ((d = 1 ∨ ss.headD 0 = acc) ∧ UniformF (acc * d) ds ss.tail))

/-- The flag `C_CONTIGUOUS`. -/
def NdView.CContig (v : NdView V) : Prop := v.shape.prod = 0 ∨ Uniform 1 v.shape v.strides

/-- The flag `F_CONTIGUOUS`. -/
def NdView.FContig (v : NdView V) : Prop := v.shape.prod = 0 ∨ UniformF 1 v.shape v.strides

instance (v : NdView V) : Decidable v.CContig := inferInstanceAs (Decidable (_ ∨ _))
instance (v : NdView V) : Decidable v.FContig := inferInstanceAs (Decidable (_ ∨ _))

/-- `as_slice()?`: the memory from the first element on, whatever the order of the axes. -/
def NdView.asSlice (v : NdView V) : Except PyErr (List V) :=
  if v.CContig ∨ v.FContig then .ok ((List.range v.shape.prod).map fun (k : Nat) => v.mem (v.start + k))
  else .error .typeError

/-- The stride of the last axis whose length is not 1. -/
def lastStride : List Nat → List Int → Int
  | [], _ => 1
  | d :: ds, ss => if ds.all (· == 1) && d != 1 then ss.headD 0 else lastStride ds ss.tail

/-- `reshape(-1)`: a view if the elements are evenly spaced, else a copy. -/
def NdView.flat (v : NdView V) : NdView V :=
  if Uniform (lastStride v.shape v.strides) v.shape v.strides then
    ⟨[v.shape.prod], [lastStride v.shape v.strides], v.start, v.mem⟩
  else ⟨[v.shape.prod], [1], 0, fun i => v.elems[i.toNat]?.getD (v.mem 0)⟩

/-- An array with its dtype. -/
structure NArr (V : Type) where
  f64 : Bool
  view : NdView V

/-- `np.asarray(y, dtype=np.float64)`: the array itself, or a new one with the same elements.  The order
of the axes of a new array in memory is left open (NumPy keeps that of `y`). -/
def NArr.AsFloat (y : NArr V) (w : NdView V) : Prop :=
  if y.f64 then w = y.view
  else w.shape = y.view.shape ∧ w.elems = y.view.elems ∧ (∀ n, w.shape = [n] → w.CContig)

/-- The argument `PyReadonlyArray1<f64>` for `v`, an array with the dtype of `y`. -/
def NArr.extract (y : NArr V) : Except PyErr Unit := if y.f64 then .ok () else .error .typeError

/-! ### Linear algebra -/

section
variable [Zero V] [Add V] [Mul V] [BEq V] [HasFma V]

/-- `x @ y` for one-dimensional `y` (csr.py 237–245, csc.py 105–112, coo.py 103–110); `as_slice` is in
types/csr.rs 49, csc.rs 49, coo.rs 52 and linalg.rs 39. -/
def MatVecL (dbg : Bool) (nthreads : Nat) (x : PySp V) (y : NArr V) (out : PyRes (DenseNd V)) : Prop :=
  ∃ w, y.AsFloat w ∧
    if ((w.shape.headD 0 : Nat) : Int) ≠ x.ncols then out = .raises .valueError
    else match x.operand with
      | .error e => out = .raises e
      | .ok a => match w.asSlice with
        | .error e => out = .raises e
        | .ok s => ∃ o, Settles (fun N => SpmvOut dbg nthreads N a s) o ∧
            out = (PyRes.ofKernel o).bind fun r => .ret ⟨[r.length], r⟩

/-- The elements the native product with a matrix reads: the methods `spmm` copy them in logical order
(types/csr.rs 72, csc.rs 72, coo.rs 75), `spmm_from_parts` takes the memory (linalg.rs 340). -/
def spmmReads (x : PySp V) (w : NdView V) : Except PyErr (List V) :=
  match x.handle with
  | some _ => .ok w.elems
  | none => w.asSlice

/-- `x @ y` for two-dimensional `y` (csr.py 246–252, csc.py 113–119, coo.py 111–117). -/
def MatMatL (dbg : Bool) (x : PySp V) (m k : Nat) (y : NArr V) (out : PyRes (DenseNd V)) : Prop :=
  ∃ w, y.AsFloat w ∧
    if (m : Int) ≠ x.ncols then out = .raises .valueError
    else match x.operand with
      | .error e => out = .raises e
      | .ok a => if m ≠ a.cols then out = .raises .valueError
        else match spmmReads x w with
          | .error e => out = .raises e
          | .ok s => ∃ o, Settles (fun N => SpmmOut dbg N a s k) o ∧
              out = (PyRes.ofKernel o).bind (fromShapeVec a.rows k)

/-- `x @ y`. -/
def AtMulL (dbg : Bool) (nthreads : Nat) (x : PySp V) (y : NArr V) (out : PyRes (DenseNd V)) : Prop :=
  match y.view.shape with
  | [_] => MatVecL dbg nthreads x y out
  | [m, k] => MatMatL dbg x m k y out
  | _ => out = .raises .valueError

/-- `np.ascontiguousarray` of elements of the dtype of `y`, as an array of shape `[m, k]`. -/
def freshMat (f64 : Bool) (m k : Nat) (l : List V) (z : V) : NArr V :=
  ⟨f64, ⟨[m, k], [(k : Int), 1], 0, fun i => l[i.toNat]?.getD z⟩⟩

/-- `matmul(x, y)` (24–40): with more than two dimensions `y` is copied to a contiguous matrix first. -/
def PyMatmulL (dbg : Bool) (nthreads : Nat) (x : PySp V) (y : NArr V) (out : PyRes (DenseNd V)) : Prop :=
  let shape := y.view.shape
  if shape.length ≤ 2 then AtMulL dbg nthreads x y out
  else
    let batch := shape.take (shape.length - 2)
    let k := shape.getD (shape.length - 2) 0
    let n := shape.getD (shape.length - 1) 0
    if (k : Int) ≠ x.ncols then out = .raises .valueError
    else ∃ o, AtMulL dbg nthreads x
        (freshMat y.f64 k (batch.prod * n) (swap01 batch.prod k n y.view.elems) (y.view.mem 0)) o ∧
      out = o.bind fun r => .ret ⟨batch ++ [x.nrows.toNat, n], swap01 x.nrows.toNat batch.prod n r.data⟩

/-- The conversions of the first two arguments of a binding, which precede that of the dense array. -/
def PySp.sizes (x : PySp V) : Except PyErr Unit := do
  let _ ← pyUsize x.nrows
  let _ ← pyUsize x.ncols

/-- `tensordot` (62–110): `y.reshape(-1)` goes to the binding unconverted; `as_slice` is linalg.rs 76, 116,
156. -/
def PyTensordotL (dbg : Bool) (nthreads : Nat) (axes : AxesArg) (x : PySp V) (y : NArr V)
    (out : PyRes (DenseNd V)) : Prop :=
  match axes2d axes with
  | .error e => out = .raises e
  | .ok () =>
    match y.view.shape with
    | [] => out = .raises .indexError
    | [d] => if (d : Int) ≠ x.ncols then out = .raises .valueError else MatVecL dbg nthreads x y out
    | d :: rest =>
      if (d : Int) ≠ x.ncols then out = .raises .valueError
      else match (do x.sizes; y.extract; x.parts : Except PyErr (Native V)) with
        | .error e => out = .raises e
        | .ok a => if d ≠ a.cols then out = .raises .valueError
          else match y.view.flat.asSlice with
            | .error e => out = .raises e
            | .ok s => ∃ o, Settles (fun N => TensordotOut dbg N a s (d :: rest)) o ∧
                out = ((PyRes.ofKernel o).bind (fromShapeVec a.rows rest.prod)).bind fun r =>
                  .ret ⟨a.rows :: rest, r.data⟩

/-- `tensordot` for `COOND` (112–137): `as_slice` (linalg.rs 188) precedes the conversion of the axis. -/
def PyTensordotNdL (dbg : Bool) (sort : List (Nat × V) → List (Nat × V)) (axes : AxesArg) (x : PyNd V) (y : NArr V)
    (out : PyRes (PyNd V)) : Prop :=
  match (do
      let axis ← axesNd x.shape.length axes
      let d ← pyIndex y.view.shape 0
      let s ← pyIndex x.shape axis
      if (d : Int) ≠ s then .error .valueError
      y.extract
      let a ← x.parts
      let b ← y.view.flat.asSlice
      let ax ← axisUsize axis
      pure (a, b, ax) : Except PyErr (CooNd V × List V × Nat)) with
  | .error e => out = .raises e
  | .ok (a, b, ax) => ∃ o, Settles (fun N o => o = tensordotNdP dbg N sort a ax b y.view.shape) o ∧
      out = (PyRes.ofKernel o).bind PyNd.wrap

/-- `vecdot` (150–178): along axis 1 it is `x @ y`, along axis 0 `y` goes to the binding unconverted;
`as_slice` is linalg.rs 221, 246, 271. -/
def PyVecdotL (dbg : Bool) (nthreads : Nat) (axis : Option Int) (x : PySp V) (y : NArr V)
    (out : PyRes (DenseNd V)) : Prop :=
  match y.view.shape with
  | [n] =>
    if axis = none ∨ axis = some (-1) ∨ axis = some 1 then
      if (n : Int) ≠ x.ncols then out = .raises .valueError else MatVecL dbg nthreads x y out
    else if axis = some 0 then
      if (n : Int) ≠ x.nrows then out = .raises .valueError
      else match (do x.sizes; y.extract; x.parts : Except PyErr (Native V)) with
        | .error e => out = .raises e
        | .ok a => match y.view.asSlice with
          | .error e => out = .raises e
          | .ok s => ∃ o, Settles (fun N => VecdotOut dbg nthreads N a s) o ∧
              out = (PyRes.ofKernel o).bind fun r => .ret ⟨[r.length], r⟩
    else out = .raises .notImplemented
  | _ => out = .raises .notImplemented

/-- `vecdot` for `COOND` (180–192): here the axis is converted before `as_slice` (linalg.rs 298–301). -/
def PyVecdotNdL (dbg : Bool) (sort : List (Nat × V) → List (Nat × V)) (axis : Option Int) (x : PyNd V) (y : NArr V)
    (out : PyRes (PyNd V)) : Prop :=
  match y.view.shape with
  | [n] =>
    match (do
        let ax := if axis = none ∨ axis = some (-1) then (x.shape.length : Int) - 1 else axis.getD 0
        let s ← pyIndex x.shape ax
        if (n : Int) ≠ s then .error .valueError
        y.extract
        let a ← x.parts
        let ax ← axisUsize ax
        let b ← y.view.asSlice
        pure (a, b, ax) : Except PyErr (CooNd V × List V × Nat)) with
    | .error e => out = .raises e
    | .ok (a, b, ax) => ∃ o, Settles (fun N o => o = spmvNdP dbg N sort a ax b) o ∧
        out = (PyRes.ofKernel o).bind PyNd.wrap
  | _ => out = .raises .notImplemented

end

/-! ### Constructors -/

/-- An object of class `CSR`, `CSC` or `COO` whose arrays are views (`np.asarray(…, dtype=…)` does not
copy an array that has the dtype). -/
structure PySpL (V : Type) where
  cls : Cls
  nrows : Int
  ncols : Int
  ix1 : NdView Int
  ix2 : NdView Int
  data : NdView V
  handle : Option (Native V)

/-- The argument `PyReadonlyArray1`: one dimension. -/
def NdView.extract1 {α : Type} (v : NdView α) : Except PyErr Unit :=
  if v.shape.length = 1 then .ok () else .error .typeError

/-- A native matrix from views: `as_slice()?.to_vec()` of each (types/csr.rs 20–40, csc.rs 20–38, coo.rs
19–37 and the first lines of the `*_from_parts` functions). -/
def nativeOfL (cls : Cls) (nrows ncols : Int) (ix1 ix2 : NdView Int) (data : NdView V) (check : Bool) :
    Except PyErr (Native V) := do
  let _ ← pyUsize nrows
  let _ ← pyUsize ncols
  ix1.extract1
  ix2.extract1
  data.extract1
  let p ← ix1.asSlice
  let q ← ix2.asSlice
  let d ← data.asSlice
  nativeOf cls nrows ncols p q d check

/-- `__init__` (csr.py 65–83, csc.py 62–75, coo.py 62–76). -/
def PySpL.new (cls : Cls) (nrows ncols : Int) (ix1 ix2 : NdView Int) (data : NdView V) (check : Bool) :
    Except PyErr (PySpL V) :=
  match cls with
  | .csr => do
    if check then
      let _ ← nativeOfL .csr nrows ncols ix1 ix2 data true
    pure ⟨.csr, nrows, ncols, ix1, ix2, data, (nativeOfL .csr nrows ncols ix1 ix2 data false).toOption⟩
  | cls => pure ⟨cls, nrows, ncols, ix1, ix2, data, (nativeOfL cls nrows ncols ix1 ix2 data check).toOption⟩

/-- The arrays of the object through a binding called with `check=False`. -/
def PySpL.parts (x : PySpL V) : Except PyErr (Native V) :=
  nativeOfL x.cls x.nrows x.ncols x.ix1 x.ix2 x.data false

/-- What `__matmul__` works on. -/
def PySpL.operand (x : PySpL V) : Except PyErr (Native V) :=
  match x.handle with
  | some a => .ok a
  | none => if x.cls = .csr then x.parts else .error .runtimeError

/-- The object as Model/PyLinalg writes it. -/
def PySpL.toSp (x : PySpL V) : PySp V := ⟨x.cls, x.nrows, x.ncols, x.ix1.elems, x.ix2.elems, x.data.elems, x.handle⟩

/-- An object of class `COOND` whose arrays are views. -/
structure PyNdL (V : Type) where
  shape : List Int
  indices : NdView Int
  data : NdView V

/-- `COOND.__init__` (coond.py 98–108): `indices` may have any number of dimensions. -/
def PyNdL.new (shape : List Int) (indices : NdView Int) (data : NdView V) : Except PyErr (PyNdL V) :=
  if shape.length < 1 then .error .valueError
  else if indices.shape.prod % shape.length ≠ 0 then .error .valueError
  else .ok ⟨shape, indices, data⟩

/-- The native array of a `coond_*_from_parts` binding. -/
def PyNdL.parts (x : PyNdL V) : Except PyErr (CooNd V) := do
  x.indices.extract1
  x.data.extract1
  let s ← shapeUsize x.shape
  let p ← x.indices.asSlice
  let d ← x.data.asSlice
  (CooNd.fromParts s p d false).mapError fun _ => .valueError

/-- The object as Model/PyLinalg writes it. -/
def PyNdL.toNd (x : PyNdL V) : PyNd V := ⟨x.shape, x.indices.elems, x.data.elems⟩

end Lacuna
