import Verif.Model.PyProg
import Verif.Model.PyReduce
import Verif.Model.PtrLines
import Verif.Model.PtrAccum
/-
The reductions of the array API on objects of the four classes: `sum`, `mean`, `prod`, `var`, `std`,
`min`, `max`, `all`, `any` (python/lacuna/array_api/_dispatch/reductions.py 77–474, 595–711), from the
axis argument down to the pointer-level kernels, and as the last step of a program.

Simplifications: as in Model/PyProg; the per-line kernels for COO and the conversion from COO to CSR
are safe Rust and used at list level (Model/Stats, Model/Convert), where a run without result is a
panic; `correction` is a Python float; NumPy divides an array by a float element by element.
-/
namespace Lacuna
variable {V W : Type}

/-- The reductions to numbers. -/
inductive RedOp (V : Type)
  | sum | mean | prod | var (correction : V) | std (correction : V) | min | max

/-- The reductions to Booleans. -/
inductive LogicOp
  | all | any
deriving DecidableEq, Repr

/-- A kernel of safe Rust, given by its results: without one it panics. -/
def SafeRun {α : Type} (run : α → Prop) (out : Except Fault α) : Prop :=
  (∃ y, run y ∧ out = .ok y) ∨ ((¬ ∃ y, run y) ∧ out = .error .panic)

/-- The stored values. -/
def Native.data : Native V → List V
  | .csr a => a.data
  | .csc a => a.data
  | .coo a => a.data

section
variable [Zero V] [One V] [Add V] [Sub V] [Mul V] [Div V] [BEq V] [NatCast V] [HasLt V] [HasMinMax V] [HasSqrt V]

/-! ### Kernels -/

/-- `var_f64`, `var_csc_f64`, `var_coo_f64` (varstd.rs 88–99, 160–171, 232–243; `variance_from_sums` 63–75) for `n` cells. -/
def VarPtrRun (F n : Nat) (data : List V) (correction : V) (out : Except Fault V) : Prop :=
  if n = 0 then out = .ok 0
  else ∃ o, SumsPtrRun F data o ∧ out = o.map fun s => varianceFromSums s.1 s.2 n correction

/-- The kernels for everything: `sum_*`, `prod_*`, `var_*`, `std_*`, `min_*`, `max_*` (bindings in reduce.rs: sum 100–120, min/max
576–617, 713–755, 855–896, prod 1335–1354, 1403–1422, 1471–1490, var/std 1560–1603, 1702–1745, 1844–1887). -/
def RedOp.Glob (N : Nat) (a : Native V) (op : RedOp V) (out : Except Fault V) : Prop :=
  match op with
  | .sum => SumPtrRun N a.data out
  | .mean => SumPtrRun N a.data out
  | .prod => ProdPtrRun N (satMul a.rows a.cols) a.data out
  | .var c => VarPtrRun N (satMul a.rows a.cols) a.data c out
  | .std c => ∃ o, VarPtrRun N (satMul a.rows a.cols) a.data c o ∧ out = o.map stdFromVar
  | .min => ExtPtrRun N (minOps V) a.rows a.cols a.data out
  | .max => ExtPtrRun N (maxOps V) a.rows a.cols a.data out

/-- `col_sums_*` (sum.rs 280, 533, 651; csr.py 256–295, csc.py 123–142, coo.py 123–142). -/
def SumCols (env : PyEnv V) (N : Nat) : Native V → Except Fault (List V) → Prop
  | .csr a => ColSumsPtr env.dbg N env.threads a
  | .csc a => ColSumsCscPtrRun env.dbg N a
  | .coo a => ColSumsCooPtr env.dbg N env.threads a
/-- `row_sums_*` (sum.rs 222, 443, 568). -/
def SumRows (env : PyEnv V) (N : Nat) : Native V → Except Fault (List V) → Prop
  | .csr a => RowSumsPtrRun env.dbg N a
  | .csc a => RowSumsCscPtr env.dbg N a
  | .coo a => RowSumsCooPtr env.dbg N env.threads a
/-- `col_prods_*` (reduce.rs 1380–1400, 1448–1468, 1516–1536). -/
def ProdCols (env : PyEnv V) (N : Nat) : Native V → Except Fault (List V) → Prop
  | .csr a => ColProdsPtr env.dbg N env.pairSort env.threads a
  | .csc a => LineProdsPtr env.dbg N a.comp
  | .coo a => SafeRun (ColProdsCooRun env.threads a)
/-- `row_prods_*` (reduce.rs 1357–1377, 1425–1445, 1493–1513). -/
def ProdRows (env : PyEnv V) (N : Nat) : Native V → Except Fault (List V) → Prop
  | .csr a => LineProdsPtr env.dbg N a.comp
  | .csc a => RowProdsCscPtr env.dbg N env.pairSort env.threads a
  | .coo a => SafeRun (RowProdsCooRun env.threads a)
/-- `col_vars_*` (varstd.rs 143, 183, 336; reduce.rs 1654–1675, 1796–1817, 1938–1959). -/
def VarCols (env : PyEnv V) (N : Nat) (c : V) : Native V → Except Fault (List V) → Prop
  | .csr a => ColVarsPtr env.dbg N env.pairSort env.threads c a
  | .csc a => LineVarsPtr env.dbg N c a.comp
  | .coo a => SafeRun (ColVarsCooRun env.threads a c)
/-- `row_vars_*` (varstd.rs 111, 215, 255; reduce.rs 1606–1627, 1748–1769, 1890–1911). -/
def VarRows (env : PyEnv V) (N : Nat) (c : V) : Native V → Except Fault (List V) → Prop
  | .csr a => LineVarsPtr env.dbg N c a.comp
  | .csc a => RowVarsCscPtr env.dbg N env.pairSort env.threads c a
  | .coo a => SafeRun (RowVarsCooRun env.threads a c)
/-- `col_mins_*`, `col_maxs_*` (reduce.rs 666–709, 807–851, 945–988). -/
def ExtCols (env : PyEnv V) (N : Nat) (o : ExtOps V) : Native V → Except Fault (List V) → Prop
  | .csr a => ColExtsPtr env.dbg N env.pairSort env.threads o a
  | .csc a => LineExtsPtr env.dbg N o a.comp
  | .coo a => SafeRun (ColExtsCooRun o env.threads a)
/-- `row_mins_*`, `row_maxs_*` (reduce.rs 620–663, 759–803, 899–942). -/
def ExtRows (env : PyEnv V) (N : Nat) (o : ExtOps V) : Native V → Except Fault (List V) → Prop
  | .csr a => LineExtsPtr env.dbg N o a.comp
  | .csc a => RowExtsCscPtr env.dbg N env.pairSort env.threads o a
  | .coo a => SafeRun (RowExtsCooRun o env.threads a)

/-- The kernels with one result per column. -/
def RedOp.Cols (env : PyEnv V) (N : Nat) (a : Native V) (op : RedOp V) (out : Except Fault (List V)) : Prop :=
  match op with
  | .sum => SumCols env N a out
  | .mean => SumCols env N a out
  | .prod => ProdCols env N a out
  | .var c => VarCols env N c a out
  | .std c => ∃ o, VarCols env N c a o ∧ out = o.map fun l => l.map stdFromVar
  | .min => ExtCols env N (minOps V) a out
  | .max => ExtCols env N (maxOps V) a out

/-- The kernels with one result per row. -/
def RedOp.Rows (env : PyEnv V) (N : Nat) (a : Native V) (op : RedOp V) (out : Except Fault (List V)) : Prop :=
  match op with
  | .sum => SumRows env N a out
  | .mean => SumRows env N a out
  | .prod => ProdRows env N a out
  | .var c => VarRows env N c a out
  | .std c => ∃ o, VarRows env N c a o ∧ out = o.map fun l => l.map stdFromVar
  | .min => ExtRows env N (minOps V) a out
  | .max => ExtRows env N (maxOps V) a out

/-- `all_*_from_parts`, `any_*_from_parts` (reduce.rs 125–166; CSC 261–302; COO 397–438;
logic.rs for COO as cited at `allCoo`, `anyCoo`). -/
def LogicOp.Glob (env : PyEnv V) (op : LogicOp) : Native V → Except Fault Bool → Prop
  | .coo a => fun out => out = .ok (match op with | .all => allCoo env.tripleSort a | .any => anyCoo env.tripleSort a)
  | a => fun out => out = .ok (match op with
    | .all => allKernel (satMul a.rows a.cols) a.data
    | .any => anyKernel (satMul a.rows a.cols) a.data)

/-- `col_alls_*`, `col_anys_*` (reduce.rs 192–212, 238–258, 328–348, 374–394, 465–486, 513–534). -/
def LogicOp.Cols (env : PyEnv V) (N : Nat) (op : LogicOp) : Native V → Except Fault (List Bool) → Prop
  | .csr a => (match op with
    | .all => ColAllsPtr env.dbg N env.pairSort env.threads a
    | .any => ColAnysPtr env.dbg N env.pairSort env.threads a)
  | .csc a => (match op with | .all => LineAllsPtr env.dbg a.comp | .any => LineAnysPtr env.dbg a.comp)
  | .coo a => (match op with
    | .all => ColAllsPtr env.dbg N env.pairSort env.threads (cooToCsr env.tripleSort a)
    | .any => ColAnysPtr env.dbg N env.pairSort env.threads (cooToCsr env.tripleSort a))

/-- `row_alls_*`, `row_anys_*` (reduce.rs 169–189, 215–235, 305–325, 351–371, 441–462, 489–510). -/
def LogicOp.Rows (env : PyEnv V) (op : LogicOp) : Native V → Except Fault (List Bool) → Prop
  | .csr a => (match op with | .all => LineAllsPtr env.dbg a.comp | .any => LineAnysPtr env.dbg a.comp)
  | .csc a => (match op with | .all => RowAllsCscPtr env.dbg a | .any => RowAnysCscPtr env.dbg a)
  | .coo a => (match op with
    | .all => LineAllsPtr env.dbg (cooToCsr env.tripleSort a).comp
    | .any => LineAnysPtr env.dbg (cooToCsr env.tripleSort a).comp)

/-! ### Dispatch -/

/-- The branches on the normalised axes of a 2-D input (reductions.py 79–93, 118–132, 159–207, 229–279, …):
`glob`, `cols` and `rows` are the outcomes of the native calls; only the one selected takes place. -/
def Reduce2dObj (nrows ncols : Nat) (glob : PyRes W → Prop) (cols rows : PyRes (List W) → Prop) (axis : AxisArg)
    (keepdims : Bool) (out : PyRes (NdArr W)) : Prop :=
  match normalizeAxes2d axis with
  | .error e => out = .raises e
  | .ok norm =>
    if norm = none ∨ norm = some [0, 1] then
      ∃ o, glob o ∧ out = o.bind fun s => .ofExcept (if keepdims then npReshape ⟨[], [s]⟩ [1, 1] else .ok ⟨[], [s]⟩)
    else if norm = some [] then out = .raises .notImplemented
    else if norm = some [0] then
      ∃ o, cols o ∧ out = o.bind fun v =>
        .ofExcept (if keepdims then npReshape ⟨[v.length], v⟩ [1, ncols] else .ok ⟨[v.length], v⟩)
    else if norm = some [1] then
      ∃ o, rows o ∧ out = o.bind fun v =>
        .ofExcept (if keepdims then npReshape ⟨[v.length], v⟩ [nrows, 1] else .ok ⟨[v.length], v⟩)
    else out = .raises .valueError

/-- `sum` and `mean` call the method `sum` of the class (csr.py 256–295, csc.py 123–142, coo.py 123–142), the
others the bindings with the arrays. -/
def RedOp.path (op : RedOp V) (onHandle : Path) : Path :=
  match op with
  | .sum => onHandle
  | .mean => onHandle
  | _ => .parts

/-- The native matrix that a 2-D object hands to the kernels. -/
def PyObj.native (x : PyObj V) (mat : Fmt → Path) (coo : Path) : Except PyErr (Native V) :=
  match x with
  | .mat .csr x => (operand .csr (mat .csr) x).map fun a => .csr a.toCsr
  | .mat .csc x => (operand .csc (mat .csc) x).map fun a => .csc a.toCsc
  | .coo x => (x.operand coo).map .coo
  | .nd _ => .error .notImplemented

/-- `x.shape` of a 2-D object. -/
def PyObj.dims : PyObj V → Nat × Nat
  | .mat _ x => (x.nrows.toNat, x.ncols.toNat)
  | .coo x => (x.nrows.toNat, x.ncols.toNat)
  | .nd _ => (0, 0)

/-- What a native call returns to Python. -/
def NativeCall {α : Type} (a : Except PyErr (Native V)) (run : Nat → Native V → Except Fault α → Prop) (out : PyRes α) : Prop :=
  match a with
  | .error e => out = .raises e
  | .ok a => ∃ o, Settles (fun N => run N a) o ∧ out = PyRes.ofKernel o

/-- The Python code between the native call and the reshaping: `mean` divides the sums, by Python
(`float(x.sum(None)) / float(nrows * ncols)`) or by NumPy. -/
def RedOp.globPost (n : Nat) (op : RedOp V) (s : V) : PyRes V :=
  match op with
  | .mean => .ofExcept (pyFloatDiv s (n : V))
  | _ => .ret s
def RedOp.linePost (n : Nat) (op : RedOp V) (v : List V) : List V :=
  match op with
  | .mean => v.map fun s => s / (n : V)
  | _ => v

/-- The reduction of a `CSR`, `CSC` or `COO` object. -/
def Red2d (env : PyEnv V) (op : RedOp V) (axis : AxisArg) (keepdims : Bool) (x : PyObj V) (out : PyRes (NdArr V)) : Prop :=
  let a := x.native (fun f => op.path (match f with | .csr => .handleElseParts | .csc => .handle)) (op.path .handle)
  Reduce2dObj x.dims.1 x.dims.2
    (fun o => ∃ p, NativeCall a (fun N a => op.Glob N a) p ∧ o = p.bind (op.globPost (x.dims.1 * x.dims.2)))
    (fun o => ∃ p, NativeCall a (fun N a => op.Cols env N a) p ∧ o = p.bind fun v => .ret (op.linePost x.dims.1 v))
    (fun o => ∃ p, NativeCall a (fun N a => op.Rows env N a) p ∧ o = p.bind fun v => .ret (op.linePost x.dims.2 v))
    axis keepdims out

/-- `all` and `any` of a `CSR`, `CSC` or `COO` object. -/
def Logic2d (env : PyEnv V) (op : LogicOp) (axis : AxisArg) (keepdims : Bool) (x : PyObj V) (out : PyRes (NdArr Bool)) : Prop :=
  let a := x.native (fun _ => .parts) .parts
  Reduce2dObj x.dims.1 x.dims.2 (NativeCall a fun _ a => op.Glob env a) (NativeCall a fun N a => op.Cols env N a)
    (NativeCall a fun _ a => op.Rows env a) axis keepdims out

/-! ### N-D arrays -/

/-- The result of a reduction: a dense array (a scalar has shape `[]`) or a sparse object. -/
inductive RedOut (V W : Type)
  | dense (a : NdArr W)
  | sparse (x : PyObj V)

/-- `_coond_with_keepdims(x, reduced, axes)` (reductions.py 52–74): `reduced.indices.reshape(nnz, rem_ndim)`
needs as many coordinates. -/
def keepdimsObj (ndim : Nat) (r : PyNd V) (axes : List Nat) : PyRes (PyNd V) :=
  let rem := (List.range ndim).filter fun d => !(axes.contains d)
  if rem.length ≠ 0 ∧ r.indices.length ≠ r.data.length * rem.length then .raises .valueError
  else
    let k := coondKeepdims ndim ⟨r.shape.map Int.toNat, r.indices, r.data⟩ axes
    .ofExcept (PyNd.new (k.shape.map Int.ofNat) k.indices k.data)

/-- `x.sum()` and `x.mean()` of a `COOND` (coond.py 135–151, reduce.rs 1040–1080, sum.rs 134–158, mean.rs 29–39). -/
def NdGlob (N : Nat) (mean : Bool) (a : CooNd V) (out : Except Fault V) : Prop :=
  if mean then
    if a.shape = [] then out = .ok 0
    else match productChecked a.shape with
      | none => out = .error .panic
      | some p => if ((p : V) == 0) then out = .ok 0 else ∃ o, SumPtrRun N a.data o ∧ out = o.map fun s => s / (p : V)
  else SumPtrRun N a.data out

/-- `sum` and `mean` of a `COOND` (reductions.py 96–110, 135–149). -/
def RedNd (env : PyEnv V) (mean : Bool) (axis : AxisArg) (keepdims : Bool) (x : PyNd V) (out : PyRes (RedOut V V)) : Prop :=
  match normalizeAxesNd x.shape.length axis with
  | .error e => out = .raises e
  | .ok none => (match x.parts with
    | .error e => out = .raises e
    | .ok a => ∃ o, Settles (fun N => NdGlob N mean a) o ∧ out = (PyRes.ofKernel o).bind fun s =>
        (PyRes.ofExcept (if keepdims then npReshape ⟨[], [s]⟩ (x.shape.map fun _ => 1) else .ok ⟨[], [s]⟩)).bind fun r =>
          .ret (.dense r))
  | .ok (some []) => out = .raises .notImplemented
  | .ok (some l) => ∃ o, NdMethod env (if mean then .reduceMean else .reduceSum) l (.nd x) o ∧
      out = o.bind fun r => (match r with
        | .nd r => if keepdims then (keepdimsObj x.shape.length r (axesToUsize l)).bind fun k => .ret (.sparse (.nd k))
            else .ret (.sparse (.nd r))
        | r => .ret (.sparse r))

/-- The reductions of a `COOND` that pass `x.shape`, a Python tuple, where the binding takes an array of
`i64` (reductions.py 209–222, 281–294, 353–366, 407–420, 461–474; reduce.rs 537–572, 1539–1555, 1986–2023):
the conversion of the argument fails. That rust-numpy rejects a tuple with a `TypeError` is an assumption
about the library, which is not in the repository. -/
def tupleShape (axis : AxisArg) : PyErr :=
  match axis with
  | .none => .typeError
  | _ => .notImplemented

/-- `sum(x, axis=axis, keepdims=keepdims)`, …, `max(…)`. -/
def RedMethod (env : PyEnv V) (op : RedOp V) (axis : AxisArg) (keepdims : Bool) (x : PyObj V)
    (out : PyRes (RedOut V V)) : Prop :=
  match x with
  | .nd x => (match op with
    | .sum => RedNd env false axis keepdims x out
    | .mean => RedNd env true axis keepdims x out
    | .min => out = .raises .notImplemented
    | .max => out = .raises .notImplemented
    | _ => out = .raises (tupleShape axis))
  | x => ∃ o, Red2d env op axis keepdims x o ∧ out = o.bind fun r => .ret (.dense r)

/-- `all(x, axis=axis, keepdims=keepdims)` and `any(…)`. -/
def LogicMethod (env : PyEnv V) (op : LogicOp) (axis : AxisArg) (keepdims : Bool) (x : PyObj V)
    (out : PyRes (NdArr Bool)) : Prop :=
  match x with
  | .nd _ => out = .raises (tupleShape axis)
  | x => Logic2d env op axis keepdims x out

/-! ### Programs -/

section
variable [Neg V] [HasFinite V] [HasFloor V] [HasPowf V] [HasAbs V] [HasNan V]

/-- A program whose value is reduced in the end. -/
def Prog.Reduce (env : PyEnv V) (op : RedOp V) (axis : AxisArg) (keepdims : Bool) (e : Prog V)
    (out : PyRes (RedOut V V)) : Prop :=
  ∃ o, e.Eval env o ∧ o.Then (RedMethod env op axis keepdims) out

/-- The same for `all` and `any`. -/
def Prog.Logic (env : PyEnv V) (op : LogicOp) (axis : AxisArg) (keepdims : Bool) (e : Prog V)
    (out : PyRes (NdArr Bool)) : Prop :=
  ∃ o, e.Eval env o ∧ o.Then (LogicMethod env op axis keepdims) out

end
end
end Lacuna
