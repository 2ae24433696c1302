import Verif.Model.PyStat
import Verif.Model.PtrCumulative
import Verif.Model.PtrDiff
/-
Cumulative sums and products, differences and counts of objects of the four classes: `cumsum`, `cumprod`,
`diff` (python/lacuna/array_api/_dispatch/reductions.py 477–592) and `count_nonzero`
(python/lacuna/array_api/_dispatch/searching.py 11–67), from the arguments down to the pointer-level
kernels, and as the last step of a program.

Simplifications: as in Model/PyStat; the shape of a counted matrix is not negative; `count_nonzero` of a
`COOND`, which goes to NumPy unguarded, is not modelled.
-/
namespace Lacuna
variable {V : Type}

/-! ### Cumulative sums and products -/

/-- `cumsum` and `cumprod`. -/
inductive ScanOp
  | sum | prod
deriving DecidableEq, Repr

/-- `Array2::from_shape_vec((nrows, ncols), buf)` and its error as a `ValueError` (reduce.rs 1148–1150 and
five times more): the nonzero extents must multiply within `isize`, and the buffer must have one
element per cell.  This is what the ndarray library, which is not in the repository, is assumed to check. -/
def scanArray (n m : Nat) (buf : List V) : PyRes (NdArr V) :=
  if ((if n = 0 then 1 else n) * (if m = 0 then 1 else m) : Nat) ≤ i64Max ∧ buf.length = n * m then .ret ⟨[n, m], buf⟩
  else .raises .valueError

section
variable [Zero V] [One V] [Add V] [Mul V]

/-- The kernels on CSR along the rows (`axis = 1`) or down the columns. -/
def ScanOp.Kernel (env : PyEnv V) (op : ScanOp) (rowwise : Bool) (N : Nat) (a : Csr V) (out : Except Fault (List V)) : Prop :=
  match op, rowwise with
  | .sum, true => CumsumAxis1Ptr env.dbg N a out
  | .sum, false => CumsumAxis0Ptr env.dbg N env.pairSort env.threads a out
  | .prod, true => CumprodAxis1Ptr env.dbg N a out
  | .prod, false => CumprodAxis0Ptr env.dbg N env.pairSort env.threads a out

/-- `cumsum_*_from_parts_dense`, `cumprod_*_from_parts_dense` (reduce.rs 1119–1331): CSC and COO are converted
to CSR first; the conversion of COO is safe code. -/
def ScanOp.Run (env : PyEnv V) (op : ScanOp) (rowwise : Bool) (N : Nat) : Native V → Except Fault (List V) → Prop
  | .csr a => op.Kernel env rowwise N a
  | .csc a => fun out => ∃ oc, CscToCsrPtr env.dbg a oc ∧
      (match oc with
      | .error x => out = .error x
      | .ok c => op.Kernel env rowwise N c out)
  | .coo a => op.Kernel env rowwise N (cooToCsr env.tripleSort a)

/-- `cumsum(x, axis=axis)` and `cumprod(x, axis=axis)` (reductions.py 515–592). -/
def ScanMethod (env : PyEnv V) (op : ScanOp) (axis : AxisArg) (x : PyObj V) (out : PyRes (NdArr V)) : Prop :=
  match x with
  | .nd _ => out = .raises .notImplemented
  | x => (match normalizeAxes2d axis with
    | .error e => out = .raises e
    | .ok norm =>
      if norm = none ∨ norm = some [] then out = .raises .notImplemented
      else if norm = some [0] then
        ∃ p, NativeCall (x.native (fun _ => .parts) .parts) (fun N a => op.Run env false N a) p ∧
          out = p.bind (scanArray x.dims.1 x.dims.2)
      else if norm = some [1] then
        ∃ p, NativeCall (x.native (fun _ => .parts) .parts) (fun N a => op.Run env true N a) p ∧
          out = p.bind (scanArray x.dims.1 x.dims.2)
      else out = .raises .valueError)

end

/-! ### Differences -/

section
variable [Zero V] [Add V] [Neg V] [BEq V]

/-- The kernels on CSR (diff.rs 99–191). -/
def DiffKernel (env : PyEnv V) (rowwise : Bool) (n N : Nat) (a : Csr V) (out : Except Fault (Csr V)) : Prop :=
  if rowwise then DiffCsrAxis1Ptr env.dbg N env.ndSort n a out
  else DiffCsrAxis0Ptr env.dbg N env.ndSort env.pairSort env.threads n a out

/-- `diff_coo_axis*_f64_i64` (diff.rs 214–229): through CSR and back. -/
def DiffCooKernel (env : PyEnv V) (rowwise : Bool) (n N : Nat) (a : Coo V) (out : Except Fault (Coo V)) : Prop :=
  ∃ ob, DiffKernel env rowwise n N (cooToCsr env.tripleSort a) ob ∧
    match ob with
    | .error x => out = .error x
    | .ok b => CsrToCooPtr env.dbg b out

/-- The arguments of the bindings (manipulation.rs 56–183): all of them are converted, among them `n`, before the
lengths of the arrays are checked; the shape and `n` fail with the same error. -/
def diffArgs {α : Type} (a : Except PyErr α) (n : Int) : Except PyErr (α × Nat) := do
  let n ← pyUsize n
  let a ← a
  pure (a, n)

/-- `diff(x, n=n, axis=axis)` (reductions.py 477–512). -/
def DiffMethod (env : PyEnv V) (n axis : Int) (x : PyObj V) (out : PyRes (PyObj V)) : Prop :=
  match x with
  | .nd _ => out = .raises .notImplemented
  | x =>
    if ¬ (axis = -2 ∨ axis = -1 ∨ axis = 0 ∨ axis = 1) then out = .raises .valueError
    else
      let rowwise := (if axis < 0 then 2 + axis else axis) ≠ 0
      (match x with
      | .mat .csr x => (match diffArgs (operand .csr .parts x) n with
        | .error e => out = .raises e
        | .ok (a, n) => ∃ o, Settles (fun N => DiffKernel env rowwise n N a.toCsr) o ∧
            out = (PyRes.ofKernel o).bind fun r => wrapMat .csr r.comp)
      | .mat .csc x => (match diffArgs (operand .csc .parts x) n with
        | .error e => out = .raises e
        | .ok (a, n) => ∃ o, Settles (fun N => DiffCscPtr env.dbg (DiffKernel env rowwise n N) a.toCsc) o ∧
            out = (PyRes.ofKernel o).bind fun r => wrapMat .csc r.comp)
      | .coo x => (match diffArgs (x.operand .parts) n with
        | .error e => out = .raises e
        | .ok (a, n) => ∃ o, Settles (fun N => DiffCooKernel env rowwise n N a) o ∧
            out = (PyRes.ofKernel o).bind wrapCoo)
      | .nd _ => out = .raises .notImplemented)

end

/-! ### Counting -/

/-- `count_nonzero(x, axis=axis, keepdims=keepdims)`: computed by NumPy from the arrays of the object. -/
def CountMethod (axis : AxisArg) (keepdims : Bool) (x : PyObj V) (out : PyRes (NdArr Int)) : Prop :=
  match x with
  | .mat .csr x => out = .ofExcept
      (countNonzeroCsr (⟨x.nrows.toNat, x.ncols.toNat, x.indptr, x.indices, x.data⟩ : Csr V) axis keepdims)
  | .mat .csc x => out = .ofExcept
      (countNonzeroCsc (⟨x.nrows.toNat, x.ncols.toNat, x.indptr, x.indices, x.data⟩ : Csc V) axis keepdims)
  | .coo x => out = .ofExcept
      (countNonzeroCoo (⟨x.nrows.toNat, x.ncols.toNat, x.row, x.col, x.data⟩ : Coo V) axis keepdims)
  | .nd _ => True

/-! ### Programs -/

section
variable [Zero V] [One V] [Add V] [Sub V] [Mul V] [Div V] [Neg V] [BEq V] [NatCast V] [HasFinite V]
  [HasFloor V] [HasPowf V] [HasAbs V] [HasLt V] [HasNan V]

/-- A program with `cumsum` or `cumprod` in the end. -/
def Prog.Scan (env : PyEnv V) (op : ScanOp) (axis : AxisArg) (e : Prog V) (out : PyRes (NdArr V)) : Prop :=
  ∃ o, e.Eval env o ∧ o.Then (ScanMethod env op axis) out

/-- A program with `diff` in the end. -/
def Prog.Diff (env : PyEnv V) (n axis : Int) (e : Prog V) (out : PyRes (PyObj V)) : Prop :=
  ∃ o, e.Eval env o ∧ o.Then (DiffMethod env n axis) out

/-- A program with `count_nonzero` in the end. -/
def Prog.Count (env : PyEnv V) (axis : AxisArg) (keepdims : Bool) (e : Prog V) (out : PyRes (NdArr Int)) : Prop :=
  ∃ o, e.Eval env o ∧ o.Then (CountMethod axis keepdims) out

end
end Lacuna
