import Verif.Model.PtrElementwise
import Verif.Model.PtrSpmv
import Verif.Model.PtrSimd
import Verif.Model.Create
/-
The Python classes `CSR` and `CSC` (python/lacuna/sparse/{csr,csc}.py): construction with and
without validation, and the operators that reach the unsafe kernels.

An object keeps the NumPy arrays and, if the native constructor accepted them, a native copy
(`_handle`).  Each operator either uses the native copies, or passes the arrays to a
`*_from_parts` binding with `check=False`, or tries the first and falls back on the second.

Simplifications: the native core is present (`_core is not None`); `np.asarray` conversions
have been done, the arrays are contiguous and nobody writes to them after construction;
`shape` has two integers (`SparseMatrix.__init__` rejects anything else); operands are of the
same class.
-/
namespace Lacuna

variable {V : Type}

/-- Which class. -/
inductive Fmt
  | csr | csc
deriving DecidableEq, Repr

/-- An object of class `CSR` or `CSC`: the attributes set by `__init__`. -/
structure PyMat (V : Type) where
  nrows : Int
  ncols : Int
  indptr : List Int
  indices : List Int
  data : List V
  /-- `self._handle`: `None`, or the native matrix (as compressed lines). -/
  handle : Option (Comp V)

/-- Extraction of a `usize` argument from a Python `int` (PyO3). -/
def pyUsize (x : Int) : Except PyErr Nat :=
  if 0 ≤ x ∧ x ≤ usizeMax then .ok x.toNat else .error .overflowError

/-- Building a native matrix from Python arguments: `Csr64(…)` (types/csr.rs 20–40),
`Csc64(…)` (types/csc.rs 20–38) and the first lines of every `*_from_parts` function (e.g.
elementwise.rs 1111–1128, reduce.rs 109–117). -/
def nativeNew (f : Fmt) (nrows ncols : Int) (indptr indices : List Int) (data : List V)
    (check : Bool) : Except PyErr (Comp V) := do
  let r ← pyUsize nrows
  let c ← pyUsize ncols
  match f with
  | .csr => ((Csr.fromParts r c indptr indices data check).mapError fun _ => .valueError).map Csr.comp
  | .csc => ((Csc.fromParts r c indptr indices data check).mapError fun _ => .valueError).map Csc.comp

/-- `CSR.__init__` (csr.py 65–83) and `CSC.__init__` (csc.py 62–75).  `CSR` validates by a
throw-away call of `sum_from_parts(…, True)`, whose exception escapes, and then builds the
handle with `check=False`.  `CSC` passes `check` to the native constructor inside a
`try … except Exception`, so a rejected matrix becomes an object without a handle. -/
def PyMat.new (f : Fmt) (nrows ncols : Int) (indptr indices : List Int) (data : List V)
    (check : Bool) : Except PyErr (PyMat V) :=
  match f with
  | .csr => do
    if check then
      let _ ← nativeNew .csr nrows ncols indptr indices data true
    pure ⟨nrows, ncols, indptr, indices, data,
      (nativeNew .csr nrows ncols indptr indices data false).toOption⟩
  | .csc => pure ⟨nrows, ncols, indptr, indices, data,
      (nativeNew .csc nrows ncols indptr indices data check).toOption⟩

/-- Outcome of a Python call that runs native code: it returns, raises, or has undefined
behaviour, or never comes back. -/
inductive PyRes (α : Type)
  | ret (x : α)
  | raises (e : PyErr)
  | ub
  | hang

/-- A kernel outcome seen from Python (a panic is a `PanicException`). -/
def PyRes.ofKernel {α : Type} : Except Fault α → PyRes α
  | .ok x => .ret x
  | .error .panic => .raises .panic
  | .error .ub => .ub
  | .error .fuel => .hang

/-- Exceptions as outcomes. -/
def PyRes.ofExcept {α : Type} : Except PyErr α → PyRes α
  | .ok x => .ret x
  | .error e => .raises e

/-- Sequencing. -/
def PyRes.bind {α β : Type} (r : PyRes α) (k : α → PyRes β) : PyRes β :=
  match r with
  | .ret x => k x
  | .raises e => .raises e
  | .ub => .ub
  | .hang => .hang

/-- Sequencing with a relation. -/
def PyRes.Then {α β : Type} (r : PyRes α) (k : α → PyRes β → Prop) (out : PyRes β) : Prop :=
  match r with
  | .ret x => k x out
  | .raises e => out = .raises e
  | .ub => out = .ub
  | .hang => out = .hang

/-- The outcome of a kernel with loop bound `N`, once `N` is large enough. -/
def Settles {α : Type} (run : Nat → α → Prop) (out : α) : Prop := ∃ N₀, ∀ N, N₀ ≤ N → run N out

/-- How an operator gets at the matrices it passes to the kernel. -/
inductive Path
  /-- `if ha is not None and hb is not None: … else raise RuntimeError` -/
  | handle
  /-- `if ha is not None and hb is not None: …`, otherwise `*_from_parts(…, False)` -/
  | handleElseParts
  /-- `*_from_parts(…, False)` always -/
  | parts
deriving DecidableEq, Repr

/-- The binary operators. -/
inductive BinOp
  | add | sub | mul | div | floordiv | rem | pow
deriving DecidableEq, Repr

/-- csr.py: `__add__` 426–470, `divide` 472–497, `remainder` 505–525, `power` 527–547,
`floor_divide` 549–574, `__sub__` 610–635, `multiply` 637–663.
csc.py: `__add__` 196–207, `__sub__` 209–220, `multiply` 222–233, `divide` 235–259,
`remainder` 267–285, `power` 287–305, `floor_divide` 307–331. -/
def binPath : Fmt → BinOp → Path
  | .csr, .rem => .parts
  | .csr, .pow => .parts
  | .csr, _ => .handleElseParts
  | .csc, .add => .handle
  | .csc, .sub => .handle
  | .csc, .mul => .handle
  | .csc, .div => .handleElseParts
  | .csc, .floordiv => .handleElseParts
  | .csc, .rem => .parts
  | .csc, .pow => .parts

/-- `__mul__` by a scalar: csr.py 376–405, csc.py 164–173. -/
def scalePath : Fmt → Path
  | .csr => .handleElseParts
  | .csc => .handle

/-- The arrays of the object through a binding called with `check=False`. -/
def PyMat.parts (f : Fmt) (x : PyMat V) : Except PyErr (Comp V) :=
  nativeNew f x.nrows x.ncols x.indptr x.indices x.data false

/-- The operand of a unary operator. -/
def operand (f : Fmt) (p : Path) (x : PyMat V) : Except PyErr (Comp V) :=
  match p, x.handle with
  | .handle, some a => .ok a
  | .handle, none => .error .runtimeError
  | .handleElseParts, some a => .ok a
  | .handleElseParts, none => x.parts f
  | .parts, _ => x.parts f

/-- The operands of a binary operator. -/
def operands (f : Fmt) (p : Path) (x y : PyMat V) : Except PyErr (Comp V × Comp V) :=
  match p, x.handle, y.handle with
  | .handle, some a, some b => .ok (a, b)
  | .handle, _, _ => .error .runtimeError
  | .handleElseParts, some a, some b => .ok (a, b)
  | _, _, _ => do
    let a ← x.parts f
    let b ← y.parts f
    pure (a, b)

/-- Rows and columns of compressed lines. -/
def Fmt.rows (f : Fmt) (c : Comp V) : Nat := match f with | .csr => c.n | .csc => c.m
def Fmt.cols (f : Fmt) (c : Comp V) : Nat := match f with | .csr => c.m | .csc => c.n

/-- The two result vectors of 8-byte elements fit into memory. -/
def Comp.Alloc (c : Comp V) : Prop :=
  8 * (c.indices.length : Int) ≤ i64Max ∧ 8 * (c.data.length : Int) ≤ i64Max
instance (c : Comp V) : Decidable c.Alloc := inferInstanceAs (Decidable (_ ∧ _))

/-- `return CSR(ci, cj, cv, (cr, cc), check=False)` (or `CSC`).  A result too large for memory
is a "capacity overflow" panic of `vec![…; nnz]`; the model reports it here instead of at the
allocation. -/
def PyMat.wrap (f : Fmt) (c : Comp V) : PyRes (PyMat V) :=
  if c.Alloc then .ofExcept (PyMat.new f (f.rows c) (f.cols c) c.indptr c.indices c.data false)
  else .raises .panic

section
variable [Zero V] [One V] [Add V] [Sub V] [Mul V] [Div V] [BEq V] [HasFinite V] [HasFloor V]
  [HasPowf V] [HasAbs V]

/-- Counting pass of each kernel (loop bound `F`). -/
def BinOp.countP (op : BinOp) (F : Nat) : RowArgs V → Except Fault Nat :=
  match op with
  | .add => addRowCountP F
  | .sub => subRowCountP F
  | .mul => interCountP hadamardKeep F
  | .div => interCountP divKeep F
  | .floordiv => interCountP floordivKeep F
  | .rem => interCountP remKeep F
  | .pow => interCountP powKeep F

/-- Fill pass of each kernel. -/
def BinOp.fillP (op : BinOp) (F : Nat) : RowArgs V → MutPtr → MutPtr → Except Fault (Nat × Stores V) :=
  match op with
  | .add => addRowFillP F
  | .sub => subRowFillP F
  | .mul => interFillP hadamardCell F
  | .div => interFillP divCell F
  | .floordiv => interFillP floordivCell F
  | .rem => interFillP remCell F
  | .pow => interFillP powCell F

/-- A binary operator of the class. -/
def BinMethod (dbg : Bool) (f : Fmt) (op : BinOp) (x y : PyMat V) (out : PyRes (PyMat V)) : Prop :=
  match operands f (binPath f op) x y with
  | .error e => out = .raises e
  | .ok (a, b) => ∃ o, Settles (fun N => BinPtrRun dbg (op.countP N) (op.fillP N) a b) o ∧
      out = (PyRes.ofKernel o).bind (PyMat.wrap f)

/-- `x * alpha`. -/
def ScaleMethod (f : Fmt) (alpha : V) (x : PyMat V) (out : PyRes (PyMat V)) : Prop :=
  match operand f (scalePath f) x with
  | .error e => out = .raises e
  | .ok a => ∃ o, Settles (fun N => MulScalarPtrRun N alpha a.data) o ∧
      out = (PyRes.ofKernel o).bind fun d => PyMat.wrap f { a with data := d }

/-- `abs(x)` (csr.py 412–417, csc.py 180–186): always through the arrays. -/
def AbsMethod (f : Fmt) (x : PyMat V) (out : PyRes (PyMat V)) : Prop :=
  match operand f .parts x with
  | .error e => out = .raises e
  | .ok a => ∃ o, Settles (fun N => AbsPtrRun N a.data) o ∧
      out = (PyRes.ofKernel o).bind fun d => PyMat.wrap f { a with data := d }

/-- Programs: expressions over one class.  A literal is a constructor call with the default
`check=True`. -/
inductive MatExpr (V : Type)
  | lit (nrows ncols : Int) (indptr indices : List Int) (data : List V)
  | bin (op : BinOp) (a b : MatExpr V)
  | scale (alpha : V) (a : MatExpr V)
  | abs (a : MatExpr V)

/-- All outcomes of evaluating an expression (operands left to right). -/
def MatExpr.Eval (dbg : Bool) (f : Fmt) : MatExpr V → PyRes (PyMat V) → Prop
  | .lit nrows ncols indptr indices data, out =>
    out = .ofExcept (PyMat.new f nrows ncols indptr indices data true)
  | .bin op a b, out => ∃ oa, a.Eval dbg f oa ∧ oa.Then (fun x out => ∃ ob, b.Eval dbg f ob ∧
      ob.Then (fun y out => BinMethod dbg f op x y out) out) out
  | .scale alpha a, out => ∃ oa, a.Eval dbg f oa ∧ oa.Then (fun x out => ScaleMethod f alpha x out) out
  | .abs a, out => ∃ oa, a.Eval dbg f oa ∧ oa.Then (fun x out => AbsMethod f x out) out

/-- `x @ v` for a one-dimensional `v` on a `CSR` object (csr.py 235–245): native copy if there
is one, otherwise `spmv_from_parts(…, False)`. -/
def MatVecMethod [HasFma V] (dbg : Bool) (v : List V) (x : PyMat V) (out : PyRes (List V)) : Prop :=
  if (v.length : Int) ≠ x.ncols then out = .raises .valueError
  else match operand .csr .handleElseParts x with
    | .error e => out = .raises e
    | .ok a => ∃ o, Settles (fun N => SpmvPtrRun dbg N a.toCsr v) o ∧ out = PyRes.ofKernel o

end

end Lacuna
