import Verif.Model.PyClass
import Verif.Model.PyLinalg
import Verif.Model.PtrTranspose
import Verif.Model.PtrPrune
import Verif.Model.PtrNd
import Verif.Model.PtrNdAcc
import Verif.Model.PtrBroadcast
import Verif.Model.Scalar
import Verif.Model.NdMean
import Verif.Model.Unfold
/-
Python programs over all four classes `CSR`, `CSC`, `COO` and `COOND`: the element-wise functions
of the array API with their dispatch on the operand classes
(python/lacuna/array_api/_dispatch/elementwise.py 11–43, 93–103, 202–328), `reshape` and
`permute_dims` (_dispatch/manipulation.py 9–29), and the methods `T`, `prune`, `eliminate_zeros`,
`reduce_sum_axes`, `reduce_mean_axes`, `axes_unfold_to_*`, `mode_unfold_to_*`
(python/lacuna/sparse/{csr,csc,coo,coond}.py), each down to the pointer-level kernel.

Simplifications: as in Model/PyClass and Model/PyLinalg; scalars are Python floats; the number of
worker threads and the unspecified orders (unstable sorts, iteration over hash maps) are the same
at every step of a program (Model/PyVar drops this).
-/
namespace Lacuna
variable {V : Type}

/-! ### Objects -/

/-- An object of class `COO`: the attributes set by `__init__`. -/
structure PyCoo (V : Type) where
  nrows : Int
  ncols : Int
  row : List Int
  col : List Int
  data : List V
  /-- `self._handle` -/
  handle : Option (Coo V)

/-- `Coo64(…)` (types/coo.rs 19–37) and the first lines of the `*_coo_from_parts` functions. -/
def nativeCoo (nrows ncols : Int) (row col : List Int) (data : List V) (check : Bool) :
    Except PyErr (Coo V) := do
  let r ← pyUsize nrows
  let c ← pyUsize ncols
  (Coo.fromParts r c row col data check).mapError fun _ => .valueError

/-- `COO.__init__` (coo.py 62–76): a rejection by the native constructor is swallowed. -/
def PyCoo.new (nrows ncols : Int) (row col : List Int) (data : List V) (check : Bool) : PyCoo V :=
  ⟨nrows, ncols, row, col, data, (nativeCoo nrows ncols row col data check).toOption⟩

/-- The operand of a unary operator. -/
def PyCoo.operand (p : Path) (x : PyCoo V) : Except PyErr (Coo V) :=
  match p, x.handle with
  | .handle, some a => .ok a
  | .handle, none => .error .runtimeError
  | .handleElseParts, some a => .ok a
  | _, _ => nativeCoo x.nrows x.ncols x.row x.col x.data false

/-- A sparse object. -/
inductive PyObj (V : Type)
  | mat (f : Fmt) (x : PyMat V)
  | coo (x : PyCoo V)
  | nd (x : PyNd V)

/-- `return CSR(…, check=False)` or `CSC(…)`. -/
def wrapMat (f : Fmt) (c : Comp V) : PyRes (PyObj V) := (PyMat.wrap f c).bind fun x => .ret (.mat f x)
/-- `return COO(…, check=False)`. -/
def wrapCoo (c : Coo V) : PyRes (PyObj V) := .ret (.coo (PyCoo.new c.nrows c.ncols c.row c.col c.data false))
/-- `return COOND(…, check=False)`. -/
def wrapNd (c : CooNd V) : PyRes (PyObj V) := (PyNd.wrap c).bind fun x => .ret (.nd x)

/-- What the environment decides: build profile, worker threads, and the results of the unstable
sorts and of iterating over a hash map. -/
structure PyEnv (V : Type) where
  dbg : Bool
  threads : Nat
  pairSort : List (Int × V) → List (Int × V)
  tripleSort : List ((Int × Int) × V) → List ((Int × Int) × V)
  ndSort : List (Nat × V) → List (Nat × V)
  order : List Nat → List Nat → List Nat

/-! ### Arguments -/

/-- `np.asarray(xs, dtype=np.int64)`. -/
def npInt64 (xs : List Int) : Except PyErr (List Int) :=
  if ∀ x ∈ xs, -(2 ^ 63) ≤ x ∧ x ≤ i64Max then .ok xs else .error .overflowError

section
variable [Zero V] [One V] [Add V] [Sub V] [Mul V] [Div V] [Neg V] [BEq V] [NatCast V] [HasFinite V]
  [HasFloor V] [HasPowf V] [HasAbs V] [HasLt V] [HasNan V]

/-! ### Operations on the stored values -/

/-- Operations that change only the stored values. -/
inductive DataOp (V : Type)
  | mul (alpha : V) | abs | sign | floordiv (alpha : V) | rem (alpha : V) | pow (alpha : V)

/-- The loop over the stored values, the same in the four kernels of an operation
(multiply.rs 720–974, abs.rs 19–202, sign.rs 28–76, floor_divide.rs 296–345, remainder.rs 287–339,
power.rs 281–329).  All but the first two are safe code. -/
def DataOp.Run (N : Nat) (d : List V) (op : DataOp V) (out : Except Fault (List V)) : Prop :=
  match op with
  | .mul alpha => MulScalarPtrRun N alpha d out
  | .abs => AbsPtrRun N d out
  | .sign => out = .ok (chunkMapData signF d)
  | .floordiv alpha => out = .ok (chunkMapData (floordivBy alpha) d)
  | .rem alpha => out = .ok (chunkMapData (remBy alpha) d)
  | .pow alpha => out = .ok (chunkMapData (powBy alpha) d)

/-- Scalar multiplication goes through the handle (csr.py 376–405, csc.py 164–173, coo.py 167–177),
the others through the arrays (csr.py 412–424, 499–503, 576–608; csc.py 180–194, 261–265, 333–357;
coo.py 183–234). -/
def DataOp.path (op : DataOp V) (p : Path) : Path := match op with | .mul _ => p | _ => .parts

/-- The method on an object; the `*_coond_from_parts` bindings take the arrays (coond.py 343–408). -/
def DataMethod (op : DataOp V) (x : PyObj V) (out : PyRes (PyObj V)) : Prop :=
  match x with
  | .mat f x => (match operand f (op.path (scalePath f)) x with
    | .error e => out = .raises e
    | .ok a => ∃ o, Settles (fun N => op.Run N a.data) o ∧
        out = (PyRes.ofKernel o).bind fun d => wrapMat f { a with data := d })
  | .coo x => (match x.operand (op.path .handle) with
    | .error e => out = .raises e
    | .ok a => ∃ o, Settles (fun N => op.Run N a.data) o ∧
        out = (PyRes.ofKernel o).bind fun d => wrapCoo { a with data := d })
  | .nd x => (match x.parts with
    | .error e => out = .raises e
    | .ok a => ∃ o, Settles (fun N => op.Run N a.data) o ∧
        out = (PyRes.ofKernel o).bind fun d => wrapNd { a with data := d })

/-- `abs`, `negative`, `sign` (elementwise.py 11–29). -/
inductive UnOp
  | abs | neg | sign
deriving DecidableEq, Repr

/-- `-x` is `x * -1.0` (csr.py 409, csc.py 177, coo.py 181, coond.py 380–388). -/
def UnMethod (op : UnOp) (x : PyObj V) (out : PyRes (PyObj V)) : Prop :=
  match op with
  | .abs => DataMethod .abs x out
  | .neg => DataMethod (.mul (-1)) x out
  | .sign => DataMethod .sign x out

/-- Is it a `COOND`? -/
def PyObj.isNd : PyObj V → Bool
  | .nd _ => true
  | _ => false

/-- `x op alpha` (elementwise.py 32–43, 93–103, 202–328), through the operators `*`, `/`, `//`, `%`, `**` of
the classes (Model/PyOper). -/
def ScalarMethod (op : BinOp) (x : PyObj V) (alpha : V) (out : PyRes (PyObj V)) : Prop :=
  match op with
  | .add => out = .raises .notImplemented
  | .sub => out = .raises .notImplemented
  | .mul => if x.isNd then out = .raises .notImplemented else DataMethod (.mul alpha) x out
  | .div =>
    if x.isNd then out = .raises .notImplemented
    else if alpha == 0 then out = .raises .zeroDivision
    else DataMethod (.mul (1 / alpha)) x out
  | .floordiv => if alpha == 0 then out = .raises .zeroDivision else DataMethod (.floordiv alpha) x out
  | .rem => if alpha == 0 then out = .raises .zeroDivision else DataMethod (.rem alpha) x out
  | .pow => DataMethod (.pow alpha) x out

/-- `alpha op x`: only the product is implemented. -/
def ScalarLeft (op : BinOp) (alpha : V) (x : PyObj V) (out : PyRes (PyObj V)) : Prop :=
  match op with
  | .mul => if x.isNd then out = .raises .notImplemented else DataMethod (.mul alpha) x out
  | _ => out = .raises .notImplemented

/-- `x op y` for two sparse operands. -/
def BinObj (env : PyEnv V) (op : BinOp) (x y : PyObj V) (out : PyRes (PyObj V)) : Prop :=
  match x, y with
  | .mat f x, .mat g y =>
    if f = g then ∃ o, BinMethod env.dbg f op x y o ∧ out = o.bind fun r => .ret (.mat f r)
    else out = .raises .notImplemented
  | .nd x, .nd y =>
    if op = .mul then
      -- `hadamard_broadcast` (coond.py 240–268)
      (match (do let a ← x.parts; let b ← y.parts; pure (a, b) : Except PyErr (CooNd V × CooNd V)) with
      | .error e => out = .raises e
      | .ok (a, b) => ∃ o, Settles (fun N => BroadcastPtr env.dbg N env.order env.threads env.ndSort a b) o ∧
          out = (PyRes.ofKernel o).bind wrapNd)
    else out = .raises .notImplemented
  | _, _ => out = .raises .notImplemented

/-! ### Structure -/

/-- `x.T` (csr.py 297–319, csc.py 376–388, coo.py 249–261). -/
def TMethod (env : PyEnv V) (x : PyObj V) (out : PyRes (PyObj V)) : Prop :=
  match x with
  | .mat f x => (match operand f .handleElseParts x with
    | .error e => out = .raises e
    | .ok a => ∃ o, Settles (fun N => TransposePtr env.dbg (f = .csr) N env.pairSort env.threads a) o ∧
        out = (PyRes.ofKernel o).bind (wrapMat f))
  | .coo x => (match x.operand .handleElseParts with
    | .error e => out = .raises e
    | .ok a => out = wrapCoo (transposeCoo a))
  | .nd _ => out = .raises .attributeError

/-- `x.prune(eps)` (csr.py 321–348, csc.py 144–152, coo.py 144–155); `x.eliminate_zeros()` is the case
`eps = 0` (csr.py 350–374, csc.py 154–162, coo.py 157–165; eliminate_zeros.rs 7–24). -/
def PruneMethod (env : PyEnv V) (eps : V) (x : PyObj V) (out : PyRes (PyObj V)) : Prop :=
  match x with
  | .mat f x => (match operand f (match f with | .csr => .handleElseParts | .csc => .handle) x with
    | .error e => out = .raises e
    | .ok a => ∃ o, Settles (fun N => PrunePtr env.dbg N eps a) o ∧ out = (PyRes.ofKernel o).bind (wrapMat f))
  | .coo x => (match x.operand .handle with
    | .error e => out = .raises e
    | .ok a => out = wrapCoo (pruneCoo a eps))
  | .nd _ => out = .raises .attributeError

/-- The kernel behind `reduce_mean_axes` (mean.rs 48–70). -/
def ReduceMeanPtr (dbg : Bool) (F : Nat) (sort : List (Nat × V) → List (Nat × V)) (a : CooNd V) (axes : List Nat)
    (out : Except Fault (CooNd V)) : Prop :=
  match (do
      let r ← reduceSumNdP dbg F sort a axes
      let d ← expectP (productChecked (((List.range a.shape.length).filter fun d => axes.contains d).map
        fun d => a.shape.getD d 0))
      pure (r, d) : Except Fault (CooNd V × Nat)) with
  | .error x => out = .error x
  | .ok (r, d) =>
    if d = 1 then out = .ok r
    else ∃ o, MulScalarPtrRun F (1 / (d : V)) r.data o ∧ out = o.map fun v => { r with data := v }

/-- Methods of `COOND` with a list argument. -/
inductive NdOp
  /-- `xp.reshape(x, shape)`: manipulation.py 20–28, coond.py 222–238, manipulation.rs 186–217 -/
  | reshape
  /-- `xp.permute_dims(x, axes)`: manipulation.py 9–17, coond.py 176–197, manipulation.rs 20–51 -/
  | permute
  /-- `x.reduce_sum_axes(axes)`: coond.py 153–174, reduce.rs 1084–1114 -/
  | reduceSum
  /-- `x.reduce_mean_axes(axes)`: coond.py 199–220, reduce.rs 2027–2057 -/
  | reduceMean
  /-- `x.axes_unfold_to_csr(axes)`, `x.axes_unfold_to_csc(axes)`: coond.py 312–341, utility.rs 306–379 -/
  | unfold (f : Fmt)
deriving DecidableEq, Repr

/-- The conversion of the unfolded COO matrix (astype.rs 451–462), which is safe code, seen as
compressed lines. -/
def unfoldComp (sort : List ((Int × Int) × V) → List ((Int × Int) × V)) (f : Fmt) (c : Coo V) : Comp V :=
  match f with
  | .csr => (cooToCsr sort c).comp
  | .csc => (cooToCsc sort c).comp

/-- The kernel of such a method and the object made of its result. -/
def NdOp.Kernel (env : PyEnv V) (op : NdOp) (a : CooNd V) (arg : List Nat) (out : PyRes (PyObj V)) : Prop :=
  match op with
  | .reshape => ∃ o, ReshapePtr env.dbg a arg o ∧ out = (PyRes.ofKernel o).bind wrapNd
  | .permute => out = (PyRes.ofKernel (expectP (permuteNd a arg))).bind wrapNd
  | .reduceSum => ∃ o, Settles (fun N o => o = reduceSumNdP env.dbg N env.ndSort a arg) o ∧
      out = (PyRes.ofKernel o).bind wrapNd
  | .reduceMean => ∃ o, Settles (fun N => ReduceMeanPtr env.dbg N env.ndSort a arg) o ∧
      out = (PyRes.ofKernel o).bind wrapNd
  | .unfold f => ∃ o, UnfoldPtr env.dbg a arg o ∧
      out = (PyRes.ofKernel o).bind fun c => wrapMat f (unfoldComp env.tripleSort f c)

/-- What a class other than `COOND` answers. -/
def NdOp.missing : NdOp → PyErr
  | .reshape => .notImplemented
  | .permute => .notImplemented
  | _ => .attributeError

/-- Calling such a method. -/
def NdMethod (env : PyEnv V) (op : NdOp) (arg : List Int) (x : PyObj V) (out : PyRes (PyObj V)) : Prop :=
  match x with
  | .nd x => (match (do
        let xs ← npInt64 arg
        let s ← shapeUsize x.shape
        let xs ← shapeUsize xs
        let a ← (CooNd.fromParts s x.indices x.data false).mapError fun _ => .valueError
        pure (a, xs) : Except PyErr (CooNd V × List Nat)) with
    | .error e => out = .raises e
    | .ok (a, xs) => op.Kernel env a xs out)
  | _ => out = .raises op.missing

/-- `x.mode_unfold_to_csr(axis)`, `x.mode_unfold_to_csc(axis)` (coond.py 270–310, utility.rs 236–303,
astype.rs 471–488): the binding extracts a `usize`. -/
def ModeUnfold (env : PyEnv V) (f : Fmt) (axis : Int) (x : PyObj V) (out : PyRes (PyObj V)) : Prop :=
  match x with
  | .nd x => (match (do
        let ax ← pyUsize axis
        let a ← x.parts
        pure (a, ax) : Except PyErr (CooNd V × Nat)) with
    | .error e => out = .raises e
    | .ok (a, ax) =>
      if ax < a.shape.length then (NdOp.unfold f).Kernel env a [ax] out else out = .raises .panic)
  | _ => out = .raises .attributeError

/-! ### Programs -/

/-- Programs.  Literals are constructor calls with the default `check=True`. -/
inductive Prog (V : Type)
  | mat (f : Fmt) (nrows ncols : Int) (indptr indices : List Int) (data : List V)
  | coo (nrows ncols : Int) (row col : List Int) (data : List V)
  | nd (shape indices : List Int) (data : List V)
  | un (op : UnOp) (a : Prog V)
  | bin (op : BinOp) (a b : Prog V)
  | scalar (op : BinOp) (a : Prog V) (alpha : V)
  | left (op : BinOp) (alpha : V) (a : Prog V)
  | T (a : Prog V)
  | prune (eps : V) (a : Prog V)
  | elimZeros (a : Prog V)
  | ndop (op : NdOp) (arg : List Int) (a : Prog V)
  | mode (f : Fmt) (axis : Int) (a : Prog V)

/-- All outcomes of running a program (operands left to right). -/
def Prog.Eval (env : PyEnv V) : Prog V → PyRes (PyObj V) → Prop
  | .mat f nrows ncols indptr indices data, out =>
    out = (PyRes.ofExcept (PyMat.new f nrows ncols indptr indices data true)).bind fun x => .ret (.mat f x)
  | .coo nrows ncols row col data, out => out = .ret (.coo (PyCoo.new nrows ncols row col data true))
  | .nd shape indices data, out =>
    out = (PyRes.ofExcept (PyNd.new shape indices data)).bind fun x => .ret (.nd x)
  | .un op a, out => ∃ oa, a.Eval env oa ∧ oa.Then (UnMethod op) out
  | .bin op a b, out => ∃ oa, a.Eval env oa ∧ oa.Then (fun x out => ∃ ob, b.Eval env ob ∧
      ob.Then (fun y out => BinObj env op x y out) out) out
  | .scalar op a alpha, out => ∃ oa, a.Eval env oa ∧ oa.Then (fun x out => ScalarMethod op x alpha out) out
  | .left op alpha a, out => ∃ oa, a.Eval env oa ∧ oa.Then (ScalarLeft op alpha) out
  | .T a, out => ∃ oa, a.Eval env oa ∧ oa.Then (TMethod env) out
  | .prune eps a, out => ∃ oa, a.Eval env oa ∧ oa.Then (PruneMethod env eps) out
  | .elimZeros a, out => ∃ oa, a.Eval env oa ∧ oa.Then (PruneMethod env 0) out
  | .ndop op arg a, out => ∃ oa, a.Eval env oa ∧ oa.Then (NdMethod env op arg) out
  | .mode f axis a, out => ∃ oa, a.Eval env oa ∧ oa.Then (ModeUnfold env f axis) out

end

end Lacuna
