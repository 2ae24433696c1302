import Verif.Model.Create
import Verif.Model.NdMean
import Verif.Model.Stats
/-
The reduction front end of the Python layer: python/lacuna/array_api/_dispatch/reductions.py and
_dispatch/searching.py.

A NumPy array is its shape and its row-major contents; a Python scalar is an array of shape `[]`.
The compiled kernels are parameters here (their results are specified in `Props/Sums`,
`Props/Prod`, …): every kernel has its own model.
-/
namespace Lacuna
universe u
variable {V : Type u}

/-- The `axis` argument: `None`, an integer, or a list/tuple of integers. -/
inductive AxisArg
  | none
  | one (a : Int)
  | many (as : List Int)
deriving DecidableEq, Repr

/-- A dense NumPy array (a scalar has shape `[]`). -/
structure NdArr (V : Type u) where
  shape : List Nat
  data : List V
deriving DecidableEq, Repr

/-- `arr.reshape(shape)` (NumPy): the sizes must agree. -/
def npReshape (a : NdArr V) (shape : List Nat) : Except PyErr (NdArr V) :=
  if shape.prod = a.data.length then .ok ⟨shape, a.data⟩ else .error .valueError

/-- `tuple(sorted(norm))` for distinct integers: repeated insertion. -/
def insertAxis (a : Int) : List Int → List Int
  | [] => [a]
  | b :: l => if a ≤ b then a :: b :: l else b :: insertAxis a l

/-- `sorted`. -/
def sortAxes : List Int → List Int
  | [] => []
  | a :: l => insertAxis a (sortAxes l)

/-- The loop of `_normalize_axes_2d` (reductions.py 21–28, searching.py 80–87). -/
def normLoop2d : List Int → List Int → Except PyErr (List Int)
  | norm, [] => .ok (sortAxes norm)
  | norm, a :: as =>
    let a := if a < 0 then 2 + a else a
    if a ≠ 0 ∧ a ≠ 1 then .error .valueError
    else if norm.contains a then normLoop2d norm as else normLoop2d (norm ++ [a]) as

/-- `_normalize_axes_2d` (reductions.py 12–29, searching.py 70–87). -/
def normalizeAxes2d : AxisArg → Except PyErr (Option (List Int))
  | .none => .ok Option.none
  | .one a => (normLoop2d [] [a]).map some
  | .many as => if as.length = 0 then .ok (some []) else (normLoop2d [] as).map some

/-- The loop of `_normalize_axes_nd` (reductions.py 41–48). -/
def normLoopNd (ndim : Nat) : List Int → List Int → Except PyErr (List Int)
  | norm, [] => .ok (sortAxes norm)
  | norm, a :: as =>
    let a := if a < 0 then ndim + a else a
    if ¬ (0 ≤ a ∧ a < ndim) then .error .valueError
    else if norm.contains a then normLoopNd ndim norm as else normLoopNd ndim (norm ++ [a]) as

/-- `_normalize_axes_nd` (reductions.py 32–49). -/
def normalizeAxesNd (ndim : Nat) : AxisArg → Except PyErr (Option (List Int))
  | .none => .ok Option.none
  | .one a => (normLoopNd ndim [] [a]).map some
  | .many as => if as.length = 0 then .ok (some []) else (normLoopNd ndim [] as).map some

/-- The common body of `sum`, `mean`, `prod`, `var`, `std`, `all`, `any`, `min`, `max`
(reductions.py 77–94, 116–133, 155–208, …) and `count_nonzero` (searching.py 11–64) for a 2-D
input: `glob` is the call that reduces everything, `cols` the one for axis 0 (one result per
column), `rows` the one for axis 1. -/
def reduce2d (nrows ncols : Nat) (glob : Except PyErr V) (cols rows : Except PyErr (List V))
    (axis : AxisArg) (keepdims : Bool) : Except PyErr (NdArr V) :=
  (normalizeAxes2d axis).bind fun norm =>
  if norm = none ∨ norm = some [0, 1] then
    glob.bind fun s => if keepdims then npReshape ⟨[], [s]⟩ [1, 1] else .ok ⟨[], [s]⟩
  else if norm = some [] then .error .notImplemented
  else if norm = some [0] then
    cols.bind fun v => if keepdims then npReshape ⟨[v.length], v⟩ [1, ncols] else .ok ⟨[v.length], v⟩
  else if norm = some [1] then
    rows.bind fun v => if keepdims then npReshape ⟨[v.length], v⟩ [nrows, 1] else .ok ⟨[v.length], v⟩
  else .error .valueError

/-- `row_alls_coo_from_parts`, `row_anys_coo_from_parts` (crates/lacuna-py/src/array_api/reduce.rs
441–463, 489–511): the COO matrix is converted to CSR first. -/
def rowAllsCoo [Zero V] [Add V] [BEq V] (tsort : List ((Int × Int) × V) → List ((Int × Int) × V)) (a : Coo V) : List Bool :=
  lineAlls (cooToCsr tsort a).comp
def rowAnysCoo [Zero V] [Add V] [BEq V] (tsort : List ((Int × Int) × V) → List ((Int × Int) × V)) (a : Coo V) : List Bool :=
  lineAnys (cooToCsr tsort a).comp

/-- `col_alls_coo_from_parts`, `col_anys_coo_from_parts` (reduce.rs 465–487, 513–535). -/
def ColAllsCooRun [Zero V] [Add V] [BEq V] (tsort : List ((Int × Int) × V) → List ((Int × Int) × V))
    (sort : List (Int × V) → List (Int × V)) (threads : Nat) (a : Coo V) (y : List Bool) : Prop :=
  ColAllsRun sort threads (cooToCsr tsort a) y
def ColAnysCooRun [Zero V] [Add V] [BEq V] (tsort : List ((Int × Int) × V) → List ((Int × Int) × V))
    (sort : List (Int × V) → List (Int × V)) (threads : Nat) (a : Coo V) (y : List Bool) : Prop :=
  ColAnysRun sort threads (cooToCsr tsort a) y

/-- `float(a) / float(b)` of Python: division by zero raises. -/
def pyFloatDiv [Zero V] [Div V] [BEq V] (a b : V) : Except PyErr V :=
  if b == 0 then .error .zeroDivision else .ok (a / b)

/-- `mean` of a 2-D input (reductions.py 116–133): the sums divided by Python floats (scalar
case) and by NumPy (array cases, no exception). -/
def pyMean2d [Zero V] [Div V] [NatCast V] [BEq V] (nrows ncols : Nat) (glob : V) (cols rows : List V) :
    AxisArg → Bool → Except PyErr (NdArr V) :=
  reduce2d nrows ncols (pyFloatDiv glob ((nrows * ncols : Nat) : V))
    (.ok (cols.map fun s => s / (nrows : V))) (.ok (rows.map fun s => s / (ncols : V)))

/-- `np.diff(indptr)`. -/
def npDiff : List Int → List Int
  | a :: b :: l => (b - a) :: npDiff (b :: l)
  | _ => []

/-- `np.bincount(xs, minlength=n)` (NumPy): negative numbers raise; otherwise the number of
occurrences of `0, 1, …` up to `n - 1` or the largest element. -/
def npBincount (xs : List Int) (n : Nat) : Except PyErr (List Int) :=
  if xs.any (· < 0) then .error .valueError
  else .ok ((List.range (xs.foldl (fun (m : Nat) x => max m (x.toNat + 1)) n)).map fun (j : Nat) => (xs.count (j : Int) : Int))

/-- `count_nonzero` of a CSR matrix (searching.py 12–28). -/
def countNonzeroCsr (a : Csr V) : AxisArg → Bool → Except PyErr (NdArr Int) :=
  reduce2d a.nrows a.ncols (.ok (a.data.length : Int)) (npBincount a.indices a.ncols) (.ok (npDiff a.indptr))

/-- `count_nonzero` of a CSC matrix (searching.py 30–46). -/
def countNonzeroCsc (a : Csc V) : AxisArg → Bool → Except PyErr (NdArr Int) :=
  reduce2d a.nrows a.ncols (.ok (a.data.length : Int)) (.ok (npDiff a.indptr)) (npBincount a.indices a.nrows)

/-- `count_nonzero` of a COO matrix (searching.py 48–64). -/
def countNonzeroCoo (a : Coo V) : AxisArg → Bool → Except PyErr (NdArr Int) :=
  reduce2d a.nrows a.ncols (.ok (a.data.length : Int)) (npBincount a.col a.ncols) (npBincount a.row a.nrows)

/-- `_coond_with_keepdims` (reductions.py 52–74).  `new_idx[:, rem_axes] = idx` scatters column
`q` of the reduced index to column `rem_axes[q]`; the other columns keep their zeros.  The shape
iterator is read once per remaining axis. -/
def coondKeepdims (ndim : Nat) (reduced : CooNd V) (axes : List Nat) : CooNd V :=
  let rem := (List.range ndim).filter fun d => !(axes.contains d)
  let nnz := reduced.data.length
  if rem.length = 0 then ⟨(List.range ndim).map fun _ => 1, [], reduced.data⟩
  else
    ⟨(List.range ndim).map fun d => if axes.contains d then 1 else reduced.shape.getD (rem.idxOf d) 0,
     (List.range nnz).flatMap fun k => (List.range ndim).map fun d =>
       if rem.contains d then reduced.indices.getD (k * rem.length + rem.idxOf d) 0 else 0,
     reduced.data⟩

/-- `list(norm)` passed as `np.int64` axes and converted by `convert_axes`
(crates/lacuna-py/src/array_api/helpers.rs); after normalisation every axis is non-negative. -/
def axesToUsize (norm : List Int) : List Nat := norm.map Int.toNat

/-- Result of a COOND reduction: a scalar array or a sparse array. -/
inductive NdOut (V : Type u)
  | dense (a : NdArr V)
  | sparse (a : CooNd V)
deriving DecidableEq, Repr

/-- The COOND branch of `sum` and `mean` (reductions.py 95–110, 135–150): `glob` is `x.sum()` /
`x.mean()`, `part axes` is `x.reduce_sum_axes(axes)` / `x.reduce_mean_axes(axes)` (`none`: the
kernel panics). -/
def reduceCoond (a : CooNd V) (glob : V) (part : List Nat → Option (CooNd V)) (axis : AxisArg) (keepdims : Bool) :
    Except PyErr (NdOut V) :=
  (normalizeAxesNd a.shape.length axis).bind fun norm =>
  match norm with
  | none =>
    if keepdims then (npReshape ⟨[], [glob]⟩ (a.shape.map fun _ => 1)).map NdOut.dense else .ok (.dense ⟨[], [glob]⟩)
  | some [] => .error .notImplemented
  | some (d :: ds) =>
    match part (axesToUsize (d :: ds)) with
    | none => .error .panic
    | some r => .ok (.sparse (if keepdims then coondKeepdims a.shape.length r (axesToUsize (d :: ds)) else r))

end Lacuna
