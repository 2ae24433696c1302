import Verif.Model.Create
import Verif.Model.TwoPass
/-
Read access from Python: `CSR.__getitem__` and `CSR.toarray` (python/lacuna/sparse/csr.py
664–736), `CSC.toarray` (csc.py 365–374), `COO.toarray` (coo.py 236–247), the densification of
`COOND` arrays used by the comparison functions and the comparison functions themselves
(python/lacuna/array_api/_dispatch/elementwise.py 45–199).

numpy is modelled by its documented behaviour: negative subscripts count from the end, slices
are clamped, assignment through an index array performs the assignments in order (the last one
wins), a right-hand side of length one is repeated.  `np.searchsorted` is a parameter: the
theorems hold for every function meeting its documentation (`IsSearchSorted`).  A dense
two-dimensional array is the row-major list of its cells.
-/
namespace Lacuna
universe u
variable {V : Type u}

/-- Resolution of the subscript `i` of an axis of length `len`: negative subscripts count from
the end, anything outside `[-len, len)` is an `IndexError`. -/
def pyPos (len : Nat) (i : Int) : Option Nat :=
  if 0 ≤ i then (if i < len then some i.toNat else none)
  else if -(len : Int) ≤ i then some (i + len).toNat else none

/-- `arr[i]`. -/
def pyGet {α : Type u} (l : List α) (i : Int) : Except PyErr α :=
  match (pyPos l.length i).bind fun p => l[p]? with
  | some x => .ok x
  | none => .error .indexError

/-- One end of the slice `arr[s:e]`: negative ends count from the end, then both are clamped. -/
def pyClamp (len : Nat) (i : Int) : Nat :=
  if i < 0 then (i + len).toNat else min i.toNat len

/-- `arr[s:e]`. -/
def pySlice {α : Type u} (l : List α) (s e : Int) : List α :=
  (l.drop (pyClamp l.length s)).take (pyClamp l.length e - pyClamp l.length s)

/-- `out[ps] = vals` once the subscripts have been resolved (`none` marks one out of range). -/
def assignAt (out : List V) (ps : List (Option Nat)) (vals : List V) : Except PyErr (List V) :=
  match ps.mapM id with
  | none => .error .indexError
  | some ps =>
    if vals.length = ps.length then .ok (applyWrites out (ps.zip vals))
    else match vals with
      | [v] => .ok (applyWrites out (ps.map fun p => (p, v)))
      | _ => .error .valueError

/-- Cell `(i, j)` of a row-major array of shape `(nrows, ncols)`. -/
def cellPos (nrows ncols : Nat) (i j : Int) : Option Nat :=
  (pyPos nrows i).bind fun r => (pyPos ncols j).map fun c => r * ncols + c

/-- The lookup shared by `a[i, j]` and `a[:, j]` (csr.py 693–699 and 713–716):
`some` is a hit. -/
def lookupCsr (search : List Int → Int → Nat) (a : Csr V) (s e j : Int) : Except PyErr (Option V) :=
  let rowIdx := pySlice a.indices s e
  let pos := search rowIdx j
  if pos < rowIdx.length ∧ rowIdx.getD pos 0 = j then
    match pyGet a.data (s + pos) with
    | .ok v => .ok (some v)
    | .error x => .error x
  else .ok none

/-- `a[i, j]` (csr.py 686–699). -/
def getItemCsr [Zero V] (search : List Int → Int → Nat) (a : Csr V) (i j : Int) : Except PyErr V :=
  if ¬ (0 ≤ i ∧ i < a.nrows ∧ 0 ≤ j ∧ j < a.ncols) then .error .indexError
  else
    (pyGet a.indptr i).bind fun s =>
    (pyGet a.indptr (i + 1)).bind fun e =>
    (lookupCsr search a s e j).map fun hit => hit.getD 0

/-- `a[i, :]` (csr.py 700–706). -/
def getRowCsr [Zero V] (a : Csr V) (i : Int) : Except PyErr (List V) :=
  (pyGet a.indptr i).bind fun s =>
  (pyGet a.indptr (i + 1)).bind fun e =>
  assignAt (List.replicate a.ncols 0) ((pySlice a.indices s e).map (pyPos a.ncols)) (pySlice a.data s e)

/-- `a[:, j]` (csr.py 707–717). -/
def getColCsr [Zero V] (search : List Int → Int → Nat) (a : Csr V) (j : Int) : Except PyErr (List V) :=
  (List.range a.nrows).mapM fun (r : Nat) =>
    (pyGet a.indptr r).bind fun s =>
    (pyGet a.indptr ((r : Int) + 1)).bind fun e =>
    (lookupCsr search a s e j).map fun hit => hit.getD 0

/-- `CSR.toarray` (csr.py 720–736). -/
def toarrayCsr [Zero V] (a : Csr V) : Except PyErr (List V) :=
  (List.range a.nrows).foldlM (fun out (i : Nat) =>
    (pyGet a.indptr i).bind fun s =>
    (pyGet a.indptr ((i : Int) + 1)).bind fun e =>
    if s < e then
      assignAt out ((pySlice a.indices s e).map fun j => cellPos a.nrows a.ncols i j) (pySlice a.data s e)
    else .ok out) (List.replicate (a.nrows * a.ncols) 0)

/-- `CSC.toarray` (csc.py 365–374). -/
def toarrayCsc [Zero V] (a : Csc V) : Except PyErr (List V) :=
  (List.range a.ncols).foldlM (fun out (j : Nat) =>
    (pyGet a.indptr j).bind fun s =>
    (pyGet a.indptr ((j : Int) + 1)).bind fun e =>
    if s < e then
      assignAt out ((pySlice a.indices s e).map fun i => cellPos a.nrows a.ncols i j) (pySlice a.data s e)
    else .ok out) (List.replicate (a.nrows * a.ncols) 0)

/-- `COO.toarray` (coo.py 236–247): `out[r[k], c[k]] += data[k]`. -/
def toarrayCoo [Zero V] [Add V] (a : Coo V) : Except PyErr (List V) :=
  (List.range a.data.length).foldlM (fun out (k : Nat) =>
    (pyGet a.row k).bind fun r =>
    (pyGet a.col k).bind fun c =>
    (pyGet a.data k).bind fun v =>
    match cellPos a.nrows a.ncols r c with
    | some p => .ok (out.set p (out.getD p 0 + v))
    | none => .error .indexError) (List.replicate (a.nrows * a.ncols) 0)

/-- Row-major cell of an N-D subscript, every component resolved as by `pyPos`. -/
def cellPosNd : List Nat → List Int → Option Nat
  | [], [] => some 0
  | s :: ss, i :: is => (pyPos s i).bind fun p => (cellPosNd ss is).map fun q => p * ss.prod + q
  | _, _ => none

/-- `idx.reshape(nnz, ndim)` read row by row. -/
def ndRow (ndim : Nat) (indices : List Int) (k : Nat) : List Int :=
  (indices.drop (k * ndim)).take ndim

/-- The local function `_dense` on a `COOND` array (elementwise.py 49–57 and its five copies):
`np.add.at` adds at the subscripts in order.  All subscripts are checked first. -/
def denseNd [Zero V] [Add V] (a : CooNd V) : Except PyErr (List V) :=
  let arr := List.replicate a.shape.prod 0
  if a.data.length = 0 then .ok arr
  else if a.indices.length ≠ a.data.length * a.shape.length then .error .valueError
  else
    match (List.range a.data.length).mapM fun k => cellPosNd a.shape (ndRow a.shape.length a.indices k) with
    | none => .error .indexError
    | some ps => .ok ((ps.zip a.data).foldl (fun out e => out.set e.1 (out.getD e.1 0 + e.2)) arr)

/-- `equal`, `not_equal`, `less`, `less_equal`, `greater`, `greater_equal` on operands of equal
shape (elementwise.py 45–66, 69–90, 106–199): both operands are densified, then compared cell by
cell.  Operands of different shapes: `npCompare` in Model/PyRead. -/
def compareDense (cmp : V → V → Bool) (x y : Except PyErr (List V)) : Except PyErr (List Bool) :=
  x.bind fun xd => y.map fun yd => List.zipWith cmp xd yd

end Lacuna
