import Verif.Model.Spmv
import Verif.Model.Convert
/-
Sparse times dense matrix products (crates/lacuna-kernels/src/linalg/matmul.rs 680–1117) and
the tensor contractions built on them (crates/lacuna-kernels/src/linalg/tensordot.rs).

The dense matrix `b` is row-major with `k` columns.  Simplifications: the four lanes of a
SIMD operation are treated one after the other (they are different columns); the values of
`b`, which nobody writes, are read before the additions of a tile; the stored pairs of line
`i` are read as the slice `Comp.row a i`.  `none` is a panic or an out-of-bounds unchecked
access.
-/
namespace Lacuna
universe u
variable {V : Type u}

/-- `a * b` for `usize` in a release build: wraps. -/
def wrapMul (a b : Nat) : Nat := a * b % (usizeMax + 1)

/-- `(0..k).step_by(128)` (matmul.rs 735, 996–997, 1076–1077). -/
def tiles (k : Nat) : List Nat := (List.range ((k + 127) / 128)).map (· * 128)

/-- The columns of the tile starting at `c0`, with a flag telling whether the column is
handled by a SIMD lane (`c < limit4`) or by the remainder loop (matmul.rs 736–738, 746–767). -/
def tileCols (k c0 : Nat) : List (Nat × Bool) :=
  let tk := min (c0 + 128) k - c0
  (List.range tk).map fun c => (c0 + c, decide (c < tk / 4 * 4))

/-- The SIMD loops compute `vb * aij`, the remainder loops `aij * b`. -/
def laneProd [Mul V] (lane : Bool) (a b : V) : V := if lane then b * a else a * b

/-- The additions of one tile for entries `(source row, target row, value)`, in order
(matmul.rs 740–768, 1004–1036, 1084–1111). -/
def tileOps [Mul V] (b : List V) (k c0 : Nat) (es : List (Nat × Nat × V)) : Option (List (Nat × V)) :=
  (es.flatMap fun e => (tileCols k c0).map fun c => (e, c)).mapM fun p =>
    (b[p.1.1 * k + p.2.1]?).map fun bv => (p.1.2.1 * k + p.2.1, laneProd p.2.2 p.1.2.2 bv)

/-- The register accumulation of one output column (matmul.rs 772–781, 789–795). -/
def colAcc [Zero V] [Add V] [Mul V] (b : List V) (k : Nat) (row : List (Int × V)) (c : Nat × Bool) :
    Option (Nat × V) :=
  (row.mapM fun e => (b[i64ToUsize e.1 * k + c.1]?).map (laneProd c.2 e.2)).map fun ps =>
    (c.1, ps.foldl (· + ·) 0)

/-- One tile of one row of `spmm_f64_i64` (matmul.rs 735–798): short rows of wide products
add entry after entry into `yi`; otherwise each column is accumulated and stored once. -/
def rowTile [Zero V] [Add V] [Mul V] (b : List V) (k : Nat) (row : List (Int × V)) (yi : List V) (c0 : Nat) :
    Option (List V) :=
  if row.length ≤ 8 ∧ 128 ≤ k then
    (tileOps b k c0 (row.map fun e => (i64ToUsize e.1, 0, e.2))).bind (addAll? yi)
  else ((tileCols k c0).mapM (colAcc b k row)).map (applyWrites yi)

/-- One row (matmul.rs 727–799): `yi` is the row's chunk of the zero-filled output. -/
def spmmRow [Zero V] [Add V] [Mul V] (b : List V) (k : Nat) (row : List (Int × V)) (yi : List V) :
    Option (List V) :=
  (tiles k).foldlM (rowTile b k row) yi

/-- `spmm_f64_i64` (matmul.rs 720–801).  `par_chunks_mut(0)` panics.  Every row owns its
chunk. -/
def spmmCsr [Zero V] [Add V] [Mul V] (a : Csr V) (b : List V) (k : Nat) : Option (List V) :=
  if b.length ≠ wrapMul a.ncols k then none
  else if k = 0 then none
  else ((chunksOf k (List.replicate (wrapMul a.nrows k) 0)).zipIdx.mapM fun c =>
    spmmRow b k (a.comp.row c.2) c.1).map List.flatten

/-- Execution orders of parallel sequences: each element is tagged with its sequence; the
elements of one sequence occur in their order. -/
def Shuffle {α : Type u} (parts : List (List α)) (sched : List (Nat × α)) : Prop :=
  (∀ e ∈ sched, e.1 < parts.length) ∧
  ∀ t, t < parts.length → (sched.filter fun e => e.1 == t).map Prod.snd = parts.getD t []

/-- The parallel loop over tiles of `spmm_csc_f64_i64` and `spmm_coo_f64_i64`: all tiles add
into the same zero-filled `y` of length `n`, in any interleaving. -/
def TilesRun [Zero V] [Add V] [Mul V] (n : Nat) (b : List V) (k : Nat) (es : List (Nat × Nat × V))
    (y : List V) : Prop :=
  ∃ parts sched, (tiles k).mapM (fun c0 => tileOps b k c0 es) = some parts ∧ Shuffle parts sched ∧
    addAll? (List.replicate n 0) (sched.map Prod.snd) = some y

/-- All possible results of `spmm_csc_f64_i64` (matmul.rs 986–1042). -/
def SpmmCscRun [Zero V] [Add V] [Mul V] (a : Csc V) (b : List V) (k : Nat) (y : List V) : Prop :=
  b.length = wrapMul a.ncols k ∧
  if a.nrows = 0 ∨ a.ncols = 0 ∨ k = 0 then y = List.replicate (wrapMul a.nrows k) 0
  else TilesRun (wrapMul a.nrows k) b k
    ((List.range a.ncols).flatMap fun j => (a.comp.row j).map fun e => (j, i64ToUsize e.1, e.2)) y

/-- All possible results of `spmm_coo_f64_i64` (matmul.rs 1067–1117). -/
def SpmmCooRun [Zero V] [Add V] [Mul V] (a : Coo V) (b : List V) (k : Nat) (y : List V) : Prop :=
  b.length = wrapMul a.ncols k ∧
  if a.nrows = 0 ∨ k = 0 ∨ a.data.length = 0 then y = List.replicate (wrapMul a.nrows k) 0
  else TilesRun (wrapMul a.nrows k) b k
    (a.triples.map fun t => (i64ToUsize t.1.2, i64ToUsize t.1.1, t.2)) y

/-- All possible results of `spmm_auto_f64_i64` (matmul.rs 680–696). -/
def SpmmAutoRun [Zero V] [Add V] [Mul V] (a : Csr V) (b : List V) (k : Nat) (y : List V) : Prop :=
  b.length = wrapMul a.ncols k ∧
  if a.ncols = 0 ∨ a.nrows = 0 ∨ k = 0 ∨ a.data.length = 0 then y = List.replicate (wrapMul a.nrows k) 0
  else if 128 ≤ k ∨ (64 ≤ k ∧ 8 ≤ a.data.length / max a.ncols 1) then
    ∃ c, CsrToCscRun a c ∧ SpmmCscRun c b k y
  else spmmCsr a b k = some y

/-! ### N-D -/

/-- The insertions for one entry (matmul.rs 870–941): column `c` gets key
`lin_base + c * stride_k`; zero products are skipped before the key is computed. -/
def ndMmRow [Zero V] [Mul V] [BEq V] (b : List V) (k strideK : Nat) (av : V) (ax lin : Nat) :
    Option (List (Nat × V)) :=
  ((List.range k).mapM fun c => (b[ax * k + c]?).bind fun bv =>
    if av * bv == 0 then some []
    else (checkedMul c strideK).bind fun q => (checkedAdd lin q).map fun key => [(key, av * bv)]).map
      List.flatten

/-- All insertions (matmul.rs 859–941). -/
def ndMmOps [Zero V] [Mul V] [BEq V] (a : CooNd V) (axes : List (Nat × Nat)) (axis : Nat) (b : List V)
    (k strideK : Nat) : Option (List (Nat × V)) :=
  (a.data.zipIdx.mapM fun e =>
    (a.indices[e.2 * a.shape.length + axis]?).bind fun ai =>
    (linAxes a.indices (e.2 * a.shape.length) axes 0).bind fun lin =>
      ndMmRow b k strideK e.1 (i64ToUsize ai) lin).map List.flatten

/-- `spmm_coond_f64_i64` (matmul.rs 832–961).  `strides` is at least one long, so
`strides[out_ndim - 1] = 1` does not panic. -/
def spmmNd [Zero V] [Add V] [Mul V] [BEq V] (sort : List (Nat × V) → List (Nat × V)) (a : CooNd V)
    (axis : Nat) (b : List V) (k : Nat) : Option (CooNd V) :=
  let ndim := a.shape.length
  if ¬ axis < ndim then none
  else if b.length ≠ wrapMul (a.shape.getD axis 0) k then none
  else
    let remain := (List.range ndim).filter fun d => d ≠ axis
    let shape := remain.map (fun d => a.shape.getD d 0) ++ [k]
    if a.data.length = 0 ∨ k = 0 then some ⟨shape, [], []⟩
    else
      (stridesPos? shape).bind fun st =>
      (ndMmOps a (remain.zip st) axis b k (st.getD (st.length - 1) 0)).bind fun ops =>
      ((HMap.withCapacity (wrapMul a.data.length (min k 8))).insertAll ops).bind fun m =>
        some (ndBuild shape st ((sort m.pairs).filter fun e => !(e.2 == 0)))

/-! ### tensordot -/

/-- The checks of the 2-D contractions (tensordot.rs 55–59, 98–102, 141–145); the result is
`k`, the product of the remaining dimensions of `b`. -/
def tensordotCols (ncols : Nat) (blen : Nat) (bShape : List Nat) : Option Nat :=
  if bShape = [] then none
  else (productChecked bShape).bind fun expected =>
    if blen ≠ expected then none
    else if bShape.getD 0 0 ≠ ncols then none
    else productChecked (bShape.drop 1)

/-- `tensordot_csr_dense_axes1x0_f64_i64` (tensordot.rs 50–61). -/
def tensordotCsr [Zero V] [Add V] [Mul V] (a : Csr V) (b : List V) (bShape : List Nat) : Option (List V) :=
  (tensordotCols a.ncols b.length bShape).bind fun k => spmmCsr a b k

/-- All possible results of `tensordot_csc_dense_axes1x0_f64_i64` (tensordot.rs 93–104). -/
def TensordotCscRun [Zero V] [Add V] [Mul V] (a : Csc V) (b : List V) (bShape : List Nat) (y : List V) : Prop :=
  ∃ k, tensordotCols a.ncols b.length bShape = some k ∧ SpmmCscRun a b k y

/-- All possible results of `tensordot_coo_dense_axes1x0_f64_i64` (tensordot.rs 136–147). -/
def TensordotCooRun [Zero V] [Add V] [Mul V] (a : Coo V) (b : List V) (bShape : List Nat) (y : List V) : Prop :=
  ∃ k, tensordotCols a.ncols b.length bShape = some k ∧ SpmmCooRun a b k y

/-- `tensordot_coond_dense_axis_f64_i64` (tensordot.rs 182–201). -/
def tensordotNd [Zero V] [Add V] [Mul V] [BEq V] (sort : List (Nat × V) → List (Nat × V)) (a : CooNd V)
    (axis : Nat) (b : List V) (bShape : List Nat) : Option (CooNd V) :=
  if ¬ axis < a.shape.length then none
  else (tensordotCols (a.shape.getD axis 0) b.length bShape).bind fun k => spmmNd sort a axis b k

end Lacuna
