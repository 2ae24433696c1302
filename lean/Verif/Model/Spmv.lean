import Verif.Model.Accum
import Verif.Model.Nd
import Verif.Model.Scalar
import Verif.Model.TwoPass
/-
Sparse matrix-vector products (crates/lacuna-kernels/src/linalg/matmul.rs 44–661) and the
`vecdot` kernels (crates/lacuna-kernels/src/linalg/vecdot.rs).

Simplifications: the stored pairs of line `i` are read as the slice `Comp.row a i`; the reads
of `x` do not depend on the accumulator and are done first.  `none` is a panic or an
out-of-bounds unchecked access.
-/
namespace Lacuna
universe u
variable {V : Type u}

/-- `SMALL_DIM_LIMIT`, `SMALL_NNZ_LIMIT`, `STRIPE_ROWS`/`STRIPE` (util.rs 7–13). -/
def smallDimLimit : Nat := 2048
def smallNnzLimit : Nat := 32 * 1024
def stripeLen : Nat := 8192

/-- `usize::saturating_mul`. -/
def satMul (a b : Nat) : Nat := min (a * b) usizeMax

/-- `f64::mul_add`: `mulAdd a b c` is the fused `a * b + c`. -/
class HasFma (V : Type u) where
  mulAdd : V → V → V → V
export HasFma (mulAdd)

/-- The loop that splits lines into work ranges (matmul.rs 626–645 and the copies 84–103,
sum.rs 226–244, 353–371, vecdot.rs 107–125): `i` is the loop variable, `acc` and `r0` the
mutable variables, the list holds the numbers of entries of the lines still to come.  After
the loop `i = nrows`. -/
def rangeScan (target : Nat) : Nat → Nat → Nat → List Nat → List (Nat × Nat)
  | i, acc, r0, [] => if acc > 0 then [(r0, i)] else []
  | i, acc, r0, w :: ws =>
    let r0 := if acc = 0 then i else r0
    let acc := acc + w
    if acc ≥ target then (r0, i + 1) :: rangeScan target (i + 1) 0 r0 ws
    else rangeScan target (i + 1) acc r0 ws

/-- The work ranges of a compressed matrix. -/
def lineRanges (a : Comp V) : List (Nat × Nat) :=
  rangeScan (128 * 1024) 0 0 0 ((List.range a.n).map fun i => a.ptr (i + 1) - a.ptr i)

/-- `for i in r0..r1`. -/
def rangeLines (r : Nat × Nat) : List Nat := List.range' r.1 (r.2 - r.1)

/-- Four chained `mul_add` (matmul.rs 488–497); the pairs are `(data, x)`. -/
def fma4 [HasFma V] (acc : V) (p0 p1 p2 p3 : V × V) : V :=
  mulAdd p3.1 p3.2 (mulAdd p2.1 p2.2 (mulAdd p1.1 p1.2 (mulAdd p0.1 p0.2 acc)))

/-- The loop over blocks of 16 (matmul.rs 468–530, vecdot.rs 255–320). -/
def dot16 [HasFma V] : V → List (V × V) → V × List (V × V)
  | acc, p0 :: p1 :: p2 :: p3 :: p4 :: p5 :: p6 :: p7 :: p8 :: p9 :: p10 :: p11 :: p12 :: p13 ::
      p14 :: p15 :: rest =>
    dot16 (fma4 (fma4 (fma4 (fma4 acc p0 p1 p2 p3) p4 p5 p6 p7) p8 p9 p10 p11) p12 p13 p14 p15) rest
  | acc, l => (acc, l)

/-- The loop over blocks of 8 (matmul.rs 532–566, vecdot.rs 322–355). -/
def dot8 [HasFma V] : V → List (V × V) → V × List (V × V)
  | acc, p0 :: p1 :: p2 :: p3 :: p4 :: p5 :: p6 :: p7 :: rest =>
    dot8 (fma4 (fma4 acc p0 p1 p2 p3) p4 p5 p6 p7) rest
  | acc, l => (acc, l)

/-- The loop over blocks of 4 (matmul.rs 568–587, vecdot.rs 357–376). -/
def dot4 [HasFma V] : V → List (V × V) → V × List (V × V)
  | acc, p0 :: p1 :: p2 :: p3 :: rest => dot4 (fma4 acc p0 p1 p2 p3) rest
  | acc, l => (acc, l)

/-- The remaining entries (matmul.rs 589–593, vecdot.rs 378–382). -/
def dot1 [HasFma V] (acc : V) (l : List (V × V)) : V := l.foldl (fun acc p => mulAdd p.1 p.2 acc) acc

/-- The whole unrolled accumulation of one line. -/
def dotUnrolled [Zero V] [HasFma V] (l : List (V × V)) : V :=
  let s16 := dot16 0 l
  let s8 := dot8 s16.1 s16.2
  let s4 := dot4 s8.1 s8.2
  dot1 s4.1 s4.2

/-- `x.get_unchecked(j)` for the entries of a line, paired with the stored values. -/
def gather (x : List V) (row : List (Int × V)) : Option (List (V × V)) :=
  row.mapM fun e => (x[i64ToUsize e.1]?).map fun xv => (e.2, xv)

/-- `spmv_row_f64_i64` (matmul.rs 451–596): an empty line returns `0.0` at once. -/
def spmvRow [Zero V] [HasFma V] (a : Comp V) (x : List V) (i : Nat) : Option V :=
  if a.ptr (i + 1) - a.ptr i = 0 then some 0
  else (gather x (a.row i)).map dotUnrolled

/-- All possible results of `spmv_f64_i64` (matmul.rs 615–661).  In the parallel case the
writes `y[i] = val` happen in any order. -/
def SpmvCsrRun [Zero V] [HasFma V] (a : Csr V) (x y : List V) : Prop :=
  x.length = a.ncols ∧
  if a.nrows ≤ smallDimLimit ∨ a.data.length ≤ smallNnzLimit then
    (List.range a.nrows).mapM (spmvRow a.comp x) = some y
  else
    ∃ writes sched,
      ((lineRanges a.comp).flatMap rangeLines).mapM
        (fun i => (spmvRow a.comp x i).map fun v => (i, v)) = some writes ∧
      sched.Perm writes ∧ y = applyWrites (List.replicate a.nrows 0) sched

/-- Operations of line `j` of a scatter product: `y[index] += data * x[j]`
(matmul.rs 68–77, 108–115). -/
def lineOps [Zero V] [Mul V] (a : Comp V) (x : List V) (j : Nat) : List (Nat × V) :=
  (a.row j).map fun e => (i64ToUsize e.1, e.2 * x.getD j 0)

/-- The three parallel accumulation schemes of the matrix-vector kernels, chosen by the
number of entries and the output length (matmul.rs 81–82, 105–206 and 338–428). -/
def accumChoose [Zero V] [Add V] (nthreads n nnz : Nat) (groups : List (List (Nat × V))) :
    Option (List V) :=
  if nnz < satMul (n / 2) (max nthreads 1) then accumHash n 1024 groups
  else if n ≤ stripeLen * 2 then accumTouch n groups
  else accumStripe n stripeLen groups

/-- All possible results of `spmv_csc_f64_i64` (matmul.rs 61–207). -/
def SpmvCscRun [Zero V] [Add V] [Mul V] (nthreads : Nat) (a : Csc V) (x y : List V) : Prop :=
  x.length = a.ncols ∧
  if a.ncols ≤ smallDimLimit ∨ a.data.length ≤ smallNnzLimit then
    addAll? (List.replicate a.nrows 0) ((List.range a.ncols).flatMap (lineOps a.comp x)) = some y
  else
    ∃ groups, Division ((lineRanges a.comp).map fun r => (rangeLines r).flatMap (lineOps a.comp x)) groups ∧
      accumChoose nthreads a.nrows a.data.length (groups.map List.flatten) = some y

/-- The operations of `spmv_coo`: entry `k` adds `data[k] * x[col[k]]` to `row[k]`
(matmul.rs 317–322, 347–351). -/
def cooOps [Mul V] (a : Coo V) (x : List V) : Option (List (Nat × V)) :=
  a.triples.mapM fun t => (x[i64ToUsize t.1.2]?).map fun xv => (i64ToUsize t.1.1, t.2 * xv)

/-- `1.max(nnz / (nthreads * 8))` (matmul.rs 340). -/
def cooChunk (nthreads nnz : Nat) : Nat := max 1 (nnz / (max nthreads 1 * 8))

/-- All possible results of `spmv_coo_f64_i64` (matmul.rs 310–430).  Work item `t` handles
the entries `t*chunk .. min((t+1)*chunk, nnz)`. -/
def SpmvCooRun [Zero V] [Add V] [Mul V] (nthreads : Nat) (a : Coo V) (x y : List V) : Prop :=
  x.length = a.ncols ∧ ∃ ops, cooOps a x = some ops ∧
  if a.nrows ≤ smallDimLimit ∨ a.data.length ≤ smallNnzLimit then
    addAll? (List.replicate a.nrows 0) ops = some y
  else
    ∃ groups, Division (chunksOf (cooChunk nthreads a.data.length) ops) groups ∧
      accumChoose nthreads a.nrows a.data.length (groups.map List.flatten) = some y

/-- The operations of `spmv_coond` (matmul.rs 257–270): the key is the linear index over the
remaining axes, the value is `data[k] * x[index on axis]`; zero products are skipped. -/
def ndMulOps [Zero V] [Mul V] [BEq V] (a : CooNd V) (axes : List (Nat × Nat)) (axis : Nat) (x : List V) :
    Option (List (Nat × V)) :=
  (a.data.zipIdx.mapM fun e =>
    (a.indices[e.2 * a.shape.length + axis]?).bind fun ai =>
    (linAxes a.indices (e.2 * a.shape.length) axes 0).bind fun key =>
    (x[i64ToUsize ai]?).map fun xv => (key, e.1 * xv)).map fun ops =>
      ops.filter fun o => !(o.2 == 0)

/-- `spmv_coond_f64_i64` (matmul.rs 229–289). -/
def spmvNd [Zero V] [Add V] [Mul V] [BEq V] (sort : List (Nat × V) → List (Nat × V)) (a : CooNd V)
    (axis : Nat) (x : List V) : Option (CooNd V) :=
  let ndim := a.shape.length
  if ¬ axis < ndim then none
  else if x.length ≠ a.shape.getD axis 0 then none
  else
    let remain := (List.range ndim).filter fun d => d ≠ axis
    if remain.isEmpty then none
    else
      let shape := remain.map fun d => a.shape.getD d 0
      if a.data.length = 0 then some ⟨shape, [], []⟩
      else
        (stridesPos? shape).bind fun st =>
        (ndMulOps a (remain.zip st) axis x).bind fun ops =>
        ((HMap.withCapacity a.data.length).insertAll ops).bind fun m =>
          some (ndBuild shape st (sort m.pairs))

/-- All possible results of `vecdot_csr_dense_axis0_f64_i64` (vecdot.rs 90–183): striped
accumulation of `data * w` for every row with weight `w != 0`. -/
def VecdotCsrRun [Zero V] [Add V] [Mul V] [BEq V] (a : Csr V) (x y : List V) : Prop :=
  x.length = a.nrows ∧
  if a.ncols = 0 then y = []
  else
    ∃ groups, Division ((lineRanges a.comp).map fun r =>
        ((rangeLines r).filter fun i => !(x.getD i 0 == 0)).flatMap (lineOps a.comp x)) groups ∧
      accumStripe a.ncols stripeLen (groups.map List.flatten) = some y

/-- `vecdot_csc_dense_axis0_f64_i64` (vecdot.rs 243–387): one unrolled dot product per
column, each column owns its output slot. -/
def vecdotCsc [Zero V] [HasFma V] (a : Csc V) (x : List V) : Option (List V) :=
  if x.length ≠ a.nrows then none
  else (List.range a.ncols).mapM fun j => (gather x (a.comp.row j)).map dotUnrolled

/-- The operations of `vecdot_coo_dense_axis0` (vecdot.rs 457–465): entry `k` adds
`data[k] * w` to `col[k]` where `w = x[row[k]]`, unless `w == 0`. -/
def cooVecOps [Zero V] [Mul V] [BEq V] (a : Coo V) (x : List V) : Option (List (List (Nat × V))) :=
  a.triples.mapM fun t => (x[i64ToUsize t.1.1]?).map fun w =>
    if !(w == 0) then [(i64ToUsize t.1.2, t.2 * w)] else []

/-- All possible results of `vecdot_coo_dense_axis0_f64_i64` (vecdot.rs 440–473). -/
def VecdotCooRun [Zero V] [Add V] [Mul V] [BEq V] (nthreads : Nat) (a : Coo V) (x y : List V) : Prop :=
  x.length = a.nrows ∧
  if a.ncols = 0 ∨ a.data.length = 0 then y = List.replicate a.ncols 0
  else
    ∃ ops, cooVecOps a x = some ops ∧
    ∃ groups, Division ((chunksOf (cooChunk nthreads a.data.length) ops).map List.flatten) groups ∧
      accumHash a.ncols 1024 (groups.map List.flatten) = some y

end Lacuna
