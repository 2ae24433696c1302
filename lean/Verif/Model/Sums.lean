import Verif.Model.Reduce
import Verif.Model.Spmv
/-
Sums (crates/lacuna-kernels/src/statistical/sum.rs; the axis reduction of N-D arrays in the
same file is in Model/Nd).
-/
namespace Lacuna
universe u
variable {V : Type u}

/-- Sum of one chunk (sum.rs 38–56; the same code at 137–157, 166–186, 195–215, 250–268,
544–559). -/
def chunkSum [Zero V] [Add V] (chunk : List V) : V :=
  simdFold (· + ·) (· + ·) (· + ·) 0 chunk

/-- All possible results of `sum_f64`, `sum_csc_f64`, `sum_coo_f64`, `sum_coond_f64`
(sum.rs 35–59, 134–158, 163–187, 192–217) on the stored values. -/
def SumRun [Zero V] [Add V] (data : List V) (r : V) : Prop :=
  ChunkReduce chunkSum (· + ·) 0 data r

/-- All possible results of `row_sums_f64` (sum.rs 222–275): the rows inside the work ranges
are written, in any order, into a zero-filled vector. -/
def RowSumsRun [Zero V] [Add V] (a : Csr V) (y : List V) : Prop :=
  ∃ sched : List (Nat × V),
    sched.Perm (((lineRanges a.comp).flatMap rangeLines).map
      fun i => (i, chunkSum ((a.comp.row i).map Prod.snd))) ∧
    y = applyWrites (List.replicate a.nrows 0) sched

/-- The operations of one line when summing along the other axis (sum.rs 295–298). -/
def lineAdds (a : Comp V) (i : Nat) : List (Nat × V) :=
  (a.row i).map fun e => (i64ToUsize e.1, e.2)

/-- All possible results of `col_sums_f64` (sum.rs 280–438). -/
def ColSumsRun [Zero V] [Add V] (nthreads : Nat) (a : Csr V) (y : List V) : Prop :=
  if a.ncols = 0 then y = []
  else if a.ncols ≤ smallDimLimit then
    ∃ groups, Division ((List.range a.nrows).map (lineAdds a.comp)) groups ∧
      accumPlain a.ncols (groups.map List.flatten) = some y
  else if a.data.length < satMul (a.ncols / 2) (max nthreads 1) then
    ∃ groups, Division ((List.range a.nrows).map (lineAdds a.comp)) groups ∧
      accumHash a.ncols 1024 (groups.map List.flatten) = some y
  else
    ∃ groups, Division ((lineRanges a.comp).map fun r => (rangeLines r).flatMap (lineAdds a.comp)) groups ∧
      AccumStripePar a.ncols stripeLen (groups.map List.flatten) y

/-- All possible results of `row_sums_csc_f64` (sum.rs 443–528). -/
def RowSumsCscRun [Zero V] [Add V] (a : Csc V) (y : List V) : Prop :=
  if a.nrows = 0 then y = []
  else
    ∃ groups, Division ((List.range a.ncols).map (lineAdds a.comp)) groups ∧
      if a.nrows ≤ smallDimLimit ∨ a.data.length ≤ smallNnzLimit then
        accumHash a.nrows 1024 (groups.map List.flatten) = some y
      else accumStripe a.nrows stripeLen (groups.map List.flatten) = some y

/-- `col_sums_csc_f64` (sum.rs 533–563): every column owns its output slot. -/
def colSumsCsc [Zero V] [Add V] (a : Csc V) : List V :=
  if a.ncols = 0 then []
  else (List.range a.ncols).map fun j => chunkSum ((a.comp.row j).map Prod.snd)

/-- All possible results of `row_sums_coo_f64` (sum.rs 568–645).  `row[k]` and `data[k]` are
read together. -/
def RowSumsCooRun [Zero V] [Add V] (nthreads : Nat) (a : Coo V) (y : List V) : Prop :=
  if a.nrows = 0 then y = []
  else if a.data.length = 0 then y = List.replicate a.nrows 0
  else
    ∃ groups, Division (chunksOf (cooChunk nthreads a.data.length)
        (a.triples.map fun t => (i64ToUsize t.1.1, t.2))) groups ∧
      if a.data.length ≤ smallNnzLimit ∨ a.nrows ≤ smallDimLimit then
        accumHash a.nrows 1024 (groups.map List.flatten) = some y
      else accumStripe a.nrows stripeLen (groups.map List.flatten) = some y

/-- All possible results of `col_sums_coo_f64` (sum.rs 651–752). -/
def ColSumsCooRun [Zero V] [Add V] (nthreads : Nat) (a : Coo V) (y : List V) : Prop :=
  if a.ncols = 0 then y = []
  else if a.data.length = 0 then y = List.replicate a.ncols 0
  else
    ∃ groups, Division (chunksOf (cooChunk nthreads a.data.length)
        (a.triples.map fun t => (i64ToUsize t.1.2, t.2))) groups ∧
      if a.data.length < satMul (a.ncols / 2) (max nthreads 1) then
        accumHash a.ncols 1024 (groups.map List.flatten) = some y
      else AccumStripePar a.ncols stripeLen (groups.map List.flatten) y

end Lacuna
