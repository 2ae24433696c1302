import Verif.Model.Spmm
import Verif.Model.Transpose
/-
Cumulative sums and products (crates/lacuna-kernels/src/statistical/cumulative.rs), and their
entry points for CSC and COO (crates/lacuna-py/src/array_api/reduce.rs 1119–1331).

The stored pairs of row `i` are read as the slice `Comp.row a i`; every row owns its chunk of
the output.  `none` is a panic or an out-of-bounds unchecked access.
-/
namespace Lacuna
universe u
variable {V : Type u}

/-- `row[lo..hi].fill(v)`; panics unless `lo ≤ hi ≤ len`. -/
def fillRange? (l : List V) (lo hi : Nat) (v : V) : Option (List V) :=
  if lo ≤ hi ∧ hi ≤ l.length then some (l.take lo ++ List.replicate (hi - lo) v ++ l.drop hi) else none

/-- `*row.get_unchecked_mut(p) = v`. -/
def setAt? (l : List V) (p : Nat) (v : V) : Option (List V) := if p < l.length then some (l.set p v) else none

/-- Mutable state of a row: the output chunk, `prev` and `acc`. -/
structure CumSt (V : Type u) where
  out : List V
  prev : Nat
  acc : V

/-- One stored entry (cumulative.rs 61–72). -/
def cumsumStep [Add V] (s : CumSt V) (e : Int × V) : Option (CumSt V) :=
  let col := i64ToUsize e.1
  (if col > s.prev then fillRange? s.out s.prev col s.acc else some s.out).bind fun out =>
  (setAt? out col (s.acc + e.2)).map fun out => ⟨out, col + 1, s.acc + e.2⟩

/-- One row (cumulative.rs 53–77). -/
def cumsumRow [Zero V] [Add V] (ncols : Nat) (row : List (Int × V)) (out : List V) : Option (List V) :=
  (row.foldlM cumsumStep ⟨out, 0, 0⟩).bind fun s =>
    if s.prev < ncols then fillRange? s.out s.prev s.out.length s.acc else some s.out

/-- One row of the product (cumulative.rs 111–131): `return` at the first gap. -/
def cumprodLoop [Mul V] : List (Int × V) → CumSt V → Option (List V)
  | [], s => some s.out
  | e :: es, s =>
    let col := i64ToUsize e.1
    if col > s.prev then some s.out
    else (setAt? s.out col (s.acc * e.2)).bind fun out => cumprodLoop es ⟨out, col + 1, s.acc * e.2⟩

/-- The common frame of both kernels (cumulative.rs 43–52, 100–110): the early return, the
zero-filled output, and `par_chunks_mut(ncols)`. -/
def cumRows [Zero V] (a : Csr V) (row : List (Int × V) → List V → Option (List V)) : Option (List V) :=
  if a.nrows = 0 ∨ a.ncols = 0 then some []
  else ((chunksOf a.ncols (List.replicate (wrapMul a.nrows a.ncols) 0)).zipIdx.mapM fun c =>
    row (a.comp.row c.2) c.1).map List.flatten

/-- `csr_cumsum_dense_axis1_f64` (cumulative.rs 43–79). -/
def cumsumAxis1 [Zero V] [Add V] (a : Csr V) : Option (List V) := cumRows a (cumsumRow a.ncols)
/-- `csr_cumprod_dense_axis1_f64` (cumulative.rs 100–133). -/
def cumprodAxis1 [Zero V] [One V] [Mul V] (a : Csr V) : Option (List V) :=
  cumRows a fun row out => cumprodLoop row ⟨out, 0, 1⟩

/-- `transpose_dense_row_major` (cumulative.rs 23–37). -/
def transposeDense [Zero V] (input : List V) (rows cols : Nat) : Option (List V) :=
  ((List.range rows).flatMap fun r => (List.range cols).map fun c => (r, c)).foldlM
    (fun out p => (input[p.1 * cols + p.2]?).bind fun v => setAt? out (p.2 * rows + p.1) v)
    (List.replicate (wrapMul rows cols) 0)

/-- The common frame of the axis-0 kernels (cumulative.rs 85–95, 139–149): transpose, apply the
axis-1 kernel, transpose the dense result. -/
def CumAxis0Run [Zero V] (sort : List (Int × V) → List (Int × V)) (threads : Nat) (axis1 : Csr V → Option (List V))
    (a : Csr V) (y : List V) : Prop :=
  if a.nrows = 0 ∨ a.ncols = 0 then y = []
  else ∃ t, TransposeCsrRun sort threads a t ∧ ((axis1 t).bind fun o => transposeDense o t.nrows t.ncols) = some y

/-- All possible results of `csr_cumsum_dense_axis0_f64` (cumulative.rs 85–95). -/
def CumsumAxis0Run [Zero V] [Add V] (sort : List (Int × V) → List (Int × V)) (threads : Nat) (a : Csr V) (y : List V) :
    Prop := CumAxis0Run sort threads cumsumAxis1 a y
/-- All possible results of `csr_cumprod_dense_axis0_f64` (cumulative.rs 139–149). -/
def CumprodAxis0Run [Zero V] [One V] [Mul V] (sort : List (Int × V) → List (Int × V)) (threads : Nat) (a : Csr V)
    (y : List V) : Prop := CumAxis0Run sort threads cumprodAxis1 a y

/-- `cumsum_csc_from_parts_dense`, `axis = 1` (reduce.rs 1154–1187): converts to CSR first. -/
def CumsumCscAxis1Run [Zero V] [Add V] (a : Csc V) (y : List V) : Prop :=
  ∃ c, CscToCsrRun a c ∧ cumsumAxis1 c = some y
/-- `cumsum_csc_from_parts_dense`, `axis = 0`. -/
def CumsumCscAxis0Run [Zero V] [Add V] (sort : List (Int × V) → List (Int × V)) (threads : Nat) (a : Csc V)
    (y : List V) : Prop := ∃ c, CscToCsrRun a c ∧ CumsumAxis0Run sort threads c y
/-- `cumprod_csc_from_parts_dense`, `axis = 1` (reduce.rs 1261–1294). -/
def CumprodCscAxis1Run [Zero V] [One V] [Mul V] (a : Csc V) (y : List V) : Prop :=
  ∃ c, CscToCsrRun a c ∧ cumprodAxis1 c = some y
/-- `cumprod_csc_from_parts_dense`, `axis = 0`. -/
def CumprodCscAxis0Run [Zero V] [One V] [Mul V] (sort : List (Int × V) → List (Int × V)) (threads : Nat) (a : Csc V)
    (y : List V) : Prop := ∃ c, CscToCsrRun a c ∧ CumprodAxis0Run sort threads c y

/-- `cumsum_coo_from_parts_dense`, `axis = 1` (reduce.rs 1190–1223). -/
def cumsumCooAxis1 [Zero V] [Add V] (tsort : List ((Int × Int) × V) → List ((Int × Int) × V)) (a : Coo V) :
    Option (List V) := cumsumAxis1 (cooToCsr tsort a)
/-- `cumsum_coo_from_parts_dense`, `axis = 0`. -/
def CumsumCooAxis0Run [Zero V] [Add V] (tsort : List ((Int × Int) × V) → List ((Int × Int) × V))
    (sort : List (Int × V) → List (Int × V)) (threads : Nat) (a : Coo V) (y : List V) : Prop :=
  CumsumAxis0Run sort threads (cooToCsr tsort a) y
/-- `cumprod_coo_from_parts_dense`, `axis = 1` (reduce.rs 1297–1331). -/
def cumprodCooAxis1 [Zero V] [One V] [Add V] [Mul V] (tsort : List ((Int × Int) × V) → List ((Int × Int) × V))
    (a : Coo V) : Option (List V) := cumprodAxis1 (cooToCsr tsort a)
/-- `cumprod_coo_from_parts_dense`, `axis = 0`. -/
def CumprodCooAxis0Run [Zero V] [One V] [Add V] [Mul V] (tsort : List ((Int × Int) × V) → List ((Int × Int) × V))
    (sort : List (Int × V) → List (Int × V)) (threads : Nat) (a : Coo V) (y : List V) : Prop :=
  CumprodAxis0Run sort threads (cooToCsr tsort a) y

end Lacuna
