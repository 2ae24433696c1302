import Verif.Model.Sums
import Verif.Model.Nd
import Verif.Model.Convert
import Verif.Model.Transpose
import Verif.Model.Float
import Mathlib.Algebra.Group.Prod
/-
Minimum and maximum, products, variance and all/any
(crates/lacuna-kernels/src/statistical/{minmax,prod,varstd,logic,mean}.rs).
-/
namespace Lacuna
universe u
variable {V : Type u}

/-- `f64::min`, `f64::max`, the lanewise `f64x4::min`, `f64x4::max` and the two infinities. -/
class HasMinMax (V : Type u) where
  fmin : V → V → V
  fmax : V → V → V
  vmin : V → V → V
  vmax : V → V → V
  posInf : V
  negInf : V
export HasMinMax (fmin fmax vmin vmax posInf negInf)

/-- `f64::sqrt`. -/
class HasSqrt (V : Type u) where
  fsqrt : V → V
export HasSqrt (fsqrt)

/-! ### Minimum and maximum -/

/-- The operations in which the `min` kernels differ from the `max` kernels. -/
structure ExtOps (V : Type u) where
  /-- `f64::min` -/
  best : V → V → V
  /-- `f64x4::min` -/
  lane : V → V → V
  /-- `x < acc` -/
  better : V → V → Bool
  /-- `f64::INFINITY` -/
  far : V

def minOps (V : Type u) [HasMinMax V] [HasLt V] : ExtOps V := ⟨fmin, vmin, flt, posInf⟩
def maxOps (V : Type u) [HasMinMax V] [HasLt V] : ExtOps V := ⟨fmax, vmax, fun x y => flt y x, negInf⟩

/-- `if x < acc { acc = x }` (minmax.rs 38–40, 384, 400–402). -/
def ExtOps.keep (o : ExtOps V) (acc x : V) : V := if o.better x acc then x else acc

/-- `chunk_min` / `chunk_max` (minmax.rs 19–44, 49–74). -/
def chunkExt (o : ExtOps V) (chunk : List V) : V :=
  if chunk.isEmpty then o.far else simdFold o.lane o.best o.keep o.far chunk

/-- All possible results of the global `min_*` / `max_*` (minmax.rs 80–120, 195–231,
306–342). -/
def ExtRun [Zero V] (o : ExtOps V) (nrows ncols : Nat) (data : List V) (r : V) : Prop :=
  if nrows = 0 ∨ ncols = 0 then r = 0
  else ∃ d, ChunkReduce (chunkExt o) o.best o.far data d ∧
    r = if data.length < satMul nrows ncols then o.best d 0 else d

/-- `row_mins_f64`, `row_maxs_f64` (minmax.rs 126–172); with the lines being columns
`col_mins_csc_f64`, `col_maxs_csc_f64` (237–283).  Each line owns its output slot. -/
def lineExts [Zero V] (o : ExtOps V) (a : Comp V) : List V :=
  (List.range a.n).map fun i =>
    let line := (a.row i).map Prod.snd
    if line.length = 0 then 0
    else if line.length < a.m then o.best (chunkExt o line) 0 else chunkExt o line

/-- `col_mins_f64`, `col_maxs_f64` (minmax.rs 177–189): via the transpose. -/
def ColExtsRun [Zero V] (o : ExtOps V) (sort : List (Int × V) → List (Int × V)) (threads : Nat) (a : Csr V)
    (y : List V) : Prop :=
  ∃ t, TransposeCsrRun sort threads a t ∧ y = lineExts o t.comp

/-- `row_mins_csc_f64`, `row_maxs_csc_f64` (minmax.rs 288–300). -/
def RowExtsCscRun [Zero V] (o : ExtOps V) (sort : List (Int × V) → List (Int × V)) (threads : Nat) (a : Csc V)
    (y : List V) : Prop :=
  ∃ t, TransposeCscRun sort threads a t ∧ y = lineExts o t.comp

/-! ### Striped accumulators that start with the first value

`StripeAccs` of util.rs, but the first value of a slot is stored instead of added. -/

/-- `if seen[i] == 0 { seen[i] = 1; vals[i] = w } else { vals[i] = comb(vals[i], w) }`
(minmax.rs 377–385, 397–402, prod.rs 221–227, 239–244, varstd.rs 289–298);
`none`: index panic. -/
def putFirst {W : Type u} (comb : W → W → W) (s : List W × List Bool) (i : Nat) (w : W) :
    Option (List W × List Bool) :=
  match s.2[i]?, s.1[i]? with
  | some false, some _ => some (s.1.set i w, s.2.set i true)
  | some true, some cur => some (s.1.set i (comb cur w), s.2)
  | _, _ => none

/-- One value on a stripe accumulator `(vals, seen, touched)`. -/
def TouchAcc.put {W : Type u} (comb : W → W → W) (c : TouchAcc W) (i : Nat) (w : W) : Option (TouchAcc W) :=
  (putFirst comb (c.vals, c.seen) i w).map fun s =>
    ⟨s.1, s.2, if c.seen.getD i false then c.touched else c.touched ++ [i]⟩

/-- One value on a thread's accumulators; the accumulator of a stripe is created on first use
(minmax.rs 368–385). -/
def stripePut {W : Type u} (e : W) (comb : W → W → W) (n stripe : Nat) (accs : List (Option (TouchAcc W)))
    (k : Nat) (w : W) : Option (List (Option (TouchAcc W))) :=
  let sid := k / stripe
  let base := sid * stripe
  let off := k - base
  match accs[sid]? with
  | none => none
  | some o =>
    let len := min (n - base) stripe
    ((o.getD ⟨List.replicate len e, List.replicate len false, []⟩).put comb off w).map
      fun c => accs.set sid (some c)

/-- All values of one thread. -/
def stripePuts {W : Type u} (e : W) (comb : W → W → W) (n stripe : Nat) (ops : List (Nat × W)) :
    Option (List (Option (TouchAcc W))) :=
  ops.foldlM (fun accs o => stripePut e comb n stripe accs o.1 o.2)
    (List.replicate ((n + stripe - 1) / stripe) none)

/-- The touched slots of stripe `sid` with their values (minmax.rs 393–396); `none`: index
panic. -/
def stripeTouched {W : Type u} (stripe : Nat) (accs : List (Option (TouchAcc W))) (sid : Nat) :
    Option (List (Nat × W)) :=
  match accs.getD sid none with
  | none => some []
  | some c => c.touched.mapM fun off => (c.vals[off]?).map fun w => (sid * stripe + off, w)

/-- What merging reads from one thread: the touched slots of all stripes, in order
(minmax.rs 392–396). -/
def touchedVals {W : Type u} (stripe : Nat) (accs : List (Option (TouchAcc W))) : Option (List (Nat × W)) :=
  ((List.range accs.length).mapM (stripeTouched stripe accs)).map List.flatten

/-- Merging with a `seen` vector (minmax.rs 388–406, prod.rs 230–248). -/
def combineSeen {W : Type u} (e : W) (comb : W → W → W) (n stripe : Nat) (groups : List (List (Nat × W))) :
    Option (List W × List Bool) :=
  (groups.mapM (stripePuts e comb n stripe)).bind fun cells =>
    (cells.mapM (touchedVals stripe)).bind fun ups =>
      ups.flatten.foldlM (fun s o => putFirst comb s o.1 o.2) (List.replicate n e, List.replicate n false)

/-- Merging by addition (varstd.rs 301–315). -/
def combineAdd {W : Type u} [Zero W] [Add W] (n stripe : Nat) (groups : List (List (Nat × W))) :
    Option (List W) :=
  (groups.mapM (stripePuts 0 (· + ·) n stripe)).bind fun cells =>
    (cells.mapM (touchedVals stripe)).bind fun ups => addAll? (List.replicate n 0) ups.flatten

/-- `for &ri in &a.row { counts[i64_to_usize(ri)] += 1 }` (minmax.rs 354–358). -/
def countKeys (n : Nat) (keys : List Nat) : Option (List Nat) :=
  addAll? (List.replicate n 0) (keys.map fun k => (k, 1))

/-- All possible results of `row_mins_coo_f64`, `row_maxs_coo_f64`, `col_mins_coo_f64`,
`col_maxs_coo_f64` (minmax.rs 348–642): `n` lines of full length `m`, `ops` the pairs (line,
value) of the stored entries. -/
def CooExtsRun [Zero V] (o : ExtOps V) (nthreads n m : Nat) (ops : List (Nat × V)) (y : List V) : Prop :=
  if n = 0 then y = []
  else ∃ counts, countKeys n (ops.map Prod.fst) = some counts ∧
    ∃ groups, Division (chunksOf (cooChunk nthreads ops.length) ops) groups ∧
    ∃ out seen, combineSeen 0 o.keep n stripeLen (groups.map List.flatten) = some (out, seen) ∧
      y = (List.range n).map fun i =>
        if counts.getD i 0 < m then (if seen.getD i false then o.best (out.getD i 0) 0 else 0)
        else out.getD i 0

/-- The stored entries of a COO matrix as (row, value). -/
def Coo.rowOps (a : Coo V) : List (Nat × V) := a.triples.map fun t => (i64ToUsize t.1.1, t.2)
/-- The stored entries of a COO matrix as (column, value). -/
def Coo.colOps (a : Coo V) : List (Nat × V) := a.triples.map fun t => (i64ToUsize t.1.2, t.2)

def RowExtsCooRun [Zero V] (o : ExtOps V) (nthreads : Nat) (a : Coo V) (y : List V) : Prop :=
  CooExtsRun o nthreads a.nrows a.ncols a.rowOps y
def ColExtsCooRun [Zero V] (o : ExtOps V) (nthreads : Nat) (a : Coo V) (y : List V) : Prop :=
  CooExtsRun o nthreads a.ncols a.nrows a.colOps y

/-! ### Products -/

/-- `chunk_prod` (prod.rs 24–46). -/
def chunkProd [One V] [Mul V] (chunk : List V) : V :=
  if chunk.isEmpty then 1 else simdFold (· * ·) (· * ·) (· * ·) 1 chunk

/-- The common part of the global products: `full` cells (prod.rs 64–76, 117–129, 170–182,
334–346). -/
def ProdRun [Zero V] [One V] [Mul V] (full : Nat) (data : List V) (r : V) : Prop :=
  if full = 0 then r = 1
  else if data.length < full then r = 0
  else ChunkReduce chunkProd (· * ·) 1 data r

/-- `prod_coond_f64` (prod.rs 334–346). -/
def ProdNdRun [Zero V] [One V] [Mul V] (a : CooNd V) (r : V) : Prop :=
  ∃ full, productChecked a.shape = some full ∧ ProdRun full a.data r

/-- `row_prods_f64` (prod.rs 82–103), and `col_prods_csc_f64` (135–156). -/
def lineProds [Zero V] [One V] [Mul V] (a : Comp V) : List V :=
  if a.n = 0 then []
  else if a.m = 0 then List.replicate a.n 1
  else (List.range a.n).map fun i =>
    let line := (a.row i).map Prod.snd
    if line.length < a.m then 0 else chunkProd line

/-- `col_prods_f64` (prod.rs 107–111). -/
def ColProdsRun [Zero V] [One V] [Mul V] (sort : List (Int × V) → List (Int × V)) (threads : Nat) (a : Csr V)
    (y : List V) : Prop :=
  ∃ t, TransposeCsrRun sort threads a t ∧ y = lineProds t.comp

/-- `row_prods_csc_f64` (prod.rs 160–164). -/
def RowProdsCscRun [Zero V] [One V] [Mul V] (sort : List (Int × V) → List (Int × V)) (threads : Nat) (a : Csc V)
    (y : List V) : Prop :=
  ∃ t, TransposeCscRun sort threads a t ∧ y = lineProds t.comp

/-- `row_prods_coo_f64`, `col_prods_coo_f64` (prod.rs 188–328). -/
def CooProdsRun [Zero V] [One V] [Mul V] (nthreads n m : Nat) (ops : List (Nat × V)) (y : List V) : Prop :=
  if n = 0 then y = []
  else if m = 0 then y = List.replicate n 1
  else ∃ counts, countKeys n (ops.map Prod.fst) = some counts ∧
    ∃ groups, Division (chunksOf (cooChunk nthreads ops.length) ops) groups ∧
    ∃ out seen, combineSeen 1 (· * ·) n stripeLen (groups.map List.flatten) = some (out, seen) ∧
      y = (List.range n).map fun i => if counts.getD i 0 < m then 0 else out.getD i 1

def RowProdsCooRun [Zero V] [One V] [Mul V] (nthreads : Nat) (a : Coo V) (y : List V) : Prop :=
  CooProdsRun nthreads a.nrows a.ncols a.rowOps y
def ColProdsCooRun [Zero V] [One V] [Mul V] (nthreads : Nat) (a : Coo V) (y : List V) : Prop :=
  CooProdsRun nthreads a.ncols a.nrows a.colOps y

/-! ### Variance and standard deviation -/

/-- The value and its square, accumulated side by side. -/
def squares [Mul V] (l : List V) : List (V × V) := l.map fun x => (x, x * x)

/-- `chunk_sum_sum2` (varstd.rs 28–57). -/
def chunkSums [Zero V] [Add V] [Mul V] (chunk : List V) : V × V :=
  if chunk.isEmpty then (0, 0)
  else simdFold (· + ·) (· + ·) (· + ·) (0, 0) (squares chunk)

/-- `.par_chunks(4096).map(chunk_sum_sum2).reduce(|| (0.0, 0.0), …)` (varstd.rs 93–97). -/
def SumsRun [Zero V] [Add V] [Mul V] (data : List V) (r : V × V) : Prop :=
  Rayon (· + ·) ((0, 0) : V × V) ((chunksOf 4096 data).map chunkSums) r

/-- `variance_from_sums` (varstd.rs 63–75); `denom <= 0.0` is `denom < 0.0 || denom == 0.0`. -/
def varianceFromSums [Zero V] [Sub V] [Mul V] [Div V] [NatCast V] [HasLt V] [BEq V]
    (s s2 : V) (n : Nat) (correction : V) : V :=
  if n = 0 then 0
  else
    let nf : V := n
    let denom := nf - correction
    if flt denom 0 || denom == 0 then 0
    else
      let var := (s2 - s * s / nf) / denom
      if flt var 0 then 0 else var

section
variable [Zero V] [Add V] [Sub V] [Mul V] [Div V] [NatCast V] [HasLt V] [BEq V]

/-- The common part of the global variances: `n` cells (varstd.rs 88–99, 160–171, 232–243,
430–444). -/
def VarRun (n : Nat) (data : List V) (correction r : V) : Prop :=
  if n = 0 then r = 0
  else ∃ s, SumsRun data s ∧ r = varianceFromSums s.1 s.2 n correction

/-- `var_coond_f64` (varstd.rs 430–444). -/
def VarNdRun (a : CooNd V) (correction r : V) : Prop :=
  if a.shape = [] then r = 0
  else ∃ n, productChecked a.shape = some n ∧ VarRun n a.data correction r

/-- `row_vars_f64` (varstd.rs 111–129), `col_vars_csc_f64` (183–201). -/
def lineVars (a : Comp V) (correction : V) : List V :=
  if a.n = 0 then []
  else (List.range a.n).map fun i =>
    if a.m = 0 then 0
    else
      let s := chunkSums ((a.row i).map Prod.snd)
      varianceFromSums s.1 s.2 a.m correction

/-- `col_vars_f64` (varstd.rs 143–146). -/
def ColVarsRun (sort : List (Int × V) → List (Int × V)) (threads : Nat) (a : Csr V) (correction : V)
    (y : List V) : Prop :=
  ∃ t, TransposeCsrRun sort threads a t ∧ y = lineVars t.comp correction

/-- `row_vars_csc_f64` (varstd.rs 215–218). -/
def RowVarsCscRun (sort : List (Int × V) → List (Int × V)) (threads : Nat) (a : Csc V) (correction : V)
    (y : List V) : Prop :=
  ∃ t, TransposeCscRun sort threads a t ∧ y = lineVars t.comp correction

/-- `row_vars_coo_f64`, `col_vars_coo_f64` (varstd.rs 255–321, 336–401). -/
def CooVarsRun (nthreads n m : Nat) (ops : List (Nat × V)) (correction : V) (y : List V) : Prop :=
  if n = 0 then y = []
  else if m = 0 then y = List.replicate n 0
  else ∃ groups, Division (chunksOf (cooChunk nthreads ops.length)
      (ops.map fun o => (o.1, ((o.2, o.2 * o.2) : V × V)))) groups ∧
    ∃ sums, combineAdd n stripeLen (groups.map List.flatten) = some sums ∧
      y = sums.map fun s => varianceFromSums s.1 s.2 m correction

def RowVarsCooRun (nthreads : Nat) (a : Coo V) (correction : V) (y : List V) : Prop :=
  CooVarsRun nthreads a.nrows a.ncols a.rowOps correction y
def ColVarsCooRun (nthreads : Nat) (a : Coo V) (correction : V) (y : List V) : Prop :=
  CooVarsRun nthreads a.ncols a.nrows a.colOps correction y
end

/-- `std_from_var` (varstd.rs 79–81); every `std_*` and `*_stds_*` kernel applies it to the
result of the corresponding variance kernel (103–105, 133–138, 150–155, …). -/
def stdFromVar [HasSqrt V] (v : V) : V := fsqrt v

/-! ### all / any -/

/-- `x == 0.0` for a stored value. -/
def isZero [Zero V] [BEq V] (x : V) : Bool := x == 0

/-- `all_f64`, `all_csc_f64` and the last part of `all_coond_f64` (logic.rs 50–67, 176–186,
302–313). -/
def allKernel [Zero V] [BEq V] (full : Nat) (data : List V) : Bool :=
  if full = 0 then true
  else if data.length < full then false
  else !data.any isZero

/-- `any_f64`, `any_csc_f64`, `any_coond_f64` (logic.rs 76–83, 191–197, 319–325). -/
def anyKernel [Zero V] [BEq V] (full : Nat) (data : List V) : Bool :=
  if full = 0 then false else data.any fun x => !isZero x

/-- `row_alls_f64`, `col_alls_csc_f64` (logic.rs 92–118, 220–245). -/
def lineAlls [Zero V] [BEq V] (a : Comp V) : List Bool :=
  if a.n = 0 then []
  else if a.m = 0 then List.replicate a.n true
  else (List.range a.n).map fun i =>
    let line := (a.row i).map Prod.snd
    if line.length < a.m then false else !line.any isZero

/-- `row_anys_f64`, `col_anys_csc_f64` (logic.rs 126–146, 249–269). -/
def lineAnys [Zero V] [BEq V] (a : Comp V) : List Bool :=
  if a.n = 0 then []
  else if a.m = 0 then List.replicate a.n false
  else (List.range a.n).map fun i => ((a.row i).map Prod.snd).any fun x => !isZero x

/-- `col_alls_f64` (logic.rs 153–158). -/
def ColAllsRun [Zero V] [BEq V] (sort : List (Int × V) → List (Int × V)) (threads : Nat) (a : Csr V)
    (y : List Bool) : Prop :=
  ∃ t, TransposeCsrRun sort threads a t ∧ y = lineAlls t.comp

/-- `col_anys_f64` (logic.rs 163–167). -/
def ColAnysRun [Zero V] [BEq V] (sort : List (Int × V) → List (Int × V)) (threads : Nat) (a : Csr V)
    (y : List Bool) : Prop :=
  ∃ t, TransposeCsrRun sort threads a t ∧ y = lineAnys t.comp

/-- `row_alls_csc_f64` (logic.rs 201–206): through the conversion to CSR, which may leave the
rows unsorted. -/
def RowAllsCscRun [Zero V] [BEq V] (a : Csc V) (y : List Bool) : Prop :=
  ∃ t, CscToCsrRun a t ∧ y = lineAlls t.comp

/-- `row_anys_csc_f64` (logic.rs 210–213). -/
def RowAnysCscRun [Zero V] [BEq V] (a : Csc V) (y : List Bool) : Prop :=
  ∃ t, CscToCsrRun a t ∧ y = lineAnys t.comp

/-- `all_coo_f64` (logic.rs 277–281). -/
def allCoo [Zero V] [Add V] [BEq V] (sort : List ((Int × Int) × V) → List ((Int × Int) × V)) (a : Coo V) : Bool :=
  let t := cooToCsr sort a
  allKernel (satMul t.nrows t.ncols) t.data

/-- `any_coo_f64` (logic.rs 287–291). -/
def anyCoo [Zero V] [Add V] [BEq V] (sort : List ((Int × Int) × V) → List ((Int × Int) × V)) (a : Coo V) : Bool :=
  let t := cooToCsr sort a
  anyKernel (satMul t.nrows t.ncols) t.data

/-- `all_coond_f64` (logic.rs 302–313); `none`: overflow panic. -/
def allNd [Zero V] [BEq V] (a : CooNd V) : Option Bool :=
  (productChecked a.shape).map fun full => allKernel full a.data

/-- `any_coond_f64` (logic.rs 319–325). -/
def anyNd [Zero V] [BEq V] (a : CooNd V) : Option Bool :=
  (productChecked a.shape).map fun full => anyKernel full a.data

/-! ### Mean -/

/-- `mean_coond_f64` (mean.rs 29–39). -/
def MeanNdRun [Zero V] [Add V] [Div V] [NatCast V] [BEq V] (a : CooNd V) (r : V) : Prop :=
  if a.shape = [] then r = 0
  else ∃ p, productChecked a.shape = some p ∧
    if ((p : V) == 0) then r = 0 else ∃ s, SumRun a.data s ∧ r = s / (p : V)

end Lacuna
