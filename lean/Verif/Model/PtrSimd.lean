import Verif.Model.PtrSpmv
import Verif.Model.Stats
import Verif.Model.Prune
/-
The SIMD loops of the reduction and scalar kernels at pointer level
(crates/lacuna-kernels/src/statistical/{sum,prod,minmax,varstd}.rs, elementwise/{abs,multiply}.rs,
utility/prune.rs).  Nothing is assumed about the arrays: a read or write of four lanes that
does not fit is `Fault.ub`.
-/
namespace Lacuna
variable {V : Type}

/-- Four lanes. -/
abbrev Lanes (α : Type) := α × α × α × α

/-- `core::ptr::read_unaligned(p.cast::<[f64; 4]>())`. -/
def Ptr.read4 {α : Type} (p : Ptr α) : Except Fault (Lanes α) :=
  match p.buf.drop p.off with
  | a :: b :: c :: d :: _ => .ok (a, b, c, d)
  | _ => .error .ub

/-- `read_unaligned(v.as_ptr().add(i).cast::<[f64; 4]>())` (sum.rs 43–46, prod.rs 32–35,
minmax.rs 27–30, varstd.rs 37–40, prune.rs 41–44). -/
def load4 {α : Type} (v : List α) (i : Nat) : Except Fault (Lanes α) := do
  let p ← (asPtr v).add i
  p.read4

/-- `write_unaligned(v.as_mut_ptr().add(i).cast::<[f64; 4]>(), x)` (abs.rs 29–32,
multiply.rs 736–739): the vector afterwards. -/
def store4 {α : Type} (v : List α) (i : Nat) (x : Lanes α) : Except Fault (List α) := do
  let p ← (asPtr v).add i
  if p.off + 4 ≤ v.length then
    .ok ((((v.set p.off x.1).set (p.off + 1) x.2.1).set (p.off + 2) x.2.2.1).set (p.off + 3) x.2.2.2)
  else .error .ub

/-- `v[i] = x` (bounds-checked). -/
def storeIdx {α : Type} (v : List α) (i : Nat) (x : α) : Except Fault (List α) :=
  if i < v.length then .ok (v.set i x) else .error .panic

/-- `&v[s..e]` (bounds-checked). -/
def sliceP {α : Type} (v : List α) (s e : Nat) : Except Fault (List α) :=
  if s ≤ e ∧ e ≤ v.length then .ok ((v.take e).drop s) else .error .panic

/-- The in-place map: four lanes at a time, then one at a time (abs.rs 24–38, 44–58;
multiply.rs 731–746, 752–766). -/
def map4P (F : Nat) (f : V → V) (v : List V) : Except Fault (List V) := do
  let len := v.length
  let s ← untilP F (andNot len 3) (fun s => do
    let x ← load4 s.2 s.1
    let v ← store4 s.2 s.1 (f x.1, f x.2.1, f x.2.2.1, f x.2.2.2)
    pure (s.1 + 4, v)) (0, v)
  let s ← untilP F len (fun s => do
    let x ← index s.2 s.1
    let v ← storeIdx s.2 s.1 (f x)
    pure (s.1 + 1, v)) s
  pure s.2

/-- The reduction of a chunk: four lanes at a time, the lanes combined, then one at a time
(sum.rs 38–56, prod.rs 28–45, minmax.rs 23–43, varstd.rs 32–56).  `g` is what is accumulated
of each value (varstd accumulates the value and its square side by side). -/
def simdFoldP {W : Type} (F : Nat) (g : V → W) (lane comb tail : W → W → W) (e : W) (chunk : List V) :
    Except Fault W := do
  let s ← untilP F (andNot chunk.length 3) (fun s => do
    let x ← load4 chunk s.1
    pure (s.1 + 4, (lane s.2.1 (g x.1), lane s.2.2.1 (g x.2.1), lane s.2.2.2.1 (g x.2.2.1),
      lane s.2.2.2.2 (g x.2.2.2)))) (0, (e, e, e, e))
  let acc := comb (comb (comb s.2.1 s.2.2.1) s.2.2.2.1) s.2.2.2.2
  let s ← untilP F chunk.length (fun s => do
    let x ← index chunk s.1
    pure (s.1 + 1, tail s.2 (g x))) (s.1, acc)
  pure s.2

/-- Sum of one chunk (sum.rs 38–56 and its copies). -/
def chunkSumP [Zero V] [Add V] (F : Nat) (chunk : List V) : Except Fault V :=
  simdFoldP F id (· + ·) (· + ·) (· + ·) 0 chunk

/-- `chunk_prod` (prod.rs 24–46). -/
def chunkProdP [One V] [Mul V] (F : Nat) (chunk : List V) : Except Fault V :=
  if chunk.isEmpty then pure 1 else simdFoldP F id (· * ·) (· * ·) (· * ·) 1 chunk

/-- `chunk_min`, `chunk_max` (minmax.rs 19–44, 49–74). -/
def chunkExtP (F : Nat) (o : ExtOps V) (chunk : List V) : Except Fault V :=
  if chunk.isEmpty then pure o.far else simdFoldP F id o.lane o.best o.keep o.far chunk

/-- `chunk_sum_sum2` (varstd.rs 28–57). -/
def chunkSumsP [Zero V] [Add V] [Mul V] (F : Nat) (chunk : List V) : Except Fault (V × V) :=
  if chunk.isEmpty then pure (0, 0)
  else simdFoldP F (fun x => (x, x * x)) (· + ·) (· + ·) (· + ·) (0, 0) chunk

/-- `if value.abs() > eps { retained += 1 }`. -/
def countOne [HasLt V] [HasAbs V] (eps v : V) (retained : Nat) : Nat :=
  if flt eps (fabs v) then retained + 1 else retained

/-- `count_significant` (prune.rs 36–67). -/
def countSigP [HasLt V] [HasAbs V] (F : Nat) (eps : V) (values : List V) : Except Fault Nat := do
  let s ← untilP F (andNot values.length 3) (fun s => do
    let x ← load4 values s.1
    let r := countOne eps x.1 s.2
    let r := countOne eps x.2.1 r
    let r := countOne eps x.2.2.1 r
    let r := countOne eps x.2.2.2 r
    pure (s.1 + 4, r)) (0, 0)
  let s ← untilP F values.length (fun s => do
    let x ← index values s.1
    pure (s.1 + 1, countOne eps x s.2)) s
  pure s.2

/-- `data.par_chunks(4096).map(f).reduce(|| e, op)`: one of the chunks faults, or the results
are combined by some reduction tree. -/
def ReducePtr {W : Type} (f : List V → Except Fault W) (op : W → W → W) (e : W) (data : List V)
    (out : Except Fault W) : Prop :=
  ∃ oe, ParEach (chunksOf 4096 data) f oe ∧
    match oe with
    | .error x => out = .error x
    | .ok rs => ∃ r, Rayon op e rs r ∧ out = .ok r

/-- `sum_f64`, `sum_csc_f64`, `sum_coo_f64`, `sum_coond_f64` (sum.rs 35–59, 134–158, 163–187,
192–217) on the stored values. -/
def SumPtrRun [Zero V] [Add V] (F : Nat) (data : List V) (out : Except Fault V) : Prop :=
  ReducePtr (chunkSumP F) (· + ·) 0 data out

/-- `prod_f64`, `prod_csc_f64`, `prod_coo_f64` (prod.rs 64–76, 117–129, 170–182) with `full`
cells. -/
def ProdPtrRun [Zero V] [One V] [Mul V] (F full : Nat) (data : List V) (out : Except Fault V) : Prop :=
  if full = 0 then out = .ok 1
  else if data.length < full then out = .ok 0
  else ReducePtr (chunkProdP F) (· * ·) 1 data out

/-- `min_*_f64`, `max_*_f64` (minmax.rs 80–120, 195–231, 306–342). -/
def ExtPtrRun [Zero V] (F : Nat) (o : ExtOps V) (nrows ncols : Nat) (data : List V)
    (out : Except Fault V) : Prop :=
  if nrows = 0 ∨ ncols = 0 then out = .ok 0
  else ∃ od, ReducePtr (chunkExtP F o) o.best o.far data od ∧
    match od with
    | .error x => out = .error x
    | .ok d => out = .ok (if data.length < satMul nrows ncols then o.best d 0 else d)

/-- `.par_chunks(4096).map(chunk_sum_sum2).reduce(..)` (varstd.rs 93–97). -/
def SumsPtrRun [Zero V] [Add V] [Mul V] (F : Nat) (data : List V) (out : Except Fault (V × V)) : Prop :=
  ReducePtr (chunkSumsP F) (· + ·) (0, 0) data out

/-- The value array of the SIMD maps: serial below the threshold, else `par_chunks_mut(4096)`,
each chunk an exclusive slice (abs.rs 23–60, multiply.rs 728–767). -/
def SimdMapPtrRun (F : Nat) (f : V → V) (data : List V) (out : Except Fault (List V)) : Prop :=
  if data.length < smallNnzSimd then out = map4P F f data
  else ∃ oe, ParEach (chunksOf 4096 data) (map4P F f) oe ∧
    match oe with
    | .error x => out = .error x
    | .ok cs => out = .ok cs.flatten

/-- `abs_scalar_*` (abs.rs 19–202) on the stored values. -/
def AbsPtrRun [HasAbs V] (F : Nat) (data : List V) (out : Except Fault (List V)) : Prop :=
  SimdMapPtrRun F fabs data out

/-- `mul_scalar_*` (multiply.rs 720–768, 786–834, 855–903, 923–974) on the stored values. -/
def MulScalarPtrRun [Zero V] [One V] [Mul V] [BEq V] (F : Nat) (alpha : V) (data : List V)
    (out : Except Fault (List V)) : Prop :=
  if alpha == 1 then out = .ok data
  else if alpha == 0 then out = .ok (List.replicate data.length 0)
  else SimdMapPtrRun F (fun v => v * alpha) data out

/-- The sum of one line (sum.rs 249–271, 540–560). -/
def lineSumP [Zero V] [Add V] (dbg : Bool) (F : Nat) (a : Comp V) (i : Nat) : Except Fault V := do
  let s ← i64ToUsizeP dbg (← index a.indptr i)
  let e ← i64ToUsizeP dbg (← index a.indptr (i + 1))
  let row ← sliceP a.data s e
  chunkSumP F row

/-- One work item of `row_sums_f64` (sum.rs 246–273). -/
def rowSumsRangeP [Zero V] [Add V] (dbg : Bool) (F : Nat) (a : Comp V) (r : Nat × Nat) :
    Except Fault (List (Nat × V)) :=
  (rangeLines r).mapM fun i => do
    let v ← lineSumP dbg F a i
    MutPtr.put ⟨a.n, 0⟩ i v

/-- `row_sums_f64` (sum.rs 222–275). -/
def RowSumsPtrRun [Zero V] [Add V] (dbg : Bool) (F : Nat) (a : Csr V) (out : Except Fault (List V)) :
    Prop :=
  RangesPtr (rangesP dbg (128 * 1024) a.comp a.nrows 0 0 0) (rowSumsRangeP dbg F a.comp)
    (List.replicate a.nrows 0) out

/-- `col_sums_csc_f64` (sum.rs 533–563). -/
def ColSumsCscPtrRun [Zero V] [Add V] (dbg : Bool) (F : Nat) (a : Csc V) (out : Except Fault (List V)) :
    Prop :=
  if a.ncols = 0 then out = .ok []
  else ParCollect a.ncols (lineSumP dbg F a.comp) out

end Lacuna
