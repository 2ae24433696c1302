import Verif.Model.PtrSimd
import Verif.Model.PtrDiff
import Verif.Model.PtrCumulative
import Verif.Model.Sums
/-
The scatter kernels with thread-local accumulators at pointer level: `UsizeF64Map`
(crates/lacuna-kernels/src/utility/util.rs 33–148), the sums along the other axis
(statistical/sum.rs 280–752), the matrix-vector products (linalg/matmul.rs 61–207, 310–430) and
`vecdot` (linalg/vecdot.rs 90–183, 440–473).  Nothing is assumed about the arrays.

Safe code without unchecked accesses (the dense and striped accumulators and their checked merges) is
taken from `Model/Accum`, its failures are panics.  Not modelled: the outer vectors of one element per
stripe or thread; work that rayon still runs on a thread after one of its items panicked (the call
panics anyway; the only unchecked accesses there are those of `insertAddP`, for which
`hmap_insert_no_ub` covers every state).
-/
namespace Lacuna
variable {V : Type}

namespace HMap

/-- The probing loop of `insert_add` (util.rs 69–89). -/
def probeP (keys : List Nat) (mask key : Nat) : Nat → Nat → Except Fault Nat
  | 0, _ => .error .fuel
  | F + 1, idx => do
    let k ← getUnchecked keys idx
    if k = usizeMax then pure idx
    else if k = key then pure idx
    else probeP keys mask key F ((idx + 1) &&& mask)

/-- The probing loop of `grow` (util.rs 105–112). -/
def probeFreeP (keys : List Nat) (mask : Nat) : Nat → Nat → Except Fault Nat
  | 0, _ => .error .fuel
  | F + 1, idx => do
    let k ← index keys idx
    if k = usizeMax then pure idx else probeFreeP keys mask F ((idx + 1) &&& mask)

/-- Body of the rehash loop of `grow` (util.rs 101–114) for slot `i`. -/
def rehashP (F : Nat) (m : HMap V) (newMask : Nat) (st : List Nat × List V) (i : Nat) :
    Except Fault (List Nat × List V) := do
  let k ← index m.keys i
  if k = usizeMax then pure st
  else
    let idx ← probeFreeP st.1 newMask F (hash k &&& newMask)
    let keys ← storeIdx st.1 idx k
    let v ← index m.vals i
    let vals ← storeIdx st.2 idx v
    pure (keys, vals)

/-- `grow` (util.rs 94–117). -/
def growP [Zero V] (dbg : Bool) (F : Nat) (m : HMap V) : Except Fault (HMap V) := do
  let newCap ← mulUsize dbg m.keys.length 2
  withCapP 8 newCap
  let newMask ← subUsize dbg newCap 1
  let st ← (List.range m.keys.length).foldlM (rehashP F m newMask)
    (List.replicate newCap usizeMax, List.replicate newCap 0)
  pure ⟨st.1, st.2, newMask, m.len⟩

/-- `insert_add` (util.rs 66–90). -/
def insertAddP [Zero V] [Add V] (dbg : Bool) (F : Nat) (m : HMap V) (key : Nat) (val : V) :
    Except Fault (HMap V) :=
  if dbg && decide (key = usizeMax) then .error .panic
  else do
    let idx ← probeP m.keys m.mask key F (hash key &&& m.mask)
    let k ← getUnchecked m.keys idx
    if k = usizeMax then
      let keys ← setUnchecked m.keys idx key
      let vals ← setUnchecked m.vals idx val
      let len ← addUsize dbg m.len 1
      let load ← mulUsize dbg len 10
      let limit ← mulUsize dbg keys.length 7
      if load > limit then growP dbg F ⟨keys, vals, m.mask, len⟩ else pure ⟨keys, vals, m.mask, len⟩
    else
      let v ← getUnchecked m.vals idx
      let vals ← setUnchecked m.vals idx (v + val)
      pure ⟨m.keys, vals, m.mask, m.len⟩

/-- A sequence of `insert_add` calls. -/
def insertAllP [Zero V] [Add V] (dbg : Bool) (F : Nat) (m : HMap V) (ops : List (Nat × V)) :
    Except Fault (HMap V) :=
  ops.foldlM (fun m o => insertAddP dbg F m o.1 o.2) m

/-- `drain_to` (util.rs 121–132). -/
def drainToP [Add V] (m : HMap V) (out : List V) : Except Fault (List V) :=
  (List.range m.keys.length).foldlM (fun out i => do
    let k ← index m.keys i
    if k = usizeMax then pure out
    else
      let p ← getUnchecked out k
      let v ← index m.vals i
      setUnchecked out k (p + v)) out

end HMap

/-! ### Work items -/

/-- `acc[j] += v` (bounds-checked). -/
def addIdxP [Add V] (acc : List V) (j : Nat) (v : V) : Except Fault (List V) := do
  let x ← index acc j
  storeIdx acc j (x + v)

/-- The entries of line `i`, each value mapped by `f i` (sum.rs 290–297, 332–338, 376–394, 451–459,
472–491; matmul.rs 108–115, 132–141, 170–187; vecdot.rs 132–155). -/
def scatterLineP {A : Type} (dbg : Bool) (a : Comp V) (f : Nat → V → V) (add : A → Nat → V → Except Fault A)
    (acc : A) (i : Nat) : Except Fault A := do
  let s ← i64ToUsizeP dbg (← index a.indptr i)
  let e ← i64ToUsizeP dbg (← index a.indptr (i + 1))
  (List.range' s (e - s)).foldlM (fun acc p => do
    let j ← i64ToUsizeP dbg (← index a.indices p)
    let v ← index a.data p
    add acc j (f i v)) acc

/-- The lines of a work range; `skip i` lines are left out. -/
def scatterRangeP {A : Type} (dbg : Bool) (a : Comp V) (f : Nat → V → V) (skip : Nat → Bool)
    (add : A → Nat → V → Except Fault A) (acc : A) (r : Nat × Nat) : Except Fault A :=
  (rangeLines r).foldlM (fun acc i => if skip i then pure acc else scatterLineP dbg a f add acc i) acc

/-- Chunk `t` of `size` of the `nnz` entries of a COO matrix; `op k` loads the operation of entry `k`,
`none` is no operation (sum.rs 580–589, 606–624, 665–674, 691–709; matmul.rs 331–341, 353–365, 380–402;
vecdot.rs 451–465). -/
def scatterChunkP {A : Type} (op : Nat → Except Fault (Option (Nat × V))) (nnz size : Nat)
    (add : A → Nat → V → Except Fault A) (acc : A) (t : Nat) : Except Fault A :=
  let start := t * size
  let stop := min (start + size) nnz
  (List.range' start (stop - start)).foldlM (fun acc k => do
    match ← op k with
    | none => pure acc
    | some o => add acc o.1 o.2) acc

/-- A parallel loop over `items` with one accumulator per thread: every thread runs its items one after
the other; then the accumulators are merged. -/
def TlsPtr {ι A : Type} (items : List ι) (work : A → ι → Except Fault A) (init : A)
    (merge : List A → Except Fault (List V) → Prop) (out : Except Fault (List V)) : Prop :=
  ∃ groups, Division items groups ∧ ∃ oe, ParEach groups (fun g => g.foldlM work init) oe ∧
    match oe with
    | .error x => out = .error x
    | .ok accs => merge accs out

/-- Work ranges, then the loop over them. -/
def TlsRangesPtr {A : Type} (items : Except Fault (List (Nat × Nat))) (work : A → Nat × Nat → Except Fault A)
    (init : A) (merge : List A → Except Fault (List V) → Prop) (out : Except Fault (List V)) : Prop :=
  match items with
  | .error x => out = .error x
  | .ok rs => TlsPtr rs work init merge out

/-! ### Merging -/

/-- `*q.add(i) += x` for a vector owned by the running thread. -/
def rawAddP [Add V] (y : List V) (i : Nat) (x : V) : Except Fault (List V) := do
  let v ← (asPtr y).get i
  setUnchecked y i (v + x)

/-- Adding a dense accumulator to the output (sum.rs 300–321). -/
def mergePlainP [Add V] (F n : Nat) (y l : List V) : Except Fault (List V) := do
  let s ← untilP F (andNot n 3) (fun s => do
    let o ← load4 s.2 s.1
    let x ← load4 l s.1
    let y ← store4 s.2 s.1 (o.1 + x.1, o.2.1 + x.2.1, o.2.2.1 + x.2.2.1, o.2.2.2 + x.2.2.2)
    pure (s.1 + 4, y)) (0, y)
  let s ← untilP F n (fun s => do
    let x ← index l s.1
    let y ← rawAddP s.2 s.1 x
    pure (s.1 + 1, y)) s
  pure s.2

/-- The accumulators are added to the output, allocated after the loop, one after the other. -/
def MergeSeq [Zero V] {A : Type} (n : Nat) (step : List V → A → Except Fault (List V)) (accs : List A)
    (out : Except Fault (List V)) : Prop :=
  out = do
    let y ← zeroVecP n
    accs.foldlM step y

/-- The checked merge of a dense accumulator with touched list (matmul.rs 145–158, 372–384). -/
def mergeTouchP [Zero V] [Add V] (n : Nat) (y : List V) (c : TouchAcc V) : Except Fault (List V) :=
  ofOptionP (addAll? y (c.updates 0 n))

/-- The checked merge of a striped accumulator (matmul.rs 189–206, 410–428; sum.rs 626–643;
vecdot.rs 159–182). -/
def mergeStripeP [Zero V] [Add V] (stripe : Nat) (y : List V) (accs : List (Option (TouchAcc V))) :
    Except Fault (List V) :=
  ofOptionP (addAll? y ((List.range accs.length).flatMap (stripeUpdatesSeq stripe accs)))

/-- `*p += *q; *p.add(1) += *q.add(1); ..` (sum.rs 504–512). -/
def add4P [Add V] (dbg : Bool) (base : Nat) (vals : List V) (s : Nat × List V) : Except Fault (Nat × List V) := do
  let b ← addUsize dbg base s.1
  let q ← (asPtr vals).add s.1
  let y ← rawAddP s.2 b (← q.get 0)
  let y ← rawAddP y (b + 1) (← q.get 1)
  let y ← rawAddP y (b + 2) (← q.get 2)
  let y ← rawAddP y (b + 3) (← q.get 3)
  pure (s.1 + 4, y)

/-- The merge of one stripe in `row_sums_csc_f64` (sum.rs 496–524). -/
def mergeStripeRawOneP [Zero V] [Add V] (dbg : Bool) (F stripe : Nat) (y : List V)
    (e : Option (TouchAcc V) × Nat) : Except Fault (List V) :=
  match e.1 with
  | none => pure y
  | some c => do
    let base ← mulUsize dbg e.2 stripe
    let len := c.vals.length
    if c.touched.length > len / 2 then
      let s ← untilP F (andNot len 3) (add4P dbg base c.vals) (0, y)
      let s ← untilP F len (fun s => do
        let y ← addIdxP s.2 (← addUsize dbg base s.1) (← index c.vals s.1)
        pure (s.1 + 1, y)) s
      pure s.2
    else c.touched.foldlM (fun y off => do addIdxP y (← addUsize dbg base off) (← index c.vals off)) y

/-- The merge of a striped accumulator in `row_sums_csc_f64` (sum.rs 494–526). -/
def mergeStripeRawP [Zero V] [Add V] (dbg : Bool) (F stripe : Nat) (y : List V)
    (accs : List (Option (TouchAcc V))) : Except Fault (List V) :=
  accs.zipIdx.foldlM (mergeStripeRawOneP dbg F stripe) y

/-- `*out_ptr.add(i) += x` in a parallel loop, as an event; `n` is the length of the output. -/
def rawEventP (n i : Nat) (x : V) : Except Fault (Nat × V) := MutPtr.put ⟨n, 0⟩ i x

/-- Four lanes read, added and written back (sum.rs 411–419, 724–732), as four events. -/
def lanesEventP (dbg : Bool) (n base : Nat) (vals : List V) (s : Nat × List (Nat × V)) :
    Except Fault (Nat × List (Nat × V)) := do
  let q ← MutPtr.add ⟨n, 0⟩ (← addUsize dbg base s.1)
  if q.off + 4 ≤ n then
    let x ← load4 vals s.1
    pure (s.1 + 4, s.2 ++ [(q.off, x.1), (q.off + 1, x.2.1), (q.off + 2, x.2.2.1), (q.off + 3, x.2.2.2)])
  else .error .ub

/-- What the task of stripe `sid` adds for one accumulator (sum.rs 403–433, 716–746). -/
def stripeEventsP [Zero V] (dbg : Bool) (F n base len : Nat) (o : Option (TouchAcc V)) :
    Except Fault (List (Nat × V)) :=
  match o with
  | none => pure []
  | some c =>
    if c.touched.length > len / 2 then do
      let s ← untilP F (andNot len 3) (lanesEventP dbg n base c.vals) (0, [])
      let s ← untilP F len (fun s => do
        let e ← rawEventP n (← addUsize dbg base s.1) (← index c.vals s.1)
        pure (s.1 + 1, s.2 ++ [e])) s
      pure s.2
    else c.touched.mapM fun off => do rawEventP n (← addUsize dbg base off) (← index c.vals off)

/-- The task of stripe `sid` (sum.rs 398–435, 711–748): the additions for all accumulators. -/
def stripeTaskP [Zero V] (dbg : Bool) (F n stripe : Nat) (cells : List (List (Option (TouchAcc V)))) (sid : Nat) :
    Except Fault (List (Nat × V)) := do
  let base ← mulUsize dbg sid stripe
  let len := min (← subUsize dbg n base) stripe
  let evs ← cells.mapM fun accs => do stripeEventsP dbg F n base len (← index accs sid)
  pure evs.flatten

/-- The parallel merge (sum.rs 395–437, 709–751).  An addition reads and writes its position, so two
tasks must not touch the same position; then the order of the tasks is irrelevant. -/
def MergeStripesPtr [Zero V] [Add V] (dbg : Bool) (F n stripe : Nat) (cells : List (List (Option (TouchAcc V))))
    (out : Except Fault (List V)) : Prop :=
  match (zeroVecP n : Except Fault (List V)) with
  | .error x => out = .error x
  | .ok y => ∃ oe, ParCollect ((n + stripe - 1) / stripe) (stripeTaskP dbg F n stripe cells) oe ∧
    match oe with
    | .error x => out = .error x
    | .ok evs => (¬ raceFree1 evs ∧ out = .error .ub) ∨ (raceFree1 evs ∧ out = .ok (addAll y evs.flatten))

/-! ### Kernels -/

/-- Accumulation in hash maps (capacity 1024). -/
def hashAdd [Zero V] [Add V] (dbg : Bool) (F : Nat) (m : HMap V) (k : Nat) (v : V) : Except Fault (HMap V) :=
  m.insertAddP dbg F k v
/-- Accumulation in a dense vector with touched list. -/
def touchAdd [Zero V] [Add V] (c : TouchAcc V) (k : Nat) (v : V) : Except Fault (TouchAcc V) :=
  ofOptionP (c.add k v)
/-- Accumulation in stripes. -/
def stripesAdd [Zero V] [Add V] (n stripe : Nat) (c : List (Option (TouchAcc V))) (k : Nat) (v : V) :
    Except Fault (List (Option (TouchAcc V))) := ofOptionP (stripeAdd n stripe c k v)
/-- `vec![None; nstripes]`. -/
def noStripes (V : Type) (n stripe : Nat) : List (Option (TouchAcc V)) := List.replicate ((n + stripe - 1) / stripe) none

/-- `col_sums_f64` (sum.rs 280–438). -/
def ColSumsPtr [Zero V] [Add V] (dbg : Bool) (F nthreads : Nat) (a : Csr V) (out : Except Fault (List V)) : Prop :=
  let n := a.ncols
  if n = 0 then out = .ok []
  else if n ≤ smallDimLimit then
    TlsPtr (List.range a.nrows) (scatterLineP dbg a.comp (fun _ v => v) addIdxP) (List.replicate n 0)
      (MergeSeq n (mergePlainP F n)) out
  else if a.data.length < satMul (n / 2) (max nthreads 1) then
    TlsPtr (List.range a.nrows) (scatterLineP dbg a.comp (fun _ v => v) (hashAdd dbg F)) (HMap.withCapacity 1024)
      (MergeSeq n fun y m => m.drainToP y) out
  else
    TlsRangesPtr (rangesP dbg (128 * 1024) a.comp a.nrows 0 0 0)
      (scatterRangeP dbg a.comp (fun _ v => v) (fun _ => false) (stripesAdd n stripeLen)) (noStripes V n stripeLen)
      (MergeStripesPtr dbg F n stripeLen) out

/-- `row_sums_csc_f64` (sum.rs 443–528). -/
def RowSumsCscPtr [Zero V] [Add V] (dbg : Bool) (F : Nat) (a : Csc V) (out : Except Fault (List V)) : Prop :=
  let n := a.nrows
  if n = 0 then out = .ok []
  else if n ≤ smallDimLimit ∨ a.data.length ≤ smallNnzLimit then
    TlsPtr (List.range a.ncols) (scatterLineP dbg a.comp (fun _ v => v) (hashAdd dbg F)) (HMap.withCapacity 1024)
      (MergeSeq n fun y m => m.drainToP y) out
  else
    TlsPtr (List.range a.ncols) (scatterLineP dbg a.comp (fun _ v => v) (stripesAdd n stripeLen))
      (noStripes V n stripeLen) (MergeSeq n (mergeStripeRawP dbg F stripeLen)) out

/-- Index `k` of `idx` and value `k` (sum.rs 586–587, 671–672). -/
def cooSumOpP (dbg : Bool) (idx : List Int) (data : List V) (k : Nat) : Except Fault (Option (Nat × V)) := do
  let i ← i64ToUsizeP dbg (← index idx k)
  let v ← index data k
  pure (some (i, v))

/-- The chunks of a COO kernel (sum.rs 580–582, matmul.rs 328, 331). -/
def cooItems (nthreads nnz : Nat) : List Nat :=
  List.range ((nnz + cooChunk nthreads nnz - 1) / cooChunk nthreads nnz)

/-- `row_sums_coo_f64` (sum.rs 568–645). -/
def RowSumsCooPtr [Zero V] [Add V] (dbg : Bool) (F nthreads : Nat) (a : Coo V) (out : Except Fault (List V)) : Prop :=
  let n := a.nrows
  let nnz := a.data.length
  let op := cooSumOpP dbg a.row a.data
  if n = 0 then out = .ok []
  else if nnz = 0 then out = zeroVecP n
  else if nnz ≤ smallNnzLimit ∨ n ≤ smallDimLimit then
    TlsPtr (cooItems nthreads nnz) (scatterChunkP op nnz (cooChunk nthreads nnz) (hashAdd dbg F))
      (HMap.withCapacity 1024) (MergeSeq n fun y m => m.drainToP y) out
  else
    TlsPtr (cooItems nthreads nnz) (scatterChunkP op nnz (cooChunk nthreads nnz) (stripesAdd n stripeLen))
      (noStripes V n stripeLen) (MergeSeq n (mergeStripeP stripeLen)) out

/-- `col_sums_coo_f64` (sum.rs 651–752). -/
def ColSumsCooPtr [Zero V] [Add V] (dbg : Bool) (F nthreads : Nat) (a : Coo V) (out : Except Fault (List V)) : Prop :=
  let n := a.ncols
  let nnz := a.data.length
  let op := cooSumOpP dbg a.col a.data
  if n = 0 then out = .ok []
  else if nnz = 0 then out = zeroVecP n
  else if nnz < satMul (n / 2) (max nthreads 1) then
    TlsPtr (cooItems nthreads nnz) (scatterChunkP op nnz (cooChunk nthreads nnz) (hashAdd dbg F))
      (HMap.withCapacity 1024) (MergeSeq n fun y m => m.drainToP y) out
  else
    TlsPtr (cooItems nthreads nnz) (scatterChunkP op nnz (cooChunk nthreads nnz) (stripesAdd n stripeLen))
      (noStripes V n stripeLen) (MergeStripesPtr dbg F n stripeLen) out

/-- The three strategies of the matrix-vector products (matmul.rs 104–206, 329–428); `work` is the loop
body for each kind of accumulator, the output `y` exists already. -/
def SpmvStrategiesPtr [Zero V] [Add V] {ι : Type} (dbg : Bool) (F nthreads n nnz : Nat) (y : List V)
    (items : Except Fault (List ι)) (work : {A : Type} → (A → Nat → V → Except Fault A) → A → ι → Except Fault A)
    (out : Except Fault (List V)) : Prop :=
  match items with
  | .error x => out = .error x
  | .ok rs =>
    if nnz < satMul (n / 2) (max nthreads 1) then
      TlsPtr rs (work (hashAdd dbg F)) (HMap.withCapacity 1024)
        (fun accs out => out = accs.foldlM (fun y m => m.drainToP y) y) out
    else if n ≤ stripeLen * 2 then
      TlsPtr rs (work touchAdd) (TouchAcc.empty n) (fun accs out => out = accs.foldlM (mergeTouchP n) y) out
    else
      TlsPtr rs (work (stripesAdd n stripeLen)) (noStripes V n stripeLen)
        (fun accs out => out = accs.foldlM (mergeStripeP stripeLen) y) out

/-- `spmv_csc_f64_i64` (matmul.rs 61–207). -/
def SpmvCscPtr [Zero V] [Add V] [Mul V] (dbg : Bool) (F nthreads : Nat) (a : Csc V) (x : List V)
    (out : Except Fault (List V)) : Prop :=
  if x.length = a.ncols then
    match (zeroVecP a.nrows : Except Fault (List V)) with
    | .error e => out = .error e
    | .ok y =>
      let f := fun j v => v * x.getD j 0
      if a.ncols ≤ smallDimLimit ∨ a.data.length ≤ smallNnzLimit then
        out = (List.range a.ncols).foldlM (scatterLineP dbg a.comp f addIdxP) y
      else
        SpmvStrategiesPtr dbg F nthreads a.nrows a.data.length y (rangesP dbg (128 * 1024) a.comp a.ncols 0 0 0)
          (fun add => scatterRangeP dbg a.comp f (fun _ => false) add) out
  else out = .error .panic

/-- Entry `k` as an operation on its row (matmul.rs 318–320, 336–339). -/
def cooMulOpP [Mul V] (dbg : Bool) (a : Coo V) (x : List V) (k : Nat) : Except Fault (Option (Nat × V)) := do
  let i ← i64ToUsizeP dbg (← index a.row k)
  let j ← i64ToUsizeP dbg (← index a.col k)
  let v ← index a.data k
  let xv ← index x j
  pure (some (i, v * xv))

/-- `spmv_coo_f64_i64` (matmul.rs 310–430). -/
def SpmvCooPtr [Zero V] [Add V] [Mul V] (dbg : Bool) (F nthreads : Nat) (a : Coo V) (x : List V)
    (out : Except Fault (List V)) : Prop :=
  if x.length = a.ncols then
    match (zeroVecP a.nrows : Except Fault (List V)) with
    | .error e => out = .error e
    | .ok y =>
      let nnz := a.data.length
      if a.nrows ≤ smallDimLimit ∨ nnz ≤ smallNnzLimit then
        out = scatterChunkP (cooMulOpP dbg a x) nnz nnz addIdxP y 0
      else
        SpmvStrategiesPtr dbg F nthreads a.nrows nnz y (.ok (cooItems nthreads nnz))
          (fun add => scatterChunkP (cooMulOpP dbg a x) nnz (cooChunk nthreads nnz) add) out
  else out = .error .panic

/-- `vecdot_csr_dense_axis0_f64_i64` (vecdot.rs 90–183). -/
def VecdotCsrPtr [Zero V] [Add V] [Mul V] [BEq V] (dbg : Bool) (a : Csr V) (x : List V)
    (out : Except Fault (List V)) : Prop :=
  if x.length = a.nrows then
    if a.ncols = 0 then out = .ok []
    else
      TlsRangesPtr (rangesP dbg (128 * 1024) a.comp a.nrows 0 0 0)
        (scatterRangeP dbg a.comp (fun i v => v * x.getD i 0) (fun i => x.getD i 0 == 0)
          (stripesAdd a.ncols stripeLen)) (noStripes V a.ncols stripeLen)
        (MergeSeq a.ncols (mergeStripeP stripeLen)) out
  else out = .error .panic

/-- Entry `k` as an operation on its column (vecdot.rs 458–464). -/
def cooDotOpP [Zero V] [Mul V] [BEq V] (dbg : Bool) (a : Coo V) (x : List V) (k : Nat) :
    Except Fault (Option (Nat × V)) := do
  let i ← i64ToUsizeP dbg (← index a.row k)
  let j ← i64ToUsizeP dbg (← index a.col k)
  let w ← index x i
  if w == 0 then pure none
  else
    let v ← index a.data k
    pure (some (j, v * w))

/-- `vecdot_coo_dense_axis0_f64_i64` (vecdot.rs 440–473). -/
def VecdotCooPtr [Zero V] [Add V] [Mul V] [BEq V] (dbg : Bool) (F nthreads : Nat) (a : Coo V) (x : List V)
    (out : Except Fault (List V)) : Prop :=
  let nnz := a.data.length
  if x.length = a.nrows then
    if a.ncols = 0 ∨ nnz = 0 then out = zeroVecP a.ncols
    else
      TlsPtr (cooItems nthreads nnz) (scatterChunkP (cooDotOpP dbg a x) nnz (cooChunk nthreads nnz) (hashAdd dbg F))
        (HMap.withCapacity 1024) (MergeSeq a.ncols fun y m => m.drainToP y) out
  else out = .error .panic

end Lacuna
