import Verif.Model.PtrNd
import Verif.Model.PtrAccum
import Verif.Model.Spmm
/-
The N-D COO kernels that accumulate linear keys in a `UsizeF64Map`, at pointer level:
`add_coond`, `sub_coond` (elementwise/add.rs 376–440, subtract.rs 401–463), `hadamard_coond`
(elementwise/multiply.rs 330–404), `reduce_sum_axes_coond` (statistical/sum.rs 64–129),
`spmv_coond` and `spmm_coond` (linalg/matmul.rs 229–289, 832–961).  Nothing is assumed about
the arrays; every index, product, division and cast is checked as the Rust code checks it.

Simplifications: the vectors of axes, shapes and strides have at most as many elements as the
shape they are computed from, so their allocation is left out (as in `Model/PtrNd`); growth of
a vector by `push` allocates its final length at once.  `F` bounds the iterations of the
probing loops and of the `while` loops.
-/
namespace Lacuna
variable {V : Type}

/-! ### The map -/

/-- `usize::next_power_of_two`: a result that does not fit is a panic in debug builds and 0 in
release builds. -/
def nextPow2P (dbg : Bool) (n : Nat) : Except Fault Nat :=
  if nextPow2 n ≤ usizeMax then .ok (nextPow2 n) else if dbg then .error .panic else .ok 0

/-- `with_capacity` (util.rs 44–55). -/
def HMap.withCapacityP [Zero V] (dbg : Bool) (cap : Nat) : Except Fault (HMap V) := do
  let c ← nextPow2P dbg cap
  let cap2 := max c 16
  withCapP 8 cap2
  pure ⟨List.replicate cap2 usizeMax, List.replicate cap2 0, cap2 - 1, 0⟩

/-- Slot `i` of `pairs` (util.rs 140–145). -/
def HMap.pairStepP (m : HMap V) (out : List (Nat × V)) (i : Nat) : Except Fault (List (Nat × V)) := do
  let k ← index m.keys i
  if k = usizeMax then pure out
  else
    let v ← index m.vals i
    pure (out ++ [(k, v)])

/-- `pairs` (util.rs 137–147). -/
def HMap.pairsP (m : HMap V) : Except Fault (List (Nat × V)) := do
  withCapP 16 m.len
  (List.range m.keys.length).foldlM m.pairStepP []

/-! ### Linearisation and back -/

/-- One axis of the linearisation loop with bounds-checked reads (add.rs 398–403, sum.rs 99–105,
matmul.rs 261–266): axis `dm.1` is the `dm.2`-th of the loop. -/
def linIdxStepP (dbg : Bool) (indices : List Int) (base : Nat) (st : List Nat) (lin : Nat) (dm : Nat × Nat) :
    Except Fault Nat := do
  let p ← addUsize dbg base dm.1
  let idx ← i64ToUsizeP dbg (← index indices p)
  let s ← index st dm.2
  let q ← expectP (checkedMul idx s)
  expectP (checkedAdd lin q)

/-- The linearisation loop. -/
def linIdxP (dbg : Bool) (indices : List Int) (base : Nat) (st axes : List Nat) : Except Fault Nat :=
  axes.zipIdx.foldlM (linIdxStepP dbg indices base st) 0

/-- `a / b` on `usize`: division by zero panics. -/
def divP (a b : Nat) : Except Fault Nat := if b = 0 then .error .panic else .ok (a / b)

/-- One axis of the de-linearisation loop (add.rs 430–434): rest and output buffer. -/
def delinIdxStepP (dbg : Bool) (st : List Nat) (base : Nat) (r : Nat × List Int) (d : Nat) :
    Except Fault (Nat × List Int) := do
  let s ← index st d
  let idx ← divP r.1 s
  let q ← mulUsize dbg idx s
  let rem ← subUsize dbg r.1 q
  let x ← usizeToI64P dbg idx
  let p ← addUsize dbg base d
  let out ← setIdxP r.2 p x
  pure (rem, out)

/-- One result entry (add.rs 428–436). -/
def delinEntryP (dbg : Bool) (st : List Nat) (out : List Int) (e : (Nat × V) × Nat) : Except Fault (List Int) := do
  let base ← mulUsize dbg e.2 st.length
  let r ← (List.range st.length).foldlM (delinIdxStepP dbg st base) (e.1.1, out)
  pure r.2

/-- Building the result (add.rs 424–439; sum.rs 112–128; matmul.rs 274–288, 945–960; multiply.rs
293–307, 390–403). -/
def ndBuildP (dbg : Bool) (shape st : List Nat) (pairs : List (Nat × V)) : Except Fault (CooNd V) := do
  withCapP 8 pairs.length
  let len ← mulUsize dbg pairs.length st.length
  let buf ← zerosP len
  let ix ← pairs.zipIdx.foldlM (delinEntryP dbg st) buf
  pure ⟨shape, ix, pairs.map Prod.snd⟩

/-! ### The accumulation loop -/

/-- Key and value of entry `k` (add.rs 395–405, sum.rs 96–108). -/
def entryOpP (dbg : Bool) (a : CooNd V) (st axes : List Nat) (f : V → V) (k : Nat) :
    Except Fault (Option (Nat × V)) := do
  let base ← mulUsize dbg k a.shape.length
  let lin ← linIdxP dbg a.indices base st axes
  let v ← index a.data k
  pure (some (lin, f v))

/-- The loop over the entries: at most one insertion for each. -/
def accLoopP [Zero V] [Add V] (dbg : Bool) (F n : Nat) (op : Nat → Except Fault (Option (Nat × V))) (m : HMap V) :
    Except Fault (HMap V) :=
  (List.range n).foldlM (fun m k => do
    match ← op k with
    | none => pure m
    | some o => m.insertAddP dbg F o.1 o.2) m

/-! ### Kernels -/

/-- `assert!`. -/
def assertP (b : Bool) : Except Fault Unit := if b then .ok () else .error .panic

/-- `add_coond_f64_i64` (add.rs 376–440) with `f = id`; `sub_coond_f64_i64` (subtract.rs
401–463) with `f = -·`. -/
def unionNdP [Zero V] [Add V] [BEq V] (dbg : Bool) (F : Nat) (f : V → V) (sort : List (Nat × V) → List (Nat × V))
    (a b : CooNd V) : Except Fault (CooNd V) := do
  assertP (a.shape.length == b.shape.length)
  assertP (a.shape == b.shape)
  let st ← expectP (stridesPos? a.shape)
  let cap ← addUsize dbg a.data.length b.data.length
  let m ← HMap.withCapacityP dbg cap
  let m ← accLoopP dbg F a.data.length (entryOpP dbg a st (List.range st.length) id) m
  let m ← accLoopP dbg F b.data.length (entryOpP dbg b st (List.range st.length) f) m
  let pairs ← m.pairsP
  withCapP 16 (sort pairs).length
  ndBuildP dbg a.shape st ((sort pairs).filter fun e => !(e.2 == 0))

/-- `add_coond_f64_i64` (add.rs 376–440). -/
def addNdP [Zero V] [Add V] [BEq V] (dbg : Bool) (F : Nat) (sort : List (Nat × V) → List (Nat × V))
    (a b : CooNd V) : Except Fault (CooNd V) := unionNdP dbg F id sort a b

/-- `sub_coond_f64_i64` (subtract.rs 401–463). -/
def subNdP [Zero V] [Add V] [Neg V] [BEq V] (dbg : Bool) (F : Nat) (sort : List (Nat × V) → List (Nat × V))
    (a b : CooNd V) : Except Fault (CooNd V) := unionNdP dbg F (fun v => -v) sort a b

/-- `hadamard_coond_f64_i64` (multiply.rs 330–404).  The merge loop indexes below the lengths it
tests. -/
def hadamardNdP [Zero V] [Add V] [Mul V] [BEq V] (dbg : Bool) (F : Nat) (sort : List (Nat × V) → List (Nat × V))
    (a b : CooNd V) : Except Fault (CooNd V) := do
  assertP (a.shape.length == b.shape.length)
  assertP (a.shape == b.shape)
  let st ← expectP (stridesPos? a.shape)
  let ma ← HMap.withCapacityP dbg a.data.length
  let ma ← accLoopP dbg F a.data.length (entryOpP dbg a st (List.range st.length) id) ma
  let mb ← HMap.withCapacityP dbg b.data.length
  let mb ← accLoopP dbg F b.data.length (entryOpP dbg b st (List.range st.length) id) mb
  let pa ← ma.pairsP
  let pb ← mb.pairsP
  let outs := mulMerge (sort pa) (sort pb)
  withCapP 16 outs.length
  ndBuildP dbg a.shape st outs

/-- `reduce_sum_axes_coond_f64_i64` (sum.rs 64–129). -/
def reduceSumNdP [Zero V] [Add V] (dbg : Bool) (F : Nat) (sort : List (Nat × V) → List (Nat × V)) (a : CooNd V)
    (axes : List Nat) : Except Fault (CooNd V) := do
  assertP (!axes.isEmpty)
  let reduce ← expectP (checkAxes a.shape.length axes (List.replicate a.shape.length false))
  let remain := (List.range a.shape.length).filter fun d => !(reduce.getD d false)
  assertP (!remain.isEmpty)
  let shape ← remain.mapM (index a.shape)
  let st ← expectP (stridesPos? shape)
  if a.data.length = 0 then pure ⟨shape, [], []⟩
  else
    let m ← HMap.withCapacityP dbg a.data.length
    let m ← accLoopP dbg F a.data.length (entryOpP dbg a st remain id) m
    let pairs ← m.pairsP
    ndBuildP dbg shape st (sort pairs)

/-- Key and contribution of entry `k` (matmul.rs 257–271): a zero contribution is not inserted. -/
def spmvNdOpP [Zero V] [Mul V] [BEq V] (dbg : Bool) (a : CooNd V) (axis : Nat) (x : List V) (st axes : List Nat)
    (k : Nat) : Except Fault (Option (Nat × V)) := do
  let base ← mulUsize dbg k a.shape.length
  let ax ← i64ToUsizeP dbg (← index a.indices (← addUsize dbg base axis))
  let lin ← linIdxP dbg a.indices base st axes
  let v ← index a.data k
  let xv ← index x ax
  pure (if v * xv == 0 then none else some (lin, v * xv))

/-- `spmv_coond_f64_i64` (matmul.rs 229–289). -/
def spmvNdP [Zero V] [Add V] [Mul V] [BEq V] (dbg : Bool) (F : Nat) (sort : List (Nat × V) → List (Nat × V))
    (a : CooNd V) (axis : Nat) (x : List V) : Except Fault (CooNd V) := do
  assertP (decide (axis < a.shape.length))
  let n ← index a.shape axis
  assertP (x.length == n)
  let remain := (List.range a.shape.length).filter fun d => d ≠ axis
  assertP (!remain.isEmpty)
  let shape ← remain.mapM (index a.shape)
  if a.data.length = 0 then pure ⟨shape, [], []⟩
  else
    let st ← expectP (stridesPos? shape)
    let m ← HMap.withCapacityP dbg a.data.length
    let m ← accLoopP dbg F a.data.length (spmvNdOpP dbg a axis x st remain) m
    let pairs ← m.pairsP
    ndBuildP dbg shape st (sort pairs)

/-! ### spmm -/

/-- Insertion of the product for column `c` (matmul.rs 883–888, 935–940). -/
def mmInsertP [Zero V] [Add V] [BEq V] (dbg : Bool) (F lin strideK : Nat) (m : HMap V) (c : Nat) (v : V) :
    Except Fault (HMap V) :=
  if v == 0 then pure m
  else do
    let q ← expectP (checkedMul c strideK)
    let key ← expectP (checkedAdd lin q)
    m.insertAddP dbg F key v

/-- `a_val * *b.as_ptr().add(p)`. -/
def mmReadP [Mul V] (b : List V) (av : V) (p : Nat) : Except Fault V := do
  let bv ← (asPtr b).get p
  pure (av * bv)

/-- The loop over groups of four columns (matmul.rs 878–929): the four products are computed
before the first insertion. -/
def mmBody4P [Zero V] [Add V] [Mul V] [BEq V] (dbg : Bool) (F : Nat) (b : List V) (av : V) (rowBase lin strideK : Nat)
    (s : Nat × HMap V) : Except Fault (Nat × HMap V) := do
  let p ← addUsize dbg rowBase s.1
  let v0 ← mmReadP b av p
  let v1 ← mmReadP b av (← addUsize dbg p 1)
  let v2 ← mmReadP b av (← addUsize dbg p 2)
  let v3 ← mmReadP b av (← addUsize dbg p 3)
  let m ← mmInsertP dbg F lin strideK s.2 s.1 v0
  let m ← mmInsertP dbg F lin strideK m (s.1 + 1) v1
  let m ← mmInsertP dbg F lin strideK m (s.1 + 2) v2
  let m ← mmInsertP dbg F lin strideK m (s.1 + 3) v3
  pure (s.1 + 4, m)

/-- The remaining columns (matmul.rs 930–941). -/
def mmBody1P [Zero V] [Add V] [Mul V] [BEq V] (dbg : Bool) (F : Nat) (b : List V) (av : V) (rowBase lin strideK : Nat)
    (s : Nat × HMap V) : Except Fault (Nat × HMap V) := do
  let p ← addUsize dbg rowBase s.1
  let v ← mmReadP b av p
  let m ← mmInsertP dbg F lin strideK s.2 s.1 v
  pure (s.1 + 1, m)

/-- One entry of `spmm_coond_f64_i64` (matmul.rs 862–942). -/
def spmmNdEntryP [Zero V] [Add V] [Mul V] [BEq V] (dbg : Bool) (F : Nat) (a : CooNd V) (axis : Nat) (b : List V)
    (k : Nat) (st axes : List Nat) (strideK : Nat) (m : HMap V) (p : Nat) : Except Fault (HMap V) := do
  let base ← mulUsize dbg p a.shape.length
  let ax ← i64ToUsizeP dbg (← index a.indices (← addUsize dbg base axis))
  let lin ← linIdxP dbg a.indices base st axes
  let av ← index a.data p
  let rowBase ← mulUsize dbg ax k
  let s ← untilP F (andNot k 3) (mmBody4P dbg F b av rowBase lin strideK) (0, m)
  let s ← untilP F k (mmBody1P dbg F b av rowBase lin strideK) s
  pure s.2

/-- `spmm_coond_f64_i64` (matmul.rs 832–961). -/
def spmmNdP [Zero V] [Add V] [Mul V] [BEq V] (dbg : Bool) (F : Nat) (sort : List (Nat × V) → List (Nat × V))
    (a : CooNd V) (axis : Nat) (b : List V) (k : Nat) : Except Fault (CooNd V) := do
  assertP (decide (axis < a.shape.length))
  let want ← mulUsize dbg (← index a.shape axis) k
  assertP (b.length == want)
  let remain := (List.range a.shape.length).filter fun d => d ≠ axis
  let rest ← remain.mapM (index a.shape)
  let shape := rest ++ [k]
  if a.data.length = 0 ∨ k = 0 then pure ⟨shape, [], []⟩
  else
    let st ← expectP (stridesPos? shape)
    let strideK ← index st (shape.length - 1)
    let cap ← mulUsize dbg a.data.length (min k 8)
    let m ← HMap.withCapacityP dbg cap
    let m ← (List.range a.data.length).foldlM (spmmNdEntryP dbg F a axis b k st remain strideK) m
    let pairs ← m.pairsP
    withCapP 16 (sort pairs).length
    ndBuildP dbg shape st ((sort pairs).filter fun e => !(e.2 == 0))

/-- `tensordot_coond_dense_axis_f64_i64` (tensordot.rs 182–201): every check panics on failure;
`product` is checked. -/
def tensordotNdP [Zero V] [Add V] [Mul V] [BEq V] (dbg : Bool) (F : Nat) (sort : List (Nat × V) → List (Nat × V))
    (a : CooNd V) (axis : Nat) (b : List V) (bShape : List Nat) : Except Fault (CooNd V) := do
  assertP (decide (axis < a.shape.length))
  let k ← expectP (tensordotCols (a.shape.getD axis 0) b.length bShape)
  spmmNdP dbg F sort a axis b k

end Lacuna
