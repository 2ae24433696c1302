import Verif.Model.HashMap
/-
N-D COO kernels that work through row-major linearisation:
`add`/`sub`/`hadamard` (elementwise/{add,subtract,multiply}.rs), `reshape`, `permute_dims`
(manipulation/), `reduce_sum_axes` (statistical/sum.rs).

A panic (failed assertion, checked arithmetic, index out of range, division by zero is
impossible on the modelled paths, see `delin`) is `none`; a hash-map loop that does not stop
would also be `none`.

Simplification: the loops compute a key and insert it, entry by entry; here all keys are
computed first and then inserted in the same order.  As key computation does not depend on
the map and both can only fail by panicking, the outcome is the same.
-/
namespace Lacuna
universe u
variable {V : Type u}

/-- `usize::checked_add`. -/
def checkedAdd (a b : Nat) : Option Nat := if a + b ≤ usizeMax then some (a + b) else none

/-- `x as usize` for an `i64` (util.rs `i64_to_usize`; reshape.rs 6–13): wraps if negative. -/
def i64ToUsize (x : Int) : Nat := (x % 2 ^ 64).toNat

/-- `x as i64` for a `usize` (reshape.rs 15–22): wraps above `i64::MAX`. -/
def usizeToI64 (n : Nat) : Int := if (n : Int) ≤ i64Max then n else n - 2 ^ 64

/-- `build_strides_row_major` (reshape.rs 33–47, multiply.rs 61–74, astype.rs 318–331).
The loop runs from the last dimension to the first. -/
def strides? : List Nat → Option (List Nat)
  | [] => some []
  | [_] => some [1]
  | _ :: d :: rest =>
    (strides? (d :: rest)).bind fun st => (checkedMul (st.headD 1) d).map fun s => s :: st

/-- The inlined stride computation of add.rs 384–391, subtract.rs 407–414, multiply.rs
336–343, sum.rs 83–90, which indexes `strides[ndim - 1]` first: panics for rank 0. -/
def stridesPos? (shape : List Nat) : Option (List Nat) :=
  if shape.length = 0 then none else strides? shape

/-- The linearisation loop (e.g. add.rs 396–403, sum.rs 98–106): `axes` lists the pairs
(axis, stride) in loop order, the entry starts at position `base` of the flat indices. -/
def linAxes (indices : List Int) (base : Nat) : List (Nat × Nat) → Nat → Option Nat
  | [], lin => some lin
  | (d, s) :: rest, lin =>
    (indices[base + d]?).bind fun i =>
    (checkedMul (i64ToUsize i) s).bind fun p =>
    (checkedAdd lin p).bind fun lin' => linAxes indices base rest lin'

/-- De-linearisation loop (e.g. add.rs 430–434): `idx = lin / s; lin -= idx * s`.
A stride of 0 would be a division by zero in Rust (reshape.rs 83 guards it and uses 0, as
does `Nat` division); strides are 0 only if a dimension is 0, and then there are no entries. -/
def delin : List Nat → Nat → List Nat
  | [], _ => []
  | s :: ss, lin => lin / s :: delin ss (lin - lin / s * s)

/-- The `(key, value)` pairs inserted by the accumulation loop over the entries of an array
(add.rs 395–405, sum.rs 96–108): `axes` as in `linAxes`, `f` is applied to the value. -/
def ndOps (a : CooNd V) (axes : List (Nat × Nat)) (f : V → V) : Option (List (Nat × V)) :=
  a.data.zipIdx.mapM fun e => (linAxes a.indices (e.2 * a.shape.length) axes 0).map fun k => (k, f e.1)

/-- Rebuild an array from linear keys (add.rs 425–439): coordinates are written entry by
entry, `ndim` at a time. -/
def ndBuild (shape strides : List Nat) (pairs : List (Nat × V)) : CooNd V :=
  ⟨shape, pairs.flatMap fun e => (delin strides e.1).map usizeToI64, pairs.map Prod.snd⟩

/-- `add_coond_f64_i64` (add.rs 376–440) with `f = id`; `sub_coond_f64_i64` (subtract.rs
401–463) with `f = -·`. -/
def unionNd [Zero V] [Add V] [BEq V] (f : V → V) (sort : List (Nat × V) → List (Nat × V))
    (a b : CooNd V) : Option (CooNd V) :=
  if a.shape.length ≠ b.shape.length then none
  else if a.shape ≠ b.shape then none
  else (stridesPos? a.shape).bind fun st =>
    let axes := (List.range st.length).zip st
    (ndOps a axes id).bind fun oa =>
    (ndOps b axes f).bind fun ob =>
    ((HMap.withCapacity (a.data.length + b.data.length)).insertAll (oa ++ ob)).bind fun m =>
      some (ndBuild a.shape st ((sort m.pairs).filter fun e => !(e.2 == 0)))

def addNd [Zero V] [Add V] [BEq V] (sort : List (Nat × V) → List (Nat × V)) (a b : CooNd V) :=
  unionNd id sort a b
def subNd [Zero V] [Add V] [Neg V] [BEq V] (sort : List (Nat × V) → List (Nat × V)) (a b : CooNd V) :=
  unionNd (fun v => -v) sort a b

/-- The merge loop of `hadamard_coond_f64_i64` (multiply.rs 371–389) on the remaining parts
of the two sorted lists. -/
def mulMerge [Zero V] [Mul V] [BEq V] : List (Nat × V) → List (Nat × V) → List (Nat × V)
  | (ka, va) :: pa, (kb, vb) :: pb =>
    if ka = kb then
      if va * vb == 0 then mulMerge pa pb else (ka, va * vb) :: mulMerge pa pb
    else if ka < kb then mulMerge pa ((kb, vb) :: pb)
    else mulMerge ((ka, va) :: pa) pb
  | _, _ => []
termination_by pa pb => pa.length + pb.length

/-- `hadamard_coond_f64_i64` (multiply.rs 330–404). -/
def hadamardNd [Zero V] [Add V] [Mul V] [BEq V] (sort : List (Nat × V) → List (Nat × V))
    (a b : CooNd V) : Option (CooNd V) :=
  if a.shape.length ≠ b.shape.length then none
  else if a.shape ≠ b.shape then none
  else (stridesPos? a.shape).bind fun st =>
    let axes := (List.range st.length).zip st
    (ndOps a axes id).bind fun oa =>
    ((HMap.withCapacity a.data.length).insertAll oa).bind fun ma =>
    (ndOps b axes id).bind fun ob =>
    ((HMap.withCapacity b.data.length).insertAll ob).bind fun mb =>
      some (ndBuild a.shape st (mulMerge (sort ma.pairs) (sort mb.pairs)))

/-- `product_checked` (reshape.rs 24–31). -/
def productChecked : List Nat → Option Nat :=
  fun l => l.foldl (fun acc x => acc.bind fun p => checkedMul p x) (some 1)

/-- `reshape_coond_f64_i64` (reshape.rs 51–92).  Entry `k` writes only positions
`k * ndim_new + d`, so the parallel loop is a map over entries. -/
def reshapeNd (a : CooNd V) (newShape : List Nat) : Option (CooNd V) :=
  (productChecked a.shape).bind fun oldElems =>
  (productChecked newShape).bind fun newElems =>
  if oldElems ≠ newElems then none
  else if a.data.length = 0 then some ⟨newShape, [], []⟩
  else
    (strides? a.shape).bind fun os =>
    (strides? newShape).bind fun ns =>
    (ndOps a ((List.range a.shape.length).zip os) id).bind fun ops =>
      some ⟨newShape, ops.flatMap fun e => (delin ns e.1).map usizeToI64, a.data⟩

/-- The validation loop of permute_dims.rs 9–14 (also astype.rs 356–361, sum.rs 69–73 with
their messages): every axis in range and not seen before. -/
def checkAxes (ndim : Nat) : List Nat → List Bool → Option (List Bool)
  | [], seen => some seen
  | p :: rest, seen =>
    if p < ndim then
      if seen.getD p false then none else checkAxes ndim rest (seen.set p true)
    else none

/-- `permute_axes_coond_f64_i64` (permute_dims.rs 6–32); `src[..]` out of range would panic. -/
def permuteNd (a : CooNd V) (perm : List Nat) : Option (CooNd V) :=
  let ndim := a.shape.length
  if perm.length ≠ ndim then none
  else (checkAxes ndim perm (List.replicate ndim false)).bind fun _ =>
    (perm.mapM fun p => a.shape[p]?).bind fun newShape =>
    if a.data.length = 0 then some ⟨newShape, [], []⟩
    else
      ((List.range a.data.length).mapM fun k => perm.mapM fun p => a.indices[k * ndim + p]?).bind
        fun idx => some ⟨newShape, idx.flatten, a.data⟩

/-- `reduce_sum_axes_coond_f64_i64` (sum.rs 64–129). -/
def reduceSumNd [Zero V] [Add V] (sort : List (Nat × V) → List (Nat × V)) (a : CooNd V)
    (axes : List Nat) : Option (CooNd V) :=
  let ndim := a.shape.length
  if axes.isEmpty then none
  else (checkAxes ndim axes (List.replicate ndim false)).bind fun reduce =>
    let remain := (List.range ndim).filter fun d => !(reduce.getD d false)
    if remain.isEmpty then none
    else
      let shape := remain.map fun d => a.shape.getD d 0
      (stridesPos? shape).bind fun st =>
      if a.data.length = 0 then some ⟨shape, [], []⟩
      else
        (ndOps a (remain.zip st) id).bind fun ops =>
        ((HMap.withCapacity a.data.length).insertAll ops).bind fun m =>
          some (ndBuild shape st (sort m.pairs))

end Lacuna
