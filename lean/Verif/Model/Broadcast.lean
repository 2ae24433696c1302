import Verif.Model.Nd
import Verif.Model.Scalar
/-
`hadamard_broadcast_coond_f64_i64` (elementwise/multiply.rs 100–308).

Parameters stand for what is not determined by the program text: the iteration order of
`std::collections::HashMap` (`order`), the number of rayon threads, the unstable sort.
-/
namespace Lacuna
universe u
variable {V : Type u}

/-- Left padding with ones (multiply.rs 106–114). -/
def padShape (d : Nat) (shape : List Nat) : List Nat := List.replicate (d - shape.length) 1 ++ shape

/-- Validation and output shape (multiply.rs 116–126). -/
def broadcastShape? : List Nat → List Nat → Option (List Nat)
  | x :: xs, y :: ys =>
    if x ≠ y ∧ x ≠ 1 ∧ y ≠ 1 then none
    else (broadcastShape? xs ys).map fun out => max x y :: out
  | _, _ => some []

/-- `inter_mask` (multiply.rs 132–139). -/
def interMask (ash bsh : List Nat) : List Bool :=
  List.zipWith (fun x y => decide (x ≠ 1 ∧ y ≠ 1)) ash bsh

/-- `inter_strides` (multiply.rs 144–163): reverse loop over the intersection dimensions with
running product `s`; other dimensions keep stride 0.  Returns the strides and the final `s`. -/
def interStrides? : List Bool → List Nat → Option (List Nat × Nat)
  | b :: m, n :: out =>
    (interStrides? m out).bind fun r =>
      if b then (checkedMul r.2 n).map fun s' => (r.2 :: r.1, s')
      else some (0 :: r.1, r.2)
  | _, _ => some ([], 1)

/-- Normalised coordinates (multiply.rs 166–207): zeros in front of the stored ones; the
parallel writes of entry `k` go to positions `k * d + i` only. -/
def normCoords (d : Nat) (a : CooNd V) : Option (List (List Int)) :=
  let ad := a.shape.length
  (List.range a.data.length).mapM fun k =>
    ((List.range ad).mapM fun i => a.indices[k * ad + i]?).map fun c => List.replicate (d - ad) 0 ++ c

/-- The key loop (multiply.rs 212–221, 226–235). -/
def keyLoop : List Bool → List Int → List Nat → Nat → Option Nat
  | b :: m, i :: x, s :: st, key =>
    if b then
      (checkedMul (i64ToUsize i) s).bind fun p =>
      (checkedAdd key p).bind fun key' => keyLoop m x st key'
    else keyLoop m x st key
  | _, _, _, key => some key

/-- Output coordinate of a matching pair (multiply.rs 267–270):
`if ash[i] == 1 { ib } else { ia }`. -/
def pickCoord : List Nat → List Int → List Int → List Int
  | s :: ash, i :: x, j :: y => (if s = 1 then j else i) :: pickCoord ash x y
  | _, _, _ => []

/-- Output linear index (multiply.rs 266–275). -/
def linLoop : List Int → List Nat → Nat → Option Nat
  | i :: x, s :: st, lin =>
    (checkedMul (i64ToUsize i) s).bind fun p =>
    (checkedAdd lin p).bind fun lin' => linLoop x st lin'
  | _, _, lin => some lin

/-- The products of one key (multiply.rs 254–280): all pairs of the two groups, `A` outer. -/
def keyOps [Mul V] (ash ost : List Nat) (A B : List (Nat × (List Int × V))) (key : Nat) :
    Option (List (Nat × V)) :=
  ((A.filter fun e => e.1 == key).mapM fun ea =>
    (B.filter fun e => e.1 == key).mapM fun eb =>
      (linLoop (pickCoord ash ea.2.1 eb.2.1) ost 0).map fun lin => (lin, ea.2.2 * eb.2.2)).map List.flatten

/-- One parallel task (multiply.rs 249–282): accumulate the keys of one chunk. -/
def chunkPairs [Zero V] [Add V] [Mul V] (ash ost : List Nat) (A B : List (Nat × (List Int × V)))
    (keys : List Nat) : Option (List (Nat × V)) :=
  (keys.mapM (keyOps ash ost A B)).bind fun ops =>
    ((HMap.withCapacity 1024).insertAll ops.flatten).map fun m => m.pairs

/-- `HashMap` as used here: `order la lb` are the keys of the first map, in its iteration
order, that the second contains. -/
def IsCommonKeys (order : List Nat → List Nat → List Nat) : Prop :=
  ∀ la lb, (order la lb).Nodup ∧ ∀ k, k ∈ order la lb ↔ k ∈ la ∧ k ∈ lb

/-- `hadamard_broadcast_coond_f64_i64` (multiply.rs 100–308). -/
def broadcastMulNd [Zero V] [Add V] [Mul V] (order : List Nat → List Nat → List Nat) (nthreads : Nat)
    (sort : List (Nat × V) → List (Nat × V)) (a b : CooNd V) : Option (CooNd V) :=
  let d := max a.shape.length b.shape.length
  let ash := padShape d a.shape
  let bsh := padShape d b.shape
  (broadcastShape? ash bsh).bind fun out =>
  if a.data.isEmpty || b.data.isEmpty then some ⟨out, [], []⟩
  else
    let mask := interMask ash bsh
    (strides? out).bind fun ost =>
    (interStrides? mask out).bind fun ist =>
    (normCoords d a).bind fun na =>
    (normCoords d b).bind fun nb =>
    (na.mapM fun x => keyLoop mask x ist.1 0).bind fun ka =>
    (nb.mapM fun x => keyLoop mask x ist.1 0).bind fun kb =>
    let A := ka.zip (na.zip a.data)
    let B := kb.zip (nb.zip b.data)
    let keys := order ka kb
    let chunk := max 1 (keys.length / (max nthreads 1 * 4))
    ((chunksOf chunk keys).mapM (chunkPairs ash ost A B)).bind fun parts =>
    ((HMap.withCapacity (parts.map List.length).sum).insertAll parts.flatten).bind fun m =>
      some (ndBuild out ost (sort m.pairs))

end Lacuna
