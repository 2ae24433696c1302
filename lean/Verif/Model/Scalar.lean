import Verif.Model.Elementwise
import Verif.Model.Float
/-
Kernels that change only the stored values: scalar multiplication, absolute value, sign,
floor division / remainder / power by a scalar
(crates/lacuna-kernels/src/elementwise).
-/
namespace Lacuna
universe u
variable {V : Type u}

/-- The in-place loop "four lanes at a time while `i < len & !3`, then one at a time"
(multiply.rs 730–746, 936–952; abs.rs 24–39 ...).  Reading four unaligned values,
applying the lane-wise operation and writing them back is the first equation; the
scalar tail loop is the second. -/
def map4 (f : V → V) : List V → List V
  | a :: b :: c :: d :: t => f a :: f b :: f c :: f d :: map4 f t
  | l => l.map f

/-- `slice.chunks(k)` / `par_chunks_mut(k)` for `k > 0`. -/
def chunksOf {α : Type u} (k : Nat) (l : List α) : List (List α) :=
  if _h : l = [] ∨ k = 0 then [] else l.take k :: chunksOf k (l.drop k)
termination_by l.length
decreasing_by
  simp only [not_or] at _h
  have : l.length ≠ 0 := fun e => _h.1 (List.length_eq_zero_iff.1 e)
  simp only [List.length_drop]; omega

/-- `SMALL_NNZ_SIMD` (abs.rs 15, multiply.rs 18). -/
def smallNnzSimd : Nat := 16 * 1024

/-- Value array of the SIMD kernels: serial below the threshold, else chunks of 4096
(disjoint `&mut` slices) processed in parallel (multiply.rs 728–767, abs.rs 23–60). -/
def simdMapData (f : V → V) (data : List V) : List V :=
  if data.length < smallNnzSimd then map4 f data
  else (chunksOf 4096 data).flatMap (map4 f)

/-- Value array of the chunked scalar kernels (sign.rs 29–35, floor_divide.rs 298–304 ...). -/
def chunkMapData (f : V → V) (data : List V) : List V :=
  (chunksOf 4096 data).flatMap (fun c => c.map f)

/-- Value array of the four `mul_scalar` kernels (multiply.rs 720–768, 786–834, 855–903,
923–974). -/
def mulScalarData [Zero V] [One V] [Mul V] [BEq V] (alpha : V) (data : List V) : List V :=
  if alpha == 1 then data
  else if alpha == 0 then List.replicate data.length 0
  else simdMapData (fun v => v * alpha) data

/-- `sign_f64` (sign.rs 14–24). -/
def signF [Zero V] [One V] [Neg V] [HasLt V] [HasNan V] (x : V) : V :=
  if isNan x then nan else if flt 0 x then 1 else if flt x 0 then -1 else 0

section
variable [Zero V] [One V] [Mul V] [BEq V]
/-- `mul_scalar_f64` (multiply.rs 923–974). -/
def mulScalarCsr (a : Csr V) (alpha : V) : Csr V := { a with data := mulScalarData alpha a.data }
/-- `mul_scalar_csc_f64` (multiply.rs 786–834). -/
def mulScalarCsc (a : Csc V) (alpha : V) : Csc V := { a with data := mulScalarData alpha a.data }
/-- `mul_scalar_coo_f64` (multiply.rs 855–903). -/
def mulScalarCoo (a : Coo V) (alpha : V) : Coo V := { a with data := mulScalarData alpha a.data }
/-- `mul_scalar_coond_f64` (multiply.rs 720–768). -/
def mulScalarCooNd (a : CooNd V) (alpha : V) : CooNd V := { a with data := mulScalarData alpha a.data }
end

section
variable [HasAbs V]
/-- `abs_scalar_f64` (abs.rs 19–62). -/
def absCsr (a : Csr V) : Csr V := { a with data := simdMapData fabs a.data }
/-- `abs_scalar_csc_f64` (abs.rs 66–109). -/
def absCsc (a : Csc V) : Csc V := { a with data := simdMapData fabs a.data }
/-- `abs_scalar_coo_f64` (abs.rs 113–156). -/
def absCoo (a : Coo V) : Coo V := { a with data := simdMapData fabs a.data }
/-- `abs_scalar_coond_f64` (abs.rs 160–202). -/
def absCooNd (a : CooNd V) : CooNd V := { a with data := simdMapData fabs a.data }
end

section
variable [Zero V] [One V] [Neg V] [HasLt V] [HasNan V]
/-- `sign_scalar_f64` (sign.rs 28–37). -/
def signCsr (a : Csr V) : Csr V := { a with data := chunkMapData signF a.data }
/-- `sign_scalar_csc_f64` (sign.rs 41–50). -/
def signCsc (a : Csc V) : Csc V := { a with data := chunkMapData signF a.data }
/-- `sign_scalar_coo_f64` (sign.rs 54–63). -/
def signCoo (a : Coo V) : Coo V := { a with data := chunkMapData signF a.data }
/-- `sign_scalar_coond_f64` (sign.rs 67–76). -/
def signCooNd (a : CooNd V) : CooNd V := { a with data := chunkMapData signF a.data }
end

/-- `floor(v / alpha)` (floor_divide.rs 302). -/
def floordivBy [Div V] [HasFloor V] (alpha v : V) : V := HasFloor.floor (v / alpha)
/-- `v - alpha * floor(v / alpha)` (remainder.rs 292–293). -/
def remBy [Div V] [Mul V] [Sub V] [HasFloor V] (alpha v : V) : V :=
  v - alpha * HasFloor.floor (v / alpha)
/-- `v.powf(alpha)` (power.rs 287). -/
def powBy [HasPowf V] (alpha v : V) : V := HasPowf.powf v alpha

/-- `floordiv_scalar_f64` (floor_divide.rs 296–306). -/
def floordivScalarCsr [Div V] [HasFloor V] (a : Csr V) (alpha : V) : Csr V :=
  { a with data := chunkMapData (floordivBy alpha) a.data }
/-- `floordiv_scalar_csc_f64` (floor_divide.rs 310–319). -/
def floordivScalarCsc [Div V] [HasFloor V] (a : Csc V) (alpha : V) : Csc V :=
  { a with data := chunkMapData (floordivBy alpha) a.data }
/-- `floordiv_scalar_coo_f64` (floor_divide.rs 323–332). -/
def floordivScalarCoo [Div V] [HasFloor V] (a : Coo V) (alpha : V) : Coo V :=
  { a with data := chunkMapData (floordivBy alpha) a.data }
/-- `rem_scalar_f64` (remainder.rs 287–297). -/
def remScalarCsr [Div V] [Mul V] [Sub V] [HasFloor V] (a : Csr V) (alpha : V) : Csr V :=
  { a with data := chunkMapData (remBy alpha) a.data }
/-- `rem_scalar_csc_f64` (remainder.rs 301–311). -/
def remScalarCsc [Div V] [Mul V] [Sub V] [HasFloor V] (a : Csc V) (alpha : V) : Csc V :=
  { a with data := chunkMapData (remBy alpha) a.data }
/-- `rem_scalar_coo_f64` (remainder.rs 315–325). -/
def remScalarCoo [Div V] [Mul V] [Sub V] [HasFloor V] (a : Coo V) (alpha : V) : Coo V :=
  { a with data := chunkMapData (remBy alpha) a.data }
/-- `pow_scalar_f64` (power.rs 281–290). -/
def powScalarCsr [HasPowf V] (a : Csr V) (alpha : V) : Csr V :=
  { a with data := chunkMapData (powBy alpha) a.data }
/-- `pow_scalar_csc_f64` (power.rs 294–303). -/
def powScalarCsc [HasPowf V] (a : Csc V) (alpha : V) : Csc V :=
  { a with data := chunkMapData (powBy alpha) a.data }
/-- `pow_scalar_coo_f64` (power.rs 307–316). -/
def powScalarCoo [HasPowf V] (a : Coo V) (alpha : V) : Coo V :=
  { a with data := chunkMapData (powBy alpha) a.data }

end Lacuna
