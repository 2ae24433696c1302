import Verif.Model.Convert
/-
Unfolding of an N-D array into a matrix (data_type_functions/astype.rs 303–487).
-/
namespace Lacuna
universe u
variable {V : Type u}

/-- `coond_axes_to_coo_f64_i64` (astype.rs 353–446).  Both loops (sequential below
`SMALL_NNZ_LIMIT` entries, parallel above) compute row and column of entry `k` from entry `k`
only and write them to position `k`; here all row indices are computed before the column
indices.  Reading past the end of the indices (`get_unchecked`) is `none`. -/
def axesToCoo (a : CooNd V) (rowAxes : List Nat) : Option (Coo V) :=
  let ndim := a.shape.length
  (checkAxes ndim rowAxes (List.replicate ndim false)).bind fun used =>
  let colAxes := (List.range ndim).filter fun d => !(used.getD d false)
  let rowShape := rowAxes.map fun d => a.shape.getD d 0
  let colShape := colAxes.map fun d => a.shape.getD d 0
  (productChecked rowShape).bind fun nrows =>
  (productChecked colShape).bind fun ncols =>
  (strides? rowShape).bind fun rst =>
  (strides? colShape).bind fun cst =>
  if a.data.length = 0 then some ⟨nrows, ncols, [], [], []⟩
  else
    (ndOps a (rowAxes.zip rst) id).bind fun rs =>
    (ndOps a (colAxes.zip cst) id).bind fun cs =>
      some ⟨nrows, ncols, rs.map fun e => usizeToI64 e.1, cs.map fun e => usizeToI64 e.1, a.data⟩

/-- `coond_axes_to_csr_f64_i64` (astype.rs 451–454). -/
def axesToCsr [Zero V] [Add V] (sort : List ((Int × Int) × V) → List ((Int × Int) × V)) (a : CooNd V)
    (rowAxes : List Nat) : Option (Csr V) := (axesToCoo a rowAxes).map (cooToCsr sort)
/-- `coond_axes_to_csc_f64_i64` (astype.rs 459–462). -/
def axesToCsc [Zero V] [Add V] (sort : List ((Int × Int) × V) → List ((Int × Int) × V)) (a : CooNd V)
    (rowAxes : List Nat) : Option (Csc V) := (axesToCoo a rowAxes).map (cooToCsc sort)
/-- `coond_mode_to_csr_f64_i64` (astype.rs 471–475). -/
def modeToCsr [Zero V] [Add V] (sort : List ((Int × Int) × V) → List ((Int × Int) × V)) (a : CooNd V)
    (axis : Nat) : Option (Csr V) := if axis < a.shape.length then axesToCsr sort a [axis] else none
/-- `coond_mode_to_csc_f64_i64` (astype.rs 484–488). -/
def modeToCsc [Zero V] [Add V] (sort : List ((Int × Int) × V) → List ((Int × Int) × V)) (a : CooNd V)
    (axis : Nat) : Option (Csc V) := if axis < a.shape.length then axesToCsc sort a [axis] else none

end Lacuna
