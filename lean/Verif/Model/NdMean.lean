import Verif.Model.Nd
import Verif.Model.Scalar
namespace Lacuna
universe u
variable {V : Type u}

/-- `reduce_mean_axes_coond_f64_i64` (mean.rs 48–70).  `denom_us as f64` is the cast of
`Nat` into the value type. -/
def reduceMeanNd [Zero V] [One V] [Add V] [Mul V] [Div V] [NatCast V] [BEq V]
    (sort : List (Nat × V) → List (Nat × V)) (a : CooNd V) (axes : List Nat) : Option (CooNd V) :=
  (reduceSumNd sort a axes).bind fun reduced =>
  (productChecked (((List.range a.shape.length).filter fun d => axes.contains d).map fun d => a.shape.getD d 0)).bind
    fun denom =>
      if denom = 1 then some reduced
      else some (mulScalarCooNd reduced (1 / (denom : V)))

end Lacuna
