import Verif.Model.PyStat
import Verif.Spec.PyMeaning
import Verif.Spec.PyReduce
import Verif.Spec.Stats
/-
What the reductions of Model/PyStat are meant to compute.
-/
namespace Lacuna
variable {V : Type}

/-- `r` is the reduction of the list, for the reductions that compute with the elements. -/
def RedOp.Is [Field V] [LinearOrder V] (op : RedOp V) (l : List V) (r : V) : Prop :=
  match op with
  | .sum => r = l.sum
  | .mean => r = listMean l
  | .prod => r = l.prod
  | .var c => r = specVar c l
  | .std c => 0 ≤ r ∧ r * r = specVar c l
  | .min => IsMinOf l r
  | .max => IsMaxOf l r

/-- `r` is the truth value of `all` or `any`. -/
def LogicOp.Is [Zero V] [BEq V] (op : LogicOp) (l : List V) (r : Bool) : Prop :=
  match op with
  | .all => r = true ↔ AllNonzero l
  | .any => r = true ↔ AnyNonzero l

/-- The object is a matrix. -/
def Ty.Is2d : Ty → Prop
  | .nd _ => False
  | _ => True

/-- Reductions other than `sum` and `mean` of a `COO` matrix read every stored entry as a cell. -/
def RedOp.Linear : RedOp V → Prop
  | .sum => True
  | .mean => True
  | _ => False

/-- What a reduction asks for beyond validity: `mean` a cell; `var` and `std` a number of cells that is a
`usize`. -/
def RedOp.Size (op : RedOp V) (shape : List Nat) : Prop :=
  match op with
  | .mean => 0 < shape.prod
  | .var _ => shape.prod ≤ usizeMax
  | .std _ => shape.prod ≤ usizeMax
  | .min => 0 < shape.prod
  | .max => 0 < shape.prod
  | _ => True

end Lacuna
