import Verif.Spec.Dense
/-
Specification of the element-wise operations on possibly-missing entries, literally as
IEEE operations in the order they are performed (no algebraic laws).
-/
namespace Lacuna
universe u
variable {V : Type u}

/-- Union operation (addition, subtraction): the accumulator starts at `0`, the left
entry is added to it, the right entry is combined by `fb`; an exact zero is not stored. -/
def unionCell [Zero V] [BEq V] [Add V] (fb : V → V → V) : Option V → Option V → Option V
  | none, none => none
  | some x, none => if (0 + x) == 0 then none else some (0 + x)
  | none, some y => if fb 0 y == 0 then none else some (fb 0 y)
  | some x, some y => if fb (0 + x) y == 0 then none else some (fb (0 + x) y)

/-- Intersection operation: both entries must be present; accumulators start at `0`. -/
def interCell [Zero V] [Add V] (cell : V → V → Option V) : Option V → Option V → Option V
  | some x, some y => cell (0 + x) (0 + y)
  | _, _ => none

/-- `x` is stored only if it is finite and not zero. -/
def keepFinite [Zero V] [BEq V] (fin : V → Bool) (x : V) : Option V :=
  if x == 0 then none else if fin x then some x else none

end Lacuna
