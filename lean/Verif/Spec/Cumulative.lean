import Verif.Spec.Dense
/-
Specification vocabulary for cumulative operations on a dense `n × m` matrix.
-/
namespace Lacuna
universe u
variable {V : Type u}

/-- `y` is the row-major `n × m` matrix whose element `(i, j)` is the aggregate of the elements
`(i, 0), …, (i, j)` of `val`. -/
def IsScanRows [Zero V] (agg : List V → V) (n m : Nat) (val : Nat → Nat → V) (y : List V) : Prop :=
  y.length = n * m ∧ ∀ i j, i < n → j < m → y.getD (i * m + j) 0 = agg ((List.range (j + 1)).map fun k => val i k)

/-- `y` is the row-major `n × m` matrix whose element `(i, j)` is the aggregate of the elements
`(0, j), …, (i, j)` of `val`. -/
def IsScanCols [Zero V] (agg : List V → V) (n m : Nat) (val : Nat → Nat → V) (y : List V) : Prop :=
  y.length = n * m ∧ ∀ i j, i < n → j < m → y.getD (i * m + j) 0 = agg ((List.range (i + 1)).map fun k => val k j)

end Lacuna
