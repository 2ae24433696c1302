import Verif.Spec.Nd
/-
Specification vocabulary for dense results returned to Python.
-/
namespace Lacuna
universe u
variable {V : Type u}

/-- `out` is the row-major `n × m` array with cells `f i j`. -/
def IsDense [Zero V] (n m : Nat) (f : Nat → Nat → V) (out : List V) : Prop :=
  out.length = n * m ∧ ∀ i j, i < n → j < m → out.getD (i * m + j) 0 = f i j

/-- The value stored last at line `i`, index `j`, if any (`Comp.stored` is the first). -/
def Comp.lastStored (a : Comp V) (i j : Nat) : Option V :=
  ((a.row i).filter fun e => e.1 == (j : Int)).getLast?.map Prod.snd

/-- `out` is the row-major array of the given shape with cells `f x`. -/
def IsDenseNd [Zero V] (shape : List Nat) (f : List Int → V) (out : List V) : Prop :=
  out.length = shape.prod ∧ ∀ x, InBounds shape x → out.getD (rowMajor shape x) 0 = f x

/-- The documentation of `np.searchsorted(xs, j)` (side `left`): on a sorted array, the position
before which everything is smaller than `j` and from which on nothing is. -/
def IsSearchSorted (search : List Int → Int → Nat) : Prop :=
  ∀ xs j, xs.Pairwise (· ≤ ·) → search xs j ≤ xs.length ∧
    (∀ p, p < search xs j → xs.getD p 0 < j) ∧ (∀ p, search xs j ≤ p → p < xs.length → j ≤ xs.getD p 0)

end Lacuna
