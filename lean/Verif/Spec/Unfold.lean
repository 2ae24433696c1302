import Verif.Spec.Nd
/-
Where unfolding puts the cells of an N-D array.
-/
namespace Lacuna

/-- The extents of the given axes. -/
def extents (shape axes : List Nat) : List Nat := axes.map fun d => shape.getD d 0

/-- The row that the cell `x` of an array goes to: row-major position of its row-axis
coordinates. -/
def unfoldRow (shape rowAxes : List Nat) (x : List Int) : Nat :=
  rowMajor (extents shape rowAxes) (select rowAxes x)
/-- The column: row-major position of the remaining coordinates. -/
def unfoldCol (shape rowAxes : List Nat) (x : List Int) : Nat :=
  rowMajor (extents shape (restAxes shape.length rowAxes)) (select (restAxes shape.length rowAxes) x)

end Lacuna
