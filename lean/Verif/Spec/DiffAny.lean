import Verif.Spec.Dense
/-
Specification vocabulary for differences of cells that may hold nothing, in any arithmetic.
-/
namespace Lacuna
universe u
variable {V : Type u}

/-- The difference of two neighbouring cells: the right one minus the left one, where a missing right cell leaves
the negated left one, a missing left cell leaves the right one, and two missing cells leave nothing. -/
def diffCell [Add V] [Neg V] : Option V → Option V → Option V
  | none, none => none
  | some a, none => some (-a)
  | none, some b => some b
  | some a, some b => some (b + -a)

/-- What does not compare equal to zero is kept. -/
def keepNz [BEq V] [Zero V] (o : Option V) : Option V := o.filter fun v => v != 0

/-- The `n`-fold forward difference of a sequence of cells: `n` times replace each cell by the difference to its
right neighbour and drop the zeros. -/
def diffOpt [BEq V] [Zero V] [Add V] [Neg V] : Nat → (Nat → Option V) → Nat → Option V
  | 0, c => c
  | n + 1, c => diffOpt n fun j => keepNz (diffCell (c j) (c (j + 1)))

end Lacuna
