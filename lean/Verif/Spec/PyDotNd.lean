import Verif.Spec.PyDot
/-
What `tensordot` and `vecdot` of N-D arrays compute in whatever arithmetic the machine has.
-/
namespace Lacuna
variable {V : Type}

/-- The factors that belong to the index `u` of the remaining axes and the index `z` of the remaining axes of
`y`: every number stored at an index that is `u` without its axis `axis`, in storage order, together with the
element of `y` whose first index is the one that was left out. -/
def ndDotTerms [Zero V] (stores : List (List Int × V)) (axis : Nat) (y : DenseNd V) (u z : List Int) : List (V × V) :=
  (stores.filter fun e => e.1.eraseIdx axis == u).map fun e => (e.2, y.elem (e.1.getD axis 0 :: z))

/-- The products other than zero, added from the first to the last; nothing if there are none. -/
def keptDot [Zero V] [Add V] [Mul V] [BEq V] (l : List (V × V)) : Option V :=
  sumAll ((l.map fun q => q.1 * q.2).filter fun v => !(v == 0))

/-- The element at `x` of an array with the given entries: the first entry there, or zero. -/
def readAt [Zero V] (entries : List (List Int × V)) (x : List Int) : V := (valuesAt entries x).head?.getD 0

end Lacuna
