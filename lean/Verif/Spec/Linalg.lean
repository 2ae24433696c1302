import Verif.Spec.Nd
import Mathlib.Algebra.Ring.Defs
/-
Specification vocabulary for products with a dense row-major matrix.
-/
namespace Lacuna
universe u
variable {V : Type u}

/-- `y` is the row-major `n × k` product of the `n × m` matrix `val` with the row-major
`m × k` matrix `b`. -/
def IsMatProd [Semiring V] (n m k : Nat) (val : Nat → Nat → V) (b y : List V) : Prop :=
  y.length = n * k ∧ ∀ i c, i < n → c < k →
    y.getD (i * k + c) 0 = ((List.range m).map fun j => val i j * b.getD (j * k + c) 0).sum

/-- Rounding-sensitive version: element `(i, c)` of `y` is the accumulation, starting from 0
and in the given order, of `value * b(j, c)` over the pairs `(j, value)` of row `i`. -/
def IsMatAcc [Zero V] [Add V] [Mul V] (n k : Nat) (row : Nat → List (Nat × V)) (b y : List V) : Prop :=
  y.length = n * k ∧ ∀ i c, i < n → c < k →
    y.getD (i * k + c) 0 = (row i).foldl (fun acc e => acc + e.2 * b.getD (e.1 * k + c) 0) 0

/-- `y` is the row-major array of shape `n :: rest` obtained by contracting the columns of the
`n × m` matrix `val` with the first axis of the row-major array `b` of shape `m :: rest`. -/
def IsTensordot [Semiring V] (n m : Nat) (rest : List Nat) (val : Nat → Nat → V) (b y : List V) : Prop :=
  y.length = (n :: rest).prod ∧ ∀ (i : Nat) z, i < n → InBounds rest z →
    y.getD (rowMajor (n :: rest) ((i : Int) :: z)) 0 =
      ((List.range m).map fun (j : Nat) => val i j * b.getD (rowMajor (m :: rest) ((j : Int) :: z)) 0).sum

end Lacuna
