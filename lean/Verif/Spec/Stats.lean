import Verif.Spec.Cells
import Verif.Model.Stats
import Mathlib.Order.Lattice
import Mathlib.Order.Defs.LinearOrder
import Mathlib.Algebra.Field.Defs
/-
Specification layer of the statistics: minimum and maximum of a list, variance of a list,
and what it means that the `f64` operations behave as on an ordered set with infinities.
-/
namespace Lacuna
universe u
variable {V : Type u}

/-- `r` is the least element of the list. -/
def IsMinOf [LE V] (l : List V) (r : V) : Prop := r ∈ l ∧ ∀ x ∈ l, r ≤ x

/-- `r` is the greatest element of the list. -/
def IsMaxOf [LE V] (l : List V) (r : V) : Prop := r ∈ l ∧ ∀ x ∈ l, x ≤ r

/-- `y` lists the minima of the `n` lists `cells 0, …, cells (n-1)`. -/
def AreMins [LE V] (n : Nat) (cells : Nat → List V) (y : List V) : Prop :=
  y.length = n ∧ ∀ i r, y[i]? = some r → IsMinOf (cells i) r

/-- `y` lists the maxima of the `n` lists `cells 0, …, cells (n-1)`. -/
def AreMaxs [LE V] (n : Nat) (cells : Nat → List V) (y : List V) : Prop :=
  y.length = n ∧ ∀ i r, y[i]? = some r → IsMaxOf (cells i) r

/-- No NaN: `f64::min`, `f64::max`, their SIMD forms and `<` are those of a linear order in
which the infinities are the least and the greatest element. -/
structure IdealMinMax (V : Type u) [LinearOrder V] [HasMinMax V] [HasLt V] : Prop where
  fmin_eq : ∀ x y : V, fmin x y = min x y
  fmax_eq : ∀ x y : V, fmax x y = max x y
  vmin_eq : ∀ x y : V, vmin x y = min x y
  vmax_eq : ∀ x y : V, vmax x y = max x y
  flt_iff : ∀ x y : V, flt x y = true ↔ x < y
  le_posInf : ∀ x : V, x ≤ posInf
  negInf_le : ∀ x : V, negInf ≤ x

/-- Mean of the elements. -/
def listMean [Zero V] [Add V] [Div V] [NatCast V] (l : List V) : V := l.sum / (l.length : V)

/-- Sum of squared deviations from the mean, divided by `n - correction`. -/
def listVar [Zero V] [Add V] [Sub V] [Mul V] [Div V] [NatCast V] (correction : V) (l : List V) : V :=
  (l.map fun x => (x - listMean l) * (x - listMean l)).sum / ((l.length : V) - correction)

/-- The variance the kernels promise: 0 for no elements or for a correction that leaves no
degrees of freedom. -/
def specVar [Zero V] [Add V] [Sub V] [Mul V] [Div V] [NatCast V] [LE V] [DecidableLE V]
    (correction : V) (l : List V) : V :=
  if l = [] then 0 else if (l.length : V) - correction ≤ 0 then 0 else listVar correction l

/-- Every element is non-zero, with the comparison of the code. -/
def AllNonzero [Zero V] [BEq V] (l : List V) : Prop := ∀ x ∈ l, (x == 0) = false
/-- Some element is non-zero. -/
def AnyNonzero [Zero V] [BEq V] (l : List V) : Prop := ∃ x ∈ l, (x == 0) = false

/-- `y` lists the truth of a statement for `n` lines. -/
def AreTruths (n : Nat) (p : Nat → Prop) (y : List Bool) : Prop :=
  y.length = n ∧ ∀ i b, y[i]? = some b → (b = true ↔ p i)

end Lacuna
