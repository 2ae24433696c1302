import Verif.Spec.ExactNd
import Verif.Spec.Rounding
/-
Means computed as a sum times the reciprocal of the count, and means of whole numbers.
-/
namespace Lacuna

/-- `v` is the mean of the numbers `l` up to rounding: if they are finite and their absolute values do not add
up to too much, it is finite and `((1 + 2⁻⁵³) ^ (n + 1) - 1) · mean |x|`, and half the smallest positive
number, bound its distance from the exact mean. -/
def F64.ReciprocalMean (l : List F64) (v : F64) : Prop :=
  l ≠ [] → (∀ x ∈ l, x.IsFin) → (1 + 1 / 2 ^ 53) ^ l.length * (l.map fun x => |x.val|).sum ≤ max64 →
    v.IsFin ∧ |v.val - (l.map F64.val).sum / l.length| ≤
      ((1 + 1 / 2 ^ 53) ^ (l.length + 1) - 1) * ((l.map fun x => |x.val|).sum / l.length) + 1 / 2 * 2 ^ (-1074 : ℤ)

/-- `v` is the correctly rounded mean of the rational numbers if their absolute values add up to at most `2 ^ 53`:
the binary64 number nearest to the exact mean (see `rnd64`). -/
def F64.CorrectMean (l : List ℚ) (v : F64) : Prop :=
  l ≠ [] → (l.map fun q => |q|).sum ≤ 2 ^ 53 → v.IsFin ∧ v.val = rnd64 (l.sum / l.length)

/-- `v` is the mean of the rational numbers, rounded twice, if their absolute values add up to at most `2 ^ 53`: the
binary64 number nearest to their sum times the binary64 number nearest to the reciprocal of their number. -/
def F64.ScaledMean (l : List ℚ) (v : F64) : Prop :=
  l ≠ [] → (l.map fun q => |q|).sum ≤ 2 ^ 53 → v.IsFin ∧ v.val = rnd64 (l.sum * rnd64 (1 / l.length))

end Lacuna
