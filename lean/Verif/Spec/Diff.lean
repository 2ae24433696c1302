import Verif.Spec.Dense
/-
Specification vocabulary for n-th forward differences.
-/
namespace Lacuna
universe u
variable {V : Type u}

/-- The `n`-fold forward difference of a sequence: `n` times replace `f j` by `f (j + 1) - f j`. -/
def diffN [Sub V] : Nat → (Nat → V) → Nat → V
  | 0, f => f
  | n + 1, f => diffN n fun j => f (j + 1) - f j

end Lacuna
