import Verif.Model.Float
import Mathlib.Algebra.Order.Group.Unbundled.Abs
import Mathlib.Algebra.Order.Ring.Defs
import Mathlib.Algebra.Order.Ring.Abs
/-
The laws that hold when `f64` is read as exact arithmetic on finite numbers.
-/
namespace Lacuna
universe u

/-- Comparison and absolute value are those of a linearly ordered group, no NaN. -/
class IdealOrd (V : Type u) [LinearOrder V] [AddGroup V] [HasLt V] [HasAbs V] [HasNan V] : Prop where
  flt_iff : ∀ x y : V, flt x y = true ↔ x < y
  fabs_eq : ∀ x : V, fabs x = |x|
  isNan_eq : ∀ x : V, isNan x = false

/-- The integers are such an arithmetic (used for witnesses). -/
@[reducible] def intLt : HasLt Int := ⟨fun x y => decide (x < y)⟩
@[reducible] def intAbs : HasAbs Int := ⟨fun x => |x|⟩
@[reducible] def intNan : HasNan Int := ⟨fun _ => false, 0⟩
theorem intIdeal : @IdealOrd Int _ _ intLt intAbs intNan :=
  letI := intLt; letI := intAbs; letI := intNan
  ⟨fun x y => by simp [flt], fun _ => rfl, fun _ => rfl⟩

end Lacuna
