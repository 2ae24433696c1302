/-
Operations of `f64` that are not covered by Lean's notation classes.  No laws are
attached; theorems that need laws say so.  (`==` on values is the `BEq` instance, which
stands for the IEEE comparison, hence need not be reflexive.)
-/
namespace Lacuna
universe u

/-- `x < y` on `f64`. -/
class HasLt (V : Type u) where
  flt : V → V → Bool
export HasLt (flt)

/-- `f64::abs`. -/
class HasAbs (V : Type u) where
  fabs : V → V
export HasAbs (fabs)

/-- `f64::is_nan` and `f64::NAN`. -/
class HasNan (V : Type u) where
  isNan : V → Bool
  nan : V
export HasNan (isNan nan)

end Lacuna
