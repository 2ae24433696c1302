import Verif.Spec.F64
/-
Rounding as IEEE 754 prescribes it (section 4.3.1, roundTiesToEven), without an algorithm.
-/
namespace Lacuna
namespace F64

/-- Half a unit above the largest number: `2 ^ 970 * (2 ^ 54 - 1)`.  Results from here on overflow. -/
def overflow64 : ℚ := (2 ^ 54 - 1) * 2 ^ (970 : ℤ)

/-- `v` is `x` rounded to nearest, ties to even. -/
structure Rounds (x : ℚ) (v : F64) : Prop where
  fin : |x| < overflow64 → v.IsFin
  /-- no binary64 number is closer -/
  nearest : |x| < overflow64 → ∀ q, B64.Rep q → |v.val - x| ≤ |q - x|
  /-- if another one is as close, `v` is the even multiple of their distance -/
  even : |x| < overflow64 → ∀ q, B64.Rep q → q ≠ v.val → |q - x| = |v.val - x| → ∃ k : ℤ, v.val = 2 * k * |q - v.val|
  over : overflow64 ≤ |x| → v = inf (decide (x < 0))
  sign : x ≠ 0 → v.sign = decide (x < 0)

end F64
end Lacuna
