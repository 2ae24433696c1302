import Mathlib.Data.Rat.Floor
import Mathlib.Data.Int.Log
import Verif.Model.Spmv
/-
The `f64` of the kernels: IEEE 754 binary64 with rounding to nearest, ties to even, gradual
underflow, and overflow to a non-finite result.

Simplifications: infinities and NaNs are one element `special`, which every operation below
propagates (in IEEE 754 a non-finite operand of +, * and fused multiply-add gives a non-finite
result); the two zeros are identified.
-/
namespace Lacuna

/-- Nearest integer, ties to even. -/
def roundEven (x : ℚ) : ℤ :=
  if x - ⌊x⌋ < 1 / 2 then ⌊x⌋
  else if 1 / 2 < x - ⌊x⌋ then ⌊x⌋ + 1
  else if ⌊x⌋ % 2 = 0 then ⌊x⌋ else ⌊x⌋ + 1

/-- Exponent of the last place of a number of this size: 53 significant bits, not below `2 ^ -1074`. -/
def ulpExp (x : ℚ) : ℤ := max (Int.log 2 |x|) (-1022) - 52

/-- Rounding, with no upper limit on the exponent. -/
def rnd64 (x : ℚ) : ℚ := roundEven (x / 2 ^ ulpExp x) * 2 ^ ulpExp x

/-- The largest finite number. -/
def max64 : ℚ := (2 ^ 53 - 1) * 2 ^ (971 : ℤ)

inductive B64 where
  | special
  | fin (q : ℚ)

namespace B64

/-- The result of an operation with exact value `x`. -/
def ofRat (x : ℚ) : B64 := if |rnd64 x| ≤ max64 then fin (rnd64 x) else special

instance : Zero B64 := ⟨fin 0⟩

instance : Add B64 := ⟨fun
  | fin a, fin b => ofRat (a + b)
  | _, _ => special⟩

instance : Mul B64 := ⟨fun
  | fin a, fin b => ofRat (a * b)
  | _, _ => special⟩

/-- `f64::mul_add`: one rounding. -/
instance : HasFma B64 := ⟨fun
  | fin a, fin b, fin c => ofRat (a * b + c)
  | _, _, _ => special⟩

/-- `==`.  A special value differs from every number; the kernels compare with zero only, so nothing
depends on comparing special values with each other (NaN differs from itself, an infinity does not). -/
instance : BEq B64 := ⟨fun
  | fin a, fin b => decide (a = b)
  | _, _ => false⟩

/-- The finite binary64 numbers: integers below `2 ^ 53` times a power of two from `2 ^ -1074`. -/
def Rep (q : ℚ) : Prop := (∃ m e : ℤ, q = m * 2 ^ e ∧ |m| < 2 ^ 53 ∧ -1074 ≤ e) ∧ |q| ≤ max64

end B64
end Lacuna
