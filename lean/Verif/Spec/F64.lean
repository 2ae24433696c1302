import Verif.Model.F64
import Verif.Spec.PyAny
import Verif.Spec.PyScanAny
/-
What the values of binary64 stand for, and what NumPy computes with dense arrays of them.
-/
namespace Lacuna
namespace F64

/-- The number is finite. -/
def IsFin : F64 → Prop
  | zero _ => True
  | num _ => True
  | _ => False

/-- Its value. -/
def val : F64 → ℚ
  | num x => x.1
  | _ => 0

/-- A power of two, or the negative of one, whose reciprocal is again a number. -/
def Pow2 (x : F64) : Prop := x.IsFin ∧ ∃ k : ℤ, -1023 ≤ k ∧ k ≤ 1023 ∧ |x.val| = 2 ^ k

/-- `numpy.sign`. -/
def signum : F64 → F64
  | nan => nan
  | zero _ => zero false
  | x => if x.sign then -1 else 1

/-- Infinities and `NaN` are replaced with zero. -/
def orZero : F64 → F64
  | zero s => zero s
  | num x => num x
  | _ => 0

/-- `v` is the mean of the numbers up to rounding: unless their absolute values are too large, it is finite
and at most `((1 + 2 ^ -53) ^ n - 1) * Σ |x| / n + 2 ^ -1075` away from the exact mean. -/
def RoundedMean (l : List F64) (v : F64) : Prop :=
  l ≠ [] → (∀ x ∈ l, x.IsFin) → (1 + 1 / 2 ^ 53) ^ l.length * (l.map fun x => |x.val|).sum ≤ max64 →
    v.IsFin ∧ |v.val - (l.map val).sum / l.length| ≤
      ((1 + 1 / 2 ^ 53) ^ l.length - 1) * ((l.map fun x => |x.val|).sum / l.length) + 1 / 2 * 2 ^ (-1074 : ℤ)

end F64

section
variable [HasPowf F64]

/-- The elements of a program, computed with dense arrays: sums, differences, products and quotients are
those of IEEE 754, `a // b` is `floor(a / b)` and `a % b` is `a - b * floor(a / b)`; in these three between
two arrays, infinities and `NaN` are replaced with zero. -/
def Prog.dense : Prog F64 → List Int → F64
  | .mat f nrows ncols indptr indices data, x => (total (Prog.mat f nrows ncols indptr indices data).stores x).getD 0
  | .un .abs a, x => fabs (a.dense x)
  | .un .neg a, x => -a.dense x
  | .un .sign a, x => (a.dense x).signum
  | .bin .add a b, x => a.dense x + b.dense x
  | .bin .sub a b, x => a.dense x - b.dense x
  | .bin .mul a b, x => a.dense x * b.dense x
  | .bin .div a b, x => (a.dense x / b.dense x).orZero
  | .bin .floordiv a b, x => (a.dense x / b.dense x).flr.orZero
  | .bin .rem a b, x => (a.dense x - b.dense x * (a.dense x / b.dense x).flr).orZero
  | .scalar .mul a alpha, x => a.dense x * alpha
  | .scalar .div a alpha, x => a.dense x / alpha
  | .scalar .floordiv a alpha, x => (a.dense x / alpha).flr
  | .scalar .rem a alpha, x => a.dense x - alpha * (a.dense x / alpha).flr
  | .left .mul alpha a, x => alpha * a.dense x
  | .T a, x => a.dense x.reverse
  | .prune eps a, x => if flt eps 0 || flt eps (fabs (a.dense x)) then a.dense x else 0
  | .elimZeros a, x => a.dense x
  | _, _ => 0

/-- The programs over compressed matrices whose elements are determined by the elements of the operands,
whether these are stored or not: products need finite factors (a missing entry times an infinity is zero
instead of a `NaN`), scalar factors must be finite, the factor zero needs finite elements, scalar divisors
must be powers of two (a division multiplies by the reciprocal), a number in `//` is not `NaN`, one in `%` is
finite, and pruned arrays have no `NaN` (it depends on the other entries whether it is kept). -/
def Prog.AsDense : Prog F64 → Prop
  | .mat .. => True
  | .un _ a => a.AsDense
  | .bin .add a b => a.AsDense ∧ b.AsDense
  | .bin .sub a b => a.AsDense ∧ b.AsDense
  | .bin .mul a b => a.AsDense ∧ b.AsDense ∧ ∀ x, InBounds a.shape x → (a.dense x).IsFin ∧ (b.dense x).IsFin
  | .bin .div a b => a.AsDense ∧ b.AsDense
  | .bin .floordiv a b => a.AsDense ∧ b.AsDense
  | .bin .rem a b => a.AsDense ∧ b.AsDense
  | .scalar .mul a alpha => a.AsDense ∧ alpha.IsFin ∧ ((alpha == 0) = true → ∀ x, InBounds a.shape x → (a.dense x).IsFin)
  | .scalar .div a alpha => a.AsDense ∧ alpha.Pow2
  | .scalar .floordiv a alpha => a.AsDense ∧ isNan alpha = false
  | .scalar .rem a alpha => a.AsDense ∧ alpha.IsFin
  | .left .mul alpha a => a.AsDense ∧ alpha.IsFin ∧ ((alpha == 0) = true → ∀ x, InBounds a.shape x → (a.dense x).IsFin)
  | .T a => a.AsDense
  | .prune _ a => a.AsDense ∧ ∀ x, InBounds a.shape x → isNan (a.dense x) = false
  | .elimZeros a => a.AsDense ∧ ∀ x, InBounds a.shape x → isNan (a.dense x) = false
  | _ => False

/-- The elements that NumPy computes for the same program on dense arrays.  Only operations that NumPy
defines by IEEE 754 are listed. -/
def Prog.numpy : Prog F64 → List Int → F64
  | .mat f nrows ncols indptr indices data, x => (total (Prog.mat f nrows ncols indptr indices data).stores x).getD 0
  | .un .abs a, x => fabs (a.numpy x)
  | .un .neg a, x => -a.numpy x
  | .un .sign a, x => (a.numpy x).signum
  | .bin .add a b, x => a.numpy x + b.numpy x
  | .bin .sub a b, x => a.numpy x - b.numpy x
  | .bin .mul a b, x => a.numpy x * b.numpy x
  | .bin .div a b, x => a.numpy x / b.numpy x
  | .scalar .mul a alpha, x => a.numpy x * alpha
  | .scalar .div a alpha, x => a.numpy x / alpha
  | .left .mul alpha a, x => alpha * a.numpy x
  | .T a, x => a.numpy x.reverse
  | _, _ => 0

/-- The programs over compressed matrices that stay clear of the cases in which the kernels leave IEEE
754: products need finite factors, quotients finite results (others are dropped), scalar factors must be
finite, the factor zero needs finite elements, and scalar divisors must be powers of two. -/
def Prog.AsNumpy : Prog F64 → Prop
  | .mat .. => True
  | .un _ a => a.AsNumpy
  | .bin .add a b => a.AsNumpy ∧ b.AsNumpy
  | .bin .sub a b => a.AsNumpy ∧ b.AsNumpy
  | .bin .mul a b => a.AsNumpy ∧ b.AsNumpy ∧ ∀ x, InBounds a.shape x → (a.numpy x).IsFin ∧ (b.numpy x).IsFin
  | .bin .div a b => a.AsNumpy ∧ b.AsNumpy ∧ ∀ x, InBounds a.shape x → (a.numpy x / b.numpy x).IsFin
  | .scalar .mul a alpha => a.AsNumpy ∧ alpha.IsFin ∧ ((alpha == 0) = true → ∀ x, InBounds a.shape x → (a.numpy x).IsFin)
  | .scalar .div a alpha => a.AsNumpy ∧ alpha.Pow2
  | .left .mul alpha a => a.AsNumpy ∧ alpha.IsFin ∧ ((alpha == 0) = true → ∀ x, InBounds a.shape x → (a.numpy x).IsFin)
  | .T a => a.AsNumpy
  | _ => False

end
end Lacuna
