import Verif.Spec.F64
import Verif.Model.Stats
import Verif.Spec.PyRead
/-
What minima, maxima and products of binary64 numbers are.
-/
namespace Lacuna

/-- What is assumed of `f64::min`, `f64::max` and their vector forms: of two numbers that are not `NaN` they
return one, and none of the two is smaller (larger).  Nothing is assumed for `NaN`, nor which zero is returned. -/
structure F64.MinMaxOk [HasMinMax F64] : Prop where
  posInf : (posInf : F64) = .inf false
  negInf : (negInf : F64) = .inf true
  fmin : ∀ a b : F64, isNan a = false → isNan b = false →
    (fmin a b = a ∨ fmin a b = b) ∧ flt a (fmin a b) = false ∧ flt b (fmin a b) = false
  vmin : ∀ a b : F64, isNan a = false → isNan b = false →
    (vmin a b = a ∨ vmin a b = b) ∧ flt a (vmin a b) = false ∧ flt b (vmin a b) = false
  fmax : ∀ a b : F64, isNan a = false → isNan b = false →
    (fmax a b = a ∨ fmax a b = b) ∧ flt (fmax a b) a = false ∧ flt (fmax a b) b = false
  vmax : ∀ a b : F64, isNan a = false → isNan b = false →
    (vmax a b = a ∨ vmax a b = b) ∧ flt (vmax a b) a = false ∧ flt (vmax a b) b = false

/-- `v` is the smallest of the numbers, up to the sign of zeros. -/
def F64.IsMin (l : List F64) (v : F64) : Prop :=
  l ≠ [] → (∀ d ∈ l, isNan d = false) → (∃ d ∈ l, SameNum v d) ∧ ∀ d ∈ l, flt d v = false

/-- `v` is the largest of the numbers, up to the sign of zeros. -/
def F64.IsMax (l : List F64) (v : F64) : Prop :=
  l ≠ [] → (∀ d ∈ l, isNan d = false) → (∃ d ∈ l, SameNum v d) ∧ ∀ d ∈ l, flt v d = false

/-- No product of some of the numbers is near the ends of the range of binary64, unless it is zero. -/
def F64.InRange (l : List F64) : Prop :=
  ∀ t : Multiset ℚ, t ≤ (l.map F64.val : List ℚ) → t.prod = 0 ∨
    (2 ^ (-1022 : ℤ) ≤ (1 - 1 / 2 ^ 53) ^ l.length * |t.prod| ∧ (1 + 1 / 2 ^ 53) ^ l.length * |t.prod| ≤ max64)

/-- `v` is the product of the `n` numbers up to rounding: if they are finite and no product of some of them is
near the ends of the range, it is the exact product times a factor between `(1 - 2 ^ -53) ^ (n - 1)` and
`(1 + 2 ^ -53) ^ (n - 1)`. -/
def F64.RoundedProd (l : List F64) (v : F64) : Prop :=
  (∀ x ∈ l, x.IsFin) → F64.InRange l →
    v.IsFin ∧ ∃ θ : ℚ, (1 - 1 / 2 ^ 53) ^ (l.length - 1) ≤ θ ∧ θ ≤ (1 + 1 / 2 ^ 53) ^ (l.length - 1) ∧
      v.val = θ * (l.map F64.val).prod

/-- NumPy's `all` and `any`: every number but a zero is true, a `NaN` too. -/
def F64.Truth (op : LogicOp) (l : List F64) (r : Bool) : Prop :=
  r = match op with
    | .all => l.all fun d => !(d == 0)
    | .any => l.any fun d => !(d == 0)

/-- `v` is NumPy's product of the numbers from the first to the last, rounding included, up to the sign of zeros;
but it may be zero where NumPy's is `NaN` and one of the numbers is zero. -/
def F64.RunningProd (l : List F64) (v : F64) : Prop :=
  SameNum v (l.foldl (· * ·) 1) ∨ (isNan (l.foldl (· * ·) 1) = true ∧ (∃ d ∈ l, (d == 0) = true) ∧ v = 0)

/-- The elements of an operand of a comparison. -/
def CmpArg.dense [HasPowf F64] : CmpArg F64 → List Int → F64
  | .prog e, x => e.dense x
  | .array y, x => y.elem x

/-- What the theorems assume of an operand of a comparison. -/
def CmpArg.DenseOk [HasPowf F64] : CmpArg F64 → Prop
  | .prog e => e.LitsOk ∧ e.Small ∧ e.AsDense
  | .array y => y.data.length = y.shape.prod

end Lacuna
