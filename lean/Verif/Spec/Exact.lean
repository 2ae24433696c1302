import Verif.Spec.F64
/-
Whole numbers in binary64.  Up to `2 ^ 53` they are computed with exactly.
-/
namespace Lacuna

/-- A finite whole number. -/
def F64.IsInt (x : F64) : Prop := x.IsFin ∧ ∃ n : ℤ, x.val = n

section
variable [HasPowf F64]

/-- The exact elements of a program, as rational numbers.  Floor division and remainder of two arrays are zero
where the divisor is. -/
def Prog.exact : Prog F64 → List Int → ℚ
  | .mat f nrows ncols indptr indices data, x => ((Prog.mat f nrows ncols indptr indices data).dense x).val
  | .un .abs a, x => |a.exact x|
  | .un .neg a, x => -a.exact x
  | .un .sign a, x => if 0 < a.exact x then 1 else if a.exact x < 0 then -1 else 0
  | .bin .add a b, x => a.exact x + b.exact x
  | .bin .sub a b, x => a.exact x - b.exact x
  | .bin .mul a b, x => a.exact x * b.exact x
  | .bin .floordiv a b, x => if b.exact x = 0 then 0 else ⌊a.exact x / b.exact x⌋
  | .bin .rem a b, x => if b.exact x = 0 then 0 else a.exact x - b.exact x * ⌊a.exact x / b.exact x⌋
  | .scalar .mul a alpha, x => a.exact x * alpha.val
  | .scalar .floordiv a alpha, x => ⌊a.exact x / alpha.val⌋
  | .scalar .rem a alpha, x => a.exact x - alpha.val * ⌊a.exact x / alpha.val⌋
  | .left .mul alpha a, x => alpha.val * a.exact x
  | .T a, x => a.exact x.reverse
  | .prune eps a, x => if eps.val < |a.exact x| then a.exact x else 0
  | .elimZeros a, x => a.exact x
  | _, _ => 0

/-- The exact elements are at most `2 ^ 53` in absolute value. -/
def Prog.Within53 (e : Prog F64) : Prop := ∀ x, InBounds e.shape x → |e.exact x| ≤ 2 ^ 53

/-- Programs over compressed matrices of whole numbers in which no exact intermediate result exceeds
`2 ^ 53` in absolute value.  In a floor division the dividend must be below that, and in a remainder both
operands together. -/
def Prog.Int53 : Prog F64 → Prop
  | .mat f nrows ncols indptr indices data =>
      (∀ x, InBounds (Prog.mat f nrows ncols indptr indices data).shape x → ((Prog.mat f nrows ncols indptr indices data).dense x).IsInt) ∧
      (Prog.mat f nrows ncols indptr indices data).Within53
  | .un _ a => a.Int53
  | .bin .add a b => a.Int53 ∧ b.Int53 ∧ (Prog.bin .add a b).Within53
  | .bin .sub a b => a.Int53 ∧ b.Int53 ∧ (Prog.bin .sub a b).Within53
  | .bin .mul a b => a.Int53 ∧ b.Int53 ∧ (Prog.bin .mul a b).Within53
  | .bin .floordiv a b => a.Int53 ∧ b.Int53 ∧ ∀ x, InBounds a.shape x → |a.exact x| < 2 ^ 53
  | .bin .rem a b => a.Int53 ∧ b.Int53 ∧ ∀ x, InBounds a.shape x → |a.exact x| + |b.exact x| ≤ 2 ^ 53
  | .scalar .mul a alpha => a.Int53 ∧ alpha.IsInt ∧ (Prog.scalar .mul a alpha).Within53
  | .scalar .floordiv a alpha => a.Int53 ∧ alpha.IsInt ∧ |alpha.val| ≤ 2 ^ 53 ∧ ∀ x, InBounds a.shape x → |a.exact x| < 2 ^ 53
  | .scalar .rem a alpha => a.Int53 ∧ alpha.IsInt ∧ |alpha.val| ≤ 2 ^ 53 ∧ ∀ x, InBounds a.shape x → |a.exact x| + |alpha.val| ≤ 2 ^ 53
  | .left .mul alpha a => a.Int53 ∧ alpha.IsInt ∧ (Prog.left .mul alpha a).Within53
  | .T a => a.Int53
  | .prune eps a => a.Int53 ∧ eps.IsFin
  | .elimZeros a => a.Int53
  | _ => False

end

/-- `v` is the exact sum of the numbers if these are whole and their absolute values add up to at most
`2 ^ 53`. -/
def F64.ExactSum (l : List F64) (v : F64) : Prop :=
  (∀ x ∈ l, x.IsInt) → (l.map fun x => |x.val|).sum ≤ 2 ^ 53 → v.IsFin ∧ v.val = (l.map F64.val).sum

/-- `v` is the exact product of the numbers if these are whole and their absolute values (or 1, if that is
larger) have a product of at most `2 ^ 53`. -/
def F64.ExactProd (l : List F64) (v : F64) : Prop :=
  (∀ x ∈ l, x.IsInt) → (l.map fun x => max 1 |x.val|).prod ≤ 2 ^ 53 → v.IsFin ∧ v.val = (l.map F64.val).prod

/-- `v` is the exact sum of the products of the pairs if the factors are whole and the absolute values of the
products add up to at most `2 ^ 53`. -/
def F64.ExactDot (l : List (F64 × F64)) (v : F64) : Prop :=
  (∀ q ∈ l, q.1.IsInt ∧ q.2.IsInt) → (l.map fun q => |q.1.val * q.2.val|).sum ≤ 2 ^ 53 →
    v.IsFin ∧ v.val = (l.map fun q => q.1.val * q.2.val).sum

end Lacuna
