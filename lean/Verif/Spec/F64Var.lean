import Verif.Spec.Exact
/-
How far a computed variance may be from the variance.
-/
namespace Lacuna

/-- The variance of numbers with correction `c`: the squared distances from the mean, added and divided by
the number of the numbers less `c`. -/
def exactVar (c : ℚ) (l : List ℚ) : ℚ := (l.map fun x => (x - l.sum / l.length) ^ 2).sum / (l.length - c)

/-- `v` is the variance of the finite numbers `l` with the whole correction `c < n` up to rounding: unless
the squares are too large, it is finite and at most
`2 * ((1 + 2 ^ -53) ^ (2 n + 4) - 1) * Σ x² / (n - c)` away from it, besides underflow.  The bound is
relative to the sum of the squares, not to the variance. -/
def F64.RoundedVar (c : F64) (l : List F64) (v : F64) : Prop :=
  (∀ x ∈ l, x.IsFin) → c.IsInt → |c.val| ≤ 2 ^ 52 → l.length ≤ 2 ^ 52 → c.val < l.length → l ≠ [] →
  2 * (1 + 1 / 2 ^ 53) ^ (2 * l.length + 4) * (l.length * ((l.map fun x => x.val ^ 2).sum + 2)) ≤ max64 →
    v.IsFin ∧ |v.val - exactVar c.val (l.map F64.val)| ≤
      2 * ((1 + 1 / 2 ^ 53) ^ (2 * l.length + 4) - 1) * (l.map fun x => x.val ^ 2).sum / (l.length - c.val) +
        (1 + 1 / 2 ^ 53) ^ (2 * l.length + 4) * (l.length + 3) * (1 / 2 * 2 ^ (-1074 : ℤ))

end Lacuna
