import Verif.Spec.Nd
import Mathlib.Algebra.Ring.Defs
/-
Specification of the batched matrix product.
-/
namespace Lacuna
universe u
variable {V : Type u}

/-- `out`, of shape `batch ++ [m, n]`, is at each batch index the product of the `m × k` matrix
`val` with the `k × n` matrix of `y` (of shape `batch ++ [k, n]`) at that index. -/
def IsBatchProd [Semiring V] (batch : List Nat) (m k n : Nat) (val : Nat → Nat → V) (y out : List V) : Prop :=
  out.length = (batch ++ [m, n]).prod ∧ ∀ z (i c : Nat), InBounds batch z → i < m → c < n →
    out.getD (rowMajor (batch ++ [m, n]) (z ++ [(i : Int), (c : Int)])) 0 =
      ((List.range k).map fun (j : Nat) =>
        val i j * y.getD (rowMajor (batch ++ [k, n]) (z ++ [(j : Int), (c : Int)])) 0).sum

end Lacuna
