import Mathlib.Data.Rat.Defs
import Mathlib.Data.Multiset.AddSub
import Mathlib.Algebra.Order.Ring.Rat
import Mathlib.Algebra.BigOperators.Group.Multiset.Defs
import Verif.Model.Spmv
import Verif.Spec.Dense
/-
Floating-point arithmetic as far as error bounds are concerned: what addition, multiplication and
fused multiply-add of finite numbers return, up to rounding, underflow and overflow.
`Model/Binary64` has the IEEE 754 binary64 numbers with these operations.
-/
namespace Lacuna
universe u

/-- Addition with relative error at most `eps`, as long as the exact sum is at most `big`.  Adding a
zero is exact. -/
structure FpAdd (V : Type u) [Zero V] [Add V] where
  /-- The number is finite. -/
  Fin : V → Prop
  /-- Its value. -/
  val : V → ℚ
  /-- The unit roundoff. -/
  eps : ℚ
  /-- The largest finite number. -/
  big : ℚ
  eps_nonneg : 0 ≤ eps
  fin_zero : Fin 0
  val_zero : val 0 = 0
  add : ∀ {a b}, Fin a → Fin b → |val a + val b| ≤ big →
    Fin (a + b) ∧ |val (a + b) - (val a + val b)| ≤ eps * |val a + val b|
  zero_add : ∀ {a b}, Fin a → Fin b → val a = 0 → Fin (a + b) ∧ val (a + b) = val b
  add_zero : ∀ {a b}, Fin a → Fin b → val b = 0 → Fin (a + b) ∧ val (a + b) = val a

/-- Multiplication in addition: relative error `eps` plus `eta` for results that underflow. -/
structure FpMul (V : Type u) [Zero V] [Add V] [Mul V] extends FpAdd V where
  /-- Half the smallest positive number. -/
  eta : ℚ
  eta_nonneg : 0 ≤ eta
  mul : ∀ {a b}, Fin a → Fin b → |val a * val b| ≤ big →
    Fin (a * b) ∧ |val (a * b) - val a * val b| ≤ eps * |val a * val b| + eta

/-- Fused multiply-add with one rounding. -/
structure FpFma (V : Type u) [Zero V] [Add V] [Mul V] [HasFma V] extends FpMul V where
  fma : ∀ {a b c}, Fin a → Fin b → Fin c → |val a * val b + val c| ≤ big →
    Fin (mulAdd a b c) ∧
    |val (mulAdd a b c) - (val a * val b + val c)| ≤ eps * |val a * val b + val c| + eta

/-- `v` is a sum of the numbers in the multiset, in some order and with some bracketing; zeros may be
added anywhere.  No law of addition is assumed. -/
inductive AddTree {V : Type u} [Zero V] [Add V] : Multiset V → V → Prop
  | zero : AddTree 0 0
  | leaf (x : V) : AddTree {x} x
  | node {s t : Multiset V} {a b : V} : AddTree s a → AddTree t b → AddTree (s + t) (a + b)

variable {V : Type u}

/-- `v` is the sum of finite numbers `s` up to rounding: unless the absolute values of the `n` numbers
add up to more than `big / (1 + eps) ^ n`, it is finite and at most
`((1 + eps) ^ (n - 1) - 1) * Σ |x|` away from the exact sum. -/
def RoundedSum [Zero V] [Add V] (M : FpAdd V) (s : Multiset V) (v : V) : Prop :=
  (∀ x ∈ s, M.Fin x) → (1 + M.eps) ^ s.card * (s.map fun x => |M.val x|).sum ≤ M.big →
    M.Fin v ∧ |M.val v - (s.map M.val).sum| ≤ ((1 + M.eps) ^ (s.card - 1) - 1) * (s.map fun x => |M.val x|).sum

/-- `v` is the sum of the products of `n` pairs of finite numbers up to rounding: unless the absolute
values of the products are too large, it is finite and at most
`((1 + eps) ^ n - 1) * Σ |x y| + n * (1 + eps) ^ (n - 1) * eta` away from the exact value. -/
def RoundedDot [Zero V] [Add V] [Mul V] (M : FpMul V) (s : Multiset (V × V)) (v : V) : Prop :=
  (∀ p ∈ s, M.Fin p.1 ∧ M.Fin p.2) →
    (1 + M.eps) ^ (s.card + 1) * ((s.map fun p => |M.val p.1 * M.val p.2|).sum + s.card * M.eta) ≤ M.big →
    M.Fin v ∧ |M.val v - (s.map fun p => M.val p.1 * M.val p.2).sum| ≤
      ((1 + M.eps) ^ s.card - 1) * (s.map fun p => |M.val p.1 * M.val p.2|).sum +
        s.card * (1 + M.eps) ^ (s.card - 1) * M.eta

/-! ### The stored values of a row or column -/

/-- The values stored on a line of a compressed matrix. -/
def Comp.lineVals (a : Comp V) (i : Nat) : List V := (a.row i).map Prod.snd

/-- The values stored across the lines at index `j`. -/
def Comp.crossVals (a : Comp V) (j : Nat) : List V :=
  (List.range a.n).flatMap fun i => ((a.row i).filter fun e => e.1 == (j : Int)).map Prod.snd

/-- The values stored in row `i`, and in column `j`. -/
def Csr.rowVals (a : Csr V) (i : Nat) : List V := a.comp.lineVals i
def Csr.colVals (a : Csr V) (j : Nat) : List V := a.comp.crossVals j
def Csc.rowVals (a : Csc V) (i : Nat) : List V := a.comp.crossVals i
def Csc.colVals (a : Csc V) (j : Nat) : List V := a.comp.lineVals j
def Coo.rowVals (a : Coo V) (i : Nat) : List V := (a.triples.filter fun t => t.1.1 == (i : Int)).map Prod.snd
def Coo.colVals (a : Coo V) (j : Nat) : List V := (a.triples.filter fun t => t.1.2 == (j : Int)).map Prod.snd

/-- The values stored in row `i`, each with the factor `f j` of its column. -/
def Csr.rowFactors (a : Csr V) (f : Nat → V) (i : Nat) : List (V × V) :=
  (a.comp.row i).map fun e => (e.2, f e.1.toNat)
def Csc.rowFactors (a : Csc V) (f : Nat → V) (i : Nat) : List (V × V) :=
  (List.range a.ncols).flatMap fun j => ((a.comp.row j).filter fun e => e.1 == (i : Int)).map fun e => (e.2, f j)
def Coo.rowFactors (a : Coo V) (f : Nat → V) (i : Nat) : List (V × V) :=
  (a.triples.filter fun t => t.1.1 == (i : Int)).map fun t => (t.2, f t.1.2.toNat)

/-- The values stored in column `j`, each with the factor `f i` of its row. -/
def Csr.colFactors (a : Csr V) (f : Nat → V) (j : Nat) : List (V × V) :=
  (List.range a.nrows).flatMap fun i => ((a.comp.row i).filter fun e => e.1 == (j : Int)).map fun e => (e.2, f i)
def Csc.colFactors (a : Csc V) (f : Nat → V) (j : Nat) : List (V × V) :=
  (a.comp.row j).map fun e => (e.2, f e.1.toNat)
def Coo.colFactors (a : Coo V) (f : Nat → V) (j : Nat) : List (V × V) :=
  (a.triples.filter fun t => t.1.2 == (j : Int)).map fun t => (t.2, f t.1.1.toNat)

end Lacuna
