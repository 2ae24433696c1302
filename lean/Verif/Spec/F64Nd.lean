import Verif.Spec.Exact
import Verif.Spec.PyRead
/-
What programs over all classes compute in binary64, element by element.
-/
namespace Lacuna

/-- The index whose row and column in the unfolding along the axes `xs` are given. -/
def foldIndex (s xs : List Nat) (x : List Int) : List Int :=
  unpermute (xs ++ restAxes s.length xs)
    (unravel (extents s xs) (x.getD 0 0).toNat ++ unravel (extents s (restAxes s.length xs)) (x.getD 1 0).toNat)

/-- The elements of an array of shape `s` that are added at `x` when summing over the axes `xs`, in C order. -/
def axisLine (s xs : List Nat) (f : List Int → F64) (x : List Int) : List F64 :=
  ((indicesOf s).filter fun z => select (restAxes s.length xs) z == x).map f

/-- Numbers that are added without rounding, in any order: whole, their absolute values adding up to at most
`2 ^ 53`. -/
def F64.WholeSum (l : List F64) : Prop := (∀ v ∈ l, v.IsInt) ∧ (l.map fun v => |v.val|).sum ≤ 2 ^ 53

section
variable [HasPowf F64]

/-- The elements of a program over `CSR`, `CSC`, `COO` and `COOND` objects, computed with dense arrays; the
operators are those of `Prog.dense`, products of N-D arrays are broadcast, and the methods that only move
elements read the element from where it was.  Sums over axes are from left to right; a mean is the sum times
the rounded reciprocal of the count. -/
def Prog.elems : Prog F64 → List Int → F64
  | .mat f nrows ncols indptr indices data, x => (total (Prog.mat f nrows ncols indptr indices data).stores x).getD 0
  | .coo nrows ncols row col data, x => (total (Prog.coo nrows ncols row col data).stores x).getD 0
  | .nd shape indices data, x => (total (Prog.nd shape indices data).stores x).getD 0
  | .un .abs a, x => fabs (a.elems x)
  | .un .neg a, x => -a.elems x
  | .un .sign a, x => (a.elems x).signum
  | .bin .add a b, x => a.elems x + b.elems x
  | .bin .sub a b, x => a.elems x - b.elems x
  | .bin .mul a b, x => a.elems (bcastIndex a.shape x) * b.elems (bcastIndex b.shape x)
  | .bin .div a b, x => (a.elems x / b.elems x).orZero
  | .bin .floordiv a b, x => (a.elems x / b.elems x).flr.orZero
  | .bin .rem a b, x => (a.elems x - b.elems x * (a.elems x / b.elems x).flr).orZero
  | .scalar .mul a alpha, x => a.elems x * alpha
  | .scalar .div a alpha, x => a.elems x / alpha
  | .scalar .floordiv a alpha, x => (a.elems x / alpha).flr
  | .scalar .rem a alpha, x => a.elems x - alpha * (a.elems x / alpha).flr
  | .left .mul alpha a, x => alpha * a.elems x
  | .T a, x => a.elems x.reverse
  | .prune eps a, x => if flt eps 0 || flt eps (fabs (a.elems x)) then a.elems x else 0
  | .elimZeros a, x => a.elems x
  | .ndop .reshape arg a, x => a.elems (unravel a.shape (rowMajor (arg.map Int.toNat) x))
  | .ndop .permute arg a, x => a.elems (unpermute (arg.map Int.toNat) x)
  | .ndop .reduceSum arg a, x => (axisLine a.shape (arg.map Int.toNat) a.elems x).foldl (fun s v => s + v) 0
  | .ndop .reduceMean arg a, x => (axisLine a.shape (arg.map Int.toNat) a.elems x).foldl (fun s v => s + v) 0 *
      (1 / ((extents a.shape (arg.map Int.toNat)).prod : F64))
  | .ndop (.unfold _) arg a, x => a.elems (foldIndex a.shape (arg.map Int.toNat) x)
  | .mode _ axis a, x => a.elems (foldIndex a.shape [axis.toNat] x)
  | _, _ => 0

/-- The programs whose elements are determined by the elements of the operands, whether these are stored
or not.  The conditions are those of `Prog.AsDense`; in addition, literals store no coordinate twice, and
what is summed over axes inside a program is summed without rounding (the kernels add in storage order). -/
def Prog.AsElems : Prog F64 → Prop
  | .mat .. => True
  | .coo nrows ncols row col data => (Prog.coo nrows ncols row col data).Distinct
  | .nd shape indices data => (Prog.nd shape indices data).Distinct
  | .un _ a => a.AsElems
  | .bin .add a b => a.AsElems ∧ b.AsElems
  | .bin .sub a b => a.AsElems ∧ b.AsElems
  | .bin .mul a b => a.AsElems ∧ b.AsElems ∧ ∀ x, InBounds (Prog.bin .mul a b).shape x →
      (a.elems (bcastIndex a.shape x)).IsFin ∧ (b.elems (bcastIndex b.shape x)).IsFin
  | .bin .div a b => a.AsElems ∧ b.AsElems
  | .bin .floordiv a b => a.AsElems ∧ b.AsElems
  | .bin .rem a b => a.AsElems ∧ b.AsElems
  | .scalar .mul a alpha => a.AsElems ∧ alpha.IsFin ∧ ((alpha == 0) = true → ∀ x, InBounds a.shape x → (a.elems x).IsFin)
  | .scalar .div a alpha => a.AsElems ∧ alpha.Pow2
  | .scalar .floordiv a alpha => a.AsElems ∧ isNan alpha = false
  | .scalar .rem a alpha => a.AsElems ∧ alpha.IsFin
  | .left .mul alpha a => a.AsElems ∧ alpha.IsFin ∧ ((alpha == 0) = true → ∀ x, InBounds a.shape x → (a.elems x).IsFin)
  | .T a => a.AsElems
  | .prune _ a => a.AsElems ∧ ∀ x, InBounds a.shape x → isNan (a.elems x) = false
  | .elimZeros a => a.AsElems ∧ ∀ x, InBounds a.shape x → isNan (a.elems x) = false
  | .ndop .reshape _ a => a.AsElems
  | .ndop .permute _ a => a.AsElems
  | .ndop .reduceSum arg a => a.AsElems ∧ ∀ x, InBounds (Prog.ndop .reduceSum arg a).shape x →
      F64.WholeSum (axisLine a.shape (arg.map Int.toNat) a.elems x)
  | .ndop .reduceMean arg a => a.AsElems ∧ (extents a.shape (arg.map Int.toNat)).prod ≤ 2 ^ 53 ∧
      ∀ x, InBounds (Prog.ndop .reduceMean arg a).shape x → F64.WholeSum (axisLine a.shape (arg.map Int.toNat) a.elems x)
  | .ndop (.unfold _) _ a => a.AsElems
  | .mode _ _ a => a.AsElems
  | _ => False

/-- The elements of an operand of a comparison. -/
def CmpArg.elems : CmpArg F64 → List Int → F64
  | .prog e, x => e.elems x
  | .array y, x => y.elem x

/-- What the theorems assume of an operand of a comparison. -/
def CmpArg.ElemsOk : CmpArg F64 → Prop
  | .prog e => e.LitsOk ∧ e.Small ∧ e.AsElems
  | .array y => y.data.length = y.shape.prod

end
end Lacuna
