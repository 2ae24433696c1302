import Verif.Spec.F64Nd
/-
Whole numbers in programs over all classes.
-/
namespace Lacuna

section
variable [HasPowf F64]

/-- The exact elements of a program over `CSR`, `CSC`, `COO` and `COOND` objects, as rational numbers. -/
def Prog.exactN : Prog F64 → List Int → ℚ
  | .mat f nrows ncols indptr indices data, x => ((Prog.mat f nrows ncols indptr indices data).elems x).val
  | .coo nrows ncols row col data, x => ((Prog.coo nrows ncols row col data).elems x).val
  | .nd shape indices data, x => ((Prog.nd shape indices data).elems x).val
  | .un .abs a, x => |a.exactN x|
  | .un .neg a, x => -a.exactN x
  | .un .sign a, x => if 0 < a.exactN x then 1 else if a.exactN x < 0 then -1 else 0
  | .bin .add a b, x => a.exactN x + b.exactN x
  | .bin .sub a b, x => a.exactN x - b.exactN x
  | .bin .mul a b, x => a.exactN (bcastIndex a.shape x) * b.exactN (bcastIndex b.shape x)
  | .bin .floordiv a b, x => if b.exactN x = 0 then 0 else ⌊a.exactN x / b.exactN x⌋
  | .bin .rem a b, x => if b.exactN x = 0 then 0 else a.exactN x - b.exactN x * ⌊a.exactN x / b.exactN x⌋
  | .scalar .mul a alpha, x => a.exactN x * alpha.val
  | .scalar .floordiv a alpha, x => ⌊a.exactN x / alpha.val⌋
  | .scalar .rem a alpha, x => a.exactN x - alpha.val * ⌊a.exactN x / alpha.val⌋
  | .left .mul alpha a, x => alpha.val * a.exactN x
  | .T a, x => a.exactN x.reverse
  | .prune eps a, x => if eps.val < |a.exactN x| then a.exactN x else 0
  | .elimZeros a, x => a.exactN x
  | .ndop .reshape arg a, x => a.exactN (unravel a.shape (rowMajor (arg.map Int.toNat) x))
  | .ndop .permute arg a, x => a.exactN (unpermute (arg.map Int.toNat) x)
  | .ndop .reduceSum arg a, x =>
      (((indicesOf a.shape).filter fun z => select (restAxes a.shape.length (arg.map Int.toNat)) z == x).map a.exactN).sum
  | .ndop (.unfold _) arg a, x => a.exactN (foldIndex a.shape (arg.map Int.toNat) x)
  | .mode _ axis a, x => a.exactN (foldIndex a.shape [axis.toNat] x)
  | _, _ => 0

/-- The exact elements are at most `2 ^ 53` in absolute value. -/
def Prog.AtMost53 (e : Prog F64) : Prop := ∀ x, InBounds e.shape x → |e.exactN x| ≤ 2 ^ 53

/-- A literal of whole numbers that stores no coordinate twice. -/
def Prog.WholeLit (e : Prog F64) : Prop := e.Distinct ∧ (∀ x, InBounds e.shape x → (e.elems x).IsInt) ∧ e.AtMost53

/-- Programs over whole numbers in which no exact intermediate result exceeds `2 ^ 53` in absolute value, nor the
absolute values of what is summed together.  In a floor division the dividend must be below that, and in a
remainder both operands together. -/
def Prog.Whole : Prog F64 → Prop
  | .mat f nrows ncols indptr indices data => (Prog.mat f nrows ncols indptr indices data).WholeLit
  | .coo nrows ncols row col data => (Prog.coo nrows ncols row col data).WholeLit
  | .nd shape indices data => (Prog.nd shape indices data).WholeLit
  | .un _ a => a.Whole
  | .bin .add a b => a.Whole ∧ b.Whole ∧ (Prog.bin .add a b).AtMost53
  | .bin .sub a b => a.Whole ∧ b.Whole ∧ (Prog.bin .sub a b).AtMost53
  | .bin .mul a b => a.Whole ∧ b.Whole ∧ (Prog.bin .mul a b).AtMost53
  | .bin .floordiv a b => a.Whole ∧ b.Whole ∧ ∀ x, InBounds a.shape x → |a.exactN x| < 2 ^ 53
  | .bin .rem a b => a.Whole ∧ b.Whole ∧ ∀ x, InBounds a.shape x → |a.exactN x| + |b.exactN x| ≤ 2 ^ 53
  | .scalar .mul a alpha => a.Whole ∧ alpha.IsInt ∧ (Prog.scalar .mul a alpha).AtMost53
  | .scalar .floordiv a alpha => a.Whole ∧ alpha.IsInt ∧ |alpha.val| ≤ 2 ^ 53 ∧ ∀ x, InBounds a.shape x → |a.exactN x| < 2 ^ 53
  | .scalar .rem a alpha => a.Whole ∧ alpha.IsInt ∧ |alpha.val| ≤ 2 ^ 53 ∧ ∀ x, InBounds a.shape x → |a.exactN x| + |alpha.val| ≤ 2 ^ 53
  | .left .mul alpha a => a.Whole ∧ alpha.IsInt ∧ (Prog.left .mul alpha a).AtMost53
  | .T a => a.Whole
  | .prune eps a => a.Whole ∧ eps.IsFin
  | .elimZeros a => a.Whole
  | .ndop .reshape _ a => a.Whole
  | .ndop .permute _ a => a.Whole
  | .ndop .reduceSum arg a => a.Whole ∧ ∀ x, InBounds (Prog.ndop .reduceSum arg a).shape x →
      (((indicesOf a.shape).filter fun z => select (restAxes a.shape.length (arg.map Int.toNat)) z == x).map
        fun z => |a.exactN z|).sum ≤ 2 ^ 53
  | .ndop (.unfold _) _ a => a.Whole
  | .mode _ _ a => a.Whole
  | _ => False

end

/-- `v` is the sum of the rational numbers if their absolute values add up to at most `2 ^ 53`. -/
def F64.ExactTotal (l : List ℚ) (v : F64) : Prop := (l.map fun q => |q|).sum ≤ 2 ^ 53 → v.IsFin ∧ v.val = l.sum

/-- `v` is the product of the rational numbers if their absolute values (or 1, if that is larger) have a product of
at most `2 ^ 53`. -/
def F64.ExactProduct (l : List ℚ) (v : F64) : Prop := (l.map fun q => max 1 |q|).prod ≤ 2 ^ 53 → v.IsFin ∧ v.val = l.prod

/-- `v` is the sum of the products of rational numbers with whole binary64 numbers if the absolute values of the
products add up to at most `2 ^ 53`. -/
def F64.ExactInner (l : List (ℚ × F64)) (v : F64) : Prop :=
  (∀ q ∈ l, q.2.IsInt) → (l.map fun q => |q.1 * q.2.val|).sum ≤ 2 ^ 53 → v.IsFin ∧ v.val = (l.map fun q => q.1 * q.2.val).sum

end Lacuna
