import Verif.Model.PyRead
import Verif.Spec.PyBits
import Verif.Spec.PyIndex
import Verif.Spec.PyLinProg
/-
What reading the result of a Python program gives, in whatever arithmetic the machine has.
-/
namespace Lacuna
variable {V : Type}

/-- The cell `x` of an array with stored entries `l`: the entry stored there in the compressed classes; in
the coordinate classes the entries stored there are added to a zero, from left to right. -/
def denseCell [Zero V] [Add V] (compressed : Bool) (l : List (List Int × V)) (x : List Int) : V :=
  if compressed then (valuesAt l x).headD 0 else (valuesAt l x).foldl (fun s v => s + v) 0

/-- The dense array of shape `s` with the cells `f`. -/
def denseOf {W : Type} (s : List Nat) (f : List Int → W) : DenseNd W := ⟨s, (indicesOf s).map f⟩

section
variable [Zero V] [One V] [Neg V] [Add V] [Sub V] [Mul V] [Div V] [NatCast V] [BEq V] [HasFinite V] [HasFloor V]
  [HasPowf V] [HasAbs V] [HasLt V] [HasNan V]

/-- The cells of the value of a program. -/
def Prog.denseCell (e : Prog V) (x : List Int) : V := Lacuna.denseCell e.compressed e.stores x

/-- What `x[key]` gives for a `CSR` object with `r` rows, `c` columns and the cells `f`.  A row is looked up
among the `r + 1` row pointers: `-1` selects the last pointer and the first one, so the row is empty; `-k`
selects row `r + 1 - k`. -/
def readCsr (r c : Nat) (f : List Int → V) : Key → Except PyErr (ReadRes V)
  | .cell i j => if 0 ≤ i ∧ i < r ∧ 0 ≤ j ∧ j < c then .ok (.cell (f [i, j])) else .error .indexError
  | .row i =>
    if i = -1 then .ok (.line (List.replicate c 0))
    else if -((r : Int) + 1) ≤ i ∧ i < r then
      .ok (.line ((List.range c).map fun (j : Nat) => f [if i < 0 then i + r + 1 else i, (j : Int)]))
    else .error .indexError
  | .col j =>
    .ok (.line ((List.range r).map fun (i : Nat) => if 0 ≤ j ∧ j < c then f [(i : Int), j] else 0))
  | .all => .error .notImplemented
  | .single _ => .error .notImplemented

/-- The shape of an operand, or the exception of its evaluation. -/
def CmpArg.check : CmpArg V → Except PyErr (List Nat)
  | .prog e => e.check.map Ty.shape
  | .array y => .ok y.shape

/-- The cells of an operand. -/
def CmpArg.cell : CmpArg V → List Int → V
  | .prog e, x => e.denseCell x
  | .array y, x => y.elem x

/-- What the theorems assume of an operand: of a program what `prog_bits` assumes, of an array that it is
one. -/
def CmpArg.Ok : CmpArg V → Prop
  | .prog e => e.LitsOk ∧ e.Small ∧ e.Determined
  | .array y => y.data.length = y.shape.prod

/-- Is the operand a program? -/
def CmpArg.IsProg : CmpArg V → Prop
  | .prog _ => True
  | .array _ => False

end

section
variable [Field V] [LinearOrder V] [IsStrictOrderedRing V] [FloorRing V] [BEq V] [HasFinite V]
  [HasFloor V] [HasPowf V] [HasAbs V] [HasLt V] [HasNan V]

/-- What the theorems assume of an operand in exact arithmetic. -/
def CmpArg.ExactOk : CmpArg V → Prop
  | .prog e => e.LitsOk ∧ e.Small ∧ e.Exact
  | .array y => y.data.length = y.shape.prod

/-- The array an operand denotes. -/
def CmpArg.exact : CmpArg V → List Int → V
  | .prog e, x => e.cells x
  | .array y, x => y.elem x

/-- The relation a comparison decides. -/
def CmpOp.Holds (op : CmpOp) (x y : V) : Prop :=
  match op with
  | .eq => x = y
  | .ne => x ≠ y
  | .lt => x < y
  | .le => x ≤ y
  | .gt => x > y
  | .ge => x ≥ y

end
end Lacuna
