import Verif.Spec.PyProg
import Verif.Spec.Ideal
import Mathlib.Algebra.Order.Floor.Ring
import Mathlib.Algebra.Field.Defs
/-
What a Python program over the sparse classes means: a dense array, cell by cell, as NumPy would
compute it in exact arithmetic (with `x / 0 = x // 0 = x % 0 = 0`, the convention of the library for
two sparse operands).
-/
namespace Lacuna
variable {V : Type}

/-- The shape of an object. -/
def Ty.shape : Ty → List Nat
  | .mat _ r c => [r, c]
  | .coo r c => [r, c]
  | .nd s => s

/-- The shape of the value of a program. -/
def Prog.shape [Zero V] [BEq V] (e : Prog V) : List Nat :=
  match e.check with
  | .ok τ => τ.shape
  | .error _ => []

/-- The index at a row-major position. -/
def unravel : List Nat → Nat → List Int
  | [], _ => []
  | _ :: ss, k => ((k / ss.prod : Nat) : Int) :: unravel ss (k % ss.prod)

/-- The index whose components along `perm` are `y`: component `perm[k]` is `y[k]`. -/
def unpermute (perm : List Nat) (y : List Int) : List Int :=
  (List.range perm.length).map fun d => y.getD (perm.idxOf d) 0

/-- The cells of a stored array: everything stored under an index is added up. -/
def SpVal.cell [Add V] [Zero V] (v : SpVal V) (x : List Int) : V :=
  match v, x with
  | .mat .csr a, [i, j] => a.val i.toNat j.toNat
  | .mat .csc a, [i, j] => a.val j.toNat i.toNat
  | .coo a, [i, j] => a.val i.toNat j.toNat
  | .nd a, x => a.val x
  | _, _ => 0

/-- Every coordinate is stored at most once. -/
def SpVal.Once : SpVal V → Prop
  | .mat _ a => ∀ i, ((a.row i).map Prod.fst).Nodup
  | .coo a => a.NoDup
  | .nd a => a.NoDup

section
variable [Field V] [LinearOrder V] [FloorRing V] [BEq V] [HasPowf V]

/-- The scalar functions. -/
def BinOp.eval (op : BinOp) (x y : V) : V :=
  match op with
  | .add => x + y
  | .sub => x - y
  | .mul => x * y
  | .div => if y = 0 then 0 else x / y
  | .floordiv => if y = 0 then 0 else (⌊x / y⌋ : V)
  | .rem => if y = 0 then 0 else x - y * (⌊x / y⌋ : V)
  | .pow => HasPowf.powf x y

/-- `abs`, `negative`, `sign`. -/
def UnOp.eval (op : UnOp) (x : V) : V :=
  match op with
  | .abs => |x|
  | .neg => -x
  | .sign => if 0 < x then 1 else if x < 0 then -1 else 0

/-- The methods of N-D arrays, for an array of shape `s` with cells `c`. -/
def NdOp.cells (op : NdOp) (s xs : List Nat) (c : List Int → V) (y : List Int) : V :=
  match op with
  | .reshape => c (unravel s (rowMajor xs y))
  | .permute => c (unpermute xs y)
  | .reduceSum => (((indicesOf s).filter fun x => select (restAxes s.length xs) x == y).map c).sum
  | .reduceMean =>
    (((indicesOf s).filter fun x => select (restAxes s.length xs) x == y).map c).sum / ((extents s xs).prod : Nat)
  | .unfold _ =>
    let rest := restAxes s.length xs
    c (unpermute (xs ++ rest) (unravel (extents s xs) (y.getD 0 0).toNat ++ unravel (extents s rest) (y.getD 1 0).toNat))

/-- The cells of the value of a program. -/
def Prog.cells : Prog V → List Int → V
  | .mat f nrows ncols indptr indices data => (SpVal.mat f
      (match f with
      | .csr => ⟨nrows.toNat, ncols.toNat, indptr, indices, data⟩
      | .csc => ⟨ncols.toNat, nrows.toNat, indptr, indices, data⟩)).cell
  | .coo nrows ncols row col data => (SpVal.coo ⟨nrows.toNat, ncols.toNat, row, col, data⟩).cell
  | .nd shape indices data => (SpVal.nd ⟨shape.map Int.toNat, indices, data⟩).cell
  | .un op a => fun x => op.eval (a.cells x)
  | .bin op a b => fun x => op.eval (a.cells (bcastIndex a.shape x)) (b.cells (bcastIndex b.shape x))
  | .scalar op a alpha => fun x => op.eval (a.cells x) alpha
  | .left op alpha a => fun x => op.eval alpha (a.cells x)
  | .T a => fun x => a.cells x.reverse
  | .prune eps a => fun x => if eps < |a.cells x| then a.cells x else 0
  | .elimZeros a => a.cells
  | .ndop op arg a => op.cells a.shape (arg.map Int.toNat) a.cells
  | .mode f axis a => (NdOp.unfold f).cells a.shape [axis.toNat] a.cells

/-- No coordinate is stored twice: always so for `CSR` and `CSC`, for the results of reductions and of
the broadcasting product; otherwise inherited from the operand. -/
def Prog.Distinct : Prog V → Prop
  | .mat _ _ _ _ _ _ => True
  | .coo nrows ncols row col data => (Coo.mk nrows.toNat ncols.toNat row col data).NoDup
  | .nd shape indices data => (CooNd.mk (shape.map Int.toNat) indices data).NoDup
  | .un _ a => a.Distinct
  | .bin _ _ _ => True
  | .scalar _ a _ => a.Distinct
  | .left _ _ a => a.Distinct
  | .T a => a.Distinct
  | .prune _ a => a.Distinct
  | .elimZeros a => a.Distinct
  | .ndop op _ a => (match op with
    | .reshape => a.Distinct
    | .permute => a.Distinct
    | _ => True)
  | .mode _ _ _ => True

/-- The programs whose results are the exact ones.  Left out: functions that are not linear, applied to
an array that stores a coordinate twice; powers with `0 ** alpha ≠ 0`, and powers of two sparse
operands. -/
def Prog.Exact : Prog V → Prop
  | .un op a => a.Exact ∧ (op ≠ .neg → a.Distinct)
  | .bin op a b => a.Exact ∧ b.Exact ∧ op ≠ .pow
  | .scalar op a alpha => a.Exact ∧ (op = .floordiv ∨ op = .rem ∨ op = .pow → a.Distinct) ∧
      (op = .pow → HasPowf.powf 0 alpha = 0)
  | .left _ _ a => a.Exact
  | .T a => a.Exact
  | .prune _ a => a.Exact ∧ a.Distinct
  | .elimZeros a => a.Exact
  | .ndop _ _ a => a.Exact
  | .mode _ _ a => a.Exact
  | _ => True

end

end Lacuna
