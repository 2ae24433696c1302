import Verif.Model.PyLinProg
import Verif.Spec.PyMeaning
import Verif.Spec.PyLinalg
/-
Vocabulary for the linear algebra functions as contractions.
-/
namespace Lacuna
variable {V : Type}

/-- The element of a dense array under an index. -/
def DenseNd.elem [Zero V] (y : DenseNd V) (z : List Int) : V := y.data.getD (rowMajor y.shape z) 0

/-- The columns of the `r × c` matrix `f` are contracted with axis `p` of `y` (of `c` elements), whose place
is taken by the rows of `f`: `out[…, i, …] = Σ_j f[i, j] · y[…, j, …]`. -/
def Contracts [Semiring V] (r c : Nat) (f : List Int → V) (p : Nat) (y out : DenseNd V) : Prop :=
  out.shape = y.shape.set p r ∧ out.data.length = out.shape.prod ∧
  ∀ z, InBounds out.shape z →
    out.elem z = ((List.range c).map fun (j : Nat) => f [z.getD p 0, (j : Int)] * y.elem (z.set p (j : Int))).sum

/-- Axis 1 of the left operand with axis 0 of the right one (further pairs are not looked at). -/
def AxesArg.Columns (axes : AxesArg) : Prop := axes = .int 1 ∨ ∃ ps qs, axes = .pair (1 :: ps) (0 :: qs)

/-- What NumPy documents for a matrix and an array of `ndim` axes: axis `p` of the array is contracted with
the columns of the matrix, or (`tr`) with its rows. -/
def LinFn.Contraction (fn : LinFn) (ndim : Nat) (tr : Bool) (p : Nat) : Prop :=
  match fn with
  | .matmul => tr = false ∧ ((ndim = 1 ∧ p = 0) ∨ (2 ≤ ndim ∧ p = ndim - 2))
  | .tensordot axes => tr = false ∧ 1 ≤ ndim ∧ p = 0 ∧ axes.Columns
  | .vecdot axis => ndim = 1 ∧ p = 0 ∧
      if tr then axis = some 0 else axis = none ∨ axis = some (-1) ∨ axis = some 1

/-- The axis of an N-D array of `ndim` axes that is contracted with the first axis of the right operand. -/
def LinFn.NdContraction (fn : LinFn) (ndim axis : Nat) : Prop :=
  match fn with
  | .matmul => False
  | .tensordot axes => NdAxis ndim axes axis
  | .vecdot ax => ((ax = none ∨ ax = some (-1)) ∧ axis + 1 = ndim) ∨ ax = some (axis : Int)

/-- The first axis of the right operand must have `c` elements. -/
def firstAxisError (c : Int) (ys : List Nat) : Option PyErr :=
  if ys = [] then some .indexError else if (ys.getD 0 0 : Int) ≠ c then some .valueError else none

/-- The exceptions for a matrix of shape `(r, c)` and a right operand of shape `ys`. -/
def LinFn.error (fn : LinFn) (r c : Int) (ys : List Nat) : Option PyErr :=
  match fn with
  | .matmul => if ys = [] ∨ (ys.getD (ys.length - 2) 0 : Int) ≠ c then some .valueError else none
  | .tensordot (.int n) => if n ≠ 1 then some .notImplemented else firstAxisError c ys
  | .tensordot (.pair (a :: _) (b :: _)) => if a ≠ 1 ∨ b ≠ 0 then some .notImplemented else firstAxisError c ys
  | .tensordot (.pair _ _) => some .indexError
  | .vecdot axis =>
    if ys.length ≠ 1 then some .notImplemented
    else if axis = none ∨ axis = some (-1) ∨ axis = some 1 then
      if (ys.getD 0 0 : Int) ≠ c then some .valueError else none
    else if axis = some 0 then
      if (ys.getD 0 0 : Int) ≠ r then some .valueError else none
    else some .notImplemented

/-- The exceptions for an N-D array of shape `s`, contracted along its axis `axis` (negative: counted from
the end, but the native function refuses it), and a right operand of shape `ys`. -/
def ndAxisError (axis : Int) (s ys : List Nat) : Option PyErr :=
  if ys = [] ∨ axis < -s.length ∨ (s.length : Int) ≤ axis then some .indexError
  else if axis < 0 ∨ s.getD axis.toNat 0 ≠ ys.getD 0 0 then some .valueError
  else none

/-- The exceptions for an N-D array of shape `s`. -/
def LinFn.ndError (fn : LinFn) (s ys : List Nat) : Option PyErr :=
  match fn with
  | .matmul => some .notImplemented
  | .tensordot (.int n) => if n ≠ 1 then some .notImplemented else ndAxisError ((s.length : Int) - 1) s ys
  | .tensordot (.pair (a :: _) (b :: _)) => if b ≠ 0 then some .notImplemented else ndAxisError a s ys
  | .tensordot (.pair _ _) => some .indexError
  | .vecdot axis =>
    if ys.length ≠ 1 then some .notImplemented
    else match ndAxisError (if axis = none ∨ axis = some (-1) then (s.length : Int) - 1 else axis.getD 0) s ys with
      | some e => some e
      | none => if s.length = 1 then some .panic else none

end Lacuna
