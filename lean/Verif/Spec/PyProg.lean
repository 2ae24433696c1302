import Verif.Model.PyProg
import Verif.Spec.PyClass
import Verif.Spec.PyLinalg
import Verif.Spec.Nd
import Verif.Spec.Unfold
/-
A type system for the Python programs of Model/PyProg: classes and shapes, computed from the
program text without looking at an entry, and the exception a program raises if it does not type.
-/
namespace Lacuna
variable {V : Type}

/-- The class and the shape of an object. -/
inductive Ty
  | mat (f : Fmt) (rows cols : Nat)
  | coo (rows cols : Nat)
  | nd (shape : List Nat)
deriving DecidableEq, Repr

/-- NumPy broadcasting of two shapes, innermost dimension first. -/
def bcastRev : List Nat → List Nat → Option (List Nat)
  | [], t => some t
  | s, [] => some s
  | x :: s, y :: t =>
    if x = y ∨ y = 1 then (bcastRev s t).map (x :: ·) else if x = 1 then (bcastRev s t).map (y :: ·) else none

/-- NumPy broadcasting of two shapes. -/
def bcastTo (s t : List Nat) : Option (List Nat) := (bcastRev s.reverse t.reverse).map List.reverse

/-- Integers passed as a shape or as axes: must fit `int64` and be non-negative. -/
def argDims (xs : List Int) : Except PyErr (List Nat) :=
  if ∃ x ∈ xs, x < -(2 ^ 63) ∨ i64Max < x then .error .overflowError
  else if ∃ x ∈ xs, x < 0 then .error .valueError
  else .ok (xs.map Int.toNat)

/-- `x op alpha`. -/
def Ty.scalar (op : BinOp) (isZero : Bool) (τ : Ty) : Except PyErr Ty :=
  match op, τ with
  | .add, _ => .error .notImplemented
  | .sub, _ => .error .notImplemented
  | .mul, .nd _ => .error .notImplemented
  | .mul, τ => .ok τ
  | .div, .nd _ => .error .notImplemented
  | .pow, τ => .ok τ
  | _, τ => if isZero then .error .zeroDivision else .ok τ

/-- `alpha op x`. -/
def Ty.left (op : BinOp) (τ : Ty) : Except PyErr Ty :=
  match op, τ with
  | .mul, .nd _ => .error .notImplemented
  | .mul, τ => .ok τ
  | _, _ => .error .notImplemented

/-- `x op y`. -/
def Ty.bin (op : BinOp) (τ σ : Ty) : Except PyErr Ty :=
  match τ, σ with
  | .mat f r c, .mat g r' c' =>
    if f ≠ g then .error .notImplemented
    else if r = r' ∧ c = c' then .ok (.mat f r c) else .error .panic
  | .nd s, .nd t =>
    if op = .mul then (match bcastTo s t with | some u => .ok (.nd u) | none => .error .panic)
    else .error .notImplemented
  | _, _ => .error .notImplemented

/-- `x.T`. -/
def Ty.T : Ty → Except PyErr Ty
  | .mat f r c => .ok (.mat f c r)
  | .coo r c => .ok (.coo c r)
  | .nd _ => .error .attributeError

/-- `x.prune(eps)`, `x.eliminate_zeros()`. -/
def Ty.prune : Ty → Except PyErr Ty
  | .nd _ => .error .attributeError
  | τ => .ok τ

/-- Distinct axes of an array of the given rank. -/
def AxesOk (ndim : Nat) (axes : List Nat) : Prop := (∀ p ∈ axes, p < ndim) ∧ axes.Nodup
instance (ndim : Nat) (axes : List Nat) : Decidable (AxesOk ndim axes) := inferInstanceAs (Decidable (_ ∧ _))

/-- The methods of `COOND` with a list argument. -/
def NdOp.ty (op : NdOp) (s : List Nat) (xs : List Nat) : Except PyErr Ty :=
  match op with
  | .reshape =>
    if xs.prod ≠ s.prod then .error .panic
    else if xs = [] then .error .valueError else .ok (.nd xs)
  | .permute => if xs.Perm (List.range s.length) then .ok (.nd (extents s xs)) else .error .panic
  | .reduceSum =>
    if AxesOk s.length xs ∧ xs ≠ [] ∧ restAxes s.length xs ≠ [] then .ok (.nd (extents s (restAxes s.length xs)))
    else .error .panic
  | .reduceMean =>
    if AxesOk s.length xs ∧ xs ≠ [] ∧ restAxes s.length xs ≠ [] then .ok (.nd (extents s (restAxes s.length xs)))
    else .error .panic
  | .unfold f =>
    if AxesOk s.length xs then .ok (.mat f (extents s xs).prod (extents s (restAxes s.length xs)).prod)
    else .error .panic

/-- The same with the argument as given, on any object. -/
def Ty.ndop (op : NdOp) (arg : List Int) : Ty → Except PyErr Ty
  | .nd s => (argDims arg).bind (op.ty s)
  | _ => (match op with
    | .reshape => .error .notImplemented
    | .permute => .error .notImplemented
    | _ => .error .attributeError)

/-- `x.mode_unfold_to_csr(axis)`, `x.mode_unfold_to_csc(axis)`. -/
def Ty.mode (f : Fmt) (axis : Int) : Ty → Except PyErr Ty
  | .nd s =>
    if axis < 0 ∨ (usizeMax : Int) < axis then .error .overflowError
    else if axis.toNat < s.length then
      .ok (.mat f (s.getD axis.toNat 0) (extents s (restAxes s.length [axis.toNat])).prod)
    else .error .panic
  | _ => .error .attributeError

section
variable [Zero V] [BEq V]

/-- The type of a program, or the exception it raises.  A `CSR` literal raises what validation
raises; the other literals never raise (they are assumed valid, see `LitsOk`). -/
def Prog.check : Prog V → Except PyErr Ty
  | .mat f nrows ncols indptr indices data =>
    (match nativeNew f nrows ncols indptr indices data true with
    | .ok _ => .ok (.mat f nrows.toNat ncols.toNat)
    | .error e => .error e)
  | .coo nrows ncols _ _ _ => .ok (.coo nrows.toNat ncols.toNat)
  | .nd shape _ _ => .ok (.nd (shape.map Int.toNat))
  | .un _ a => a.check
  | .bin op a b => do Ty.bin op (← a.check) (← b.check)
  | .scalar op a alpha => do Ty.scalar op (alpha == 0) (← a.check)
  | .left op _ a => do Ty.left op (← a.check)
  | .T a => do Ty.T (← a.check)
  | .prune _ a => do Ty.prune (← a.check)
  | .elimZeros a => do Ty.prune (← a.check)
  | .ndop op arg a => do Ty.ndop op arg (← a.check)
  | .mode f axis a => do Ty.mode f axis (← a.check)

/-- A bound on the number of stored entries of the result. -/
def Prog.bound : Prog V → Nat
  | .mat _ _ _ _ _ data => data.length
  | .coo _ _ _ _ data => data.length
  | .nd _ _ data => data.length
  | .bin _ a b => (match a.check with
    | .ok (.nd _) => max 1 a.bound * max 1 b.bound
    | _ => a.bound + b.bound)
  | .un _ a => a.bound
  | .scalar _ a _ => a.bound
  | .left _ _ a => a.bound
  | .T a => a.bound
  | .prune _ a => a.bound
  | .elimZeros a => a.bound
  | .ndop _ _ a => a.bound
  | .mode _ _ a => a.bound

/-- An object of this type with at most `b` stored entries fits into memory: 24 bytes per entry, 8
bytes per line and per coordinate; an N-D array has a cell and no more than `i64::MAX` of them. -/
def Ty.SizeOk (b : Nat) : Ty → Prop
  | .mat _ r c => 8 * ((r : Int) + 1) ≤ i64Max ∧ 8 * ((c : Int) + 1) ≤ i64Max ∧ 24 * (b : Int) ≤ i64Max
  | .coo r c => 8 * ((r : Int) + 1) ≤ i64Max ∧ 8 * ((c : Int) + 1) ≤ i64Max ∧ 24 * (b : Int) ≤ i64Max
  | .nd s => 0 < s.prod ∧ (s.prod : Int) ≤ i64Max ∧ 24 * (b : Int) ≤ i64Max ∧ 8 * ((b * s.length : Nat) : Int) ≤ i64Max

instance (b : Nat) (τ : Ty) : Decidable (τ.SizeOk b) := by
  cases τ <;> unfold Ty.SizeOk <;> exact inferInstance

/-- The result of a program, if it types, fits into memory. -/
def Prog.Fits (e : Prog V) : Prop :=
  match e.check with
  | .ok τ => τ.SizeOk e.bound
  | .error _ => True

instance (e : Prog V) : Decidable e.Fits := by unfold Prog.Fits; split <;> exact inferInstance

/-- Every intermediate result fits into memory. -/
def Prog.Small : Prog V → Prop
  | .bin op a b => a.Small ∧ b.Small ∧ (Prog.bin op a b).Fits
  | .un op a => a.Small ∧ (Prog.un op a).Fits
  | .scalar op a α => a.Small ∧ (Prog.scalar op a α).Fits
  | .left op α a => a.Small ∧ (Prog.left op α a).Fits
  | .T a => a.Small ∧ (Prog.T a).Fits
  | .prune eps a => a.Small ∧ (Prog.prune eps a).Fits
  | .elimZeros a => a.Small ∧ (Prog.elimZeros a).Fits
  | .ndop op arg a => a.Small ∧ (Prog.ndop op arg a).Fits
  | .mode f axis a => a.Small ∧ (Prog.mode f axis a).Fits
  | e => e.Fits

/-- The size condition can be computed. -/
def Prog.decSmall : (e : Prog V) → Decidable e.Small
  | .mat f r c ip ix d => inferInstanceAs (Decidable (Prog.mat f r c ip ix d).Fits)
  | .coo r c row col d => inferInstanceAs (Decidable (Prog.coo r c row col d).Fits)
  | .nd s ix d => inferInstanceAs (Decidable (Prog.nd s ix d).Fits)
  | .bin op a b =>
    have := a.decSmall
    have := b.decSmall
    inferInstanceAs (Decidable (a.Small ∧ b.Small ∧ (Prog.bin op a b).Fits))
  | .un op a => have := a.decSmall; inferInstanceAs (Decidable (a.Small ∧ (Prog.un op a).Fits))
  | .scalar op a α => have := a.decSmall; inferInstanceAs (Decidable (a.Small ∧ (Prog.scalar op a α).Fits))
  | .left op α a => have := a.decSmall; inferInstanceAs (Decidable (a.Small ∧ (Prog.left op α a).Fits))
  | .T a => have := a.decSmall; inferInstanceAs (Decidable (a.Small ∧ (Prog.T a).Fits))
  | .prune eps a => have := a.decSmall; inferInstanceAs (Decidable (a.Small ∧ (Prog.prune eps a).Fits))
  | .elimZeros a => have := a.decSmall; inferInstanceAs (Decidable (a.Small ∧ (Prog.elimZeros a).Fits))
  | .ndop op arg a => have := a.decSmall; inferInstanceAs (Decidable (a.Small ∧ (Prog.ndop op arg a).Fits))
  | .mode f axis a => have := a.decSmall; inferInstanceAs (Decidable (a.Small ∧ (Prog.mode f axis a).Fits))

instance (e : Prog V) : Decidable e.Small := e.decSmall

end

/-- The literals of classes that do not insist on validation (`CSC`, `COO`, `COOND`) are valid, and all
elements of index arrays are `i64`. -/
def Prog.LitsOk : Prog V → Prop
  | .mat f nrows ncols indptr indices data =>
    (∀ j ∈ indices, j ≤ i64Max) ∧ (f = .csc → ∃ c, nativeNew .csc nrows ncols indptr indices data true = .ok c)
  | .coo nrows ncols row col data =>
    0 ≤ nrows ∧ 0 ≤ ncols ∧ (Coo.mk nrows.toNat ncols.toNat row col data).WF ∧
      (Coo.mk nrows.toNat ncols.toNat row col data).I64
  | .nd shape indices data =>
    (∀ s ∈ shape, 0 ≤ s) ∧ (CooNd.mk (shape.map Int.toNat) indices data).WF ∧
      (CooNd.mk (shape.map Int.toNat) indices data).I64
  | .bin _ a b => a.LitsOk ∧ b.LitsOk
  | .un _ a => a.LitsOk
  | .scalar _ a _ => a.LitsOk
  | .left _ _ a => a.LitsOk
  | .T a => a.LitsOk
  | .prune _ a => a.LitsOk
  | .elimZeros a => a.LitsOk
  | .ndop _ _ a => a.LitsOk
  | .mode _ _ a => a.LitsOk

/-- The object of class `COO` with the contents of `a`. -/
def PyCoo.of (a : Coo V) : PyCoo V := ⟨a.nrows, a.ncols, a.row, a.col, a.data, some a⟩

/-- A sparse array of one of the four classes (`CSR` and `CSC` as compressed lines). -/
inductive SpVal (V : Type)
  | mat (f : Fmt) (a : Comp V)
  | coo (a : Coo V)
  | nd (a : CooNd V)

/-- The Python object that holds it: arrays and native copy agree. -/
def SpVal.obj : SpVal V → PyObj V
  | .mat f a => .mat f (PyMat.of f a)
  | .coo a => .coo (PyCoo.of a)
  | .nd a => .nd (PyNd.of a)

/-- The documented invariants of the class. -/
def SpVal.Valid : SpVal V → Prop
  | .mat _ a => a.WF
  | .coo a => a.WF ∧ a.I64
  | .nd a => a.WF ∧ a.I64

/-- Class and shape. -/
def SpVal.ty : SpVal V → Ty
  | .mat f a => .mat f (f.rows a) (f.cols a)
  | .coo a => .coo a.nrows a.ncols
  | .nd a => .nd a.shape

/-- Number of stored entries. -/
def SpVal.nnz : SpVal V → Nat
  | .mat _ a => a.data.length
  | .coo a => a.data.length
  | .nd a => a.data.length

/-- The environment behaves as documented: the sorts sort, the iteration over a hash map visits every
common key once, and the number of threads is a `usize` of reasonable size. -/
structure PyEnv.Ok (env : PyEnv V) : Prop where
  pair : IsPairSort env.pairSort
  triple : IsTripleSort env.tripleSort
  nd : IsSort env.ndSort
  keys : IsCommonKeys env.order
  threads : env.threads < 2 ^ 60

end Lacuna
