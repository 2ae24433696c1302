import Verif.Model.PyReduce
import Verif.Spec.Nd
/-
Specification vocabulary for reductions over axes, as in the array API standard: an axis argument
denotes a set of axes, the result has one cell per combination of the other axes, and that cell
reduces all elements that agree with it there.
-/
namespace Lacuna
universe u w
variable {V : Type u} {W : Type w}

/-- The integers listed in an axis argument. -/
def AxisArg.ints : AxisArg → List Int
  | .none => []
  | .one a => [a]
  | .many as => as

/-- Axis `d` of a rank-`ndim` array is denoted by the argument: everything for `None`, otherwise
the axes listed, negative ones counted from the end. -/
def AxisArg.covers (ndim : Nat) (arg : AxisArg) (d : Nat) : Bool :=
  match arg with
  | .none => true
  | arg => arg.ints.any fun a => a == (d : Int) || a + ndim == (d : Int)

/-- Every listed axis exists. -/
def AxisArg.Valid (ndim : Nat) (arg : AxisArg) : Prop := ∀ a ∈ arg.ints, -(ndim : Int) ≤ a ∧ a < ndim

/-- The shape after reducing the axes `S`. -/
def reducedShape (shape : List Nat) (S : Nat → Bool) (keep : Bool) : List Nat :=
  (List.range shape.length).flatMap fun d => if S d then (if keep then [1] else []) else [shape.getD d 0]

/-- The cell of the result to which element `x` contributes. -/
def reducedIndex (ndim : Nat) (S : Nat → Bool) (keep : Bool) (x : List Int) : List Int :=
  (List.range ndim).flatMap fun d => if S d then (if keep then [0] else []) else [x.getD d 0]

/-- The elements that contribute to cell `y`, in row-major order. -/
def fibre (shape : List Nat) (S : Nat → Bool) (keep : Bool) (f : List Int → V) (y : List Int) : List V :=
  ((indicesOf shape).filter fun x => reducedIndex shape.length S keep x == y).map f

/-- `out` is the reduction of the array with elements `f` over the axes `S`: `P l r` says that `r`
is the reduction of the list `l`. -/
structure IsReduction (shape : List Nat) (S : Nat → Bool) (keep : Bool) (P : List V → W → Prop)
    (f : List Int → V) (out : NdArr W) : Prop where
  shape_eq : out.shape = reducedShape shape S keep
  size : out.data.length = out.shape.prod
  cell : ∀ y, InBounds out.shape y →
    ∃ r, out.data[rowMajor out.shape y]? = some r ∧ P (fibre shape S keep f y) r

/-- The elements of a matrix as a function of an index list. -/
def matFun (f : Nat → Nat → V) (x : List Int) : V := f (x.getD 0 0).toNat (x.getD 1 0).toNat

/-- A Python reduction of an `n × m` matrix with elements `f` is right for every axis argument
that exists and is not `()`, with and without `keepdims`. -/
def Reduces (n m : Nat) (P : List V → W → Prop) (f : Nat → Nat → V)
    (call : AxisArg → Bool → Except PyErr (NdArr W)) : Prop :=
  ∀ arg keep, arg.Valid 2 → arg ≠ .many [] →
    ∃ out, call arg keep = .ok out ∧ IsReduction [n, m] (arg.covers 2) keep P (matFun f) out

/-- Number of elements that are not zero. -/
def countNz [Zero V] [BEq V] (l : List V) : Nat := l.countP fun x => !(x == 0)

end Lacuna
