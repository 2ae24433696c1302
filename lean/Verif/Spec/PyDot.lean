import Verif.Spec.PyBits
import Verif.Spec.PyLinProg
import Verif.Spec.Rounding
/-
What `matmul`, `tensordot` and `vecdot` compute in whatever arithmetic the machine has.  No algebraic law
is used: with `+`, `*`, fused multiply-add and `==` read as the IEEE operations this is what happens with
rounding, infinities, signed zeros and NaN.
-/
namespace Lacuna
variable {V : Type}

/-- The factors that belong to the element `z` of the result: every number stored in row `z[p]` of the matrix
(in its column `z[p]`, if the rows are contracted), in storage order, together with the element of `y` whose
index along axis `p` is the column (the row) the number is stored in. -/
def dotTerms [Zero V] (stores : List (List Int × V)) (tr : Bool) (p : Nat) (y : DenseNd V) (z : List Int) : List (V × V) :=
  (stores.filter fun e => e.1.getD (if tr then 1 else 0) 0 == z.getD p 0).map fun e =>
    (e.2, y.elem (z.set p (e.1.getD (if tr then 0 else 1) 0)))

/-- The stored entries are contracted with axis `p` of `y`, whose place is taken by `r` rows (columns); each
element of the result has the property `P` of its factors. -/
def ContractsBy [Zero V] (P : List (V × V) → V → Prop) (stores : List (List Int × V)) (tr : Bool) (r p : Nat) (y out : DenseNd V) :
    Prop :=
  out.shape = y.shape.set p r ∧ out.data.length = out.shape.prod ∧
  ∀ z, InBounds out.shape z → P (dotTerms stores tr p y z) (out.elem z)

section
variable [Zero V] [Add V] [Mul V] [BEq V] [HasFma V]

/-- Products added one after the other. -/
def dotFold (l : List (V × V)) : V := l.foldl (fun s q => s + q.1 * q.2) 0
/-- Fused multiply-adds one after the other. -/
def fmaFold (l : List (V × V)) : V := l.foldl (fun s q => mulAdd q.1 q.2 s) 0
/-- Products added in some order and grouping. -/
def DotTree (l : List (V × V)) (v : V) : Prop := AddTree (l.map (fun q => q.1 * q.2) : Multiset V) v

/-- How an element of the result comes from its factors `l`; `ndim` is the number of axes of the dense operand.

* two or more axes: the products are added in storage order;
* a vector along the lines of a compressed matrix (`CSR`: columns contracted, `CSC`: rows): fused multiply-adds
  in storage order;
* otherwise the products are added in an order that depends on the threads; when rows are contracted, factors
  with a weight of zero are left out. -/
def DotCell (τ : Ty) (ndim : Nat) (tr : Bool) (l : List (V × V)) (v : V) : Prop :=
  if 2 ≤ ndim then v = dotFold l
  else match τ, tr with
    | .mat .csr _ _, false => v = fmaFold l
    | .mat .csc _ _, true => v = fmaFold l
    | _, false => DotTree l v
    | _, true => DotTree (l.filter fun q => !(q.2 == 0)) v

/-- There is no choice of an order. -/
def Ty.FixedOrder (τ : Ty) (ndim : Nat) (tr : Bool) : Prop :=
  2 ≤ ndim ∨ ∃ r c, (τ = .mat .csr r c ∧ tr = false) ∨ (τ = .mat .csc r c ∧ tr = true)

end
end Lacuna
