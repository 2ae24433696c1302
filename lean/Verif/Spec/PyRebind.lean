import Verif.Model.PyRebind
import Verif.Spec.PySession
/-
What the theorems on sessions with assignments to attributes assume of an assignment.
-/
namespace Lacuna
variable {V : Type}

/-- Is the shape assigned to? -/
def Attr.isShape : Attr → Bool
  | .shape _ => true
  | _ => false

/-- The arrays of indices of an object. -/
def RefObj.indexRefs : RefObj V → List Nat
  | .mat _ _ _ p i _ _ => [p, i]
  | .coo _ _ i j _ _ => [i, j]
  | .nd _ i _ => [i]

/-- What is assumed of an assignment: the arrays of the object are valid afterwards, and fit into memory.  The shape of a `CSR`,
`CSC` or `COO` object, whose native copy has a shape of its own, is not assigned to. -/
def RefObj.Keeps (s : Sess V) (o : RefObj V) (w : Attr) : Prop :=
  ((o.rebind w).now s).Valid ∧ ((o.rebind w).now s).ty.SizeOk ((o.rebind w).now s).nnz ∧
    if o.native then w.isShape = false else ∀ l, w = .shape l → ∀ n ∈ l, 0 ≤ n

/-- The names of the attributes. -/
inductive AttrName
  | shape | indptr | indices | row | col | data
deriving DecidableEq

/-- What an attribute holds: the lengths of a shape or the contents of an array of integers, or those of an array of floats. -/
inductive AttrVal (V : Type)
  | ints (l : List Int)
  | floats (l : List V)

/-- `x.shape`, `x.indptr`, … of an object; nothing where Python raises `AttributeError`. -/
def PyObj.attr : PyObj V → AttrName → Option (AttrVal V)
  | .mat _ x, .shape => some (.ints [x.nrows, x.ncols])
  | .mat _ x, .indptr => some (.ints x.indptr)
  | .mat _ x, .indices => some (.ints x.indices)
  | .mat _ x, .data => some (.floats x.data)
  | .coo x, .shape => some (.ints [x.nrows, x.ncols])
  | .coo x, .row => some (.ints x.row)
  | .coo x, .col => some (.ints x.col)
  | .coo x, .data => some (.floats x.data)
  | .nd x, .shape => some (.ints x.shape)
  | .nd x, .indices => some (.ints x.indices)
  | .nd x, .data => some (.floats x.data)
  | _, _ => none

/-- The name on the left of an assignment. -/
def Attr.name : Attr → AttrName
  | .shape _ => .shape
  | .indptr _ => .indptr
  | .indices _ => .indices
  | .row _ => .row
  | .col _ => .col
  | .data _ => .data

/-- The value on its right. -/
def Attr.value (s : Sess V) : Attr → AttrVal V
  | .shape l => .ints l
  | .indptr a | .indices a | .row a | .col a => .ints (s.int a)
  | .data a => .floats (s.float a)

section
variable [Zero V] [BEq V]

/-- What is assumed of a statement or an assignment: statements are as in C81 (`Sess.Tame`), except that arrays of indices may be
written to as long as all objects are valid afterwards. -/
def Sess.TameCmd (s : Sess V) : Cmd V → Prop
  | .run (.setInts a l) => ∀ o ∈ s.objs, (o.now { s with ints := s.ints.set a l }).Valid
  | .run st => s.Tame st
  | .rebind x w => ∀ o, s.objs[x]? = some o → o.Keeps s w

/-- The names in it are defined. -/
def Sess.DefinedCmd (s : Sess V) : Cmd V → Prop
  | .run st => s.Defined st
  | .rebind x w => x < s.objs.length ∧ w.Defined s

end
end Lacuna
