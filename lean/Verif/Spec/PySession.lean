import Verif.Model.PySession
import Verif.Spec.PyProg
/-
Which contents of an object a function or method sees after its arrays have been written to, and what the
theorems on sessions assume of the statements.
-/
namespace Lacuna
variable {V : Type}

/-! ### Two contents of an object -/

/-- The contents of the arrays, at this moment. -/
def RefObj.now (s : Sess V) : RefObj V → SpVal V
  | .mat .csr r c p i d _ => .mat .csr ⟨r.toNat, c.toNat, s.int p, s.int i, s.float d⟩
  | .mat .csc r c p i d _ => .mat .csc ⟨c.toNat, r.toNat, s.int p, s.int i, s.float d⟩
  | .coo r c i j d _ => .coo ⟨r.toNat, c.toNat, s.int i, s.int j, s.float d⟩
  | .nd sh i d => .nd ⟨sh.map Int.toNat, s.int i, s.float d⟩

/-- The contents at construction, as far as the object has a native copy. -/
def RefObj.snap (s : Sess V) : RefObj V → SpVal V
  | .mat f _ _ _ _ _ (some a) => .mat f a
  | .coo _ _ _ _ _ (some a) => .coo a
  | o => o.now s

/-- One of the two. -/
def RefObj.view (s : Sess V) (frozen : Bool) (o : RefObj V) : SpVal V := if frozen then o.snap s else o.now s

/-- The array that holds the values. -/
def RefObj.dataRef : RefObj V → Nat
  | .mat _ _ _ _ _ d _ => d
  | .coo _ _ _ _ d _ => d
  | .nd _ _ d => d

/-- Has the class a native copy? -/
def RefObj.native : RefObj V → Bool
  | .nd _ _ _ => false
  | _ => true

/-- The same array with other values. -/
def SpVal.withData (d : List V) : SpVal V → SpVal V
  | .mat f a => .mat f { a with data := d }
  | .coo a => .coo { a with data := d }
  | .nd a => .nd { a with data := d }

/-- Which functions of one operand use the native copy. -/
def Fn.frozen : Fn V → Bool
  | .un .neg => true
  | .un _ => false
  | .scalar .mul _ => true
  | .scalar .div _ => true
  | .scalar _ _ => false
  | .left _ _ => true
  | .T => true
  | .prune _ => true
  | .elimZeros => true
  | .ndop _ _ => false
  | .mode _ _ => false

/-- Which functions of two operands do. -/
def BinOp.frozen : BinOp → Bool
  | .rem => false
  | .pow => false
  | _ => true

/-- Which questions are answered by the native copy: `sum`, `mean`, and the products with a dense operand that
go through `@`. -/
def Query.frozen : Query V → Bool
  | .reduce .sum _ _ => true
  | .reduce .mean _ _ => true
  | .linalg .matmul _ => true
  | .linalg (.tensordot _) y => y.shape.length = 1
  | .linalg (.vecdot axis) _ => axis ≠ some 0
  | _ => false

/-! ### Programs -/

/-- The constructor call with these contents. -/
def SpVal.lit : SpVal V → Prog V
  | .mat f a => .mat f (f.rows a) (f.cols a) a.indptr a.indices a.data
  | .coo a => .coo a.nrows a.ncols a.row a.col a.data
  | .nd a => .nd (a.shape.map Int.ofNat) a.indices a.data

/-- The program that calls the function. -/
def Fn.on (e : Prog V) : Fn V → Prog V
  | .un op => .un op e
  | .scalar op alpha => .scalar op e alpha
  | .left op alpha => .left op alpha e
  | .T => .T e
  | .prune eps => .prune eps e
  | .elimZeros => .elimZeros e
  | .ndop op arg => .ndop op arg e
  | .mode f axis => .mode f axis e

/-- The program that makes the object a statement makes. -/
def Sess.prog (s : Sess V) : Stmt V → Option (Prog V)
  | .mat f r c p i d => some (.mat f r c (s.int p) (s.int i) (s.float d))
  | .coo r c i j d => some (.coo r c (s.int i) (s.int j) (s.float d))
  | .nd sh i d => some (.nd sh (s.int i) (s.float d))
  | .call fn x => s.objs[x]?.map fun o => fn.on (o.view s fn.frozen).lit
  | .bin op x y => s.objs[x]?.bind fun o => s.objs[y]?.map fun o' =>
      .bin op (o.view s op.frozen).lit (o'.view s op.frozen).lit
  | _ => none

/-- Does the statement write to an array? -/
def Stmt.writes : Stmt V → Bool
  | .setInts _ _ => true
  | .setFloats _ _ => true
  | _ => false

/-- Has the object a native copy? -/
def RefObj.copied : RefObj V → Bool
  | .mat _ _ _ _ _ _ h => h.isSome
  | .coo _ _ _ _ _ h => h.isSome
  | .nd _ _ _ => false

section
variable [Zero V] [BEq V]

/-- What is assumed of a statement: the arguments of constructors are as in `prog_sound` (valid, except for
`CSR`, which validates), results fit into memory, and no array of indices is written to. -/
def Sess.Tame (s : Sess V) (st : Stmt V) : Prop :=
  match st with
  | .ints _ => True
  | .floats _ => True
  | .mat f r c p i d => (Prog.mat f r c (s.int p) (s.int i) (s.float d)).LitsOk ∧
      (Prog.mat f r c (s.int p) (s.int i) (s.float d)).Fits
  | .coo r c i j d => (Prog.coo r c (s.int i) (s.int j) (s.float d)).LitsOk ∧
      (Prog.coo r c (s.int i) (s.int j) (s.float d)).Fits
  | .nd sh i d => (Prog.nd sh (s.int i) (s.float d)).LitsOk ∧ (Prog.nd sh (s.int i) (s.float d)).Fits
  | .call fn x => ∀ o, s.objs[x]? = some o → (fn.on (o.view s fn.frozen).lit).Fits
  | .bin op x y => ∀ o o', s.objs[x]? = some o → s.objs[y]? = some o' →
      (Prog.bin op (o.view s op.frozen).lit (o'.view s op.frozen).lit).Fits
  | .setInts _ _ => False
  | .setFloats _ _ => True

/-- The names in a statement are defined. -/
def Sess.Defined (s : Sess V) (st : Stmt V) : Prop :=
  match st with
  | .ints _ => True
  | .floats _ => True
  | .mat _ _ _ p i d => p < s.ints.length ∧ i < s.ints.length ∧ d < s.floats.length
  | .coo _ _ i j d => i < s.ints.length ∧ j < s.ints.length ∧ d < s.floats.length
  | .nd _ i d => i < s.ints.length ∧ d < s.floats.length
  | .call _ x => x < s.objs.length
  | .bin _ x y => x < s.objs.length ∧ y < s.objs.length
  | .setInts a _ => a < s.ints.length
  | .setFloats a _ => a < s.floats.length

end
end Lacuna
