import Verif.Model.PyProg
/-
Operator syntax on sparse objects: `x + y`, `x - y`, `x * y`, `x / y`, `x // y`, `x % y`, `x ** y`,
`-x`, `+x`, `abs(x)`, with a sparse object, a number or a string on the other side, through the
special methods of the classes (python/lacuna/sparse/{csr,csc,coo,coond}.py) and the protocol with which
Python picks one; and the named methods `multiply`, `divide`, `remainder`, `power`, `floor_divide`.
Model/PyProg has the functions of the array API; they are not the same thing.

Simplifications: as in Model/PyProg; numbers are Python floats and strings stand for whatever else
`float(…)` accepts or rejects; no NumPy array or NumPy scalar is an operand.  No class defines an
in-place method, so `x += y` is `x = x + y`.  `@` is in Model/PyLinalg, comparisons are in Model/PyRead.
-/
namespace Lacuna
variable {V : Type}

/-- The other operand. -/
inductive Operand (V : Type)
  | obj (y : PyObj V)
  | num (a : V)
  /-- a string, with the number `float` reads in it, if any -/
  | str (a : Option V)

/-- `float(y)`: no sparse class has `__float__` or `__index__`. -/
def Operand.float : Operand V → Except PyErr V
  | .obj _ => .error .typeError
  | .num a => .ok a
  | .str (some a) => .ok a
  | .str none => .error .valueError

/-- The same class? -/
def PyObj.sameClass : PyObj V → PyObj V → Bool
  | .mat f _, .mat g _ => f = g
  | .coo _, .coo _ => true
  | .nd _, .nd _ => true
  | _, _ => false

section
variable [Zero V] [One V] [Add V] [Sub V] [Mul V] [Div V] [Neg V] [BEq V] [NatCast V] [HasFinite V]
  [HasFloor V] [HasPowf V] [HasAbs V] [HasLt V] [HasNan V]

/-- What comes of looking up a special method and calling it: an outcome, or nothing (the class has no
such method, or the method returned `NotImplemented`). -/
abbrev Special (V : Type) := Option (PyRes (PyObj V))

/-- `__mul__`, which is also `__rmul__`: csr.py 376–407, csc.py 164–175, coo.py 167–178.  `CSC` and `COO`
look for the handle first; `COOND` has no such method. -/
def MulSpecial (x : PyObj V) (y : Operand V) (out : Special V) : Prop :=
  match x with
  | .mat .csr _ => (match y.float with
    | .error e => out = some (.raises e)
    | .ok alpha => ∃ o, DataMethod (.mul alpha) x o ∧ out = some o)
  | .mat .csc m => (match m.handle, y.float with
    | none, _ => out = some (.raises .runtimeError)
    | _, .error e => out = some (.raises e)
    | _, .ok alpha => ∃ o, DataMethod (.mul alpha) x o ∧ out = some o)
  | .coo m => (match m.handle, y.float with
    | none, _ => out = some (.raises .runtimeError)
    | _, .error e => out = some (.raises e)
    | _, .ok alpha => ∃ o, DataMethod (.mul alpha) x o ∧ out = some o)
  | .nd _ => out = none

/-- `__truediv__` (csr.py 499–503, csc.py 261–265, coo.py 199–203), `__floordiv__` (csr.py 576–586,
csc.py 333–343, coo.py 205–214, coond.py 343–354), `__mod__` (csr.py 588–598, csc.py 345–354,
coo.py 216–225, coond.py 356–367), `__pow__` (csr.py 600–608, csc.py 356–365, coo.py 227–234,
coond.py 369–378). -/
def DivSpecial (op : BinOp) (x : PyObj V) (y : Operand V) (out : Special V) : Prop :=
  match y.float with
  | .error e => out = some (.raises e)
  | .ok alpha =>
    match op with
    | .pow => ∃ o, DataMethod (.pow alpha) x o ∧ out = some o
    | .floordiv =>
      if alpha == 0 then out = some (.raises .zeroDivision)
      else ∃ o, DataMethod (.floordiv alpha) x o ∧ out = some o
    | .rem =>
      if alpha == 0 then out = some (.raises .zeroDivision)
      else ∃ o, DataMethod (.rem alpha) x o ∧ out = some o
    | _ =>
      if alpha == 0 then out = some (.raises .zeroDivision)
      else MulSpecial x (.num (1 / alpha)) out

/-- `type(x).__op__(x, y)`.  `__add__`: csr.py 426–470, csc.py 196–207; `__sub__`: csr.py 610–635,
csc.py 209–220; `COO` and `COOND` have neither, `COOND` has no `__truediv__`. -/
def LeftSpecial (env : PyEnv V) (op : BinOp) (x : PyObj V) (y : Operand V) (out : Special V) : Prop :=
  match op with
  | .add => (match x, y with
    | .mat f x, .obj (.mat g y) =>
      if f = g then ∃ o, BinMethod env.dbg f .add x y o ∧ out = some (o.bind fun r => .ret (.mat f r))
      else out = none
    | _, _ => out = none)
  | .sub => (match x, y with
    | .mat f x, .obj (.mat g y) =>
      if f = g then ∃ o, BinMethod env.dbg f .sub x y o ∧ out = some (o.bind fun r => .ret (.mat f r))
      else out = none
    | _, _ => out = none)
  | .mul => MulSpecial x y out
  | .div => if x.isNd then out = none else DivSpecial .div x y out
  | op => DivSpecial op x y out

/-- `type(y).__rop__(y, x)`: the classes define `__rmul__` and no other reflected method. -/
def RightSpecial (op : BinOp) (y : PyObj V) (x : Operand V) (out : Special V) : Prop :=
  match op with
  | .mul => MulSpecial y x out
  | _ => out = none

/-- `x op y`: the method of the left operand, then the reflected method of the right one (if it is of
another class; numbers and strings have none that accepts a sparse object), then `TypeError`. -/
def Operator (env : PyEnv V) (op : BinOp) (x : PyObj V) (y : Operand V) (out : PyRes (PyObj V)) : Prop :=
  ∃ r, LeftSpecial env op x y r ∧
    match r, y with
    | some o, _ => out = o
    | none, .obj y =>
      if x.sameClass y then out = .raises .typeError
      else ∃ r', RightSpecial op y (.obj x) r' ∧ out = r'.getD (.raises .typeError)
    | none, _ => out = .raises .typeError

/-- `alpha op x`: `float.__op__` does not know the class of `x`. -/
def LeftOperator (op : BinOp) (alpha : V) (x : PyObj V) (out : PyRes (PyObj V)) : Prop :=
  ∃ r, RightSpecial op x (.num alpha) r ∧ out = r.getD (.raises .typeError)

/-- `x.multiply(y)`, `x.divide(y)`, `x.remainder(y)`, `x.power(y)`, `x.floor_divide(y)` (csr.py 472–497,
505–574, 637–662; csc.py 222–259, 267–331): for an operand of another kind the methods return the
constant `NotImplemented` (`none`), which nothing turns into an exception; `COO` and `COOND` have no such
methods.  `op` is one of the five. -/
def NamedMethod (env : PyEnv V) (op : BinOp) (x : PyObj V) (y : Operand V) (out : Special V) : Prop :=
  match x, y with
  | .mat f x, .obj (.mat g y) =>
    if f = g then ∃ o, BinMethod env.dbg f op x y o ∧ out = some (o.bind fun r => .ret (.mat f r))
    else out = none
  | .mat _ _, _ => out = none
  | _, _ => out = some (.raises .attributeError)

/-! ### Expressions -/

/-- Expressions that mix operators and functions. -/
inductive Term (V : Type)
  /-- any program of Model/PyProg, in particular a literal -/
  | prog (e : Prog V)
  | un (op : UnOp) (a : Term V)
  | bin (op : BinOp) (a b : Term V)
  | scalar (op : BinOp) (a : Term V) (alpha : V)
  | left (op : BinOp) (alpha : V) (a : Term V)
  | T (a : Term V)
  | prune (eps : V) (a : Term V)
  | elimZeros (a : Term V)
  | ndop (op : NdOp) (arg : List Int) (a : Term V)
  | mode (f : Fmt) (axis : Int) (a : Term V)
  /-- `a op b` -/
  | oper (op : BinOp) (a b : Term V)
  /-- `a op alpha` -/
  | operNum (op : BinOp) (a : Term V) (alpha : V)
  /-- `a op "…"` -/
  | operStr (op : BinOp) (a : Term V) (s : Option V)
  /-- `alpha op a` -/
  | numOper (op : BinOp) (alpha : V) (a : Term V)
  /-- `-a` -/
  | minus (a : Term V)
  /-- `+a` -/
  | plus (a : Term V)

/-- All outcomes of an expression, operands left to right. -/
def Term.Eval (env : PyEnv V) : Term V → PyRes (PyObj V) → Prop
  | .prog e, out => e.Eval env out
  | .un op a, out => ∃ oa, a.Eval env oa ∧ oa.Then (UnMethod op) out
  | .bin op a b, out => ∃ oa, a.Eval env oa ∧ oa.Then (fun x out => ∃ ob, b.Eval env ob ∧
      ob.Then (fun y out => BinObj env op x y out) out) out
  | .scalar op a alpha, out => ∃ oa, a.Eval env oa ∧ oa.Then (fun x out => ScalarMethod op x alpha out) out
  | .left op alpha a, out => ∃ oa, a.Eval env oa ∧ oa.Then (ScalarLeft op alpha) out
  | .T a, out => ∃ oa, a.Eval env oa ∧ oa.Then (TMethod env) out
  | .prune eps a, out => ∃ oa, a.Eval env oa ∧ oa.Then (PruneMethod env eps) out
  | .elimZeros a, out => ∃ oa, a.Eval env oa ∧ oa.Then (PruneMethod env 0) out
  | .ndop op arg a, out => ∃ oa, a.Eval env oa ∧ oa.Then (NdMethod env op arg) out
  | .mode f axis a, out => ∃ oa, a.Eval env oa ∧ oa.Then (ModeUnfold env f axis) out
  | .oper op a b, out => ∃ oa, a.Eval env oa ∧ oa.Then (fun x out => ∃ ob, b.Eval env ob ∧
      ob.Then (fun y out => Operator env op x (.obj y) out) out) out
  | .operNum op a alpha, out => ∃ oa, a.Eval env oa ∧ oa.Then (fun x out => Operator env op x (.num alpha) out) out
  | .operStr op a s, out => ∃ oa, a.Eval env oa ∧ oa.Then (fun x out => Operator env op x (.str s) out) out
  | .numOper op alpha a, out => ∃ oa, a.Eval env oa ∧ oa.Then (LeftOperator op alpha) out
  | .minus a, out => ∃ oa, a.Eval env oa ∧ oa.Then (UnMethod .neg) out
  | .plus a, out => ∃ oa, a.Eval env oa ∧ oa.Then (fun _ out => out = .raises .typeError) out

end

end Lacuna
