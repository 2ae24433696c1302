import Verif.Model.PyOper
import Verif.Spec.PyProg
/-
Which operator expressions work: classes and shapes, or the exception, computed from the text of the
expression; and the program that calls the functions of the array API in place of the operators.
-/
namespace Lacuna
variable {V : Type}

/-- `x op y` for two sparse objects: only sums and differences of two `CSR` or two `CSC` matrices. -/
def Ty.oper (op : BinOp) (τ σ : Ty) : Except PyErr Ty :=
  match op, τ, σ with
  | .add, .mat f r c, .mat g r' c' =>
    if f ≠ g then .error .typeError else if r = r' ∧ c = c' then .ok (.mat f r c) else .error .panic
  | .sub, .mat f r c, .mat g r' c' =>
    if f ≠ g then .error .typeError else if r = r' ∧ c = c' then .ok (.mat f r c) else .error .panic
  | _, _, _ => .error .typeError

/-- `x op alpha`, where `alpha` is a number (is it zero?) or a string without one (`none`): no sum or
difference, and no product or quotient for `COOND`. -/
def Ty.operScalar (op : BinOp) (zero : Option Bool) (τ : Ty) : Except PyErr Ty :=
  match op, τ, zero with
  | .add, _, _ => .error .typeError
  | .sub, _, _ => .error .typeError
  | .mul, .nd _, _ => .error .typeError
  | .div, .nd _, _ => .error .typeError
  | _, _, none => .error .valueError
  | .mul, τ, _ => .ok τ
  | .pow, τ, _ => .ok τ
  | _, τ, some z => if z then .error .zeroDivision else .ok τ

/-- `alpha op x`: only the product, and not for `COOND`. -/
def Ty.scalarOper (op : BinOp) (τ : Ty) : Except PyErr Ty :=
  match op, τ with
  | .mul, .nd _ => .error .typeError
  | .mul, τ => .ok τ
  | _, _ => .error .typeError

/-- The type of an expression, or the exception it raises. -/
def Term.check [Zero V] [BEq V] : Term V → Except PyErr Ty
  | .prog e => e.check
  | .un _ a => a.check
  | .bin op a b => do Ty.bin op (← a.check) (← b.check)
  | .scalar op a alpha => do Ty.scalar op (alpha == 0) (← a.check)
  | .left op _ a => do Ty.left op (← a.check)
  | .T a => do Ty.T (← a.check)
  | .prune _ a => do Ty.prune (← a.check)
  | .elimZeros a => do Ty.prune (← a.check)
  | .ndop op arg a => do Ty.ndop op arg (← a.check)
  | .mode f axis a => do Ty.mode f axis (← a.check)
  | .oper op a b => do Ty.oper op (← a.check) (← b.check)
  | .operNum op a alpha => do Ty.operScalar op (some (alpha == 0)) (← a.check)
  | .operStr op a s => do Ty.operScalar op (s.map (· == 0)) (← a.check)
  | .numOper op _ a => do Ty.scalarOper op (← a.check)
  | .minus a => a.check
  | .plus a => do let _ ← a.check; .error .typeError

/-- Every operator replaced by the function of the array API: `add`, `subtract`, `multiply`, `divide`,
`floor_divide`, `remainder`, `pow`, `negative`. -/
def Term.calls : Term V → Prog V
  | .prog e => e
  | .un op a => .un op a.calls
  | .bin op a b => .bin op a.calls b.calls
  | .scalar op a alpha => .scalar op a.calls alpha
  | .left op alpha a => .left op alpha a.calls
  | .T a => .T a.calls
  | .prune eps a => .prune eps a.calls
  | .elimZeros a => .elimZeros a.calls
  | .ndop op arg a => .ndop op arg a.calls
  | .mode f axis a => .mode f axis a.calls
  | .oper op a b => .bin op a.calls b.calls
  | .operNum op a alpha => .scalar op a.calls alpha
  | .operStr op a (some alpha) => .scalar op a.calls alpha
  | .operStr _ a none => a.calls
  | .numOper op alpha a => .left op alpha a.calls
  | .minus a => .un .neg a.calls
  | .plus a => a.calls

end Lacuna
