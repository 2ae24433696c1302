import Mathlib.Data.EReal.Operations
import Verif.Spec.F64
/-
Infinities and the order of `F64` (for C92).
-/
namespace Lacuna
namespace F64

/-- An infinity. -/
def IsInf (a : F64) : Prop := a = inf false ∨ a = inf true

/-- A zero. -/
def IsZero (a : F64) : Prop := a = zero false ∨ a = zero true

/-- The number as an extended real number (of NaN: unspecified). -/
noncomputable def ext : F64 → EReal
  | nan => 0
  | inf s => if s then ⊥ else ⊤
  | zero _ => 0
  | num x => ((x.1 : ℝ) : EReal)

end F64
end Lacuna
