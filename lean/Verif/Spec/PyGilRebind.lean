import Verif.Model.PyGilRebind
import Verif.Spec.PyGil
import Verif.Spec.PyRebind
/-
What is assumed of the actions of Python threads that assign to attributes.
-/
namespace Lacuna
variable {V : Type} [Zero V] [BEq V]

/-- Actions as in C102, assignments and writes to arrays of indices as in C103: the objects are valid afterwards. -/
def PyThreads.TameCmd (m : PyThreads V) : ThreadCmd V → Prop
  | .act (.stmt st) => m.sess.TameCmd (.run st)
  | .act a => m.Tame a
  | .rebind x w => m.sess.TameCmd (.rebind x w)

/-- The names are defined. -/
def PyThreads.DefinedCmd (m : PyThreads V) : ThreadCmd V → Prop
  | .act a => m.Defined a
  | .rebind x w => m.sess.DefinedCmd (.rebind x w)

omit [Zero V] [BEq V] in
/-- The arrays and objects of `s` are those of `s'` that were created first, unchanged. -/
def Sess.Extends (s s' : Sess V) : Prop :=
  s.ints <+: s'.ints ∧ s.floats <+: s'.floats ∧ s.objs <+: s'.objs

end Lacuna
