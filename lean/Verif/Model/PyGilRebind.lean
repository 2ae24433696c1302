import Verif.Model.PyGil
import Verif.Model.PyRebind
/-
Several Python threads (Model/PyGil) that also assign to the attributes of objects (Model/PyRebind) and write to arrays of
indices.  An assignment runs with the GIL held and replaces a reference.  A running call has its own reference to the
native object (`PyRef`) or to the arrays (`PyReadonlyArray`), so nothing is freed under it.

Simplifications: those of the two models.  The attributes of an operand are read at one moment: they are loaded in the
argument list of one call (e.g. linalg/__init__.py 85–94), between whose loads CPython (3.10 or later, pyproject.toml 10) does not
switch threads unless the list contains another call; such a switch is not modelled.
-/
namespace Lacuna
variable {V : Type}

/-- An action of Model/PyGil or an assignment to an attribute of the object `x`. -/
inductive ThreadCmd (V : Type)
  | act (a : Act V)
  | rebind (x : Nat) (w : Attr)

section
variable [Zero V] [One V] [Add V] [Sub V] [Mul V] [Div V] [Neg V] [BEq V] [NatCast V] [HasFinite V]
  [HasFloor V] [HasPowf V] [HasAbs V] [HasLt V] [HasNan V] [HasFma V]

/-- The outcomes. -/
def PyThreads.Do (env : PyEnv V) (m : PyThreads V) (c : ThreadCmd V) (out : PyRes (PyThreads V)) : Prop :=
  match c with
  | .act a => m.Step env a out
  | .rebind x w => x < m.sess.objs.length ∧ w.Defined m.sess ∧ out = .ret { m with sess := m.sess.rebind x w }

/-- The states that the threads reach (cf. `PyThreads.Reach`). -/
inductive PyThreads.Visits (envs : PyEnv V → Prop) (ok : PyThreads V → ThreadCmd V → Prop) : PyThreads V → Prop
  | start : Visits envs ok PyThreads.start
  | step {env : PyEnv V} {m m' : PyThreads V} {c : ThreadCmd V} : Visits envs ok m → envs env → ok m c → m.Do env c (.ret m') →
      Visits envs ok m'

end
end Lacuna
