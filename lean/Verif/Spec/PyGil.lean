import Verif.Model.PyGil
import Verif.Spec.PySession
import Verif.Spec.PyLinProg
import Verif.Spec.PyStat
/-
What is assumed of the actions of Python threads.
-/
namespace Lacuna
variable {V : Type} [Zero V] [BEq V]

/-- The product of an object with the contents `v` and a dense array, if there is one, fits into memory. -/
def LinFits (fn : LinFn) (v : SpVal V) (y : DenseNd V) : Prop :=
  y.Ok ∧
  (v.ty.Is2d → ∀ tr p r c, fn.Contraction y.shape.length tr p → (if tr then v.ty.shape.reverse else v.ty.shape) = [r, c] →
    y.shape[p]? = some c → 0 < (y.shape.eraseIdx p).prod ∧ 8 * ((max r 1 * (y.shape.eraseIdx p).prod : Nat) : Int) ≤ i64Max) ∧
  ∀ s, v.ty = .nd s → ∀ axis rest, axis < s.length → fn.NdContraction s.length axis → y.shape = s.getD axis 0 :: rest →
    0 < rest.prod ∧ (((s.eraseIdx axis).prod * rest.prod : Nat) : Int) ≤ i64Max ∧
      24 * ((v.nnz * s.length * rest.prod : Nat) : Int) ≤ i64Max

/-- Statements and calls as in sessions (C81); dense operands whose products fit into memory. -/
def PyThreads.Tame (m : PyThreads V) : Act V → Prop
  | .stmt st => m.sess.Tame st
  | .call fn x => m.sess.Tame (.call fn x)
  | .bin op x y => m.sess.Tame (.bin op x y)
  | .lin fn x shape b => ∀ o l, m.sess.objs[x]? = some o → m.sess.floats[b]? = some l → LinFits fn (o.now m.sess) ⟨shape, l⟩
  | .finish _ => True

/-- The names in an action are defined. -/
def PyThreads.Defined (m : PyThreads V) : Act V → Prop
  | .stmt st => st.plain = true ∧ m.sess.Defined st
  | .call _ x => x < m.sess.objs.length
  | .bin _ x y => x < m.sess.objs.length ∧ y < m.sess.objs.length
  | .lin _ x _ b => x < m.sess.objs.length ∧ b < m.sess.floats.length
  | .finish k => k < m.jobs.length

end Lacuna
