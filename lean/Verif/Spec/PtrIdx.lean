import Verif.Spec.Ptr
/-
What the kernels that use stored indices as addresses need in addition to `PtrOk`.
-/
namespace Lacuna
universe u
variable {V : Type u}

/-- Every stored index that belongs to a line is inside the other dimension (any order,
repetitions allowed). -/
def Comp.IdxOk (a : Comp V) : Prop := ∀ i, i < a.n → ∀ e ∈ a.row i, 0 ≤ e.1 ∧ e.1 < a.m

end Lacuna
