import Verif.Model.Prune
import Verif.Lemmas.Scalar
namespace Lacuna
universe u v
variable {V : Type u} [HasLt V] [HasAbs V]

theorem countSig_eq (eps : V) (l : List V) (c : Nat) :
    countSig eps l c = c + (l.filter (significant eps)).length := by
  fun_induction countSig eps l c with
  | case1 => simp_all [List.filter_cons]; grind
  | case2 l c h =>
    clear h
    induction l generalizing c with
    | nil => simp
    | cons x l ih =>
      rw [List.foldl_cons, ih, List.filter_cons]
      split <;> simp; omega

theorem pruneCounts_eq (eps : V) (a : Comp V) :
    pruneCounts eps a = (pruneOuts eps a).map List.length := by
  unfold pruneCounts pruneOuts
  rw [List.map_map]
  apply List.map_congr_left
  intro i _
  rw [countSig_eq, Nat.zero_add]
  simp only [copySig, Function.comp_def, List.filter_map, List.length_map]

theorem pruneRun_cases [Zero V] [BEq V] {eps : V} {a r : Comp V} (h : PruneRun eps a r) :
    (pruneSkips eps a.data = true ∧ r = a) ∨
    (pruneSkips eps a.data = false ∧ r = Comp.ofRows a.m (pruneOuts eps a)) := by
  rcases h with h | ⟨h1, h2, h3⟩ | ⟨h1, h2, h3⟩
  · exact .inl h
  · rw [pruneCounts_eq, twoPass_eq] at h3; exact .inr ⟨h1, h3⟩
  · rw [pruneCounts_eq] at h3; exact .inr ⟨h1, twoPassRun_eq _ _ _ h3⟩

omit [HasLt V] [HasAbs V] in
theorem rowOk_filter {m : Nat} {r : Row V} (h : RowOk m r) (p : Int × V → Bool) : RowOk m (r.filter p) :=
  ⟨List.Pairwise.sublist (List.Sublist.map _ List.filter_sublist) h.sorted,
    fun e he => h.bounds e (List.mem_filter.1 he).1, fun e he => h.i64 e (List.mem_filter.1 he).1⟩

end Lacuna
