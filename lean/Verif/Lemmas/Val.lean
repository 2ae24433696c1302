import Verif.Lemmas.Elementwise
import Mathlib.Algebra.Group.Defs
namespace Lacuna
universe u
variable {V : Type u}

/-- Sum of the values stored under `j` in a row. -/
def rval [Add V] [Zero V] (j : Int) (r : Row V) : V :=
  ((r.filter fun e => e.1 == j).map Prod.snd).sum

theorem Comp.val_eq_rval [Add V] [Zero V] (a : Comp V) (i j : Nat) :
    a.val i j = rval (j : Int) (a.row i) := rfl

theorem filter_none {j : Int} {r : Row V} (h : ∀ e ∈ r, e.1 ≠ j) :
    r.filter (fun e => e.1 == j) = [] := by
  rw [List.filter_eq_nil_iff]
  intro e he; simpa using h e he

theorem rval_srt [AddZeroClass V] {j : Int} {r : Row V} (h : Srt r) :
    rval j r = (lk j r).getD 0 := by
  unfold rval
  induction r with
  | nil => simp
  | cons e r ih =>
    obtain ⟨k, x⟩ := e
    rw [srt_cons] at h
    rw [lk_cons]
    by_cases hk : k = j
    · subst hk
      rw [List.filter_cons_of_pos (by simp), filter_none (fun e he => by have := h.1 e he; omega)]
      simp
    · rw [List.filter_cons_of_neg (by simpa using hk), if_neg hk]
      exact ih h.2

theorem srt_row {a : Comp V} (h : a.WF) (i : Nat) : Srt (a.row i) := by
  by_cases hi : i < a.n
  · exact (h.rowOk i hi).sorted
  · rw [Comp.row_of_ge h.ptr_length (by omega)]; exact srt_nil

theorem i64_row {a : Comp V} (h : a.WF) (i : Nat) : ∀ e ∈ a.row i, e.1 ≤ i64Max := by
  by_cases hi : i < a.n
  · exact (h.rowOk i hi).i64
  · rw [Comp.row_of_ge h.ptr_length (by omega)]; simp

theorem bounds_row {a : Comp V} (h : a.WF) (i : Nat) : ∀ e ∈ a.row i, 0 ≤ e.1 ∧ e.1 < a.m := by
  by_cases hi : i < a.n
  · exact (h.rowOk i hi).bounds
  · rw [Comp.row_of_ge h.ptr_length (by omega)]; simp

/-- In a well-formed matrix the element is the stored entry, or zero. -/
theorem Comp.WF.val_eq_stored [AddZeroClass V] {a : Comp V} (h : a.WF) (i j : Nat) :
    a.val i j = (a.stored i j).getD 0 := by
  rw [Comp.val_eq_rval, Comp.stored_eq_lk, rval_srt (srt_row h i)]

end Lacuna
