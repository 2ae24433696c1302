import Verif.Lemmas.Prune
import Verif.Lemmas.Nd
import Verif.Props.Scalar
/-
C16 prune, C17 eliminate_zeros.
-/
namespace Lacuna
universe u
variable {V : Type u}

section C16
variable [HasLt V] [HasAbs V] [Zero V] [BEq V]

theorem pruneRun_rows {eps : V} {a r : Comp V} (ha : a.WF) (h : PruneRun eps a r)
    (hneg : flt eps 0 = false)
    (hz : (eps == 0) = true → ∀ v ∈ a.data, (v == 0) = false → flt eps (fabs v) = true) :
    r.WF ∧ r.n = a.n ∧ r.m = a.m ∧
    ∀ i, r.row i = (a.row i).filter (fun e => flt eps (fabs e.2)) := by
  rcases pruneRun_cases h with ⟨hs, rfl⟩ | ⟨hs, rfl⟩
  · refine ⟨ha, rfl, rfl, fun i => ?_⟩
    symm
    rw [List.filter_eq_self]
    intro e he
    have hd : e.2 ∈ r.data := by
      have he' : e ∈ r.entries := List.mem_of_mem_drop (List.mem_of_mem_take he)
      exact (List.of_mem_zip (show (e.1, e.2) ∈ r.indices.zip r.data from he')).2
    unfold pruneSkips at hs
    rw [hneg, Bool.false_or, Bool.and_eq_true] at hs
    apply hz hs.1 _ hd
    have h2 := hs.2
    cases h0 : (e.2 == 0) with
    | false => rfl
    | true =>
      rw [List.any_eq_true.2 ⟨e.2, hd, h0⟩] at h2
      cases h2
  · refine ⟨?_, by simp [Comp.ofRows, pruneOuts], rfl, fun i => ?_⟩
    · apply Comp.wf_ofRows
      intro r hr
      simp only [pruneOuts, List.mem_map, List.mem_range] at hr
      obtain ⟨i, hi, rfl⟩ := hr
      exact rowOk_filter (ha.rowOk i hi) _
    · unfold pruneOuts
      rw [Comp.row_ofRows']
      split
      · rfl
      · rename_i hi; rw [Comp.row_of_ge ha.ptr_length (by omega)]; rfl

/-- C16 (CSR), every arithmetic: for `eps` not negative, pruning keeps in order exactly the
entries with `|v| > eps`, under every schedule.  `hz` says that when the "no stored zero"
shortcut applies (`eps == 0`) a stored value that is not zero is significant; it fails only
for NaN (see `prune_nan_inconsistent`). -/
theorem prune_csr_correct {eps : V} {a r : Csr V} (ha : a.WF) (h : PruneCsr a eps r)
    (hneg : flt eps 0 = false)
    (hz : (eps == 0) = true → ∀ v ∈ a.data, (v == 0) = false → flt eps (fabs v) = true) :
    r.WF ∧ r.nrows = a.nrows ∧ r.ncols = a.ncols ∧
    ∀ i, r.comp.row i = (a.comp.row i).filter (fun e => flt eps (fabs e.2)) :=
  pruneRun_rows ha h hneg hz

/-- C16 (CSC). -/
theorem prune_csc_correct {eps : V} {a r : Csc V} (ha : a.WF) (h : PruneCsc a eps r)
    (hneg : flt eps 0 = false)
    (hz : (eps == 0) = true → ∀ v ∈ a.data, (v == 0) = false → flt eps (fabs v) = true) :
    r.WF ∧ r.nrows = a.nrows ∧ r.ncols = a.ncols ∧
    ∀ i, r.comp.row i = (a.comp.row i).filter (fun e => flt eps (fabs e.2)) := by
  obtain ⟨h1, h2, h3, h4⟩ := pruneRun_rows ha h hneg hz
  exact ⟨h1, h3, h2, h4⟩

/-- C16: negative `eps` returns an identical copy. -/
theorem prune_csr_negative {eps : V} {a r : Csr V} (h : PruneCsr a eps r) (hneg : flt eps 0 = true) :
    r = a := by
  apply Csr.comp_inj
  have hs : pruneSkips eps a.comp.data = true := by unfold pruneSkips; rw [hneg]; rfl
  rcases h with h | ⟨h1, _⟩ | ⟨h1, _⟩
  · exact h.2
  · rw [hs] at h1; cases h1
  · rw [hs] at h1; cases h1

theorem prune_csc_negative {eps : V} {a r : Csc V} (h : PruneCsc a eps r) (hneg : flt eps 0 = true) :
    r = a := by
  apply Csc.comp_inj
  have hs : pruneSkips eps a.comp.data = true := by unfold pruneSkips; rw [hneg]; rfl
  rcases h with h | ⟨h1, _⟩ | ⟨h1, _⟩
  · exact h.2
  · rw [hs] at h1; cases h1
  · rw [hs] at h1; cases h1

omit [BEq V] in
theorem prune_coo_negative {eps : V} (a : Coo V) (hneg : flt eps 0 = true) : pruneCoo a eps = a := by
  unfold pruneCoo; rw [if_pos hneg]

omit [BEq V] in
theorem prune_coond_negative {eps : V} (a : CooNd V) (hneg : flt eps 0 = true) :
    pruneCooNd a eps = a := by
  unfold pruneCooNd; rw [if_pos hneg]

/-- C16: the sequential and the parallel path, and any two schedules, give one result. -/
theorem prune_csr_deterministic {eps : V} {a r s : Csr V} (h : PruneCsr a eps r) (h' : PruneCsr a eps s) :
    r = s := by
  apply Csr.comp_inj
  rcases pruneRun_cases h with ⟨h1, h2⟩ | ⟨h1, h2⟩ <;>
    rcases pruneRun_cases h' with ⟨g1, g2⟩ | ⟨g1, g2⟩ <;> rw [h2, g2] <;> rw [h1] at g1 <;> cases g1

theorem prune_csc_deterministic {eps : V} {a r s : Csc V} (h : PruneCsc a eps r) (h' : PruneCsc a eps s) :
    r = s := by
  apply Csc.comp_inj
  rcases pruneRun_cases h with ⟨h1, h2⟩ | ⟨h1, h2⟩ <;>
    rcases pruneRun_cases h' with ⟨g1, g2⟩ | ⟨g1, g2⟩ <;> rw [h2, g2] <;> rw [h1] at g1 <;> cases g1

/-- Every input has a run (the relation is not vacuous). -/
theorem prune_csr_runs (a : Csr V) (eps : V) : ∃ r, PruneCsr a eps r := by
  by_cases h1 : pruneSkips eps a.data = true
  · exact ⟨a, .inl ⟨h1, rfl⟩⟩
  · have h1 : pruneSkips eps a.data = false := by simpa using h1
    by_cases h2 : a.data.length < smallNnzPrune
    · exact ⟨(twoPass a.comp.m (pruneCounts eps a.comp) (pruneOuts eps a.comp)).toCsr,
        .inr (.inl ⟨h1, h2, rfl⟩)⟩
    · exact ⟨(twoPass a.comp.m (pruneCounts eps a.comp) (pruneOuts eps a.comp)).toCsr,
        .inr (.inr ⟨h1, by simp only [Csr.comp] at *; omega, _, _, List.Perm.refl _, List.Perm.refl _, rfl⟩)⟩

theorem prune_csc_runs (a : Csc V) (eps : V) : ∃ r, PruneCsc a eps r := by
  by_cases h1 : pruneSkips eps a.data = true
  · exact ⟨a, .inl ⟨h1, rfl⟩⟩
  · have h1 : pruneSkips eps a.data = false := by simpa using h1
    by_cases h2 : a.data.length < smallNnzPrune
    · exact ⟨(twoPass a.comp.m (pruneCounts eps a.comp) (pruneOuts eps a.comp)).toCsc,
        .inr (.inl ⟨h1, h2, rfl⟩)⟩
    · exact ⟨(twoPass a.comp.m (pruneCounts eps a.comp) (pruneOuts eps a.comp)).toCsc,
        .inr (.inr ⟨h1, by simp only [Csc.comp] at *; omega, _, _, List.Perm.refl _, List.Perm.refl _, rfl⟩)⟩

omit [BEq V] in
theorem prune_coo_correct {eps : V} {a : Coo V} (ha : a.WF) (hneg : flt eps 0 = false) :
    (pruneCoo a eps).WF ∧ (pruneCoo a eps).nrows = a.nrows ∧ (pruneCoo a eps).ncols = a.ncols ∧
    (pruneCoo a eps).triples = a.triples.filter (fun t => flt eps (fabs t.2)) := by
  unfold pruneCoo
  rw [hneg]
  simp only [Bool.false_eq_true, if_false]
  have mem : ∀ t ∈ a.triples, t.1.1 ∈ a.row ∧ t.1.2 ∈ a.col := by
    intro t ht
    have h1 := (List.of_mem_zip (show (t.1, t.2) ∈ (a.row.zip a.col).zip a.data from ht)).1
    exact List.of_mem_zip (show (t.1.1, t.1.2) ∈ _ from h1)
  refine ⟨⟨by simp, by simp, ?_, ?_⟩, trivial, trivial, ?_⟩
  · intro i hi
    obtain ⟨t, ht, rfl⟩ := List.mem_map.1 hi
    exact ha.row_bounds _ (mem t (List.mem_filter.1 ht).1).1
  · intro i hi
    obtain ⟨t, ht, rfl⟩ := List.mem_map.1 hi
    exact ha.col_bounds _ (mem t (List.mem_filter.1 ht).1).2
  · show ((List.map _ (List.filter _ _)).zip (List.map _ (List.filter _ _))).zip _ = _
    rw [show (fun t : (Int × Int) × V => significant eps t.2) = (fun t => flt eps (fabs t.2)) from rfl]
    generalize a.triples.filter (fun t => flt eps (fabs t.2)) = l
    induction l with
    | nil => rfl
    | cons t l ih => simp [ih]

omit [BEq V] in
/-- C16 (N-D COO). -/
theorem prune_coond_correct {eps : V} {a : CooNd V} (ha : a.WF) (hneg : flt eps 0 = false) :
    (pruneCooNd a eps).WF ∧ (pruneCooNd a eps).shape = a.shape ∧
    (pruneCooNd a eps).entries = a.entries.filter (fun t => flt eps (fabs t.2)) := by
  have key : (CooNd.ofEntries a.shape (a.entries.filter fun e => significant eps e.2)).WF :=
    CooNd.wf_ofEntries ha.rank
      (fun e he => a.entries_fst_length e (List.mem_filter.1 he).1)
      (fun e he => ha.entry_bounds e (List.mem_filter.1 he).1)
  unfold pruneCooNd
  rw [hneg]
  simp only [Bool.false_eq_true, if_false]
  split
  · rename_i h0
    refine ⟨ha, rfl, ?_⟩
    have : a.entries = [] := List.length_eq_zero_iff.1 (by rw [CooNd.entries_length, h0])
    rw [this]; rfl
  · exact ⟨key, rfl, CooNd.entries_ofEntries _ _
      (fun e he => a.entries_fst_length e (List.mem_filter.1 he).1)⟩

end C16

section witness
attribute [local instance] intLt intAbs intNan intIdeal

example : PruneCsr exA 5 ⟨2, 3, [0, 1, 2], [2, 1], [6, 7]⟩ ∧ flt (5 : Int) 0 = false :=
  ⟨.inr (.inl ⟨by decide, by decide, by decide⟩), by decide⟩
example : pruneCoo (⟨2, 2, [0, 1, 1], [0, 0, 0], [1, -3, 0]⟩ : Coo Int) 1 = ⟨2, 2, [1], [0], [-3]⟩ := by
  decide
example : pruneCooNd (⟨[2, 2], [0, 0, 1, 0], [0, 4]⟩ : CooNd Int) 0 = ⟨[2, 2], [1, 0], [4]⟩ := by decide

end witness

/-! ### C17 -/

section C17
variable [Ring V] [LinearOrder V] [IsStrictOrderedRing V] [HasLt V] [HasAbs V] [HasNan V] [IdealOrd V]

theorem flt_zero_fabs (v : V) : flt 0 (fabs v) = true ↔ v ≠ 0 := by
  rw [IdealOrd.flt_iff, IdealOrd.fabs_eq, abs_pos]

omit [IsStrictOrderedRing V] in
theorem flt_zero_zero : flt (0 : V) 0 = false := by
  rw [Bool.eq_false_iff]; intro h; rw [IdealOrd.flt_iff] at h; exact lt_irrefl _ h

theorem sum_filter_nonzero {K : Type} (l : List (K × V)) (p : K → Bool) :
    (((l.filter (fun e => flt 0 (fabs e.2))).filter (fun e => p e.1)).map Prod.snd).sum
      = ((l.filter (fun e => p e.1)).map Prod.snd).sum := by
  induction l with
  | nil => rfl
  | cons e l ih =>
    by_cases h1 : flt 0 (fabs e.2) = true <;> by_cases h2 : p e.1 = true
    · simp only [List.filter_cons, h1, h2, if_true, List.map_cons, List.sum_cons, ih]
    · simp only [List.filter_cons, h1, h2, if_true, Bool.false_eq_true, if_false]; exact ih
    · have : e.2 = 0 := by by_contra hn; exact h1 ((flt_zero_fabs _).2 hn)
      simp only [List.filter_cons, h1, h2, if_true, List.map_cons, List.sum_cons]
      rw [this, zero_add]; exact ih
    · simp only [List.filter_cons, h1, h2, Bool.false_eq_true, if_false]; exact ih

variable [BEq V] [LawfulBEq V]

/-- C17 (CSR): the content is unchanged, no zero is stored, and repeating changes nothing. -/
theorem eliminate_zeros_csr_correct {a r : Csr V} (ha : a.WF) (h : EliminateZerosCsr a r) :
    r.WF ∧ r.nrows = a.nrows ∧ r.ncols = a.ncols ∧ (∀ i j, r.val i j = a.val i j) ∧
    (∀ v ∈ r.data, v ≠ 0) ∧ (∀ s, EliminateZerosCsr r s → s = r) := by
  obtain ⟨h1, h2, h3, h4⟩ := prune_csr_correct ha h flt_zero_zero
    (fun _ v _ hv => (flt_zero_fabs v).2 (by simpa using hv))
  have hnz : ∀ v ∈ r.data, v ≠ 0 := by
    intro v hv
    obtain ⟨i, j, _, _, hs⟩ := Comp.WF.mem_data h1 hv
    rw [Comp.stored_eq_lk, h4] at hs
    have := (List.mem_filter.1 (lk_mem hs)).2
    exact (flt_zero_fabs v).1 this
  refine ⟨h1, h2, h3, fun i j => ?_, hnz, fun s hs => ?_⟩
  · unfold Csr.val Comp.val
    rw [h4, sum_filter_nonzero _ (fun k => k == (j : Int))]
  · apply Csr.comp_inj
    rcases hs with hs | ⟨g1, _⟩ | ⟨g1, _⟩
    · exact hs.2
    all_goals
      exfalso
      unfold pruneSkips at g1
      rw [flt_zero_zero, Bool.false_or] at g1
      simp only [beq_self_eq_true, Bool.true_and, Bool.not_eq_false', List.any_eq_true, beq_iff_eq] at g1
      obtain ⟨x, hx, hx0⟩ := g1
      exact hnz x hx hx0

/-- C17 (CSC). -/
theorem eliminate_zeros_csc_correct {a r : Csc V} (ha : a.WF) (h : EliminateZerosCsc a r) :
    r.WF ∧ r.nrows = a.nrows ∧ r.ncols = a.ncols ∧ (∀ i j, r.val i j = a.val i j) ∧
    (∀ v ∈ r.data, v ≠ 0) ∧ (∀ s, EliminateZerosCsc r s → s = r) := by
  obtain ⟨h1, h2, h3, h4⟩ := prune_csc_correct ha h flt_zero_zero
    (fun _ v _ hv => (flt_zero_fabs v).2 (by simpa using hv))
  have hnz : ∀ v ∈ r.data, v ≠ 0 := by
    intro v hv
    obtain ⟨i, j, _, _, hs⟩ := Comp.WF.mem_data h1 hv
    rw [Comp.stored_eq_lk, h4] at hs
    have := (List.mem_filter.1 (lk_mem hs)).2
    exact (flt_zero_fabs v).1 this
  refine ⟨h1, h2, h3, fun i j => ?_, hnz, fun s hs => ?_⟩
  · unfold Csc.val Comp.val
    rw [h4, sum_filter_nonzero _ (fun k => k == (i : Int))]
  · apply Csc.comp_inj
    rcases hs with hs | ⟨g1, _⟩ | ⟨g1, _⟩
    · exact hs.2
    all_goals
      exfalso
      unfold pruneSkips at g1
      rw [flt_zero_zero, Bool.false_or] at g1
      simp only [beq_self_eq_true, Bool.true_and, Bool.not_eq_false', List.any_eq_true, beq_iff_eq] at g1
      obtain ⟨x, hx, hx0⟩ := g1
      exact hnz x hx hx0

omit [BEq V] [LawfulBEq V] in
/-- C17 (COO), duplicates included. -/
theorem eliminate_zeros_coo_correct {a : Coo V} (ha : a.WF) :
    (eliminateZerosCoo a).WF ∧ (eliminateZerosCoo a).nrows = a.nrows ∧
    (eliminateZerosCoo a).ncols = a.ncols ∧ (∀ i j, (eliminateZerosCoo a).val i j = a.val i j) ∧
    (∀ t ∈ (eliminateZerosCoo a).triples, t.2 ≠ 0) ∧
    (eliminateZerosCoo (eliminateZerosCoo a)).triples = (eliminateZerosCoo a).triples := by
  obtain ⟨h1, h2, h3, h4⟩ := prune_coo_correct (eps := (0 : V)) ha flt_zero_zero
  obtain ⟨-, -, -, g4⟩ := prune_coo_correct (eps := (0 : V)) h1 flt_zero_zero
  refine ⟨h1, h2, h3, fun i j => ?_, fun t ht => ?_, ?_⟩
  · unfold eliminateZerosCoo Coo.val
    rw [h4, sum_filter_nonzero _ (fun k : Int × Int => k.1 == (i : Int) && k.2 == (j : Int))]
  · unfold eliminateZerosCoo at ht
    rw [h4] at ht
    exact (flt_zero_fabs _).1 (List.mem_filter.1 ht).2
  · unfold eliminateZerosCoo
    rw [g4, h4, List.filter_filter]
    simp

omit [BEq V] [LawfulBEq V] in
/-- C17 (N-D COO), duplicates included. -/
theorem eliminate_zeros_coond_correct {a : CooNd V} (ha : a.WF) :
    (eliminateZerosCooNd a).WF ∧ (eliminateZerosCooNd a).shape = a.shape ∧
    (∀ x, (eliminateZerosCooNd a).val x = a.val x) ∧
    (∀ t ∈ (eliminateZerosCooNd a).entries, t.2 ≠ 0) ∧
    eliminateZerosCooNd (eliminateZerosCooNd a) = eliminateZerosCooNd a := by
  obtain ⟨h1, h2, h3⟩ := prune_coond_correct (eps := (0 : V)) ha flt_zero_zero
  obtain ⟨g1, g2, g3⟩ := prune_coond_correct (eps := (0 : V)) h1 flt_zero_zero
  refine ⟨h1, h2, fun x => ?_, fun t ht => ?_, ?_⟩
  · unfold eliminateZerosCooNd CooNd.val
    rw [h3, sum_filter_nonzero _ (fun k => k == x)]
  · unfold eliminateZerosCooNd at ht
    rw [h3] at ht
    exact (flt_zero_fabs _).1 (List.mem_filter.1 ht).2
  · unfold eliminateZerosCooNd
    rw [CooNd.eq_ofEntries _ g1.length, CooNd.eq_ofEntries _ h1.length, ← CooNd.eq_ofEntries _ h1.length,
      g2, g3, h3, List.filter_filter]
    simp only [Bool.and_self]
    rw [← h3, ← CooNd.eq_ofEntries _ h1.length]

end C17

/-! ### NaN -/

/-- Integers with one NaN: `NaN` compares false with everything, also with itself. -/
inductive NanInt | qnan | num (i : Int)
deriving DecidableEq
namespace NanInt
instance : Zero NanInt := ⟨num 0⟩
/-- IEEE equality. -/
instance ieee : BEq NanInt := ⟨fun x y => match x, y with
  | num a, num b => a == b
  | _, _ => false⟩
instance : HasLt NanInt := ⟨fun x y => match x, y with
  | num a, num b => decide (a < b)
  | _, _ => false⟩
instance : HasAbs NanInt := ⟨fun x => match x with
  | num a => num a.natAbs
  | qnan => qnan⟩
end NanInt

open NanInt in
/-- C16/C17, negative part: a stored NaN survives `eliminate_zeros` if the matrix stores no
zero, and is dropped if it stores a zero somewhere. -/
theorem prune_nan_inconsistent :
    EliminateZerosCsr (⟨1, 2, [0, 1], [0], [qnan]⟩ : Csr NanInt) ⟨1, 2, [0, 1], [0], [qnan]⟩ ∧
    EliminateZerosCsr (⟨1, 2, [0, 2], [0, 1], [qnan, num 0]⟩ : Csr NanInt) ⟨1, 2, [0, 0], [], []⟩ := by
  refine ⟨.inl ⟨by decide, rfl⟩, .inr (.inl ⟨by decide, by decide, by decide⟩)⟩

end Lacuna
