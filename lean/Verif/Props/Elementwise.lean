import Verif.Lemmas.Val
import Verif.Props.Construct
import Mathlib.Algebra.Ring.Defs
import Mathlib.Algebra.Field.Defs
import Mathlib.Algebra.Order.Floor.Ring
import Mathlib.Data.Rat.Floor
/-
C05–C12: element-wise binary kernels on CSR and CSC.
-/
namespace Lacuna
universe u
variable {V : Type u}

/-! ### C08: counting pass = filling pass -/

section C08
variable [Zero V] [Add V] [BEq V]

/-- C08 (addition): for *any* two rows the count equals the number of entries written. -/
theorem add_count_eq_fill (a b : Row V) : addRowCount a b = (addRowFill a b).length := by
  unfold addRowCount addRowFill
  rw [show (unionCount (· + ·) (a.length + b.length) a b : Option Nat)
    = (addFillLoop (a.length + b.length) a b).map List.length from unionCount_add _ a b]
  cases addFillLoop (a.length + b.length) a b <;> simp

/-- C08 (subtraction); indices are machine integers. -/
theorem sub_count_eq_fill [Sub V] (a b : Row V)
    (ha : ∀ e ∈ a, e.1 ≤ i64Max) (hb : ∀ e ∈ b, e.1 ≤ i64Max) :
    subRowCount a b = (subRowFill a b).length := by
  unfold subRowCount subRowFill
  rw [show (unionCount (· - ·) (a.length + b.length) a b : Option Nat)
    = (subFillLoop (a.length + b.length) a b).map List.length from unionCount_sub _ a b ha hb]
  cases subFillLoop (a.length + b.length) a b <;> simp

omit [BEq V] in
theorem interRow_count_eq_fill {keep : V → V → Bool} {cell : V → V → Option V}
    (hk : ∀ x y, keep x y = (cell x y).isSome) (a b : Row V) :
    interRowCount keep a b = (interRowFill cell a b).length := by
  unfold interRowCount interRowFill
  rw [interCount_eq hk]
  cases interFill cell (a.length + b.length) a b <;> simp

/-- C08 (element-wise product). -/
theorem hadamard_count_eq_fill [Mul V] (a b : Row V) :
    hadamardRowCount a b = (hadamardRowFill a b).length :=
  interRow_count_eq_fill (fun x y => by unfold hadamardKeep hadamardCell; simp; split <;> simp_all) a b

/-- C08 (division). -/
theorem div_count_eq_fill [Div V] [HasFinite V] (a b : Row V) :
    divRowCount a b = (divRowFill a b).length :=
  interRow_count_eq_fill (fun x y => by
    unfold divKeep divCell; simp only; split <;> [skip; rfl]; split <;> simp_all) a b

/-- C08 (floor division). -/
theorem floordiv_count_eq_fill [Div V] [HasFinite V] [HasFloor V] (a b : Row V) :
    floordivRowCount a b = (floordivRowFill a b).length :=
  interRow_count_eq_fill (fun x y => by
    unfold floordivKeep floordivCell; simp only; split <;> [skip; rfl]; split <;> simp_all) a b

/-- C08 (remainder). -/
theorem rem_count_eq_fill [Div V] [Mul V] [Sub V] [HasFinite V] [HasFloor V] (a b : Row V) :
    remRowCount a b = (remRowFill a b).length :=
  interRow_count_eq_fill (fun x y => by
    unfold remKeep remCell; simp only; split <;> [skip; rfl]; split <;> simp_all) a b

/-- C08 (power). -/
theorem pow_count_eq_fill [HasFinite V] [HasPowf V] (a b : Row V) :
    powRowCount a b = (powRowFill a b).length :=
  interRow_count_eq_fill (fun x y => by
    unfold powKeep powCell; simp only; split <;> simp_all) a b

/-- The loops really finish: with `alen + blen` iterations allowed the outer loop of the
fill routine has consumed both rows, for all rows of machine integers. -/
theorem add_fill_terminates (a b : Row V)
    (ha : ∀ e ∈ a, e.1 ≤ i64Max) (hb : ∀ e ∈ b, e.1 ≤ i64Max) :
    (addFillLoop (a.length + b.length) a b).isSome := addFillLoop_isSome _ a b ha hb (Nat.le_refl _)

theorem sub_fill_terminates [Sub V] (a b : Row V)
    (ha : ∀ e ∈ a, e.1 ≤ i64Max) (hb : ∀ e ∈ b, e.1 ≤ i64Max) :
    (subFillLoop (a.length + b.length) a b).isSome := subFillLoop_isSome _ a b ha hb (Nat.le_refl _)

omit [BEq V] in
theorem inter_fill_terminates (cell : V → V → Option V) (a b : Row V) :
    (interFill cell (a.length + b.length) a b).isSome := interFill_isSome _ _ a b (Nat.le_refl _)

end C08

/-- C08, memory form: if the counting routine agrees with the filling routine on every
line, the fill pass writes every slot of the output exactly once and never writes
outside it. -/
theorem fill_positions_exact {α : Type u} (count : Row V → Row V → Nat)
    (fill : Row V → Row V → Row V) (a b : Comp V) (g : Int × V → α)
    (h : ∀ i, i < a.n → count (a.row i) (b.row i) = (fill (a.row i) (b.row i)).length) :
    (fillWrites (ptrFrom 0 (lineCounts count a b))
      ((lineFills fill a b).map (·.map g))).map Prod.fst
      = List.range (lineCounts count a b).sum := by
  rw [lineCounts_eq h]
  have h1 : (lineFills fill a b).map List.length
      = ((lineFills fill a b).map (·.map g)).map List.length := by simp
  rw [h1, fillWrites_fst, List.range_eq_range', List.length_flatten]

example : addRowCount [(0, (1 : Int)), (2, 5)] [(0, -1), (1, 4)] = 2 := by decide
example : (fillWrites (ptrFrom 0 [2, 0, 1]) [[(0 : Int), 3], [], [1]]).map Prod.fst = [0, 1, 2] := by decide

/-! ### C09: the result does not depend on the schedule of the fill pass -/

section C09
variable [Zero V]

theorem binCsr_schedule_indep {count : Row V → Row V → Nat} {fill : Row V → Row V → Row V}
    {a b c : Csr V}
    (h : ∀ i, i < a.nrows →
      count (a.comp.row i) (b.comp.row i) = (fill (a.comp.row i) (b.comp.row i)).length)
    (hr : BinCsrRun count fill a b c) : binCsr count fill a b = some c := by
  obtain ⟨h1, h2, r, hrun, rfl⟩ := hr
  unfold binCsr
  rw [if_pos ⟨h1, h2⟩]
  rw [lineCounts_eq (a := a.comp) h] at hrun
  rw [twoPassRun_eq _ _ _ hrun, binComp_eq (a := a.comp) h]

theorem binCsc_schedule_indep {count : Row V → Row V → Nat} {fill : Row V → Row V → Row V}
    {a b c : Csc V}
    (h : ∀ i, i < a.ncols →
      count (a.comp.row i) (b.comp.row i) = (fill (a.comp.row i) (b.comp.row i)).length)
    (hr : BinCscRun count fill a b c) : binCsc count fill a b = some c := by
  obtain ⟨h1, h2, r, hrun, rfl⟩ := hr
  unfold binCsc
  rw [if_pos ⟨h1, h2⟩]
  rw [lineCounts_eq (a := a.comp) h] at hrun
  rw [twoPassRun_eq _ _ _ hrun, binComp_eq (a := a.comp) h]

end C09

section C09named
variable [Zero V] [Add V] [BEq V]

/-- C09 (addition, CSR): whatever order the threads' writes take, the result is the one of
sequential execution. -/
theorem add_csr_schedule_indep {a b c : Csr V} (h : BinCsrRun addRowCount addRowFill a b c) :
    addCsr a b = some c := binCsr_schedule_indep (fun _ _ => add_count_eq_fill _ _) h

theorem add_csc_schedule_indep {a b c : Csc V} (h : BinCscRun addRowCount addRowFill a b c) :
    addCsc a b = some c := binCsc_schedule_indep (fun _ _ => add_count_eq_fill _ _) h

theorem sub_csr_schedule_indep [Sub V] {a b c : Csr V} (ha : a.WF) (hb : b.WF)
    (h : BinCsrRun subRowCount subRowFill a b c) : subCsr a b = some c :=
  binCsr_schedule_indep (fun i _ => sub_count_eq_fill _ _ (i64_row ha i) (i64_row hb i)) h

theorem sub_csc_schedule_indep [Sub V] {a b c : Csc V} (ha : a.WF) (hb : b.WF)
    (h : BinCscRun subRowCount subRowFill a b c) : subCsc a b = some c :=
  binCsc_schedule_indep (fun i _ => sub_count_eq_fill _ _ (i64_row ha i) (i64_row hb i)) h

theorem hadamard_csr_schedule_indep [Mul V] {a b c : Csr V}
    (h : BinCsrRun hadamardRowCount hadamardRowFill a b c) : hadamardCsr a b = some c :=
  binCsr_schedule_indep (fun _ _ => hadamard_count_eq_fill _ _) h

theorem hadamard_csc_schedule_indep [Mul V] {a b c : Csc V}
    (h : BinCscRun hadamardRowCount hadamardRowFill a b c) : hadamardCsc a b = some c :=
  binCsc_schedule_indep (fun _ _ => hadamard_count_eq_fill _ _) h

theorem div_csr_schedule_indep [Div V] [HasFinite V] {a b c : Csr V}
    (h : BinCsrRun divRowCount divRowFill a b c) : divCsr a b = some c :=
  binCsr_schedule_indep (fun _ _ => div_count_eq_fill _ _) h

theorem div_csc_schedule_indep [Div V] [HasFinite V] {a b c : Csc V}
    (h : BinCscRun divRowCount divRowFill a b c) : divCsc a b = some c :=
  binCsc_schedule_indep (fun _ _ => div_count_eq_fill _ _) h

theorem floordiv_csr_schedule_indep [Div V] [HasFinite V] [HasFloor V] {a b c : Csr V}
    (h : BinCsrRun floordivRowCount floordivRowFill a b c) : floordivCsr a b = some c :=
  binCsr_schedule_indep (fun _ _ => floordiv_count_eq_fill _ _) h

theorem floordiv_csc_schedule_indep [Div V] [HasFinite V] [HasFloor V] {a b c : Csc V}
    (h : BinCscRun floordivRowCount floordivRowFill a b c) : floordivCsc a b = some c :=
  binCsc_schedule_indep (fun _ _ => floordiv_count_eq_fill _ _) h

theorem rem_csr_schedule_indep [Div V] [Mul V] [Sub V] [HasFinite V] [HasFloor V] {a b c : Csr V}
    (h : BinCsrRun remRowCount remRowFill a b c) : remCsr a b = some c :=
  binCsr_schedule_indep (fun _ _ => rem_count_eq_fill _ _) h

theorem rem_csc_schedule_indep [Div V] [Mul V] [Sub V] [HasFinite V] [HasFloor V] {a b c : Csc V}
    (h : BinCscRun remRowCount remRowFill a b c) : remCsc a b = some c :=
  binCsc_schedule_indep (fun _ _ => rem_count_eq_fill _ _) h

theorem pow_csr_schedule_indep [HasFinite V] [HasPowf V] {a b c : Csr V}
    (h : BinCsrRun powRowCount powRowFill a b c) : powCsr a b = some c :=
  binCsr_schedule_indep (fun _ _ => pow_count_eq_fill _ _) h

theorem pow_csc_schedule_indep [HasFinite V] [HasPowf V] {a b c : Csc V}
    (h : BinCscRun powRowCount powRowFill a b c) : powCsc a b = some c :=
  binCsc_schedule_indep (fun _ _ => pow_count_eq_fill _ _) h

end C09named

/-- A schedule that writes backwards is one of the runs (the hypothesis is satisfiable by
non-sequential executions). -/
example : BinCsrRun addRowCount addRowFill
    (⟨1, 2, [0, 2], [0, 1], [1, 2]⟩ : Csr Int) ⟨1, 2, [0, 0], [], []⟩
    ⟨1, 2, [0, 2], [0, 1], [1, 2]⟩ :=
  ⟨rfl, rfl, ⟨1, 2, [0, 2], [0, 1], [1, 2]⟩,
    ⟨[(1, 1), (0, 0)], [(1, 2), (0, 1)], List.Perm.swap _ _ _, List.Perm.swap _ _ _, rfl⟩, rfl⟩

/-- C09: the sequential execution is one of the runs, so the runs have exactly one result. -/
theorem binCsr_runs [Zero V] {count : Row V → Row V → Nat} {fill : Row V → Row V → Row V} {a b : Csr V}
    (h : ∀ i, i < a.nrows → count (a.comp.row i) (b.comp.row i) = (fill (a.comp.row i) (b.comp.row i)).length) (c : Csr V) :
    BinCsrRun count fill a b c ↔ binCsr count fill a b = some c := by
  refine ⟨binCsr_schedule_indep h, fun e => ?_⟩
  unfold binCsr at e
  split at e
  · rename_i hs
    obtain rfl := Option.some.inj e
    exact ⟨hs.1, hs.2, _, ⟨_, _, .refl _, .refl _, rfl⟩, rfl⟩
  · cases e

theorem binCsc_runs [Zero V] {count : Row V → Row V → Nat} {fill : Row V → Row V → Row V} {a b : Csc V}
    (h : ∀ i, i < a.ncols → count (a.comp.row i) (b.comp.row i) = (fill (a.comp.row i) (b.comp.row i)).length) (c : Csc V) :
    BinCscRun count fill a b c ↔ binCsc count fill a b = some c := by
  refine ⟨binCsc_schedule_indep h, fun e => ?_⟩
  unfold binCsc at e
  split at e
  · rename_i hs
    obtain rfl := Option.some.inj e
    exact ⟨hs.1, hs.2, _, ⟨_, _, .refl _, .refl _, rfl⟩, rfl⟩
  · cases e

/-! ### Common consequences -/

theorem binCsr_none_iff [Zero V] {count : Row V → Row V → Nat} {fill : Row V → Row V → Row V}
    {a b : Csr V} : binCsr count fill a b = none ↔ ¬ (a.nrows = b.nrows ∧ a.ncols = b.ncols) := by
  unfold binCsr; split <;> simp_all

theorem binCsc_none_iff [Zero V] {count : Row V → Row V → Nat} {fill : Row V → Row V → Row V}
    {a b : Csc V} : binCsc count fill a b = none ↔ ¬ (a.nrows = b.nrows ∧ a.ncols = b.ncols) := by
  unfold binCsc; split <;> simp_all

/-- Everything about a union kernel on compressed matrices. -/
theorem binComp_union [Zero V] [Add V] [BEq V] {fb : V → V → V}
    {count : Row V → Row V → Nat} {fill : Row V → Row V → Row V} {a b : Comp V}
    (ha : a.WF) (hb : b.WF) (hn : a.n = b.n) (hm : a.m = b.m)
    (hc : ∀ i, count (a.row i) (b.row i) = (fill (a.row i) (b.row i)).length)
    (hf : ∀ i, UnionSpec fb (a.row i) (b.row i) (fill (a.row i) (b.row i))) :
    (binComp count fill a b).WF ∧ (binComp count fill a b).n = a.n ∧
    (binComp count fill a b).m = a.m ∧
    (∀ i j, (binComp count fill a b).stored i j = unionCell fb (a.stored i j) (b.stored i j)) ∧
    (∀ v ∈ (binComp count fill a b).data, (v == 0) = false) := by
  rw [binComp_eq (fun i _ => hc i)]
  have key : ∀ i, ∀ e ∈ fill (a.row i) (b.row i), 0 ≤ e.1 ∧ e.1 < a.m ∧ e.1 ≤ i64Max := by
    intro i e he
    rcases (hf i).keys e he with ⟨f, hf', h⟩ | ⟨f, hf', h⟩
    · have h1 := bounds_row ha i f hf'
      have h2 := i64_row ha i f hf'
      omega
    · have h1 := bounds_row hb i f hf'
      have h2 := i64_row hb i f hf'
      omega
  refine ⟨?_, by simp [Comp.ofRows, lineFills], rfl, ?_, ?_⟩
  · apply Comp.wf_ofRows
    intro r hr
    simp only [lineFills, List.mem_map, List.mem_range] at hr
    obtain ⟨i, hi, rfl⟩ := hr
    exact ⟨(hf i).sorted, fun e he => ⟨(key i e he).1, (key i e he).2.1⟩, fun e he => (key i e he).2.2⟩
  · intro i j
    rw [Comp.stored_eq_lk, Comp.stored_eq_lk, Comp.stored_eq_lk, lineFills, Comp.row_ofRows']
    split
    · exact (hf i).lookup j
    · rename_i h
      rw [Comp.row_of_ge ha.ptr_length (by omega), Comp.row_of_ge hb.ptr_length (by omega)]
      rfl
  · intro v hv
    simp only [Comp.ofRows, List.mem_map, List.mem_flatten, lineFills] at hv
    obtain ⟨e, ⟨r, ⟨i, hi, rfl⟩, he⟩, rfl⟩ := hv
    exact (hf i).nonzero e he

/-- Everything about an intersection kernel on compressed matrices. -/
theorem binComp_inter [Zero V] [Add V] {cell : V → V → Option V}
    {count : Row V → Row V → Nat} {fill : Row V → Row V → Row V} {a b : Comp V}
    (ha : a.WF) (hb : b.WF) (hn : a.n = b.n)
    (hc : ∀ i, count (a.row i) (b.row i) = (fill (a.row i) (b.row i)).length)
    (hf : ∀ i, InterSpec cell (a.row i) (b.row i) (fill (a.row i) (b.row i))) :
    (binComp count fill a b).WF ∧ (binComp count fill a b).n = a.n ∧
    (binComp count fill a b).m = a.m ∧
    (∀ i j, (binComp count fill a b).stored i j = interCell cell (a.stored i j) (b.stored i j)) ∧
    (∀ v ∈ (binComp count fill a b).data, ∃ x y, cell (0 + x) (0 + y) = some v) := by
  rw [binComp_eq (fun i _ => hc i)]
  have key : ∀ i, ∀ e ∈ fill (a.row i) (b.row i), 0 ≤ e.1 ∧ e.1 < a.m ∧ e.1 ≤ i64Max := by
    intro i e he
    obtain ⟨f, hf', h⟩ := (hf i).keys e he
    have h1 := bounds_row ha i f hf'
    have h2 := i64_row ha i f hf'
    omega
  refine ⟨?_, by simp [Comp.ofRows, lineFills], rfl, ?_, ?_⟩
  · apply Comp.wf_ofRows
    intro r hr
    simp only [lineFills, List.mem_map, List.mem_range] at hr
    obtain ⟨i, hi, rfl⟩ := hr
    exact ⟨(hf i).sorted, fun e he => ⟨(key i e he).1, (key i e he).2.1⟩, fun e he => (key i e he).2.2⟩
  · intro i j
    rw [Comp.stored_eq_lk, Comp.stored_eq_lk, Comp.stored_eq_lk, lineFills, Comp.row_ofRows']
    split
    · exact (hf i).lookup j
    · rename_i h
      rw [Comp.row_of_ge ha.ptr_length (by omega), Comp.row_of_ge hb.ptr_length (by omega)]
      rfl
  · intro v hv
    simp only [Comp.ofRows, List.mem_map, List.mem_flatten, lineFills] at hv
    obtain ⟨e, ⟨r, ⟨i, hi, rfl⟩, he⟩, rfl⟩ := hv
    have h1 := mem_lk (hf i).sorted (show (e.1, e.2) ∈ _ from he)
    rw [(hf i).lookup] at h1
    cases hx : lk e.1 (a.row i) with
    | none => rw [hx] at h1; simp [interCell] at h1
    | some x =>
      cases hy : lk e.1 (b.row i) with
      | none => rw [hx, hy] at h1; simp [interCell] at h1
      | some y => rw [hx, hy] at h1; exact ⟨x, y, h1⟩

theorem addRowFill_spec [Zero V] [Add V] [BEq V] {a b : Row V} (ha : Srt a) (hb : Srt b)
    (ha' : ∀ e ∈ a, e.1 ≤ i64Max) (hb' : ∀ e ∈ b, e.1 ≤ i64Max) :
    UnionSpec (fun x y : V => x + y) a b (addRowFill a b) := by
  have h := add_fill_terminates a b ha' hb'
  rw [Option.isSome_iff_exists] at h
  obtain ⟨o, ho⟩ := h
  have := addFillLoop_spec _ a b o ha hb ha' hb' ho
  unfold addRowFill
  rw [ho]; exact this

theorem subRowFill_spec [Zero V] [Add V] [Sub V] [BEq V] {a b : Row V} (ha : Srt a) (hb : Srt b)
    (ha' : ∀ e ∈ a, e.1 ≤ i64Max) (hb' : ∀ e ∈ b, e.1 ≤ i64Max) :
    UnionSpec (fun x y : V => x - y) a b (subRowFill a b) := by
  have h := sub_fill_terminates a b ha' hb'
  rw [Option.isSome_iff_exists] at h
  obtain ⟨o, ho⟩ := h
  have := subFillLoop_spec _ a b o ha hb ha' hb' ho
  unfold subRowFill
  rw [ho]; exact this

theorem interRowFill_spec [Zero V] [Add V] {cell : V → V → Option V} {a b : Row V}
    (ha : Srt a) (hb : Srt b) : InterSpec cell a b (interRowFill cell a b) := by
  have h := inter_fill_terminates cell a b
  rw [Option.isSome_iff_exists] at h
  obtain ⟨o, ho⟩ := h
  have := interFill_spec _ _ a b o ha hb ho
  unfold interRowFill
  rw [ho]; exact this

/-! ### C05: addition -/

/-- C05, exact form for every arithmetic (IEEE included), CSR. -/
theorem add_csr_stored [Zero V] [Add V] [BEq V] {a b : Csr V} (ha : a.WF) (hb : b.WF)
    (hr : a.nrows = b.nrows) (hc : a.ncols = b.ncols) :
    ∃ c, addCsr a b = some c ∧ c.WF ∧ c.nrows = a.nrows ∧ c.ncols = a.ncols ∧
      (∀ i j, c.stored i j = unionCell (fun x y => x + y) (a.stored i j) (b.stored i j)) ∧
      (∀ v ∈ c.data, (v == 0) = false) := by
  have h := binComp_union (fb := fun x y : V => x + y) (count := addRowCount) (fill := addRowFill)
    (a := a.comp) (b := b.comp) ha hb hr hc
    (fun i => add_count_eq_fill _ _)
    (fun i => addRowFill_spec (srt_row ha i) (srt_row hb i) (i64_row ha i) (i64_row hb i))
  exact ⟨_, if_pos ⟨hr, hc⟩, h⟩

/-- C05, exact form for every arithmetic, CSC. -/
theorem add_csc_stored [Zero V] [Add V] [BEq V] {a b : Csc V} (ha : a.WF) (hb : b.WF)
    (hr : a.nrows = b.nrows) (hc : a.ncols = b.ncols) :
    ∃ c, addCsc a b = some c ∧ c.WF ∧ c.nrows = a.nrows ∧ c.ncols = a.ncols ∧
      (∀ i j, c.stored i j = unionCell (fun x y => x + y) (a.stored i j) (b.stored i j)) ∧
      (∀ v ∈ c.data, (v == 0) = false) := by
  have h := binComp_union (fb := fun x y : V => x + y) (count := addRowCount) (fill := addRowFill)
    (a := a.comp) (b := b.comp) ha hb hc hr
    (fun i => add_count_eq_fill _ _)
    (fun i => addRowFill_spec (srt_row ha i) (srt_row hb i) (i64_row ha i) (i64_row hb i))
  exact ⟨_, if_pos ⟨hr, hc⟩, h.1, h.2.2.1, h.2.1, fun i j => h.2.2.2.1 j i, h.2.2.2.2⟩

theorem unionCell_add_getD [AddZeroClass V] [BEq V] [LawfulBEq V] (x y : Option V) :
    (unionCell (fun x y : V => x + y) x y).getD 0 = x.getD 0 + y.getD 0 := by
  cases x <;> cases y <;> simp [unionCell] <;> split <;> simp_all

/-- C05 (CSR): the sum of two well-formed matrices of equal shape is well formed, has
`a(i,j) + b(i,j)` everywhere and stores no zero. -/
theorem add_csr_correct [AddZeroClass V] [BEq V] [LawfulBEq V] {a b : Csr V} (ha : a.WF) (hb : b.WF)
    (hr : a.nrows = b.nrows) (hc : a.ncols = b.ncols) :
    ∃ c, addCsr a b = some c ∧ c.WF ∧ c.nrows = a.nrows ∧ c.ncols = a.ncols ∧
      (∀ i j, c.val i j = a.val i j + b.val i j) ∧ (∀ v ∈ c.data, v ≠ 0) := by
  obtain ⟨c, h1, h2, h3, h4, h5, h6⟩ := add_csr_stored ha hb hr hc
  refine ⟨c, h1, h2, h3, h4, fun i j => ?_, fun v hv => by simpa using h6 v hv⟩
  have e := h5 i j
  unfold Csr.val
  rw [h2.val_eq_stored, ha.val_eq_stored, hb.val_eq_stored]
  unfold Csr.stored at e
  rw [e, unionCell_add_getD]

/-- C05 (CSC). -/
theorem add_csc_correct [AddZeroClass V] [BEq V] [LawfulBEq V] {a b : Csc V} (ha : a.WF) (hb : b.WF)
    (hr : a.nrows = b.nrows) (hc : a.ncols = b.ncols) :
    ∃ c, addCsc a b = some c ∧ c.WF ∧ c.nrows = a.nrows ∧ c.ncols = a.ncols ∧
      (∀ i j, c.val i j = a.val i j + b.val i j) ∧ (∀ v ∈ c.data, v ≠ 0) := by
  obtain ⟨c, h1, h2, h3, h4, h5, h6⟩ := add_csc_stored ha hb hr hc
  refine ⟨c, h1, h2, h3, h4, fun i j => ?_, fun v hv => by simpa using h6 v hv⟩
  have e := h5 i j
  unfold Csc.val
  rw [h2.val_eq_stored, ha.val_eq_stored, hb.val_eq_stored]
  unfold Csc.stored at e
  rw [e, unionCell_add_getD]

/-- The kernel panics exactly on a shape mismatch. -/
theorem add_csr_panics_iff [Zero V] [Add V] [BEq V] {a b : Csr V} :
    addCsr a b = none ↔ ¬ (a.nrows = b.nrows ∧ a.ncols = b.ncols) := binCsr_none_iff

theorem add_csc_panics_iff [Zero V] [Add V] [BEq V] {a b : Csc V} :
    addCsc a b = none ↔ ¬ (a.nrows = b.nrows ∧ a.ncols = b.ncols) := binCsc_none_iff

theorem sub_csr_panics_iff [Zero V] [Add V] [BEq V] [Sub V] {a b : Csr V} :
    subCsr a b = none ↔ ¬ (a.nrows = b.nrows ∧ a.ncols = b.ncols) := binCsr_none_iff

theorem sub_csc_panics_iff [Zero V] [Add V] [BEq V] [Sub V] {a b : Csc V} :
    subCsc a b = none ↔ ¬ (a.nrows = b.nrows ∧ a.ncols = b.ncols) := binCsc_none_iff

theorem hadamard_csr_panics_iff [Zero V] [Add V] [BEq V] [Mul V] {a b : Csr V} :
    hadamardCsr a b = none ↔ ¬ (a.nrows = b.nrows ∧ a.ncols = b.ncols) := binCsr_none_iff

theorem hadamard_csc_panics_iff [Zero V] [Add V] [BEq V] [Mul V] {a b : Csc V} :
    hadamardCsc a b = none ↔ ¬ (a.nrows = b.nrows ∧ a.ncols = b.ncols) := binCsc_none_iff

theorem div_csr_panics_iff [Zero V] [Add V] [BEq V] [Div V] [HasFinite V] {a b : Csr V} :
    divCsr a b = none ↔ ¬ (a.nrows = b.nrows ∧ a.ncols = b.ncols) := binCsr_none_iff

theorem div_csc_panics_iff [Zero V] [Add V] [BEq V] [Div V] [HasFinite V] {a b : Csc V} :
    divCsc a b = none ↔ ¬ (a.nrows = b.nrows ∧ a.ncols = b.ncols) := binCsc_none_iff

theorem floordiv_csr_panics_iff [Zero V] [Add V] [BEq V] [Div V] [HasFinite V] [HasFloor V] {a b : Csr V} :
    floordivCsr a b = none ↔ ¬ (a.nrows = b.nrows ∧ a.ncols = b.ncols) := binCsr_none_iff

theorem floordiv_csc_panics_iff [Zero V] [Add V] [BEq V] [Div V] [HasFinite V] [HasFloor V] {a b : Csc V} :
    floordivCsc a b = none ↔ ¬ (a.nrows = b.nrows ∧ a.ncols = b.ncols) := binCsc_none_iff

theorem rem_csr_panics_iff [Zero V] [Add V] [BEq V] [Div V] [Mul V] [Sub V] [HasFinite V] [HasFloor V] {a b : Csr V} :
    remCsr a b = none ↔ ¬ (a.nrows = b.nrows ∧ a.ncols = b.ncols) := binCsr_none_iff

theorem rem_csc_panics_iff [Zero V] [Add V] [BEq V] [Div V] [Mul V] [Sub V] [HasFinite V] [HasFloor V] {a b : Csc V} :
    remCsc a b = none ↔ ¬ (a.nrows = b.nrows ∧ a.ncols = b.ncols) := binCsc_none_iff

theorem pow_csr_panics_iff [Zero V] [Add V] [BEq V] [HasFinite V] [HasPowf V] {a b : Csr V} :
    powCsr a b = none ↔ ¬ (a.nrows = b.nrows ∧ a.ncols = b.ncols) := binCsr_none_iff

theorem pow_csc_panics_iff [Zero V] [Add V] [BEq V] [HasFinite V] [HasPowf V] {a b : Csc V} :
    powCsc a b = none ↔ ¬ (a.nrows = b.nrows ∧ a.ncols = b.ncols) := binCsc_none_iff

/-- Two concrete well-formed matrices with cancellation, used as witnesses below. -/
def exA : Csr Int := ⟨2, 3, [0, 2, 3], [0, 2, 1], [5, 6, 7]⟩
def exB : Csr Int := ⟨2, 3, [0, 2, 2], [0, 1], [-5, 4]⟩
theorem exA_wf : exA.WF :=
  ((csr_fromParts_iff 2 3 [0, 2, 3] [0, 2, 1] [(5 : Int), 6, 7] (by decide) exA).1 rfl).2.2
theorem exB_wf : exB.WF :=
  ((csr_fromParts_iff 2 3 [0, 2, 2] [0, 1] [(-5 : Int), 4] (by decide) exB).1 rfl).2.2
example : exA.WF ∧ exB.WF ∧ exA.nrows = exB.nrows ∧ exA.ncols = exB.ncols ∧
    addCsr exA exB = some ⟨2, 3, [0, 2, 3], [1, 2, 1], [4, 6, 7]⟩ :=
  ⟨exA_wf, exB_wf, rfl, rfl, by decide⟩
def exC : Csc Int := ⟨3, 2, [0, 2, 3], [0, 2, 1], [5, 6, 7]⟩
theorem exC_wf : exC.WF :=
  ((csc_fromParts_iff 3 2 [0, 2, 3] [0, 2, 1] [(5 : Int), 6, 7] (by decide) exC).1 rfl).2.2
example : exC.WF ∧ addCsc exC exC = some ⟨3, 2, [0, 2, 3], [0, 2, 1], [10, 12, 14]⟩ :=
  ⟨exC_wf, by decide⟩

/-! ### C06: subtraction -/

/-- C06, exact form, CSR. -/
theorem sub_csr_stored [Zero V] [Add V] [Sub V] [BEq V] {a b : Csr V} (ha : a.WF) (hb : b.WF)
    (hr : a.nrows = b.nrows) (hc : a.ncols = b.ncols) :
    ∃ c, subCsr a b = some c ∧ c.WF ∧ c.nrows = a.nrows ∧ c.ncols = a.ncols ∧
      (∀ i j, c.stored i j = unionCell (fun x y => x - y) (a.stored i j) (b.stored i j)) ∧
      (∀ v ∈ c.data, (v == 0) = false) := by
  have h := binComp_union (fb := fun x y : V => x - y) (count := subRowCount) (fill := subRowFill)
    (a := a.comp) (b := b.comp) ha hb hr hc
    (fun i => sub_count_eq_fill _ _ (i64_row ha i) (i64_row hb i))
    (fun i => subRowFill_spec (srt_row ha i) (srt_row hb i) (i64_row ha i) (i64_row hb i))
  exact ⟨_, if_pos ⟨hr, hc⟩, h⟩

/-- C06, exact form, CSC. -/
theorem sub_csc_stored [Zero V] [Add V] [Sub V] [BEq V] {a b : Csc V} (ha : a.WF) (hb : b.WF)
    (hr : a.nrows = b.nrows) (hc : a.ncols = b.ncols) :
    ∃ c, subCsc a b = some c ∧ c.WF ∧ c.nrows = a.nrows ∧ c.ncols = a.ncols ∧
      (∀ i j, c.stored i j = unionCell (fun x y => x - y) (a.stored i j) (b.stored i j)) ∧
      (∀ v ∈ c.data, (v == 0) = false) := by
  have h := binComp_union (fb := fun x y : V => x - y) (count := subRowCount) (fill := subRowFill)
    (a := a.comp) (b := b.comp) ha hb hc hr
    (fun i => sub_count_eq_fill _ _ (i64_row ha i) (i64_row hb i))
    (fun i => subRowFill_spec (srt_row ha i) (srt_row hb i) (i64_row ha i) (i64_row hb i))
  exact ⟨_, if_pos ⟨hr, hc⟩, h.1, h.2.2.1, h.2.1, fun i j => h.2.2.2.1 j i, h.2.2.2.2⟩

theorem unionCell_sub_getD [AddGroup V] [BEq V] [LawfulBEq V] (x y : Option V) :
    (unionCell (fun x y : V => x - y) x y).getD 0 = x.getD 0 - y.getD 0 := by
  cases x <;> cases y <;> simp [unionCell] <;> split <;> simp_all

/-- C06 (CSR). -/
theorem sub_csr_correct [AddGroup V] [BEq V] [LawfulBEq V] {a b : Csr V} (ha : a.WF) (hb : b.WF)
    (hr : a.nrows = b.nrows) (hc : a.ncols = b.ncols) :
    ∃ c, subCsr a b = some c ∧ c.WF ∧ c.nrows = a.nrows ∧ c.ncols = a.ncols ∧
      (∀ i j, c.val i j = a.val i j - b.val i j) ∧ (∀ v ∈ c.data, v ≠ 0) := by
  obtain ⟨c, h1, h2, h3, h4, h5, h6⟩ := sub_csr_stored ha hb hr hc
  refine ⟨c, h1, h2, h3, h4, fun i j => ?_, fun v hv => by simpa using h6 v hv⟩
  have e := h5 i j
  unfold Csr.val
  rw [h2.val_eq_stored, ha.val_eq_stored, hb.val_eq_stored]
  unfold Csr.stored at e
  rw [e, unionCell_sub_getD]

/-- C06 (CSC). -/
theorem sub_csc_correct [AddGroup V] [BEq V] [LawfulBEq V] {a b : Csc V} (ha : a.WF) (hb : b.WF)
    (hr : a.nrows = b.nrows) (hc : a.ncols = b.ncols) :
    ∃ c, subCsc a b = some c ∧ c.WF ∧ c.nrows = a.nrows ∧ c.ncols = a.ncols ∧
      (∀ i j, c.val i j = a.val i j - b.val i j) ∧ (∀ v ∈ c.data, v ≠ 0) := by
  obtain ⟨c, h1, h2, h3, h4, h5, h6⟩ := sub_csc_stored ha hb hr hc
  refine ⟨c, h1, h2, h3, h4, fun i j => ?_, fun v hv => by simpa using h6 v hv⟩
  have e := h5 i j
  unfold Csc.val
  rw [h2.val_eq_stored, ha.val_eq_stored, hb.val_eq_stored]
  unfold Csc.stored at e
  rw [e, unionCell_sub_getD]

/-- C06: a stored value in a well-formed matrix is visible through `stored`. -/
theorem Comp.WF.mem_data {a : Comp V} (h : a.WF) {v : V} (hv : v ∈ a.data) :
    ∃ i j : Nat, i < a.n ∧ j < a.m ∧ a.stored i j = some v := by
  have hent : ∃ e ∈ a.entries, e.2 = v := by
    have : a.entries.map Prod.snd = a.data := by
      rw [Comp.entries, List.map_snd_zip (by rw [h.data_length])]
    rw [← this] at hv
    simpa using hv
  obtain ⟨e, he, rfl⟩ := hent
  rw [← h.flatten_rows, List.mem_flatten] at he
  obtain ⟨r, hr, her⟩ := he
  simp only [Comp.rows, List.mem_map, List.mem_range] at hr
  obtain ⟨i, hi, rfl⟩ := hr
  have hb := (h.rowOk i hi).bounds e her
  refine ⟨i, e.1.toNat, hi, by omega, ?_⟩
  rw [Comp.stored_eq_lk]
  apply mem_lk (srt_row h i)
  have : ((e.1.toNat : Nat) : Int) = e.1 := by omega
  rw [this]; exact her

/-- C06: `A - A` stores nothing. -/
theorem sub_self_empty [AddGroup V] [BEq V] [LawfulBEq V] {a : Csr V} (ha : a.WF) :
    ∃ c, subCsr a a = some c ∧ c.data = [] ∧ c.indices = [] := by
  obtain ⟨c, h1, h2, h3, h4, h5, h6⟩ := sub_csr_correct ha ha rfl rfl
  have hd : c.data = [] := by
    rw [List.eq_nil_iff_forall_not_mem]
    intro v hv
    obtain ⟨i, j, _, _, hs⟩ := h2.mem_data hv
    have := h5 i j
    unfold Csr.val at this
    rw [h2.val_eq_stored, hs, sub_self] at this
    exact h6 v hv this
  refine ⟨c, h1, hd, ?_⟩
  have := h2.data_length
  have h' : c.data.length = c.indices.length := this
  rw [hd] at h'
  exact List.length_eq_zero_iff.1 h'.symm

theorem sub_self_empty_csc [AddGroup V] [BEq V] [LawfulBEq V] {a : Csc V} (ha : a.WF) :
    ∃ c, subCsc a a = some c ∧ c.data = [] ∧ c.indices = [] := by
  obtain ⟨c, h1, h2, h3, h4, h5, h6⟩ := sub_csc_correct ha ha rfl rfl
  have hd : c.data = [] := by
    rw [List.eq_nil_iff_forall_not_mem]
    intro v hv
    obtain ⟨i, j, _, _, hs⟩ := h2.mem_data hv
    have := h5 j i
    unfold Csc.val at this
    rw [h2.val_eq_stored, hs, sub_self] at this
    exact h6 v hv this
  refine ⟨c, h1, hd, ?_⟩
  have := h2.data_length
  have h' : c.data.length = c.indices.length := this
  rw [hd] at h'
  exact List.length_eq_zero_iff.1 h'.symm

example : subCsr exA exB = some ⟨2, 3, [0, 3, 4], [0, 1, 2, 1], [10, -4, 6, 7]⟩ := by decide

/-! ### C07: element-wise product -/

theorem hadamardCell_eq [Zero V] [Mul V] [BEq V] (x y : V) :
    hadamardCell x y = if x * y == 0 then none else some (x * y) := by
  unfold hadamardCell; simp only; cases h : (x * y == 0) <;> simp

section
variable [Zero V] [Add V] [BEq V]

omit [BEq V] in
theorem inter_csr_stored {keep : V → V → Bool} {cell : V → V → Option V}
    (hk : ∀ x y, keep x y = (cell x y).isSome) {a b : Csr V} (ha : a.WF) (hb : b.WF)
    (hr : a.nrows = b.nrows) (hc : a.ncols = b.ncols) :
    ∃ c, binCsr (interRowCount keep) (interRowFill cell) a b = some c ∧ c.WF ∧
      c.nrows = a.nrows ∧ c.ncols = a.ncols ∧
      (∀ i j, c.stored i j = interCell cell (a.stored i j) (b.stored i j)) ∧
      (∀ v ∈ c.data, ∃ x y, cell (0 + x) (0 + y) = some v) := by
  have h := binComp_inter (cell := cell) (count := interRowCount keep) (fill := interRowFill cell)
    (a := a.comp) (b := b.comp) ha hb hr
    (fun i => interRow_count_eq_fill hk _ _)
    (fun i => interRowFill_spec (srt_row ha i) (srt_row hb i))
  exact ⟨_, if_pos ⟨hr, hc⟩, h⟩

omit [BEq V] in
theorem inter_csc_stored {keep : V → V → Bool} {cell : V → V → Option V}
    (hk : ∀ x y, keep x y = (cell x y).isSome) {a b : Csc V} (ha : a.WF) (hb : b.WF)
    (hr : a.nrows = b.nrows) (hc : a.ncols = b.ncols) :
    ∃ c, binCsc (interRowCount keep) (interRowFill cell) a b = some c ∧ c.WF ∧
      c.nrows = a.nrows ∧ c.ncols = a.ncols ∧
      (∀ i j, c.stored i j = interCell cell (a.stored i j) (b.stored i j)) ∧
      (∀ v ∈ c.data, ∃ x y, cell (0 + x) (0 + y) = some v) := by
  have h := binComp_inter (cell := cell) (count := interRowCount keep) (fill := interRowFill cell)
    (a := a.comp) (b := b.comp) ha hb hc
    (fun i => interRow_count_eq_fill hk _ _)
    (fun i => interRowFill_spec (srt_row ha i) (srt_row hb i))
  exact ⟨_, if_pos ⟨hr, hc⟩, h.1, h.2.2.1, h.2.1, fun i j => h.2.2.2.1 j i, h.2.2.2.2⟩

omit [Add V] in
theorem hadamardKeep_isSome [Mul V] (x y : V) : hadamardKeep x y = (hadamardCell x y).isSome := by
  unfold hadamardKeep hadamardCell; simp; split <;> simp_all
omit [Add V] in
theorem divKeep_isSome [Div V] [HasFinite V] (x y : V) : divKeep x y = (divCell x y).isSome := by
  unfold divKeep divCell; simp only; split <;> [skip; rfl]; split <;> simp_all
omit [Add V] in
theorem floordivKeep_isSome [Div V] [HasFinite V] [HasFloor V] (x y : V) :
    floordivKeep x y = (floordivCell x y).isSome := by
  unfold floordivKeep floordivCell; simp only; split <;> [skip; rfl]; split <;> simp_all
omit [Add V] in
theorem remKeep_isSome [Div V] [Mul V] [Sub V] [HasFinite V] [HasFloor V] (x y : V) :
    remKeep x y = (remCell x y).isSome := by
  unfold remKeep remCell; simp only; split <;> [skip; rfl]; split <;> simp_all
omit [Add V] in
theorem powKeep_isSome [HasFinite V] [HasPowf V] (x y : V) : powKeep x y = (powCell x y).isSome := by
  unfold powKeep powCell; simp only; split <;> simp_all

end

theorem hadamard_getD [NonUnitalNonAssocSemiring V] [BEq V] [LawfulBEq V] (x y : Option V) :
    (interCell hadamardCell x y).getD 0 = x.getD 0 * y.getD 0 := by
  cases x <;> cases y <;> simp [interCell, hadamardCell_eq] <;> split <;> simp_all

/-- C07 (CSR). -/
theorem hadamard_csr_correct [NonUnitalNonAssocSemiring V] [BEq V] [LawfulBEq V] {a b : Csr V}
    (ha : a.WF) (hb : b.WF) (hr : a.nrows = b.nrows) (hc : a.ncols = b.ncols) :
    ∃ c, hadamardCsr a b = some c ∧ c.WF ∧ c.nrows = a.nrows ∧ c.ncols = a.ncols ∧
      (∀ i j, c.val i j = a.val i j * b.val i j) ∧ (∀ v ∈ c.data, v ≠ 0) := by
  obtain ⟨c, h1, h2, h3, h4, h5, h6⟩ :=
    inter_csr_stored (cell := hadamardCell) hadamardKeep_isSome ha hb hr hc
  refine ⟨c, h1, h2, h3, h4, fun i j => ?_, fun v hv => ?_⟩
  · have e := h5 i j
    unfold Csr.val
    rw [h2.val_eq_stored, ha.val_eq_stored, hb.val_eq_stored]
    unfold Csr.stored at e
    rw [e, hadamard_getD]
  · obtain ⟨x, y, h⟩ := h6 v hv
    rw [hadamardCell_eq] at h
    split at h
    · simp at h
    · rename_i h'; simp at h h'; rw [← h]; exact h'

/-- C07 (CSC). -/
theorem hadamard_csc_correct [NonUnitalNonAssocSemiring V] [BEq V] [LawfulBEq V] {a b : Csc V}
    (ha : a.WF) (hb : b.WF) (hr : a.nrows = b.nrows) (hc : a.ncols = b.ncols) :
    ∃ c, hadamardCsc a b = some c ∧ c.WF ∧ c.nrows = a.nrows ∧ c.ncols = a.ncols ∧
      (∀ i j, c.val i j = a.val i j * b.val i j) ∧ (∀ v ∈ c.data, v ≠ 0) := by
  obtain ⟨c, h1, h2, h3, h4, h5, h6⟩ :=
    inter_csc_stored (cell := hadamardCell) hadamardKeep_isSome ha hb hr hc
  refine ⟨c, h1, h2, h3, h4, fun i j => ?_, fun v hv => ?_⟩
  · have e := h5 i j
    unfold Csc.val
    rw [h2.val_eq_stored, ha.val_eq_stored, hb.val_eq_stored]
    unfold Csc.stored at e
    rw [e, hadamard_getD]
  · obtain ⟨x, y, h⟩ := h6 v hv
    rw [hadamardCell_eq] at h
    split at h
    · simp at h
    · rename_i h'; simp at h h'; rw [← h]; exact h'

example : hadamardCsr exA exB = some ⟨2, 3, [0, 1, 1], [0], [-25]⟩ := by decide

/-! ### C10: division -/

section C10
variable [Zero V] [Add V] [BEq V] [HasFinite V]

omit [Add V] in
theorem divCell_eq [Div V] (x y : V) :
    divCell x y = if y == 0 then none else keepFinite isFinite (x / y) := by
  unfold divCell keepFinite
  cases h : (y == 0) <;> simp
  cases h' : (x / y == 0) <;> simp

/-- C10, exact form for every arithmetic (CSR): something is stored at `(i,j)` exactly when
both operands store an entry there, the divisor is not zero and the quotient is finite and
not zero; then it is the quotient. -/
theorem div_csr_stored [Div V] {a b : Csr V} (ha : a.WF) (hb : b.WF)
    (hr : a.nrows = b.nrows) (hc : a.ncols = b.ncols) :
    ∃ c, divCsr a b = some c ∧ c.WF ∧ c.nrows = a.nrows ∧ c.ncols = a.ncols ∧
      (∀ i j, c.stored i j = interCell
        (fun x y => if y == 0 then none else keepFinite isFinite (x / y))
        (a.stored i j) (b.stored i j)) := by
  obtain ⟨c, h1, h2, h3, h4, h5, -⟩ := inter_csr_stored (cell := divCell) divKeep_isSome ha hb hr hc
  refine ⟨c, h1, h2, h3, h4, fun i j => ?_⟩
  rw [h5, show (divCell : V → V → Option V) = _ from funext fun x => funext fun y => divCell_eq x y]

theorem div_csc_stored [Div V] {a b : Csc V} (ha : a.WF) (hb : b.WF)
    (hr : a.nrows = b.nrows) (hc : a.ncols = b.ncols) :
    ∃ c, divCsc a b = some c ∧ c.WF ∧ c.nrows = a.nrows ∧ c.ncols = a.ncols ∧
      (∀ i j, c.stored i j = interCell
        (fun x y => if y == 0 then none else keepFinite isFinite (x / y))
        (a.stored i j) (b.stored i j)) := by
  obtain ⟨c, h1, h2, h3, h4, h5, -⟩ := inter_csc_stored (cell := divCell) divKeep_isSome ha hb hr hc
  refine ⟨c, h1, h2, h3, h4, fun i j => ?_⟩
  rw [h5, show (divCell : V → V → Option V) = _ from funext fun x => funext fun y => divCell_eq x y]

end C10

/-- C10 over a field: the dense quotient with `x / 0 = 0`. -/
theorem div_csr_correct [Field V] [BEq V] [LawfulBEq V] [HasFinite V]
    (hfin : ∀ v : V, isFinite v = true) {a b : Csr V} (ha : a.WF) (hb : b.WF)
    (hr : a.nrows = b.nrows) (hc : a.ncols = b.ncols) :
    ∃ c, divCsr a b = some c ∧ c.WF ∧ c.nrows = a.nrows ∧ c.ncols = a.ncols ∧
      (∀ i j, (b.val i j = 0 → c.val i j = 0) ∧
        (b.val i j ≠ 0 → c.val i j = a.val i j / b.val i j)) := by
  classical
  obtain ⟨c, h1, h2, h3, h4, h5⟩ := div_csr_stored ha hb hr hc
  refine ⟨c, h1, h2, h3, h4, fun i j => ?_⟩
  have e := h5 i j
  unfold Csr.val
  rw [h2.val_eq_stored, ha.val_eq_stored, hb.val_eq_stored]
  unfold Csr.stored at e
  rw [e]
  suffices h : ((interCell (fun x y => if y == 0 then none else keepFinite isFinite (x / y))
      (a.comp.stored i j) (b.comp.stored i j)).getD 0 : V)
      = (a.comp.stored i j).getD 0 / (b.comp.stored i j).getD 0 by
    rw [h]; exact ⟨fun h0 => by rw [h0, div_zero], fun _ => rfl⟩
  cases a.comp.stored i j <;> cases b.comp.stored i j <;>
    simp [interCell, keepFinite, hfin] <;> split <;> simp_all
  split <;> simp_all

theorem div_csc_correct [Field V] [BEq V] [LawfulBEq V] [HasFinite V]
    (hfin : ∀ v : V, isFinite v = true) {a b : Csc V} (ha : a.WF) (hb : b.WF)
    (hr : a.nrows = b.nrows) (hc : a.ncols = b.ncols) :
    ∃ c, divCsc a b = some c ∧ c.WF ∧ c.nrows = a.nrows ∧ c.ncols = a.ncols ∧
      (∀ i j, (b.val i j = 0 → c.val i j = 0) ∧
        (b.val i j ≠ 0 → c.val i j = a.val i j / b.val i j)) := by
  classical
  obtain ⟨c, h1, h2, h3, h4, h5⟩ := div_csc_stored ha hb hr hc
  refine ⟨c, h1, h2, h3, h4, fun i j => ?_⟩
  have e := h5 i j
  unfold Csc.val
  rw [h2.val_eq_stored, ha.val_eq_stored, hb.val_eq_stored]
  unfold Csc.stored at e
  rw [e]
  suffices h : ((interCell (fun x y => if y == 0 then none else keepFinite isFinite (x / y))
      (a.comp.stored j i) (b.comp.stored j i)).getD 0 : V)
      = (a.comp.stored j i).getD 0 / (b.comp.stored j i).getD 0 by
    rw [h]; exact ⟨fun h0 => by rw [h0, div_zero], fun _ => rfl⟩
  cases a.comp.stored j i <;> cases b.comp.stored j i <;>
    simp [interCell, keepFinite, hfin] <;> split <;> simp_all
  split <;> simp_all

/-! ### C11: floor division and remainder -/

section C11
variable [Zero V] [Add V] [BEq V] [HasFinite V] [HasFloor V]

/-- C11, exact form for floor division. -/
theorem floordiv_csr_stored [Div V] {a b : Csr V} (ha : a.WF) (hb : b.WF)
    (hr : a.nrows = b.nrows) (hc : a.ncols = b.ncols) :
    ∃ c, floordivCsr a b = some c ∧ c.WF ∧ c.nrows = a.nrows ∧ c.ncols = a.ncols ∧
      (∀ i j, c.stored i j = interCell
        (fun x y => if y == 0 then none else keepFinite isFinite (HasFloor.floor (x / y)))
        (a.stored i j) (b.stored i j)) := by
  obtain ⟨c, h1, h2, h3, h4, h5, -⟩ :=
    inter_csr_stored (cell := floordivCell) floordivKeep_isSome ha hb hr hc
  refine ⟨c, h1, h2, h3, h4, fun i j => ?_⟩
  rw [h5]
  congr 1; funext x y
  unfold floordivCell keepFinite
  cases h : (y == 0) <;> simp
  cases h' : (HasFloor.floor (x / y) == 0) <;> simp

theorem floordiv_csc_stored [Div V] {a b : Csc V} (ha : a.WF) (hb : b.WF)
    (hr : a.nrows = b.nrows) (hc : a.ncols = b.ncols) :
    ∃ c, floordivCsc a b = some c ∧ c.WF ∧ c.nrows = a.nrows ∧ c.ncols = a.ncols ∧
      (∀ i j, c.stored i j = interCell
        (fun x y => if y == 0 then none else keepFinite isFinite (HasFloor.floor (x / y)))
        (a.stored i j) (b.stored i j)) := by
  obtain ⟨c, h1, h2, h3, h4, h5, -⟩ :=
    inter_csc_stored (cell := floordivCell) floordivKeep_isSome ha hb hr hc
  refine ⟨c, h1, h2, h3, h4, fun i j => ?_⟩
  rw [h5]
  congr 1; funext x y
  unfold floordivCell keepFinite
  cases h : (y == 0) <;> simp
  cases h' : (HasFloor.floor (x / y) == 0) <;> simp

/-- C11, exact form for the remainder. -/
theorem rem_csr_stored [Div V] [Mul V] [Sub V] {a b : Csr V} (ha : a.WF) (hb : b.WF)
    (hr : a.nrows = b.nrows) (hc : a.ncols = b.ncols) :
    ∃ c, remCsr a b = some c ∧ c.WF ∧ c.nrows = a.nrows ∧ c.ncols = a.ncols ∧
      (∀ i j, c.stored i j = interCell
        (fun x y => if y == 0 then none
          else keepFinite isFinite (x - y * HasFloor.floor (x / y)))
        (a.stored i j) (b.stored i j)) := by
  obtain ⟨c, h1, h2, h3, h4, h5, -⟩ :=
    inter_csr_stored (cell := remCell) remKeep_isSome ha hb hr hc
  refine ⟨c, h1, h2, h3, h4, fun i j => ?_⟩
  rw [h5]
  congr 1; funext x y
  unfold remCell keepFinite
  cases h : (y == 0) <;> simp
  cases h' : (x - y * HasFloor.floor (x / y) == 0) <;> simp

theorem rem_csc_stored [Div V] [Mul V] [Sub V] {a b : Csc V} (ha : a.WF) (hb : b.WF)
    (hr : a.nrows = b.nrows) (hc : a.ncols = b.ncols) :
    ∃ c, remCsc a b = some c ∧ c.WF ∧ c.nrows = a.nrows ∧ c.ncols = a.ncols ∧
      (∀ i j, c.stored i j = interCell
        (fun x y => if y == 0 then none
          else keepFinite isFinite (x - y * HasFloor.floor (x / y)))
        (a.stored i j) (b.stored i j)) := by
  obtain ⟨c, h1, h2, h3, h4, h5, -⟩ :=
    inter_csc_stored (cell := remCell) remKeep_isSome ha hb hr hc
  refine ⟨c, h1, h2, h3, h4, fun i j => ?_⟩
  rw [h5]
  congr 1; funext x y
  unfold remCell keepFinite
  cases h : (y == 0) <;> simp
  cases h' : (x - y * HasFloor.floor (x / y) == 0) <;> simp

end C11

/-- C11 over an ordered field with floor: wherever the divisor is not zero,
`a = b * (a // b) + a % b`, and for a positive divisor `0 ≤ a % b < b`. -/
theorem floordiv_rem_consistent [Field V] [LinearOrder V] [IsStrictOrderedRing V] [FloorRing V]
    [BEq V] [LawfulBEq V] [HasFinite V] [HasFloor V]
    (hfin : ∀ v : V, isFinite v = true) (hfl : ∀ v : V, HasFloor.floor v = (⌊v⌋ : V))
    {a b : Csr V} (ha : a.WF) (hb : b.WF) (hr : a.nrows = b.nrows) (hc : a.ncols = b.ncols) :
    ∃ q r, floordivCsr a b = some q ∧ remCsr a b = some r ∧ q.WF ∧ r.WF ∧
      (∀ i j, b.val i j ≠ 0 →
        q.val i j = (⌊a.val i j / b.val i j⌋ : V) ∧
        a.val i j = b.val i j * q.val i j + r.val i j ∧
        (0 < b.val i j → 0 ≤ r.val i j ∧ r.val i j < b.val i j)) ∧
      (∀ i j, b.val i j = 0 → q.val i j = 0 ∧ r.val i j = 0) := by
  obtain ⟨q, h1, h2, h3, h4, h5⟩ := floordiv_csr_stored ha hb hr hc
  obtain ⟨r, g1, g2, g3, g4, g5⟩ := rem_csr_stored ha hb hr hc
  have hq : ∀ i j, q.val i j = if b.val i j = 0 then 0 else (⌊a.val i j / b.val i j⌋ : V) := by
    intro i j
    have e := h5 i j
    unfold Csr.val
    rw [h2.val_eq_stored, ha.val_eq_stored, hb.val_eq_stored]
    unfold Csr.stored at e
    rw [e]
    cases a.comp.stored i j <;> cases b.comp.stored i j <;>
      simp [interCell, keepFinite, hfin, hfl, -Int.floor_eq_zero_iff] <;> split <;>
      simp_all [-Int.floor_eq_zero_iff]
    split <;> simp_all [-Int.floor_eq_zero_iff]
  have hrm : ∀ i j, r.val i j = if b.val i j = 0 then 0
      else a.val i j - b.val i j * (⌊a.val i j / b.val i j⌋ : V) := by
    intro i j
    have e := g5 i j
    unfold Csr.val
    rw [g2.val_eq_stored, ha.val_eq_stored, hb.val_eq_stored]
    unfold Csr.stored at e
    rw [e]
    cases a.comp.stored i j <;> cases b.comp.stored i j <;>
      simp [interCell, keepFinite, hfin, hfl] <;> split <;> simp_all
    split <;> simp_all
  refine ⟨q, r, h1, g1, h2, g2, fun i j hb0 => ?_, fun i j hb0 => ?_⟩
  · have e1 := hq i j
    have e2 := hrm i j
    rw [if_neg hb0] at e1 e2
    refine ⟨e1, ?_, fun hpos => ?_⟩
    · rw [e1, e2]; simp
    · rw [e2]
      have f1 := Int.floor_le (a.val i j / b.val i j)
      have f2 := Int.lt_floor_add_one (a.val i j / b.val i j)
      have f3 : a.val i j = b.val i j * (a.val i j / b.val i j) := by
        rw [mul_div_cancel₀]; exact hb0
      constructor
      · have := mul_le_mul_of_nonneg_left f1 (le_of_lt hpos)
        rw [← f3] at this
        exact sub_nonneg.2 this
      · have := mul_lt_mul_of_pos_left f2 hpos
        rw [← f3, mul_add, mul_one] at this
        rw [sub_lt_iff_lt_add, add_comm]; exact this
  · rw [hq, hrm, if_pos hb0, if_pos hb0]; exact ⟨rfl, rfl⟩

/-- C11 (CSC): the two operations are consistent and the divisor's sign bounds the remainder. -/
theorem floordiv_rem_consistent_csc [Field V] [LinearOrder V] [IsStrictOrderedRing V] [FloorRing V]
    [BEq V] [LawfulBEq V] [HasFinite V] [HasFloor V]
    (hfin : ∀ v : V, isFinite v = true) (hfl : ∀ v : V, HasFloor.floor v = (⌊v⌋ : V))
    {a b : Csc V} (ha : a.WF) (hb : b.WF) (hr : a.nrows = b.nrows) (hc : a.ncols = b.ncols) :
    ∃ q r, floordivCsc a b = some q ∧ remCsc a b = some r ∧ q.WF ∧ r.WF ∧
      (∀ i j, b.val i j ≠ 0 →
        q.val i j = (⌊a.val i j / b.val i j⌋ : V) ∧
        a.val i j = b.val i j * q.val i j + r.val i j ∧
        (0 < b.val i j → 0 ≤ r.val i j ∧ r.val i j < b.val i j)) ∧
      (∀ i j, b.val i j = 0 → q.val i j = 0 ∧ r.val i j = 0) := by
  obtain ⟨q, h1, h2, h3, h4, h5⟩ := floordiv_csc_stored ha hb hr hc
  obtain ⟨r, g1, g2, g3, g4, g5⟩ := rem_csc_stored ha hb hr hc
  have hq : ∀ i j, q.val i j = if b.val i j = 0 then 0 else (⌊a.val i j / b.val i j⌋ : V) := by
    intro i j
    have e := h5 i j
    unfold Csc.val
    rw [h2.val_eq_stored, ha.val_eq_stored, hb.val_eq_stored]
    unfold Csc.stored at e
    rw [e]
    cases a.comp.stored j i <;> cases b.comp.stored j i <;>
      simp [interCell, keepFinite, hfin, hfl, -Int.floor_eq_zero_iff] <;> split <;>
      simp_all [-Int.floor_eq_zero_iff]
    split <;> simp_all [-Int.floor_eq_zero_iff]
  have hrm : ∀ i j, r.val i j = if b.val i j = 0 then 0
      else a.val i j - b.val i j * (⌊a.val i j / b.val i j⌋ : V) := by
    intro i j
    have e := g5 i j
    unfold Csc.val
    rw [g2.val_eq_stored, ha.val_eq_stored, hb.val_eq_stored]
    unfold Csc.stored at e
    rw [e]
    cases a.comp.stored j i <;> cases b.comp.stored j i <;>
      simp [interCell, keepFinite, hfin, hfl] <;> split <;> simp_all
    split <;> simp_all
  refine ⟨q, r, h1, g1, h2, g2, fun i j hb0 => ?_, fun i j hb0 => ?_⟩
  · have e1 := hq i j
    have e2 := hrm i j
    rw [if_neg hb0] at e1 e2
    refine ⟨e1, ?_, fun hpos => ?_⟩
    · rw [e1, e2]; simp
    · rw [e2]
      have f1 := Int.floor_le (a.val i j / b.val i j)
      have f2 := Int.lt_floor_add_one (a.val i j / b.val i j)
      have f3 : a.val i j = b.val i j * (a.val i j / b.val i j) := by
        rw [mul_div_cancel₀]; exact hb0
      constructor
      · have := mul_le_mul_of_nonneg_left f1 (le_of_lt hpos)
        rw [← f3] at this
        exact sub_nonneg.2 this
      · have := mul_lt_mul_of_pos_left f2 hpos
        rw [← f3, mul_add, mul_one] at this
        rw [sub_lt_iff_lt_add, add_comm]; exact this
  · rw [hq, hrm, if_pos hb0, if_pos hb0]; exact ⟨rfl, rfl⟩

/-! ### C12: power -/

section C12
variable [Zero V] [Add V] [BEq V] [HasFinite V] [HasPowf V]

omit [Add V] in
theorem powCell_eq (x y : V) : powCell x y = keepFinite isFinite (HasPowf.powf x y) := by
  unfold powCell keepFinite
  cases h' : (HasPowf.powf x y == 0) <;> simp [h']

/-- C12, exact form for every arithmetic (CSR). -/
theorem pow_csr_stored {a b : Csr V} (ha : a.WF) (hb : b.WF)
    (hr : a.nrows = b.nrows) (hc : a.ncols = b.ncols) :
    ∃ c, powCsr a b = some c ∧ c.WF ∧ c.nrows = a.nrows ∧ c.ncols = a.ncols ∧
      (∀ i j, c.stored i j = interCell (fun x y => keepFinite isFinite (HasPowf.powf x y))
        (a.stored i j) (b.stored i j)) := by
  obtain ⟨c, h1, h2, h3, h4, h5, -⟩ := inter_csr_stored (cell := powCell) powKeep_isSome ha hb hr hc
  refine ⟨c, h1, h2, h3, h4, fun i j => ?_⟩
  rw [h5, show (powCell : V → V → Option V) = _ from funext fun x => funext fun y => powCell_eq x y]

/-- C12 (CSC). -/
theorem pow_csc_stored {a b : Csc V} (ha : a.WF) (hb : b.WF)
    (hr : a.nrows = b.nrows) (hc : a.ncols = b.ncols) :
    ∃ c, powCsc a b = some c ∧ c.WF ∧ c.nrows = a.nrows ∧ c.ncols = a.ncols ∧
      (∀ i j, c.stored i j = interCell (fun x y => keepFinite isFinite (HasPowf.powf x y))
        (a.stored i j) (b.stored i j)) := by
  obtain ⟨c, h1, h2, h3, h4, h5, -⟩ := inter_csc_stored (cell := powCell) powKeep_isSome ha hb hr hc
  refine ⟨c, h1, h2, h3, h4, fun i j => ?_⟩
  rw [h5, show (powCell : V → V → Option V) = _ from funext fun x => funext fun y => powCell_eq x y]

end C12

/-! ### Witnesses for C10–C12 over ℚ -/

section Witness
local instance : HasFinite ℚ := ⟨fun _ => true⟩
local instance : HasFloor ℚ := ⟨fun x => (⌊x⌋ : ℚ)⟩
local instance : HasPowf ℚ := ⟨fun x y => x ^ y.num⟩

def exQ : Csr ℚ := ⟨2, 3, [0, 2, 3], [0, 2, 1], [7, 6, 5]⟩
def exR : Csr ℚ := ⟨2, 3, [0, 2, 3], [0, 1, 1], [2, 4, -2]⟩
theorem exQ_wf : exQ.WF :=
  ((csr_fromParts_iff 2 3 [0, 2, 3] [0, 2, 1] [(7 : ℚ), 6, 5] (by decide) exQ).1 rfl).2.2
theorem exR_wf : exR.WF :=
  ((csr_fromParts_iff 2 3 [0, 2, 3] [0, 1, 1] [(2 : ℚ), 4, -2] (by decide) exR).1 rfl).2.2

example : exQ.WF ∧ exR.WF ∧ (∀ v : ℚ, isFinite v = true) ∧
    divCsr exQ exR = some ⟨2, 3, [0, 1, 2], [0, 1], [7 / 2, -5 / 2]⟩ :=
  ⟨exQ_wf, exR_wf, fun _ => rfl, by decide +kernel⟩
example : (∀ v : ℚ, HasFloor.floor v = (⌊v⌋ : ℚ)) ∧
    floordivCsr exQ exR = some ⟨2, 3, [0, 1, 2], [0, 1], [3, -3]⟩ ∧
    remCsr exQ exR = some ⟨2, 3, [0, 1, 2], [0, 1], [1, -1]⟩ :=
  ⟨fun _ => rfl, by decide +kernel, by decide +kernel⟩
example : powCsr exQ exR = some ⟨2, 3, [0, 1, 2], [0, 1], [49, 1 / 25]⟩ := by decide +kernel
end Witness

end Lacuna
