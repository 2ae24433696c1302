import Verif.Lemmas.PyIndex
import Verif.Props.Convert
import Verif.Props.Nd
/-
C43: element access, row and column slices and conversion to dense arrays from Python.
C49: comparison functions.
-/
namespace Lacuna
universe u
variable {V : Type u}

/-! ### Scalars -/

/-- `a[i, j]` returns the stored value (or zero) for every position inside the matrix and raises
`IndexError` for every other pair of integers, negative ones included. -/
theorem getitem_csr_correct [Zero V] {search : List Int → Int → Nat} (hs : IsSearchSorted search) {a : Csr V}
    (h : a.WF) (i j : Int) :
    getItemCsr search a i j =
      if 0 ≤ i ∧ i < a.nrows ∧ 0 ≤ j ∧ j < a.ncols then .ok ((a.stored i.toNat j.toNat).getD 0)
      else .error .indexError := by
  unfold getItemCsr
  by_cases hc : 0 ≤ i ∧ i < a.nrows ∧ 0 ≤ j ∧ j < a.ncols
  · rw [if_neg (by simpa using hc), if_pos hc]
    have hu := Comp.WF.wfu h
    obtain ⟨p, rfl⟩ := Int.eq_ofNat_of_zero_le hc.1
    obtain ⟨q, rfl⟩ := Int.eq_ofNat_of_zero_le hc.2.2.1
    have hp : p < a.nrows := by omega
    have e1 : pyGet a.indptr (p : Int) = .ok (a.comp.ptr p : Int) := pyGet_ptr hu (Nat.le_of_lt hp)
    have e2 : pyGet a.indptr ((p : Int) + 1) = .ok (a.comp.ptr (p + 1) : Int) := pyGet_ptr_succ hu hp
    rw [e1, e2]
    simp only [Except.bind]
    rw [lookup_eq hs h hp]
    rfl
  · rw [if_pos hc, if_neg hc]

/-- In exact terms: inside the matrix `a[i, j]` is the element. -/
theorem getitem_csr_val [AddZeroClass V] {search : List Int → Int → Nat} (hs : IsSearchSorted search) {a : Csr V}
    (h : a.WF) {i j : Nat} (hi : i < a.nrows) (hj : j < a.ncols) :
    getItemCsr search a i j = .ok (a.val i j) := by
  rw [getitem_csr_correct hs h, if_pos (by omega), Int.toNat_natCast, Int.toNat_natCast]
  congr 1
  exact (Comp.WF.val_eq_stored h i j).symm

/-! ### Rows -/

/-- A row whose pointers have been read. -/
theorem row_assign [Zero V] {a : Csr V} (h : a.WFU) {i : Nat} (hi : i < a.nrows) :
    ∃ out, assignAt (List.replicate a.ncols 0)
        ((pySlice a.indices (a.comp.ptr i : Int) (a.comp.ptr (i + 1) : Int)).map (pyPos a.ncols))
        (pySlice a.data (a.comp.ptr i : Int) (a.comp.ptr (i + 1) : Int)) = .ok out ∧
      out.length = a.ncols ∧ ∀ j, j < a.ncols → out.getD j 0 = (a.comp.lastStored i j).getD 0 := by
  have e1 : pySlice a.indices (a.comp.ptr i : Int) (a.comp.ptr (i + 1) : Int) = (a.comp.row i).map Prod.fst :=
    slice_indices h hi
  have e2 : pySlice a.data (a.comp.ptr i : Int) (a.comp.ptr (i + 1) : Int) = (a.comp.row i).map Prod.snd :=
    slice_data h hi
  have hb : ∀ e ∈ a.comp.row i, 0 ≤ e.1 ∧ e.1 < (a.ncols : Int) := Comp.WFU.row_bounds h i
  rw [e1, e2, assignAt_row (g := Int.toNat) (fun e he => pyPos_int (hb e he))]
  refine ⟨_, rfl, by rw [applyWrites_length, List.length_replicate], ?_⟩
  intro j hj
  rw [applyWrites_getD _ _ _ (by rw [List.length_replicate]; exact hj), replicate_getD_zero, List.filter_map,
    List.getLast?_map, Option.map_map]
  unfold Comp.lastStored
  rw [List.filter_congr (q := fun e => e.1 == (j : Int))]
  · rfl
  intro e he
  have := hb e he
  rw [Function.comp, Bool.eq_iff_iff, beq_iff_eq, beq_iff_eq]
  dsimp only
  omega

/-- `a[i, :]` with `0 ≤ i < nrows`, for rows in any order and with any repetitions: each column
holds the value stored last. -/
theorem getrow_csr_last [Zero V] {a : Csr V} (h : a.WFU) {i : Nat} (hi : i < a.nrows) :
    ∃ out, getRowCsr a i = .ok out ∧ out.length = a.ncols ∧
      ∀ j, j < a.ncols → out.getD j 0 = (a.comp.lastStored i j).getD 0 := by
  have e1 : pyGet a.indptr (i : Int) = .ok (a.comp.ptr i : Int) := pyGet_ptr h (Nat.le_of_lt hi)
  have e2 : pyGet a.indptr ((i : Int) + 1) = .ok (a.comp.ptr (i + 1) : Int) := pyGet_ptr_succ h hi
  unfold getRowCsr
  rw [e1, e2]
  exact row_assign h hi

theorem lastStored_noRep {a : Comp V} (h : a.NoRep) (i j : Nat) : a.lastStored i j = a.stored i j :=
  lastIn_eq_lk (h i) j

theorem noRep_val_stored [AddZeroClass V] {a : Comp V} (h : a.NoRep) (i j : Nat) : a.val i j = (a.stored i j).getD 0 := by
  rw [← lastStored_noRep h]
  unfold Comp.val Comp.lastStored
  have hl : ((a.row i).filter fun e => e.1 == (j : Int)).length ≤ 1 := by
    rw [← List.countP_eq_length_filter]
    have := List.nodup_iff_count_le_one.1 (h i) (j : Int)
    unfold List.count at this
    rw [List.countP_map] at this
    exact this
  generalize (a.row i).filter (fun e => e.1 == (j : Int)) = t at hl
  match t, hl with
  | [], _ => rfl
  | [x], _ => simp
  | x :: y :: t, hl => simp at hl

/-- `a[i, :]` with `0 ≤ i < nrows` is the dense row, also when the indices of the row are not in
order, provided no index is repeated. -/
theorem getrow_csr_correct [AddZeroClass V] {a : Csr V} (h : a.WFU) (hn : a.comp.NoRep) {i : Nat} (hi : i < a.nrows) :
    ∃ out, getRowCsr a i = .ok out ∧ out.length = a.ncols ∧ ∀ j, j < a.ncols → out.getD j 0 = a.val i j := by
  obtain ⟨out, h1, h2, h3⟩ := getrow_csr_last h hi
  refine ⟨out, h1, h2, fun j hj => ?_⟩
  rw [h3 j hj, lastStored_noRep hn]
  exact (noRep_val_stored hn i j).symm

/-- `a[i, :]` raises `IndexError` for `i ≥ nrows` and for `i < -(nrows + 1)`. -/
theorem getrow_csr_rejects [Zero V] {a : Csr V} (h : a.WFU) {i : Int}
    (hi : (a.nrows : Int) ≤ i ∨ i < -((a.nrows : Int) + 1)) : getRowCsr a i = .error .indexError := by
  have hl : a.indptr.length = a.nrows + 1 := h.ptr_length
  unfold getRowCsr
  by_cases hc : i = a.nrows
  · have e1 : pyGet a.indptr (a.nrows : Int) = .ok (a.comp.ptr a.nrows : Int) := pyGet_ptr h (Nat.le_refl _)
    rw [hc, e1]
    simp only [Except.bind]
    rw [pyGet_out (by rw [hl]; omega)]
  · rw [pyGet_out (by rw [hl]; omega)]
    rfl

/-- Negative row numbers do not count from the end as the rest of numpy has it: the row pointer
has one element more than there are rows, so `a[-1, :]` reads past the last row … -/
theorem getrow_csr_minus_one [Zero V] {a : Csr V} (h : a.WFU) :
    getRowCsr a (-1) = .ok (List.replicate a.ncols 0) := by
  have hl : a.indptr.length = a.nrows + 1 := h.ptr_length
  have e1 : pyGet a.indptr (-1) = .ok (a.comp.ptr a.nrows : Int) :=
    pyGet_of_pos (p := a.nrows) (by rw [hl]; exact pyPos_neg (k := 1) (by omega) (by omega)) (ptr_getElem? h (Nat.le_refl _))
  have e2 : pyGet a.indptr (0 : Int) = .ok (a.comp.ptr 0 : Int) := pyGet_ptr h (Nat.zero_le _)
  have hz : a.comp.ptr 0 = 0 := by
    have := h.ptr_cast (Nat.zero_le _); rw [h.ptr_first] at this; omega
  unfold getRowCsr
  rw [e1, show ((-1 : Int) + 1) = 0 from rfl, e2]
  simp only [Except.bind]
  rw [hz, pySlice_empty _ (Nat.zero_le _), pySlice_empty _ (Nat.zero_le _)]
  rfl

/-- … and `a[-k, :]` for `2 ≤ k ≤ nrows + 1` returns row `nrows + 1 - k` instead of `nrows - k`. -/
theorem getrow_csr_negative [Zero V] {a : Csr V} (h : a.WFU) {k : Nat} (h2 : 2 ≤ k) (hk : k ≤ a.nrows + 1) :
    getRowCsr a (-(k : Int)) = getRowCsr a ((a.nrows + 1 - k : Nat) : Int) := by
  have hl : a.indptr.length = a.nrows + 1 := h.ptr_length
  have hp : a.nrows + 1 - k ≤ a.comp.n := by show _ ≤ a.nrows; omega
  have hp1 : a.nrows + 1 - k < a.comp.n := by show _ < a.nrows; omega
  have e1 : pyGet a.indptr (-(k : Int)) = .ok (a.comp.ptr (a.nrows + 1 - k) : Int) :=
    pyGet_of_pos (p := a.nrows + 1 - k) (by rw [hl]; exact pyPos_neg (by omega) hk) (ptr_getElem? h hp)
  have e2 : pyGet a.indptr (-(k : Int) + 1) = .ok (a.comp.ptr (a.nrows + 1 - k + 1) : Int) := by
    refine pyGet_of_pos (p := a.nrows + 1 - k + 1) ?_ (ptr_getElem? h hp1)
    rw [hl, show -(k : Int) + 1 = -((k - 1 : Nat) : Int) by omega, pyPos_neg (by omega) (by omega)]
    congr 1; omega
  have e3 : pyGet a.indptr ((a.nrows + 1 - k : Nat) : Int) = .ok (a.comp.ptr (a.nrows + 1 - k) : Int) := pyGet_ptr h hp
  have e4 : pyGet a.indptr (((a.nrows + 1 - k : Nat) : Int) + 1) = .ok (a.comp.ptr (a.nrows + 1 - k + 1) : Int) :=
    pyGet_ptr_succ h hp1
  unfold getRowCsr
  rw [e1, e2, e3, e4]

/-! ### Columns -/

theorem mapM_ok {α : Type*} {β : Type u} {f : α → Except PyErr β} {g : α → β} {l : List α}
    (h : ∀ x ∈ l, f x = .ok (g x)) : l.mapM f = .ok (l.map g) := by
  induction l with
  | nil => rfl
  | cons x l ih =>
    rw [List.mapM_cons, h x List.mem_cons_self, ih (fun y hy => h y (List.mem_cons_of_mem _ hy))]
    rfl

/-- `a[:, j]` for every integer `j`: element `r` is what row `r` stores under `j`, or zero.  It
never raises. -/
theorem getcol_csr_eq [Zero V] {search : List Int → Int → Nat} (hs : IsSearchSorted search) {a : Csr V}
    (h : a.WF) (j : Int) :
    getColCsr search a j = .ok ((List.range a.nrows).map fun r => (lk j (a.comp.row r)).getD 0) := by
  unfold getColCsr
  apply mapM_ok
  intro r hr
  have hr : r < a.nrows := by simpa using hr
  have hu := Comp.WF.wfu h
  have e1 : pyGet a.indptr (r : Int) = .ok (a.comp.ptr r : Int) := pyGet_ptr hu (Nat.le_of_lt hr)
  have e2 : pyGet a.indptr ((r : Int) + 1) = .ok (a.comp.ptr (r + 1) : Int) := pyGet_ptr_succ hu hr
  rw [e1, e2]
  simp only [Except.bind]
  rw [lookup_eq hs h hr]
  rfl

/-- `a[:, j]` with `0 ≤ j < ncols` is the dense column. -/
theorem getcol_csr_correct [AddZeroClass V] {search : List Int → Int → Nat} (hs : IsSearchSorted search) {a : Csr V}
    (h : a.WF) {j : Nat} (_hj : j < a.ncols) :
    ∃ out, getColCsr search a j = .ok out ∧ out.length = a.nrows ∧ ∀ i, i < a.nrows → out.getD i 0 = a.val i j := by
  refine ⟨_, getcol_csr_eq hs h j, by simp, ?_⟩
  intro i hi
  have : a.val i j = (lk (j : Int) (a.comp.row i)).getD 0 := Comp.WF.val_eq_stored h i j
  rw [this]
  simp [hi]

/-- Column numbers outside `[0, ncols)` — negative ones included — are not rejected: the result
is a column of zeros. -/
theorem getcol_csr_out_of_range [Zero V] {search : List Int → Int → Nat} (hs : IsSearchSorted search) {a : Csr V}
    (h : a.WF) {j : Int} (hj : j < 0 ∨ (a.ncols : Int) ≤ j) :
    getColCsr search a j = .ok (List.replicate a.nrows 0) := by
  rw [getcol_csr_eq hs h]
  congr 1
  rw [List.eq_replicate_iff]
  refine ⟨by simp, ?_⟩
  intro x hx
  obtain ⟨r, -, rfl⟩ := List.mem_map.1 hx
  rw [lk_none]
  · rfl
  intro e he hej
  have hb : 0 ≤ e.1 ∧ e.1 < (a.ncols : Int) := bounds_row h r e he
  omega

/-! ### Dense arrays -/

/-- In-order assignment of all lines: each cell holds what its line stored last there.
`pos i j` is the cell of line `i`, index `j`. -/
theorem dense_last [Zero V] {a : Comp V} (h : a.WFU) {size : Nat} {pos : Nat → Nat → Nat}
    (hinj : ∀ i j i' j', i < a.n → j < a.m → i' < a.n → j' < a.m → pos i j = pos i' j' → i = i' ∧ j = j')
    (hlt : ∀ i j, i < a.n → j < a.m → pos i j < size) {i j : Nat} (hi : i < a.n) (hj : j < a.m) :
    (applyWrites (List.replicate size 0)
      ((List.range a.n).flatMap fun i => (a.row i).map fun e => (pos i e.1.toNat, e.2))).getD (pos i j) 0 =
      (a.lastStored i j).getD 0 := by
  rw [applyWrites_getD _ _ _ (by rw [List.length_replicate]; exact hlt i j hi hj), replicate_getD_zero,
    List.filter_flatMap, flatMap_range_single hi]
  · rw [List.filter_map, List.getLast?_map, Option.map_map]
    unfold Comp.lastStored
    rw [List.filter_congr (q := fun e => e.1 == (j : Int))]
    · rfl
    intro e he
    have hb := h.row_bounds i e he
    rw [Function.comp, Bool.eq_iff_iff, beq_iff_eq, beq_iff_eq]
    dsimp only
    constructor
    · intro hp; have := (hinj _ _ _ _ hi (by omega) hi hj hp).2; omega
    · intro hp; rw [hp]; rfl
  · intro k hk hki
    rw [List.filter_eq_nil_iff]
    intro w hw
    obtain ⟨e, he, rfl⟩ := List.mem_map.1 hw
    have hb := h.row_bounds k e he
    intro hp
    rw [beq_iff_eq] at hp
    exact hki (hinj _ _ _ _ hk (by omega) hi hj hp).1

/-- One line of `toarray`. -/
theorem line_assign {a : Comp V} (h : a.WFU) {i : Nat} (hi : i < a.n) {f : Int → Option Nat} {g : Nat → Nat}
    (hf : ∀ j : Int, 0 ≤ j ∧ j < (a.m : Int) → f j = some (g j.toNat)) (out : List V) :
    (if (a.ptr i : Int) < (a.ptr (i + 1) : Int) then
      assignAt out ((pySlice a.indices (a.ptr i : Int) (a.ptr (i + 1) : Int)).map f)
        (pySlice a.data (a.ptr i : Int) (a.ptr (i + 1) : Int))
     else .ok out) = .ok (applyWrites out ((a.row i).map fun e => (g e.1.toNat, e.2))) := by
  by_cases hc : (a.ptr i : Int) < (a.ptr (i + 1) : Int)
  · rw [if_pos hc, slice_indices h hi, slice_data h hi,
      assignAt_row (g := fun j => g j.toNat) (fun e he => hf _ (h.row_bounds i e he))]
  · rw [if_neg hc]
    have hl := row_length_ptr h hi
    have : a.row i = [] := List.eq_nil_of_length_eq_zero (by omega)
    rw [this]; rfl

/-- `CSR.toarray` of any matrix with in-range indices, in any order and with any repetitions:
each cell holds the value stored last. -/
theorem toarray_csr_last [Zero V] {a : Csr V} (h : a.WFU) :
    ∃ out, toarrayCsr a = .ok out ∧ IsDense a.nrows a.ncols (fun i j => (a.comp.lastStored i j).getD 0) out := by
  refine ⟨_, foldlM_writes (w := fun i => (a.comp.row i).map fun e => (i * a.ncols + e.1.toNat, e.2)) _ ?_ _, ?_, ?_⟩
  · intro i hi out
    have hi : i < a.nrows := by simpa using hi
    have e1 : pyGet a.indptr (i : Int) = .ok (a.comp.ptr i : Int) := pyGet_ptr h (Nat.le_of_lt hi)
    have e2 : pyGet a.indptr ((i : Int) + 1) = .ok (a.comp.ptr (i + 1) : Int) := pyGet_ptr_succ h hi
    rw [e1, e2]
    simp only [Except.bind]
    refine line_assign (a := a.comp) h hi (g := fun j => i * a.ncols + j) ?_ out
    intro j hj
    rw [cellPos_int (m := a.ncols) (by omega) hj, Int.toNat_natCast]
  · rw [applyWrites_length, List.length_replicate]
  · intro i j hi hj
    exact dense_last (a := a.comp) h (pos := fun i j => i * a.ncols + j)
      (fun i j i' j' _ hj _ hj' he => cell_inj hj hj' he) (fun i j hi hj => cell_lt hi hj) hi hj

/-- `CSR.toarray` is the dense matrix, provided no row repeats an index. -/
theorem toarray_csr_correct [AddZeroClass V] {a : Csr V} (h : a.WFU) (hn : a.comp.NoRep) :
    ∃ out, toarrayCsr a = .ok out ∧ IsDense a.nrows a.ncols a.val out := by
  obtain ⟨out, h1, h2, h3⟩ := toarray_csr_last h
  refine ⟨out, h1, h2, fun i j hi hj => ?_⟩
  rw [h3 i j hi hj]
  dsimp only
  rw [lastStored_noRep hn]
  exact (noRep_val_stored hn i j).symm

/-- `CSC.toarray` of any matrix with in-range indices: each cell holds the value stored last. -/
theorem toarray_csc_last [Zero V] {a : Csc V} (h : a.WFU) :
    ∃ out, toarrayCsc a = .ok out ∧ IsDense a.nrows a.ncols (fun i j => (a.comp.lastStored j i).getD 0) out := by
  refine ⟨_, foldlM_writes (w := fun j => (a.comp.row j).map fun e => (e.1.toNat * a.ncols + j, e.2)) _ ?_ _, ?_, ?_⟩
  · intro j hj out
    have hj : j < a.ncols := by simpa using hj
    have e1 : pyGet a.indptr (j : Int) = .ok (a.comp.ptr j : Int) := pyGet_ptr h (Nat.le_of_lt hj)
    have e2 : pyGet a.indptr ((j : Int) + 1) = .ok (a.comp.ptr (j + 1) : Int) := pyGet_ptr_succ h hj
    rw [e1, e2]
    simp only [Except.bind]
    refine line_assign (a := a.comp) h hj (g := fun i => i * a.ncols + j) ?_ out
    intro i hi
    rw [cellPos_int (n := a.nrows) hi (by omega), Int.toNat_natCast]
  · rw [applyWrites_length, List.length_replicate]
  · intro i j hi hj
    exact dense_last (a := a.comp) h (pos := fun j i => i * a.ncols + j)
      (fun j i j' i' hj _ hj' _ he => (cell_inj hj hj' he).symm) (fun j i hj hi => cell_lt hi hj) hj hi

/-- `CSC.toarray` is the dense matrix, provided no column repeats an index. -/
theorem toarray_csc_correct [AddZeroClass V] {a : Csc V} (h : a.WFU) (hn : a.comp.NoRep) :
    ∃ out, toarrayCsc a = .ok out ∧ IsDense a.nrows a.ncols a.val out := by
  obtain ⟨out, h1, h2, h3⟩ := toarray_csc_last h
  refine ⟨out, h1, h2, fun i j hi hj => ?_⟩
  rw [h3 i j hi hj]
  dsimp only
  rw [lastStored_noRep hn]
  exact (noRep_val_stored hn j i).symm

theorem foldlM_adds [Zero V] [Add V] {α : Type*} {f : List V → α → Except PyErr (List V)} {w : α → Nat × V} (l : List α)
    (h : ∀ x ∈ l, ∀ out, f out x = .ok (addAt out (w x).1 (w x).2)) (out : List V) :
    l.foldlM f out = .ok (addAll out (l.map w)) := by
  induction l generalizing out with
  | nil => rfl
  | cons x l ih =>
    rw [List.foldlM_cons, h x List.mem_cons_self]
    exact ih (fun y hy => h y (List.mem_cons_of_mem _ hy)) _

/-- `COO.toarray` adds the stored entries in order. -/
theorem toarrayCoo_eq [Zero V] [Add V] {a : Coo V} (h : a.WF) :
    toarrayCoo a = .ok (addAll (List.replicate (a.nrows * a.ncols) 0)
      (a.triples.map fun t => (t.1.1.toNat * a.ncols + t.1.2.toNat, t.2))) := by
  have hr := h.row_length
  have hc := h.col_length
  have hops : (List.range a.data.length).map (fun k =>
      ((a.row.getD k 0).toNat * a.ncols + (a.col.getD k 0).toNat, a.data.getD k 0)) =
      a.triples.map fun t => (t.1.1.toNat * a.ncols + t.1.2.toNat, t.2) := by
    apply List.ext_getElem
    · simp [Coo.triples, hr, hc]
    · intro k h1 h2
      have hk : k < a.data.length := by simpa using h1
      have hk1 : k < a.row.length := by omega
      have hk2 : k < a.col.length := by omega
      simp [Coo.triples, hk, hk1, hk2]
  rw [← hops]
  refine foldlM_adds (w := fun k =>
      ((a.row.getD k 0).toNat * a.ncols + (a.col.getD k 0).toNat, a.data.getD k 0)) _ ?_ _
  · intro k hk out
    have hk : k < a.data.length := by simpa using hk
    have hk1 : k < a.row.length := by omega
    have hk2 : k < a.col.length := by omega
    rw [pyGet_nat (List.getElem?_eq_getElem hk1), pyGet_nat (List.getElem?_eq_getElem hk2),
      pyGet_nat (List.getElem?_eq_getElem hk)]
    simp only [Except.bind]
    rw [cellPos_int (h.row_bounds _ (List.getElem_mem hk1)) (h.col_bounds _ (List.getElem_mem hk2))]
    simp [hk, hk1, hk2, addAt]

/-- `COO.toarray` is the dense matrix; repeated coordinates add up. -/
theorem toarray_coo_correct [AddMonoid V] {a : Coo V} (h : a.WF) :
    ∃ out, toarrayCoo a = .ok out ∧ IsDense a.nrows a.ncols a.val out := by
  refine ⟨_, toarrayCoo_eq h, ?_, ?_⟩
  · rw [addAll_length, List.length_replicate]
  · intro i j hi hj
    rw [addAll_getD _ _ _ (by rw [List.length_replicate]; exact cell_lt hi hj), replicate_getD_zero, zero_add]
    unfold ksum Coo.val
    rw [List.filter_map, List.map_map, List.filter_congr (q := fun t => t.1.1 == (i : Int) && t.1.2 == (j : Int))]
    · rfl
    intro t ht
    have h1 := List.of_mem_zip (show (t.1, t.2) ∈ (a.row.zip a.col).zip a.data from ht)
    have h2 := List.of_mem_zip (show (t.1.1, t.1.2) ∈ a.row.zip a.col from h1.1)
    have b1 := h.row_bounds _ h2.1
    have b2 := h.col_bounds _ h2.2
    rw [Function.comp, Bool.eq_iff_iff, beq_iff_eq, Bool.and_eq_true_iff, beq_iff_eq, beq_iff_eq]
    dsimp only
    constructor
    · intro hp; have := cell_inj (by omega) hj hp; omega
    · rintro ⟨h3, h4⟩; rw [h3, h4]; rfl

/-- The densification of N-D arrays adds the stored entries in order. -/
theorem denseNd_eq [Zero V] [Add V] {a : CooNd V} (h : a.WF) :
    denseNd a = .ok (addAll (List.replicate a.shape.prod 0) (a.entries.map fun e => (rowMajor a.shape e.1, e.2))) := by
  have hops : ((List.range a.data.length).map fun k => rowMajor a.shape (a.coords k)).zip a.data =
      a.entries.map fun e => (rowMajor a.shape e.1, e.2) := by
    apply List.ext_getElem
    · simp [CooNd.entries]
    · intro k h1 h2
      simp [CooNd.entries]
  have hrow : ∀ k, k < a.data.length → ndRow a.shape.length a.indices k = a.coords k := by
    intro k hk
    have hle : k * a.shape.length + a.shape.length ≤ a.indices.length := by
      rw [h.length]
      have := Nat.mul_le_mul_right a.shape.length (show k + 1 ≤ a.data.length from hk)
      rw [Nat.add_mul, Nat.one_mul] at this
      exact this
    unfold ndRow CooNd.coords
    apply List.ext_getElem
    · rw [List.length_take, List.length_drop, List.length_map, List.length_range]; omega
    · intro d h1 h2
      have hd : d < a.shape.length := by simpa using h2
      have := h.getElem? hk hd
      rw [List.getElem_take, List.getElem_drop, List.getElem_map, List.getElem_range]
      rw [List.getElem?_eq_getElem (by omega)] at this
      exact Option.some.inj this
  have hin : ∀ k, k < a.data.length → InBounds a.shape (a.coords k) := by
    intro k hk
    have : (a.coords k, a.data[k]) ∈ a.entries := by
      unfold CooNd.entries
      rw [List.mem_iff_getElem]
      exact ⟨k, by simpa using hk, by simp⟩
    exact h.entries_inBounds _ this
  have hps : (List.range a.data.length).mapM (fun k => cellPosNd a.shape (ndRow a.shape.length a.indices k)) =
      some ((List.range a.data.length).map fun k => rowMajor a.shape (a.coords k)) := by
    apply mapM_some
    intro k hk
    have hk : k < a.data.length := by simpa using hk
    rw [hrow k hk, cellPosNd_int (hin k hk)]
  unfold denseNd
  by_cases h0 : a.data.length = 0
  · have : a.entries = [] := List.eq_nil_of_length_eq_zero (by rw [CooNd.entries_length]; exact h0)
    rw [this]
    exact if_pos h0
  · simp only [if_neg h0]
    rw [if_neg (by rw [h.length]; simp), hps, ← hops]
    rfl

/-- The densification of N-D arrays used by the comparison functions: repeated coordinates add
up. -/
theorem dense_nd_correct [AddMonoid V] {a : CooNd V} (h : a.WF) :
    ∃ out, denseNd a = .ok out ∧ IsDenseNd a.shape a.val out := by
  refine ⟨_, denseNd_eq h, ?_⟩
  refine ⟨by rw [addAll_length, List.length_replicate], ?_⟩
  intro x hx
  rw [addAll_getD _ _ _ (by rw [List.length_replicate]; exact rowMajor_lt hx), replicate_getD_zero, zero_add]
  unfold ksum CooNd.val
  rw [List.filter_map, List.map_map, List.filter_congr (q := fun e => e.1 == x)]
  · rfl
  intro e he
  rw [Function.comp, Bool.eq_iff_iff, beq_iff_eq, beq_iff_eq]
  exact ⟨fun hp => rowMajor_inj (h.entries_inBounds e he) hx hp, fun hp => by rw [hp]⟩

/-! ### C49: comparisons -/

/-- Comparing two operands of shape `(n, m)` gives, cell by cell, the comparison of the values. -/
theorem compare_dense {cmp : V → V → Bool} [Zero V] {n m : Nat} {f g : Nat → Nat → V} {x y : Except PyErr (List V)}
    (hx : ∃ out, x = .ok out ∧ IsDense n m f out) (hy : ∃ out, y = .ok out ∧ IsDense n m g out) :
    ∃ out, compareDense cmp x y = .ok out ∧ out.length = n * m ∧
      ∀ i j, i < n → j < m → out[i * m + j]? = some (cmp (f i j) (g i j)) := by
  obtain ⟨xd, rfl, hx1, hx2⟩ := hx
  obtain ⟨yd, rfl, hy1, hy2⟩ := hy
  refine ⟨_, rfl, by rw [List.length_zipWith]; omega, ?_⟩
  intro i j hi hj
  have hl := cell_lt hi hj
  have e1 := hx2 i j hi hj
  have e2 := hy2 i j hi hj
  rw [List.getD_eq_getElem?_getD, List.getElem?_eq_getElem (by omega)] at e1 e2
  rw [List.getElem?_zipWith, List.getElem?_eq_getElem (by omega), List.getElem?_eq_getElem (by omega)]
  rw [← e1, ← e2]
  rfl

/-- Comparing two N-D operands of the same shape gives, cell by cell, the comparison of the
values. -/
theorem compare_nd {cmp : V → V → Bool} [Zero V] {shape : List Nat} {f g : List Int → V} {x y : Except PyErr (List V)}
    (hx : ∃ out, x = .ok out ∧ IsDenseNd shape f out) (hy : ∃ out, y = .ok out ∧ IsDenseNd shape g out) :
    ∃ out, compareDense cmp x y = .ok out ∧ out.length = shape.prod ∧
      ∀ z, InBounds shape z → out[rowMajor shape z]? = some (cmp (f z) (g z)) := by
  obtain ⟨xd, rfl, hx1, hx2⟩ := hx
  obtain ⟨yd, rfl, hy1, hy2⟩ := hy
  refine ⟨_, rfl, by rw [List.length_zipWith]; omega, ?_⟩
  intro z hz
  have hl := rowMajor_lt hz
  have e1 := hx2 z hz
  have e2 := hy2 z hz
  rw [List.getD_eq_getElem?_getD, List.getElem?_eq_getElem (by omega)] at e1 e2
  rw [List.getElem?_zipWith, List.getElem?_eq_getElem (by omega), List.getElem?_eq_getElem (by omega)]
  rw [← e1, ← e2]
  rfl

/-- `equal` … `greater_equal` of two CSR matrices, for any comparison of values. -/
theorem compare_csr_correct [AddZeroClass V] (cmp : V → V → Bool) {a b : Csr V} (ha : a.WF) (hb : b.WF)
    (hr : a.nrows = b.nrows) (hc : a.ncols = b.ncols) :
    ∃ out, compareDense cmp (toarrayCsr a) (toarrayCsr b) = .ok out ∧ out.length = a.nrows * a.ncols ∧
      ∀ i j, i < a.nrows → j < a.ncols → out[i * a.ncols + j]? = some (cmp (a.val i j) (b.val i j)) :=
  compare_dense (toarray_csr_correct (Comp.WF.wfu ha) (Comp.WF.noRep ha))
    (by rw [hr, hc]; exact toarray_csr_correct (Comp.WF.wfu hb) (Comp.WF.noRep hb))

/-- Two CSC matrices. -/
theorem compare_csc_correct [AddZeroClass V] (cmp : V → V → Bool) {a b : Csc V} (ha : a.WF) (hb : b.WF)
    (hr : a.nrows = b.nrows) (hc : a.ncols = b.ncols) :
    ∃ out, compareDense cmp (toarrayCsc a) (toarrayCsc b) = .ok out ∧ out.length = a.nrows * a.ncols ∧
      ∀ i j, i < a.nrows → j < a.ncols → out[i * a.ncols + j]? = some (cmp (a.val i j) (b.val i j)) :=
  compare_dense (toarray_csc_correct (Comp.WF.wfu ha) (Comp.WF.noRep ha))
    (by rw [hr, hc]; exact toarray_csc_correct (Comp.WF.wfu hb) (Comp.WF.noRep hb))

/-- Two COO matrices, repeated coordinates included. -/
theorem compare_coo_correct [AddMonoid V] (cmp : V → V → Bool) {a b : Coo V} (ha : a.WF) (hb : b.WF)
    (hr : a.nrows = b.nrows) (hc : a.ncols = b.ncols) :
    ∃ out, compareDense cmp (toarrayCoo a) (toarrayCoo b) = .ok out ∧ out.length = a.nrows * a.ncols ∧
      ∀ i j, i < a.nrows → j < a.ncols → out[i * a.ncols + j]? = some (cmp (a.val i j) (b.val i j)) :=
  compare_dense (toarray_coo_correct ha) (by rw [hr, hc]; exact toarray_coo_correct hb)

/-- Formats mix: a CSR with a COO matrix. -/
theorem compare_csr_coo_correct [AddMonoid V] (cmp : V → V → Bool) {a : Csr V} {b : Coo V} (ha : a.WF) (hb : b.WF)
    (hr : a.nrows = b.nrows) (hc : a.ncols = b.ncols) :
    ∃ out, compareDense cmp (toarrayCsr a) (toarrayCoo b) = .ok out ∧ out.length = a.nrows * a.ncols ∧
      ∀ i j, i < a.nrows → j < a.ncols → out[i * a.ncols + j]? = some (cmp (a.val i j) (b.val i j)) :=
  compare_dense (toarray_csr_correct (Comp.WF.wfu ha) (Comp.WF.noRep ha))
    (by rw [hr, hc]; exact toarray_coo_correct hb)

/-- Two N-D arrays, repeated coordinates included. -/
theorem compare_coond_correct [AddMonoid V] (cmp : V → V → Bool) {a b : CooNd V} (ha : a.WF) (hb : b.WF)
    (hs : a.shape = b.shape) :
    ∃ out, compareDense cmp (denseNd a) (denseNd b) = .ok out ∧ out.length = a.shape.prod ∧
      ∀ z, InBounds a.shape z → out[rowMajor a.shape z]? = some (cmp (a.val z) (b.val z)) :=
  compare_nd (dense_nd_correct ha) (by rw [hs]; exact dense_nd_correct hb)

/-! ### Witnesses and disagreements -/

/-- Binary search as numpy does it. -/
def bisectGo (xs : List Int) (j : Int) : Nat → Nat → Nat → Nat
  | 0, lo, _ => lo
  | fuel + 1, lo, hi =>
    if lo < hi then
      if xs.getD ((lo + hi) / 2) 0 < j then bisectGo xs j fuel ((lo + hi) / 2 + 1) hi
      else bisectGo xs j fuel lo ((lo + hi) / 2)
    else lo

def bisectLeft (xs : List Int) (j : Int) : Nat := bisectGo xs j xs.length 0 xs.length

theorem isSearchSorted_bisectLeft : IsSearchSorted bisectLeft := by
  intro xs j hs
  have mono : ∀ p q, p ≤ q → q < xs.length → xs.getD p 0 ≤ xs.getD q 0 := by
    intro p q hpq hq
    rw [List.getD_eq_getElem?_getD, List.getD_eq_getElem?_getD, List.getElem?_eq_getElem (by omega),
      List.getElem?_eq_getElem hq]
    rcases Nat.eq_or_lt_of_le hpq with rfl | h
    · exact Int.le_refl _
    · exact List.pairwise_iff_getElem.1 hs p q (by omega) hq h
  have key : ∀ fuel lo hi, hi - lo ≤ fuel → lo ≤ hi → hi ≤ xs.length → (∀ p, p < lo → xs.getD p 0 < j) →
      (∀ p, hi ≤ p → p < xs.length → j ≤ xs.getD p 0) →
      bisectGo xs j fuel lo hi ≤ xs.length ∧ (∀ p, p < bisectGo xs j fuel lo hi → xs.getD p 0 < j) ∧
        ∀ p, bisectGo xs j fuel lo hi ≤ p → p < xs.length → j ≤ xs.getD p 0 := by
    intro fuel
    induction fuel with
    | zero =>
      intro lo hi h1 h2 h3 h4 h5
      unfold bisectGo
      exact ⟨by omega, h4, fun p hp => h5 p (by omega)⟩
    | succ fuel ih =>
      intro lo hi h1 h2 h3 h4 h5
      unfold bisectGo
      by_cases hlt : lo < hi
      · rw [if_pos hlt]
        by_cases hc : xs.getD ((lo + hi) / 2) 0 < j
        · rw [if_pos hc]
          refine ih _ _ (by omega) (by omega) h3 ?_ h5
          intro p hp
          have := mono p ((lo + hi) / 2) (by omega) (by omega)
          omega
        · rw [if_neg hc]
          refine ih _ _ (by omega) (by omega) (by omega) h4 ?_
          intro p hp hpl
          have := mono ((lo + hi) / 2) p hp hpl
          omega
      · rw [if_neg hlt]
        exact ⟨by omega, h4, fun p hp => h5 p (by omega)⟩
  exact key xs.length 0 xs.length (by omega) (Nat.zero_le _) (Nat.le_refl _) (by intro p hp; omega) (by intro p hp; omega)

example : IsSearchSorted bisectLeft ∧ exA.WF ∧ getItemCsr bisectLeft exA 0 2 = .ok 6 ∧
    getItemCsr bisectLeft exA 0 1 = .ok 0 ∧ getItemCsr bisectLeft exA (-1) 1 = .error .indexError :=
  ⟨isSearchSorted_bisectLeft, exA_wf, by decide, by decide, by decide⟩
example : exA.WFU ∧ exA.comp.NoRep ∧ 0 < exA.nrows ∧ getRowCsr exA 0 = .ok [5, 0, 6] ∧ getRowCsr exA 1 = .ok [0, 7, 0] :=
  ⟨Comp.WF.wfu exA_wf, Comp.WF.noRep exA_wf, by decide, by decide, by decide⟩
/-- `a[-1, :]` is all zeros although the last row is `[0, 7, 0]`; `a[-2, :]` is the last row. -/
example : exA.WFU ∧ getRowCsr exA (-1) = .ok [0, 0, 0] ∧ getRowCsr exA (-2) = .ok [0, 7, 0] ∧
    getRowCsr exA (-3) = .ok [5, 0, 6] ∧ getRowCsr exA (-4) = .error .indexError ∧ getRowCsr exA 2 = .error .indexError :=
  ⟨Comp.WF.wfu exA_wf, by decide, by decide, by decide, by decide, by decide⟩
example : exA.WF ∧ 2 < exA.ncols ∧ getColCsr bisectLeft exA 2 = .ok [6, 0] ∧ getColCsr bisectLeft exA (-1) = .ok [0, 0] ∧
    getColCsr bisectLeft exA 3 = .ok [0, 0] := ⟨exA_wf, by decide, by decide, by decide, by decide⟩
example : exA.WFU ∧ exA.comp.NoRep ∧ toarrayCsr exA = .ok [5, 0, 6, 0, 7, 0] :=
  ⟨Comp.WF.wfu exA_wf, Comp.WF.noRep exA_wf, by decide⟩
example : exC.WFU ∧ exC.comp.NoRep ∧ toarrayCsc exC = .ok [5, 0, 0, 7, 6, 0] :=
  ⟨Comp.WF.wfu exC_wf, Comp.WF.noRep exC_wf, by decide⟩
example : exDup.WF ∧ toarrayCoo exDup = .ok [0, 9, 0, 0, 7, 0] := ⟨exDup_wf, by decide⟩
example : exN.WF ∧ denseNd exN = .ok [0, 5, 0, 0, 0, 7] := ⟨exN_wf, by decide⟩
example : exA.WF ∧ exB.WF ∧ exA.nrows = exB.nrows ∧ exA.ncols = exB.ncols ∧
    compareDense (fun x y => decide (x < y)) (toarrayCsr exA) (toarrayCsr exB) =
      .ok [false, true, false, false, false, false] :=
  ⟨exA_wf, exB_wf, rfl, rfl, by decide⟩
example : exC.WF ∧ compareDense (fun x y => decide (x ≤ y)) (toarrayCsc exC) (toarrayCsc exC) =
    .ok (List.replicate 6 true) := ⟨exC_wf, by decide⟩
example : exDup.WF ∧ compareDense (fun x y => decide (x = y)) (toarrayCoo exDup) (toarrayCoo exDup) =
    .ok (List.replicate 6 true) := ⟨exDup_wf, by decide⟩
example : exN.WF ∧ exM.WF ∧ exN.shape = exM.shape ∧
    compareDense (fun x y => decide (x < y)) (denseNd exN) (denseNd exM) = .ok [false, false, false, true, false, false] :=
  ⟨exN_wf, exM_wf, rfl, by decide⟩

/-- A row stored out of order, as `csr_to_csc` may leave lines behind (C24). -/
def exUnsorted : Csr Int := ⟨1, 3, [0, 3], [2, 0, 1], [6, 5, 4]⟩
theorem exUnsorted_wfu : exUnsorted.WFU :=
  ⟨rfl, rfl, rfl, rfl, by decide, by decide, by decide⟩
example : exUnsorted.WFU ∧ toarrayCsr exUnsorted = .ok [5, 4, 6] := ⟨exUnsorted_wfu, by decide⟩

/-- The ordering hypothesis of the scalar access cannot be dropped: with binary search a stored
element of an unordered row is not found. -/
theorem getitem_csr_unsorted_wrong : ∃ a : Csr Int, a.WFU ∧ a.comp.NoRep ∧
    getItemCsr bisectLeft a 0 0 = .ok 0 ∧ a.val 0 0 = 5 := by
  refine ⟨exUnsorted, exUnsorted_wfu, ?_, by decide, by decide⟩
  intro i
  match i with
  | 0 => decide
  | i + 1 => rw [Comp.row_of_ge exUnsorted_wfu.ptr_length (by show 1 ≤ i + 1; omega)]; exact List.Pairwise.nil

/-- Repeated entries: the dense array keeps the last one, while the element (and every sum,
product with a vector, conversion to COO …) is their total. -/
theorem toarray_csr_duplicates_differ : ∃ a : Csr Int, a.WFU ∧ toarrayCsr a = .ok [3] ∧ a.val 0 0 = 5 :=
  ⟨⟨1, 1, [0, 2], [0, 0], [2, 3]⟩, ⟨rfl, rfl, rfl, rfl, by decide, by decide, by decide⟩, by decide, by decide⟩

end Lacuna
