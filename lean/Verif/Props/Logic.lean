import Verif.Props.Var
/-
C39: all and any.  C48: global mean.
-/
namespace Lacuna
universe u
variable {V : Type u}

/-! ### Unsorted lines without repetitions -/

theorem Comp.WFU.line_perm [AddZeroClass V] {a : Comp V} (h : a.WFU) (hn : a.NoRep) (i : Nat) :
    ((List.range a.m).map (a.val i)).Perm
      ((a.row i).map Prod.snd ++ List.replicate (a.m - (a.row i).length) 0) := by
  have := keys_perm (idxKeys a.m) (idxKeys_nodup _) (a.row i)
    (fun e he => mem_idxKeys.2 (h.row_bounds i e he)) (hn i)
  rw [idxKeys_length] at this
  unfold idxKeys at this
  rw [List.map_map] at this
  exact this

theorem Comp.WFU.row_length_le {a : Comp V} (h : a.WFU) (hn : a.NoRep) (i : Nat) : (a.row i).length ≤ a.m := by
  have := (List.subperm_of_subset (hn i) (l₂ := idxKeys a.m) (fun j hj => by
    obtain ⟨e, he, rfl⟩ := List.mem_map.1 hj
    exact mem_idxKeys.2 (h.row_bounds i e he))).length_le
  rwa [List.length_map, idxKeys_length] at this

/-- Transposed storage of a matrix without repetitions has none, in whatever order the slots
were claimed. -/
theorem tcomp_noRep {a : Comp V} (hw : a.WF) {sched : List (Nat × (Int × V))} (hs : Interleaving a sched)
    (hf : a.Fits) : (tcomp a sched).NoRep := by
  intro j
  rw [List.nodup_iff_count_le_one]
  intro k
  by_cases hk : k ∈ ((tcomp a sched).row j).map Prod.fst
  · obtain ⟨e, he, rfl⟩ := List.mem_map.1 hk
    have hb := (tcomp_wfu hs hf).row_bounds j e he
    obtain ⟨i, hi⟩ : ∃ i : Nat, e.1 = i := ⟨e.1.toNat, by omega⟩
    rw [hi]
    have h1 := congrArg List.length (tcomp_filter hw.wfu hs hf i j)
    rw [List.length_map, List.length_map] at h1
    rw [List.count_eq_length_filter, List.filter_map, List.length_map]
    have h2 : (((tcomp a sched).row j).filter ((fun x : Int => x == (i : Int)) ∘ Prod.fst)).length =
        (((tcomp a sched).row j).filter fun e => e.1 == (i : Int)).length := rfl
    rw [h2, h1]
    have h3 := List.nodup_iff_count_le_one.1 (hw.noRep i) (j : Int)
    rw [List.count_eq_length_filter, List.filter_map, List.length_map] at h3
    exact h3
  · rw [List.count_eq_zero_of_not_mem hk]; omega

/-! ### Truth values with implicit zeros -/

section
variable [AddZeroClass V] [BEq V]

variable (h0 : ((0 : V) == 0) = true)
include h0

theorem all_padded {cells l : List V} {k : Nat} (hp : cells.Perm (l ++ List.replicate k 0)) :
    AllNonzero cells ↔ k = 0 ∧ l.any isZero = false := by
  unfold AllNonzero
  constructor
  · intro h
    refine ⟨?_, ?_⟩
    · by_contra hk
      have := h 0 (hp.symm.subset (List.mem_append_right _ (List.mem_replicate.2 ⟨hk, rfl⟩)))
      rw [h0] at this; cases this
    · rw [List.any_eq_false]
      intro x hx
      have := h x (hp.symm.subset (List.mem_append_left _ hx))
      simp [isZero, this]
  · rintro ⟨rfl, h⟩ x hx
    have := hp.subset hx
    simp only [List.replicate_zero, List.append_nil] at this
    have h2 := List.any_eq_false.1 h x this
    simpa [isZero] using h2

theorem any_padded {cells l : List V} {k : Nat} (hp : cells.Perm (l ++ List.replicate k 0)) :
    AnyNonzero cells ↔ (l.any fun x => !isZero x) = true := by
  unfold AnyNonzero
  rw [List.any_eq_true]
  constructor
  · rintro ⟨x, hx, h⟩
    rcases List.mem_append.1 (hp.subset hx) with hx | hx
    · exact ⟨x, hx, by simp [isZero, h]⟩
    · rw [List.eq_of_mem_replicate hx, h0] at h; cases h
  · rintro ⟨x, hx, h⟩
    exact ⟨x, hp.symm.subset (List.mem_append_left _ hx), by simpa [isZero] using h⟩

theorem allKernel_iff {full : Nat} {data cells : List V}
    (hp : cells.Perm (data ++ List.replicate (full - data.length) 0)) (hle : data.length ≤ full) :
    allKernel full data = true ↔ AllNonzero cells := by
  rw [all_padded h0 hp]
  unfold allKernel
  split
  · have : data = [] := List.length_eq_zero_iff.1 (by omega)
    subst this
    simp; omega
  · split
    · simp; omega
    · simp; omega

theorem anyKernel_iff {full : Nat} {data cells : List V}
    (hp : cells.Perm (data ++ List.replicate (full - data.length) 0)) (hle : data.length ≤ full) :
    anyKernel full data = true ↔ AnyNonzero cells := by
  rw [any_padded h0 hp]
  unfold anyKernel
  split
  · have : data = [] := List.length_eq_zero_iff.1 (by omega)
    subst this
    simp
  · rfl

omit h0 [AddZeroClass V] in
theorem allKernel_sat [Zero V] {n m : Nat} {data : List V} (hl : (data.length : Int) ≤ i64Max) :
    allKernel (satMul n m) data = allKernel (n * m) data := by
  unfold allKernel
  simp only [satMul_eq_zero, satMul_lt hl]

omit h0 [AddZeroClass V] in
theorem anyKernel_sat [Zero V] {n m : Nat} {data : List V} :
    anyKernel (satMul n m) data = anyKernel (n * m) data := by
  unfold anyKernel
  simp only [satMul_eq_zero]

omit h0 [AddZeroClass V] [BEq V] in
theorem areTruths_map {n : Nat} {p : Nat → Prop} {f : Nat → Bool} (h : ∀ i, i < n → (f i = true ↔ p i)) :
    AreTruths n p ((List.range n).map f) := by
  refine ⟨by simp, fun i b hb => ?_⟩
  rw [List.getElem?_map] at hb
  by_cases hi : i < n
  · rw [List.getElem?_range hi] at hb
    obtain rfl := Option.some.inj hb
    exact h i hi
  · rw [List.getElem?_eq_none (by simpa using hi)] at hb
    cases hb

theorem lineAlls_ok {a : Comp V} (ha : a.WFU) (hn : a.NoRep) :
    AreTruths a.n (fun i => AllNonzero ((List.range a.m).map (a.val i))) (lineAlls a) := by
  have key : lineAlls a = (List.range a.n).map fun i => allKernel a.m ((a.row i).map Prod.snd) := by
    unfold lineAlls
    split
    · rename_i h; simp [h]
    split
    · rename_i h
      simp only [allKernel, h, if_true]
      rw [List.map_const', List.length_range]
    · rename_i h
      apply List.map_congr_left
      intro i _
      simp only [allKernel, if_neg h]
  rw [key]
  refine areTruths_map fun i _ => allKernel_iff h0 ?_ ?_
  · rw [List.length_map]; exact ha.line_perm hn i
  · rw [List.length_map]; exact ha.row_length_le hn i

theorem lineAnys_ok {a : Comp V} (ha : a.WFU) (hn : a.NoRep) :
    AreTruths a.n (fun i => AnyNonzero ((List.range a.m).map (a.val i))) (lineAnys a) := by
  have key : lineAnys a = (List.range a.n).map fun i => anyKernel a.m ((a.row i).map Prod.snd) := by
    unfold lineAnys
    split
    · rename_i h; simp [h]
    split
    · rename_i h
      simp only [anyKernel, h, if_true]
      rw [List.map_const', List.length_range]
    · rename_i h
      apply List.map_congr_left
      intro i _
      simp only [anyKernel, if_neg h]
  rw [key]
  refine areTruths_map fun i _ => anyKernel_iff h0 ?_ ?_
  · rw [List.length_map]; exact ha.line_perm hn i
  · rw [List.length_map]; exact ha.row_length_le hn i
end

/-! ### C39: the kernels -/

section
variable [AddZeroClass V] [BEq V] (h0 : ((0 : V) == 0) = true)
include h0

/-- C39: CSR, global. -/
theorem all_any_csr_correct {a : Csr V} (ha : a.WF) (hl : (a.data.length : Int) ≤ i64Max) :
    (allKernel (satMul a.nrows a.ncols) a.data = true ↔ AllNonzero a.cells) ∧
    (anyKernel (satMul a.nrows a.ncols) a.data = true ↔ AnyNonzero a.cells) := by
  rw [allKernel_sat hl, anyKernel_sat]
  exact ⟨allKernel_iff h0 (Comp.WF.cells_perm ha) (Comp.WF.data_length_le ha),
    anyKernel_iff h0 (Comp.WF.cells_perm ha) (Comp.WF.data_length_le ha)⟩

/-- C39: CSC, global. -/
theorem all_any_csc_correct {a : Csc V} (ha : a.WF) (hl : (a.data.length : Int) ≤ i64Max) :
    (allKernel (satMul a.nrows a.ncols) a.data = true ↔ AllNonzero a.cells) ∧
    (anyKernel (satMul a.nrows a.ncols) a.data = true ↔ AnyNonzero a.cells) := by
  rw [allKernel_sat hl, anyKernel_sat]
  have hle : a.data.length ≤ a.nrows * a.ncols := by
    have := Comp.WF.data_length_le ha; rwa [Nat.mul_comm] at this
  exact ⟨allKernel_iff h0 (csc_cells_perm ha) hle, anyKernel_iff h0 (csc_cells_perm ha) hle⟩

/-- C39: rows of a CSR matrix. -/
theorem row_all_any_csr_correct {a : Csr V} (ha : a.WF) :
    AreTruths a.nrows (fun i => AllNonzero (a.rowCells i)) (lineAlls a.comp) ∧
    AreTruths a.nrows (fun i => AnyNonzero (a.rowCells i)) (lineAnys a.comp) :=
  ⟨lineAlls_ok h0 (Comp.WF.wfu ha) (Comp.WF.noRep ha), lineAnys_ok h0 (Comp.WF.wfu ha) (Comp.WF.noRep ha)⟩

/-- C39: columns of a CSC matrix. -/
theorem col_all_any_csc_correct {a : Csc V} (ha : a.WF) :
    AreTruths a.ncols (fun j => AllNonzero (a.colCells j)) (lineAlls a.comp) ∧
    AreTruths a.ncols (fun j => AnyNonzero (a.colCells j)) (lineAnys a.comp) :=
  ⟨lineAlls_ok h0 (Comp.WF.wfu ha) (Comp.WF.noRep ha), lineAnys_ok h0 (Comp.WF.wfu ha) (Comp.WF.noRep ha)⟩

/-- C39, C46: columns of a CSR matrix through the transpose. -/
theorem col_all_any_csr_correct {a : Csr V} (ha : a.WF) (hf : a.comp.Fits)
    {sort : List (Int × V) → List (Int × V)} (hsort : IsPairSort sort) (threads : Nat) :
    ((∃ y, ColAllsRun sort threads a y) ∧
      ∀ y, ColAllsRun sort threads a y → AreTruths a.ncols (fun j => AllNonzero (a.colCells j)) y) ∧
    ((∃ y, ColAnysRun sort threads a y) ∧
      ∀ y, ColAnysRun sort threads a y → AreTruths a.ncols (fun j => AnyNonzero (a.colCells j)) y) := by
  obtain ⟨t0, ht0⟩ := transpose_csr_exists ha hf hsort threads
  refine ⟨⟨⟨_, t0, ht0, rfl⟩, ?_⟩, ⟨_, t0, ht0, rfl⟩, ?_⟩
  · rintro y ⟨t, ht, rfl⟩
    obtain ⟨h1, h2, _, h3⟩ := transpose_csr_rowCells ha hf hsort ht
    rw [← h2, ← h3]
    exact (row_all_any_csr_correct h0 h1).1
  · rintro y ⟨t, ht, rfl⟩
    obtain ⟨h1, h2, _, h3⟩ := transpose_csr_rowCells ha hf hsort ht
    rw [← h2, ← h3]
    exact (row_all_any_csr_correct h0 h1).2

/-- C39: rows of a CSC matrix through the conversion to CSR, for every interleaving of the
conversion, including those that leave the rows unsorted. -/
theorem row_all_any_csc_correct {a : Csc V} (ha : a.WF) (hf : a.comp.Fits) :
    ((∃ y, RowAllsCscRun a y) ∧
      ∀ y, RowAllsCscRun a y → AreTruths a.nrows (fun i => AllNonzero (a.rowCells i)) y) ∧
    ((∃ y, RowAnysCscRun a y) ∧
      ∀ y, RowAnysCscRun a y → AreTruths a.nrows (fun i => AnyNonzero (a.rowCells i)) y) := by
  have key : ∀ t, CscToCsrRun a t → t.nrows = a.nrows ∧ t.comp.WFU ∧ t.comp.NoRep ∧ t.rowCells = a.rowCells := by
    intro t ht
    obtain ⟨h1, h2, _, h4, _, h6⟩ := csc_to_csr_correct (Comp.WF.wfu ha) hf ht
    obtain ⟨sched, hs, e⟩ := atomicFill_eq (Comp.WF.wfu ha) hf ht
    refine ⟨h1, h4, ?_, funext fun i => ?_⟩
    · rw [e]; exact tcomp_noRep ha hs hf
    · unfold Csr.rowCells Csc.rowCells
      rw [h2]
      exact List.map_congr_left fun j _ => h6 i j
  obtain ⟨t0, ht0, _⟩ := csc_to_csr_sequential_wf ha hf
  refine ⟨⟨⟨_, t0, ht0, rfl⟩, ?_⟩, ⟨_, t0, ht0, rfl⟩, ?_⟩
  · rintro y ⟨t, ht, rfl⟩
    obtain ⟨h1, h2, h3, h4⟩ := key t ht
    rw [← h1, ← h4]
    exact lineAlls_ok h0 h2 h3
  · rintro y ⟨t, ht, rfl⟩
    obtain ⟨h1, h2, h3, h4⟩ := key t ht
    rw [← h1, ← h4]
    exact lineAnys_ok h0 h2 h3

/-- C39: N-D COO without repeated coordinates. -/
theorem all_any_coond_correct {a : CooNd V} (ha : a.WF) (hd : a.NoDup) :
    (∀ b, allNd a = some b → (b = true ↔ AllNonzero a.cells)) ∧
    (∀ b, anyNd a = some b → (b = true ↔ AnyNonzero a.cells)) := by
  constructor
  · intro b hb
    unfold allNd at hb
    obtain ⟨n, hn, rfl⟩ := Option.map_eq_some_iff.1 hb
    obtain ⟨rfl, _⟩ := productChecked_some hn
    exact allKernel_iff h0 (ha.cells_perm hd) (ha.data_length_le hd)
  · intro b hb
    unfold anyNd at hb
    obtain ⟨n, hn, rfl⟩ := Option.map_eq_some_iff.1 hb
    obtain ⟨rfl, _⟩ := productChecked_some hn
    exact anyKernel_iff h0 (ha.cells_perm hd) (ha.data_length_le hd)
end

/-- C39: COO, with or without repeated coordinates, since the kernel converts to CSR first. -/
theorem all_any_coo_correct [AddCommMonoid V] [BEq V] (h0 : ((0 : V) == 0) = true)
    {sort : List ((Int × Int) × V) → List ((Int × Int) × V)}
    (hsort : IsTripleSort sort) {a : Coo V} (hw : a.WF) (hi : a.I64) (hn : (a.nrows : Int) ≤ i64Max)
    (hl : (a.data.length : Int) ≤ i64Max) :
    (allCoo sort a = true ↔ AllNonzero a.cells) ∧ (anyCoo sort a = true ↔ AnyNonzero a.cells) := by
  obtain ⟨h1, h2, h3, h4⟩ := coo_to_csr_correct hsort hw hi hn hl
  have hc : (cooToCsr sort a).cells = a.cells := by
    unfold Csr.cells Coo.cells
    rw [h1, h2]
    exact cellsOf_congr fun i _ j _ => h4 i j
  have hlen : ((cooToCsr sort a).data.length : Int) ≤ i64Max := by
    have := cooToCsr_data_length_le hsort hw hn hl
    omega
  have := all_any_csr_correct h0 h3 hlen
  rw [hc] at this
  exact this

/-! ### C48: the global mean -/

/-- C48: mean of all cells of an N-D array. -/
theorem mean_coond_correct [Field V] [CharZero V] [BEq V] [LawfulBEq V] {a : CooNd V} (ha : a.WF) {r : V}
    (hr : MeanNdRun a r) : r = if a.shape.prod = 0 then 0 else listMean a.cells := by
  unfold MeanNdRun at hr
  rw [if_neg ha.rank] at hr
  obtain ⟨p, hp, hr⟩ := hr
  obtain ⟨rfl, _⟩ := productChecked_some hp
  by_cases hz : a.shape.prod = 0
  · rw [if_pos hz]
    rw [if_pos (by rw [hz]; simp)] at hr
    exact hr
  · rw [if_neg hz]
    rw [if_neg (by simpa using hz)] at hr
    obtain ⟨s, hs, rfl⟩ := hr
    unfold listMean
    rw [sum_coond_correct ha hs, CooNd.cells, List.length_map, indicesOf_length]

/-! ### Witnesses -/

example : ¬ AllNonzero exA.cells ∧ AnyNonzero exA.cells ∧
    allKernel (satMul exA.nrows exA.ncols) exA.data = false ∧ anyKernel (satMul exA.nrows exA.ncols) exA.data = true ∧
    allKernel (satMul exFull.nrows exFull.ncols) exFull.data = true := by
  have h := all_any_csr_correct (V := Int) rfl exA_wf (by decide)
  exact ⟨fun hc => absurd (h.1.2 hc) (by decide), h.2.1 (by decide), by decide, by decide, by decide⟩
example : lineAlls exA.comp = [false, false] ∧ lineAnys exA.comp = [true, true] ∧
    lineAlls exFull.comp = [true, true] := by decide
/-- A full row with an explicit zero. -/
example : lineAlls (⟨2, 2, [0, 2, 2], [0, 1], [3, 0]⟩ : Csr Int).comp = [false, false] ∧
    lineAnys (⟨2, 2, [0, 2, 2], [0, 1], [3, 0]⟩ : Csr Int).comp = [true, false] := by decide
example (threads : Nat) : ∃ y, ColAllsRun (List.insertionSort pairLe) threads exFull y ∧
    AreTruths 2 (fun j => AllNonzero (exFull.colCells j)) y := by
  obtain ⟨⟨⟨y, hy⟩, h⟩, _⟩ := col_all_any_csr_correct (V := Int) rfl exFull_wf ⟨by decide, by decide⟩
    isPairSort_insertionSort threads
  exact ⟨y, hy, h y hy⟩
example : ∃ y, RowAnysCscRun exA.comp.toCsc y ∧ AreTruths 3 (fun i => AnyNonzero (exA.comp.toCsc.rowCells i)) y := by
  obtain ⟨_, ⟨y, hy⟩, h⟩ := row_all_any_csc_correct (V := Int) (a := exA.comp.toCsc) rfl exA_wf ⟨by decide, by decide⟩
  exact ⟨y, hy, h y hy⟩
/-- The stored values 3 and -3 of one cell cancel; the COO kernel merges them first. -/
example : let a : Coo Int := ⟨1, 1, [0, 0], [0, 0], [3, -3]⟩
    anyCoo (List.insertionSort tripleLe) a = false ∧ ¬ AnyNonzero a.cells := by
  refine ⟨by decide, ?_⟩
  rintro ⟨x, hx, h⟩
  have : x = 0 := by simpa [Coo.cells, cellsOf, Coo.val, Coo.triples] using hx
  subst this
  cases h

/-- C39, negative part: an N-D array of shape (2,) that stores the index 0 twice, as 3 and -3.
Its cells are `[0, 0]`, but the kernels report that all and that some cells are non-zero. -/
theorem all_any_coond_duplicates_wrong :
    let a : CooNd Int := ⟨[2], [0, 0], [3, -3]⟩
    a.WF ∧ a.cells = [0, 0] ∧ allNd a = some true ∧ anyNd a = some true ∧
      ¬ AllNonzero a.cells ∧ ¬ AnyNonzero a.cells := by
  intro a
  have hc : a.cells = [0, 0] := by decide
  refine ⟨⟨by decide, by decide, by decide⟩, hc, by decide, by decide, ?_, ?_⟩
  · rw [hc]; intro h; exact absurd (h 0 (by simp)) (by decide)
  · rw [hc]; rintro ⟨x, hx, h⟩
    have : x = 0 := by simpa using hx
    subst this; cases h

example : ∃ r, MeanNdRun (⟨[2, 2], [0, 0, 1, 1], [3, 5]⟩ : CooNd ℚ) r ∧ r = 2 := by
  obtain ⟨s, hs⟩ := sum_runs ([3, 5] : List ℚ)
  have hr : MeanNdRun (⟨[2, 2], [0, 0, 1, 1], [3, 5]⟩ : CooNd ℚ) (s / 4) := by
    unfold MeanNdRun
    rw [if_neg (by decide)]
    refine ⟨4, by decide, ?_⟩
    rw [if_neg (by decide +kernel)]
    exact ⟨s, hs, rfl⟩
  refine ⟨_, hr, (mean_coond_correct ⟨by decide, by decide, by decide⟩ hr).trans ?_⟩
  decide +kernel

end Lacuna
