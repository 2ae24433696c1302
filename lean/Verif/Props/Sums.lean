import Verif.Model.Sums
import Verif.Lemmas.Cells
import Verif.Props.Spmv
/-
C34, C35: sums over all cells, rows and columns.
-/
namespace Lacuna
universe u
variable {V : Type u}

/-! ### C34: global sums -/

theorem chunkSum_eq [AddCommMonoid V] (l : List V) : chunkSum l = l.sum := by
  unfold chunkSum
  rw [add_isMonoid.simdFold_eq, foldl_add_eq_sum]

/-- Whatever the reduction tree, the stored values are added up. -/
theorem sumRun_eq [AddCommMonoid V] {data : List V} {r : V} (h : SumRun data r) : r = data.sum := by
  rw [add_isMonoid.chunkReduce_eq (fun l => (chunkSum_eq l).trans (foldl_add_eq_sum l).symm) h, foldl_add_eq_sum]

/-- A sum always has a result (also for empty arrays). -/
theorem sum_runs [Zero V] [Add V] (data : List V) : ∃ r, SumRun data r := rayon_exists _ _ _

/-- C34: CSR (columns may be unsorted or repeated). -/
theorem sum_csr_correct [AddCommMonoid V] {a : Csr V} (ha : a.WFU) {r : V} (h : SumRun a.data r) :
    r = a.cells.sum := by
  rw [sumRun_eq h]
  exact (Comp.WFU.cells_sum ha).symm

/-- C34: CSC. -/
theorem sum_csc_correct [AddCommMonoid V] {a : Csc V} (ha : a.WFU) {r : V} (h : SumRun a.data r) :
    r = a.cells.sum := by
  rw [sumRun_eq h]
  exact (Comp.WFU.cells_sum ha).symm.trans (cellsOf_swap _ _ _).symm.sum_eq.symm

/-- C34: COO (repeated coordinates add up). -/
theorem sum_coo_correct [AddCommMonoid V] {a : Coo V} (ha : a.WF) {r : V} (h : SumRun a.data r) :
    r = a.cells.sum := by rw [sumRun_eq h, ha.cells_sum]

/-- C34: N-D COO. -/
theorem sum_coond_correct [AddCommMonoid V] {a : CooNd V} (ha : a.WF) {r : V} (h : SumRun a.data r) :
    r = a.cells.sum := by rw [sumRun_eq h, ha.cells_sum]

/-! ### C35: row and column sums -/

theorem writes_lines [Zero V] {a : Comp V} (g : Nat → V) (h0 : ∀ i, a.row i = [] → g i = 0)
    {sched : List (Nat × V)}
    (hp : sched.Perm (((lineRanges a).flatMap rangeLines).map fun i => (i, g i))) :
    applyWrites (List.replicate a.n 0) sched = (List.range a.n).map g := by
  obtain ⟨h1, _⟩ := ranges_increasing (128 * 1024) (by decide)
    (fun i => a.ptr (i + 1) - a.ptr i) a.n
  apply applyWrites_agree
  · simp
  · intro w hw
    obtain ⟨i, hi, rfl⟩ := List.mem_map.1 (hp.subset hw)
    have : i < a.n := by
      obtain ⟨r, hr, hi⟩ := List.mem_flatMap.1 hi
      unfold rangeLines at hi
      rw [List.mem_range'_1] at hi
      have := (h1 r hr).2
      omega
    simp [this]
  · intro p hpw
    by_cases hpn : p < a.n
    · have hz : a.row p = [] := by
        apply Comp.row_nil_of_len
        refine ranges_cover (128 * 1024) (fun i => a.ptr (i + 1) - a.ptr i) a.n p hpn ?_
        intro r hr hin
        refine hpw (p, g p) (hp.symm.subset (List.mem_map.2 ⟨p, ?_, rfl⟩)) rfl
        refine List.mem_flatMap.2 ⟨r, hr, ?_⟩
        unfold rangeLines
        rw [List.mem_range'_1]; omega
      simp [hpn, h0 p hz]
    · simp [hpn]

/-- C35: row sums of a CSR matrix, for every order in which the ranges finish. -/
theorem row_sums_csr_correct [AddCommMonoid V] {a : Csr V} (ha : a.WFU) :
    (∃ y, RowSumsRun a y) ∧ ∀ y, RowSumsRun a y →
      y = (List.range a.nrows).map fun i => (a.rowCells i).sum := by
  refine ⟨⟨_, _, List.Perm.refl _, rfl⟩, ?_⟩
  rintro y ⟨sched, hp, rfl⟩
  have := writes_lines (a := a.comp) (fun i => chunkSum ((a.comp.row i).map Prod.snd))
    (fun i h => by rw [h]; exact chunkSum_eq []) hp
  refine Eq.trans this (List.map_congr_left fun i _ => ?_)
  rw [chunkSum_eq]
  exact (Comp.WFU.line_sum ha i).symm

theorem lineAdds_lt {a : Comp V} (ha : a.WFU) (i : Nat) : ∀ o ∈ lineAdds a i, o.1 < a.m := by
  intro o ho
  obtain ⟨e, he, rfl⟩ := List.mem_map.1 ho
  have := ha.row_bounds i e he
  simp only [i64ToUsize_of_nonneg this.1 (ha.row_i64 i e he)]
  omega

theorem ksum_lineAdds [AddCommMonoid V] {a : Comp V} (ha : a.WFU) (i j : Nat) :
    ksum (lineAdds a i) j = a.val i j := by
  unfold ksum lineAdds Comp.val
  rw [List.filter_map, List.map_map]
  congr 1
  have : (a.row i).filter ((fun o : Nat × V => o.1 == j) ∘ fun e => (i64ToUsize e.1, e.2)) =
      (a.row i).filter fun e => e.1 == (j : Int) := by
    apply List.filter_congr
    intro e he
    have hb := ha.row_bounds i e he
    simp only [Function.comp, i64ToUsize_of_nonneg hb.1 (ha.row_i64 i e he)]
    rw [Bool.eq_iff_iff, beq_iff_eq, beq_iff_eq]
    omega
  rw [this]
  rfl

theorem ksums_lines [AddCommMonoid V] {a : Comp V} (ha : a.WFU) :
    ksums a.m ((List.range a.n).map (lineAdds a)).flatten =
      (List.range a.m).map fun j => ((List.range a.n).map fun i => a.val i j).sum := by
  unfold ksums
  apply List.map_congr_left
  intro j _
  rw [← List.flatMap_def, ksum_flatMap]
  congr 1
  exact List.map_congr_left fun i _ => ksum_lineAdds ha i j

theorem lines_lt {a : Comp V} (ha : a.WFU) : ∀ o ∈ ((List.range a.n).map (lineAdds a)).flatten, o.1 < a.m := by
  intro o ho
  rw [← List.flatMap_def] at ho
  obtain ⟨i, _, ho⟩ := List.mem_flatMap.1 ho
  exact lineAdds_lt ha i o ho

theorem range_lines_flatten {a : Comp V} :
    ((lineRanges a).map fun r => (rangeLines r).flatMap (lineAdds a)).flatten =
      ((List.range a.n).map (lineAdds a)).flatten := by
  rw [← List.flatMap_def, ← List.flatMap_def]
  exact range_flatMap_ranges (lineAdds a) (fun i h => by unfold lineAdds; rw [Comp.row_nil_of_len h]; rfl)

/-- C35: column sums of a CSR matrix for each of the dense, hashed and striped strategies,
every number of threads, division of the work and merge order. -/
theorem col_sums_csr_correct [AddCommMonoid V] (nthreads : Nat) {a : Csr V} (ha : a.WFU) (hn : a.ncols ≤ usizeMax) :
    (∃ y, ColSumsRun nthreads a y) ∧ ∀ y, ColSumsRun nthreads a y →
      y = (List.range a.ncols).map fun j => (a.colCells j).sum := by
  have hres := ksums_lines (a := a.comp) ha
  have hk : ∀ o ∈ ((List.range a.nrows).map (lineAdds a.comp)).flatten, o.1 < a.ncols := lines_lt (a := a.comp) ha
  have hk' : ∀ o ∈ ((lineRanges a.comp).map fun r => (rangeLines r).flatMap (lineAdds a.comp)).flatten,
      o.1 < a.ncols := range_lines_flatten (a := a.comp) ▸ hk
  unfold ColSumsRun
  split
  · rename_i h0
    refine ⟨⟨_, rfl⟩, ?_⟩
    rintro y rfl
    rw [h0]; rfl
  split
  · have key : ∀ groups, Division ((List.range a.nrows).map (lineAdds a.comp)) groups →
        accumPlain a.ncols (groups.map List.flatten) = some ((List.range a.ncols).map fun j => (a.colCells j).sum) := by
      intro groups hd
      rw [accumPlain_eq _ _ (division_mem hd hk), accum_division hd]
      exact congrArg some hres
    refine ⟨⟨_, _, division_single _, key _ (division_single _)⟩, ?_⟩
    rintro y ⟨groups, hd, h⟩
    exact (Option.some.inj ((key groups hd).symm.trans h)).symm
  split
  · have key : ∀ groups, Division ((List.range a.nrows).map (lineAdds a.comp)) groups →
        accumHash a.ncols 1024 (groups.map List.flatten) = some ((List.range a.ncols).map fun j => (a.colCells j).sum) := by
      intro groups hd
      rw [accumHash_eq _ _ (division_mem hd hk) _ hn, accum_division hd]
      exact congrArg some hres
    refine ⟨⟨_, _, division_single _, key _ (division_single _)⟩, ?_⟩
    rintro y ⟨groups, hd, h⟩
    exact (Option.some.inj ((key groups hd).symm.trans h)).symm
  · have key : ∀ groups y, Division ((lineRanges a.comp).map fun r => (rangeLines r).flatMap (lineAdds a.comp)) groups →
        (AccumStripePar a.ncols stripeLen (groups.map List.flatten) y ↔
          y = (List.range a.ncols).map fun j => (a.colCells j).sum) := by
      intro groups y hd
      rw [accumStripePar_eq _ _ (division_mem hd hk') _ (by decide), accum_division hd, range_lines_flatten]
      exact Eq.to_iff (congrArg (y = ·) hres)
    refine ⟨⟨_, _, division_single _, (key _ _ (division_single _)).2 rfl⟩, ?_⟩
    rintro y ⟨groups, hd, h⟩
    exact (key groups y hd).1 h

/-- C35: row sums of a CSC matrix for both strategies. -/
theorem row_sums_csc_correct [AddCommMonoid V] {a : Csc V} (ha : a.WFU) (hn : a.nrows ≤ usizeMax) :
    (∃ y, RowSumsCscRun a y) ∧ ∀ y, RowSumsCscRun a y →
      y = (List.range a.nrows).map fun i => (a.rowCells i).sum := by
  have hres := ksums_lines (a := a.comp) ha
  have hk : ∀ o ∈ ((List.range a.ncols).map (lineAdds a.comp)).flatten, o.1 < a.nrows := lines_lt (a := a.comp) ha
  unfold RowSumsCscRun
  split
  · rename_i h0
    refine ⟨⟨_, rfl⟩, ?_⟩
    rintro y rfl
    rw [h0]; rfl
  have key : ∀ groups, Division ((List.range a.ncols).map (lineAdds a.comp)) groups →
      accumHash a.nrows 1024 (groups.map List.flatten) = some ((List.range a.nrows).map fun i => (a.rowCells i).sum) ∧
      accumStripe a.nrows stripeLen (groups.map List.flatten) =
        some ((List.range a.nrows).map fun i => (a.rowCells i).sum) := by
    intro groups hd
    rw [accumHash_eq _ _ (division_mem hd hk) _ hn, accumStripe_eq _ _ (division_mem hd hk) _ (by decide),
      accum_division hd]
    exact ⟨congrArg some hres, congrArg some hres⟩
  constructor
  · refine ⟨(List.range a.nrows).map fun i => (a.rowCells i).sum, _, division_single _, ?_⟩
    split
    · exact (key _ (division_single _)).1
    · exact (key _ (division_single _)).2
  · rintro y ⟨groups, hd, h⟩
    split at h
    · exact (Option.some.inj ((key groups hd).1.symm.trans h)).symm
    · exact (Option.some.inj ((key groups hd).2.symm.trans h)).symm

/-- C35: column sums of a CSC matrix. -/
theorem col_sums_csc_correct [AddCommMonoid V] {a : Csc V} (ha : a.WFU) :
    colSumsCsc a = (List.range a.ncols).map fun j => (a.colCells j).sum := by
  unfold colSumsCsc
  split
  · rename_i h; rw [h]; rfl
  · apply List.map_congr_left
    intro j _
    rw [chunkSum_eq]
    exact (Comp.WFU.line_sum ha j).symm

theorem ksum_coo [AddCommMonoid V] (l : List ((Int × Int) × V)) (key : (Int × Int) → Int)
    (h0 : ∀ t ∈ l, 0 ≤ key t.1) (h1 : ∀ t ∈ l, key t.1 ≤ i64Max) (k : Nat) :
    ksum (l.map fun t => (i64ToUsize (key t.1), t.2)) k =
      ((l.filter fun t => key t.1 == (k : Int)).map Prod.snd).sum := by
  unfold ksum
  rw [List.filter_map, List.map_map]
  have : l.filter ((fun o : Nat × V => o.1 == k) ∘ fun t => (i64ToUsize (key t.1), t.2)) =
      l.filter fun t => key t.1 == (k : Int) := by
    apply List.filter_congr
    intro t ht
    have h2 := h0 t ht
    simp only [Function.comp, i64ToUsize_of_nonneg h2 (h1 t ht)]
    rw [Bool.eq_iff_iff, beq_iff_eq, beq_iff_eq]
    omega
  rw [this]
  rfl

theorem Coo.cells_empty [AddCommMonoid V] {a : Coo V} (h : a.data.length = 0) (i j : Nat) : a.val i j = 0 := by
  have : a.triples = [] := by
    rw [← List.length_eq_zero_iff]
    unfold Coo.triples
    rw [List.length_zip, h]; simp
  simp [Coo.val, this]

/-- C35: row sums of a COO matrix for both strategies; repeated coordinates add up. -/
theorem row_sums_coo_correct [AddCommMonoid V] (nthreads : Nat) {a : Coo V} (ha : a.WF) (hi : a.I64)
    (hn : a.nrows ≤ usizeMax) :
    (∃ y, RowSumsCooRun nthreads a y) ∧ ∀ y, RowSumsCooRun nthreads a y →
      y = (List.range a.nrows).map fun i => (a.rowCells i).sum := by
  unfold RowSumsCooRun
  split
  · rename_i h0
    refine ⟨⟨_, rfl⟩, ?_⟩
    rintro y rfl
    rw [h0]; rfl
  split
  · rename_i h0
    refine ⟨⟨_, rfl⟩, ?_⟩
    rintro y rfl
    refine List.ext_getElem (by simp) (fun i _ _ => ?_)
    have : a.val i = fun _ => 0 := funext (Coo.cells_empty h0 i)
    simp [Coo.rowCells, this]
  have hflat := chunksOf_flatten (cooChunk_pos nthreads a.data.length)
    (a.triples.map fun t => (i64ToUsize t.1.1, t.2))
  have hk : ∀ o ∈ (chunksOf (cooChunk nthreads a.data.length)
      (a.triples.map fun t => (i64ToUsize t.1.1, t.2))).flatten, o.1 < a.nrows := by
    rw [hflat]
    intro o ho
    obtain ⟨t, ht, rfl⟩ := List.mem_map.1 ho
    have := ha.triple_bounds t ht
    simp only [i64ToUsize_of_nonneg this.1.1 (hi.triple t ht).1]
    omega
  have hres : ksums a.nrows (chunksOf (cooChunk nthreads a.data.length)
      (a.triples.map fun t => (i64ToUsize t.1.1, t.2))).flatten =
      (List.range a.nrows).map fun i => (a.rowCells i).sum := by
    rw [hflat]
    apply List.map_congr_left
    intro i _
    rw [ksum_coo a.triples (fun p => p.1) (fun t ht => (ha.triple_bounds t ht).1.1)
      (fun t ht => (hi.triple t ht).1), ha.row_sum]
  have key : ∀ groups, Division (chunksOf (cooChunk nthreads a.data.length)
        (a.triples.map fun t => (i64ToUsize t.1.1, t.2))) groups →
      accumHash a.nrows 1024 (groups.map List.flatten) = some ((List.range a.nrows).map fun i => (a.rowCells i).sum) ∧
      accumStripe a.nrows stripeLen (groups.map List.flatten) =
        some ((List.range a.nrows).map fun i => (a.rowCells i).sum) := by
    intro groups hd
    rw [accumHash_eq _ _ (division_mem hd hk) _ hn, accumStripe_eq _ _ (division_mem hd hk) _ (by decide),
      accum_division hd, hres]
    exact ⟨rfl, rfl⟩
  constructor
  · refine ⟨(List.range a.nrows).map fun i => (a.rowCells i).sum, _, division_single _, ?_⟩
    split
    · exact (key _ (division_single _)).1
    · exact (key _ (division_single _)).2
  · rintro y ⟨groups, hd, h⟩
    split at h
    · exact (Option.some.inj ((key groups hd).1.symm.trans h)).symm
    · exact (Option.some.inj ((key groups hd).2.symm.trans h)).symm

/-- C35: column sums of a COO matrix for both strategies. -/
theorem col_sums_coo_correct [AddCommMonoid V] (nthreads : Nat) {a : Coo V} (ha : a.WF) (hi : a.I64)
    (hn : a.ncols ≤ usizeMax) :
    (∃ y, ColSumsCooRun nthreads a y) ∧ ∀ y, ColSumsCooRun nthreads a y →
      y = (List.range a.ncols).map fun j => (a.colCells j).sum := by
  unfold ColSumsCooRun
  split
  · rename_i h0
    refine ⟨⟨_, rfl⟩, ?_⟩
    rintro y rfl
    rw [h0]; rfl
  split
  · rename_i h0
    refine ⟨⟨_, rfl⟩, ?_⟩
    rintro y rfl
    refine List.ext_getElem (by simp) (fun i _ _ => ?_)
    simp [Coo.colCells, Coo.cells_empty h0]
  have hflat := chunksOf_flatten (cooChunk_pos nthreads a.data.length)
    (a.triples.map fun t => (i64ToUsize t.1.2, t.2))
  have hk : ∀ o ∈ (chunksOf (cooChunk nthreads a.data.length)
      (a.triples.map fun t => (i64ToUsize t.1.2, t.2))).flatten, o.1 < a.ncols := by
    rw [hflat]
    intro o ho
    obtain ⟨t, ht, rfl⟩ := List.mem_map.1 ho
    have := ha.triple_bounds t ht
    simp only [i64ToUsize_of_nonneg this.2.1 (hi.triple t ht).2]
    omega
  have hres : ksums a.ncols (chunksOf (cooChunk nthreads a.data.length)
      (a.triples.map fun t => (i64ToUsize t.1.2, t.2))).flatten =
      (List.range a.ncols).map fun j => (a.colCells j).sum := by
    rw [hflat]
    apply List.map_congr_left
    intro i _
    rw [ksum_coo a.triples (fun p => p.2) (fun t ht => (ha.triple_bounds t ht).2.1)
      (fun t ht => (hi.triple t ht).2), ha.col_sum]
  have key : ∀ groups, Division (chunksOf (cooChunk nthreads a.data.length)
        (a.triples.map fun t => (i64ToUsize t.1.2, t.2))) groups →
      accumHash a.ncols 1024 (groups.map List.flatten) = some ((List.range a.ncols).map fun j => (a.colCells j).sum) ∧
      ∀ y, (AccumStripePar a.ncols stripeLen (groups.map List.flatten) y ↔
        y = (List.range a.ncols).map fun j => (a.colCells j).sum) := by
    intro groups hd
    refine ⟨?_, fun y => ?_⟩
    · rw [accumHash_eq _ _ (division_mem hd hk) _ hn, accum_division hd, hres]
    · rw [accumStripePar_eq _ _ (division_mem hd hk) _ (by decide), accum_division hd, hres]
  constructor
  · refine ⟨(List.range a.ncols).map fun j => (a.colCells j).sum, _, division_single _, ?_⟩
    split
    · exact (key _ (division_single _)).1
    · exact ((key _ (division_single _)).2 _).2 rfl
  · rintro y ⟨groups, hd, h⟩
    split at h
    · exact (Option.some.inj ((key groups hd).1.symm.trans h)).symm
    · exact ((key groups hd).2 _).1 h

/-! ### Witnesses -/

/-- `exA = [[5,0,6],[0,7,0]]`, `exC` its transpose, `exDup` stores a coordinate twice. -/
example : exA.cells = [5, 0, 6, 0, 7, 0] ∧ exA.cells.sum = 18 ∧ SumRun exA.data 18 := by
  refine ⟨by decide, by decide, ?_⟩
  obtain ⟨r, h⟩ := sum_runs exA.data
  have := sum_csr_correct exA_wfu h
  rw [show exA.cells.sum = 18 by decide] at this
  exact this ▸ h
/-- Six values: a full SIMD lane group and two values in the scalar tail. -/
example : chunkSum [(1 : Int), 2, 3, 4, 5, 6] = 21 := by decide
example : ∃ y, RowSumsRun exA y ∧ y = [11, 7] := by
  obtain ⟨⟨y, h⟩, h2⟩ := row_sums_csr_correct exA_wfu
  exact ⟨y, h, (h2 y h).trans (by decide)⟩
example : ∃ y, ColSumsRun 4 exA y ∧ y = [5, 7, 6] := by
  obtain ⟨⟨y, h⟩, h2⟩ := col_sums_csr_correct 4 exA_wfu (by decide)
  exact ⟨y, h, (h2 y h).trans (by decide)⟩
example : ∃ y, RowSumsCscRun exC y ∧ y = [5, 7, 6] := by
  obtain ⟨⟨y, h⟩, h2⟩ := row_sums_csc_correct exC_wfu (by decide)
  exact ⟨y, h, (h2 y h).trans (by decide)⟩
example : colSumsCsc exC = [11, 7] := by decide
theorem exDup_i64 : exDup.I64 := ⟨by decide, by decide⟩
example : ∃ y, RowSumsCooRun 4 exDup y ∧ y = [9, 0, 7] := by
  obtain ⟨⟨y, h⟩, h2⟩ := row_sums_coo_correct 4 exDup_wf exDup_i64 (by decide)
  exact ⟨y, h, (h2 y h).trans (by decide)⟩
example : ∃ y, ColSumsCooRun 4 exDup y ∧ y = [7, 9] := by
  obtain ⟨⟨y, h⟩, h2⟩ := col_sums_coo_correct 4 exDup_wf exDup_i64 (by decide)
  exact ⟨y, h, (h2 y h).trans (by decide)⟩

end Lacuna
