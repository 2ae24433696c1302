import Verif.Lemmas.Rounding
import Verif.Props.Sums
/-
C70: sums in rounded arithmetic.  Each kernel adds the stored values of a row or column in some order
and with some bracketing (no law of addition is used); hence the usual error bound, exact results for
integers of moderate size, and the absence of reproducibility in general.
-/
namespace Lacuna
universe u
variable {V : Type u}

/-! ### What is added -/

/-- C70: the sum over all stored values (all formats, `data` being the stored values). -/
theorem sum_terms [Zero V] [Add V] {data : List V} {r : V} (h : SumRun data r) : AddTree (data : Multiset V) r := sumRun_tree h

theorem filter_usize {a : Comp V} (ha : a.WFU) (i j : Nat) :
    ((lineAdds a i).filter fun o => o.1 == j).map Prod.snd = ((a.row i).filter fun e => e.1 == (j : Int)).map Prod.snd := by
  unfold lineAdds
  rw [List.filter_map, List.map_map]
  have : (a.row i).filter ((fun o : Nat × V => o.1 == j) ∘ fun e => (i64ToUsize e.1, e.2)) =
      (a.row i).filter fun e => e.1 == (j : Int) := by
    apply List.filter_congr
    intro e he
    have hb := ha.row_bounds i e he
    simp only [Function.comp, i64ToUsize_of_nonneg hb.1 (ha.row_i64 i e he)]
    rw [Bool.eq_iff_iff, beq_iff_eq, beq_iff_eq]
    omega
  rw [this]
  rfl

theorem slotVals_lines {a : Comp V} (ha : a.WFU) (j : Nat) :
    slotVals ((List.range a.n).map (lineAdds a)).flatten j = (a.crossVals j : Multiset V) := by
  unfold slotVals Comp.crossVals
  rw [← List.flatMap_def, List.filter_flatMap, List.map_flatMap]
  congr 2
  funext i
  exact filter_usize ha i j

theorem writes_lines_or [Zero V] {a : Comp V} (g : Nat → V) {sched : List (Nat × V)}
    (hp : sched.Perm (((lineRanges a).flatMap rangeLines).map fun i => (i, g i))) {i : Nat} (hi : i < a.n) :
    (applyWrites (List.replicate a.n 0) sched).getD i 0 = g i ∨
      a.row i = [] ∧ (applyWrites (List.replicate a.n 0) sched).getD i 0 = 0 := by
  obtain ⟨h1, _⟩ := ranges_increasing (128 * 1024) (by decide)
    (fun i => a.ptr (i + 1) - a.ptr i) a.n
  have : applyWrites (List.replicate a.n 0) sched =
      (List.range a.n).map fun i => if i ∈ (lineRanges a).flatMap rangeLines then g i else 0 := by
    apply applyWrites_agree
    · simp
    · intro w hw
      obtain ⟨i, hi, rfl⟩ := List.mem_map.1 (hp.subset hw)
      have : i < a.n := by
        obtain ⟨r, hr, hi⟩ := List.mem_flatMap.1 hi
        unfold rangeLines at hi
        rw [List.mem_range'_1] at hi
        have := (h1 r hr).2
        omega
      simp only [List.getElem?_map, List.getElem?_range this, Option.map_some, if_pos hi]
    · intro p hpw
      by_cases hpn : p < a.n
      · have : p ∉ (lineRanges a).flatMap rangeLines := fun hm =>
          hpw (p, g p) (hp.symm.subset (List.mem_map.2 ⟨p, hm, rfl⟩)) rfl
        simp only [List.getElem?_map, List.getElem?_range hpn, Option.map_some, if_neg this]
        simp [hpn]
      · simp [hpn]
  rw [this, List.getD_eq_getElem?_getD]
  simp only [List.getElem?_map, List.getElem?_range hi, Option.map_some, Option.getD_some]
  by_cases hm : i ∈ (lineRanges a).flatMap rangeLines
  · rw [if_pos hm]; exact .inl rfl
  · rw [if_neg hm]
    refine .inr ⟨?_, rfl⟩
    apply Comp.row_nil_of_len
    refine ranges_cover (128 * 1024) (fun i => a.ptr (i + 1) - a.ptr i) a.n i hi ?_
    intro r hr hin
    apply hm
    refine List.mem_flatMap.2 ⟨r, hr, ?_⟩
    unfold rangeLines
    rw [List.mem_range'_1]; omega

/-- C70: row sums of a CSR matrix. -/
theorem row_sums_csr_terms [Zero V] [Add V] {a : Csr V} {y : List V} (h : RowSumsRun a y) :
    y.length = a.nrows ∧ ∀ i, i < a.nrows → AddTree (a.rowVals i : Multiset V) (y.getD i 0) := by
  obtain ⟨sched, hp, rfl⟩ := h
  refine ⟨by rw [applyWrites_length]; simp, fun i hi => ?_⟩
  have := writes_lines_or (a := a.comp) (fun i => chunkSum ((a.comp.row i).map Prod.snd)) hp hi
  change (applyWrites (List.replicate a.nrows 0) sched).getD i 0 = _ ∨
    _ ∧ (applyWrites (List.replicate a.nrows 0) sched).getD i 0 = 0 at this
  rcases this with h1 | ⟨h1, h2⟩
  · rw [h1]; exact chunkSum_tree _
  · rw [h2]
    unfold Csr.rowVals Comp.lineVals
    rw [h1]
    exact .zero

/-- C70: column sums of a CSR matrix, whichever strategy is used. -/
theorem col_sums_csr_terms [Zero V] [Add V] (nthreads : Nat) {a : Csr V} (ha : a.WFU) (hn : a.ncols ≤ usizeMax)
    {y : List V} (h : ColSumsRun nthreads a y) :
    y.length = a.ncols ∧ ∀ j, j < a.ncols → AddTree (a.colVals j : Multiset V) (y.getD j 0) := by
  have hk : ∀ o ∈ ((List.range a.nrows).map (lineAdds a.comp)).flatten, o.1 < a.ncols := lines_lt (a := a.comp) ha
  have hk' : ∀ o ∈ ((lineRanges a.comp).map fun r => (rangeLines r).flatMap (lineAdds a.comp)).flatten,
      o.1 < a.ncols := range_lines_flatten (a := a.comp) ▸ hk
  have hs : ∀ j, slotVals ((List.range a.nrows).map (lineAdds a.comp)).flatten j = (a.colVals j : Multiset V) :=
    slotVals_lines (a := a.comp) ha
  unfold ColSumsRun at h
  split at h
  · rename_i h0
    subst h
    exact ⟨h0.symm, fun j hj => by omega⟩
  split at h
  · obtain ⟨groups, hd, h⟩ := h
    obtain ⟨h1, h2⟩ := accumPlain_tree (division_mem hd hk) h
    refine ⟨h1, fun j hj => ?_⟩
    rw [← hs, ← slotVals_perm (division_flatten hd)]
    exact h2 j hj
  split at h
  · obtain ⟨groups, hd, h⟩ := h
    obtain ⟨h1, h2⟩ := accumHash_tree (division_mem hd hk) _ hn h
    refine ⟨h1, fun j hj => ?_⟩
    rw [← hs, ← slotVals_perm (division_flatten hd)]
    exact h2 j hj
  · obtain ⟨groups, hd, h⟩ := h
    obtain ⟨h1, h2⟩ := accumStripePar_tree (division_mem hd hk') _ (by decide) h
    refine ⟨h1, fun j hj => ?_⟩
    have e : ((List.range a.nrows).map (lineAdds a.comp)).flatten =
        ((lineRanges a.comp).map fun r => (rangeLines r).flatMap (lineAdds a.comp)).flatten :=
      (range_lines_flatten (a := a.comp)).symm
    rw [← hs, e, ← slotVals_perm (division_flatten hd)]
    exact h2 j hj

/-- C70: row sums of a CSC matrix. -/
theorem row_sums_csc_terms [Zero V] [Add V] {a : Csc V} (ha : a.WFU) (hn : a.nrows ≤ usizeMax)
    {y : List V} (h : RowSumsCscRun a y) :
    y.length = a.nrows ∧ ∀ i, i < a.nrows → AddTree (a.rowVals i : Multiset V) (y.getD i 0) := by
  have hk : ∀ o ∈ ((List.range a.ncols).map (lineAdds a.comp)).flatten, o.1 < a.nrows := lines_lt (a := a.comp) ha
  have hs : ∀ j, slotVals ((List.range a.ncols).map (lineAdds a.comp)).flatten j = (a.rowVals j : Multiset V) :=
    slotVals_lines (a := a.comp) ha
  unfold RowSumsCscRun at h
  split at h
  · rename_i h0
    subst h
    exact ⟨h0.symm, fun j hj => by omega⟩
  obtain ⟨groups, hd, h⟩ := h
  have key : y.length = a.nrows ∧ ∀ k, k < a.nrows →
      AddTree (slotVals (groups.map List.flatten).flatten k) (y.getD k 0) := by
    split at h
    · exact accumHash_tree (division_mem hd hk) _ hn h
    · exact accumStripe_tree (division_mem hd hk) _ (by decide) h
  refine ⟨key.1, fun j hj => ?_⟩
  rw [← hs, ← slotVals_perm (division_flatten hd)]
  exact key.2 j hj

/-- C70: column sums of a CSC matrix. -/
theorem col_sums_csc_terms [Zero V] [Add V] (a : Csc V) :
    (colSumsCsc a).length = a.ncols ∧ ∀ j, j < a.ncols → AddTree (a.colVals j : Multiset V) ((colSumsCsc a).getD j 0) := by
  unfold colSumsCsc
  split
  · rename_i h0
    exact ⟨h0.symm, fun j hj => by omega⟩
  refine ⟨by simp, fun j hj => ?_⟩
  rw [show ((List.range a.ncols).map fun j => chunkSum ((a.comp.row j).map Prod.snd)).getD j 0 =
    chunkSum ((a.comp.row j).map Prod.snd) by simp [hj]]
  exact chunkSum_tree _

theorem slotVals_coo (l : List ((Int × Int) × V)) (key : (Int × Int) → Int)
    (h0 : ∀ t ∈ l, 0 ≤ key t.1) (h1 : ∀ t ∈ l, key t.1 ≤ i64Max) (k : Nat) :
    slotVals (l.map fun t => (i64ToUsize (key t.1), t.2)) k =
      (((l.filter fun t => key t.1 == (k : Int)).map Prod.snd : List V) : Multiset V) := by
  unfold slotVals
  rw [List.filter_map, List.map_map]
  have : l.filter ((fun o : Nat × V => o.1 == k) ∘ fun t => (i64ToUsize (key t.1), t.2)) =
      l.filter fun t => key t.1 == (k : Int) := by
    apply List.filter_congr
    intro t ht
    have h2 := h0 t ht
    simp only [Function.comp, i64ToUsize_of_nonneg h2 (h1 t ht)]
    rw [Bool.eq_iff_iff, beq_iff_eq, beq_iff_eq]
    omega
  rw [this]
  rfl

theorem Coo.triples_nil {a : Coo V} (h : a.data.length = 0) : a.triples = [] := by
  rw [← List.length_eq_zero_iff]
  unfold Coo.triples
  rw [List.length_zip, h]; simp

/-- C70: row sums of a COO matrix. -/
theorem row_sums_coo_terms [Zero V] [Add V] (nthreads : Nat) {a : Coo V} (ha : a.WF) (hi : a.I64)
    (hn : a.nrows ≤ usizeMax) {y : List V} (h : RowSumsCooRun nthreads a y) :
    y.length = a.nrows ∧ ∀ i, i < a.nrows → AddTree (a.rowVals i : Multiset V) (y.getD i 0) := by
  unfold RowSumsCooRun at h
  split at h
  · rename_i h0
    subst h
    exact ⟨h0.symm, fun j hj => by omega⟩
  split at h
  · rename_i h0
    subst h
    refine ⟨by simp, fun j hj => ?_⟩
    unfold Coo.rowVals
    rw [Coo.triples_nil h0, replicate_getD_zero]
    exact .zero
  obtain ⟨groups, hd, h⟩ := h
  have hflat := chunksOf_flatten (cooChunk_pos nthreads a.data.length)
    (a.triples.map fun t => (i64ToUsize t.1.1, t.2))
  have hk : ∀ o ∈ (chunksOf (cooChunk nthreads a.data.length)
      (a.triples.map fun t => (i64ToUsize t.1.1, t.2))).flatten, o.1 < a.nrows := by
    rw [hflat]
    intro o ho
    obtain ⟨t, ht, rfl⟩ := List.mem_map.1 ho
    have := ha.triple_bounds t ht
    simp only [i64ToUsize_of_nonneg this.1.1 (hi.triple t ht).1]
    omega
  have key : y.length = a.nrows ∧ ∀ k, k < a.nrows →
      AddTree (slotVals (groups.map List.flatten).flatten k) (y.getD k 0) := by
    split at h
    · exact accumHash_tree (division_mem hd hk) _ hn h
    · exact accumStripe_tree (division_mem hd hk) _ (by decide) h
  refine ⟨key.1, fun i hi' => ?_⟩
  have := key.2 i hi'
  rw [slotVals_perm (division_flatten hd), hflat, slotVals_coo a.triples (fun p => p.1)
    (fun t ht => (ha.triple_bounds t ht).1.1) (fun t ht => (hi.triple t ht).1)] at this
  exact this

/-- C70: column sums of a COO matrix. -/
theorem col_sums_coo_terms [Zero V] [Add V] (nthreads : Nat) {a : Coo V} (ha : a.WF) (hi : a.I64)
    (hn : a.ncols ≤ usizeMax) {y : List V} (h : ColSumsCooRun nthreads a y) :
    y.length = a.ncols ∧ ∀ j, j < a.ncols → AddTree (a.colVals j : Multiset V) (y.getD j 0) := by
  unfold ColSumsCooRun at h
  split at h
  · rename_i h0
    subst h
    exact ⟨h0.symm, fun j hj => by omega⟩
  split at h
  · rename_i h0
    subst h
    refine ⟨by simp, fun j hj => ?_⟩
    unfold Coo.colVals
    rw [Coo.triples_nil h0, replicate_getD_zero]
    exact .zero
  obtain ⟨groups, hd, h⟩ := h
  have hflat := chunksOf_flatten (cooChunk_pos nthreads a.data.length)
    (a.triples.map fun t => (i64ToUsize t.1.2, t.2))
  have hk : ∀ o ∈ (chunksOf (cooChunk nthreads a.data.length)
      (a.triples.map fun t => (i64ToUsize t.1.2, t.2))).flatten, o.1 < a.ncols := by
    rw [hflat]
    intro o ho
    obtain ⟨t, ht, rfl⟩ := List.mem_map.1 ho
    have := ha.triple_bounds t ht
    simp only [i64ToUsize_of_nonneg this.2.1 (hi.triple t ht).2]
    omega
  have key : y.length = a.ncols ∧ ∀ k, k < a.ncols →
      AddTree (slotVals (groups.map List.flatten).flatten k) (y.getD k 0) := by
    split at h
    · exact accumHash_tree (division_mem hd hk) _ hn h
    · exact accumStripePar_tree (division_mem hd hk) _ (by decide) h
  refine ⟨key.1, fun j hj => ?_⟩
  have := key.2 j hj
  rw [slotVals_perm (division_flatten hd), hflat, slotVals_coo a.triples (fun p => p.2)
    (fun t ht => (ha.triple_bounds t ht).2.1) (fun t ht => (hi.triple t ht).2)] at this
  exact this

/-! ### Error bounds -/

section
variable [Zero V] [Add V] (M : FpAdd V)

/-- C70: the error of a sum over all stored values, for every reduction tree. -/
theorem sum_error {data : List V} {r : V} (h : SumRun data r) : RoundedSum M (data : Multiset V) r := (sum_terms h).rounded M

/-- C70: the error of row and column sums, for every strategy, number of threads, division of the work
and order of merging. -/
theorem row_sums_csr_error {a : Csr V} {y : List V} (h : RowSumsRun a y) {i : Nat} (hi : i < a.nrows) :
    RoundedSum M (a.rowVals i : Multiset V) (y.getD i 0) := ((row_sums_csr_terms h).2 i hi).rounded M

theorem col_sums_csr_error (nthreads : Nat) {a : Csr V} (ha : a.WFU) (hn : a.ncols ≤ usizeMax) {y : List V}
    (h : ColSumsRun nthreads a y) {j : Nat} (hj : j < a.ncols) :
    RoundedSum M (a.colVals j : Multiset V) (y.getD j 0) := ((col_sums_csr_terms nthreads ha hn h).2 j hj).rounded M

theorem row_sums_csc_error {a : Csc V} (ha : a.WFU) (hn : a.nrows ≤ usizeMax) {y : List V}
    (h : RowSumsCscRun a y) {i : Nat} (hi : i < a.nrows) :
    RoundedSum M (a.rowVals i : Multiset V) (y.getD i 0) := ((row_sums_csc_terms ha hn h).2 i hi).rounded M

theorem col_sums_csc_error (a : Csc V) {j : Nat} (hj : j < a.ncols) :
    RoundedSum M (a.colVals j : Multiset V) ((colSumsCsc a).getD j 0) := ((col_sums_csc_terms a).2 j hj).rounded M

theorem row_sums_coo_error (nthreads : Nat) {a : Coo V} (ha : a.WF) (hi : a.I64) (hn : a.nrows ≤ usizeMax) {y : List V}
    (h : RowSumsCooRun nthreads a y) {i : Nat} (hr : i < a.nrows) :
    RoundedSum M (a.rowVals i : Multiset V) (y.getD i 0) := ((row_sums_coo_terms nthreads ha hi hn h).2 i hr).rounded M

theorem col_sums_coo_error (nthreads : Nat) {a : Coo V} (ha : a.WF) (hi : a.I64) (hn : a.ncols ≤ usizeMax) {y : List V}
    (h : ColSumsCooRun nthreads a y) {j : Nat} (hj : j < a.ncols) :
    RoundedSum M (a.colVals j : Multiset V) (y.getD j 0) := ((col_sums_coo_terms nthreads ha hi hn h).2 j hj).rounded M

/-- The factor is at most `(n - 1) eps / (1 - (n - 1) eps)`. -/
theorem rounded_sum_gamma {s : Multiset V} {v : V} (h : RoundedSum M s v) (hs : ∀ x ∈ s, M.Fin x)
    (hb : (1 + M.eps) ^ s.card * (s.map fun x => |M.val x|).sum ≤ M.big) (hn : ((s.card - 1 : ℕ) : ℚ) * M.eps < 1) :
    |M.val v - (s.map M.val).sum| ≤
      ((s.card - 1 : ℕ) : ℚ) * M.eps / (1 - ((s.card - 1 : ℕ) : ℚ) * M.eps) * (s.map fun x => |M.val x|).sum := by
  refine le_trans (h hs hb).2 (mul_le_mul_of_nonneg_right (gamma_le M.eps_nonneg _ hn) ?_)
  exact Multiset.sum_nonneg (by simp only [Multiset.mem_map]; rintro _ ⟨x, _, rfl⟩; exact abs_nonneg _)
end

/-! ### Exact results -/

/-- The numbers are integer multiples of one power of two and their absolute values add up to less
than `2 ^ 53` units. -/
def UnitTerms (s : Multiset B64) : Prop :=
  ∃ e : ℤ, -1074 ≤ e ∧ e ≤ 971 ∧ (∀ x ∈ s, ∃ m : ℤ, x = .fin (m * 2 ^ e)) ∧
    (s.map fun x => |x.toRat|).sum < 2 ^ 53 * 2 ^ e

/-- C70: such sums have no rounding error and do not depend on the execution. -/
theorem sum_exact {data : List B64} (hd : UnitTerms (data : Multiset B64)) {r : B64} (h : SumRun data r) :
    r = .fin (data.map B64.toRat).sum := by
  obtain ⟨e, h1, h2, h3, h4⟩ := hd
  simpa using B64.tree_exact h1 h2 (sum_terms h) h3 h4

theorem row_sums_csr_exact {a : Csr B64} {y : List B64} (h : RowSumsRun a y) {i : Nat} (hi : i < a.nrows)
    (hd : UnitTerms (a.rowVals i : Multiset B64)) : y.getD i 0 = .fin ((a.rowVals i).map B64.toRat).sum := by
  obtain ⟨e, h1, h2, h3, h4⟩ := hd
  simpa using B64.tree_exact h1 h2 ((row_sums_csr_terms h).2 i hi) h3 h4

theorem col_sums_csr_exact (nthreads : Nat) {a : Csr B64} (ha : a.WFU) (hn : a.ncols ≤ usizeMax) {y : List B64}
    (h : ColSumsRun nthreads a y) {j : Nat} (hj : j < a.ncols) (hd : UnitTerms (a.colVals j : Multiset B64)) :
    y.getD j 0 = .fin ((a.colVals j).map B64.toRat).sum := by
  obtain ⟨e, h1, h2, h3, h4⟩ := hd
  simpa using B64.tree_exact h1 h2 ((col_sums_csr_terms nthreads ha hn h).2 j hj) h3 h4

theorem row_sums_csc_exact {a : Csc B64} (ha : a.WFU) (hn : a.nrows ≤ usizeMax) {y : List B64}
    (h : RowSumsCscRun a y) {i : Nat} (hi : i < a.nrows) (hd : UnitTerms (a.rowVals i : Multiset B64)) :
    y.getD i 0 = .fin ((a.rowVals i).map B64.toRat).sum := by
  obtain ⟨e, h1, h2, h3, h4⟩ := hd
  simpa using B64.tree_exact h1 h2 ((row_sums_csc_terms ha hn h).2 i hi) h3 h4

theorem col_sums_csc_exact (a : Csc B64) {j : Nat} (hj : j < a.ncols) (hd : UnitTerms (a.colVals j : Multiset B64)) :
    (colSumsCsc a).getD j 0 = .fin ((a.colVals j).map B64.toRat).sum := by
  obtain ⟨e, h1, h2, h3, h4⟩ := hd
  simpa using B64.tree_exact h1 h2 ((col_sums_csc_terms a).2 j hj) h3 h4

theorem row_sums_coo_exact (nthreads : Nat) {a : Coo B64} (ha : a.WF) (hi : a.I64) (hn : a.nrows ≤ usizeMax)
    {y : List B64} (h : RowSumsCooRun nthreads a y) {i : Nat} (hr : i < a.nrows)
    (hd : UnitTerms (a.rowVals i : Multiset B64)) : y.getD i 0 = .fin ((a.rowVals i).map B64.toRat).sum := by
  obtain ⟨e, h1, h2, h3, h4⟩ := hd
  simpa using B64.tree_exact h1 h2 ((row_sums_coo_terms nthreads ha hi hn h).2 i hr) h3 h4

theorem col_sums_coo_exact (nthreads : Nat) {a : Coo B64} (ha : a.WF) (hi : a.I64) (hn : a.ncols ≤ usizeMax)
    {y : List B64} (h : ColSumsCooRun nthreads a y) {j : Nat} (hj : j < a.ncols)
    (hd : UnitTerms (a.colVals j : Multiset B64)) : y.getD j 0 = .fin ((a.colVals j).map B64.toRat).sum := by
  obtain ⟨e, h1, h2, h3, h4⟩ := hd
  simpa using B64.tree_exact h1 h2 ((col_sums_coo_terms nthreads ha hi hn h).2 j hj) h3 h4

/-! ### No reproducibility -/

/-- A sum of a number and zeros. -/
theorem AddTree.single [Zero V] [Add V] {x : V} (h0 : (0 : V) + 0 = 0) (h1 : 0 + x = x) (h2 : x + 0 = x)
    {s : Multiset V} {v : V} (h : AddTree s v) :
    ((∀ y ∈ s, y = 0) → v = 0) ∧ ∀ t, s = x ::ₘ t → (∀ y ∈ t, y = 0) → v = x := by
  induction h with
  | zero => exact ⟨fun _ => rfl, fun t ht => absurd ht (by simp)⟩
  | leaf y =>
    refine ⟨fun h => h y (by simp), fun t ht _ => ?_⟩
    have := Multiset.singleton_inj.1 (ht.trans (by
      have : t = 0 := by
        have := congrArg Multiset.card ht
        simpa using this.symm
      rw [this]; rfl))
    exact this
  | @node s t a b _ _ ih1 ih2 =>
    constructor
    · intro h
      rw [ih1.1 fun y hy => h y (by simp [hy]), ih2.1 fun y hy => h y (by simp [hy]), h0]
    · intro u hu hz
      have hx : x ∈ s + t := by rw [hu]; simp
      rcases Multiset.mem_add.1 hx with hx | hx
      · obtain ⟨s', rfl⟩ := Multiset.exists_cons_of_mem hx
        have e : s' + t = u := by
          rw [Multiset.cons_add] at hu
          exact Multiset.cons_inj_right x |>.1 hu
        rw [ih1.2 s' rfl fun y hy => hz y (by rw [← e]; simp [hy]), ih2.1 fun y hy => hz y (by rw [← e]; simp [hy]), h2]
      · obtain ⟨t', rfl⟩ := Multiset.exists_cons_of_mem hx
        have e : s + t' = u := by
          rw [Multiset.add_cons] at hu
          exact Multiset.cons_inj_right x |>.1 hu
        rw [ih1.1 fun y hy => hz y (by rw [← e]; simp [hy]), ih2.2 t' rfl fun y hy => hz y (by rw [← e]; simp [hy]), h1]

/-- A chunk with one number and zeros. -/
def exChunk (q : ℚ) : List B64 := .fin q :: List.replicate 4095 0

/-- `2^53`, `1` and `1`, each followed by 4095 zeros. -/
def exOrder : List B64 := exChunk (2 ^ 53) ++ (exChunk 1 ++ exChunk 1)

theorem chunksOf_append {α : Type u} {k : Nat} (hk : 0 < k) {c : List α} (hc : c.length = k) (l : List α) :
    chunksOf k (c ++ l) = c :: chunksOf k l := by
  have hne : c ++ l ≠ [] := by
    intro h
    rw [(List.append_eq_nil_iff.1 h).1] at hc
    simp at hc; omega
  rw [chunksOf, dif_neg (by simp only [hne, false_or]; omega), List.take_left' hc, List.drop_left' hc]

theorem exChunk_length (q : ℚ) : (exChunk q).length = 4096 := by
  unfold exChunk
  rw [List.length_cons, List.length_replicate]

theorem exChunk_sum {q : ℚ} (h : B64.Rep q) : chunkSum (exChunk q) = .fin q := by
  refine (AddTree.single (x := B64.fin q) ?_ ?_ ?_ (chunkSum_tree (exChunk q))).2 (List.replicate 4095 0 : List B64) rfl ?_
  · show B64.ofRat (0 + 0) = .fin 0
    rw [add_zero]; exact B64.ofRat_rep B64.rep_zero
  · show B64.ofRat (0 + q) = .fin q
    rw [zero_add]; exact B64.ofRat_rep h
  · show B64.ofRat (q + 0) = .fin q
    rw [add_zero]; exact B64.ofRat_rep h
  · intro y hy
    exact List.eq_of_mem_replicate (Multiset.mem_coe.1 hy)

theorem rep_nat {n : ℕ} (h : n < 2 ^ 53) : B64.Rep n := by
  have := B64.rep_units (m := n) (e := 0) (by norm_num) (by norm_num) (by simpa using h)
  simpa using this

theorem rnd64_tie : rnd64 (2 ^ 53 + 1) = 2 ^ 53 := by
  have e : (2 ^ 53 + 1 : ℚ) = ((2 ^ 53 + 1 : ℕ) : ℚ) := by norm_num
  have hl : ulpExp (2 ^ 53 + 1) = 1 := by
    unfold ulpExp
    rw [abs_of_pos (by norm_num), e, Int.log_natCast]
    have : Nat.log 2 (2 ^ 53 + 1) = 53 := by
      rw [Nat.log_eq_iff (by norm_num)]
      norm_num
    rw [this]
    rfl
  unfold rnd64
  rw [hl]
  have : roundEven ((2 ^ 53 + 1) / 2 ^ (1 : ℤ)) = 2 ^ 52 := by
    have hf : ⌊((2 ^ 53 + 1) / 2 ^ (1 : ℤ) : ℚ)⌋ = 2 ^ 52 := by
      rw [Int.floor_eq_iff]; norm_num
    unfold roundEven
    rw [hf]
    norm_num
  rw [this]
  norm_num

/-- C70: in binary64 the same sum may come out differently from one run to the next. -/
theorem sum_not_reproducible : ∃ r r', SumRun exOrder r ∧ SumRun exOrder r' ∧ r ≠ r' := by
  have hc : chunksOf 4096 exOrder = [exChunk (2 ^ 53), exChunk 1, exChunk 1] := by
    have hl : chunksOf 4096 (exChunk 1) = [exChunk 1] := by
      have := chunksOf_append (k := 4096) (by norm_num) (exChunk_length 1) []
      rw [List.append_nil] at this
      rw [this]
      congr 1
      rw [chunksOf]; simp
    unfold exOrder
    rw [chunksOf_append (by norm_num) (exChunk_length _), chunksOf_append (by norm_num) (exChunk_length _), hl]
  have r53 : B64.Rep (2 ^ 53) := by
    have := B64.rep_units (m := 2 ^ 52) (e := 1) (by norm_num) (by norm_num) (by norm_num)
    norm_num at this ⊢
    exact this
  have r1 : B64.Rep 1 := by simpa using rep_nat (n := 1) (by norm_num)
  have r2 : B64.Rep 2 := by simpa using rep_nat (n := 2) (by norm_num)
  have hm : (chunksOf 4096 exOrder).map chunkSum = [.fin (2 ^ 53), .fin 1, .fin 1] := by
    rw [hc, List.map_cons, List.map_cons, List.map_cons, List.map_nil, exChunk_sum r53, exChunk_sum r1]
  have e1 : (B64.fin (2 ^ 53) + .fin 1 : B64) = .fin (2 ^ 53) := by
    show B64.ofRat (2 ^ 53 + 1) = _
    unfold B64.ofRat
    rw [rnd64_tie, if_pos]
    exact r53.2
  have e2 : (B64.fin 1 + .fin 1 : B64) = .fin 2 := by
    show B64.ofRat (1 + 1) = _
    rw [one_add_one_eq_two]
    exact B64.ofRat_rep r2
  have e3 : (B64.fin (2 ^ 53) + .fin 2 : B64) = .fin (2 ^ 53 + 2) := by
    show B64.ofRat (2 ^ 53 + 2) = _
    apply B64.ofRat_rep
    have := B64.rep_units (m := 2 ^ 52 + 1) (e := 1) (by norm_num) (by norm_num) (by norm_num)
    norm_num at this ⊢
    exact this
  refine ⟨(.fin (2 ^ 53) + .fin 1) + .fin 1, .fin (2 ^ 53) + (.fin 1 + .fin 1), ?_, ?_, ?_⟩
  · unfold SumRun ChunkReduce
    rw [hm]
    exact .join (l := [_, _]) (.join (l := [_]) (.one _) (.one _)) (.one _)
  · unfold SumRun ChunkReduce
    rw [hm]
    exact .join (l := [_]) (.one _) (.join (l := [_]) (.one _) (.one _))
  · rw [e1, e1, e2, e3]
    intro h
    have := B64.fin.inj h
    norm_num at this

/-! ### Witnesses -/

theorem rep_pow53 : B64.Rep (2 ^ 53) := by
  have := B64.rep_units (m := 2 ^ 52) (e := 1) (by norm_num) (by norm_num) (by norm_num)
  norm_num at this ⊢
  exact this

theorem big_pow : (2 : ℚ) ^ 60 ≤ max64 := by
  unfold max64
  have : (2 : ℚ) ^ (60 : ℤ) ≤ 2 ^ (971 : ℤ) := zpow_le_zpow_right₀ (by norm_num) (by norm_num)
  have h2 : (1 : ℚ) * 2 ^ (971 : ℤ) ≤ (2 ^ 53 - 1) * 2 ^ (971 : ℤ) :=
    mul_le_mul_of_nonneg_right (by norm_num) (le_of_lt (two_zpow_pos _))
  rw [one_mul] at h2
  exact le_trans (le_of_eq (zpow_ofNat 2 60).symm) (le_trans this h2)

/-- The row `2^53, 1, 1`, whose computed sum may be off by 2: `RoundedSum` applies, and allows it. -/
example : (∀ x ∈ (([.fin (2 ^ 53), .fin 1, .fin 1] : List B64) : Multiset B64), B64.fp.Fin x) ∧
    (1 + B64.fp.eps) ^ 3 * ((([.fin (2 ^ 53), .fin 1, .fin 1] : List B64) : Multiset B64).map fun x => |B64.fp.val x|).sum ≤
      B64.fp.big ∧
    (2 : ℚ) ≤ ((1 + B64.fp.eps) ^ 2 - 1) * (2 ^ 53 + 1 + 1) := by
  have r1 : B64.Rep 1 := by simpa using rep_nat (n := 1) (by norm_num)
  refine ⟨?_, ?_, ?_⟩
  · simp only [Multiset.mem_coe, List.mem_cons, List.not_mem_nil, or_false]
    rintro x (rfl | rfl | rfl)
    · exact rep_pow53
    · exact r1
    · exact r1
  · refine le_trans ?_ big_pow
    simp only [Multiset.map_coe, Multiset.sum_coe, List.map_cons, List.map_nil, List.sum_cons, List.sum_nil]
    show (1 + 1 / 2 ^ 53 : ℚ) ^ 3 * (|(2 ^ 53 : ℚ)| + (|(1 : ℚ)| + (|(1 : ℚ)| + 0))) ≤ 2 ^ 60
    norm_num
  · show (2 : ℚ) ≤ ((1 + 1 / 2 ^ 53) ^ 2 - 1) * (2 ^ 53 + 1 + 1)
    norm_num

/-- Small integers are added exactly. -/
theorem exInts_unit : UnitTerms (([.fin 3, .fin (-1), .fin 5] : List B64) : Multiset B64) := by
  refine ⟨0, by norm_num, by norm_num, ?_, ?_⟩
  · simp only [Multiset.mem_coe, List.mem_cons, List.not_mem_nil, or_false]
    rintro x (rfl | rfl | rfl)
    · exact ⟨3, by norm_num⟩
    · exact ⟨-1, by norm_num⟩
    · exact ⟨5, by norm_num⟩
  · simp only [Multiset.map_coe, Multiset.sum_coe, List.map_cons, List.map_nil, List.sum_cons, List.sum_nil, B64.toRat]
    norm_num

example {r : B64} (h : SumRun [.fin 3, .fin (-1), .fin 5] r) : r = .fin 7 := by
  rw [sum_exact exInts_unit h]
  simp only [List.map_cons, List.map_nil, List.sum_cons, List.sum_nil, B64.toRat]
  norm_num

/-- `[[3, -1, 5]]`. -/
def exInts : Csr B64 := ⟨1, 3, [0, 3], [0, 1, 2], [.fin 3, .fin (-1), .fin 5]⟩
theorem exInts_wfu : exInts.WFU := ⟨rfl, rfl, rfl, rfl, by decide, by decide, by unfold i64Max; decide⟩
example : ∃ y, RowSumsRun exInts y ∧ y.getD 0 0 = .fin 7 := by
  refine ⟨_, ⟨_, List.Perm.refl _, rfl⟩, ?_⟩
  rw [row_sums_csr_exact ⟨_, List.Perm.refl _, rfl⟩ (i := 0) (by decide) (by
    show UnitTerms ((exInts.comp.row 0).map Prod.snd : List B64)
    exact exInts_unit)]
  show B64.fin (([.fin 3, .fin (-1), .fin 5] : List B64).map B64.toRat).sum = _
  simp only [List.map_cons, List.map_nil, List.sum_cons, List.sum_nil, B64.toRat]
  norm_num

end Lacuna
