import Verif.Props.Prod
import Mathlib.Algebra.Order.Field.Basic
import Mathlib.Algebra.Order.BigOperators.Group.List
import Mathlib.Algebra.BigOperators.Ring.List
import Mathlib.Algebra.BigOperators.Group.List.Lemmas
import Mathlib.Tactic.Ring
import Mathlib.Tactic.FieldSimp
import Mathlib.Tactic.NormNum
import Mathlib.Algebra.Order.Ring.Rat
import Mathlib.Algebra.Field.Rat
import Mathlib.Analysis.Real.Sqrt
/-
C38: variance and standard deviation.
-/
namespace Lacuna
universe u
variable {V : Type u}

/-! ### Sums and sums of squares -/

section
variable [CommSemiring V]

theorem squares_sum (l : List V) : (squares l).sum = (l.sum, (l.map fun x => x * x).sum) := by
  induction l with
  | nil => rfl
  | cons x l ih =>
    unfold squares at ih ⊢
    rw [List.map_cons, List.sum_cons, ih, List.sum_cons, List.map_cons, List.sum_cons]
    rfl

theorem chunkSums_eq (l : List V) : chunkSums l = (squares l).sum := by
  unfold chunkSums
  split
  · rename_i h
    rw [List.isEmpty_iff.1 h]; rfl
  · exact ((add_isMonoid (V := V × V)).simdFold_eq _).trans (foldl_add_eq_sum _)

theorem squares_flatten (L : List (List V)) : squares L.flatten = (L.map squares).flatten := by
  unfold squares; rw [List.map_flatten]

theorem sumsRun_eq {data : List V} {r : V × V} (h : SumsRun data r) :
    r = (data.sum, (data.map fun x => x * x).sum) := by
  have h1 := (add_isMonoid (V := V × V)).rayon_eq h
  rw [h1, ← squares_sum, foldl_add_eq_sum]
  have : (chunksOf 4096 data).map chunkSums = ((chunksOf 4096 data).map squares).map List.sum := by
    rw [List.map_map]
    exact List.map_congr_left fun l _ => chunkSums_eq l
  rw [this, ← List.sum_flatten, ← squares_flatten, chunksOf_flatten (by decide)]

/-- Zeros change neither sum. -/
theorem sums_padded {cells l : List V} {k : Nat} (hp : cells.Perm (l ++ List.replicate k 0)) :
    cells.sum = l.sum ∧ (cells.map fun x => x * x).sum = (l.map fun x => x * x).sum := by
  rw [hp.sum_eq, (hp.map _).sum_eq]
  simp

end

section
variable [Field V] [LinearOrder V] [IsStrictOrderedRing V]

/-- The sum of squared deviations. -/
theorem sum_deviations (l : List V) (hl : l ≠ []) :
    (l.map fun x => (x - listMean l) * (x - listMean l)).sum =
      (l.map fun x => x * x).sum - l.sum * l.sum / (l.length : V) := by
  have hn : (l.length : V) ≠ 0 := by
    rw [Nat.cast_ne_zero]
    exact fun h => hl (List.length_eq_zero_iff.1 h)
  have key : ∀ (μ : V) (l : List V), (l.map fun x => (x - μ) * (x - μ)).sum =
      (l.map fun x => x * x).sum - 2 * μ * l.sum + (l.length : V) * (μ * μ) := by
    intro μ l
    induction l with
    | nil => simp
    | cons x l ih =>
      simp only [List.map_cons, List.sum_cons, List.length_cons, ih, Nat.cast_add, Nat.cast_one]
      ring
  rw [key, listMean]
  field_simp
  ring

/-- A variance is not negative. -/
theorem listVar_nonneg (c : V) (l : List V) (hc : c < (l.length : V)) : 0 ≤ listVar c l := by
  refine div_nonneg (List.sum_nonneg ?_) (le_of_lt (sub_pos.2 hc))
  intro x hx
  obtain ⟨y, _, rfl⟩ := List.mem_map.1 hx
  exact mul_self_nonneg _

theorem specVar_nonneg (c : V) (l : List V) : 0 ≤ specVar c l := by
  unfold specVar
  split
  · exact le_refl _
  split
  · exact le_refl _
  · rename_i h
    exact listVar_nonneg c l (sub_pos.1 (not_le.1 h))

variable [HasLt V] [BEq V] [LawfulBEq V] (hlt : ∀ x y : V, flt x y = true ↔ x < y)
include hlt

/-- The closed formula equals the definition. -/
theorem varianceFromSums_eq (c : V) {cells : List V} {n : Nat} (hn : cells.length = n) :
    varianceFromSums cells.sum (cells.map fun x => x * x).sum n c = specVar c cells := by
  subst hn
  unfold varianceFromSums specVar
  by_cases h0 : cells = []
  · simp [h0]
  have hlen : cells.length ≠ 0 := fun h => h0 (List.length_eq_zero_iff.1 h)
  rw [if_neg hlen, if_neg h0]
  have hc : (flt ((cells.length : V) - c) 0 || ((cells.length : V) - c) == 0) = true ↔
      (cells.length : V) - c ≤ 0 := by
    rw [Bool.or_eq_true, hlt, beq_iff_eq, le_iff_lt_or_eq]
  by_cases hd : (cells.length : V) - c ≤ 0
  · rw [if_pos (hc.2 hd), if_pos hd]
  · rw [if_neg (fun h => hd (hc.1 h)), if_neg hd]
    have hv : ((cells.map fun x => x * x).sum - cells.sum * cells.sum / (cells.length : V)) /
        ((cells.length : V) - c) = listVar c cells := by
      unfold listVar
      rw [sum_deviations cells h0]
    simp only [hv]
    rw [if_neg]
    intro h
    exact absurd ((hlt _ _).1 h) (not_lt.2 (listVar_nonneg c cells (sub_pos.1 (not_le.1 hd))))

theorem varRun_cells {n : Nat} {data cells : List V} (c : V) (hn : cells.length = n) {k : Nat}
    (hp : cells.Perm (data ++ List.replicate k 0)) {r : V} (hr : VarRun n data c r) : r = specVar c cells := by
  unfold VarRun at hr
  split at hr
  · rename_i h0
    have : cells = [] := List.length_eq_zero_iff.1 (by omega)
    rw [this]
    exact hr
  · obtain ⟨s, hs, rfl⟩ := hr
    obtain ⟨h1, h2⟩ := sums_padded hp
    rw [sumsRun_eq hs, ← varianceFromSums_eq hlt c hn, h1, h2]

theorem lineVars_eq {a : Comp V} (ha : a.WF) (c : V) :
    lineVars a c = (List.range a.n).map fun i => specVar c ((List.range a.m).map (a.val i)) := by
  unfold lineVars
  split
  · rename_i h; simp [h]
  · apply List.map_congr_left
    intro i _
    split
    · rename_i h; simp [h, specVar]
    · obtain ⟨h1, h2⟩ := sums_padded (ha.line_perm i)
      rw [← varianceFromSums_eq hlt c (cells := (List.range a.m).map (a.val i)) (n := a.m) (by simp), h1, h2]
      simp only [chunkSums_eq, squares_sum]

omit [LinearOrder V] [IsStrictOrderedRing V] [HasLt V] [BEq V] [LawfulBEq V] hlt in
theorem combineAdd_ok {W : Type u} [AddCommMonoid W] {n stripe : Nat} (hs : 0 < stripe)
    {groups : List (List (Nat × W))} (ho : ∀ g ∈ groups, ∀ o ∈ g, o.1 < n) :
    combineAdd n stripe groups =
      some ((List.range n).map fun k => ((groups.flatten.filter fun o => o.1 == k).map Prod.snd).sum) := by
  obtain ⟨cells, ups, h1, h2, h3, h4⟩ := groups_ok (e := (0 : W)) (add_isMonoid (V := W)).isComm hs ho
  unfold combineAdd
  rw [h1, Option.bind_some, h2, Option.bind_some, addAll?_eq _ _ (by simpa using h3), addAll_zero]
  unfold ksums
  congr 1
  apply List.map_congr_left
  intro k hk
  have h5 := congrArg (fun o => Option.getD o 0) (h4 k (List.mem_range.1 hk))
  simp only [kfold_getD (add_isMonoid (V := W)), foldl_add_eq_sum] at h5
  exact h5

theorem cooVars_iff (nthreads n m : Nat) (ops : List (Nat × V)) (hk : ∀ x ∈ ops, x.1 < n) (c : V)
    {cells : Nat → List V} (hlen : ∀ i, (cells i).length = m)
    (hp : ∀ i, ∃ k, (cells i).Perm ((ops.filter fun x => x.1 == i).map Prod.snd ++ List.replicate k 0)) (y : List V) :
    CooVarsRun nthreads n m ops c y ↔ y = (List.range n).map fun i => specVar c (cells i) := by
  unfold CooVarsRun
  split
  · rename_i h0; subst h0; rfl
  split
  · rename_i h0
    have : ∀ i, cells i = [] := fun i => List.length_eq_zero_iff.1 (by rw [hlen, h0])
    simp only [this, specVar, if_true]
    rw [List.map_const', List.length_range]
  have hflat := chunksOf_flatten (cooChunk_pos nthreads ops.length) (ops.map fun o => (o.1, ((o.2, o.2 * o.2) : V × V)))
  have key : ∀ groups, Division (chunksOf (cooChunk nthreads ops.length)
      (ops.map fun o => (o.1, ((o.2, o.2 * o.2) : V × V)))) groups →
      combineAdd n stripeLen (groups.map List.flatten) = some ((List.range n).map fun i =>
        ((cells i).sum, ((cells i).map fun x => x * x).sum)) := by
    intro groups hd
    rw [combineAdd_ok (by decide) (division_mem hd (by
      rw [hflat]
      intro o ho
      obtain ⟨x, hx, rfl⟩ := List.mem_map.1 ho
      exact hk x hx))]
    congr 1
    apply List.map_congr_left
    intro i _
    have hperm := ((division_flatten hd).filter fun o => o.1 == i).map Prod.snd
    rw [hperm.sum_eq, hflat, List.filter_map, List.map_map]
    obtain ⟨k, hk⟩ := hp i
    obtain ⟨h1, h2⟩ := sums_padded hk
    rw [h1, h2, ← squares_sum]
    unfold squares
    rw [List.map_map]
    rfl
  have hfin : ((List.range n).map fun i => ((cells i).sum, ((cells i).map fun x => x * x).sum)).map
      (fun s => varianceFromSums s.1 s.2 m c) = (List.range n).map fun i => specVar c (cells i) := by
    rw [List.map_map]
    exact List.map_congr_left fun i _ => varianceFromSums_eq hlt c (hlen i)
  constructor
  · rintro ⟨groups, hd, sums, h1, rfl⟩
    rw [key groups hd] at h1
    obtain rfl := Option.some.inj h1
    exact hfin
  · rintro rfl
    exact ⟨_, division_single _, _, key _ (division_single _), hfin.symm⟩
end

/-! ### C38: the kernels -/

theorem satMul_eq {n m : Nat} (h : n * m ≤ usizeMax) : satMul n m = n * m := by
  unfold satMul; omega

/-- The global kernels always return. -/
theorem var_runs [Zero V] [Add V] [Sub V] [Mul V] [Div V] [NatCast V] [HasLt V] [BEq V] (n : Nat) (data : List V)
    (c : V) : ∃ r, VarRun n data c r := by
  unfold VarRun
  split
  · exact ⟨0, rfl⟩
  · obtain ⟨s, hs⟩ := rayon_exists (fun x y : V × V => x + y) (0, 0) ((chunksOf 4096 data).map chunkSums)
    exact ⟨_, s, hs, rfl⟩

section
variable [Field V] [LinearOrder V] [IsStrictOrderedRing V] [HasLt V] [BEq V] [LawfulBEq V]
  (hlt : ∀ x y : V, flt x y = true ↔ x < y)
include hlt

/-- C38: global variance of a CSR matrix, for every reduction tree. -/
theorem var_csr_correct {a : Csr V} (ha : a.WF) (hN : a.nrows * a.ncols ≤ usizeMax) (c : V) {r : V}
    (hr : VarRun (satMul a.nrows a.ncols) a.data c r) : r = specVar c a.cells ∧ 0 ≤ r := by
  rw [satMul_eq hN] at hr
  have := varRun_cells hlt c (cellsOf_length _ _ _) (Comp.WF.cells_perm ha) hr
  exact ⟨this, this ▸ specVar_nonneg _ _⟩

/-- C38: CSC. -/
theorem var_csc_correct {a : Csc V} (ha : a.WF) (hN : a.nrows * a.ncols ≤ usizeMax) (c : V) {r : V}
    (hr : VarRun (satMul a.nrows a.ncols) a.data c r) : r = specVar c a.cells ∧ 0 ≤ r := by
  rw [satMul_eq hN] at hr
  have := varRun_cells hlt c (cellsOf_length _ _ _) (csc_cells_perm ha) hr
  exact ⟨this, this ▸ specVar_nonneg _ _⟩

/-- C38: COO without repeated coordinates. -/
theorem var_coo_correct {a : Coo V} (ha : a.WF) (hd : a.NoDup) (hN : a.nrows * a.ncols ≤ usizeMax) (c : V) {r : V}
    (hr : VarRun (satMul a.nrows a.ncols) a.data c r) : r = specVar c a.cells ∧ 0 ≤ r := by
  rw [satMul_eq hN] at hr
  have := varRun_cells hlt c (cellsOf_length _ _ _) (ha.cells_perm hd) hr
  exact ⟨this, this ▸ specVar_nonneg _ _⟩

/-- C38: N-D COO without repeated coordinates. -/
theorem var_coond_correct {a : CooNd V} (ha : a.WF) (hd : a.NoDup) (c : V) {r : V} (hr : VarNdRun a c r) :
    r = specVar c a.cells ∧ 0 ≤ r := by
  unfold VarNdRun at hr
  rw [if_neg ha.rank] at hr
  obtain ⟨n, hn, hr⟩ := hr
  obtain ⟨rfl, _⟩ := productChecked_some hn
  have := varRun_cells hlt c (by rw [CooNd.cells, List.length_map, indicesOf_length]) (ha.cells_perm hd) hr
  exact ⟨this, this ▸ specVar_nonneg _ _⟩

/-- C38: row variances of a CSR matrix. -/
theorem row_vars_csr_correct {a : Csr V} (ha : a.WF) (c : V) :
    lineVars a.comp c = (List.range a.nrows).map fun i => specVar c (a.rowCells i) := lineVars_eq hlt ha c

/-- C38: column variances of a CSC matrix. -/
theorem col_vars_csc_correct {a : Csc V} (ha : a.WF) (c : V) :
    lineVars a.comp c = (List.range a.ncols).map fun j => specVar c (a.colCells j) := lineVars_eq hlt ha c

/-- C38, C46: column variances of a CSR matrix through the transpose. -/
theorem col_vars_csr_correct {a : Csr V} (ha : a.WF) (hf : a.comp.Fits) (c : V)
    {sort : List (Int × V) → List (Int × V)} (hsort : IsPairSort sort) (threads : Nat) :
    (∃ y, ColVarsRun sort threads a c y) ∧
    ∀ y, ColVarsRun sort threads a c y → y = (List.range a.ncols).map fun j => specVar c (a.colCells j) := by
  refine ⟨?_, ?_⟩
  · obtain ⟨t, ht⟩ := transpose_csr_exists ha hf hsort threads
    exact ⟨_, t, ht, rfl⟩
  · rintro y ⟨t, ht, rfl⟩
    obtain ⟨h1, h2, _, h3⟩ := transpose_csr_rowCells ha hf hsort ht
    rw [row_vars_csr_correct hlt h1, h2, h3]

/-- C38, C46: row variances of a CSC matrix through the transpose. -/
theorem row_vars_csc_correct {a : Csc V} (ha : a.WF) (hf : a.comp.Fits) (c : V)
    {sort : List (Int × V) → List (Int × V)} (hsort : IsPairSort sort) (threads : Nat) :
    (∃ y, RowVarsCscRun sort threads a c y) ∧
    ∀ y, RowVarsCscRun sort threads a c y → y = (List.range a.nrows).map fun i => specVar c (a.rowCells i) := by
  refine ⟨?_, ?_⟩
  · obtain ⟨t, ht⟩ := transpose_csc_exists ha hf hsort threads
    exact ⟨_, t, ht, rfl⟩
  · rintro y ⟨t, ht, rfl⟩
    obtain ⟨h1, h2, _, h3⟩ := transpose_csc_colCells ha hf hsort ht
    rw [col_vars_csc_correct hlt h1, h2, h3]

/-- C38: row variances of a COO matrix without repeated coordinates, for every division of
the entries over threads and every merge order. -/
theorem row_vars_coo_correct (nthreads : Nat) {a : Coo V} (ha : a.WF) (hi : a.I64) (hd : a.NoDup) (c : V) :
    (∃ y, RowVarsCooRun nthreads a c y) ∧
    ∀ y, RowVarsCooRun nthreads a c y → y = (List.range a.nrows).map fun i => specVar c (a.rowCells i) := by
  have key := fun y => cooVars_iff hlt nthreads a.nrows a.ncols a.rowOps (rowOps_lt ha hi) c
    (cells := a.rowCells) (fun i => by simp [Coo.rowCells]) (fun i => ⟨_, by
      rw [filter_rowOps ha hi]; exact ha.row_perm hd i⟩) y
  exact ⟨⟨_, (key _).2 rfl⟩, fun y hy => (key y).1 hy⟩

/-- C38: column variances of a COO matrix without repeated coordinates. -/
theorem col_vars_coo_correct (nthreads : Nat) {a : Coo V} (ha : a.WF) (hi : a.I64) (hd : a.NoDup) (c : V) :
    (∃ y, ColVarsCooRun nthreads a c y) ∧
    ∀ y, ColVarsCooRun nthreads a c y → y = (List.range a.ncols).map fun j => specVar c (a.colCells j) := by
  have key := fun y => cooVars_iff hlt nthreads a.ncols a.nrows a.colOps (colOps_lt ha hi) c
    (cells := a.colCells) (fun i => by simp [Coo.colCells]) (fun i => ⟨_, by
      rw [filter_colOps ha hi]; exact ha.col_perm hd i⟩) y
  exact ⟨⟨_, (key _).2 rfl⟩, fun y hy => (key y).1 hy⟩

omit hlt [BEq V] [LawfulBEq V] [HasLt V] in
/-- C38: the standard deviation is the non-negative root of the variance, if `f64::sqrt` is
exact on non-negative numbers. -/
theorem std_correct [HasSqrt V] (hs : ∀ x : V, 0 ≤ x → 0 ≤ (fsqrt x : V) ∧ (fsqrt x : V) * fsqrt x = x)
    (c : V) (cells : List V) :
    0 ≤ stdFromVar (specVar c cells) ∧
      stdFromVar (specVar c cells) * stdFromVar (specVar c cells) = specVar c cells :=
  hs _ (specVar_nonneg c cells)
end

/-- The N-D variance returns whenever the number of cells is positive and fits `usize`. -/
theorem var_coond_runs [Zero V] [Add V] [Sub V] [Mul V] [Div V] [NatCast V] [HasLt V] [BEq V] (a : CooNd V) (c : V)
    (hpos : 0 < a.shape.prod) (hle : a.shape.prod ≤ usizeMax) : ∃ r, VarNdRun a c r := by
  unfold VarNdRun
  split
  · exact ⟨0, rfl⟩
  · obtain ⟨r, hr⟩ := var_runs a.shape.prod a.data c
    refine ⟨r, a.shape.prod, ?_, hr⟩
    have := productChecked_of_pos a.shape 1 hpos (by omega)
    rwa [Nat.one_mul] at this

/-! ### Witnesses -/

local instance : HasLt ℚ := ⟨fun x y => decide (x < y)⟩
theorem ratLt_iff : ∀ x y : ℚ, flt x y = true ↔ x < y := fun _ _ => decide_eq_true_iff

/-- `[[1, 0, 2], [0, 3, 0]]`. -/
def exVr : Csr ℚ := ⟨2, 3, [0, 2, 3], [0, 2, 1], [1, 2, 3]⟩
theorem exVr_wf : exVr.WF :=
  ((csr_fromParts_iff 2 3 [0, 2, 3] [0, 2, 1] [(1 : ℚ), 2, 3] (by decide) exVr).1 rfl).2.2

/-- Mean 1, squared deviations 0+1+1+1+4+1 = 8, divided by 6 - 1. -/
example : ∃ r, VarRun (satMul exVr.nrows exVr.ncols) exVr.data 1 r ∧ r = 8 / 5 := by
  obtain ⟨r, hr⟩ := var_runs (satMul exVr.nrows exVr.ncols) exVr.data (1 : ℚ)
  refine ⟨r, hr, (var_csr_correct ratLt_iff exVr_wf (by decide) 1 hr).1.trans ?_⟩
  decide +kernel
/-- A correction of 6 leaves no degrees of freedom. -/
example : ∃ r, VarRun (satMul exVr.nrows exVr.ncols) exVr.data 6 r ∧ r = 0 := by
  obtain ⟨r, hr⟩ := var_runs (satMul exVr.nrows exVr.ncols) exVr.data (6 : ℚ)
  refine ⟨r, hr, (var_csr_correct ratLt_iff exVr_wf (by decide) 6 hr).1.trans ?_⟩
  decide +kernel
example : lineVars exVr.comp 0 = [2 / 3, 2] := by decide +kernel
example (threads : Nat) : ∃ y, ColVarsRun (List.insertionSort pairLe) threads exVr 0 y ∧
    y = [1 / 4, 9 / 4, 1] := by
  obtain ⟨⟨y, hy⟩, h⟩ := col_vars_csr_correct ratLt_iff exVr_wf ⟨by decide, by decide⟩ 0 isPairSort_insertionSort threads
  exact ⟨y, hy, (h y hy).trans (by decide +kernel)⟩

/-- The hypothesis of `std_correct` holds for the real numbers. -/
noncomputable local instance : HasSqrt ℝ := ⟨Real.sqrt⟩
example : 0 ≤ stdFromVar (specVar 1 ([3, 0, 0] : List ℝ)) ∧
    stdFromVar (specVar 1 ([3, 0, 0] : List ℝ)) * stdFromVar (specVar 1 ([3, 0, 0] : List ℝ)) =
      specVar 1 ([3, 0, 0] : List ℝ) :=
  std_correct (fun x hx => ⟨Real.sqrt_nonneg x, Real.mul_self_sqrt hx⟩) 1 [3, 0, 0]

def exVc : Coo ℚ := ⟨2, 3, [1, 0, 0], [1, 2, 0], [3, 2, 1]⟩
theorem exVc_wf : exVc.WF := ⟨rfl, rfl, by decide, by decide⟩
theorem exVc_i64 : exVc.I64 := ⟨by decide, by decide⟩
theorem exVc_nodup : exVc.NoDup := by unfold Coo.NoDup; decide
example (nthreads : Nat) : ∃ y, RowVarsCooRun nthreads exVc 0 y ∧ y = [2 / 3, 2] := by
  obtain ⟨⟨y, hy⟩, h⟩ := row_vars_coo_correct ratLt_iff nthreads exVc_wf exVc_i64 exVc_nodup 0
  exact ⟨y, hy, (h y hy).trans (by decide +kernel)⟩

/-- C38, negative part: a 1×2 COO matrix storing the cell (0,0) twice, as 1 and -1, has the
cells `[0, 0]` with variance 0, but the kernel returns 1. -/
theorem var_coo_duplicates_wrong :
    let a : Coo ℚ := ⟨1, 2, [0, 0], [0, 0], [1, -1]⟩
    a.WF ∧ a.cells = [0, 0] ∧ specVar 0 a.cells = 0 ∧
    ∀ r, VarRun (satMul a.nrows a.ncols) a.data 0 r → r = 1 := by
  refine ⟨⟨rfl, rfl, by decide, by decide⟩, by decide +kernel, by decide +kernel, fun r hr => ?_⟩
  unfold VarRun at hr
  rw [if_neg (by decide)] at hr
  obtain ⟨s, hs, rfl⟩ := hr
  rw [sumsRun_eq hs]
  decide +kernel

/-- A 2^40 × 2^40 matrix with a single 1. -/
def exHuge : Coo ℚ := ⟨1099511627776, 1099511627776, [5], [7], [1]⟩

/-- C38, negative part: from 2^64 cells on the number of cells saturates.  `exHuge` has mean
2^-80, but the kernel divides by 2^64 - 1. -/
theorem var_count_saturates :
    exHuge.WF ∧ exHuge.NoDup ∧
    ∀ r, VarRun (satMul exHuge.nrows exHuge.ncols) exHuge.data 0 r → r ≠ specVar 0 exHuge.cells := by
  have hw : exHuge.WF := ⟨rfl, rfl, by decide, by decide⟩
  have hd : exHuge.NoDup := by unfold Coo.NoDup; decide
  refine ⟨hw, hd, fun r hr => ?_⟩
  have hsat : satMul exHuge.nrows exHuge.ncols = usizeMax := by decide +kernel
  have hlen : exHuge.cells.length = 1208925819614629174706176 :=
    (cellsOf_length _ _ _).trans (by decide +kernel)
  obtain ⟨h1, h2⟩ := sums_padded (hw.cells_perm hd)
  rw [hsat] at hr
  unfold VarRun at hr
  rw [if_neg (by decide)] at hr
  obtain ⟨s, hs, rfl⟩ := hr
  rw [sumsRun_eq hs, ← varianceFromSums_eq ratLt_iff 0 hlen, h1, h2]
  decide +kernel

end Lacuna
