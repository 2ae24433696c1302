import Verif.Props.PyReduce
import Verif.Props.Sums
import Verif.Props.Prod
import Verif.Props.Var
import Verif.Props.MinMax
import Verif.Props.Logic
/-
C51: every reduction of the Python layer on 2-D inputs, from the axis argument to the result,
using the theorems about the kernels.
-/
namespace Lacuna
universe u w
variable {V : Type u} {W : Type w}

theorem lines_eq {n : Nat} {F : Nat → W} {y : List W} {P : List V → W → Prop} {cells : Nat → List V}
    (h : y = (List.range n).map F) (hP : ∀ i, i < n → P (cells i) (F i)) :
    y.length = n ∧ ∀ i r, y[i]? = some r → P (cells i) r := by
  subst h
  refine ⟨by simp, fun i r hr => ?_⟩
  rw [List.getElem?_map, Option.map_eq_some_iff] at hr
  obtain ⟨k, hk, rfl⟩ := hr
  obtain ⟨hlt, rfl⟩ := List.getElem?_eq_some_iff.1 hk
  rw [List.getElem_range]
  rw [List.length_range] at hlt
  exact hP i hlt

/-! ### sum -/

/-- C51: `sum` of a CSR matrix. -/
theorem py_sum_csr [AddCommMonoid V] (nthreads : Nat) {a : Csr V} (ha : a.WFU) (hn : a.ncols ≤ usizeMax)
    {g : V} {cs rs : List V} (hg : SumRun a.data g) (hc : ColSumsRun nthreads a cs) (hr : RowSumsRun a rs) :
    Reduces a.nrows a.ncols (fun l r => r = l.sum) a.val (reduce2d a.nrows a.ncols (.ok g) (.ok cs) (.ok rs)) :=
  fun arg keep hv hne => reduce2d_correct
    ⟨sum_csr_correct ha hg, lines_eq ((col_sums_csr_correct nthreads ha hn).2 _ hc) fun _ _ => rfl,
      lines_eq ((row_sums_csr_correct ha).2 _ hr) fun _ _ => rfl⟩ arg keep hv hne

/-- C51: `sum` of a CSC matrix. -/
theorem py_sum_csc [AddCommMonoid V] {a : Csc V} (ha : a.WFU) (hn : a.nrows ≤ usizeMax)
    {g : V} {rs : List V} (hg : SumRun a.data g) (hr : RowSumsCscRun a rs) :
    Reduces a.nrows a.ncols (fun l r => r = l.sum) a.val
      (reduce2d a.nrows a.ncols (.ok g) (.ok (colSumsCsc a)) (.ok rs)) :=
  fun arg keep hv hne => reduce2d_correct
    ⟨sum_csc_correct ha hg, lines_eq (col_sums_csc_correct ha) fun _ _ => rfl,
      lines_eq ((row_sums_csc_correct ha hn).2 _ hr) fun _ _ => rfl⟩ arg keep hv hne

/-- C51: `sum` of a COO matrix, repeated coordinates included. -/
theorem py_sum_coo [AddCommMonoid V] (nthreads : Nat) {a : Coo V} (ha : a.WF) (hi : a.I64)
    (hn : a.nrows ≤ usizeMax) (hm : a.ncols ≤ usizeMax)
    {g : V} {cs rs : List V} (hg : SumRun a.data g) (hc : ColSumsCooRun nthreads a cs) (hr : RowSumsCooRun nthreads a rs) :
    Reduces a.nrows a.ncols (fun l r => r = l.sum) a.val (reduce2d a.nrows a.ncols (.ok g) (.ok cs) (.ok rs)) :=
  fun arg keep hv hne => reduce2d_correct
    ⟨sum_coo_correct ha hg, lines_eq ((col_sums_coo_correct nthreads ha hi hm).2 _ hc) fun _ _ => rfl,
      lines_eq ((row_sums_coo_correct nthreads ha hi hn).2 _ hr) fun _ _ => rfl⟩ arg keep hv hne

/-! ### mean -/

/-- The mean front end divides the sums by the number of elements. -/
theorem pyMean2d_of_sums [DivisionRing V] [CharZero V] [BEq V] [LawfulBEq V] {n m : Nat} {f : Nat → Nat → V} {g : V}
    {cs rs : List V} (hn : 0 < n) (hm : 0 < m) (hg : g = (cellsOf n m f).sum)
    (hc : cs = (List.range m).map fun j => ((List.range n).map fun i => f i j).sum)
    (hr : rs = (List.range n).map fun i => ((List.range m).map fun j => f i j).sum) :
    Reduces n m (fun l r => r = listMean l) f (pyMean2d n m g cs rs) := by
  intro arg keep hv hne
  have hz : (((n * m : Nat) : V) == 0) = false := by
    rw [beq_eq_false_iff_ne, Nat.cast_ne_zero]
    exact Nat.ne_of_gt (Nat.mul_pos hn hm)
  unfold pyMean2d pyFloatDiv
  rw [hz]
  refine reduce2d_correct ⟨?_, ?_, ?_⟩ arg keep hv hne
  · rw [hg, listMean, cellsOf_length]
  · refine lines_eq (P := fun l r => r = listMean l) (F := fun j => listMean ((List.range n).map fun i => f i j)) ?_ fun _ _ => rfl
    rw [hc, List.map_map]
    refine List.map_congr_left fun j _ => ?_
    simp [listMean]
  · refine lines_eq (P := fun l r => r = listMean l) (F := fun i => listMean ((List.range m).map fun j => f i j)) ?_ fun _ _ => rfl
    rw [hr, List.map_map]
    refine List.map_congr_left fun j _ => ?_
    simp [listMean]

section
variable [Field V] [CharZero V] [BEq V] [LawfulBEq V]

/-- C52: `mean` of a CSR matrix with at least one element. -/
theorem py_mean_csr (nthreads : Nat) {a : Csr V} (ha : a.WFU) (hu : a.ncols ≤ usizeMax) (hn : 0 < a.nrows) (hm : 0 < a.ncols)
    {g : V} {cs rs : List V} (hg : SumRun a.data g) (hc : ColSumsRun nthreads a cs) (hr : RowSumsRun a rs) :
    Reduces a.nrows a.ncols (fun l r => r = listMean l) a.val (pyMean2d a.nrows a.ncols g cs rs) :=
  pyMean2d_of_sums hn hm (sum_csr_correct ha hg) ((col_sums_csr_correct nthreads ha hu).2 _ hc)
    ((row_sums_csr_correct ha).2 _ hr)

/-- C52: `mean` of a CSC matrix with at least one element. -/
theorem py_mean_csc {a : Csc V} (ha : a.WFU) (hu : a.nrows ≤ usizeMax) (hn : 0 < a.nrows) (hm : 0 < a.ncols)
    {g : V} {rs : List V} (hg : SumRun a.data g) (hr : RowSumsCscRun a rs) :
    Reduces a.nrows a.ncols (fun l r => r = listMean l) a.val (pyMean2d a.nrows a.ncols g (colSumsCsc a) rs) :=
  pyMean2d_of_sums hn hm (sum_csc_correct ha hg) (col_sums_csc_correct ha) ((row_sums_csc_correct ha hu).2 _ hr)

/-- C52: `mean` of a COO matrix with at least one element. -/
theorem py_mean_coo (nthreads : Nat) {a : Coo V} (ha : a.WF) (hi : a.I64)
    (hu : a.nrows ≤ usizeMax) (hu' : a.ncols ≤ usizeMax) (hn : 0 < a.nrows) (hm : 0 < a.ncols)
    {g : V} {cs rs : List V} (hg : SumRun a.data g) (hc : ColSumsCooRun nthreads a cs) (hr : RowSumsCooRun nthreads a rs) :
    Reduces a.nrows a.ncols (fun l r => r = listMean l) a.val (pyMean2d a.nrows a.ncols g cs rs) :=
  pyMean2d_of_sums hn hm (sum_coo_correct ha hg) ((col_sums_coo_correct nthreads ha hi hu').2 _ hc)
    ((row_sums_coo_correct nthreads ha hi hu).2 _ hr)
end

/-- C52, negative part: the mean over all elements of a matrix without elements raises
`ZeroDivisionError` (NumPy returns NaN with a warning, and the N-D branch returns 0). -/
theorem py_mean_empty [Zero V] [Div V] [NatCast V] [BEq V] [LawfulBEq V] (h0 : ((0 : Nat) : V) = 0)
    (n m : Nat) (hz : n * m = 0) (g : V) (cs rs : List V) (keep : Bool) :
    pyMean2d n m g cs rs .none keep = .error .zeroDivision := by
  unfold pyMean2d pyFloatDiv
  rw [hz, h0, if_pos (by simp)]
  rfl

/-! ### prod -/

section
variable [CommSemiring V]

/-- C51: `prod` of a CSR matrix. -/
theorem py_prod_csr {a : Csr V} (ha : a.WF) (hf : a.comp.Fits)
    {sort : List (Int × V) → List (Int × V)} (hsort : IsPairSort sort) (threads : Nat) {g : V} {cs : List V}
    (hg : ProdRun (satMul a.nrows a.ncols) a.data g) (hc : ColProdsRun sort threads a cs) :
    Reduces a.nrows a.ncols (fun l r => r = l.prod) a.val
      (reduce2d a.nrows a.ncols (.ok g) (.ok cs) (.ok (lineProds a.comp))) :=
  fun arg keep hv hne => reduce2d_correct
    ⟨prod_csr_correct ha hf.2 hg, lines_eq ((col_prods_csr_correct ha hf hsort threads).2 _ hc) fun _ _ => rfl,
      lines_eq (row_prods_csr_correct ha) fun _ _ => rfl⟩ arg keep hv hne

/-- C51: `prod` of a CSC matrix. -/
theorem py_prod_csc {a : Csc V} (ha : a.WF) (hf : a.comp.Fits)
    {sort : List (Int × V) → List (Int × V)} (hsort : IsPairSort sort) (threads : Nat) {g : V} {rs : List V}
    (hg : ProdRun (satMul a.nrows a.ncols) a.data g) (hr : RowProdsCscRun sort threads a rs) :
    Reduces a.nrows a.ncols (fun l r => r = l.prod) a.val
      (reduce2d a.nrows a.ncols (.ok g) (.ok (lineProds a.comp)) (.ok rs)) :=
  fun arg keep hv hne => reduce2d_correct
    ⟨prod_csc_correct ha hf.2 hg, lines_eq (col_prods_csc_correct ha) fun _ _ => rfl,
      lines_eq ((row_prods_csc_correct ha hf hsort threads).2 _ hr) fun _ _ => rfl⟩ arg keep hv hne

/-- C51: `prod` of a COO matrix without repeated coordinates. -/
theorem py_prod_coo (nthreads : Nat) {a : Coo V} (ha : a.WF) (hi : a.I64) (hd : a.NoDup)
    (hl : (a.data.length : Int) ≤ i64Max) {g : V} {cs rs : List V}
    (hg : ProdRun (satMul a.nrows a.ncols) a.data g) (hc : ColProdsCooRun nthreads a cs) (hr : RowProdsCooRun nthreads a rs) :
    Reduces a.nrows a.ncols (fun l r => r = l.prod) a.val (reduce2d a.nrows a.ncols (.ok g) (.ok cs) (.ok rs)) :=
  fun arg keep hv hne => reduce2d_correct
    ⟨prod_coo_correct ha hd hl hg, lines_eq ((col_prods_coo_correct nthreads ha hi hd).2 _ hc) fun _ _ => rfl,
      lines_eq ((row_prods_coo_correct nthreads ha hi hd).2 _ hr) fun _ _ => rfl⟩ arg keep hv hne
end

/-! ### var and std -/

section
variable [Field V] [LinearOrder V] [IsStrictOrderedRing V] [HasLt V] [BEq V] [LawfulBEq V]
variable (hlt : ∀ x y : V, flt x y = true ↔ x < y)
include hlt

/-- C51: `var` of a CSR matrix. -/
theorem py_var_csr {a : Csr V} (ha : a.WF) (hf : a.comp.Fits) (hN : a.nrows * a.ncols ≤ usizeMax) (c : V)
    {sort : List (Int × V) → List (Int × V)} (hsort : IsPairSort sort) (threads : Nat) {g : V} {cs : List V}
    (hg : VarRun (satMul a.nrows a.ncols) a.data c g) (hc : ColVarsRun sort threads a c cs) :
    Reduces a.nrows a.ncols (fun l r => r = specVar c l) a.val
      (reduce2d a.nrows a.ncols (.ok g) (.ok cs) (.ok (lineVars a.comp c))) :=
  fun arg keep hv hne => reduce2d_correct
    ⟨(var_csr_correct hlt ha hN c hg).1, lines_eq ((col_vars_csr_correct hlt ha hf c hsort threads).2 _ hc) fun _ _ => rfl,
      lines_eq (row_vars_csr_correct hlt ha c) fun _ _ => rfl⟩ arg keep hv hne

/-- C51: `var` of a CSC matrix. -/
theorem py_var_csc {a : Csc V} (ha : a.WF) (hf : a.comp.Fits) (hN : a.nrows * a.ncols ≤ usizeMax) (c : V)
    {sort : List (Int × V) → List (Int × V)} (hsort : IsPairSort sort) (threads : Nat) {g : V} {rs : List V}
    (hg : VarRun (satMul a.nrows a.ncols) a.data c g) (hr : RowVarsCscRun sort threads a c rs) :
    Reduces a.nrows a.ncols (fun l r => r = specVar c l) a.val
      (reduce2d a.nrows a.ncols (.ok g) (.ok (lineVars a.comp c)) (.ok rs)) :=
  fun arg keep hv hne => reduce2d_correct
    ⟨(var_csc_correct hlt ha hN c hg).1, lines_eq (col_vars_csc_correct hlt ha c) fun _ _ => rfl,
      lines_eq ((row_vars_csc_correct hlt ha hf c hsort threads).2 _ hr) fun _ _ => rfl⟩ arg keep hv hne

/-- C51: `var` of a COO matrix without repeated coordinates. -/
theorem py_var_coo (nthreads : Nat) {a : Coo V} (ha : a.WF) (hi : a.I64) (hd : a.NoDup)
    (hN : a.nrows * a.ncols ≤ usizeMax) (c : V) {g : V} {cs rs : List V}
    (hg : VarRun (satMul a.nrows a.ncols) a.data c g) (hc : ColVarsCooRun nthreads a c cs) (hr : RowVarsCooRun nthreads a c rs) :
    Reduces a.nrows a.ncols (fun l r => r = specVar c l) a.val (reduce2d a.nrows a.ncols (.ok g) (.ok cs) (.ok rs)) :=
  fun arg keep hv hne => reduce2d_correct
    ⟨(var_coo_correct hlt ha hd hN c hg).1, lines_eq ((col_vars_coo_correct hlt nthreads ha hi hd c).2 _ hc) fun _ _ => rfl,
      lines_eq ((row_vars_coo_correct hlt nthreads ha hi hd c).2 _ hr) fun _ _ => rfl⟩ arg keep hv hne
end

/-- C51: `std` applies the square root to the variance kernels; whenever `var` is right, `std`
returns the non-negative numbers whose squares are the variances. -/
theorem py_std_of_var [Field V] [LinearOrder V] [IsStrictOrderedRing V] [HasSqrt V]
    (hs : ∀ x : V, 0 ≤ x → 0 ≤ (fsqrt x : V) ∧ (fsqrt x : V) * fsqrt x = x) {n m : Nat} {f : Nat → Nat → V} (c : V)
    {g : V} {cs rs : List V} (hk : Kernels2d n m (fun l r => r = specVar c l) f g cs rs) :
    Reduces n m (fun l r => 0 ≤ r ∧ r * r = specVar c l) f
      (reduce2d n m (.ok (stdFromVar g)) (.ok (cs.map stdFromVar)) (.ok (rs.map stdFromVar))) := by
  have hline : ∀ (k : Nat) (cells : Nat → List V) (y : List V),
      (y.length = k ∧ ∀ i r, y[i]? = some r → r = specVar c (cells i)) →
      (y.map stdFromVar).length = k ∧ ∀ i r, (y.map stdFromVar)[i]? = some r → 0 ≤ r ∧ r * r = specVar c (cells i) := by
    intro k cells y hy
    refine ⟨by rw [List.length_map]; exact hy.1, fun i r hr => ?_⟩
    rw [List.getElem?_map, Option.map_eq_some_iff] at hr
    obtain ⟨v, hv, rfl⟩ := hr
    rw [hy.2 i v hv]
    exact std_correct hs c _
  exact fun arg keep hv hne => reduce2d_correct
    ⟨by rw [hk.glob]; exact std_correct hs c _, hline _ _ _ hk.cols, hline _ _ _ hk.rows⟩ arg keep hv hne

/-! ### min and max -/

section
variable [LinearOrder V] [AddZeroClass V] [HasMinMax V] [HasLt V] (hI : IdealMinMax V)
include hI

/-- C51: `min` and `max` of a CSR matrix with at least one element. -/
theorem py_minmax_csr {a : Csr V} (ha : a.WF) (hf : a.comp.Fits) (hn : 0 < a.nrows) (hm : 0 < a.ncols)
    {sort : List (Int × V) → List (Int × V)} (hsort : IsPairSort sort) (threads : Nat) :
    (∀ g cs, ExtRun (minOps V) a.nrows a.ncols a.data g → ColExtsRun (minOps V) sort threads a cs →
      Reduces a.nrows a.ncols IsMinOf a.val
        (reduce2d a.nrows a.ncols (.ok g) (.ok cs) (.ok (lineExts (minOps V) a.comp)))) ∧
    (∀ g cs, ExtRun (maxOps V) a.nrows a.ncols a.data g → ColExtsRun (maxOps V) sort threads a cs →
      Reduces a.nrows a.ncols IsMaxOf a.val
        (reduce2d a.nrows a.ncols (.ok g) (.ok cs) (.ok (lineExts (maxOps V) a.comp)))) :=
  ⟨fun g cs hg hc arg keep hv hne => reduce2d_correct
      ⟨(minmax_csr_correct hI ha hf.2 hn hm).1 g hg, (col_minmax_csr_correct hI ha hf hn hsort threads).2.1 cs hc,
        (row_minmax_csr_correct hI ha hm).1⟩ arg keep hv hne,
    fun g cs hg hc arg keep hv hne => reduce2d_correct
      ⟨(minmax_csr_correct hI ha hf.2 hn hm).2 g hg, (col_minmax_csr_correct hI ha hf hn hsort threads).2.2 cs hc,
        (row_minmax_csr_correct hI ha hm).2⟩ arg keep hv hne⟩

/-- C51: `min` and `max` of a CSC matrix with at least one element. -/
theorem py_minmax_csc {a : Csc V} (ha : a.WF) (hf : a.comp.Fits) (hn : 0 < a.nrows) (hm : 0 < a.ncols)
    {sort : List (Int × V) → List (Int × V)} (hsort : IsPairSort sort) (threads : Nat) :
    (∀ g rs, ExtRun (minOps V) a.nrows a.ncols a.data g → RowExtsCscRun (minOps V) sort threads a rs →
      Reduces a.nrows a.ncols IsMinOf a.val
        (reduce2d a.nrows a.ncols (.ok g) (.ok (lineExts (minOps V) a.comp)) (.ok rs))) ∧
    (∀ g rs, ExtRun (maxOps V) a.nrows a.ncols a.data g → RowExtsCscRun (maxOps V) sort threads a rs →
      Reduces a.nrows a.ncols IsMaxOf a.val
        (reduce2d a.nrows a.ncols (.ok g) (.ok (lineExts (maxOps V) a.comp)) (.ok rs))) :=
  ⟨fun g rs hg hr arg keep hv hne => reduce2d_correct
      ⟨(minmax_csc_correct hI ha hf.2 hn hm).1 g hg, (col_minmax_csc_correct hI ha hn).1,
        (row_minmax_csc_correct hI ha hf hm hsort threads).2.1 rs hr⟩ arg keep hv hne,
    fun g rs hg hr arg keep hv hne => reduce2d_correct
      ⟨(minmax_csc_correct hI ha hf.2 hn hm).2 g hg, (col_minmax_csc_correct hI ha hn).2,
        (row_minmax_csc_correct hI ha hf hm hsort threads).2.2 rs hr⟩ arg keep hv hne⟩

/-- C51: `min` and `max` of a COO matrix with at least one element and no repeated coordinates. -/
theorem py_minmax_coo (nthreads : Nat) {a : Coo V} (ha : a.WF) (hi : a.I64) (hd : a.NoDup)
    (hl : (a.data.length : Int) ≤ i64Max) (hn : 0 < a.nrows) (hm : 0 < a.ncols) :
    (∀ g cs rs, ExtRun (minOps V) a.nrows a.ncols a.data g → ColExtsCooRun (minOps V) nthreads a cs →
      RowExtsCooRun (minOps V) nthreads a rs →
      Reduces a.nrows a.ncols IsMinOf a.val (reduce2d a.nrows a.ncols (.ok g) (.ok cs) (.ok rs))) ∧
    (∀ g cs rs, ExtRun (maxOps V) a.nrows a.ncols a.data g → ColExtsCooRun (maxOps V) nthreads a cs →
      RowExtsCooRun (maxOps V) nthreads a rs →
      Reduces a.nrows a.ncols IsMaxOf a.val (reduce2d a.nrows a.ncols (.ok g) (.ok cs) (.ok rs))) :=
  ⟨fun g cs rs hg hc hr arg keep hv hne => reduce2d_correct
      ⟨(minmax_coo_correct hI ha hd hl hn hm).1 g hg, (col_minmax_coo_correct hI nthreads ha hi hd hn).1.2 cs hc,
        (row_minmax_coo_correct hI nthreads ha hi hd hm).1.2 rs hr⟩ arg keep hv hne,
    fun g cs rs hg hc hr arg keep hv hne => reduce2d_correct
      ⟨(minmax_coo_correct hI ha hd hl hn hm).2 g hg, (col_minmax_coo_correct hI nthreads ha hi hd hn).2.2 cs hc,
        (row_minmax_coo_correct hI nthreads ha hi hd hm).2.2 rs hr⟩ arg keep hv hne⟩
end

/-! ### all and any -/

section
variable [AddZeroClass V] [BEq V] (h0 : ((0 : V) == 0) = true)
include h0

/-- C51: `all` and `any` of a CSR matrix. -/
theorem py_all_any_csr {a : Csr V} (ha : a.WF) (hf : a.comp.Fits)
    {sort : List (Int × V) → List (Int × V)} (hsort : IsPairSort sort) (threads : Nat) :
    (∀ cs, ColAllsRun sort threads a cs → Reduces a.nrows a.ncols (fun l r => r = true ↔ AllNonzero l) a.val
      (reduce2d a.nrows a.ncols (.ok (allKernel (satMul a.nrows a.ncols) a.data)) (.ok cs) (.ok (lineAlls a.comp)))) ∧
    (∀ cs, ColAnysRun sort threads a cs → Reduces a.nrows a.ncols (fun l r => r = true ↔ AnyNonzero l) a.val
      (reduce2d a.nrows a.ncols (.ok (anyKernel (satMul a.nrows a.ncols) a.data)) (.ok cs) (.ok (lineAnys a.comp)))) :=
  ⟨fun cs hc arg keep hv hne => reduce2d_correct (P := fun l r => r = true ↔ AllNonzero l) (f := a.val)
      ⟨(all_any_csr_correct h0 ha hf.2).1, (col_all_any_csr_correct h0 ha hf hsort threads).1.2 cs hc,
        (row_all_any_csr_correct h0 ha).1⟩ arg keep hv hne,
    fun cs hc arg keep hv hne => reduce2d_correct (P := fun l r => r = true ↔ AnyNonzero l) (f := a.val)
      ⟨(all_any_csr_correct h0 ha hf.2).2, (col_all_any_csr_correct h0 ha hf hsort threads).2.2 cs hc,
        (row_all_any_csr_correct h0 ha).2⟩ arg keep hv hne⟩

/-- C51: `all` and `any` of a CSC matrix. -/
theorem py_all_any_csc {a : Csc V} (ha : a.WF) (hf : a.comp.Fits) :
    (∀ rs, RowAllsCscRun a rs → Reduces a.nrows a.ncols (fun l r => r = true ↔ AllNonzero l) a.val
      (reduce2d a.nrows a.ncols (.ok (allKernel (satMul a.nrows a.ncols) a.data)) (.ok (lineAlls a.comp)) (.ok rs))) ∧
    (∀ rs, RowAnysCscRun a rs → Reduces a.nrows a.ncols (fun l r => r = true ↔ AnyNonzero l) a.val
      (reduce2d a.nrows a.ncols (.ok (anyKernel (satMul a.nrows a.ncols) a.data)) (.ok (lineAnys a.comp)) (.ok rs))) :=
  ⟨fun rs hr arg keep hv hne => reduce2d_correct (P := fun l r => r = true ↔ AllNonzero l) (f := a.val)
      ⟨(all_any_csc_correct h0 ha hf.2).1, (col_all_any_csc_correct h0 ha).1,
        (row_all_any_csc_correct h0 ha hf).1.2 rs hr⟩ arg keep hv hne,
    fun rs hr arg keep hv hne => reduce2d_correct (P := fun l r => r = true ↔ AnyNonzero l) (f := a.val)
      ⟨(all_any_csc_correct h0 ha hf.2).2, (col_all_any_csc_correct h0 ha).2,
        (row_all_any_csc_correct h0 ha hf).2.2 rs hr⟩ arg keep hv hne⟩
end

/-- C51: `all` and `any` of a COO matrix, repeated coordinates included (converted to CSR first). -/
theorem py_all_any_coo [AddCommMonoid V] [BEq V] (h0 : ((0 : V) == 0) = true)
    {tsort : List ((Int × Int) × V) → List ((Int × Int) × V)} (ht : IsTripleSort tsort)
    {sort : List (Int × V) → List (Int × V)} (hsort : IsPairSort sort) (threads : Nat)
    {a : Coo V} (ha : a.WF) (hi : a.I64) (hn : (a.nrows : Int) ≤ i64Max) (hl : (a.data.length : Int) ≤ i64Max) :
    (∀ cs, ColAllsCooRun tsort sort threads a cs → Reduces a.nrows a.ncols (fun l r => r = true ↔ AllNonzero l) a.val
      (reduce2d a.nrows a.ncols (.ok (allCoo tsort a)) (.ok cs) (.ok (rowAllsCoo tsort a)))) ∧
    (∀ cs, ColAnysCooRun tsort sort threads a cs → Reduces a.nrows a.ncols (fun l r => r = true ↔ AnyNonzero l) a.val
      (reduce2d a.nrows a.ncols (.ok (anyCoo tsort a)) (.ok cs) (.ok (rowAnysCoo tsort a)))) := by
  obtain ⟨h1, h2, h3, h4⟩ := coo_to_csr_correct ht ha hi hn hl
  have hv : (cooToCsr tsort a).val = a.val := funext fun i => funext fun j => h4 i j
  have hf : (cooToCsr tsort a).comp.Fits := by
    refine ⟨?_, ?_⟩
    · show ((cooToCsr tsort a).nrows : Int) ≤ i64Max
      rw [h1]; exact hn
    · have := cooToCsr_data_length_le ht ha hn hl
      show ((cooToCsr tsort a).data.length : Int) ≤ i64Max
      omega
  have := py_all_any_csr h0 h3 hf hsort threads
  rw [h1, h2, hv] at this
  have e : ∀ k : Nat → List V → Bool, k (satMul (cooToCsr tsort a).nrows (cooToCsr tsort a).ncols) (cooToCsr tsort a).data =
      k (satMul a.nrows a.ncols) (cooToCsr tsort a).data := fun k => by rw [h1, h2]
  unfold allCoo anyCoo
  rw [e allKernel, e anyKernel]
  exact this

/-! ### Witnesses -/

/-- `sum(A, axis=-1, keepdims=True)` of `[[5,0,6],[0,7,0]]` for the results the kernels do return. -/
example : ∃ g cs rs, SumRun exA.data g ∧ ColSumsRun 4 exA cs ∧ RowSumsRun exA rs ∧
    reduce2d 2 3 (.ok g) (.ok cs) (.ok rs) (.one (-1)) true = .ok ⟨[2, 1], [11, 7]⟩ ∧
    reduce2d 2 3 (.ok g) (.ok cs) (.ok rs) (.many [0]) false = .ok ⟨[3], [5, 7, 6]⟩ ∧
    reduce2d 2 3 (.ok g) (.ok cs) (.ok rs) (.many [1, -2]) true = .ok ⟨[1, 1], [18]⟩ ∧
    Reduces 2 3 (fun l r => r = l.sum) exA.val (reduce2d 2 3 (.ok g) (.ok cs) (.ok rs)) := by
  obtain ⟨g, hg⟩ := sum_runs exA.data
  obtain ⟨⟨cs, hc⟩, hc2⟩ := col_sums_csr_correct 4 exA_wfu (by decide)
  obtain ⟨⟨rs, hr⟩, hr2⟩ := row_sums_csr_correct exA_wfu
  have eg : g = 18 := (sum_csr_correct exA_wfu hg).trans (by decide)
  have ec : cs = [5, 7, 6] := (hc2 cs hc).trans (by decide)
  have er : rs = [11, 7] := (hr2 rs hr).trans (by decide)
  refine ⟨g, cs, rs, hg, hc, hr, ?_, ?_, ?_, py_sum_csr 4 exA_wfu (by decide) hg hc hr⟩ <;>
    subst eg ec er <;> decide

/-- `mean([[1,0,2],[0,3,0]])` along each axis. -/
example : ∃ g cs rs, SumRun exVr.data g ∧ ColSumsRun 4 exVr cs ∧ RowSumsRun exVr rs ∧
    pyMean2d 2 3 g cs rs (.one 1) false = .ok ⟨[2], [1, 1]⟩ ∧
    Reduces 2 3 (fun l r => r = listMean l) exVr.val (pyMean2d 2 3 g cs rs) := by
  obtain ⟨g, hg⟩ := sum_runs exVr.data
  obtain ⟨⟨cs, hc⟩, hc2⟩ := col_sums_csr_correct 4 exVr_wf.wfu (by decide)
  obtain ⟨⟨rs, hr⟩, hr2⟩ := row_sums_csr_correct exVr_wf.wfu
  have er : rs = [3, 3] := (hr2 rs hr).trans (by decide +kernel)
  refine ⟨g, cs, rs, hg, hc, hr, ?_, py_mean_csr 4 exVr_wf.wfu (by decide) (by decide) (by decide) hg hc hr⟩
  subst er
  have : ([3, 3] : List ℚ).map (fun s => s / ((3 : Nat) : ℚ)) = [1, 1] := by decide +kernel
  unfold pyMean2d
  rw [this]
  rfl

/-- `prod([[2,3],[4,5]], axis=0)`. -/
example : ∃ g cs, ProdRun (satMul exFull.nrows exFull.ncols) exFull.data g ∧
    ColProdsRun (List.insertionSort pairLe) 4 exFull cs ∧
    reduce2d 2 2 (.ok g) (.ok cs) (.ok (lineProds exFull.comp)) (.one 0) true = .ok ⟨[1, 2], [8, 15]⟩ ∧
    Reduces 2 2 (fun l r => r = l.prod) exFull.val (reduce2d 2 2 (.ok g) (.ok cs) (.ok (lineProds exFull.comp))) := by
  obtain ⟨g, hg⟩ := prod_runs (satMul exFull.nrows exFull.ncols) exFull.data
  obtain ⟨⟨cs, hc⟩, hc2⟩ := col_prods_csr_correct exFull_wf ⟨by decide, by decide⟩ isPairSort_insertionSort 4
  have ec : cs = [8, 15] := (hc2 cs hc).trans (by decide)
  refine ⟨g, cs, hg, hc, ?_, py_prod_csr exFull_wf ⟨by decide, by decide⟩ isPairSort_insertionSort 4 hg hc⟩
  subst ec; rfl

local instance : HasLt ℚ := ⟨fun x y => decide (x < y)⟩
/-- `var` (population) of `[[1,0,2],[0,3,0]]`. -/
example : ∃ g cs, VarRun (satMul exVr.nrows exVr.ncols) exVr.data 0 g ∧
    ColVarsRun (List.insertionSort pairLe) 4 exVr 0 cs ∧
    Reduces 2 3 (fun l r => r = specVar 0 l) exVr.val
      (reduce2d 2 3 (.ok g) (.ok cs) (.ok (lineVars exVr.comp 0))) := by
  obtain ⟨g, hg⟩ := var_runs (satMul exVr.nrows exVr.ncols) exVr.data (0 : ℚ)
  obtain ⟨⟨cs, hc⟩, _⟩ := col_vars_csr_correct ratLt_iff exVr_wf ⟨by decide, by decide⟩ 0 isPairSort_insertionSort 4
  exact ⟨g, cs, hg, hc, py_var_csr ratLt_iff exVr_wf ⟨by decide, by decide⟩ (by decide) 0 isPairSort_insertionSort 4 hg hc⟩

/-- `min` of `[[5,0,6],[0,-7,0]]`. -/
example : ∃ g cs, ExtRun (minOps ExtInt) exE.nrows exE.ncols exE.data g ∧
    ColExtsRun (minOps ExtInt) (List.insertionSort pairLe) 4 exE cs ∧
    Reduces 2 3 IsMinOf exE.val (reduce2d 2 3 (.ok g) (.ok cs) (.ok (lineExts (minOps ExtInt) exE.comp))) := by
  obtain ⟨g, hg⟩ := ext_runs (minOps ExtInt) exE.nrows exE.ncols exE.data
  obtain ⟨h1, _⟩ := col_minmax_csr_correct extInt_ideal exE_wf ⟨by decide, by decide⟩ (by decide)
    isPairSort_insertionSort 4
  obtain ⟨cs, hc⟩ := h1 (minOps ExtInt)
  exact ⟨g, cs, hg, hc, (py_minmax_csr extInt_ideal exE_wf ⟨by decide, by decide⟩ (by decide) (by decide)
    isPairSort_insertionSort 4).1 g cs hg hc⟩

/-- `all` of `[[2,3],[4,5]]`. -/
example : ∃ cs, ColAllsRun (List.insertionSort pairLe) 4 exFull cs ∧
    Reduces 2 2 (fun l r => r = true ↔ AllNonzero l) exFull.val
      (reduce2d 2 2 (.ok (allKernel (satMul 2 2) exFull.data)) (.ok cs) (.ok (lineAlls exFull.comp))) := by
  obtain ⟨⟨⟨cs, hc⟩, _⟩, _⟩ := col_all_any_csr_correct (V := Int) rfl exFull_wf ⟨by decide, by decide⟩
    isPairSort_insertionSort 4
  exact ⟨cs, hc, (py_all_any_csr (V := Int) rfl exFull_wf ⟨by decide, by decide⟩ isPairSort_insertionSort 4).1 cs hc⟩

end Lacuna
