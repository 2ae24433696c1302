import Verif.Props.MinMax
import Mathlib.Algebra.Ring.Int.Defs
import Mathlib.Algebra.BigOperators.Group.List.Basic
/-
C37: products.
-/
namespace Lacuna
universe u
variable {V : Type u}

/-! ### Products with implicit zeros -/

section
variable [CommSemiring V]

/-- Stored values and zeros: one zero makes the product 0. -/
theorem prod_padded {cells l : List V} {full : Nat} (hp : cells.Perm (l ++ List.replicate (full - l.length) 0)) :
    cells.prod = if l.length < full then 0 else l.prod := by
  rw [hp.prod_eq, List.prod_append]
  split
  · obtain ⟨k, hk⟩ : ∃ k, full - l.length = k + 1 := ⟨full - l.length - 1, by omega⟩
    rw [hk, List.replicate_succ, List.prod_cons, zero_mul, mul_zero]
  · rw [show full - l.length = 0 by omega, List.replicate_zero, List.prod_nil, mul_one]

theorem chunkProd_eq (l : List V) : chunkProd l = l.prod := by
  unfold chunkProd
  split
  · rename_i h
    rw [List.isEmpty_iff.1 h]; rfl
  · rw [mul_isMonoid.simdFold_eq, foldl_mul_eq_prod]

theorem prodRun_eq {data : List V} {r : V} (h : ChunkReduce chunkProd (fun x y => x * y) 1 data r) :
    r = data.prod := by
  rw [mul_isMonoid.chunkReduce_eq (fun l => by rw [chunkProd_eq, foldl_mul_eq_prod]) h, foldl_mul_eq_prod]

theorem prodRun_cells {full : Nat} {data cells : List V}
    (hp : cells.Perm (data ++ List.replicate (full - data.length) 0)) (hle : data.length ≤ full) {r : V}
    (hr : ProdRun full data r) : r = cells.prod := by
  rw [prod_padded hp]
  unfold ProdRun at hr
  split at hr
  · rename_i h0
    have : data = [] := List.length_eq_zero_iff.1 (by omega)
    subst this
    rw [if_neg (by simp [h0])]
    exact hr
  · split at hr
    · rename_i h; rw [if_pos h]; exact hr
    · rename_i h; rw [if_neg h]; exact prodRun_eq hr

theorem prodRun_sat {n m : Nat} {data : List V} (hl : (data.length : Int) ≤ i64Max) {r : V}
    (hr : ProdRun (satMul n m) data r) : ProdRun (n * m) data r := by
  unfold ProdRun at hr ⊢
  simp only [satMul_eq_zero, satMul_lt hl] at hr
  exact hr

theorem lineProds_eq {a : Comp V} (ha : a.WF) :
    lineProds a = (List.range a.n).map fun i => ((List.range a.m).map (a.val i)).prod := by
  unfold lineProds
  split
  · rename_i h; simp [h]
  split
  · rename_i h
    simp only [h, List.range_zero, List.map_nil, List.prod_nil]
    rw [List.map_const', List.length_range]
  · apply List.map_congr_left
    intro i _
    have := ha.line_perm i
    rw [prod_padded (l := (a.row i).map Prod.snd) (full := a.m) (by rwa [List.length_map])]
    simp only [chunkProd_eq]

theorem cooProds_iff (nthreads n m : Nat) (ops : List (Nat × V)) (hk : ∀ x ∈ ops, x.1 < n)
    (hm : m = 0 → ops = []) (y : List V) :
    CooProdsRun nthreads n m ops y ↔
      y = (List.range n).map fun i =>
        if ((ops.filter fun x => x.1 == i).map Prod.snd).length < m then 0
        else ((ops.filter fun x => x.1 == i).map Prod.snd).prod := by
  unfold CooProdsRun
  split
  · rename_i h0; subst h0; rfl
  split
  · rename_i h0
    rw [hm h0]
    simp only [List.filter_nil, List.map_nil, List.prod_nil, List.length_nil, h0, lt_self_iff_false, if_false]
    rw [List.map_const', List.length_range]
  have hcount := countKeys_eq n (ops.map Prod.fst) (fun k hk' => by
    obtain ⟨x, hx, rfl⟩ := List.mem_map.1 hk'
    exact hk x hx)
  have hflat := chunksOf_flatten (cooChunk_pos nthreads ops.length) ops
  have hcomm : IsComm (fun x y : V => x * y) := mul_isMonoid.isComm
  have key : ∀ groups, Division (chunksOf (cooChunk nthreads ops.length) ops) groups →
      ∃ out seen, combineSeen 1 (fun x y : V => x * y) n stripeLen (groups.map List.flatten) = some (out, seen) ∧
        ∀ i, i < n → out.getD i 1 = ((ops.filter fun x => x.1 == i).map Prod.snd).prod := by
    intro groups hd
    obtain ⟨out, seen, h1, h2, h3⟩ := combineSeen_ok (e := (1 : V)) hcomm (n := n) (stripe := stripeLen) (by decide)
      (groups := groups.map List.flatten) (division_mem hd (by rw [hflat]; exact hk))
    refine ⟨out, seen, h1, fun i hi => ?_⟩
    rw [(h3 i hi).2, kfold_perm hcomm (division_flatten hd), hflat, kfold_getD mul_isMonoid, foldl_mul_eq_prod]
  have hval : ∀ (counts : List Nat) (out : List V), countKeys n (ops.map Prod.fst) = some counts →
      (∀ i, i < n → out.getD i 1 = ((ops.filter fun x => x.1 == i).map Prod.snd).prod) →
      ((List.range n).map fun i => if counts.getD i 0 < m then 0 else out.getD i 1) =
      (List.range n).map fun i =>
        if ((ops.filter fun x => x.1 == i).map Prod.snd).length < m then 0
        else ((ops.filter fun x => x.1 == i).map Prod.snd).prod := by
    intro counts out hc hs
    rw [hcount] at hc
    obtain rfl := Option.some.inj hc
    apply List.map_congr_left
    intro i hi
    have hi := List.mem_range.1 hi
    have hci : ((List.range n).map fun k => ((ops.map Prod.fst).filter fun i => i == k).length).getD i 0 =
        ((ops.filter fun x => x.1 == i).map Prod.snd).length := by
      rw [List.getD_eq_getElem?_getD, List.getElem?_map, List.getElem?_range hi]
      simp [List.filter_map, Function.comp_def]
    simp only [hci, hs i hi]
  constructor
  · rintro ⟨counts, hc, groups, hd, out, seen, h1, rfl⟩
    obtain ⟨out', seen', h1', h2'⟩ := key groups hd
    rw [h1] at h1'
    obtain ⟨rfl, rfl⟩ := Prod.mk.inj (Option.some.inj h1')
    exact hval counts out hc h2'
  · rintro rfl
    obtain ⟨out, seen, h1, h2⟩ := key _ (division_single _)
    exact ⟨_, hcount, _, division_single _, out, seen, h1, (hval _ out hcount h2).symm⟩

end

/-- The global kernels always return. -/
theorem prod_runs [Zero V] [One V] [Mul V] (full : Nat) (data : List V) : ∃ r, ProdRun full data r := by
  unfold ProdRun
  split
  · exact ⟨1, rfl⟩
  · split
    · exact ⟨0, rfl⟩
    · exact rayon_exists _ _ _

theorem cellsOf_length (n m : Nat) (f : Nat → Nat → V) : (cellsOf n m f).length = n * m := by
  unfold cellsOf
  simp [List.length_flatMap]

theorem Coo.WF.data_length_le [AddZeroClass V] {a : Coo V} (h : a.WF) (hd : a.NoDup) :
    a.data.length ≤ a.nrows * a.ncols := by
  have := (h.cells_perm hd).length_eq
  rw [List.length_append, List.length_replicate, show a.cells.length = _ from cellsOf_length _ _ _] at this
  omega

theorem CooNd.WF.data_length_le [AddZeroClass V] {a : CooNd V} (h : a.WF) (hd : a.NoDup) :
    a.data.length ≤ a.shape.prod := by
  have := (h.cells_perm hd).length_eq
  rw [List.length_append, List.length_replicate, CooNd.cells, List.length_map, indicesOf_length] at this
  omega

/-- The rows of the transpose are the columns of the matrix. -/
theorem transpose_csr_rowCells [Add V] [Zero V] {a t : Csr V} (ha : a.WF) (hf : a.comp.Fits)
    {sort : List (Int × V) → List (Int × V)} (hsort : IsPairSort sort) {threads : Nat}
    (ht : TransposeCsrRun sort threads a t) : t.WF ∧ t.nrows = a.ncols ∧ t.ncols = a.nrows ∧ t.rowCells = a.colCells := by
  obtain ⟨h1, h2, h3, _, _, h6⟩ := transpose_csr_correct ha hf hsort ht
  refine ⟨h1, h2, h3, funext fun j => ?_⟩
  unfold Csr.rowCells Csr.colCells
  rw [h3]
  exact List.map_congr_left fun i _ => h6 i j

theorem transpose_csc_colCells [Add V] [Zero V] {a t : Csc V} (ha : a.WF) (hf : a.comp.Fits)
    {sort : List (Int × V) → List (Int × V)} (hsort : IsPairSort sort) {threads : Nat}
    (ht : TransposeCscRun sort threads a t) : t.WF ∧ t.ncols = a.nrows ∧ t.nrows = a.ncols ∧ t.colCells = a.rowCells := by
  obtain ⟨h1, h2, h3, _, _, h6⟩ := transpose_csc_correct ha hf hsort ht
  refine ⟨h1, h3, h2, funext fun i => ?_⟩
  unfold Csc.rowCells Csc.colCells
  rw [h2]
  exact List.map_congr_left fun j _ => h6 i j

section
variable [CommSemiring V]

/-! ### C37: the kernels -/

/-- C37: global product of a CSR matrix, for every reduction tree. -/
theorem prod_csr_correct {a : Csr V} (ha : a.WF) (hl : (a.data.length : Int) ≤ i64Max) {r : V}
    (hr : ProdRun (satMul a.nrows a.ncols) a.data r) : r = a.cells.prod :=
  prodRun_cells (Comp.WF.cells_perm ha) (Comp.WF.data_length_le ha) (prodRun_sat hl hr)

/-- C37: CSC. -/
theorem prod_csc_correct {a : Csc V} (ha : a.WF) (hl : (a.data.length : Int) ≤ i64Max) {r : V}
    (hr : ProdRun (satMul a.nrows a.ncols) a.data r) : r = a.cells.prod :=
  prodRun_cells (csc_cells_perm ha) (by have := Comp.WF.data_length_le ha; rwa [Nat.mul_comm] at this) (prodRun_sat hl hr)

/-- C37: COO without repeated coordinates. -/
theorem prod_coo_correct {a : Coo V} (ha : a.WF) (hd : a.NoDup) (hl : (a.data.length : Int) ≤ i64Max) {r : V}
    (hr : ProdRun (satMul a.nrows a.ncols) a.data r) : r = a.cells.prod :=
  prodRun_cells (ha.cells_perm hd) (ha.data_length_le hd) (prodRun_sat hl hr)

/-- C37: N-D COO without repeated coordinates. -/
theorem prod_coond_correct {a : CooNd V} (ha : a.WF) (hd : a.NoDup) {r : V} (hr : ProdNdRun a r) :
    r = a.cells.prod := by
  obtain ⟨full, hf, hr⟩ := hr
  obtain ⟨rfl, _⟩ := productChecked_some hf
  exact prodRun_cells (ha.cells_perm hd) (ha.data_length_le hd) hr

/-- C37: row products of a CSR matrix. -/
theorem row_prods_csr_correct {a : Csr V} (ha : a.WF) :
    lineProds a.comp = (List.range a.nrows).map fun i => (a.rowCells i).prod := lineProds_eq ha

/-- C37: column products of a CSC matrix. -/
theorem col_prods_csc_correct {a : Csc V} (ha : a.WF) :
    lineProds a.comp = (List.range a.ncols).map fun j => (a.colCells j).prod := lineProds_eq ha

/-- C37, C46: column products of a CSR matrix through the transpose. -/
theorem col_prods_csr_correct {a : Csr V} (ha : a.WF) (hf : a.comp.Fits)
    {sort : List (Int × V) → List (Int × V)} (hsort : IsPairSort sort) (threads : Nat) :
    (∃ y, ColProdsRun sort threads a y) ∧
    ∀ y, ColProdsRun sort threads a y → y = (List.range a.ncols).map fun j => (a.colCells j).prod := by
  refine ⟨?_, ?_⟩
  · obtain ⟨t, ht⟩ := transpose_csr_exists ha hf hsort threads
    exact ⟨_, t, ht, rfl⟩
  · rintro y ⟨t, ht, rfl⟩
    obtain ⟨h1, h2, _, h3⟩ := transpose_csr_rowCells ha hf hsort ht
    rw [row_prods_csr_correct h1, h2, h3]

/-- C37, C46: row products of a CSC matrix through the transpose. -/
theorem row_prods_csc_correct {a : Csc V} (ha : a.WF) (hf : a.comp.Fits)
    {sort : List (Int × V) → List (Int × V)} (hsort : IsPairSort sort) (threads : Nat) :
    (∃ y, RowProdsCscRun sort threads a y) ∧
    ∀ y, RowProdsCscRun sort threads a y → y = (List.range a.nrows).map fun i => (a.rowCells i).prod := by
  refine ⟨?_, ?_⟩
  · obtain ⟨t, ht⟩ := transpose_csc_exists ha hf hsort threads
    exact ⟨_, t, ht, rfl⟩
  · rintro y ⟨t, ht, rfl⟩
    obtain ⟨h1, h2, _, h3⟩ := transpose_csc_colCells ha hf hsort ht
    rw [col_prods_csc_correct h1, h2, h3]

/-- C37: row products of a COO matrix without repeated coordinates, for every division of the
entries over threads and every merge order. -/
theorem row_prods_coo_correct (nthreads : Nat) {a : Coo V} (ha : a.WF) (hi : a.I64) (hd : a.NoDup) :
    (∃ y, RowProdsCooRun nthreads a y) ∧
    ∀ y, RowProdsCooRun nthreads a y → y = (List.range a.nrows).map fun i => (a.rowCells i).prod := by
  have key := fun y => cooProds_iff nthreads a.nrows a.ncols a.rowOps (rowOps_lt ha hi) (fun h0 => by
    have : a.triples = [] := List.eq_nil_iff_forall_not_mem.2 fun t ht => by
      have := ha.triple_bounds t ht; omega
    unfold Coo.rowOps; rw [this]; rfl) y
  refine ⟨⟨_, (key _).2 rfl⟩, fun y hy => ((key y).1 hy).trans ?_⟩
  apply List.map_congr_left
  intro i _
  rw [prod_padded (cells := a.rowCells i) (by have := ha.row_perm hd i; rw [← List.length_map (f := Prod.snd)] at this; exact this),
    filter_rowOps ha hi]

/-- C37: column products of a COO matrix without repeated coordinates. -/
theorem col_prods_coo_correct (nthreads : Nat) {a : Coo V} (ha : a.WF) (hi : a.I64) (hd : a.NoDup) :
    (∃ y, ColProdsCooRun nthreads a y) ∧
    ∀ y, ColProdsCooRun nthreads a y → y = (List.range a.ncols).map fun j => (a.colCells j).prod := by
  have key := fun y => cooProds_iff nthreads a.ncols a.nrows a.colOps (colOps_lt ha hi) (fun h0 => by
    have : a.triples = [] := List.eq_nil_iff_forall_not_mem.2 fun t ht => by
      have := ha.triple_bounds t ht; omega
    unfold Coo.colOps; rw [this]; rfl) y
  refine ⟨⟨_, (key _).2 rfl⟩, fun y hy => ((key y).1 hy).trans ?_⟩
  apply List.map_congr_left
  intro j _
  rw [prod_padded (cells := a.colCells j) (by have := ha.col_perm hd j; rw [← List.length_map (f := Prod.snd)] at this; exact this),
    filter_colOps ha hi]
end

/-- The N-D product returns whenever the number of cells is positive and fits `usize`. -/
theorem prod_coond_runs [Zero V] [One V] [Mul V] (a : CooNd V) (hpos : 0 < a.shape.prod)
    (hle : a.shape.prod ≤ usizeMax) : ∃ r, ProdNdRun a r := by
  obtain ⟨r, hr⟩ := prod_runs a.shape.prod a.data
  refine ⟨r, a.shape.prod, ?_, hr⟩
  have := productChecked_of_pos a.shape 1 hpos (by omega)
  rwa [Nat.one_mul] at this

/-! ### Witnesses -/

/-- `[[2, 3], [4, 5]]`: a full matrix, so the stored values are multiplied. -/
def exFull : Csr Int := ⟨2, 2, [0, 2, 4], [0, 1, 0, 1], [2, 3, 4, 5]⟩
theorem exFull_wf : exFull.WF :=
  ((csr_fromParts_iff 2 2 [0, 2, 4] [0, 1, 0, 1] [(2 : Int), 3, 4, 5] (by decide) exFull).1 rfl).2.2

example : ∃ r, ProdRun (satMul exFull.nrows exFull.ncols) exFull.data r ∧ r = 120 := by
  obtain ⟨r, hr⟩ := prod_runs (satMul exFull.nrows exFull.ncols) exFull.data
  exact ⟨r, hr, (prod_csr_correct exFull_wf (by decide) hr).trans (by decide)⟩
/-- One implicit zero among six cells. -/
example : ∃ r, ProdRun (satMul exA.nrows exA.ncols) exA.data r ∧ r = 0 := by
  obtain ⟨r, hr⟩ := prod_runs (satMul exA.nrows exA.ncols) exA.data
  exact ⟨r, hr, (prod_csr_correct exA_wf (by decide) hr).trans (by decide)⟩
example : lineProds exFull.comp = [6, 20] ∧ lineProds exA.comp = [0, 0] := by decide
/-- Five values: a SIMD group of four and a scalar tail. -/
example : chunkProd [(2 : Int), 3, 4, 5, 6] = 720 := by decide
example (threads : Nat) : ∃ y, ColProdsRun (List.insertionSort pairLe) threads exFull y ∧ y = [8, 15] := by
  obtain ⟨⟨y, hy⟩, h⟩ := col_prods_csr_correct exFull_wf ⟨by decide, by decide⟩ isPairSort_insertionSort threads
  exact ⟨y, hy, (h y hy).trans (by decide)⟩

def exFullCoo : Coo Int := ⟨2, 2, [1, 0, 0, 1], [1, 0, 1, 0], [5, 2, 3, 4]⟩
theorem exFullCoo_wf : exFullCoo.WF := ⟨rfl, rfl, by decide, by decide⟩
theorem exFullCoo_i64 : exFullCoo.I64 := ⟨by decide, by decide⟩
theorem exFullCoo_nodup : exFullCoo.NoDup := by unfold Coo.NoDup; decide
example (nthreads : Nat) : ∃ y, RowProdsCooRun nthreads exFullCoo y ∧ y = [6, 20] := by
  obtain ⟨⟨y, hy⟩, h⟩ := row_prods_coo_correct nthreads exFullCoo_wf exFullCoo_i64 exFullCoo_nodup
  exact ⟨y, hy, (h y hy).trans (by decide)⟩
example (nthreads : Nat) : ∃ y, ColProdsCooRun nthreads exFullCoo y ∧ y = [8, 15] := by
  obtain ⟨⟨y, hy⟩, h⟩ := col_prods_coo_correct nthreads exFullCoo_wf exFullCoo_i64 exFullCoo_nodup
  exact ⟨y, hy, (h y hy).trans (by decide)⟩

/-- A 1×2 COO matrix that stores the cell (0,0) twice, as 3 and 4. -/
def exTwice : Coo Int := ⟨1, 2, [0, 0], [0, 0], [3, 4]⟩

/-- C37, negative part: the cells are `[7, 0]` with product 0, but the kernels return 12,
globally and per row. -/
theorem prod_coo_duplicates_wrong :
    exTwice.WF ∧ exTwice.I64 ∧ exTwice.cells = [7, 0] ∧ exTwice.cells.prod = 0 ∧
    (∀ r, ProdRun (satMul exTwice.nrows exTwice.ncols) exTwice.data r → r = 12) ∧
    (∀ nthreads y, RowProdsCooRun nthreads exTwice y → y = [12]) := by
  have hw : exTwice.WF := ⟨rfl, rfl, by decide, by decide⟩
  have hi : exTwice.I64 := ⟨by decide, by decide⟩
  refine ⟨hw, hi, by decide, by decide, fun r hr => ?_, fun nthreads y hy => ?_⟩
  · unfold ProdRun at hr
    rw [if_neg (by decide), if_neg (by decide)] at hr
    exact (prodRun_eq hr).trans (by decide)
  · exact ((cooProds_iff nthreads 1 2 exTwice.rowOps (rowOps_lt hw hi) (by decide) y).1 hy).trans (by decide)

/-- A 3-D array with all four cells stored. -/
def exNdFull : CooNd Int := ⟨[2, 1, 2], [0, 0, 0, 0, 0, 1, 1, 0, 0, 1, 0, 1], [2, 3, 4, 5]⟩
theorem exNdFull_wf : exNdFull.WF := ⟨by decide, by decide, by decide⟩
theorem exNdFull_nodup : exNdFull.NoDup := by unfold CooNd.NoDup; decide
example : ∃ r, ProdNdRun exNdFull r ∧ r = 120 := by
  obtain ⟨r, hr⟩ := prod_coond_runs exNdFull (by decide) (by decide)
  exact ⟨r, hr, (prod_coond_correct exNdFull_wf exNdFull_nodup hr).trans (by decide)⟩

end Lacuna
