import Verif.Props.Rounding
import Verif.Props.Spmm
/-
C71: matrix-vector and matrix-matrix products in rounded arithmetic.  Each kernel adds the rounded
products of the stored values of a row (or column) with their factors, in some order and with some
bracketing, or accumulates them with fused multiply-adds.
-/
namespace Lacuna
universe u
variable {V : Type u}

/-- The product of a pair. -/
def pairMul [Mul V] (p : V × V) : V := p.1 * p.2

/-! ### What is added -/

theorem filter_lineOps [Zero V] [Mul V] {a : Comp V} (ha : a.WFU) (x : List V) (i j : Nat) :
    ((lineOps a x i).filter fun o => o.1 == j).map Prod.snd =
      (((a.row i).filter fun e => e.1 == (j : Int)).map fun e => (e.2, x.getD i 0)).map pairMul := by
  unfold lineOps
  rw [List.filter_map, List.map_map, List.map_map]
  have : (a.row i).filter ((fun o : Nat × V => o.1 == j) ∘ fun e => (i64ToUsize e.1, e.2 * x.getD i 0)) =
      (a.row i).filter fun e => e.1 == (j : Int) := by
    apply List.filter_congr
    intro e he
    have hb := ha.row_bounds i e he
    simp only [Function.comp, i64ToUsize_of_nonneg hb.1 (ha.row_i64 i e he)]
    rw [Bool.eq_iff_iff, beq_iff_eq, beq_iff_eq]
    omega
  rw [this]
  rfl

/-- C71: the CSC product, for every number of threads, accumulation scheme and division of the work. -/
theorem spmv_csc_terms [Zero V] [Add V] [Mul V] (nthreads : Nat) {a : Csc V} (ha : a.WFU) (hn : a.nrows ≤ usizeMax)
    {x y : List V} (h : SpmvCscRun nthreads a x y) : y.length = a.nrows ∧ ∀ i, i < a.nrows →
      AddTree ((a.rowFactors (fun j => x.getD j 0) i).map pairMul : Multiset V) (y.getD i 0) := by
  have hlt : ∀ o ∈ (List.range a.ncols).flatMap (lineOps a.comp x), o.1 < a.nrows := by
    intro o ho
    obtain ⟨j, _, ho⟩ := List.mem_flatMap.1 ho
    exact lineOps_lt ha x j o ho
  have hflat : ((lineRanges a.comp).map fun r => (rangeLines r).flatMap (lineOps a.comp x)).flatten =
      (List.range a.ncols).flatMap (lineOps a.comp x) := by
    rw [← List.flatMap_def]
    exact range_flatMap_ranges (lineOps a.comp x) (fun i h => by
      unfold lineOps; rw [Comp.row_nil_of_len h]; rfl)
  have hs : ∀ i, slotVals ((List.range a.ncols).flatMap (lineOps a.comp x)) i =
      ((a.rowFactors (fun j => x.getD j 0) i).map pairMul : Multiset V) := by
    intro i
    unfold slotVals Csc.rowFactors
    rw [List.filter_flatMap, List.map_flatMap, List.map_flatMap]
    congr 2
    funext j
    exact filter_lineOps ha x j i
  obtain ⟨_, h⟩ := h
  split at h
  · obtain ⟨h1, h2⟩ := addAll?_tree hlt h
    exact ⟨h1, fun i hi => hs i ▸ h2 i hi⟩
  · obtain ⟨groups, hd, h⟩ := h
    obtain ⟨h1, h2⟩ := accumChoose_tree (division_mem hd (by rw [hflat]; exact hlt)) nthreads _ hn h
    refine ⟨h1, fun i hi => ?_⟩
    have := h2 i hi
    rw [slotVals_perm (division_flatten hd), hflat, hs] at this
    exact this

/-- C71: the COO product. -/
theorem spmv_coo_terms [Zero V] [Add V] [Mul V] (nthreads : Nat) {a : Coo V} (ha : a.WF) (hi : a.I64)
    (hn : a.nrows ≤ usizeMax) {x y : List V} (h : SpmvCooRun nthreads a x y) : y.length = a.nrows ∧ ∀ i, i < a.nrows →
      AddTree ((a.rowFactors (fun j => x.getD j 0) i).map pairMul : Multiset V) (y.getD i 0) := by
  obtain ⟨hx, ops, ho, h⟩ := h
  rw [cooOps_eq ha hi hx] at ho
  have ho := Option.some.inj ho
  have hlt : ∀ o ∈ ops, o.1 < a.nrows := by
    intro o h'
    rw [← ho] at h'
    obtain ⟨t, ht, rfl⟩ := List.mem_map.1 h'
    have := (ha.triple_bounds t ht).1
    show t.1.1.toNat < a.nrows
    omega
  have hs : ∀ i, slotVals ops i = ((a.rowFactors (fun j => x.getD j 0) i).map pairMul : Multiset V) := by
    intro i
    unfold slotVals Coo.rowFactors
    rw [← ho, filter_map_triples _ _ (fun t ht => (ha.triple_bounds t ht).1.1), List.map_map]
    rfl
  have hflat := chunksOf_flatten (cooChunk_pos nthreads a.data.length) ops
  split at h
  · obtain ⟨h1, h2⟩ := addAll?_tree hlt h
    exact ⟨h1, fun i hi => hs i ▸ h2 i hi⟩
  · obtain ⟨groups, hd, h⟩ := h
    obtain ⟨h1, h2⟩ := accumChoose_tree (division_mem hd (by rw [hflat]; exact hlt)) nthreads _ hn h
    refine ⟨h1, fun i hi' => ?_⟩
    have := h2 i hi'
    rw [slotVals_perm (division_flatten hd), hflat, hs] at this
    exact this

/-- C71: contracting the rows of a CSR matrix; rows of weight zero are skipped. -/
theorem vecdot_csr_terms [Zero V] [Add V] [Mul V] [BEq V] {a : Csr V} (ha : a.WFU) {x y : List V}
    (h : VecdotCsrRun a x y) : y.length = a.ncols ∧ ∀ j, j < a.ncols →
      AddTree (((a.colFactors (fun i => x.getD i 0) j).filter fun p => !(p.2 == 0)).map pairMul : Multiset V)
        (y.getD j 0) := by
  obtain ⟨_, h⟩ := h
  split at h
  · rename_i h0
    subst h
    exact ⟨h0.symm, fun j hj => by omega⟩
  obtain ⟨groups, hd, h⟩ := h
  generalize hf : (fun i => if !(x.getD i 0 == 0) then lineOps a.comp x i else []) = f at *
  have hfl : ∀ l : List Nat, (l.filter fun i => !(x.getD i 0 == 0)).flatMap (lineOps a.comp x) = l.flatMap f := by
    intro l
    rw [← hf]
    induction l with
    | nil => rfl
    | cons i l ih =>
      rw [List.filter_cons, List.flatMap_cons]
      split
      · rw [List.flatMap_cons, ih]
      · rw [ih]; rfl
  simp only [hfl] at hd
  have hflat : ((lineRanges a.comp).map fun r => (rangeLines r).flatMap f).flatten =
      (List.range a.nrows).flatMap f := by
    rw [← List.flatMap_def]
    exact range_flatMap_ranges f (fun i h => by
      rw [← hf]
      simp only
      unfold lineOps; rw [Comp.row_nil_of_len h]; simp)
  have hlt : ∀ o ∈ (List.range a.nrows).flatMap f, o.1 < a.ncols := by
    intro o ho
    obtain ⟨i, _, ho⟩ := List.mem_flatMap.1 ho
    rw [← hf] at ho
    simp only at ho
    split at ho
    · exact lineOps_lt ha x i o ho
    · cases ho
  obtain ⟨h1, h2⟩ := accumStripe_tree (division_mem hd (by rw [hflat]; exact hlt)) _ (by decide) h
  refine ⟨h1, fun j hj => ?_⟩
  have := h2 j hj
  rw [slotVals_perm (division_flatten hd), hflat] at this
  have e : slotVals ((List.range a.nrows).flatMap f) j =
      (((a.colFactors (fun i => x.getD i 0) j).filter fun p => !(p.2 == 0)).map pairMul : Multiset V) := by
    unfold slotVals Csr.colFactors
    rw [List.filter_flatMap, List.map_flatMap, List.filter_flatMap, List.map_flatMap]
    congr 2
    funext i
    rw [← hf]
    simp only []
    split
    · rename_i h0
      rw [filter_lineOps ha x i j, (List.filter_eq_self (l := List.map _ _)).2]
      intro p hp
      obtain ⟨e, _, rfl⟩ := List.mem_map.1 hp
      exact h0
    · rename_i h0
      rw [(List.filter_eq_nil_iff (l := List.map _ _)).2]
      · rfl
      · intro p hp
        obtain ⟨e, _, rfl⟩ := List.mem_map.1 hp
        exact h0
  rw [e] at this
  exact this

/-- C71: contracting the rows of a COO matrix; entries of weight zero are skipped. -/
theorem vecdot_coo_terms [Zero V] [Add V] [Mul V] [BEq V] (nthreads : Nat) {a : Coo V} (ha : a.WF)
    (hi : a.I64) (hn : a.ncols ≤ usizeMax) {x y : List V} (h : VecdotCooRun nthreads a x y) :
    y.length = a.ncols ∧ ∀ j, j < a.ncols →
      AddTree (((a.colFactors (fun i => x.getD i 0) j).filter fun p => !(p.2 == 0)).map pairMul : Multiset V)
        (y.getD j 0) := by
  obtain ⟨hx, h⟩ := h
  split at h
  · rename_i h0
    subst h
    refine ⟨by simp, fun j hj => ?_⟩
    unfold Coo.colFactors
    rw [Coo.triples_nil (by omega), replicate_getD_zero]
    exact .zero
  obtain ⟨ops, ho, groups, hd, h⟩ := h
  have hops : cooVecOps a x = some (a.triples.map fun t =>
      if !(x.getD t.1.1.toNat 0 == 0) then [(t.1.2.toNat, t.2 * x.getD t.1.1.toNat 0)] else []) := by
    unfold cooVecOps
    apply mapM_option_map
    intro t ht
    have hb := ha.triple_bounds t ht
    have h64 := hi.triple t ht
    rw [i64ToUsize_of_nonneg hb.1.1 h64.1, i64ToUsize_of_nonneg hb.2.1 h64.2, List.getD_eq_getElem?_getD,
      List.getElem?_eq_getElem (by omega : t.1.1.toNat < x.length)]
    rfl
  rw [hops] at ho
  have hop := Option.some.inj ho
  have hlt : ∀ o ∈ ops.flatten, o.1 < a.ncols := by
    intro o ho
    obtain ⟨l, hl, ho⟩ := List.mem_flatten.1 ho
    rw [← hop] at hl
    obtain ⟨t, ht, rfl⟩ := List.mem_map.1 hl
    split at ho
    · rw [List.mem_singleton] at ho
      subst ho
      have := (ha.triple_bounds t ht).2
      show t.1.2.toNat < a.ncols
      omega
    · cases ho
  have hflat : ((chunksOf (cooChunk nthreads a.data.length) ops).map List.flatten).flatten = ops.flatten := by
    rw [← List.flatten_flatten, chunksOf_flatten (cooChunk_pos _ _)]
  obtain ⟨h1, h2⟩ := accumHash_tree (division_mem hd (by rw [hflat]; exact hlt)) _ hn h
  refine ⟨h1, fun j hj => ?_⟩
  have := h2 j hj
  rw [slotVals_perm (division_flatten hd), hflat] at this
  have e : slotVals ops.flatten j =
      (((a.colFactors (fun i => x.getD i 0) j).filter fun p => !(p.2 == 0)).map pairMul : Multiset V) := by
    have hb : ∀ t ∈ a.triples, 0 ≤ t.1.2 := fun t ht => (ha.triple_bounds t ht).2.1
    unfold slotVals Coo.colFactors
    rw [← hop]
    congr 1
    revert hb
    generalize a.triples = l
    intro hb
    induction l with
    | nil => rfl
    | cons t l ih =>
      have h0 := hb t (by simp)
      have ih' := ih fun t' ht' => hb t' (by simp [ht'])
      rw [List.map_cons, List.flatten_cons, List.filter_append, List.map_append, ih']
      by_cases hw : (x.getD t.1.1.toNat 0 == 0) = true
      · rw [if_neg (by rw [hw]; decide)]
        by_cases hj : t.1.2 = (j : Int)
        · rw [List.filter_cons_of_pos (by simpa using hj), List.map_cons, List.filter_cons_of_neg (by simp only [hw]; decide)]
          rfl
        · rw [List.filter_cons_of_neg (by simpa using hj)]
          rfl
      · rw [if_pos (by simpa using hw)]
        by_cases hj : t.1.2 = (j : Int)
        · have hj2 : t.1.2.toNat = j := by omega
          rw [List.filter_cons_of_pos (by simpa using hj2), List.filter_cons_of_pos (l := l) (by simpa using hj),
            List.map_cons (f := fun t : (Int × Int) × V => (t.2, x.getD t.1.1.toNat 0)),
            List.filter_cons_of_pos (by simpa using hw)]
          rfl
        · have hj2 : ¬ t.1.2.toNat = j := by omega
          rw [List.filter_cons_of_neg (by simpa using hj2), List.filter_cons_of_neg (l := l) (by simpa using hj)]
          rfl
  rw [e] at this
  exact this

/-- An accumulated cell of a product with a dense matrix. -/
theorem matAcc_terms [Zero V] [Add V] [Mul V] {n k : Nat} {row : Nat → List (Nat × V)} {b y : List V}
    (h : IsMatAcc n k row b y) {i c : Nat} (hi : i < n) (hc : c < k) :
    AddTree (((row i).map fun e => (e.2, b.getD (e.1 * k + c) 0)).map pairMul : Multiset V) (y.getD (i * k + c) 0) := by
  rw [h.2 i c hi hc]
  have := foldl_tree ((row i).map fun e => e.2 * b.getD (e.1 * k + c) 0) (.zero (V := V))
  rw [zero_add, List.foldl_map] at this
  rw [List.map_map]
  exact this

theorem pair_dot [Zero V] [Add V] [Mul V] (M : FpMul V) {l : List (V × V)} {v : V}
    (h : AddTree (l.map pairMul : Multiset V) v) : RoundedDot M (l : Multiset (V × V)) v :=
  AddTree.dot M (g := pairMul) (fun _ _ => .inl rfl) (by rwa [Multiset.map_coe])

/-- C71: products with a dense matrix; each cell adds the rounded products of its row. -/
theorem spmm_csr_terms [Zero V] [Add V] [Mul V] (hc : ∀ x y : V, x * y = y * x) {a : Csr V} (ha : a.WFU)
    {b : List V} {k : Nat} (hk : 0 < k) (hb : b.length = a.ncols * k) (hm : a.ncols * k ≤ usizeMax)
    (hn : a.nrows * k ≤ usizeMax) {y : List V} (h : spmmCsr a b k = some y) : y.length = a.nrows * k ∧
    ∀ i c, i < a.nrows → c < k →
      AddTree ((a.rowFactors (fun j => b.getD (j * k + c) 0) i).map pairMul : Multiset V) (y.getD (i * k + c) 0) := by
  obtain ⟨y', h1, h2⟩ := spmm_csr_exact hc ha b k hk hb hm hn
  obtain rfl : y' = y := Option.some.inj (h1.symm.trans h)
  refine ⟨h2.1, fun i c hi hc' => ?_⟩
  have := matAcc_terms h2 hi hc'
  rw [List.map_map (g := fun e : Nat × V => (e.2, b.getD (e.1 * k + c) 0))] at this
  exact this

theorem spmm_csc_terms [Zero V] [Add V] [Mul V] (hc : ∀ x y : V, x * y = y * x) {a : Csc V} (ha : a.WFU)
    {b : List V} {k : Nat} (hb : b.length = a.ncols * k) (hm : a.ncols * k ≤ usizeMax)
    (hn : a.nrows * k ≤ usizeMax) {y : List V} (h : SpmmCscRun a b k y) : y.length = a.nrows * k ∧
    ∀ i c, i < a.nrows → c < k →
      AddTree ((a.rowFactors (fun j => b.getD (j * k + c) 0) i).map pairMul : Multiset V) (y.getD (i * k + c) 0) := by
  have h2 := (spmm_csc_exact hc ha b k hb hm hn).2 y h
  refine ⟨h2.1, fun i c hi hc' => ?_⟩
  have := matAcc_terms h2 hi hc'
  unfold Csc.rowPairs at this
  rw [List.map_flatMap] at this
  simp only [List.map_map] at this
  unfold Csc.rowFactors
  rw [List.map_flatMap] at this ⊢
  simp only [List.map_map] at this ⊢
  exact this

theorem spmm_coo_terms [Zero V] [Add V] [Mul V] (hc : ∀ x y : V, x * y = y * x) {a : Coo V} (ha : a.WF) (hi : a.I64)
    {b : List V} {k : Nat} (hb : b.length = a.ncols * k) (hm : a.ncols * k ≤ usizeMax)
    (hn : a.nrows * k ≤ usizeMax) {y : List V} (h : SpmmCooRun a b k y) : y.length = a.nrows * k ∧
    ∀ i c, i < a.nrows → c < k →
      AddTree ((a.rowFactors (fun j => b.getD (j * k + c) 0) i).map pairMul : Multiset V) (y.getD (i * k + c) 0) := by
  have h2 := (spmm_coo_exact hc ha hi b k hb hm hn).2 y h
  refine ⟨h2.1, fun i c hi hc' => ?_⟩
  have := matAcc_terms h2 hi hc'
  unfold Coo.rowPairs at this
  rw [List.map_map (g := fun e : Nat × V => (e.2, b.getD (e.1 * k + c) 0))] at this
  exact this

/-! ### No panic, whatever the arithmetic -/

section
variable [Zero V] [Add V]

/-- C70: the sums complete in any arithmetic, so in particular in binary64. -/
theorem col_sums_csr_runs (nthreads : Nat) {a : Csr V} (ha : a.WFU) (hn : a.ncols ≤ usizeMax) :
    ∃ y, ColSumsRun nthreads a y := by
  have hk : ∀ o ∈ ((List.range a.nrows).map (lineAdds a.comp)).flatten, o.1 < a.ncols := lines_lt (a := a.comp) ha
  have hk' : ∀ o ∈ ((lineRanges a.comp).map fun r => (rangeLines r).flatMap (lineAdds a.comp)).flatten,
      o.1 < a.ncols := range_lines_flatten (a := a.comp) ▸ hk
  unfold ColSumsRun
  split
  · exact ⟨_, rfl⟩
  split
  · obtain ⟨y, hy⟩ := accumPlain_some (division_mem (division_single _) hk)
    exact ⟨y, _, division_single _, hy⟩
  split
  · obtain ⟨y, hy⟩ := accumHash_some (division_mem (division_single _) hk) 1024 hn
    exact ⟨y, _, division_single _, hy⟩
  · obtain ⟨y, hy⟩ := accumStripePar_some (division_mem (division_single _) hk') stripeLen (by decide)
    exact ⟨y, _, division_single _, hy⟩

theorem row_sums_csc_runs {a : Csc V} (ha : a.WFU) (hn : a.nrows ≤ usizeMax) : ∃ y, RowSumsCscRun a y := by
  have hk : ∀ o ∈ ((List.range a.ncols).map (lineAdds a.comp)).flatten, o.1 < a.nrows := lines_lt (a := a.comp) ha
  unfold RowSumsCscRun
  split
  · exact ⟨_, rfl⟩
  by_cases h : a.nrows ≤ smallDimLimit ∨ a.data.length ≤ smallNnzLimit
  · obtain ⟨y, hy⟩ := accumHash_some (division_mem (division_single _) hk) 1024 hn
    exact ⟨y, _, division_single _, by rw [if_pos h]; exact hy⟩
  · obtain ⟨y, hy⟩ := accumStripe_some (division_mem (division_single _) hk) stripeLen (by decide)
    exact ⟨y, _, division_single _, by rw [if_neg h]; exact hy⟩

theorem row_sums_coo_runs (nthreads : Nat) {a : Coo V} (ha : a.WF) (hi : a.I64) (hn : a.nrows ≤ usizeMax) :
    ∃ y, RowSumsCooRun nthreads a y := by
  unfold RowSumsCooRun
  split
  · exact ⟨_, rfl⟩
  split
  · exact ⟨_, rfl⟩
  have hk : ∀ o ∈ (chunksOf (cooChunk nthreads a.data.length)
      (a.triples.map fun t => (i64ToUsize t.1.1, t.2))).flatten, o.1 < a.nrows := by
    rw [chunksOf_flatten (cooChunk_pos nthreads a.data.length)]
    intro o ho
    obtain ⟨t, ht, rfl⟩ := List.mem_map.1 ho
    have := ha.triple_bounds t ht
    simp only [i64ToUsize_of_nonneg this.1.1 (hi.triple t ht).1]
    omega
  by_cases h : a.data.length ≤ smallNnzLimit ∨ a.nrows ≤ smallDimLimit
  · obtain ⟨y, hy⟩ := accumHash_some (division_mem (division_single _) hk) 1024 hn
    exact ⟨y, _, division_single _, by rw [if_pos h]; exact hy⟩
  · obtain ⟨y, hy⟩ := accumStripe_some (division_mem (division_single _) hk) stripeLen (by decide)
    exact ⟨y, _, division_single _, by rw [if_neg h]; exact hy⟩

theorem col_sums_coo_runs (nthreads : Nat) {a : Coo V} (ha : a.WF) (hi : a.I64) (hn : a.ncols ≤ usizeMax) :
    ∃ y, ColSumsCooRun nthreads a y := by
  unfold ColSumsCooRun
  split
  · exact ⟨_, rfl⟩
  split
  · exact ⟨_, rfl⟩
  have hk : ∀ o ∈ (chunksOf (cooChunk nthreads a.data.length)
      (a.triples.map fun t => (i64ToUsize t.1.2, t.2))).flatten, o.1 < a.ncols := by
    rw [chunksOf_flatten (cooChunk_pos nthreads a.data.length)]
    intro o ho
    obtain ⟨t, ht, rfl⟩ := List.mem_map.1 ho
    have := ha.triple_bounds t ht
    simp only [i64ToUsize_of_nonneg this.2.1 (hi.triple t ht).2]
    omega
  by_cases h : a.data.length < satMul (a.ncols / 2) (max nthreads 1)
  · obtain ⟨y, hy⟩ := accumHash_some (division_mem (division_single _) hk) 1024 hn
    exact ⟨y, _, division_single _, by rw [if_pos h]; exact hy⟩
  · obtain ⟨y, hy⟩ := accumStripePar_some (division_mem (division_single _) hk) stripeLen (by decide)
    exact ⟨y, _, division_single _, by rw [if_neg h]; exact hy⟩

variable [Mul V]

/-- C71: the products complete in any arithmetic. -/
theorem spmv_csc_runs (nthreads : Nat) {a : Csc V} (ha : a.WFU) (hn : a.nrows ≤ usizeMax) {x : List V}
    (hx : x.length = a.ncols) : ∃ y, SpmvCscRun nthreads a x y := by
  have hlt : ∀ o ∈ (List.range a.ncols).flatMap (lineOps a.comp x), o.1 < a.nrows := by
    intro o ho
    obtain ⟨j, _, ho⟩ := List.mem_flatMap.1 ho
    exact lineOps_lt ha x j o ho
  have hflat : ((lineRanges a.comp).map fun r => (rangeLines r).flatMap (lineOps a.comp x)).flatten =
      (List.range a.ncols).flatMap (lineOps a.comp x) := by
    rw [← List.flatMap_def]
    exact range_flatMap_ranges (lineOps a.comp x) (fun i h => by
      unfold lineOps; rw [Comp.row_nil_of_len h]; rfl)
  unfold SpmvCscRun
  rw [hx]
  split
  · exact ⟨_, rfl, addAll?_eq _ _ (by simpa using hlt)⟩
  · obtain ⟨y, hy⟩ := accumChoose_some (division_mem (division_single _) (by rw [hflat]; exact hlt)) nthreads _ hn
    exact ⟨y, rfl, _, division_single _, hy⟩

theorem spmv_coo_runs (nthreads : Nat) {a : Coo V} (ha : a.WF) (hi : a.I64) (hn : a.nrows ≤ usizeMax) {x : List V}
    (hx : x.length = a.ncols) : ∃ y, SpmvCooRun nthreads a x y := by
  have ho := cooOps_eq ha hi hx
  have hlt : ∀ o ∈ a.triples.map (fun t => (t.1.1.toNat, t.2 * x.getD t.1.2.toNat 0)), o.1 < a.nrows := by
    intro o h'
    obtain ⟨t, ht, rfl⟩ := List.mem_map.1 h'
    have := (ha.triple_bounds t ht).1
    show t.1.1.toNat < a.nrows
    omega
  have hflat := chunksOf_flatten (cooChunk_pos nthreads a.data.length)
    (a.triples.map (fun t => (t.1.1.toNat, t.2 * x.getD t.1.2.toNat 0)))
  unfold SpmvCooRun
  rw [hx]
  by_cases h : a.nrows ≤ smallDimLimit ∨ a.data.length ≤ smallNnzLimit
  · exact ⟨_, rfl, _, ho, by rw [if_pos h]; exact addAll?_eq _ _ (by simpa using hlt)⟩
  · obtain ⟨y, hy⟩ := accumChoose_some (division_mem (division_single _) (by rw [hflat]; exact hlt)) nthreads _ hn
    exact ⟨y, rfl, _, ho, by rw [if_neg h]; exact ⟨_, division_single _, hy⟩⟩

theorem vecdot_csr_runs [BEq V] {a : Csr V} (ha : a.WFU) {x : List V} (hx : x.length = a.nrows) :
    ∃ y, VecdotCsrRun a x y := by
  unfold VecdotCsrRun
  rw [hx]
  split
  · exact ⟨_, rfl, rfl⟩
  · obtain ⟨y, hy⟩ := accumStripe_some (n := a.ncols) (division_mem (division_single ((lineRanges a.comp).map fun r =>
        ((rangeLines r).filter fun i => !(x.getD i 0 == 0)).flatMap (lineOps a.comp x))) (by
        intro o ho
        obtain ⟨l, hl, ho⟩ := List.mem_flatten.1 ho
        obtain ⟨r, _, rfl⟩ := List.mem_map.1 hl
        obtain ⟨i, _, ho⟩ := List.mem_flatMap.1 ho
        exact lineOps_lt ha x i o ho)) stripeLen (by decide)
    exact ⟨y, rfl, _, division_single _, hy⟩

theorem vecdot_coo_runs [BEq V] (nthreads : Nat) {a : Coo V} (ha : a.WF) (hi : a.I64) (hn : a.ncols ≤ usizeMax)
    {x : List V} (hx : x.length = a.nrows) : ∃ y, VecdotCooRun nthreads a x y := by
  have hops : cooVecOps a x = some (a.triples.map fun t =>
      if !(x.getD t.1.1.toNat 0 == 0) then [(t.1.2.toNat, t.2 * x.getD t.1.1.toNat 0)] else []) := by
    unfold cooVecOps
    apply mapM_option_map
    intro t ht
    have hb := ha.triple_bounds t ht
    have h64 := hi.triple t ht
    rw [i64ToUsize_of_nonneg hb.1.1 h64.1, i64ToUsize_of_nonneg hb.2.1 h64.2, List.getD_eq_getElem?_getD,
      List.getElem?_eq_getElem (by omega : t.1.1.toNat < x.length)]
    rfl
  generalize hop : (a.triples.map fun t =>
      if !(x.getD t.1.1.toNat 0 == 0) then [(t.1.2.toNat, t.2 * x.getD t.1.1.toNat 0)] else []) = ops at hops
  have hlt : ∀ o ∈ ((chunksOf (cooChunk nthreads a.data.length) ops).map List.flatten).flatten, o.1 < a.ncols := by
    rw [← List.flatten_flatten, chunksOf_flatten (cooChunk_pos _ _)]
    intro o ho
    obtain ⟨l, hl, ho⟩ := List.mem_flatten.1 ho
    rw [← hop] at hl
    obtain ⟨t, ht, rfl⟩ := List.mem_map.1 hl
    split at ho
    · rw [List.mem_singleton] at ho
      subst ho
      have := (ha.triple_bounds t ht).2
      show t.1.2.toNat < a.ncols
      omega
    · cases ho
  unfold VecdotCooRun
  rw [hx]
  split
  · exact ⟨_, rfl, rfl⟩
  · obtain ⟨y, hy⟩ := accumHash_some (division_mem (division_single _) hlt) 1024 hn
    exact ⟨y, rfl, _, hops, _, division_single _, hy⟩
end

/-! ### Error bounds -/

section
variable [Zero V] [Add V] [Mul V]

/-- C71: the error of a CSR matrix-vector product, which accumulates with fused multiply-adds. -/
theorem spmv_csr_error [HasFma V] (M : FpFma V) {a : Csr V} (ha : a.WFU) {x y : List V} (h : SpmvCsrRun a x y)
    {i : Nat} (hi : i < a.nrows) :
    RoundedDot M.toFpMul (a.rowFactors (fun j => x.getD j 0) i : Multiset (V × V)) (y.getD i 0) := by
  rw [((spmv_csr_exact ha x h.1).2 y h).2 i hi]
  have := fma_dot M (a.rowFactors (fun j => x.getD j 0) i)
  unfold Csr.rowFactors at this ⊢
  rw [List.foldl_map] at this
  exact this

/-- C71: the error of the other matrix-vector products, for every number of threads, accumulation
scheme, division of the work and order of merging. -/
theorem spmv_csc_error (M : FpMul V) (nthreads : Nat) {a : Csc V} (ha : a.WFU) (hn : a.nrows ≤ usizeMax) {x y : List V}
    (h : SpmvCscRun nthreads a x y) {i : Nat} (hi : i < a.nrows) :
    RoundedDot M (a.rowFactors (fun j => x.getD j 0) i : Multiset (V × V)) (y.getD i 0) :=
  pair_dot M ((spmv_csc_terms nthreads ha hn h).2 i hi)

theorem spmv_coo_error (M : FpMul V) (nthreads : Nat) {a : Coo V} (ha : a.WF) (hi : a.I64) (hn : a.nrows ≤ usizeMax)
    {x y : List V} (h : SpmvCooRun nthreads a x y) {i : Nat} (hr : i < a.nrows) :
    RoundedDot M (a.rowFactors (fun j => x.getD j 0) i : Multiset (V × V)) (y.getD i 0) :=
  pair_dot M ((spmv_coo_terms nthreads ha hi hn h).2 i hr)

/-- C71: contraction with a vector of weights; rows of weight zero do not count. -/
theorem vecdot_csr_error [BEq V] (M : FpMul V) {a : Csr V} (ha : a.WFU) {x y : List V}
    (h : VecdotCsrRun a x y) {j : Nat} (hj : j < a.ncols) :
    RoundedDot M ((a.colFactors (fun i => x.getD i 0) j).filter fun p => !(p.2 == 0) : List (V × V)) (y.getD j 0) :=
  pair_dot M ((vecdot_csr_terms ha h).2 j hj)

theorem vecdot_csc_error [HasFma V] (M : FpFma V) {a : Csc V} (ha : a.WFU) {x y : List V} (h : vecdotCsc a x = some y)
    {j : Nat} (hj : j < a.ncols) :
    RoundedDot M.toFpMul (a.colFactors (fun i => x.getD i 0) j : Multiset (V × V)) (y.getD j 0) := by
  rw [vecdot_csc_exact ha] at h
  split at h
  · have h := Option.some.inj h
    subst h
    have := fma_dot M (a.colFactors (fun i => x.getD i 0) j)
    unfold Csc.colFactors at this ⊢
    rw [List.foldl_map] at this
    simpa [hj] using this
  · cases h

theorem vecdot_coo_error [BEq V] (M : FpMul V) (nthreads : Nat) {a : Coo V} (ha : a.WF) (hi : a.I64)
    (hn : a.ncols ≤ usizeMax) {x y : List V} (h : VecdotCooRun nthreads a x y) {j : Nat} (hj : j < a.ncols) :
    RoundedDot M ((a.colFactors (fun i => x.getD i 0) j).filter fun p => !(p.2 == 0) : List (V × V)) (y.getD j 0) :=
  pair_dot M ((vecdot_coo_terms nthreads ha hi hn h).2 j hj)

/-- C71: products with a dense matrix. -/
theorem spmm_csr_error (M : FpMul V) (hc : ∀ x y : V, x * y = y * x) {a : Csr V} (ha : a.WFU)
    {b : List V} {k : Nat} (hk : 0 < k) (hb : b.length = a.ncols * k) (hm : a.ncols * k ≤ usizeMax)
    (hn : a.nrows * k ≤ usizeMax) {y : List V} (h : spmmCsr a b k = some y) {i c : Nat} (hi : i < a.nrows) (hck : c < k) :
    RoundedDot M (a.rowFactors (fun j => b.getD (j * k + c) 0) i : Multiset (V × V)) (y.getD (i * k + c) 0) :=
  pair_dot M ((spmm_csr_terms hc ha hk hb hm hn h).2 i c hi hck)

theorem spmm_csc_error (M : FpMul V) (hc : ∀ x y : V, x * y = y * x) {a : Csc V} (ha : a.WFU)
    {b : List V} {k : Nat} (hb : b.length = a.ncols * k) (hm : a.ncols * k ≤ usizeMax)
    (hn : a.nrows * k ≤ usizeMax) {y : List V} (h : SpmmCscRun a b k y) {i c : Nat} (hi : i < a.nrows) (hck : c < k) :
    RoundedDot M (a.rowFactors (fun j => b.getD (j * k + c) 0) i : Multiset (V × V)) (y.getD (i * k + c) 0) :=
  pair_dot M ((spmm_csc_terms hc ha hb hm hn h).2 i c hi hck)

theorem spmm_coo_error (M : FpMul V) (hc : ∀ x y : V, x * y = y * x) {a : Coo V} (ha : a.WF) (hi : a.I64)
    {b : List V} {k : Nat} (hb : b.length = a.ncols * k) (hm : a.ncols * k ≤ usizeMax)
    (hn : a.nrows * k ≤ usizeMax) {y : List V} (h : SpmmCooRun a b k y) {i c : Nat} (hr : i < a.nrows) (hck : c < k) :
    RoundedDot M (a.rowFactors (fun j => b.getD (j * k + c) 0) i : Multiset (V × V)) (y.getD (i * k + c) 0) :=
  pair_dot M ((spmm_coo_terms hc ha hi hb hm hn h).2 i c hr hck)

/-- C71: the automatic choice of the format has the error of the row-wise product. -/
theorem spmm_auto_error (M : FpMul V) (hc : ∀ x y : V, x * y = y * x) {a : Csr V} (ha : a.WF) (hf : a.comp.Fits)
    {b : List V} {k : Nat} (hk : 0 < k) (hb : b.length = a.ncols * k) (hm : a.ncols * k ≤ usizeMax)
    (hn : a.nrows * k ≤ usizeMax) {y : List V} (h : SpmmAutoRun a b k y) {i c : Nat} (hi : i < a.nrows) (hck : c < k) :
    RoundedDot M (a.rowFactors (fun j => b.getD (j * k + c) 0) i : Multiset (V × V)) (y.getD (i * k + c) 0) :=
  spmm_csr_error M hc (Comp.WF.wfu ha) hk hb hm hn ((spmm_auto_eq_csr hc ha hf b k hk hb hm hn y).1 h) hi hck
end

/-! ### Exact results in binary64 -/

theorem B64.mul_comm' (x y : B64) : x * y = y * x := by
  cases x <;> cases y <;> try rfl
  rename_i a b
  show B64.ofRat (a * b) = B64.ofRat (b * a)
  rw [_root_.mul_comm]

/-- The first factors are integer multiples of one power of two and the second of another, and the
absolute values of the products add up to less than `2 ^ 53` units. -/
def UnitPairs (l : List (B64 × B64)) : Prop :=
  ∃ e f : ℤ, -1074 ≤ e + f ∧ e + f ≤ 971 ∧ (∀ p ∈ l, ∃ m n : ℤ, p = (.fin (m * 2 ^ e), .fin (n * 2 ^ f))) ∧
    (l.map fun p => |p.1.toRat * p.2.toRat|).sum < 2 ^ 53 * 2 ^ (e + f)

/-- The exact sum of products. -/
def exactDot (l : List (B64 × B64)) : B64 := .fin (l.map fun p => p.1.toRat * p.2.toRat).sum

theorem pairs_exact {l : List (B64 × B64)} (hl : UnitPairs l) {v : B64} (h : AddTree (l.map pairMul : Multiset B64) v) :
    v = exactDot l := by
  obtain ⟨e, f, h1, h2, h3, h4⟩ := hl
  have := B64.tree_dot_exact (s := (l : Multiset (B64 × B64))) (g := pairMul) h1 h2 (fun _ _ => .inl rfl)
    (by rwa [Multiset.map_coe]) h3 h4
  simpa [exactDot] using this

/-- C71: with such numbers every product kernel returns the exact value in every execution. -/
theorem spmv_csr_unit {a : Csr B64} (ha : a.WFU) {x y : List B64} (h : SpmvCsrRun a x y) {i : Nat} (hi : i < a.nrows)
    (hd : UnitPairs (a.rowFactors (fun j => x.getD j 0) i)) :
    y.getD i 0 = exactDot (a.rowFactors (fun j => x.getD j 0) i) := by
  rw [((spmv_csr_exact ha x h.1).2 y h).2 i hi]
  obtain ⟨e, f, h1, h2, h3, h4⟩ := hd
  have := B64.fma_exact h1 h2 _ h3 h4
  unfold exactDot
  rw [← this]
  unfold Csr.rowFactors
  rw [List.foldl_map]

theorem spmv_csc_unit (nthreads : Nat) {a : Csc B64} (ha : a.WFU) (hn : a.nrows ≤ usizeMax) {x y : List B64}
    (h : SpmvCscRun nthreads a x y) {i : Nat} (hi : i < a.nrows)
    (hd : UnitPairs (a.rowFactors (fun j => x.getD j 0) i)) :
    y.getD i 0 = exactDot (a.rowFactors (fun j => x.getD j 0) i) :=
  pairs_exact hd ((spmv_csc_terms nthreads ha hn h).2 i hi)

theorem spmv_coo_unit (nthreads : Nat) {a : Coo B64} (ha : a.WF) (hi : a.I64) (hn : a.nrows ≤ usizeMax)
    {x y : List B64} (h : SpmvCooRun nthreads a x y) {i : Nat} (hr : i < a.nrows)
    (hd : UnitPairs (a.rowFactors (fun j => x.getD j 0) i)) :
    y.getD i 0 = exactDot (a.rowFactors (fun j => x.getD j 0) i) :=
  pairs_exact hd ((spmv_coo_terms nthreads ha hi hn h).2 i hr)

theorem exactDot_filter {l : List (B64 × B64)} : exactDot (l.filter fun p => !(p.2 == 0)) = exactDot l := by
  unfold exactDot
  congr 1
  induction l with
  | nil => rfl
  | cons p l ih =>
    rw [List.filter_cons]
    split
    · rw [List.map_cons, List.map_cons, List.sum_cons, List.sum_cons, ih]
    · rename_i h
      have h0 : p.2.toRat = 0 := by
        obtain ⟨p1, p2⟩ := p
        cases p2 with
        | special => rfl
        | fin q =>
          have h' : (B64.fin q == 0) = true := by simpa using h
          have h'' : decide (q = 0) = true := h'
          simpa [B64.toRat] using h''
      rw [List.map_cons, List.sum_cons, ih, h0, mul_zero, zero_add]

theorem UnitPairs.filter {l : List (B64 × B64)} (h : UnitPairs l) (q : B64 × B64 → Bool) : UnitPairs (l.filter q) := by
  obtain ⟨e, f, h1, h2, h3, h4⟩ := h
  refine ⟨e, f, h1, h2, fun p hp => h3 p (List.mem_of_mem_filter hp), lt_of_le_of_lt ?_ h4⟩
  clear h3 h4
  induction l with
  | nil => exact le_refl _
  | cons p l ih =>
    rw [List.filter_cons]
    split
    · rw [List.map_cons, List.map_cons, List.sum_cons, List.sum_cons]
      exact add_le_add_right ih _
    · rw [List.map_cons, List.sum_cons]
      exact le_trans ih (le_add_of_nonneg_left (abs_nonneg _))

theorem vecdot_csr_unit {a : Csr B64} (ha : a.WFU) {x y : List B64} (h : VecdotCsrRun a x y) {j : Nat} (hj : j < a.ncols)
    (hd : UnitPairs (a.colFactors (fun i => x.getD i 0) j)) :
    y.getD j 0 = exactDot (a.colFactors (fun i => x.getD i 0) j) :=
  (pairs_exact (hd.filter _) ((vecdot_csr_terms ha h).2 j hj)).trans exactDot_filter

theorem vecdot_csc_unit {a : Csc B64} (ha : a.WFU) {x y : List B64} (h : vecdotCsc a x = some y) {j : Nat}
    (hj : j < a.ncols) (hd : UnitPairs (a.colFactors (fun i => x.getD i 0) j)) :
    y.getD j 0 = exactDot (a.colFactors (fun i => x.getD i 0) j) := by
  rw [vecdot_csc_exact ha] at h
  split at h
  · have h := Option.some.inj h
    subst h
    obtain ⟨e, f, h1, h2, h3, h4⟩ := hd
    have := B64.fma_exact h1 h2 _ h3 h4
    unfold exactDot
    rw [← this]
    unfold Csc.colFactors
    rw [List.foldl_map]
    simp [hj]
  · cases h

theorem vecdot_coo_unit (nthreads : Nat) {a : Coo B64} (ha : a.WF) (hi : a.I64) (hn : a.ncols ≤ usizeMax)
    {x y : List B64} (h : VecdotCooRun nthreads a x y) {j : Nat} (hj : j < a.ncols)
    (hd : UnitPairs (a.colFactors (fun i => x.getD i 0) j)) :
    y.getD j 0 = exactDot (a.colFactors (fun i => x.getD i 0) j) :=
  (pairs_exact (hd.filter _) ((vecdot_coo_terms nthreads ha hi hn h).2 j hj)).trans exactDot_filter

theorem spmm_csr_unit {a : Csr B64} (ha : a.WFU) {b : List B64} {k : Nat} (hk : 0 < k) (hb : b.length = a.ncols * k)
    (hm : a.ncols * k ≤ usizeMax) (hn : a.nrows * k ≤ usizeMax) {y : List B64} (h : spmmCsr a b k = some y) {i c : Nat}
    (hi : i < a.nrows) (hck : c < k) (hd : UnitPairs (a.rowFactors (fun j => b.getD (j * k + c) 0) i)) :
    y.getD (i * k + c) 0 = exactDot (a.rowFactors (fun j => b.getD (j * k + c) 0) i) :=
  pairs_exact hd ((spmm_csr_terms B64.mul_comm' ha hk hb hm hn h).2 i c hi hck)

theorem spmm_csc_unit {a : Csc B64} (ha : a.WFU) {b : List B64} {k : Nat} (hb : b.length = a.ncols * k)
    (hm : a.ncols * k ≤ usizeMax) (hn : a.nrows * k ≤ usizeMax) {y : List B64} (h : SpmmCscRun a b k y) {i c : Nat}
    (hi : i < a.nrows) (hck : c < k) (hd : UnitPairs (a.rowFactors (fun j => b.getD (j * k + c) 0) i)) :
    y.getD (i * k + c) 0 = exactDot (a.rowFactors (fun j => b.getD (j * k + c) 0) i) :=
  pairs_exact hd ((spmm_csc_terms B64.mul_comm' ha hb hm hn h).2 i c hi hck)

theorem spmm_coo_unit {a : Coo B64} (ha : a.WF) (hi : a.I64) {b : List B64} {k : Nat} (hb : b.length = a.ncols * k)
    (hm : a.ncols * k ≤ usizeMax) (hn : a.nrows * k ≤ usizeMax) {y : List B64} (h : SpmmCooRun a b k y) {i c : Nat}
    (hr : i < a.nrows) (hck : c < k) (hd : UnitPairs (a.rowFactors (fun j => b.getD (j * k + c) 0) i)) :
    y.getD (i * k + c) 0 = exactDot (a.rowFactors (fun j => b.getD (j * k + c) 0) i) :=
  pairs_exact hd ((spmm_coo_terms B64.mul_comm' ha hi hb hm hn h).2 i c hr hck)

/-! ### The formats disagree on infinities and NaNs -/

/-- One infinite entry. -/
def exInf : Csr B64 := ⟨1, 1, [0, 1], [0], [.special]⟩
def exInfC : Csc B64 := ⟨1, 1, [0, 1], [0], [.special]⟩

/-- C71: with a zero weight, the row-wise kernel skips an infinite entry and returns 0, and the
column-wise kernel multiplies (`inf * 0` is NaN). -/
theorem vecdot_special_disagree : VecdotCsrRun exInf [0] [0] ∧ (∀ y, VecdotCsrRun exInf [0] y → y = [0]) ∧
    vecdotCsc exInfC [0] = some [.special] := by
  have hw : exInf.WFU := ⟨rfl, rfl, rfl, rfl, by decide, by decide, by unfold i64Max; decide⟩
  have h0 : (0 : B64) + 0 = 0 := by
    show B64.ofRat (0 + 0) = .fin 0
    rw [add_zero]; exact B64.ofRat_rep B64.rep_zero
  have key : ∀ y, VecdotCsrRun exInf [0] y → y = [0] := by
    intro y hy
    obtain ⟨h1, h2⟩ := vecdot_csr_terms hw hy
    have h3 := h2 0 (by decide)
    have := (AddTree.single (x := (0 : B64)) h0 h0 h0 h3).1 (by
      have e : (exInf.colFactors (fun i => [(0 : B64)].getD i 0) 0).filter (fun p => !(p.2 == 0)) = [] := by
        show List.filter _ [(B64.special, (0 : B64))] = []
        have : ((0 : B64) == 0) = true := decide_eq_true (rfl : (0 : ℚ) = 0)
        simp [this]
      rw [e]
      simp)
    match y, h1 with
    | [v], _ => exact congrArg (fun v => [v]) this
  obtain ⟨y, hy⟩ := vecdot_csr_runs hw (x := [0]) rfl
  exact ⟨key y hy ▸ hy, key, rfl⟩

/-! ### Witnesses -/

theorem exDot_unit : UnitPairs [(.fin 3, .fin (1 / 2)), (.fin (-1), .fin 1), (.fin 5, .fin (5 / 2))] := by
  refine ⟨0, -1, by norm_num, by norm_num, ?_, ?_⟩
  · simp only [List.mem_cons, List.not_mem_nil, or_false]
    rintro x (rfl | rfl | rfl)
    · exact ⟨3, 1, by norm_num⟩
    · exact ⟨-1, 2, by norm_num⟩
    · exact ⟨5, 5, by norm_num⟩
  · simp only [List.map_cons, List.map_nil, List.sum_cons, List.sum_nil, B64.toRat]
    norm_num [abs_of_pos]

/-- The hypotheses of the error bound hold for them. -/
example : (∀ p ∈ ([(.fin 3, .fin (1 / 2)), (.fin (-1), .fin 1)] : List (B64 × B64)), B64.fp.Fin p.1 ∧ B64.fp.Fin p.2) ∧
    (1 + B64.fp.eps) ^ 3 * ((([(.fin 3, .fin (1 / 2)), (.fin (-1), .fin 1)] : List (B64 × B64)).map
      fun p => |B64.fp.val p.1 * B64.fp.val p.2|).sum + 2 * B64.fp.eta) ≤ B64.fp.big := by
  refine ⟨?_, ?_⟩
  · simp only [List.mem_cons, List.not_mem_nil, or_false]
    have r1 : B64.Rep 1 := by simpa using rep_nat (n := 1) (by norm_num)
    have r3 : B64.Rep 3 := by simpa using rep_nat (n := 3) (by norm_num)
    have rh : B64.Rep (1 / 2) := by
      have := B64.rep_units (m := 1) (e := -1) (by norm_num) (by norm_num) (by norm_num)
      norm_num at this ⊢
      exact this
    have rm : B64.Rep (-1) := by
      have := B64.rep_units (m := -1) (e := 0) (by norm_num) (by norm_num) (by norm_num)
      norm_num at this ⊢
      exact this
    rintro p (rfl | rfl)
    · exact ⟨r3, rh⟩
    · exact ⟨rm, r1⟩
  · have he : B64.fp.eta ≤ 1 := by
      show (1 / 2 * 2 ^ (-1074 : ℤ) : ℚ) ≤ 1
      have : (2 : ℚ) ^ (-1074 : ℤ) ≤ 2 ^ (0 : ℤ) := zpow_le_zpow_right₀ (by norm_num) (by norm_num)
      rw [zpow_zero] at this
      linarith
    refine le_trans ?_ big_pow
    simp only [List.map_cons, List.map_nil, List.sum_cons, List.sum_nil]
    show (1 + 1 / 2 ^ 53 : ℚ) ^ 3 * (|(3 : ℚ) * (1 / 2)| + (|(-1 : ℚ) * 1| + 0) + 2 * B64.fp.eta) ≤ 2 ^ 60
    refine le_trans (mul_le_mul_of_nonneg_left (add_le_add_right (mul_le_mul_of_nonneg_left he (by norm_num)) _) (by norm_num)) ?_
    norm_num [abs_of_pos]

example {y : List B64} (h : SpmvCsrRun exInts [.fin (1 / 2), .fin 1, .fin (5 / 2)] y) : y.getD 0 0 = .fin 13 := by
  rw [spmv_csr_unit exInts_wfu h (i := 0) (by decide) exDot_unit]
  show exactDot [(.fin 3, .fin (1 / 2)), (.fin (-1), .fin 1), (.fin 5, .fin (5 / 2))] = _
  unfold exactDot
  simp only [List.map_cons, List.map_nil, List.sum_cons, List.sum_nil, B64.toRat]
  norm_num

end Lacuna
