import Verif.Spec.PyDot
import Verif.Lemmas.AnyRuns
import Verif.Lemmas.PyLinProg
import Verif.Lemmas.PyAnyObj
import Verif.Lemmas.PyRead
/-
The product kernels on valid matrices in any arithmetic, and what they read of an object.
-/
set_option linter.unusedSectionVars false

namespace Lacuna
variable {V : Type}

/-! ### Kernels -/

/-- The numbers stored in a row, each with the factor of its column; and in a column. -/
def Native.rowFactors : Native V → (Nat → V) → Nat → List (V × V)
  | .csr a => a.rowFactors
  | .csc a => a.rowFactors
  | .coo a => a.rowFactors
def Native.colFactors : Native V → (Nat → V) → Nat → List (V × V)
  | .csr a => a.colFactors
  | .csc a => a.colFactors
  | .coo a => a.colFactors

theorem strategies_wit [Zero V] [Add V] {ι : Type} {dbg : Bool} {nthreads n nnz N : Nat} {rs : List ι}
    {work : {A : Type} → (A → Nat → V → Except Fault A) → A → ι → Except Fault A} {ops : ι → List (Nat × V)}
    (hn : 8 * (n : Int) ≤ i64Max) (hk : ∀ o ∈ rs.flatMap ops, o.1 < n)
    (hw : ∀ {A : Type} (add : A → Nat → V → Except Fault A), ∀ x ∈ rs, ∀ acc, work add acc x = runOps add acc (ops x))
    (hN : (rs.flatMap ops).length ≤ N) (hN24 : 24 * (N : Int) ≤ i64Max) :
    ∃ y, ∀ F, 3 * N + 1024 ≤ F → SpmvStrategiesPtr dbg F nthreads n nnz (List.replicate n 0) (.ok rs) work (.ok y) := by
  unfold SpmvStrategiesPtr
  simp only []
  split
  · exact hash_wit hn hk (work := fun F => work (hashAdd dbg F)) (fun F => hw (hashAdd dbg F)) hN hN24 fun _ _ => Iff.rfl
  split
  · obtain ⟨y, hy⟩ := (touch_returns hk (hw _)).1
    exact ⟨y, fun _ _ => hy⟩
  · obtain ⟨y, hy⟩ := (stripe_returns (stripe := stripeLen) hk (by decide) (hw _)
      (merge := fun accs out => out = accs.foldlM (mergeStripeP stripeLen) (List.replicate n 0)) (fun _ _ => Iff.rfl) fun y accs hy hs => mergeStripeP_eq (by decide) hy hs).1
    exact ⟨y, fun _ _ => hy⟩

section
variable [Zero V] [Add V] [Mul V] {dbg : Bool} {nthreads : Nat}

theorem spmv_csc_wit {a : Csc V} {x : List V} (ha : a.WFU) (hm : a.comp.Machine) (hx : x.length = a.ncols)
    (hn : 8 * (a.nrows : Int) ≤ i64Max) (hd : 24 * (a.data.length : Int) ≤ i64Max) :
    ∃ y, ∀ F, 3 * a.data.length + 1024 ≤ F → SpmvCscPtr dbg F nthreads a x (.ok y) := by
  by_cases hs : a.ncols ≤ smallDimLimit ∨ a.data.length ≤ smallNnzLimit
  · obtain ⟨y, hy⟩ := (spmv_csc_ptr (dbg := dbg) (nthreads := nthreads) ha hm hx hn hd (Nat.le_refl _)).1
    refine ⟨y, fun F _ => ?_⟩
    unfold SpmvCscPtr at hy ⊢
    simp only [if_pos hx, zeroVecP_ok hn, if_pos hs] at hy ⊢
    exact hy
  have hp : a.comp.PtrOk := Comp.WFU.ptrOk ha
  have hj : dbg = true → ∀ j ∈ a.comp.indices, 0 ≤ j := fun _ => Comp.WFU.nonneg ha
  have hlt : ∀ o ∈ (List.range a.ncols).flatMap (lineFOps a.comp fun j v => v * x.getD j 0), o.1 < a.nrows :=
    mem_flatMap_of fun i => lineFOps_lt (a := a.comp) ha (fun j v => v * x.getD j 0) i
  unfold SpmvCscPtr
  simp only [if_pos hx, zeroVecP_ok hn, if_neg hs]
  rw [show rangesP dbg (128 * 1024) a.comp a.ncols 0 0 0 = .ok (lineRanges a.comp) from hp.rangesP hm dbg]
  exact strategies_wit (dbg := dbg) (nthreads := nthreads) (nnz := a.data.length)
      (N := a.data.length) (rs := lineRanges a.comp)
      (ops := rangeFOps a.comp (fun j v => v * x.getD j 0) fun _ => false)
      (work := fun add => scatterRangeP dbg a.comp (fun j v => v * x.getD j 0) (fun _ => false) add) hn
      (by rw [ranges_fops]; exact hlt)
      (fun add r hr acc => scatterRangeP_eq hp hm hj _ _ _ _ (lineRanges_le r hr))
      (by rw [ranges_fops]; exact hp.lineFOps_length _) hd

theorem spmv_coo_wit {a : Coo V} {x : List V} (ha : a.WF) (hi : a.I64) (hx : x.length = a.ncols)
    (hn : 8 * (a.nrows : Int) ≤ i64Max) (hd : 24 * (a.data.length : Int) ≤ i64Max) :
    ∃ y, ∀ F, 3 * a.data.length + 1024 ≤ F → SpmvCooPtr dbg F nthreads a x (.ok y) := by
  by_cases hs : a.nrows ≤ smallDimLimit ∨ a.data.length ≤ smallNnzLimit
  · obtain ⟨y, hy⟩ := (spmv_coo_ptr (dbg := dbg) (nthreads := nthreads) ha hi hx hn hd (Nat.le_refl _)).1
    refine ⟨y, fun F _ => ?_⟩
    unfold SpmvCooPtr at hy ⊢
    simp only [if_pos hx, zeroVecP_ok hn, if_pos hs] at hy ⊢
    exact hy
  have hr := ha.row_length
  have hc := ha.col_length
  have hrow : dbg = true → ∀ i ∈ a.row, 0 ≤ i := fun _ i h => (ha.row_bounds i h).1
  have hcol : ∀ j ∈ a.col, 0 ≤ j ∧ i64ToUsize j < x.length := fun j h => by
    have := ha.col_bounds j h
    rw [i64ToUsize_of_nonneg this.1 (hi.2 j h)]
    omega
  have hlen : (cooMulOps a x).length = a.data.length := by
    unfold cooMulOps; rw [List.length_map, triples_len hr hc]
  have hlt : ∀ o ∈ cooMulOps a x, o.1 < a.nrows := by
    intro o ho
    obtain ⟨t, ht, rfl⟩ := List.mem_map.1 ho
    have hb := ha.triple_bounds t ht
    simp only []
    rw [i64ToUsize_of_nonneg hb.1.1 (hi.triple t ht).1]
    omega
  unfold SpmvCooPtr
  simp only [if_pos hx, zeroVecP_ok hn, if_neg hs]
  exact strategies_wit (dbg := dbg) (nthreads := nthreads) (nnz := a.data.length)
      (N := a.data.length) (rs := cooItems nthreads a.data.length)
      (ops := chunkAt (cooChunk nthreads a.data.length) (cooMulOps a x))
      (work := fun add => scatterChunkP (cooMulOpP dbg a x) a.data.length (cooChunk nthreads a.data.length) add) hn
      (by rw [coo_items_flat nthreads hlen]; exact hlt)
      (fun add t _ acc => cooMul_work hr hc hrow hcol _ _ _ _)
      (by rw [coo_items_flat nthreads hlen, hlen]) hd

theorem vecdot_coo_wit [BEq V] {a : Coo V} {x : List V} (ha : a.WF) (hi : a.I64) (hx : x.length = a.nrows)
    (hn : 8 * (a.ncols : Int) ≤ i64Max) (hd : 24 * (a.data.length : Int) ≤ i64Max) :
    ∃ y, ∀ F, 3 * a.data.length + 1024 ≤ F → VecdotCooPtr dbg F nthreads a x (.ok y) := by
  have hr := ha.row_length
  have hc := ha.col_length
  have hcol : dbg = true → ∀ j ∈ a.col, 0 ≤ j := fun _ j h => (ha.col_bounds j h).1
  have hrow : ∀ i ∈ a.row, 0 ≤ i ∧ i64ToUsize i < x.length := fun i h => by
    have := ha.row_bounds i h
    rw [i64ToUsize_of_nonneg this.1 (hi.1 i h)]
    omega
  have hlen : (cooDotOps a x).length = a.data.length := by
    unfold cooDotOps; rw [List.length_map, triples_len hr hc]
  have hlt : ∀ o ∈ (cooDotOps a x).flatten, o.1 < a.ncols := by
    intro o ho
    obtain ⟨l, hl, ho⟩ := List.mem_flatten.1 ho
    obtain ⟨t, ht, rfl⟩ := List.mem_map.1 hl
    have hb := ha.triple_bounds t ht
    split at ho
    · rw [List.mem_singleton.1 ho]
      simp only []
      rw [i64ToUsize_of_nonneg hb.2.1 (hi.triple t ht).2]
      omega
    · cases ho
  unfold VecdotCooPtr
  simp only [if_pos hx]
  split
  · rw [zeroVecP_ok hn]; exact ⟨_, fun _ _ => rfl⟩
  · exact hash_wit (dbg := dbg) (N := a.data.length) (items := cooItems nthreads a.data.length)
      (work := fun F => scatterChunkP (cooDotOpP dbg a x) a.data.length (cooChunk nthreads a.data.length) (hashAdd dbg F))
      (ops := fun t => (chunkAt (cooChunk nthreads a.data.length) (cooDotOps a x) t).flatten) hn
      (by rw [flatMap_flatten, coo_items_flat nthreads hlen]; exact hlt)
      (fun F t _ acc => cooDot_work hr hc hrow hcol _ _ _ _)
      (by
        rw [flatMap_flatten, coo_items_flat nthreads hlen]
        exact Nat.le_trans (cooDotOps_len a x) (by rw [triples_len hr hc])) hd (mergeSeq_iff hn _)

variable [BEq V] [HasFma V]

/-- The class of a native matrix. -/
def Native.ty : Native V → Ty
  | .csr a => .mat .csr a.nrows a.ncols
  | .csc a => .mat .csc a.nrows a.ncols
  | .coo a => .coo a.nrows a.ncols

/-- A matrix times a vector. -/
theorem spmv_gives (dbg : Bool) (nthreads : Nat) {a : Native V} (hv : a.Valid) (hf : a.Fits) {x : List V} (hx : x.length = a.cols) :
    Gives (fun N => SpmvOut dbg nthreads N a x) fun d => d.length = a.rows ∧ ∀ i, i < a.rows →
      DotCell a.ty 1 false (a.rowFactors (fun j => x.getD j 0) i) (d.getD i 0) := by
  have f1 := hf.1
  have f3 := hf.2.2
  cases a with
  | csr a =>
    refine gives_eq (a.indices.length + 1) (fun N hN o => ?_) ?_ (y := (List.range a.nrows).map fun i =>
        (a.comp.row i).foldl (fun acc e => mulAdd e.2 (x.getD e.1.toNat 0) acc) 0)
    · show SpmvPtrRun dbg N a x o ↔ _
      rw [spmv_csr_ptr (Comp.WFU.ptrOk hv) (Comp.WFU.idxOk hv) (hf.csr hv) x dbg (by omega), if_pos (show x.length = a.ncols from hx)]
    · refine ⟨by simp; rfl, fun i hi => ?_⟩
      have hi : i < a.nrows := hi
      show _ = fmaFold (a.rowFactors (fun j => x.getD j 0) i)
      unfold fmaFold Csr.rowFactors
      rw [List.foldl_map]
      simp [hi]
  | csc a =>
    have hn : 8 * (a.nrows : Int) ≤ i64Max := by have : 8 * ((a.nrows : Int) + 1) ≤ i64Max := f1; omega
    refine gives_wit (3 * a.data.length + 1024) (spmv_csc_wit hv (hf.csc hv) hx hn f3) fun N hN =>
      (spmv_csc_ptr hv (hf.csc hv) hx hn f3 hN).mono fun y hy => ?_
    exact spmv_csc_terms nthreads hv (Nat.le_of_lt (n_le_usize hn)) hy
  | coo a =>
    have hn : 8 * (a.nrows : Int) ≤ i64Max := by have : 8 * ((a.nrows : Int) + 1) ≤ i64Max := f1; omega
    refine gives_wit (3 * a.data.length + 1024) (spmv_coo_wit hv.1 hv.2 hx hn f3) fun N hN =>
      (spmv_coo_ptr hv.1 hv.2 hx hn f3 hN).mono fun y hy => ?_
    exact spmv_coo_terms nthreads hv.1 hv.2 (Nat.le_of_lt (n_le_usize hn)) hy

/-- A vector times a matrix. -/
theorem vecdot_gives (dbg : Bool) (nthreads : Nat) {a : Native V} (hv : a.Valid) (hf : a.Fits) {x : List V} (hx : x.length = a.rows) :
    Gives (fun N => VecdotOut dbg nthreads N a x) fun d => d.length = a.cols ∧ ∀ j, j < a.cols →
      DotCell a.ty 1 true (a.colFactors (fun i => x.getD i 0) j) (d.getD j 0) := by
  have f2 := hf.2.1
  have f3 := hf.2.2
  cases a with
  | csr a =>
    have hn : 8 * (a.ncols : Int) ≤ i64Max := by have : 8 * ((a.ncols : Int) + 1) ≤ i64Max := f2; omega
    have h := vecdot_csr_ptr (dbg := dbg) hv (hf.csr hv) hx hn
    obtain ⟨y, hy⟩ := h.1
    refine gives_wit 0 ⟨y, fun _ _ => hy⟩ fun N hN => h.mono fun y hy => vecdot_csr_terms hv hy
  | csc a =>
    refine gives_eq (a.indices.length + 1) (fun N hN o => ?_) ?_ (y := (List.range a.ncols).map fun j =>
        (a.comp.row j).foldl (fun acc e => mulAdd e.2 (x.getD e.1.toNat 0) acc) 0)
    · show VecdotCscPtrRun dbg N a x o ↔ _
      rw [vecdot_csc_ptr (Comp.WFU.ptrOk hv) (Comp.WFU.idxOk hv) (hf.csc hv) x dbg (by omega), if_pos (show x.length = a.nrows from hx)]
    · refine ⟨by simp; rfl, fun j hj => ?_⟩
      have hj : j < a.ncols := hj
      show _ = fmaFold (a.colFactors (fun i => x.getD i 0) j)
      unfold fmaFold Csc.colFactors
      rw [List.foldl_map]
      simp [hj]
  | coo a =>
    have hn : 8 * (a.ncols : Int) ≤ i64Max := by have : 8 * ((a.ncols : Int) + 1) ≤ i64Max := f2; omega
    refine gives_wit (3 * a.data.length + 1024) (vecdot_coo_wit hv.1 hv.2 hx hn f3) fun N hN =>
      (vecdot_coo_ptr hv.1 hv.2 hx hn f3 hN).mono fun y hy => ?_
    exact vecdot_coo_terms nthreads hv.1 hv.2 (Nat.le_of_lt (n_le_usize hn)) hy

/-- A dense matrix with `k` columns whose element `(i, c)` adds the products of row `i`. -/
def MatFold (a : Native V) (k : Nat) (b d : List V) : Prop :=
  d.length = a.rows * k ∧ ∀ i c, i < a.rows → c < k → d.getD (i * k + c) 0 = dotFold (a.rowFactors (fun j => b.getD (j * k + c) 0) i)

theorem matFold_unique {a : Native V} {k : Nat} {b y z : List V} (hy : MatFold a k b y) (hz : MatFold a k b z) : y = z := by
  refine List.ext_getElem (by rw [hy.1, hz.1]) fun p h1 h2 => ?_
  have hp : p < a.rows * k := by rw [← hy.1]; exact h1
  have hk : 0 < k := Nat.pos_of_ne_zero fun h => by simp [h] at hp
  have e := Nat.div_add_mod p k
  have hi : p / k < a.rows := Nat.div_lt_of_lt_mul (by rwa [Nat.mul_comm])
  have a1 := hy.2 (p / k) (p % k) hi (Nat.mod_lt _ hk)
  have a2 := hz.2 (p / k) (p % k) hi (Nat.mod_lt _ hk)
  rw [show p / k * k + p % k = p by rw [Nat.mul_comm]; exact e] at a1 a2
  rw [List.getD_eq_getElem _ _ h1] at a1
  rw [List.getD_eq_getElem _ _ h2] at a2
  rw [a1, a2]

/-- A matrix times a dense matrix: one result. -/
theorem spmm_fold (hc : ∀ x y : V, x * y = y * x) (dbg : Bool) {a : Native V} (hv : a.Valid) (hf : a.Fits) {b : List V} {k : Nat}
    (hk : 0 < k) (hb : b.length = a.cols * k) (hbs : 8 * (b.length : Int) ≤ i64Max) (hs : 8 * ((a.rows * k : Nat) : Int) ≤ i64Max) :
    ∃ d, MatFold a k b d ∧ ∀ o, Settles (fun N => SpmmOut dbg N a b k) o ↔ o = .ok d := by
  have hm : a.cols * k ≤ usizeMax := by rw [← hb]; exact bytes_usize hbs
  have hn : a.rows * k ≤ usizeMax := bytes_usize hs
  cases a with
  | csr a =>
    obtain ⟨y, e, hy⟩ := spmm_csr_exact hc hv b k hk hb hm hn
    refine ⟨y, ⟨hy.1, fun i c hi hck => ?_⟩, fun o => settles_iff 129 fun N hN o => ?_⟩
    · rw [hy.2 i c hi hck]
      show _ = dotFold (a.rowFactors (fun j => b.getD (j * k + c) 0) i)
      unfold dotFold Csr.rowFactors
      rw [List.foldl_map, List.foldl_map]
    · show SpmmCsrPtr dbg N a b k o ↔ _
      rw [spmm_csr_ptr hv (hf.csr hv) hk hb hbs hs (by omega), e]
      simp
  | csc a =>
    have key : ∀ y, SpmmCscRun a b k y → MatFold (.csc a) k b y := by
      intro y h
      have hy := (spmm_csc_exact hc hv b k hb hm hn).2 y h
      refine ⟨hy.1, fun i c hi hck => ?_⟩
      rw [hy.2 i c hi hck]
      show _ = dotFold (a.rowFactors _ i)
      unfold dotFold Csc.rowFactors Csc.rowPairs
      rw [List.foldl_flatMap, List.foldl_flatMap]
      simp only [List.foldl_map]
    obtain ⟨y, hy⟩ := (spmm_csc_exact hc hv b k hb hm hn).1
    refine ⟨y, key y hy, fun o => settles_iff 129 fun N hN o => ?_⟩
    show SpmmCscPtr dbg N a b k o ↔ _
    rw [spmm_csc_ptr hv (hf.csc hv) hb hbs hs (by omega)]
    constructor
    · rintro ⟨z, h1, rfl⟩; rw [matFold_unique (key z h1) (key y hy)]
    · rintro rfl; exact ⟨y, hy, rfl⟩
  | coo a =>
    have key : ∀ y, SpmmCooRun a b k y → MatFold (.coo a) k b y := by
      intro y h
      have hy := (spmm_coo_exact hc hv.1 hv.2 b k hb hm hn).2 y h
      refine ⟨hy.1, fun i c hi hck => ?_⟩
      rw [hy.2 i c hi hck]
      show _ = dotFold (a.rowFactors (fun j => b.getD (j * k + c) 0) i)
      unfold dotFold Coo.rowFactors Coo.rowPairs
      rw [List.foldl_map, List.foldl_map]
    obtain ⟨y, hy⟩ := (spmm_coo_exact hc hv.1 hv.2 b k hb hm hn).1
    refine ⟨y, key y hy, fun o => settles_iff 129 fun N hN o => ?_⟩
    show SpmmCooPtr dbg N a b k o ↔ _
    rw [spmm_coo_ptr hv.1 hv.2 hb hbs hs (by omega)]
    constructor
    · rintro ⟨z, h1, rfl⟩; rw [matFold_unique (key z h1) (key y hy)]
    · rintro rfl; exact ⟨y, hy, rfl⟩

end

/-! ### What the kernels read of an object -/

theorem filter_lines_row (a : Comp V) {i : Nat} (hi : i < a.n) {β : Type} (f : Int → V → β) :
    (((List.range a.n).flatMap fun (i : Nat) => (a.row i).map fun e => ([(i : Int), e.1], e.2)).filter
      fun e => e.1.getD 0 0 == (i : Int)).map (fun e => f (e.1.getD 1 0) e.2) = (a.row i).map fun e => f e.1 e.2 := by
  rw [List.filter_flatMap, List.map_flatMap]
  rw [← flatMap_single a.n i hi ((a.row i).map fun e => f e.1 e.2)]
  refine List.flatMap_congr fun k _ => ?_
  rw [List.filter_map, List.map_map]
  by_cases hk : k = i
  · subst hk
    rw [if_pos rfl, List.filter_eq_self.2 (by simp)]
    rfl
  · rw [if_neg hk, List.filter_eq_nil_iff.2 (by simp; omega)]
    rfl

theorem rowTerms {v : SpVal V} {a : Native V} (hv : v.Valid) (e : v.toNative = some a) (f : Nat → V) {i : Nat} (hi : i < a.rows) :
    (v.stores.filter fun e => e.1.getD 0 0 == (i : Int)).map (fun e => (e.2, f (e.1.getD 1 0).toNat)) = a.rowFactors f i := by
  cases v with
  | mat fmt c =>
    cases fmt with
    | csr => cases e; exact filter_lines_row c hi fun j v => (v, f j.toNat)
    | csc =>
      cases e
      show (List.filter _ ((List.range c.n).flatMap fun (j : Nat) => (c.row j).map fun e => ([e.1, (j : Int)], e.2))).map _ =
        (List.range c.n).flatMap fun j => ((c.row j).filter fun e => e.1 == (i : Int)).map fun e => (e.2, f j)
      rw [List.filter_flatMap, List.map_flatMap]
      refine List.flatMap_congr fun j _ => ?_
      rw [List.filter_map, List.map_map]
      rfl
  | coo c =>
    cases e
    show (List.filter _ (c.triples.map fun t => ([t.1.1, t.1.2], t.2))).map _ =
      (c.triples.filter fun t => t.1.1 == (i : Int)).map fun t => (t.2, f t.1.2.toNat)
    rw [List.filter_map, List.map_map]
    rfl
  | nd c => cases e

theorem colTerms {v : SpVal V} {a : Native V} (hv : v.Valid) (e : v.toNative = some a) (f : Nat → V) {j : Nat} (hj : j < a.cols) :
    (v.stores.filter fun e => e.1.getD 1 0 == (j : Int)).map (fun e => (e.2, f (e.1.getD 0 0).toNat)) = a.colFactors f j := by
  cases v with
  | mat fmt c =>
    cases fmt with
    | csc =>
      cases e
      rw [show Native.colFactors (.csc c.toCsc) f j = (c.row j).map fun e => (e.2, f e.1.toNat) from rfl,
        ← filter_lines_row c hj fun j v => (v, f j.toNat)]
      show (List.filter _ ((List.range c.n).flatMap fun (j : Nat) => (c.row j).map fun e => ([e.1, (j : Int)], e.2))).map _ = _
      rw [List.filter_flatMap, List.map_flatMap, List.filter_flatMap, List.map_flatMap]
      refine List.flatMap_congr fun k _ => ?_
      rw [List.filter_map, List.map_map, List.filter_map, List.map_map]
      rfl
    | csr =>
      cases e
      show (List.filter _ ((List.range c.n).flatMap fun (j : Nat) => (c.row j).map fun e => ([(j : Int), e.1], e.2))).map _ =
        (List.range c.n).flatMap fun i => ((c.row i).filter fun e => e.1 == (j : Int)).map fun e => (e.2, f i)
      rw [List.filter_flatMap, List.map_flatMap]
      refine List.flatMap_congr fun j _ => ?_
      rw [List.filter_map, List.map_map]
      rfl
  | coo c =>
    cases e
    show (List.filter _ (c.triples.map fun t => ([t.1.1, t.1.2], t.2))).map _ =
      (c.triples.filter fun t => t.1.2 == (j : Int)).map fun t => (t.2, f t.1.1.toNat)
    rw [List.filter_map, List.map_map]
    rfl
  | nd c => cases e

theorem toNative_ty {v : SpVal V} {a : Native V} (e : v.toNative = some a) : a.ty = v.ty := by
  cases v with
  | mat f c => cases f <;> (cases e; rfl)
  | coo c => cases e; rfl
  | nd c => cases e

/-! ### Results as contractions -/

section
variable [Zero V] [Add V] [Mul V] [BEq V] [HasFma V] {v : SpVal V} {a : Native V} {P : List (V × V) → V → Prop}

theorem contractsBy_rows (hv : v.Valid) (e : v.toNative = some a) {y : DenseNd V} (hs : y.shape = [a.cols]) {d : List V}
    (h : d.length = a.rows ∧ ∀ i, i < a.rows → P (a.rowFactors (fun j => y.data.getD j 0) i) (d.getD i 0)) :
    ContractsBy P v.stores false a.rows 0 y ⟨[a.rows], d⟩ := by
  refine ⟨by rw [hs]; rfl, by simpa using h.1, fun z hz => ?_⟩
  cases hz with
  | @cons i _ is _ h1 h2 =>
  cases h2
  obtain ⟨k, rfl⟩ := Int.eq_ofNat_of_zero_le h1.1
  have hk : k < a.rows := by have := h1.2; omega
  have := h.2 k hk
  rw [← rowTerms hv e _ hk] at this
  simpa [dotTerms, DenseNd.elem, hs, rowMajor] using this

theorem contractsBy_cols (hv : v.Valid) (e : v.toNative = some a) {y : DenseNd V} (hs : y.shape = [a.rows]) {d : List V}
    (h : d.length = a.cols ∧ ∀ j, j < a.cols → P (a.colFactors (fun i => y.data.getD i 0) j) (d.getD j 0)) :
    ContractsBy P v.stores true a.cols 0 y ⟨[a.cols], d⟩ := by
  refine ⟨by rw [hs]; rfl, by simpa using h.1, fun z hz => ?_⟩
  cases hz with
  | @cons i _ is _ h1 h2 =>
  cases h2
  obtain ⟨k, rfl⟩ := Int.eq_ofNat_of_zero_le h1.1
  have hk : k < a.cols := by have := h1.2; omega
  have := h.2 k hk
  rw [← colTerms hv e _ hk] at this
  simpa [dotTerms, DenseNd.elem, hs, rowMajor] using this

theorem contractsBy_mat (hv : v.Valid) (e : v.toNative = some a) {y : DenseNd V} {rest : List Nat} (hs : y.shape = a.cols :: rest)
    {d : List V} (h : MatFold a rest.prod y.data d) :
    ContractsBy (fun l x => x = dotFold l) v.stores false a.rows 0 y ⟨a.rows :: rest, d⟩ := by
  refine ⟨by rw [hs]; rfl, by simpa using h.1, fun z hz => ?_⟩
  cases hz with
  | @cons i _ is _ h1 h2 =>
  obtain ⟨k, rfl⟩ := Int.eq_ofNat_of_zero_le h1.1
  have hk : k < a.rows := by have := h1.2; omega
  have := h.2 k _ hk (rowMajor_lt h2)
  rw [← rowTerms hv e _ hk] at this
  simpa [dotTerms, DenseNd.elem, hs, rowMajor] using this

theorem contractsBy_batch (hv : v.Valid) (e : v.toNative = some a) (hsh : v.ty.shape = [a.rows, a.cols]) {y : DenseNd V} {batch : List Nat} {n : Nat}
    (hs : y.shape = batch ++ [a.cols, n]) {d : List V}
    (h : MatFold a (batch.prod * n) (swap01 batch.prod a.cols n y.data) d) :
    ContractsBy (fun l x => x = dotFold l) v.stores false a.rows batch.length y
      ⟨batch ++ [a.rows, n], swap01 a.rows batch.prod n d⟩ := by
  refine ⟨by rw [hs]; simp, by rw [swap01_length, List.prod_append]; simp, fun z hz => ?_⟩
  have hz : InBounds (batch ++ [a.rows, n]) z := hz
  have ht : InBounds batch (z.take batch.length) := List.forall₂_take_append _ _ _ hz
  have hd : InBounds [a.rows, n] (z.drop batch.length) := List.forall₂_drop_append _ _ _ hz
  obtain ⟨i, c, hi, hc, e'⟩ := inBounds_two hd
  have ez : z = z.take batch.length ++ [(i : Int), (c : Int)] := by rw [← e', List.take_append_drop]
  have hl : (z.take batch.length).length = batch.length := ht.length_eq
  generalize z.take batch.length = u at *
  subst ez
  have hb := rowMajor_lt ht
  show (swap01 a.rows batch.prod n d).getD (rowMajor (batch ++ [a.rows, n]) _) 0 = _
  rw [rowMajor_pair ht, swap01_getD d hi hb hc]
  have := h.2 i (rowMajor batch u * n + c) hi (mul_add_lt hb hc)
  rw [show i * (batch.prod * n) + (rowMajor batch u * n + c) = (i * batch.prod + rowMajor batch u) * n + c by
    rw [Nat.add_mul, Nat.mul_assoc, Nat.add_assoc], ← rowTerms hv e _ hi] at this
  rw [this]
  congr 1
  unfold dotTerms
  rw [← hl]
  simp only [Bool.false_eq_true, if_false]
  rw [show (u ++ [(i : Int), (c : Int)]).getD u.length 0 = (i : Int) by simp]
  refine List.map_congr_left fun q hq => ?_
  have hq := stores_inBounds hv q (List.mem_filter.1 hq).1
  rw [hsh] at hq
  obtain ⟨i', j, -, hj, eq⟩ := inBounds_two hq
  rw [eq]
  simp only [List.getD_cons_succ, List.getD_cons_zero, Int.toNat_natCast, DenseNd.elem, hs]
  rw [show (u ++ [(i : Int), (c : Int)]).set u.length (j : Int) = u ++ [(j : Int), (c : Int)] by simp, rowMajor_pair ht,
    show j * (batch.prod * n) + (rowMajor batch u * n + c) = (j * batch.prod + rowMajor batch u) * n + c by
      rw [Nat.add_mul, Nat.mul_assoc, Nat.add_assoc], swap01_getD y.data hb hj hc]

theorem ContractsBy.imp {Q : List (V × V) → V → Prop} {stores : List (List Int × V)} {tr : Bool} {r p : Nat} {y out : DenseNd V}
    (h : ContractsBy P stores tr r p y out) (hpq : ∀ l x, P l x → Q l x) : ContractsBy Q stores tr r p y out :=
  ⟨h.1, h.2.1, fun z hz => hpq _ _ (h.2.2 z hz)⟩

/-- A property that a number has determines the result. -/
theorem ContractsBy.unique {stores : List (List Int × V)} {tr : Bool} {r p : Nat} {y d d' : DenseNd V}
    (hP : ∀ l x x', P l x → P l x' → x = x') (h : ContractsBy P stores tr r p y d) (h' : ContractsBy P stores tr r p y d') : d = d' := by
  obtain ⟨s, l⟩ := d
  obtain ⟨s', l'⟩ := d'
  obtain rfl : s = s' := h.1.trans h'.1.symm
  have e1 := isDenseNd_eq (s := s) (f := DenseNd.elem ⟨s, l⟩) (out := l) ⟨h.2.1, fun x _ => rfl⟩
  have e2 := isDenseNd_eq (s := s) (f := DenseNd.elem ⟨s, l'⟩) (out := l') ⟨h'.2.1, fun x _ => rfl⟩
  have : l = l' := by
    rw [e1, e2]
    refine List.map_congr_left fun z hz => ?_
    exact hP _ _ _ (h.2.2 z (mem_indicesOf.1 hz)) (h'.2.2 z (mem_indicesOf.1 hz))
  rw [this]

theorem dotCell_unique {τ : Ty} {ndim : Nat} {tr : Bool} (h : τ.FixedOrder ndim tr) (l : List (V × V)) {x x' : V}
    (h1 : DotCell τ ndim tr l x) (h2 : DotCell τ ndim tr l x') : x = x' := by
  unfold DotCell at h1 h2
  by_cases hn : 2 ≤ ndim
  · rw [if_pos hn] at h1 h2
    rw [h1, h2]
  · rw [if_neg hn] at h1 h2
    rcases h with h | ⟨r, c, ⟨rfl, rfl⟩ | ⟨rfl, rfl⟩⟩
    · exact absurd h hn
    · exact (show x = _ from h1).trans (show x' = _ from h2).symm
    · exact (show x = _ from h1).trans (show x' = _ from h2).symm

end

end Lacuna
