import Verif.Props.PtrAccum
/-
C65, continued: CSC and COO matrix-vector products and `vecdot`.
-/
namespace Lacuna
variable {V : Type}

/-! ### The strategies -/

theorem spmvStrategies_returns [Zero V] [Add V] {ι : Type} {dbg : Bool} {F nthreads n nnz N : Nat} {rs : List ι}
    {work : {A : Type} → (A → Nat → V → Except Fault A) → A → ι → Except Fault A} {ops : ι → List (Nat × V)}
    (hn : 8 * (n : Int) ≤ i64Max) (hk : ∀ o ∈ rs.flatMap ops, o.1 < n)
    (hw : ∀ {A : Type} (add : A → Nat → V → Except Fault A), ∀ x ∈ rs, ∀ acc, work add acc x = runOps add acc (ops x))
    (hN : (rs.flatMap ops).length ≤ N) (hF : 3 * N + 1024 ≤ F) (hN24 : 24 * (N : Int) ≤ i64Max) :
    Returns (SpmvStrategiesPtr dbg F nthreads n nnz (List.replicate n 0) (.ok rs) work) fun y =>
      ∃ groups, Division (rs.map ops) groups ∧ accumChoose nthreads n nnz (groups.map List.flatten) = some y := by
  unfold SpmvStrategiesPtr accumChoose
  simp only []
  split
  · exact hash_returns hn hk (hw _) hN hF hN24 fun _ _ => Iff.rfl
  split
  · exact touch_returns hk (hw _)
  · exact stripe_returns hk (by decide) (hw _) (fun _ _ => Iff.rfl) fun y accs hy hs => mergeStripeP_eq (by decide) hy hs

theorem spmvStrategies_ub [Zero V] [Add V] {ι : Type} {dbg : Bool} {F nthreads n nnz N : Nat} {rs : List ι}
    {work : {A : Type} → (A → Nat → V → Except Fault A) → A → ι → Except Fault A} {ops : ι → List (Nat × V)}
    (hk : ∀ o ∈ rs.flatMap ops, o.1 < usizeMax)
    (hw : ∀ {A : Type} (add : A → Nat → V → Except Fault A), ∀ x ∈ rs, ∀ acc, work add acc x = runOps add acc (ops x))
    (hN : (rs.flatMap ops).length ≤ N) (hF : 3 * N + 1024 ≤ F) (hN24 : 24 * (N : Int) ≤ i64Max)
    (h1 : nnz < satMul (n / 2) (max nthreads 1)) (hbad : ∃ o ∈ rs.flatMap ops, n ≤ o.1) (out : Except Fault (List V)) :
    SpmvStrategiesPtr dbg F nthreads n nnz (List.replicate n 0) (.ok rs) work out ↔ out = .error .ub := by
  unfold SpmvStrategiesPtr
  simp only []
  rw [if_pos h1]
  exact hash_ub hk (hw _) hN hF hN24 (fun _ _ => Iff.rfl) hbad out

theorem spmvStrategies_noUb [Zero V] [Add V] {ι : Type} {dbg : Bool} {F nthreads n nnz : Nat} {Q : Nat → Prop}
    {items : Except Fault (List ι)} (hitems : NoUb items)
    {work : {A : Type} → (A → Nat → V → Except Fault A) → A → ι → Except Fault A}
    (hw : ∀ {A : Type} {I : A → Prop} {add : A → Nat → V → Except Fault A},
      (∀ acc j v, I acc → Q j → SafeE I (add acc j v)) → ∀ x acc, I acc → SafeE I (work add acc x))
    (hQ : nnz < satMul (n / 2) (max nthreads 1) → ∀ k, Q k → k < n ∨ k = usizeMax) {out : Except Fault (List V)}
    (ho : SpmvStrategiesPtr dbg F nthreads n nnz (List.replicate n 0) items work out) : NoUb out := by
  unfold SpmvStrategiesPtr at ho
  split at ho
  · rw [ho]; intro hc; cases hc; exact hitems rfl
  split at ho
  · rename_i h1
    refine tlsPtr_safe (I := KeysIn n) keysIn_init (fun x _ acc hacc => hw (fun acc j v hacc hq => ?_) x acc hacc)
      (fun cells hc out ho => ?_) ho
    · exact hashAdd_safe acc v hacc (hQ h1 j hq)
    · rw [ho]; exact drains_noUb hc
  split at ho
  · refine tlsPtr_safe (I := TouchAcc.Shape n) (touch_empty n) (fun x _ acc hacc => hw (fun acc j v hacc _ => ?_) x acc hacc)
      (fun cells hc out ho => ?_) ho
    · exact touchAdd_safe acc j v hacc
    · rw [ho]
      exact NoUb.of_ok (foldlM_merge (n := n) (S := TouchAcc.Shape n) (fun y c hy hc => mergeTouchP_eq hy hc)
        (fun y c => by rw [addAll_length]) cells hc _ (by simp))
  · refine tlsPtr_safe (I := StripesShape n stripeLen) (stripes_none n stripeLen) (fun x _ acc hacc => hw (fun acc j v hacc _ => ?_) x acc hacc)
      (fun cells hc out ho => ?_) ho
    · exact stripesAdd_safe acc j v hacc
    · rw [ho]
      exact NoUb.of_ok (foldlM_merge (n := n) (S := StripesShape n stripeLen)
        (fun y c hy hc => mergeStripeP_eq (by decide) hy hc) (fun y c => by rw [addAll_length]) cells hc _ (by simp))

section
variable [Zero V] [Add V] [Mul V] {dbg : Bool} {F nthreads : Nat}

/-! ### CSC product -/

/-- `spmv_csc_f64_i64` on a valid matrix, each strategy: in bounds, results of the list-level kernel. -/
theorem spmv_csc_ptr {a : Csc V} {x : List V} (ha : a.WFU) (hm : a.comp.Machine) (hx : x.length = a.ncols)
    (hn : 8 * (a.nrows : Int) ≤ i64Max) (hd : 24 * (a.data.length : Int) ≤ i64Max)
    (hF : 3 * a.data.length + 1024 ≤ F) : Returns (SpmvCscPtr dbg F nthreads a x) (SpmvCscRun nthreads a x) := by
  have hp : a.comp.PtrOk := Comp.WFU.ptrOk ha
  have hj : dbg = true → ∀ j ∈ a.comp.indices, 0 ≤ j := fun _ => Comp.WFU.nonneg ha
  have hlt : ∀ o ∈ (List.range a.ncols).flatMap (lineFOps a.comp fun j v => v * x.getD j 0), o.1 < a.nrows :=
    mem_flatMap_of fun i => lineFOps_lt (a := a.comp) ha (fun j v => v * x.getD j 0) i
  unfold SpmvCscPtr SpmvCscRun
  simp only [if_pos hx, zeroVecP_ok hn]
  split
  · have h1 : (List.range a.ncols).foldlM (scatterLineP dbg a.comp (fun j v => v * x.getD j 0) addIdxP)
        (List.replicate a.nrows 0) =
        .ok (addAll (List.replicate a.nrows 0) ((List.range a.ncols).flatMap (lineOps a.comp x))) := by
      rw [foldlM_congr (List.range a.ncols) (fun i hi acc => scatterLineP_eq hp hm hj _ _ _ (List.mem_range.1 hi)),
        ← foldlM_flatMap]
      exact runOps_addIdx _ _ fun o ho => by simpa using hlt o ho
    rw [h1]
    exact Returns.of_eq ⟨hx, addAll?_eq _ _ fun o ho => by simpa using hlt o ho⟩
  · rw [show rangesP dbg (128 * 1024) a.comp a.ncols 0 0 0 = .ok (lineRanges a.comp) from hp.rangesP hm dbg]
    have := spmvStrategies_returns (dbg := dbg) (F := F) (nthreads := nthreads) (nnz := a.data.length)
      (N := a.data.length) (rs := lineRanges a.comp)
      (ops := rangeFOps a.comp (fun j v => v * x.getD j 0) fun _ => false)
      (work := fun add => scatterRangeP dbg a.comp (fun j v => v * x.getD j 0) (fun _ => false) add) hn
      (by rw [ranges_fops]; exact hlt)
      (fun add r hr acc => scatterRangeP_eq hp hm hj _ _ _ _ (lineRanges_le r hr))
      (by rw [ranges_fops]; exact hp.lineFOps_length _) hF hd
    rw [rangeFOps_all] at this
    exact this.mono fun y hy => ⟨hx, hy⟩

theorem spmv_csc_ptr_correct {V : Type} [Semiring V] {dbg : Bool} {F nthreads : Nat} {a : Csc V} {x : List V}
    (ha : a.WFU) (hm : a.comp.Machine) (hx : x.length = a.ncols) (hn : 8 * (a.nrows : Int) ≤ i64Max)
    (hd : 24 * (a.data.length : Int) ≤ i64Max) (hF : 3 * a.data.length + 1024 ≤ F) :
    Returns (SpmvCscPtr dbg F nthreads a x) fun y => y.length = a.nrows ∧ ∀ i, i < a.nrows →
      y.getD i 0 = ((List.range a.ncols).map fun j => a.val i j * x.getD j 0).sum :=
  (spmv_csc_ptr ha hm hx hn hd hF).mono (spmv_csc_correct nthreads ha (Nat.le_of_lt (n_le_usize hn)) x hx).2

/-- Arbitrary arrays: only hash maps and a stored index that is no row. -/
theorem spmv_csc_no_ub {a : Csc V} {x : List V}
    (h : smallDimLimit < a.ncols → smallNnzLimit < a.data.length →
      a.data.length < satMul (a.nrows / 2) (max nthreads 1) →
      ∀ j ∈ a.indices, asUsize j < a.nrows ∨ asUsize j = usizeMax)
    {out : Except Fault (List V)} (ho : SpmvCscPtr dbg F nthreads a x out) : NoUb out := by
  unfold SpmvCscPtr at ho
  split at ho
  · have hz := NoUb.zeroVecP (V := V) a.nrows
    unfold zeroVecP at ho hz
    split at ho
    · rename_i e he
      rw [ho]; intro hc; cases hc; exact hz he
    · rename_i y hy
      have hy' : y = List.replicate a.nrows 0 := by
        split at hy
        · cases hy; rfl
        · cases hy
      subst hy'
      split at ho
      · rw [ho]
        exact (SafeE.foldlM (I := fun y : List V => y.length = a.nrows) _ (fun i _ acc hacc =>
          scatterLineP_safe (fun acc j v hacc _ => addIdxP_safe acc _ v hacc) hacc i) _ (by simp)).1
      · rename_i h1
        simp only [not_or, Nat.not_le] at h1
        refine spmvStrategies_noUb (Q := fun k => ∃ j ∈ a.indices, k = asUsize j) (NoUb.rangesP _ _ _ _ _ _ _)
          (fun hadd r acc hacc => scatterRangeP_safe (fun acc j v hacc hj => hadd acc _ v hacc ⟨j, hj, rfl⟩) hacc r)
          (fun h2 k hk => ?_) ho
        obtain ⟨j, hj, rfl⟩ := hk
        exact h h1.1 h1.2 h2 j hj
  · rw [ho]; intro hc; cases hc

/-- A stored index past the last row, hash strategy: every run writes out of bounds. -/
theorem spmv_csc_ub {a : Csc V} {x : List V} (hp : a.comp.PtrOk) (hm : a.comp.Machine) (hj : ∀ j ∈ a.indices, 0 ≤ j)
    (hx : x.length = a.ncols) (hn : 8 * (a.nrows : Int) ≤ i64Max) (hd : 24 * (a.data.length : Int) ≤ i64Max)
    (hF : 3 * a.data.length + 1024 ≤ F) (h1 : smallDimLimit < a.ncols) (h2 : smallNnzLimit < a.data.length)
    (h3 : a.data.length < satMul (a.nrows / 2) (max nthreads 1))
    (hbad : ∃ j, j < a.ncols ∧ ∃ e ∈ a.comp.row j, (a.nrows : Int) ≤ e.1) (out : Except Fault (List V)) :
    SpmvCscPtr dbg F nthreads a x out ↔ out = .error .ub := by
  unfold SpmvCscPtr
  rw [if_pos hx, zeroVecP_ok hn]
  simp only []
  rw [if_neg (by omega), show rangesP dbg (128 * 1024) a.comp a.ncols 0 0 0 = .ok (lineRanges a.comp) from
    hp.rangesP hm dbg]
  refine spmvStrategies_ub (N := a.data.length) (ops := rangeFOps a.comp (fun j v => v * x.getD j 0) fun _ => false)
    (by rw [ranges_fops]; exact mem_flatMap_of fun i => lineFOps_usize hm hj _ i)
    (fun add r hr acc => scatterRangeP_eq hp hm (fun _ => hj) _ _ _ _ (lineRanges_le r hr))
    (by rw [ranges_fops]; exact hp.lineFOps_length _) hF hd h3 ?_ out
  rw [ranges_fops]
  obtain ⟨i, hi, e, he, hlt⟩ := hbad
  have he' := Comp.row_mem_indices he
  refine ⟨_, List.mem_flatMap.2 ⟨i, List.mem_range.2 hi, List.mem_map.2 ⟨e, he, rfl⟩⟩, ?_⟩
  simp only []
  rw [i64ToUsize_of_nonneg (hj _ he') (hm.i64 _ he')]
  omega

/-! ### COO product -/

/-- The operations of a COO product. -/
def cooMulOps (a : Coo V) (x : List V) : List (Nat × V) :=
  a.triples.map fun t => (i64ToUsize t.1.1, t.2 * x.getD (i64ToUsize t.1.2) 0)

omit [Zero V] [Add V] [Mul V] in
theorem triples_len {a : Coo V} (hr : a.row.length = a.data.length) (hc : a.col.length = a.data.length) :
    a.triples.length = a.data.length := by unfold Coo.triples; simp [hr, hc]

omit [Zero V] [Add V] [Mul V] in
theorem triples_at {a : Coo V} (hr : a.row.length = a.data.length) (hc : a.col.length = a.data.length) {k : Nat}
    (hk : k < a.data.length) :
    a.triples[k]'(by rw [triples_len hr hc]; exact hk) =
      ((a.row[k]'(by omega), a.col[k]'(by omega)), a.data[k]) := by
  simp [Coo.triples]

omit [Add V] in
theorem cooMulOpP_eq {a : Coo V} {x : List V} (hr : a.row.length = a.data.length) (hc : a.col.length = a.data.length)
    (hrow : dbg = true → ∀ i ∈ a.row, 0 ≤ i) (hcol : ∀ j ∈ a.col, 0 ≤ j ∧ i64ToUsize j < x.length) (k : Nat)
    (hk : k < (cooMulOps a x).length) : cooMulOpP dbg a x k = .ok (some (cooMulOps a x)[k]) := by
  have hk' : k < a.data.length := by
    unfold cooMulOps at hk
    rwa [List.length_map, triples_len hr hc] at hk
  have hcm := hcol (a.col[k]'(by omega)) (List.getElem_mem _)
  unfold cooMulOpP
  rw [index_eq (show k < a.row.length by omega), ok_bind, i64ToUsizeP_of (fun hd => hrow hd _ (List.getElem_mem _)),
    ok_bind, index_eq (show k < a.col.length by omega), ok_bind, i64ToUsizeP_of (fun _ => hcm.1), ok_bind, index_eq hk',
    ok_bind, index_eq hcm.2, ok_bind]
  simp only [cooMulOps, List.getElem_map, triples_at hr hc hk']
  rw [List.getD_eq_getElem _ _ hcm.2]
  rfl

omit [Add V] in
theorem cooMul_work {A : Type} {a : Coo V} {x : List V} (hr : a.row.length = a.data.length)
    (hc : a.col.length = a.data.length) (hrow : dbg = true → ∀ i ∈ a.row, 0 ≤ i)
    (hcol : ∀ j ∈ a.col, 0 ≤ j ∧ i64ToUsize j < x.length) (size : Nat) (add : A → Nat → V → Except Fault A) (acc : A)
    (t : Nat) :
    scatterChunkP (cooMulOpP dbg a x) a.data.length size add acc t = runOps add acc (chunkAt size (cooMulOps a x) t) := by
  rw [scatterChunkP_eq (l := (cooMulOps a x).map fun o => [o]) (toList_ops (cooMulOpP_eq hr hc hrow hcol))
    (by unfold cooMulOps; rw [List.length_map, List.length_map, triples_len hr hc]), chunkAt_singletons]
  rfl

omit [Zero V] [Add V] [Mul V] in
theorem triple_mem {a : Coo V} {t : (Int × Int) × V} (h : t ∈ a.triples) : t.1.1 ∈ a.row ∧ t.1.2 ∈ a.col := by
  unfold Coo.triples at h
  exact List.of_mem_zip (List.of_mem_zip h).1

omit [Add V] in
theorem cooOps_mul {a : Coo V} {x : List V} (ha : a.WF) (hi : a.I64) (hx : x.length = a.ncols) :
    cooOps a x = some (cooMulOps a x) := by
  rw [cooOps_eq ha hi hx]
  unfold cooMulOps
  congr 1
  refine List.map_congr_left fun t ht => ?_
  have hb := ha.triple_bounds t ht
  have h64 := hi.triple t ht
  rw [i64ToUsize_of_nonneg hb.1.1 h64.1, i64ToUsize_of_nonneg hb.2.1 h64.2]

theorem spmv_coo_ptr {a : Coo V} {x : List V} (ha : a.WF) (hi : a.I64) (hx : x.length = a.ncols)
    (hn : 8 * (a.nrows : Int) ≤ i64Max) (hd : 24 * (a.data.length : Int) ≤ i64Max)
    (hF : 3 * a.data.length + 1024 ≤ F) : Returns (SpmvCooPtr dbg F nthreads a x) (SpmvCooRun nthreads a x) := by
  have hr := ha.row_length
  have hc := ha.col_length
  have hrow : dbg = true → ∀ i ∈ a.row, 0 ≤ i := fun _ i h => (ha.row_bounds i h).1
  have hcol : ∀ j ∈ a.col, 0 ≤ j ∧ i64ToUsize j < x.length := fun j h => by
    have := ha.col_bounds j h
    rw [i64ToUsize_of_nonneg this.1 (hi.2 j h)]
    omega
  have hlen : (cooMulOps a x).length = a.data.length := by
    unfold cooMulOps; rw [List.length_map, triples_len hr hc]
  have hlt : ∀ o ∈ cooMulOps a x, o.1 < a.nrows := by
    intro o ho
    obtain ⟨t, ht, rfl⟩ := List.mem_map.1 ho
    have hb := ha.triple_bounds t ht
    simp only []
    rw [i64ToUsize_of_nonneg hb.1.1 (hi.triple t ht).1]
    omega
  have hops := cooOps_mul ha hi hx
  unfold SpmvCooPtr SpmvCooRun
  simp only [if_pos hx, zeroVecP_ok hn]
  split
  · rename_i hsm
    rw [cooMul_work hr hc hrow hcol]
    have : chunkAt a.data.length (cooMulOps a x) 0 = cooMulOps a x := by
      unfold chunkAt; rw [Nat.zero_mul, List.drop_zero, List.take_of_length_le (by omega)]
    rw [this, runOps_addIdx _ _ (fun o ho => by simpa using hlt o ho)]
    exact Returns.of_eq ⟨hx, _, hops, by rw [addAll?_eq _ _ fun o ho => by simpa using hlt o ho]⟩
  · rename_i hsm
    have := spmvStrategies_returns (dbg := dbg) (F := F) (nthreads := nthreads) (nnz := a.data.length)
      (N := a.data.length) (rs := cooItems nthreads a.data.length)
      (ops := chunkAt (cooChunk nthreads a.data.length) (cooMulOps a x))
      (work := fun add => scatterChunkP (cooMulOpP dbg a x) a.data.length (cooChunk nthreads a.data.length) add) hn
      (by rw [coo_items_flat nthreads hlen]; exact hlt)
      (fun add t _ acc => cooMul_work hr hc hrow hcol _ _ _ _)
      (by rw [coo_items_flat nthreads hlen, hlen]) hF hd
    rw [coo_items_map nthreads hlen] at this
    exact this.mono fun y hy => ⟨hx, _, hops, hy⟩

theorem spmv_coo_ptr_correct {V : Type} [Semiring V] {dbg : Bool} {F nthreads : Nat} {a : Coo V} {x : List V}
    (ha : a.WF) (hi : a.I64) (hx : x.length = a.ncols) (hn : 8 * (a.nrows : Int) ≤ i64Max)
    (hd : 24 * (a.data.length : Int) ≤ i64Max) (hF : 3 * a.data.length + 1024 ≤ F) :
    Returns (SpmvCooPtr dbg F nthreads a x) fun y => y.length = a.nrows ∧ ∀ i, i < a.nrows →
      y.getD i 0 = ((List.range a.ncols).map fun j => a.val i j * x.getD j 0).sum :=
  (spmv_coo_ptr ha hi hx hn hd hF).mono (spmv_coo_correct nthreads ha hi (Nat.le_of_lt (n_le_usize hn)) x hx).2

omit [Zero V] [Add V] in
theorem cooMulOpP_safe {a : Coo V} {x : List V} (k : Nat) :
    SafeE (fun o => ∀ p : Nat × V, o = some p → ∃ i ∈ a.row, p.1 = asUsize i) (cooMulOpP dbg a x k) := by
  unfold cooMulOpP
  refine (SafeE.index _ _).bind fun r hr => (SafeE.i64ToUsizeP _ _).bind fun i hi => (SafeE.index _ _).bind fun c _ =>
    (SafeE.i64ToUsizeP _ _).bind fun j _ => (SafeE.index _ _).bind fun v _ => (SafeE.index _ _).bind fun xv _ =>
    SafeE.ok ?_
  intro p hp
  cases hp
  exact ⟨r, hr, hi⟩

theorem spmv_coo_no_ub {a : Coo V} {x : List V}
    (h : smallDimLimit < a.nrows → smallNnzLimit < a.data.length →
      a.data.length < satMul (a.nrows / 2) (max nthreads 1) →
      ∀ i ∈ a.row, asUsize i < a.nrows ∨ asUsize i = usizeMax)
    {out : Except Fault (List V)} (ho : SpmvCooPtr dbg F nthreads a x out) : NoUb out := by
  unfold SpmvCooPtr at ho
  split at ho
  · have hz := NoUb.zeroVecP (V := V) a.nrows
    unfold zeroVecP at ho hz
    split at ho
    · rename_i e he
      rw [ho]; intro hc; cases hc; exact hz he
    · rename_i y hy
      have hy' : y = List.replicate a.nrows 0 := by
        split at hy
        · cases hy; rfl
        · cases hy
      subst hy'
      simp only [] at ho
      split at ho
      · rw [ho]
        exact (scatterChunkP_safe (I := fun y : List V => y.length = a.nrows) (fun k => cooMulOpP_safe k)
          (Q := fun k => ∃ i ∈ a.row, k = asUsize i)
          (fun acc j v hacc _ => addIdxP_safe acc j v hacc) (by simp) _ _ _).1
      · rename_i h1
        simp only [not_or, Nat.not_le] at h1
        refine spmvStrategies_noUb (Q := fun k => ∃ i ∈ a.row, k = asUsize i) (NoUb.of_ok rfl)
          (fun hadd t acc hacc => scatterChunkP_safe (fun k => cooMulOpP_safe k) hadd hacc _ _ t) (fun h2 k hk => ?_) ho
        obtain ⟨i, hi, rfl⟩ := hk
        exact h h1.1 h1.2 h2 i hi
  · rw [ho]; intro hc; cases hc

theorem spmv_coo_ub {a : Coo V} {x : List V} (hr : a.row.length = a.data.length) (hc : a.col.length = a.data.length)
    (hrow : ∀ i ∈ a.row, 0 ≤ i) (hcol : ∀ j ∈ a.col, 0 ≤ j ∧ j < a.ncols) (hi : a.I64) (hx : x.length = a.ncols)
    (hn : 8 * (a.nrows : Int) ≤ i64Max) (hd : 24 * (a.data.length : Int) ≤ i64Max)
    (hF : 3 * a.data.length + 1024 ≤ F) (h1 : smallDimLimit < a.nrows) (h2 : smallNnzLimit < a.data.length)
    (h3 : a.data.length < satMul (a.nrows / 2) (max nthreads 1)) (hbad : ∃ i ∈ a.row, (a.nrows : Int) ≤ i)
    (out : Except Fault (List V)) : SpmvCooPtr dbg F nthreads a x out ↔ out = .error .ub := by
  have hcol' : ∀ j ∈ a.col, 0 ≤ j ∧ i64ToUsize j < x.length := fun j h => by
    have := hcol j h
    rw [i64ToUsize_of_nonneg this.1 (hi.2 j h)]
    omega
  have hlen : (cooMulOps a x).length = a.data.length := by
    unfold cooMulOps; rw [List.length_map, triples_len hr hc]
  unfold SpmvCooPtr
  rw [if_pos hx, zeroVecP_ok hn]
  simp only []
  rw [if_neg (by omega)]
  refine spmvStrategies_ub (N := a.data.length) (ops := chunkAt (cooChunk nthreads a.data.length) (cooMulOps a x))
    ?_ (fun add t _ acc => cooMul_work hr hc (fun _ => hrow) hcol' _ _ _ _)
    (by rw [coo_items_flat nthreads hlen, hlen]) hF hd h3 ?_ out
  · rw [coo_items_flat nthreads hlen]
    intro o ho
    obtain ⟨t, ht, rfl⟩ := List.mem_map.1 ho
    have hm := (triple_mem ht).1
    have h64 := hi.1 _ hm
    have h0 := hrow _ hm
    simp only []
    rw [i64ToUsize_of_nonneg h0 h64]
    unfold i64Max at h64; unfold usizeMax; omega
  · rw [coo_items_flat nthreads hlen]
    obtain ⟨i, him, hni⟩ := hbad
    obtain ⟨k, hk, rfl⟩ := List.getElem_of_mem him
    have hk' : k < a.data.length := by omega
    refine ⟨_, List.mem_map.2 ⟨a.triples[k]'(by rw [triples_len hr hc]; exact hk'), List.getElem_mem _, rfl⟩, ?_⟩
    simp only [triples_at hr hc hk']
    rw [i64ToUsize_of_nonneg (hrow _ him) (hi.1 _ him)]
    omega

end

/-! ### vecdot -/

section
variable [Zero V] [Add V] [Mul V] [BEq V] {dbg : Bool} {F nthreads : Nat}

theorem vecdot_csr_ptr {a : Csr V} {x : List V} (ha : a.WFU) (hm : a.comp.Machine) (hx : x.length = a.nrows)
    (hn : 8 * (a.ncols : Int) ≤ i64Max) : Returns (VecdotCsrPtr dbg a x) (VecdotCsrRun a x) := by
  have hp : a.comp.PtrOk := Comp.WFU.ptrOk ha
  have hj : dbg = true → ∀ j ∈ a.comp.indices, 0 ≤ j := fun _ => Comp.WFU.nonneg ha
  unfold VecdotCsrPtr VecdotCsrRun
  simp only [if_pos hx]
  split
  · exact Returns.of_eq ⟨hx, rfl⟩
  · rw [show rangesP dbg (128 * 1024) a.comp a.nrows 0 0 0 = .ok (lineRanges a.comp) from hp.rangesP hm dbg]
    unfold TlsRangesPtr
    simp only []
    refine (stripe_returns (n := a.ncols) (ops := rangeFOps a.comp (fun i v => v * x.getD i 0) fun i => x.getD i 0 == 0)
      (mem_flatMap_of fun r o ho => ?_) (by decide)
      (fun r hr acc => scatterRangeP_eq hp hm hj _ _ _ _ (lineRanges_le r hr)) (mergeSeq_iff hn _)
      fun y accs hy hs => mergeStripeP_eq (by decide) hy hs).mono fun y hy => ⟨hx, hy⟩
    obtain ⟨i, -, ho⟩ := List.mem_flatMap.1 ho
    exact lineFOps_lt (a := a.comp) ha _ i o ho

theorem vecdot_csr_ptr_correct {V : Type} [Semiring V] [BEq V] [LawfulBEq V] {dbg : Bool} {a : Csr V} {x : List V}
    (ha : a.WFU) (hm : a.comp.Machine) (hx : x.length = a.nrows) (hn : 8 * (a.ncols : Int) ≤ i64Max) :
    Returns (VecdotCsrPtr dbg a x) fun y => y.length = a.ncols ∧ ∀ j, j < a.ncols →
      y.getD j 0 = ((List.range a.nrows).map fun i => a.val i j * x.getD i 0).sum :=
  (vecdot_csr_ptr ha hm hx hn).mono (vecdot_csr_correct ha x hx).2

/-- `vecdot_csr_dense_axis0_f64_i64` uses stripes only: no arrays make it leave its buffers. -/
theorem vecdot_csr_no_ub {a : Csr V} {x : List V} {out : Except Fault (List V)} (ho : VecdotCsrPtr dbg a x out) :
    NoUb out := by
  unfold VecdotCsrPtr at ho
  split at ho
  · split at ho
    · exact NoUb.of_ok ho
    · unfold TlsRangesPtr at ho
      have hr := NoUb.rangesP dbg (128 * 1024) a.comp a.nrows 0 0 0
      split at ho
      · rename_i e he
        rw [ho]; intro hc; cases hc; exact hr he
      · exact stripe_noUb (fun r _ acc hacc =>
          scatterRangeP_safe (fun acc j v hacc _ => stripesAdd_safe acc _ v hacc) hacc r)
          (fun hn y accs hy hs => mergeStripeP_eq (by decide) hy hs) ho
  · rw [ho]; intro hc; cases hc

/-- The operations of a COO `vecdot`: none for a zero weight. -/
def cooDotOps (a : Coo V) (x : List V) : List (List (Nat × V)) :=
  a.triples.map fun t => if !(x.getD (i64ToUsize t.1.1) 0 == 0) then
    [(i64ToUsize t.1.2, t.2 * x.getD (i64ToUsize t.1.1) 0)] else []

omit [Add V] in
theorem cooDotOpP_eq {a : Coo V} {x : List V} (hr : a.row.length = a.data.length) (hc : a.col.length = a.data.length)
    (hrow : ∀ i ∈ a.row, 0 ≤ i ∧ i64ToUsize i < x.length) (hcol : dbg = true → ∀ j ∈ a.col, 0 ≤ j) (k : Nat)
    (hk : k < (cooDotOps a x).length) :
    ∃ o : Option (Nat × V), cooDotOpP dbg a x k = .ok o ∧ (cooDotOps a x)[k] = o.toList := by
  have hk' : k < a.data.length := by
    unfold cooDotOps at hk
    rwa [List.length_map, triples_len hr hc] at hk
  have hrm := hrow (a.row[k]'(by omega)) (List.getElem_mem _)
  unfold cooDotOpP
  rw [index_eq (show k < a.row.length by omega), ok_bind, i64ToUsizeP_of (fun _ => hrm.1), ok_bind,
    index_eq (show k < a.col.length by omega), ok_bind, i64ToUsizeP_of (fun hd => hcol hd _ (List.getElem_mem _)),
    ok_bind, index_eq hrm.2, ok_bind]
  simp only [cooDotOps, List.getElem_map, triples_at hr hc hk']
  rw [List.getD_eq_getElem _ _ hrm.2]
  cases hw : (x[i64ToUsize (a.row[k]'(by omega))]'hrm.2 == 0)
  · refine ⟨some (i64ToUsize (a.col[k]'(by omega)), a.data[k] * x[i64ToUsize (a.row[k]'(by omega))]'hrm.2), ?_, by simp⟩
    simp only [Bool.false_eq_true, if_false]
    rw [index_eq hk', ok_bind]
    rfl
  · exact ⟨none, by simp only [if_true]; rfl, by simp⟩

omit [Add V] in
theorem cooDot_work {A : Type} {a : Coo V} {x : List V} (hr : a.row.length = a.data.length)
    (hc : a.col.length = a.data.length) (hrow : ∀ i ∈ a.row, 0 ≤ i ∧ i64ToUsize i < x.length)
    (hcol : dbg = true → ∀ j ∈ a.col, 0 ≤ j) (size : Nat) (add : A → Nat → V → Except Fault A) (acc : A) (t : Nat) :
    scatterChunkP (cooDotOpP dbg a x) a.data.length size add acc t =
      runOps add acc (chunkAt size (cooDotOps a x) t).flatten := by
  rw [scatterChunkP_eq (l := cooDotOps a x) (cooDotOpP_eq hr hc hrow hcol)
    (by unfold cooDotOps; rw [List.length_map, triples_len hr hc])]
  rfl

omit [Add V] in
theorem cooDotOps_len (a : Coo V) (x : List V) : (cooDotOps a x).flatten.length ≤ a.triples.length := by
  unfold cooDotOps
  induction a.triples with
  | nil => simp
  | cons t l ih =>
    rw [List.map_cons, List.flatten_cons, List.length_append, List.length_cons]
    split
    · simp only [List.length_cons, List.length_nil]; omega
    · simp only [List.length_nil]; omega

theorem flatMap_flatten {ι β : Type} (items : List ι) (f : ι → List (List β)) :
    items.flatMap (fun t => (f t).flatten) = (items.flatMap f).flatten := by
  induction items with
  | nil => rfl
  | cons t l ih => rw [List.flatMap_cons, List.flatMap_cons, List.flatten_append, ih]

theorem vecdot_coo_ptr {a : Coo V} {x : List V} (ha : a.WF) (hi : a.I64) (hx : x.length = a.nrows)
    (hn : 8 * (a.ncols : Int) ≤ i64Max) (hd : 24 * (a.data.length : Int) ≤ i64Max)
    (hF : 3 * a.data.length + 1024 ≤ F) : Returns (VecdotCooPtr dbg F nthreads a x) (VecdotCooRun nthreads a x) := by
  have hr := ha.row_length
  have hc := ha.col_length
  have hcol : dbg = true → ∀ j ∈ a.col, 0 ≤ j := fun _ j h => (ha.col_bounds j h).1
  have hrow : ∀ i ∈ a.row, 0 ≤ i ∧ i64ToUsize i < x.length := fun i h => by
    have := ha.row_bounds i h
    rw [i64ToUsize_of_nonneg this.1 (hi.1 i h)]
    omega
  have hlen : (cooDotOps a x).length = a.data.length := by
    unfold cooDotOps; rw [List.length_map, triples_len hr hc]
  have hops : cooVecOps a x = some (cooDotOps a x) := by
    unfold cooVecOps cooDotOps
    refine mapM_option_map fun t ht => ?_
    have := (hrow _ (triple_mem ht).1).2
    rw [List.getElem?_eq_getElem this, List.getD_eq_getElem _ _ this]
    rfl
  have hlt : ∀ o ∈ (cooDotOps a x).flatten, o.1 < a.ncols := by
    intro o ho
    obtain ⟨l, hl, ho⟩ := List.mem_flatten.1 ho
    obtain ⟨t, ht, rfl⟩ := List.mem_map.1 hl
    have hb := ha.triple_bounds t ht
    split at ho
    · rw [List.mem_singleton.1 ho]
      simp only []
      rw [i64ToUsize_of_nonneg hb.2.1 (hi.triple t ht).2]
      omega
    · cases ho
  unfold VecdotCooPtr VecdotCooRun
  simp only [if_pos hx]
  split
  · rw [zeroVecP_ok hn]; exact Returns.of_eq ⟨hx, rfl⟩
  · have := hash_returns (dbg := dbg) (F := F) (N := a.data.length) (items := cooItems nthreads a.data.length)
      (work := scatterChunkP (cooDotOpP dbg a x) a.data.length (cooChunk nthreads a.data.length) (hashAdd dbg F))
      (ops := fun t => (chunkAt (cooChunk nthreads a.data.length) (cooDotOps a x) t).flatten) hn
      (by rw [flatMap_flatten, coo_items_flat nthreads hlen]; exact hlt)
      (fun t _ acc => cooDot_work hr hc hrow hcol _ _ _ _)
      (by
        rw [flatMap_flatten, coo_items_flat nthreads hlen]
        exact Nat.le_trans (cooDotOps_len a x) (by rw [triples_len hr hc])) hF hd (mergeSeq_iff hn _)
    have hmap : (cooItems nthreads a.data.length).map
        (fun t => (chunkAt (cooChunk nthreads a.data.length) (cooDotOps a x) t).flatten) =
        (chunksOf (cooChunk nthreads a.data.length) (cooDotOps a x)).map List.flatten := by
      rw [← coo_items_map nthreads hlen, List.map_map]
      rfl
    rw [hmap] at this
    exact this.mono fun y hy => ⟨hx, _, hops, hy⟩

theorem vecdot_coo_ptr_correct {V : Type} [Semiring V] [BEq V] [LawfulBEq V] {dbg : Bool} {F nthreads : Nat} {a : Coo V}
    {x : List V} (ha : a.WF) (hi : a.I64) (hx : x.length = a.nrows) (hn : 8 * (a.ncols : Int) ≤ i64Max)
    (hd : 24 * (a.data.length : Int) ≤ i64Max) (hF : 3 * a.data.length + 1024 ≤ F) :
    Returns (VecdotCooPtr dbg F nthreads a x) fun y => y.length = a.ncols ∧ ∀ j, j < a.ncols →
      y.getD j 0 = ((List.range a.nrows).map fun i => a.val i j * x.getD i 0).sum :=
  (vecdot_coo_ptr ha hi hx hn hd hF).mono (vecdot_coo_correct nthreads ha hi (Nat.le_of_lt (n_le_usize hn)) x hx).2

omit [Add V] in
theorem cooDotOpP_safe {a : Coo V} {x : List V} (k : Nat) :
    SafeE (fun o => ∀ p : Nat × V, o = some p → ∃ j ∈ a.col, p.1 = asUsize j) (cooDotOpP dbg a x k) := by
  unfold cooDotOpP
  refine (SafeE.index _ _).bind fun r _ => (SafeE.i64ToUsizeP _ _).bind fun i _ => (SafeE.index _ _).bind fun c hc =>
    (SafeE.i64ToUsizeP _ _).bind fun j hj => (SafeE.index _ _).bind fun w _ => ?_
  split
  · exact SafeE.ok (fun p hp => by cases hp)
  · refine (SafeE.index _ _).bind fun v _ => SafeE.ok ?_
    intro p hp
    cases hp
    exact ⟨c, hc, hj⟩

theorem vecdot_coo_no_ub {a : Coo V} {x : List V} (h : ∀ j ∈ a.col, asUsize j < a.ncols ∨ asUsize j = usizeMax)
    {out : Except Fault (List V)} (ho : VecdotCooPtr dbg F nthreads a x out) : NoUb out := by
  unfold VecdotCooPtr at ho
  simp only [] at ho
  split at ho
  · split at ho
    · rw [ho]; exact NoUb.zeroVecP _
    · refine hash_noUb (n := a.ncols) (fun t _ acc hacc => ?_) ho
      refine scatterChunkP_safe (fun k => cooDotOpP_safe k) (Q := fun k => ∃ j ∈ a.col, k = asUsize j)
        (fun acc k v hacc hq => hashAdd_safe acc v hacc ?_) hacc _ _ t
      obtain ⟨j, hj, rfl⟩ := hq
      exact h j hj
  · rw [ho]; intro hc; cases hc

/-- `vecdot_coo` always uses hash maps: one entry past the last column whose weight is not zero makes
every run write out of bounds. -/
theorem vecdot_coo_ub {a : Coo V} {x : List V} (hr : a.row.length = a.data.length) (hc : a.col.length = a.data.length)
    (hrow : ∀ i ∈ a.row, 0 ≤ i ∧ i < a.nrows) (hcol : ∀ j ∈ a.col, 0 ≤ j) (hi : a.I64) (hx : x.length = a.nrows)
    (hn : 8 * (a.ncols : Int) ≤ i64Max) (hd : 24 * (a.data.length : Int) ≤ i64Max)
    (hF : 3 * a.data.length + 1024 ≤ F) (h0 : a.ncols ≠ 0)
    (hbad : ∃ t ∈ a.triples, (a.ncols : Int) ≤ t.1.2 ∧ (x.getD t.1.1.toNat 0 == 0) = false)
    (out : Except Fault (List V)) : VecdotCooPtr dbg F nthreads a x out ↔ out = .error .ub := by
  have hrow' : ∀ i ∈ a.row, 0 ≤ i ∧ i64ToUsize i < x.length := fun i h => by
    have := hrow i h
    rw [i64ToUsize_of_nonneg this.1 (hi.1 i h)]
    omega
  have hlen : (cooDotOps a x).length = a.data.length := by
    unfold cooDotOps; rw [List.length_map, triples_len hr hc]
  have hne : a.data.length ≠ 0 := by
    obtain ⟨t, ht, -⟩ := hbad
    rw [← triples_len hr hc]
    intro h
    rw [List.length_eq_zero_iff.1 h] at ht
    cases ht
  unfold VecdotCooPtr
  simp only []
  rw [if_pos hx, if_neg (by omega)]
  refine hash_ub (N := a.data.length)
    (ops := fun t => (chunkAt (cooChunk nthreads a.data.length) (cooDotOps a x) t).flatten) ?_
    (fun t _ acc => cooDot_work hr hc hrow' (fun _ => hcol) _ _ _ _)
    (by
      rw [flatMap_flatten, coo_items_flat nthreads hlen]
      exact Nat.le_trans (cooDotOps_len a x) (by rw [triples_len hr hc])) hF hd (mergeSeq_iff hn _) ?_ out
  · rw [flatMap_flatten, coo_items_flat nthreads hlen]
    intro o ho
    obtain ⟨l, hl, ho⟩ := List.mem_flatten.1 ho
    obtain ⟨t, ht, rfl⟩ := List.mem_map.1 hl
    have hm := (triple_mem ht).2
    have h64 := hi.2 _ hm
    have h0 := hcol _ hm
    split at ho
    · rw [List.mem_singleton.1 ho]
      simp only []
      rw [i64ToUsize_of_nonneg h0 h64]
      unfold i64Max at h64; unfold usizeMax; omega
    · cases ho
  · rw [flatMap_flatten, coo_items_flat nthreads hlen]
    obtain ⟨t, ht, hlt, hw⟩ := hbad
    obtain ⟨hm1, hm2⟩ := triple_mem ht
    have hi1 := i64ToUsize_of_nonneg (hrow _ hm1).1 (hi.1 _ hm1)
    refine ⟨(i64ToUsize t.1.2, t.2 * x.getD (i64ToUsize t.1.1) 0), List.mem_flatten.2 ⟨_, List.mem_map.2 ⟨t, ht, rfl⟩, ?_⟩, ?_⟩
    · rw [hi1, hw]
      simp
    · simp only []
      rw [i64ToUsize_of_nonneg (hcol _ hm2) (hi.2 _ hm2)]
      omega

end

/-! ### Witnesses -/

theorem exC_machine : exC.comp.Machine := ⟨by decide, by decide, by decide, by decide⟩

example (dbg : Bool) : ∀ out, ColSumsPtr dbg 2000 4 exA out → out = .ok [5, 7, 6] := by
  intro out h
  obtain ⟨y, rfl, rfl⟩ := (col_sums_ptr_correct (dbg := dbg) (F := 2000) (nthreads := 4) exA_wfu exA_machine (by decide)
    (by decide) (by decide)).2 out h
  decide
example (dbg : Bool) : ∀ out, RowSumsCscPtr dbg 2000 exC out → out = .ok [5, 7, 6] := by
  intro out h
  obtain ⟨y, rfl, rfl⟩ := (row_sums_csc_ptr_correct (dbg := dbg) (F := 2000) exC_wfu exC_machine (by decide)
    (by decide) (by decide)).2 out h
  decide
example (dbg : Bool) : ∀ out, RowSumsCooPtr dbg 2000 4 exDup out → out = .ok [9, 0, 7] := by
  intro out h
  obtain ⟨y, rfl, rfl⟩ := (row_sums_coo_ptr_correct (dbg := dbg) (F := 2000) (nthreads := 4) exDup_wf exDup_i64
    (by decide) (by decide) (by decide)).2 out h
  decide
example (dbg : Bool) : ∀ out, ColSumsCooPtr dbg 2000 4 exDup out → out = .ok [7, 9] := by
  intro out h
  obtain ⟨y, rfl, rfl⟩ := (col_sums_coo_ptr_correct (dbg := dbg) (F := 2000) (nthreads := 4) exDup_wf exDup_i64
    (by decide) (by decide) (by decide)).2 out h
  decide
example (dbg : Bool) : ∀ out, SpmvCscPtr dbg 2000 4 exC [2, 3] out → ∃ y, out = .ok y ∧ y.getD 1 0 = 21 := by
  intro out h
  obtain ⟨y, e, -, hy⟩ := (spmv_csc_ptr_correct (dbg := dbg) (F := 2000) (nthreads := 4) exC_wfu exC_machine rfl (by decide)
    (by decide) (by decide)).2 out h
  exact ⟨y, e, (hy 1 (by decide)).trans (by decide)⟩
example (dbg : Bool) : ∀ out, SpmvCooPtr dbg 2000 4 exDup [10, 1] out → ∃ y, out = .ok y ∧ y.getD 2 0 = 70 := by
  intro out h
  obtain ⟨y, e, -, hy⟩ := (spmv_coo_ptr_correct (dbg := dbg) (F := 2000) (nthreads := 4) exDup_wf exDup_i64 rfl (by decide)
    (by decide) (by decide)).2 out h
  exact ⟨y, e, (hy 2 (by decide)).trans (by decide)⟩
example (dbg : Bool) : ∀ out, VecdotCsrPtr dbg exA [10, 1] out → ∃ y, out = .ok y ∧ y.getD 2 0 = 60 := by
  intro out h
  obtain ⟨y, e, -, hy⟩ := (vecdot_csr_ptr_correct (dbg := dbg) exA_wfu exA_machine rfl (by decide)).2 out h
  exact ⟨y, e, (hy 2 (by decide)).trans (by decide)⟩
example (dbg : Bool) : ∀ out, VecdotCooPtr dbg 2000 4 exDup [10, 5, 1] out → ∃ y, out = .ok y ∧ y.getD 1 0 = 90 := by
  intro out h
  obtain ⟨y, e, -, hy⟩ := (vecdot_coo_ptr_correct (dbg := dbg) (F := 2000) (nthreads := 4) exDup_wf exDup_i64 rfl (by decide)
    (by decide) (by decide)).2 out h
  exact ⟨y, e, (hy 1 (by decide)).trans (by decide)⟩

/-- Two columns of one row; the second entry claims row 5. -/
example (dbg : Bool) (out : Except Fault (List Int)) :
    RowSumsCscPtr dbg 2000 (⟨1, 2, [0, 1, 2], [0, 5], [3, 4]⟩ : Csc Int) out ↔ out = .error .ub :=
  row_sums_csc_ub ⟨by decide, by decide, by decide, by decide, by decide⟩ ⟨by decide, by decide, by decide, by decide⟩
    (by decide) (by decide) (by decide) (by decide) (by decide) (by decide) ⟨1, by decide, (5, 4), by decide, by decide⟩ out
example (dbg : Bool) (out : Except Fault (List Int)) :
    RowSumsCooPtr dbg 2000 3 (⟨2, 2, [0, 7], [0, 1], [3, 4]⟩ : Coo Int) out ↔ out = .error .ub :=
  row_sums_coo_ub rfl (by decide) (by decide) (by decide) (by decide) (by decide) (by decide) (by decide)
    ⟨7, by decide, by decide⟩ out
example (dbg : Bool) (out : Except Fault (List Int)) :
    ColSumsCooPtr dbg 2000 3 (⟨2, 2, [0, 1], [0, 7], [3, 4]⟩ : Coo Int) out ↔ out = .error .ub :=
  col_sums_coo_ub rfl (by decide) (by decide) (by decide) (by decide) (by decide) (by decide) ⟨7, by decide, by decide⟩ out
example (dbg : Bool) (out : Except Fault (List Int)) :
    VecdotCooPtr dbg 2000 3 (⟨2, 2, [0, 1], [0, 7], [3, 4]⟩ : Coo Int) [0, 1] out ↔ out = .error .ub :=
  vecdot_coo_ub rfl rfl (by decide) (by decide) ⟨by decide, by decide⟩ rfl (by decide) (by decide) (by decide) (by decide)
    ⟨((1, 7), 4), by decide, by decide, by decide⟩ out
/-- The same entry in CSR form goes through bounds-checked stripes. -/
example (dbg : Bool) (out : Except Fault (List Int))
    (h : VecdotCsrPtr dbg (⟨2, 2, [0, 1, 2], [0, 7], [3, 4]⟩ : Csr Int) [0, 1] out) : NoUb out := vecdot_csr_no_ub h
/-- 3000 columns and one entry in column 9000: `sum(axis=0)` takes the hash strategy. -/
example (dbg : Bool) (out : Except Fault (List Int)) :
    ColSumsPtr dbg 2000 1 (⟨1, 3000, [0, 1], [9000], [3]⟩ : Csr Int) out ↔ out = .error .ub :=
  col_sums_ub ⟨by decide, by decide, by decide, by decide, by decide⟩ ⟨by decide, by decide, by decide, by decide⟩
    (by decide) (by decide) (by decide) (by decide) (by decide) (by decide) ⟨0, by decide, (9000, 3), by decide, by decide⟩ out
/-- The same entry in a matrix of 2000 columns goes through bounds-checked rows. -/
example (dbg : Bool) (out : Except Fault (List Int))
    (h : ColSumsPtr dbg 4000 1 (⟨1, 2000, [0, 1], [9000], [3]⟩ : Csr Int) out) : NoUb out :=
  col_sums_no_ub (by decide) (fun h => by simp [smallDimLimit] at h) h

/-- 32769 entries of value 1, all claiming row 200000 of 100000. -/
def exFarRow : Coo Int :=
  ⟨100000, 1, List.replicate 32769 200000, List.replicate 32769 0, List.replicate 32769 1⟩
example (dbg : Bool) (out : Except Fault (List Int)) :
    SpmvCooPtr dbg 100000 1 exFarRow [1] out ↔ out = .error .ub := by
  refine spmv_coo_ub (by simp only [exFarRow, List.length_replicate]) (by simp only [exFarRow, List.length_replicate])
    (fun i hi => ?_) (fun j hj => ?_) ⟨fun i hi => ?_, fun j hj => ?_⟩ rfl (by decide)
    (by simp only [exFarRow, List.length_replicate]; decide) (by simp only [exFarRow, List.length_replicate]; decide)
    (by decide) (by simp only [exFarRow, List.length_replicate]; decide)
    (by simp only [exFarRow, List.length_replicate]; decide)
    ⟨200000, List.mem_replicate.2 ⟨by decide, rfl⟩, by decide⟩ out
  · rw [List.eq_of_mem_replicate hi]; decide
  · rw [List.eq_of_mem_replicate hj]; decide
  · rw [List.eq_of_mem_replicate hi]; decide
  · rw [List.eq_of_mem_replicate hj]; decide

/-- The same as a CSC matrix: 2048 empty columns before the full one. -/
def exFarRowC : Csc Int :=
  ⟨100000, 2049, List.replicate 2049 0 ++ [32769], List.replicate 32769 200000, List.replicate 32769 1⟩
theorem replicate_snoc_getD (n : Nat) (z : Int) (i : Nat) :
    (List.replicate n (0 : Int) ++ [z]).getD i 0 = if i = n then z else 0 := by
  simp only [List.getD_eq_getElem?_getD]
  rcases Nat.lt_trichotomy i n with h | rfl | h
  · rw [List.getElem?_append_left (by simpa using h), List.getElem?_replicate, if_pos h, if_neg (by omega)]; rfl
  · rw [List.getElem?_append_right (by simp)]; simp
  · rw [List.getElem?_eq_none (by simp; omega), if_neg (by omega)]; rfl
theorem exFarRowC_ptr (i : Nat) : exFarRowC.indptr.getD i 0 = if i = 2049 then 32769 else 0 :=
  replicate_snoc_getD 2049 32769 i
theorem exFarRowC_idx : ∀ j ∈ exFarRowC.indices, j = 200000 := fun _ hj => List.eq_of_mem_replicate hj
example (dbg : Bool) (out : Except Fault (List Int)) :
    SpmvCscPtr dbg 100000 1 exFarRowC (List.replicate 2049 1) out ↔ out = .error .ub := by
  have hl : exFarRowC.data.length = 32769 := by simp only [exFarRowC, List.length_replicate]
  have hl2 : exFarRowC.indices.length = 32769 := by simp only [exFarRowC, List.length_replicate]
  have hl3 : exFarRowC.indptr.length = 2050 := by
    simp only [exFarRowC, List.length_append, List.length_replicate, List.length_cons, List.length_nil]
  have hp : exFarRowC.comp.PtrOk := by
    constructor
    · show 2049 < exFarRowC.indptr.length
      omega
    · show 0 ≤ exFarRowC.indptr.getD 0 0
      rw [exFarRowC_ptr]; decide
    · intro i hi
      show exFarRowC.indptr.getD i 0 ≤ exFarRowC.indptr.getD (i + 1) 0
      have hi : i < 2049 := hi
      rw [exFarRowC_ptr, exFarRowC_ptr, if_neg (by omega)]
      split <;> decide
    · show exFarRowC.indptr.getD 2049 0 ≤ (exFarRowC.indices.length : Int)
      rw [exFarRowC_ptr, hl2]; decide
    · show exFarRowC.indptr.getD 2049 0 ≤ (exFarRowC.data.length : Int)
      rw [exFarRowC_ptr, hl]; decide
  have hm : exFarRowC.comp.Machine := by
    constructor
    · show 8 * (exFarRowC.indptr.length : Int) ≤ _; rw [hl3]; decide
    · show 8 * (exFarRowC.indices.length : Int) ≤ _; rw [hl2]; decide
    · show 8 * (exFarRowC.data.length : Int) ≤ _; rw [hl]; decide
    · intro j hj; rw [exFarRowC_idx j hj]; decide
  have hrow : ((200000 : Int), (1 : Int)) ∈ exFarRowC.comp.row 2048 := by
    have h1 : exFarRowC.comp.ptr 2048 = 0 := by
      show (exFarRowC.indptr.getD 2048 0).toNat = 0; rw [exFarRowC_ptr]; rfl
    have h2 : exFarRowC.comp.ptr 2049 = 32769 := by
      show (exFarRowC.indptr.getD 2049 0).toNat = 32769; rw [exFarRowC_ptr]; rfl
    have hz : (exFarRowC.indices.zip exFarRowC.data) = List.replicate 32769 (200000, 1) := by
      simp only [exFarRowC, List.zip_replicate, Nat.min_self]
    unfold Comp.row
    simp only [h1, h2]
    show _ ∈ ((exFarRowC.indices.zip exFarRowC.data).drop 0).take (32769 - 0)
    rw [hz, List.drop_zero, List.take_of_length_le (by rw [List.length_replicate])]
    exact List.mem_replicate.2 ⟨by decide, rfl⟩
  refine spmv_csc_ub hp hm (fun j hj => by rw [exFarRowC_idx j hj]; decide) (by rw [List.length_replicate]; rfl)
    (by decide) (by rw [hl]; decide) (by rw [hl]; decide) (by decide) (by rw [hl]; decide) (by rw [hl]; decide)
    ⟨2048, by decide, (200000, 1), hrow, by decide⟩ out


end Lacuna
