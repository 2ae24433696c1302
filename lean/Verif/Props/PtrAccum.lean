import Verif.Lemmas.PtrAccum
import Verif.Props.PtrDiff
import Verif.Props.Sums
import Verif.Props.Spmv
/-
C65.  The kernels that scatter into thread-local accumulators (sums along the other axis, CSC/COO
matrix-vector products, `vecdot`): on valid matrices they stay inside their buffers and return a result
of the list-level kernels (C31, C33, C35).  On arbitrary arrays the dense and striped accumulators
never leave them either, but the hash map does: `insert_add` takes any key and `drain_to` writes to it
unchecked.
-/
namespace Lacuna
variable {V : Type}

/-! ### The hash map -/

/-- Any keys, any capacity that fits in memory, any values, even colliding with the marker: inserting
never reads or writes outside the table. -/
theorem hmap_insert_no_ub [Zero V] [Add V] (dbg : Bool) (F cap : Nat)
    (hcap : 8 * ((max (nextPow2 cap) 16 : Nat) : Int) ≤ i64Max) (ops : List (Nat × V)) :
    NoUb (HMap.insertAllP dbg F (HMap.withCapacity cap : HMap V) ops) :=
  (HMap.insertAllP_safe ops _ (HMap.withCapacity_shape hcap) (fun _ => True) (fun _ _ => .inl trivial)
    fun _ _ => .inl trivial).1

/-- Inserting and draining: the list-level map if every key is a position of the output, an
out-of-bounds write otherwise. -/
theorem hmap_drain_exact [Zero V] [Add V] {dbg : Bool} {F : Nat} {ops : List (Nat × V)} {out : List V}
    (hk : ∀ o ∈ ops, o.1 < usizeMax) (hF : 3 * ops.length + 1024 ≤ F) (hN : 24 * (ops.length : Int) ≤ i64Max) :
    ∃ m, HMap.insertAllP dbg F (HMap.withCapacity 1024 : HMap V) ops = .ok m ∧
      (HMap.withCapacity 1024 : HMap V).insertAll ops = some m ∧
      HMap.drainToP m out = if ∀ o ∈ ops, o.1 < out.length then .ok (m.drainTo out) else .error .ub := by
  obtain ⟨m, h1, h2, h3⟩ := hash_cell (dbg := dbg) (Nat.le_refl _) (fun o ho => by have := hk o ho; omega) hF hN
  refine ⟨m, h1, h2, ?_⟩
  rw [HMap.drainToP_eq h3.vlen]
  have : (∀ k ∈ m.keys, k = usizeMax ∨ k < out.length) ↔ ∀ o ∈ ops, o.1 < out.length := by
    constructor
    · intro h o ho
      have hu := hk o ho
      have := h o.1 ((hash_keys hk h2 o.1 (by omega)).2 ⟨o, ho, rfl⟩)
      omega
    · intro h k hkm
      by_cases hu : k = usizeMax
      · exact .inl hu
      · obtain ⟨o, ho, rfl⟩ := (hash_keys hk h2 k hu).1 hkm
        exact .inr (h o ho)
  simp only [this]

/-! ### Helpers -/

theorem lineFOps_lt {a : Comp V} (ha : a.WFU) (f : Nat → V → V) (i : Nat) : ∀ o ∈ lineFOps a f i, o.1 < a.m := by
  intro o ho
  obtain ⟨e, he, rfl⟩ := List.mem_map.1 ho
  have hb := ha.row_bounds i e he
  simp only []
  rw [i64ToUsize_of_nonneg hb.1 (ha.row_i64 i e he)]
  omega

theorem lineFOps_usize {a : Comp V} (hm : a.Machine) (hj : ∀ j ∈ a.indices, 0 ≤ j) (f : Nat → V → V) (i : Nat) :
    ∀ o ∈ lineFOps a f i, o.1 < usizeMax := by
  intro o ho
  obtain ⟨e, he, rfl⟩ := List.mem_map.1 ho
  have he' := Comp.row_mem_indices he
  simp only []
  have h64 := hm.i64 _ he'
  rw [i64ToUsize_of_nonneg (hj _ he') h64]
  unfold i64Max at h64; unfold usizeMax; omega

theorem mem_flatMap_of {ι : Type} {P : Nat × V → Prop} {items : List ι} {ops : ι → List (Nat × V)}
    (h : ∀ i, ∀ o ∈ ops i, P o) : ∀ o ∈ items.flatMap ops, P o := by
  intro o ho
  obtain ⟨i, _, ho⟩ := List.mem_flatMap.1 ho
  exact h i o ho

/-- The operations of a work range. -/
def rangeFOps (a : Comp V) (f : Nat → V → V) (skip : Nat → Bool) (r : Nat × Nat) : List (Nat × V) :=
  ((rangeLines r).filter fun i => !skip i).flatMap (lineFOps a f)

theorem lineRanges_le {a : Comp V} : ∀ r ∈ lineRanges a, r.2 ≤ a.n := by
  obtain ⟨h1, _⟩ := ranges_increasing (128 * 1024) (by decide) (fun i => a.ptr (i + 1) - a.ptr i) a.n
  exact fun r hr => (h1 r hr).2

theorem rangeFOps_all (a : Comp V) (f : Nat → V → V) :
    rangeFOps a f (fun _ => false) = fun r => (rangeLines r).flatMap (lineFOps a f) := by
  funext r
  unfold rangeFOps
  simp

theorem ranges_fops (a : Comp V) (f : Nat → V → V) :
    (lineRanges a).flatMap (rangeFOps a f fun _ => false) = (List.range a.n).flatMap (lineFOps a f) := by
  rw [rangeFOps_all]
  exact range_flatMap_ranges _ fun i h => by unfold lineFOps; rw [Comp.row_nil_of_len h]; rfl

theorem Comp.WFU.nonneg {a : Comp V} (h : a.WFU) : ∀ j ∈ a.indices, 0 ≤ j := fun j hj => (h.bounds j hj).1

section
variable [Zero V] [Add V] {dbg : Bool} {F nthreads : Nat}

/-! ### Column sums of CSR -/

/-- Every run of `col_sums_f64` on a valid matrix, for each strategy, stays in bounds and returns a
result of the list-level kernel. -/
theorem col_sums_ptr {a : Csr V} (ha : a.WFU) (hm : a.comp.Machine) (hn : 8 * (a.ncols : Int) ≤ i64Max)
    (hd : 24 * (a.data.length : Int) ≤ i64Max) (hF : a.ncols + 3 * a.data.length + 1024 < F) :
    Returns (ColSumsPtr dbg F nthreads a) (ColSumsRun nthreads a) := by
  have hp : a.comp.PtrOk := Comp.WFU.ptrOk ha
  have hj : dbg = true → ∀ j ∈ a.comp.indices, 0 ≤ j := fun _ => Comp.WFU.nonneg ha
  have hops : lineFOps a.comp (fun _ v => v) = lineAdds a.comp := rfl
  unfold ColSumsPtr ColSumsRun
  simp only []
  split
  · exact Returns.of_eq rfl
  split
  · exact plain_returns hn (mem_flatMap_of fun i => lineFOps_lt (a := a.comp) ha _ i)
      (fun i hi acc => scatterLineP_eq hp hm hj _ _ _ (List.mem_range.1 hi)) (by omega)
  split
  · exact hash_returns hn (mem_flatMap_of fun i => lineFOps_lt (a := a.comp) ha _ i)
      (fun i hi acc => scatterLineP_eq hp hm hj _ _ _ (List.mem_range.1 hi)) (N := a.data.length)
      (hp.lineFOps_length _) (by omega) hd (mergeSeq_iff hn _)
  · have hr := hp.rangesP hm dbg
    rw [show rangesP dbg (128 * 1024) a.comp a.nrows 0 0 0 = .ok (lineRanges a.comp) from hr]
    have := stripePar_returns (dbg := dbg) (F := F) (stripe := stripeLen)
      (work := scatterRangeP dbg a.comp (fun _ v => v) (fun _ => false) (stripesAdd a.ncols stripeLen)) hn
      (items := lineRanges a.comp) (ops := rangeFOps a.comp (fun _ v => v) fun _ => false)
      (by rw [ranges_fops]; exact mem_flatMap_of fun i => lineFOps_lt (a := a.comp) ha _ i) (by decide)
      (fun r hr acc => scatterRangeP_eq hp hm hj _ _ _ _ (lineRanges_le r hr)) (by omega)
    rw [rangeFOps_all] at this
    exact this

/-- The same in terms of the matrix. -/
theorem col_sums_ptr_correct {V : Type} [AddCommMonoid V] {dbg : Bool} {F nthreads : Nat} {a : Csr V} (ha : a.WFU)
    (hm : a.comp.Machine) (hn : 8 * (a.ncols : Int) ≤ i64Max) (hd : 24 * (a.data.length : Int) ≤ i64Max)
    (hF : a.ncols + 3 * a.data.length + 1024 < F) :
    Returns (ColSumsPtr dbg F nthreads a) fun y => y = (List.range a.ncols).map fun j => (a.colCells j).sum :=
  (col_sums_ptr ha hm hn hd hF).mono
    (col_sums_csr_correct nthreads ha (Nat.le_of_lt (n_le_usize hn))).2

/-- Arbitrary arrays: `col_sums_f64` can leave its buffers only with hash maps and a stored index that
is no column. -/
theorem col_sums_no_ub {a : Csr V} (hF : a.ncols < F)
    (h : smallDimLimit < a.ncols → a.data.length < satMul (a.ncols / 2) (max nthreads 1) →
      ∀ j ∈ a.indices, asUsize j < a.ncols ∨ asUsize j = usizeMax)
    {out : Except Fault (List V)} (ho : ColSumsPtr dbg F nthreads a out) : NoUb out := by
  unfold ColSumsPtr at ho
  simp only [] at ho
  split at ho
  · exact NoUb.of_ok ho
  split at ho
  · exact plain_noUb (fun i _ acc hacc => scatterLineP_safe (fun acc j v hacc _ => addIdxP_safe acc _ v hacc) hacc i) hF ho
  split at ho
  · rename_i h1 h2
    exact hash_noUb (fun i _ acc hacc =>
      scatterLineP_safe (fun acc j v hacc hj => hashAdd_safe acc v hacc (h (by omega) h2 j hj)) hacc i) ho
  · unfold TlsRangesPtr at ho
    have hr := NoUb.rangesP dbg (128 * 1024) a.comp a.nrows 0 0 0
    split at ho
    · rename_i x hx
      rw [ho]
      intro hc
      cases hc
      exact hr hx
    · exact stripePar_noUb (by decide) (fun r _ acc hacc =>
        scatterRangeP_safe (fun acc j v hacc _ => stripesAdd_safe acc _ v hacc) hacc r) hF ho

/-- With valid pointers and one stored index past the last column, the hash strategy writes out of
bounds in every run of both builds. -/
theorem col_sums_ub {a : Csr V} (hp : a.comp.PtrOk) (hm : a.comp.Machine) (hj : ∀ j ∈ a.indices, 0 ≤ j)
    (hn : 8 * (a.ncols : Int) ≤ i64Max) (hd : 24 * (a.data.length : Int) ≤ i64Max)
    (hF : 3 * a.data.length + 1024 ≤ F) (h1 : smallDimLimit < a.ncols)
    (h2 : a.data.length < satMul (a.ncols / 2) (max nthreads 1))
    (hbad : ∃ i, i < a.nrows ∧ ∃ e ∈ a.comp.row i, (a.ncols : Int) ≤ e.1) (out : Except Fault (List V)) :
    ColSumsPtr dbg F nthreads a out ↔ out = .error .ub := by
  unfold ColSumsPtr
  simp only []
  rw [if_neg (by unfold smallDimLimit at h1; omega), if_neg (by omega), if_pos h2]
  refine hash_ub (ops := lineFOps a.comp fun _ v => v) (mem_flatMap_of fun i => lineFOps_usize hm hj _ i)
    (fun i hi acc => scatterLineP_eq hp hm (fun _ => hj) _ _ _ (List.mem_range.1 hi)) (N := a.data.length)
    (hp.lineFOps_length _) hF hd (mergeSeq_iff hn _) ?_ out
  obtain ⟨i, hi, e, he, hlt⟩ := hbad
  have he' := Comp.row_mem_indices he
  refine ⟨_, List.mem_flatMap.2 ⟨i, List.mem_range.2 hi, List.mem_map.2 ⟨e, he, rfl⟩⟩, ?_⟩
  simp only []
  rw [i64ToUsize_of_nonneg (hj _ he') (hm.i64 _ he')]
  omega

/-! ### Row sums of CSC -/

theorem row_sums_csc_ptr {a : Csc V} (ha : a.WFU) (hm : a.comp.Machine) (hn : 8 * (a.nrows : Int) ≤ i64Max)
    (hd : 24 * (a.data.length : Int) ≤ i64Max) (hF : a.nrows + 3 * a.data.length + 1024 < F) :
    Returns (RowSumsCscPtr dbg F a) (RowSumsCscRun a) := by
  have hp : a.comp.PtrOk := Comp.WFU.ptrOk ha
  have hj : dbg = true → ∀ j ∈ a.comp.indices, 0 ≤ j := fun _ => Comp.WFU.nonneg ha
  have hn' := n_le_usize hn
  unfold RowSumsCscPtr RowSumsCscRun
  simp only []
  split
  · exact Returns.of_eq rfl
  split
  · exact hash_returns hn (mem_flatMap_of fun i => lineFOps_lt (a := a.comp) ha _ i)
      (fun i hi acc => scatterLineP_eq hp hm hj _ _ _ (List.mem_range.1 hi)) (N := a.data.length)
      (hp.lineFOps_length _) (by omega) hd (mergeSeq_iff hn _)
  · exact stripe_returns (n := a.nrows) (mem_flatMap_of fun i => lineFOps_lt (a := a.comp) ha _ i) (by decide)
      (fun i hi acc => scatterLineP_eq hp hm hj _ _ _ (List.mem_range.1 hi)) (mergeSeq_iff hn _)
      fun y accs hy hs => mergeStripeRawP_eq (by decide) hy (by omega) (by omega) hs

theorem row_sums_csc_ptr_correct {V : Type} [AddCommMonoid V] {dbg : Bool} {F : Nat} {a : Csc V} (ha : a.WFU)
    (hm : a.comp.Machine) (hn : 8 * (a.nrows : Int) ≤ i64Max) (hd : 24 * (a.data.length : Int) ≤ i64Max)
    (hF : a.nrows + 3 * a.data.length + 1024 < F) :
    Returns (RowSumsCscPtr dbg F a) fun y => y = (List.range a.nrows).map fun i => (a.rowCells i).sum :=
  (row_sums_csc_ptr ha hm hn hd hF).mono (row_sums_csc_correct ha (Nat.le_of_lt (n_le_usize hn))).2

theorem row_sums_csc_no_ub {a : Csc V} (hF : a.nrows < F)
    (h : a.nrows ≤ smallDimLimit ∨ a.data.length ≤ smallNnzLimit →
      ∀ j ∈ a.indices, asUsize j < a.nrows ∨ asUsize j = usizeMax)
    {out : Except Fault (List V)} (ho : RowSumsCscPtr dbg F a out) : NoUb out := by
  unfold RowSumsCscPtr at ho
  simp only [] at ho
  split at ho
  · exact NoUb.of_ok ho
  split at ho
  · rename_i h1
    exact hash_noUb (fun i _ acc hacc =>
      scatterLineP_safe (fun acc j v hacc hj => hashAdd_safe acc v hacc (h h1 j hj)) hacc i) ho
  · exact stripe_noUb (fun i _ acc hacc => scatterLineP_safe (fun acc j v hacc _ => stripesAdd_safe acc _ v hacc) hacc i)
      (fun hn y accs hy hs => mergeStripeRawP_eq (by decide) hy (Nat.le_of_lt (n_le_usize hn)) hF hs) ho

theorem row_sums_csc_ub {a : Csc V} (hp : a.comp.PtrOk) (hm : a.comp.Machine) (hj : ∀ j ∈ a.indices, 0 ≤ j)
    (hn : 8 * (a.nrows : Int) ≤ i64Max) (hd : 24 * (a.data.length : Int) ≤ i64Max)
    (hF : 3 * a.data.length + 1024 ≤ F) (h0 : a.nrows ≠ 0)
    (h1 : a.nrows ≤ smallDimLimit ∨ a.data.length ≤ smallNnzLimit)
    (hbad : ∃ j, j < a.ncols ∧ ∃ e ∈ a.comp.row j, (a.nrows : Int) ≤ e.1) (out : Except Fault (List V)) :
    RowSumsCscPtr dbg F a out ↔ out = .error .ub := by
  unfold RowSumsCscPtr
  simp only []
  rw [if_neg h0, if_pos h1]
  refine hash_ub (ops := lineFOps a.comp fun _ v => v) (mem_flatMap_of fun i => lineFOps_usize hm hj _ i)
    (fun i hi acc => scatterLineP_eq hp hm (fun _ => hj) _ _ _ (List.mem_range.1 hi)) (N := a.data.length)
    (hp.lineFOps_length _) hF hd (mergeSeq_iff hn _) ?_ out
  obtain ⟨i, hi, e, he, hlt⟩ := hbad
  have he' := Comp.row_mem_indices he
  refine ⟨_, List.mem_flatMap.2 ⟨i, List.mem_range.2 hi, List.mem_map.2 ⟨e, he, rfl⟩⟩, ?_⟩
  simp only []
  rw [i64ToUsize_of_nonneg (hj _ he') (hm.i64 _ he')]
  omega

/-! ### Sums of COO -/

/-- The chunks of a list of operations. -/
theorem coo_items_map {β : Type} (nthreads : Nat) {l : List β} {nnz : Nat} (h : l.length = nnz) :
    (cooItems nthreads nnz).map (chunkAt (cooChunk nthreads nnz) l) = chunksOf (cooChunk nthreads nnz) l := by
  rw [chunksOf_eq_range (cooChunk_pos _ _), h]; rfl

theorem coo_items_flat {β : Type} (nthreads : Nat) {l : List β} {nnz : Nat} (h : l.length = nnz) :
    (cooItems nthreads nnz).flatMap (chunkAt (cooChunk nthreads nnz) l) = l := by
  rw [List.flatMap_def, coo_items_map nthreads h, chunksOf_flatten (cooChunk_pos _ _)]

/-- The operations of a COO sum. -/
def cooSumOps (idx : List Int) (data : List V) : List (Nat × V) := (idx.zip data).map fun e => (i64ToUsize e.1, e.2)

omit [Zero V] [Add V] in
theorem cooSumOps_length {idx : List Int} {data : List V} (h : idx.length = data.length) :
    (cooSumOps idx data).length = data.length := by
  unfold cooSumOps; simp [h]

omit [Zero V] [Add V] in
theorem cooSumOpP_eq {idx : List Int} {data : List V} (h : idx.length = data.length) (hj : dbg = true → ∀ j ∈ idx, 0 ≤ j)
    (k : Nat) (hk : k < (cooSumOps idx data).length) : cooSumOpP dbg idx data k = .ok (some (cooSumOps idx data)[k]) := by
  rw [cooSumOps_length h] at hk
  unfold cooSumOpP
  rw [index_eq (by omega), ok_bind, i64ToUsizeP_of (fun hd => hj hd _ (List.getElem_mem _)), ok_bind, index_eq hk, ok_bind]
  simp [cooSumOps]
  rfl

omit [Zero V] [Add V] in
theorem cooChunk_work {A : Type} {idx : List Int} {data : List V} (h : idx.length = data.length)
    (hj : dbg = true → ∀ j ∈ idx, 0 ≤ j) (size : Nat) (add : A → Nat → V → Except Fault A) (acc : A) (t : Nat) :
    scatterChunkP (cooSumOpP dbg idx data) data.length size add acc t =
      runOps add acc (chunkAt size (cooSumOps idx data) t) := by
  rw [scatterChunkP_eq (l := (cooSumOps idx data).map fun o => [o]) (toList_ops (cooSumOpP_eq h hj))
    (by rw [List.length_map, cooSumOps_length h]), chunkAt_singletons]
  rfl

omit [Zero V] [Add V] in
theorem cooSumOps_lt {idx : List Int} {data : List V} {n : Nat} (hb : ∀ i ∈ idx, 0 ≤ i ∧ i < n)
    (h64 : ∀ i ∈ idx, i ≤ i64Max) : ∀ o ∈ cooSumOps idx data, o.1 < n := by
  intro o ho
  obtain ⟨e, he, rfl⟩ := List.mem_map.1 ho
  have hmem := (List.of_mem_zip he).1
  have := hb _ hmem
  simp only []
  rw [i64ToUsize_of_nonneg this.1 (h64 _ hmem)]
  omega

omit [Zero V] [Add V] in
theorem cooSumOps_usize {idx : List Int} {data : List V} (hb : ∀ i ∈ idx, 0 ≤ i) (h64 : ∀ i ∈ idx, i ≤ i64Max) :
    ∀ o ∈ cooSumOps idx data, o.1 < usizeMax := by
  intro o ho
  obtain ⟨e, he, rfl⟩ := List.mem_map.1 ho
  have hmem := (List.of_mem_zip he).1
  have h := h64 _ hmem
  simp only []
  rw [i64ToUsize_of_nonneg (hb _ hmem) h]
  have := hb _ hmem
  unfold i64Max at h; unfold usizeMax; omega

omit [Zero V] [Add V] in
theorem cooSumOps_bad {idx : List Int} {data : List V} {n : Nat} (hl : idx.length = data.length)
    (hb : ∀ i ∈ idx, 0 ≤ i) (h64 : ∀ i ∈ idx, i ≤ i64Max) (h : ∃ i ∈ idx, (n : Int) ≤ i) :
    ∃ o ∈ cooSumOps idx data, n ≤ o.1 := by
  obtain ⟨i, hi, hni⟩ := h
  obtain ⟨k, hk, rfl⟩ := List.getElem_of_mem hi
  refine ⟨(i64ToUsize idx[k], data[k]'(by omega)), List.mem_map.2 ⟨(idx[k], data[k]'(by omega)), ?_, rfl⟩, ?_⟩
  · rw [List.mem_iff_getElem]
    exact ⟨k, by simp; omega, by simp⟩
  · simp only []
    rw [i64ToUsize_of_nonneg (hb _ hi) (h64 _ hi)]
    omega

omit [Zero V] [Add V] in
theorem triples_rows {a : Coo V} (hc : a.col.length = a.data.length) (hr : a.row.length = a.data.length) :
    (a.triples.map fun t => (i64ToUsize t.1.1, t.2)) = cooSumOps a.row a.data := by
  unfold Coo.triples cooSumOps
  apply List.ext_getElem
  · simp [hc, hr]
  · intro k h1 h2; simp

omit [Zero V] [Add V] in
theorem triples_cols {a : Coo V} (hc : a.col.length = a.data.length) (hr : a.row.length = a.data.length) :
    (a.triples.map fun t => (i64ToUsize t.1.2, t.2)) = cooSumOps a.col a.data := by
  unfold Coo.triples cooSumOps
  apply List.ext_getElem
  · simp [hc, hr]
  · intro k h1 h2; simp

omit [Zero V] [Add V] in
theorem cooSumOpP_safe {Q : Nat → Prop} {idx : List Int} {data : List V} (hQ : ∀ j ∈ idx, Q (asUsize j)) (k : Nat) :
    SafeE (fun o => ∀ p : Nat × V, o = some p → Q p.1) (cooSumOpP dbg idx data k) := by
  unfold cooSumOpP
  refine (SafeE.index _ _).bind fun x hx => (SafeE.i64ToUsizeP _ _).bind fun i hi => (SafeE.index _ _).bind fun v _ =>
    SafeE.ok ?_
  intro p hp
  cases hp
  rw [hi]
  exact hQ x hx

theorem row_sums_coo_ptr {a : Coo V} (ha : a.WF) (hi : a.I64) (hn : 8 * (a.nrows : Int) ≤ i64Max)
    (hd : 24 * (a.data.length : Int) ≤ i64Max) (hF : a.nrows + 3 * a.data.length + 1024 < F) :
    Returns (RowSumsCooPtr dbg F nthreads a) (RowSumsCooRun nthreads a) := by
  have hl := ha.row_length
  have hj : dbg = true → ∀ j ∈ a.row, 0 ≤ j := fun _ j h => (ha.row_bounds j h).1
  unfold RowSumsCooPtr RowSumsCooRun
  simp only []
  rw [triples_rows ha.col_length hl, ← coo_items_map nthreads (cooSumOps_length hl)]
  split
  · exact Returns.of_eq rfl
  split
  · rw [zeroVecP_ok hn]; exact Returns.of_eq rfl
  have hlt : ∀ o ∈ (cooItems nthreads a.data.length).flatMap
      (chunkAt (cooChunk nthreads a.data.length) (cooSumOps a.row a.data)), o.1 < a.nrows := by
    rw [coo_items_flat nthreads (cooSumOps_length hl)]
    exact cooSumOps_lt ha.row_bounds hi.1
  split
  · exact hash_returns hn hlt (fun t _ acc => cooChunk_work hl hj _ _ _ _) (N := a.data.length)
      (by rw [coo_items_flat nthreads (cooSumOps_length hl), cooSumOps_length hl]) (by omega) hd (mergeSeq_iff hn _)
  · exact stripe_returns hlt (by decide) (fun t _ acc => cooChunk_work hl hj _ _ _ _) (mergeSeq_iff hn _)
      fun y accs hy hs => mergeStripeP_eq (by decide) hy hs

theorem row_sums_coo_ptr_correct {V : Type} [AddCommMonoid V] {dbg : Bool} {F nthreads : Nat} {a : Coo V} (ha : a.WF)
    (hi : a.I64) (hn : 8 * (a.nrows : Int) ≤ i64Max) (hd : 24 * (a.data.length : Int) ≤ i64Max)
    (hF : a.nrows + 3 * a.data.length + 1024 < F) :
    Returns (RowSumsCooPtr dbg F nthreads a) fun y => y = (List.range a.nrows).map fun i => (a.rowCells i).sum :=
  (row_sums_coo_ptr ha hi hn hd hF).mono (row_sums_coo_correct nthreads ha hi (Nat.le_of_lt (n_le_usize hn))).2

omit [Add V] in
theorem NoUb.zeroVecP (n : Nat) : NoUb (zeroVecP n : Except Fault (List V)) := by
  unfold Lacuna.zeroVecP
  split
  · exact NoUb.of_ok rfl
  · intro h; cases h

theorem row_sums_coo_no_ub {a : Coo V}
    (h : a.data.length ≤ smallNnzLimit ∨ a.nrows ≤ smallDimLimit →
      ∀ j ∈ a.row, asUsize j < a.nrows ∨ asUsize j = usizeMax)
    {out : Except Fault (List V)} (ho : RowSumsCooPtr dbg F nthreads a out) : NoUb out := by
  unfold RowSumsCooPtr at ho
  simp only [] at ho
  split at ho
  · exact NoUb.of_ok ho
  split at ho
  · rw [ho]; exact NoUb.zeroVecP _
  split at ho
  · rename_i h1
    refine hash_noUb (n := a.nrows) (fun t _ acc hacc => ?_) ho
    exact scatterChunkP_safe (Q := fun k => k < a.nrows ∨ k = usizeMax)
      (fun k => cooSumOpP_safe (Q := fun k => k < a.nrows ∨ k = usizeMax) (h h1) k)
      (fun acc j v hacc hq => hashAdd_safe acc v hacc hq) hacc _ _ t
  · exact stripe_noUb (fun t _ acc hacc => scatterChunkP_safe (Q := fun _ => True) (fun k => cooSumOpP_safe (Q := fun _ => True) (fun _ _ => trivial) k)
      (fun acc j v hacc _ => stripesAdd_safe acc j v hacc) hacc _ _ t)
      (fun hn y accs hy hs => mergeStripeP_eq (by decide) hy hs) ho

theorem row_sums_coo_ub {a : Coo V} (hl : a.row.length = a.data.length) (hj : ∀ i ∈ a.row, 0 ≤ i)
    (h64 : ∀ i ∈ a.row, i ≤ i64Max) (hn : 8 * (a.nrows : Int) ≤ i64Max) (hd : 24 * (a.data.length : Int) ≤ i64Max)
    (hF : 3 * a.data.length + 1024 ≤ F) (h0 : a.nrows ≠ 0)
    (h1 : a.data.length ≤ smallNnzLimit ∨ a.nrows ≤ smallDimLimit) (hbad : ∃ i ∈ a.row, (a.nrows : Int) ≤ i)
    (out : Except Fault (List V)) : RowSumsCooPtr dbg F nthreads a out ↔ out = .error .ub := by
  have hne : a.data.length ≠ 0 := by
    obtain ⟨i, hi, -⟩ := hbad
    intro h
    rw [h] at hl
    rw [List.length_eq_zero_iff.1 hl] at hi
    cases hi
  unfold RowSumsCooPtr
  simp only []
  rw [if_neg h0, if_neg hne, if_pos h1]
  exact hash_ub (ops := chunkAt (cooChunk nthreads a.data.length) (cooSumOps a.row a.data))
    (by rw [coo_items_flat nthreads (cooSumOps_length hl)]; exact cooSumOps_usize hj h64)
    (fun t _ acc => cooChunk_work hl (fun _ => hj) _ _ _ _) (N := a.data.length)
    (by rw [coo_items_flat nthreads (cooSumOps_length hl), cooSumOps_length hl]) hF hd (mergeSeq_iff hn _)
    (by rw [coo_items_flat nthreads (cooSumOps_length hl)]; exact cooSumOps_bad hl hj h64 hbad) out

theorem col_sums_coo_ptr {a : Coo V} (ha : a.WF) (hi : a.I64) (hn : 8 * (a.ncols : Int) ≤ i64Max)
    (hd : 24 * (a.data.length : Int) ≤ i64Max) (hF : a.ncols + 3 * a.data.length + 1024 < F) :
    Returns (ColSumsCooPtr dbg F nthreads a) (ColSumsCooRun nthreads a) := by
  have hl := ha.col_length
  have hj : dbg = true → ∀ j ∈ a.col, 0 ≤ j := fun _ j h => (ha.col_bounds j h).1
  unfold ColSumsCooPtr ColSumsCooRun
  simp only []
  rw [triples_cols hl ha.row_length, ← coo_items_map nthreads (cooSumOps_length hl)]
  split
  · exact Returns.of_eq rfl
  split
  · rw [zeroVecP_ok hn]; exact Returns.of_eq rfl
  have hlt : ∀ o ∈ (cooItems nthreads a.data.length).flatMap
      (chunkAt (cooChunk nthreads a.data.length) (cooSumOps a.col a.data)), o.1 < a.ncols := by
    rw [coo_items_flat nthreads (cooSumOps_length hl)]
    exact cooSumOps_lt ha.col_bounds hi.2
  split
  · exact hash_returns hn hlt (fun t _ acc => cooChunk_work hl hj _ _ _ _) (N := a.data.length)
      (by rw [coo_items_flat nthreads (cooSumOps_length hl), cooSumOps_length hl]) (by omega) hd (mergeSeq_iff hn _)
  · exact stripePar_returns hn hlt (by decide) (fun t _ acc => cooChunk_work hl hj _ _ _ _) (by omega)

theorem col_sums_coo_ptr_correct {V : Type} [AddCommMonoid V] {dbg : Bool} {F nthreads : Nat} {a : Coo V} (ha : a.WF)
    (hi : a.I64) (hn : 8 * (a.ncols : Int) ≤ i64Max) (hd : 24 * (a.data.length : Int) ≤ i64Max)
    (hF : a.ncols + 3 * a.data.length + 1024 < F) :
    Returns (ColSumsCooPtr dbg F nthreads a) fun y => y = (List.range a.ncols).map fun j => (a.colCells j).sum :=
  (col_sums_coo_ptr ha hi hn hd hF).mono (col_sums_coo_correct nthreads ha hi (Nat.le_of_lt (n_le_usize hn))).2

theorem col_sums_coo_no_ub {a : Coo V} (hF : a.ncols < F)
    (h : a.data.length < satMul (a.ncols / 2) (max nthreads 1) →
      ∀ j ∈ a.col, asUsize j < a.ncols ∨ asUsize j = usizeMax)
    {out : Except Fault (List V)} (ho : ColSumsCooPtr dbg F nthreads a out) : NoUb out := by
  unfold ColSumsCooPtr at ho
  simp only [] at ho
  split at ho
  · exact NoUb.of_ok ho
  split at ho
  · rw [ho]; exact NoUb.zeroVecP _
  split at ho
  · rename_i h1
    refine hash_noUb (n := a.ncols) (fun t _ acc hacc => ?_) ho
    exact scatterChunkP_safe (Q := fun k => k < a.ncols ∨ k = usizeMax)
      (fun k => cooSumOpP_safe (Q := fun k => k < a.ncols ∨ k = usizeMax) (h h1) k)
      (fun acc j v hacc hq => hashAdd_safe acc v hacc hq) hacc _ _ t
  · exact stripePar_noUb (by decide) (fun t _ acc hacc => scatterChunkP_safe (Q := fun _ => True)
      (fun k => cooSumOpP_safe (Q := fun _ => True) (fun _ _ => trivial) k) (fun acc j v hacc _ => stripesAdd_safe acc j v hacc) hacc _ _ t) hF ho

theorem col_sums_coo_ub {a : Coo V} (hl : a.col.length = a.data.length) (hj : ∀ j ∈ a.col, 0 ≤ j)
    (h64 : ∀ j ∈ a.col, j ≤ i64Max) (hn : 8 * (a.ncols : Int) ≤ i64Max) (hd : 24 * (a.data.length : Int) ≤ i64Max)
    (hF : 3 * a.data.length + 1024 ≤ F) (h1 : a.data.length < satMul (a.ncols / 2) (max nthreads 1))
    (hbad : ∃ j ∈ a.col, (a.ncols : Int) ≤ j) (out : Except Fault (List V)) :
    ColSumsCooPtr dbg F nthreads a out ↔ out = .error .ub := by
  have hne : a.data.length ≠ 0 := by
    obtain ⟨i, hi, -⟩ := hbad
    intro h
    rw [h] at hl
    rw [List.length_eq_zero_iff.1 hl] at hi
    cases hi
  have h0 : a.ncols ≠ 0 := by
    intro h
    rw [h] at h1
    unfold satMul at h1
    simp at h1
  unfold ColSumsCooPtr
  simp only []
  rw [if_neg h0, if_neg hne, if_pos h1]
  exact hash_ub (ops := chunkAt (cooChunk nthreads a.data.length) (cooSumOps a.col a.data))
    (by rw [coo_items_flat nthreads (cooSumOps_length hl)]; exact cooSumOps_usize hj h64)
    (fun t _ acc => cooChunk_work hl (fun _ => hj) _ _ _ _) (N := a.data.length)
    (by rw [coo_items_flat nthreads (cooSumOps_length hl), cooSumOps_length hl]) hF hd (mergeSeq_iff hn _)
    (by rw [coo_items_flat nthreads (cooSumOps_length hl)]; exact cooSumOps_bad hl hj h64 hbad) out

end

end Lacuna
