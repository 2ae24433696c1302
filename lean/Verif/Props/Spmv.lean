import Verif.Lemmas.Spmv
import Verif.Props.NdShape
import Verif.Props.Convert
import Verif.Props.Prune
/-
C30, C31, C33 (vecdot), C45: matrix-vector products and the splitter of lines into ranges.
-/
namespace Lacuna
universe u
variable {V : Type u}

/-! ### C45: work ranges -/

/-- C45: the ranges are non-empty, inside the matrix, increasing and disjoint. -/
theorem ranges_increasing (target : Nat) (ht : 0 < target) (w : Nat → Nat) (n : Nat) :
    (∀ r ∈ rangeScan target 0 0 0 ((List.range n).map w), r.1 < r.2 ∧ r.2 ≤ n) ∧
    (rangeScan target 0 0 0 ((List.range n).map w)).Pairwise (fun p q => p.2 ≤ q.1) := by
  have := rangeScan_out w target ht n 0 0 0 ⟨by simp, by simp, by simp⟩
  rw [← List.range_eq_range'] at this
  refine ⟨fun r hr => ?_, this.disjoint⟩
  have := this.bounds r hr
  omega

/-- C45: a line outside all ranges has no entries. -/
theorem ranges_cover (target : Nat) (w : Nat → Nat) (n i : Nat) (hi : i < n)
    (h : ∀ r ∈ rangeScan target 0 0 0 ((List.range n).map w), ¬(r.1 ≤ i ∧ i < r.2)) : w i = 0 := by
  by_contra hne
  have := rangeScan_flatMap w target (fun i => if w i = 0 then [] else [i]) (fun i h => if_pos h) n 0 0 0 (by simp)
  rw [← List.range_eq_range'] at this
  have hm : i ∈ (List.range n).flatMap (fun i => if w i = 0 then [] else [i]) :=
    List.mem_flatMap.2 ⟨i, List.mem_range.2 hi, by simp [hne]⟩
  simp only [if_true, List.nil_append] at this
  rw [← this] at hm
  obtain ⟨r, hr, hm⟩ := List.mem_flatMap.1 hm
  obtain ⟨i', hi', hm⟩ := List.mem_flatMap.1 hm
  have : i = i' := by
    by_cases h0 : w i' = 0
    · simp [h0] at hm
    · simpa [h0] using hm
  subst this
  refine h r hr ?_
  unfold rangeLines at hi'
  rw [List.mem_range'_1] at hi'
  omega

/-- C45: every range but the last carries at least `target` entries, the last one at least
one, and no range keeps growing after reaching `target`. -/
theorem ranges_balanced (target : Nat) (ht : 0 < target) (w : Nat → Nat) (n : Nat) :
    let R := rangeScan target 0 0 0 ((List.range n).map w)
    (∀ r ∈ R.dropLast, target ≤ ((List.range' r.1 (r.2 - r.1)).map w).sum) ∧
    (∀ r ∈ R, 0 < ((List.range' r.1 (r.2 - r.1)).map w).sum) ∧
    (∀ r ∈ R, ((List.range' r.1 (r.2 - 1 - r.1)).map w).sum < target) := by
  have := rangeScan_out w target ht n 0 0 0 ⟨by simp, by simp, by simp⟩
  rw [← List.range_eq_range'] at this
  exact ⟨this.heavy, this.nonempty, this.light⟩

/-- C45: processing the ranges one after the other processes every line with entries exactly
once and in order. -/
theorem ranges_visit {β : Type u} (target : Nat) (w : Nat → Nat) (n : Nat) (f : Nat → List β)
    (hf : ∀ i, w i = 0 → f i = []) :
    (rangeScan target 0 0 0 ((List.range n).map w)).flatMap
      (fun r => (List.range' r.1 (r.2 - r.1)).flatMap f) = (List.range n).flatMap f := by
  rw [List.range_eq_range']
  have := rangeScan_flatMap w target f hf n 0 0 0 (by simp)
  simpa [rangeLines] using this

/-- Witness: leading, inner and trailing empty lines; target 3. -/
example : rangeScan 3 0 0 0 [0, 0, 2, 0, 2, 5, 0, 1, 1, 0] = [(2, 5), (5, 6), (7, 10)] := by decide
example : rangeScan 3 0 0 0 [3, 0, 0] = [(0, 1)] := by decide

/-! ### C30: CSR -/

theorem ranges_nodup (target : Nat) (ht : 0 < target) (w : Nat → Nat) (n : Nat) :
    ((rangeScan target 0 0 0 ((List.range n).map w)).flatMap rangeLines).Nodup := by
  obtain ⟨_, h2⟩ := ranges_increasing target ht w n
  revert h2
  generalize rangeScan target 0 0 0 ((List.range n).map w) = R
  intro h2
  rw [List.nodup_flatMap]
  refine ⟨fun r _ => List.nodup_range', h2.imp ?_⟩
  intro p q hpq
  show List.Disjoint _ _
  intro i hi hj
  unfold rangeLines at hi hj
  rw [List.mem_range'_1] at hi hj
  omega

/-- The result of any run of `spmv_f64_i64` on an in-bounds matrix (columns may be unsorted
or repeated): row by row the left-to-right fused accumulation from 0. -/
theorem spmvCsr_run_iff [Zero V] [HasFma V] {a : Csr V} (ha : a.WFU) (x y : List V) :
    SpmvCsrRun a x y ↔ x.length = a.ncols ∧
      y = (List.range a.nrows).map fun i => lineDot x (a.comp.row i) := by
  unfold SpmvCsrRun
  refine and_congr_right (fun hx => ?_)
  have hrow : ∀ i, i < a.nrows → spmvRow a.comp x i = some (lineDot x (a.comp.row i)) :=
    fun i hi => spmvRow_eq ha hx hi
  split
  · rw [mapM_option_map (g := fun i => lineDot x (a.comp.row i)) (fun i hi => hrow i (List.mem_range.1 hi))]
    constructor
    · intro h; exact (Option.some.inj h).symm
    · rintro rfl; rfl
  · obtain ⟨h1, _⟩ := ranges_increasing (128 * 1024) (by decide)
      (fun i => a.comp.ptr (i + 1) - a.comp.ptr i) a.nrows
    have hmem : ∀ i ∈ (lineRanges a.comp).flatMap rangeLines, i < a.nrows := by
      intro i hi
      obtain ⟨r, hr, hi⟩ := List.mem_flatMap.1 hi
      unfold rangeLines at hi
      rw [List.mem_range'_1] at hi
      have := (h1 r hr).2
      omega
    have hmap := mapM_option_map (f := fun i => (spmvRow a.comp x i).map fun v => (i, v))
      (g := fun i => (i, lineDot x (a.comp.row i))) (l := (lineRanges a.comp).flatMap rangeLines)
      (fun i hi => by rw [hrow i (hmem i hi)]; rfl)
    rw [hmap]
    have key : ∀ sched : List (Nat × V), sched.Perm (((lineRanges a.comp).flatMap rangeLines).map
        fun i => (i, lineDot x (a.comp.row i))) →
        applyWrites (List.replicate a.nrows 0) sched =
          (List.range a.nrows).map fun i => lineDot x (a.comp.row i) := by
      intro sched hp
      apply applyWrites_agree
      · simp
      · intro w hw
        obtain ⟨i, hi, rfl⟩ := List.mem_map.1 (hp.subset hw)
        simp [hmem i hi]
      · intro p hpw
        by_cases hpn : p < a.nrows
        · have hz : a.comp.row p = [] := by
            apply Comp.row_nil_of_len
            refine ranges_cover (128 * 1024) (fun i => a.comp.ptr (i + 1) - a.comp.ptr i) a.nrows p hpn ?_
            intro r hr hin
            refine hpw (p, lineDot x (a.comp.row p)) (hp.symm.subset (List.mem_map.2 ⟨p, ?_, rfl⟩)) rfl
            refine List.mem_flatMap.2 ⟨r, hr, ?_⟩
            unfold rangeLines
            rw [List.mem_range'_1]; omega
          simp [hpn, hz, lineDot]
        · simp [hpn]
    constructor
    · rintro ⟨writes, sched, hw, hp, rfl⟩
      obtain rfl := Option.some.inj hw
      exact key sched hp
    · rintro rfl
      exact ⟨_, _, rfl, List.Perm.refl _, (key _ (List.Perm.refl _)).symm⟩

/-- C30 (law-free, hence also for IEEE arithmetic): every run returns, for each row, the
left-to-right fused accumulation over the stored entries, and there is such a run. -/
theorem spmv_csr_exact [Zero V] [HasFma V] {a : Csr V} (ha : a.WFU) (x : List V) (hx : x.length = a.ncols) :
    (∃ y, SpmvCsrRun a x y) ∧ ∀ y, SpmvCsrRun a x y →
      y.length = a.nrows ∧ ∀ i, i < a.nrows →
        y.getD i 0 = (a.comp.row i).foldl (fun acc e => mulAdd e.2 (x.getD e.1.toNat 0) acc) 0 := by
  refine ⟨⟨_, (spmvCsr_run_iff ha x _).2 ⟨hx, rfl⟩⟩, fun y hy => ?_⟩
  obtain ⟨_, rfl⟩ := (spmvCsr_run_iff ha x y).1 hy
  exact ⟨by simp, fun i hi => by simp [hi, lineDot]⟩

/-- C30: in exact arithmetic row `i` of the result is `Σ_j a(i,j) x(j)`. -/
theorem spmv_csr_correct [Semiring V] [HasFma V] [IdealFma V] {a : Csr V} (ha : a.WFU) (x y : List V)
    (hy : SpmvCsrRun a x y) :
    y.length = a.nrows ∧ ∀ i, i < a.nrows →
      y.getD i 0 = ((List.range a.ncols).map fun j => a.val i j * x.getD j 0).sum := by
  obtain ⟨hx, rfl⟩ := (spmvCsr_run_iff ha x y).1 hy
  refine ⟨by simp, fun i hi => ?_⟩
  rw [show ((List.range a.nrows).map fun i => lineDot x (a.comp.row i)).getD i 0 = lineDot x (a.comp.row i) by
    simp [hi], lineDot_eq]
  exact sum_line_dot (ha.row_bounds i) (fun j => x.getD j 0)

/-- C30: a vector of the wrong length is rejected. -/
theorem spmv_csr_rejects [Zero V] [HasFma V] (a : Csr V) (x y : List V) (hx : x.length ≠ a.ncols) :
    ¬ SpmvCsrRun a x y := fun h => hx h.1

/-! ### C31: CSC, COO, N-D -/

/-- The totals a scatter product leaves in slot `i`. -/
theorem spmvCsc_run_iff [Semiring V] (nthreads : Nat) {a : Csc V} (ha : a.WFU) (hn : a.nrows ≤ usizeMax)
    (x y : List V) :
    SpmvCscRun nthreads a x y ↔ x.length = a.ncols ∧
      y = ksums a.nrows ((List.range a.ncols).flatMap (lineOps a.comp x)) := by
  unfold SpmvCscRun
  refine and_congr_right (fun hx => ?_)
  have hlt : ∀ o ∈ (List.range a.ncols).flatMap (lineOps a.comp x), o.1 < a.nrows := by
    intro o ho
    obtain ⟨j, _, ho⟩ := List.mem_flatMap.1 ho
    exact lineOps_lt ha x j o ho
  have hflat : ((lineRanges a.comp).map fun r => (rangeLines r).flatMap (lineOps a.comp x)).flatten =
      (List.range a.ncols).flatMap (lineOps a.comp x) := by
    rw [← List.flatMap_def]
    exact range_flatMap_ranges (lineOps a.comp x) (fun i h => by
      unfold lineOps; rw [Comp.row_nil_of_len h]; rfl)
  split
  · rw [addAll?_eq _ _ (by simpa using hlt), addAll_zero]
    constructor
    · intro h; exact (Option.some.inj h).symm
    · rintro rfl; rfl
  · have key : ∀ groups, Division ((lineRanges a.comp).map fun r => (rangeLines r).flatMap (lineOps a.comp x)) groups →
        accumChoose nthreads a.nrows a.data.length (groups.map List.flatten) =
          some (ksums a.nrows ((List.range a.ncols).flatMap (lineOps a.comp x))) := by
      intro groups hd
      rw [accumChoose_eq _ _ _ hn _ (division_mem hd (by rw [hflat]; exact hlt)), accum_division hd, hflat]
    constructor
    · rintro ⟨groups, hd, h⟩
      rw [key groups hd] at h
      exact (Option.some.inj h).symm
    · rintro rfl
      exact ⟨_, division_single _, key _ (division_single _)⟩

/-- C31: for every number of threads, accumulation scheme, division of the work and merge
order, the CSC product is `Σ_j a(i,j) x(j)` (rows may be unsorted or repeated). -/
theorem spmv_csc_correct [Semiring V] (nthreads : Nat) {a : Csc V} (ha : a.WFU) (hn : a.nrows ≤ usizeMax)
    (x : List V) (hx : x.length = a.ncols) :
    (∃ y, SpmvCscRun nthreads a x y) ∧ ∀ y, SpmvCscRun nthreads a x y →
      y.length = a.nrows ∧ ∀ i, i < a.nrows →
        y.getD i 0 = ((List.range a.ncols).map fun j => a.val i j * x.getD j 0).sum := by
  refine ⟨⟨_, (spmvCsc_run_iff nthreads ha hn x _).2 ⟨hx, rfl⟩⟩, fun y hy => ?_⟩
  obtain ⟨_, rfl⟩ := (spmvCsc_run_iff nthreads ha hn x y).1 hy
  refine ⟨ksums_length _ _, fun i hi => ?_⟩
  rw [ksums_getD _ _ _ hi, ksum_flatMap]
  congr 1
  exact List.map_congr_left (fun j _ => ksum_lineOps ha x j i)

/-- The operations of a COO product. -/
theorem cooOps_eq [Zero V] [Mul V] {a : Coo V} (ha : a.WF) (hi : a.I64) {x : List V} (hx : x.length = a.ncols) :
    cooOps a x = some (a.triples.map fun t => (t.1.1.toNat, t.2 * x.getD t.1.2.toNat 0)) := by
  unfold cooOps
  apply mapM_option_map
  intro t ht
  have hb := ha.triple_bounds t ht
  have h64 := hi.triple t ht
  rw [i64ToUsize_of_nonneg hb.1.1 h64.1, i64ToUsize_of_nonneg hb.2.1 h64.2, List.getD_eq_getElem?_getD,
    List.getElem?_eq_getElem (by omega : t.1.2.toNat < x.length)]
  rfl

theorem filter_map_triples {β : Type*} [Mul V] (l : List ((Int × Int) × V)) (i : Nat)
    (hb : ∀ t ∈ l, 0 ≤ t.1.1) (g : (Int × Int) × V → β) :
    ((l.map fun t => (t.1.1.toNat, g t)).filter fun o => o.1 == i).map Prod.snd =
      (l.filter fun t => t.1.1 == (i : Int)).map g := by
  induction l with
  | nil => rfl
  | cons t l ih =>
    have h0 := hb t (by simp)
    have ih' := ih (fun t' ht' => hb t' (by simp [ht']))
    by_cases h : t.1.1 = (i : Int)
    · have h2 : t.1.1.toNat = i := by omega
      rw [List.map_cons, List.filter_cons_of_pos (by simpa using h2), List.filter_cons_of_pos (by simpa using h),
        List.map_cons, List.map_cons, ih']
    · have h2 : ¬ t.1.1.toNat = i := by omega
      rw [List.map_cons, List.filter_cons_of_neg (by simpa using h2), List.filter_cons_of_neg (by simpa using h), ih']

/-- Row `i` of a COO matrix against a vector. -/
theorem ksum_cooOps [Semiring V] {a : Coo V} (ha : a.WF) (f : Nat → V) (i : Nat) :
    ksum (a.triples.map fun t => (t.1.1.toNat, t.2 * f t.1.2.toNat)) i =
      ((List.range a.ncols).map fun j => a.val i j * f j).sum := by
  unfold ksum
  rw [filter_map_triples _ _ (fun t ht => (ha.triple_bounds t ht).1.1)]
  have := sum_line_dot (m := a.ncols)
    (row := (a.triples.filter fun t => t.1.1 == (i : Int)).map fun t => (t.1.2, t.2)) (by
      intro e he
      obtain ⟨t, ht, rfl⟩ := List.mem_map.1 he
      exact (ha.triple_bounds t (List.mem_filter.1 ht).1).2) f
  rw [List.map_map] at this
  refine Eq.trans this ?_
  congr 1
  apply List.map_congr_left
  intro j _
  congr 1
  unfold Coo.val
  rw [List.filter_map, List.map_map, List.filter_filter]
  congr 2
  apply List.filter_congr
  intro t _
  rw [Bool.and_comm]; rfl

theorem spmvCoo_run_iff [Semiring V] (nthreads : Nat) {a : Coo V} (ha : a.WF) (hi : a.I64)
    (hn : a.nrows ≤ usizeMax) (x y : List V) :
    SpmvCooRun nthreads a x y ↔ x.length = a.ncols ∧
      y = ksums a.nrows (a.triples.map fun t => (t.1.1.toNat, t.2 * x.getD t.1.2.toNat 0)) := by
  unfold SpmvCooRun
  refine and_congr_right (fun hx => ?_)
  rw [cooOps_eq ha hi hx]
  generalize hops : (a.triples.map fun t => (t.1.1.toNat, t.2 * x.getD t.1.2.toNat 0)) = ops
  have hlt : ∀ o ∈ ops, o.1 < a.nrows := by
    intro o ho
    rw [← hops] at ho
    obtain ⟨t, ht, rfl⟩ := List.mem_map.1 ho
    have := (ha.triple_bounds t ht).1
    show t.1.1.toNat < a.nrows
    omega
  have hflat := chunksOf_flatten (cooChunk_pos nthreads a.data.length) ops
  have key : ∀ groups, Division (chunksOf (cooChunk nthreads a.data.length) ops) groups →
      accumChoose nthreads a.nrows a.data.length (groups.map List.flatten) = some (ksums a.nrows ops) := by
    intro groups hd
    rw [accumChoose_eq _ _ _ hn _ (division_mem hd (by rw [hflat]; exact hlt)), accum_division hd, hflat]
  constructor
  · rintro ⟨ops', ho, h⟩
    obtain rfl := Option.some.inj ho
    split at h
    · rw [addAll?_eq _ _ (by simpa using hlt), addAll_zero] at h
      exact (Option.some.inj h).symm
    · obtain ⟨groups, hd, h⟩ := h
      rw [key groups hd] at h
      exact (Option.some.inj h).symm
  · rintro rfl
    refine ⟨ops, rfl, ?_⟩
    split
    · rw [addAll?_eq _ _ (by simpa using hlt), addAll_zero]
    · exact ⟨_, division_single _, key _ (division_single _)⟩

/-- C31: the COO product is `Σ_j a(i,j) x(j)`; repeated coordinates add up. -/
theorem spmv_coo_correct [Semiring V] (nthreads : Nat) {a : Coo V} (ha : a.WF) (hi : a.I64)
    (hn : a.nrows ≤ usizeMax) (x : List V) (hx : x.length = a.ncols) :
    (∃ y, SpmvCooRun nthreads a x y) ∧ ∀ y, SpmvCooRun nthreads a x y →
      y.length = a.nrows ∧ ∀ i, i < a.nrows →
        y.getD i 0 = ((List.range a.ncols).map fun j => a.val i j * x.getD j 0).sum := by
  refine ⟨⟨_, (spmvCoo_run_iff nthreads ha hi hn x _).2 ⟨hx, rfl⟩⟩, fun y hy => ?_⟩
  obtain ⟨_, rfl⟩ := (spmvCoo_run_iff nthreads ha hi hn x y).1 hy
  refine ⟨ksums_length _ _, fun i hi' => ?_⟩
  rw [ksums_getD _ _ _ hi']
  exact ksum_cooOps ha (fun j => x.getD j 0) i

/-- The kept contributions of the N-D product. -/
def ndMulEntries [Zero V] [Mul V] [BEq V] (a : CooNd V) (axis : Nat) (x : List V) : List (List Int × V) :=
  (a.entries.map fun e => (select (restAxes a.shape.length [axis]) e.1,
    e.2 * x.getD (e.1.getD axis 0).toNat 0)).filter fun o => !(o.2 == 0)

theorem ndMulOps_eq [Zero V] [Mul V] [BEq V] {a : CooNd V} (ha : a.WF) (hai : a.I64) {axis : Nat}
    (hax : axis < a.shape.length) {x : List V} (hx : x.length = a.shape.getD axis 0)
    (hno : NoOverflow ((restAxes a.shape.length [axis]).map fun d => a.shape.getD d 0)) :
    ndMulOps a ((restAxes a.shape.length [axis]).zip
        (sufProds ((restAxes a.shape.length [axis]).map fun d => a.shape.getD d 0))) axis x =
      some ((ndMulEntries a axis x).map fun e =>
        (rowMajor ((restAxes a.shape.length [axis]).map fun d => a.shape.getD d 0) e.1, e.2)) := by
  have hrlt : ∀ d ∈ restAxes a.shape.length [axis], d < a.shape.length := by
    intro d hd
    have := (List.mem_filter.1 hd).1
    simpa using this
  unfold ndMulOps
  rw [mapM_option_map (g := fun e => (rowMajor ((restAxes a.shape.length [axis]).map fun d => a.shape.getD d 0)
      (select (restAxes a.shape.length [axis]) (a.coords e.2)),
      e.1 * x.getD ((a.coords e.2).getD axis 0).toNat 0)) (by
    rintro ⟨v, k⟩ he
    have hk := (CooNd.entries_mem_idx he).1
    have hlin : linAxes a.indices (k * a.shape.length) ((restAxes a.shape.length [axis]).zip
        (sufProds ((restAxes a.shape.length [axis]).map fun d => a.shape.getD d 0))) 0 =
        some (rowMajor ((restAxes a.shape.length [axis]).map fun d => a.shape.getD d 0)
          (select (restAxes a.shape.length [axis]) (a.coords k))) := by
      have hm : select (restAxes a.shape.length [axis]) (a.coords k) =
          (restAxes a.shape.length [axis]).map (a.coord k) :=
        List.map_congr_left fun d hd => a.coords_getD k d (hrlt d hd)
      rw [hm, linAxes_eq (x := (restAxes a.shape.length [axis]).map (a.coord k)) (ha.inBounds_axes hk hrlt) hno (by
          rw [List.map_map]
          exact List.map_congr_left fun d hd => ha.getElem? hk (hrlt d hd)) 0 (by
          have := hno _ (List.suffix_refl _); omega) (by
          intro i hi'
          obtain ⟨d, _, rfl⟩ := List.mem_map.1 hi'
          have := hai.coord k d
          unfold i64Max at this; omega)]
      simp
    have hb := ha.bounds k hk axis hax
    have hlt : (a.coord k axis).toNat < x.length := by
      rw [hx, List.getD_eq_getElem _ _ hax]; omega
    simp only
    rw [ha.getElem? hk hax, hlin, a.coords_getD k axis hax]
    simp only [Option.bind_some]
    rw [i64ToUsize_of_nonneg hb.1 (hai.coord k axis), List.getElem?_eq_getElem hlt,
      List.getD_eq_getElem _ _ hlt]
    rfl)]
  rw [Option.map_some]
  congr 1
  unfold ndMulEntries
  rw [CooNd.entries_zipIdx, List.map_map, List.filter_map, List.filter_map, List.map_map]
  rfl

/-- Leaving out zero values does not change a sum. -/
theorem sum_filter_ne_zero {K : Type*} [AddMonoid V] [BEq V] [LawfulBEq V] (L : List (K × V)) (p : K → Bool) :
    (((L.filter fun o => !(o.2 == 0)).filter fun o => p o.1).map Prod.snd).sum =
      ((L.filter fun o => p o.1).map Prod.snd).sum := by
  induction L with
  | nil => rfl
  | cons b L ih =>
    by_cases h0 : b.2 = 0 <;> by_cases hp : p b.1 = true <;> simp_all

/-- Weighted contributions that project to `y`, as a dense sum over the fibre of `y`. -/
theorem sum_select_mul [Semiring V] {a : CooNd V} (ha : a.WF) (axes : List Nat) (f : List Int → V) (y : List Int) :
    (((a.entries.map fun e => (select axes e.1, e.2 * f e.1)).filter fun e => e.1 == y).map Prod.snd).sum =
      (((indicesOf a.shape).filter fun x => select axes x == y).map fun x => a.val x * f x).sum := by
  have := sum_over_keys_filter (indicesOf a.shape) (indicesOf_nodup _)
    (a.entries.map fun e => (e.1, e.2 * f e.1)) (fun e he => by
      obtain ⟨e', he', rfl⟩ := List.mem_map.1 he
      exact mem_indicesOf.2 (ha.entries_inBounds e' he')) (fun x => select axes x == y)
  rw [List.filter_map, List.map_map]
  rw [List.filter_map, List.map_map] at this
  refine Eq.trans this.symm ?_
  congr 1
  apply List.map_congr_left
  intro z _
  unfold CooNd.val
  rw [List.filter_map, List.map_map, ← List.sum_map_mul_right]
  congr 1
  apply List.map_congr_left
  intro e he
  have : e.1 = z := by simpa using (List.mem_filter.1 he).2
  simp only [Function.comp]
  rw [this]

theorem spmvNd_spec [Zero V] [Add V] [Mul V] [BEq V] {sort : List (Nat × V) → List (Nat × V)} (hsort : IsSort sort)
    {a : CooNd V} (ha : a.WF) (hai : a.I64) {axis : Nat} (hax : axis < a.shape.length) {x : List V}
    (hx : x.length = a.shape.getD axis 0) (hrest : 1 < a.shape.length)
    (hno : NoOverflow ((restAxes a.shape.length [axis]).map fun d => a.shape.getD d 0)) :
    ∃ r, spmvNd sort a axis x = some r ∧
      r.shape = (restAxes a.shape.length [axis]).map (fun d => a.shape.getD d 0) ∧
      r.WF ∧ r.I64 ∧ r.Sorted ∧
      ∀ y v, (y, v) ∈ r.entries ↔ total (ndMulEntries a axis x) y = some v := by
  have hrlt : ∀ d ∈ restAxes a.shape.length [axis], d < a.shape.length := by
    intro d hd
    have := (List.mem_filter.1 hd).1
    simpa using this
  have hrne : restAxes a.shape.length [axis] ≠ [] := by
    intro h
    have hm : (if axis = 0 then 1 else 0) ∈ restAxes a.shape.length [axis] := by
      unfold restAxes
      rw [List.mem_filter]
      split <;> simp_all <;> omega
    rw [h] at hm; cases hm
  have hEmem : ∀ e ∈ ndMulEntries a axis x, ∃ e' ∈ a.entries, e.1 = select (restAxes a.shape.length [axis]) e'.1 := by
    intro e he
    obtain ⟨e', he', rfl⟩ := List.mem_map.1 (List.mem_filter.1 he).1
    exact ⟨e', he', rfl⟩
  have hEb : ∀ e ∈ ndMulEntries a axis x,
      InBounds ((restAxes a.shape.length [axis]).map fun d => a.shape.getD d 0) e.1 := by
    intro e he
    obtain ⟨e', he', h⟩ := hEmem e he
    rw [h]
    exact select_inBounds ha hrlt e' he'
  have hEi : ∀ e ∈ ndMulEntries a axis x, ∀ i ∈ e.1, i ≤ i64Max := by
    intro e he
    obtain ⟨e', he', h⟩ := hEmem e he
    rw [h]
    exact select_i64 hai _ e' he'
  obtain ⟨m, hm, L, l1, l2, l3, l4⟩ := collect_spec hsort hno hEb a.data.length
  have hLi := i64_of_total hEi l4
  have hshape : (restAxes a.shape.length [axis]).map (fun d => a.shape.getD d 0) ≠ [] := by simpa using hrne
  have hrem : (List.range a.shape.length).filter (fun d => decide (d ≠ axis)) = restAxes a.shape.length [axis] := by
    unfold restAxes
    apply List.filter_congr
    intro d _
    by_cases h : d = axis <;> simp [h]
  have hrun : spmvNd sort a axis x =
      some (CooNd.ofEntries ((restAxes a.shape.length [axis]).map fun d => a.shape.getD d 0) L) := by
    unfold spmvNd
    simp only
    rw [if_neg (by simpa using hax), if_neg (by simpa using hx), hrem, if_neg (by simpa using hrne)]
    split
    · rename_i h0
      have hE0 : a.entries = [] := by rw [← List.length_eq_zero_iff, CooNd.entries_length, h0]
      have hL0 : L = [] := by
        rw [List.eq_nil_iff_forall_not_mem]
        intro e he
        obtain ⟨v', hv'⟩ := exists_of_total ((l4 e.1 e.2).1 he)
        simp [ndMulEntries, hE0] at hv'
      rw [hL0]; rfl
    · rw [stridesPos?_eq hshape hno]
      simp only [Option.bind_some]
      rw [ndMulOps_eq ha hai hax hx hno]
      simp only [Option.bind_some]
      rw [hm]
      simp only [Option.bind_some]
      rw [l1, ndBuild_eq l3 hLi]
  have hent : (CooNd.ofEntries ((restAxes a.shape.length [axis]).map fun d => a.shape.getD d 0) L).entries = L :=
    CooNd.entries_ofEntries _ _ (fun e he => (l3 e he).length)
  refine ⟨_, hrun, rfl, CooNd.wf_of_inBounds hshape l3, CooNd.i64_ofEntries hLi, ?_, ?_⟩
  · unfold CooNd.Sorted; rw [hent]; exact l2
  · intro y v; rw [hent, l4]

/-- C31/C33: the N-D product contracts exactly the requested axis: the value at a remaining
index `y` is the sum of `a(z) x(z[axis])` over all indices `z` that project to `y`. -/
theorem spmv_nd_correct [Semiring V] [BEq V] [LawfulBEq V] {sort : List (Nat × V) → List (Nat × V)}
    (hsort : IsSort sort) {a : CooNd V} (ha : a.WF) (hai : a.I64) {axis : Nat} (hax : axis < a.shape.length)
    {x : List V} (hx : x.length = a.shape.getD axis 0) (hrest : 1 < a.shape.length)
    (hno : NoOverflow ((restAxes a.shape.length [axis]).map fun d => a.shape.getD d 0)) :
    ∃ r, spmvNd sort a axis x = some r ∧
      r.shape = (restAxes a.shape.length [axis]).map (fun d => a.shape.getD d 0) ∧
      r.WF ∧ r.I64 ∧ r.Sorted ∧
      ∀ y, r.val y =
        (((indicesOf a.shape).filter fun z => select (restAxes a.shape.length [axis]) z == y).map
          fun z => a.val z * x.getD (z.getD axis 0).toNat 0).sum := by
  obtain ⟨r, h1, h2, h3, h4, h5, h6⟩ := spmvNd_spec hsort ha hai hax hx hrest hno
  refine ⟨r, h1, h2, h3, h4, h5, fun y => ?_⟩
  rw [mem_entries_nodup_val h5 (h6 y), total_getD]
  unfold ndMulEntries
  rw [sum_filter_ne_zero _ (fun k => k == y),
    sum_select_mul ha _ (fun z => x.getD (z.getD axis 0).toNat 0) y]

/-- C31: wrong axis, wrong vector length, or contracting the only axis is rejected. -/
theorem spmv_nd_rejects [Zero V] [Add V] [Mul V] [BEq V] (sort : List (Nat × V) → List (Nat × V))
    (a : CooNd V) (axis : Nat) (x : List V)
    (h : ¬ axis < a.shape.length ∨ x.length ≠ a.shape.getD axis 0 ∨ a.shape.length ≤ 1) :
    spmvNd sort a axis x = none := by
  unfold spmvNd
  simp only
  by_cases h1 : axis < a.shape.length
  · rw [if_neg (by simpa using h1)]
    by_cases h2 : x.length ≠ a.shape.getD axis 0
    · rw [if_pos h2]
    · rw [if_neg h2]
      have h3 : a.shape.length ≤ 1 := by
        rcases h with h | h | h
        · exact absurd h1 h
        · exact absurd h h2
        · exact h
      have h4 : a.shape.length = 1 := by omega
      have h5 : axis = 0 := by omega
      subst h5
      rw [h4]
      rfl
  · rw [if_pos h1]

/-! ### C33: vecdot -/

/-- C33: contracting the rows of a CSR matrix, for every division of the work:
`y(j) = Σ_i a(i,j) x(i)`. -/
theorem vecdot_csr_correct [Semiring V] [BEq V] [LawfulBEq V] {a : Csr V} (ha : a.WFU) (x : List V)
    (hx : x.length = a.nrows) :
    (∃ y, VecdotCsrRun a x y) ∧ ∀ y, VecdotCsrRun a x y →
      y.length = a.ncols ∧ ∀ j, j < a.ncols →
        y.getD j 0 = ((List.range a.nrows).map fun i => a.val i j * x.getD i 0).sum := by
  unfold VecdotCsrRun
  by_cases hc : a.ncols = 0
  · simp only [hc, if_true]
    exact ⟨⟨[], hx, rfl⟩, fun y hy => by rw [hy.2]; simp⟩
  simp only [hc, if_false]
  generalize hf : (fun i => if !(x.getD i 0 == 0) then lineOps a.comp x i else []) = f
  have hfl : ∀ l : List Nat, (l.filter fun i => !(x.getD i 0 == 0)).flatMap (lineOps a.comp x) = l.flatMap f := by
    intro l
    rw [← hf]
    induction l with
    | nil => rfl
    | cons i l ih =>
      rw [List.filter_cons, List.flatMap_cons]
      split
      · rw [List.flatMap_cons, ih]
      · rw [ih]; rfl
  simp only [hfl]
  have hflat : ((lineRanges a.comp).map fun r => (rangeLines r).flatMap f).flatten =
      (List.range a.nrows).flatMap f := by
    rw [← List.flatMap_def]
    exact range_flatMap_ranges f (fun i h => by
      rw [← hf]
      simp only
      unfold lineOps; rw [Comp.row_nil_of_len h]; simp)
  have hlt : ∀ o ∈ (List.range a.nrows).flatMap f, o.1 < a.ncols := by
    intro o ho
    obtain ⟨i, _, ho⟩ := List.mem_flatMap.1 ho
    rw [← hf] at ho
    simp only at ho
    split at ho
    · exact lineOps_lt ha x i o ho
    · cases ho
  have key : ∀ groups, Division ((lineRanges a.comp).map fun r => (rangeLines r).flatMap f) groups →
      accumStripe a.ncols stripeLen (groups.map List.flatten) =
        some (ksums a.ncols ((List.range a.nrows).flatMap f)) := by
    intro groups hd
    rw [accumStripe_eq _ _ (division_mem hd (by rw [hflat]; exact hlt)) _ (by decide), accum_division hd, hflat]
  refine ⟨⟨_, hx, _, division_single _, key _ (division_single _)⟩, ?_⟩
  rintro y ⟨_, groups, hd, hy⟩
  rw [key groups hd] at hy
  obtain rfl := Option.some.inj hy
  refine ⟨ksums_length _ _, fun j hj => ?_⟩
  rw [ksums_getD _ _ _ hj, ksum_flatMap]
  congr 1
  apply List.map_congr_left
  intro i _
  rw [← hf]
  simp only
  split
  · exact ksum_lineOps ha x i j
  · rename_i h
    have : x.getD i 0 = 0 := by simpa using h
    rw [this, mul_zero]; rfl

/-- C33: contracting the rows of a CSC matrix (law-free part): every column is accumulated
left to right with fused multiply-adds. -/
theorem vecdot_csc_exact [Zero V] [HasFma V] {a : Csc V} (ha : a.WFU) (x : List V) :
    vecdotCsc a x = if x.length = a.nrows then
      some ((List.range a.ncols).map fun j =>
        (a.comp.row j).foldl (fun acc e => mulAdd e.2 (x.getD e.1.toNat 0) acc) 0) else none := by
  unfold vecdotCsc
  by_cases hx : x.length = a.nrows
  · rw [if_neg (by simpa using hx), if_pos hx]
    exact mapM_option_map (fun j _ => gather_dot (by rw [hx]; exact ha.row_bounds j) (ha.row_i64 j))
  · rw [if_pos hx, if_neg hx]

/-- C33: `y(j) = Σ_i a(i,j) x(i)` for CSC. -/
theorem vecdot_csc_correct [Semiring V] [HasFma V] [IdealFma V] {a : Csc V} (ha : a.WFU) (x : List V)
    (hx : x.length = a.nrows) :
    ∃ y, vecdotCsc a x = some y ∧ y.length = a.ncols ∧ ∀ j, j < a.ncols →
      y.getD j 0 = ((List.range a.nrows).map fun i => a.val i j * x.getD i 0).sum := by
  rw [vecdot_csc_exact ha, if_pos hx]
  refine ⟨_, rfl, by simp, fun j hj => ?_⟩
  have h := lineDot_eq x (a.comp.row j)
  unfold lineDot at h
  rw [show ((List.range a.ncols).map fun j =>
        (a.comp.row j).foldl (fun acc e => mulAdd e.2 (x.getD e.1.toNat 0) acc) 0).getD j 0 =
      (a.comp.row j).foldl (fun acc e => mulAdd e.2 (x.getD e.1.toNat 0) acc) 0 by simp [hj], h]
  exact sum_line_dot (ha.row_bounds j) (fun i => x.getD i 0)

/-- C33: `y(j) = Σ_i a(i,j) x(i)` for COO, for every division of the entries. -/
theorem vecdot_coo_correct [Semiring V] [BEq V] [LawfulBEq V] (nthreads : Nat) {a : Coo V} (ha : a.WF)
    (hi : a.I64) (hn : a.ncols ≤ usizeMax) (x : List V) (hx : x.length = a.nrows) :
    (∃ y, VecdotCooRun nthreads a x y) ∧ ∀ y, VecdotCooRun nthreads a x y →
      y.length = a.ncols ∧ ∀ j, j < a.ncols →
        y.getD j 0 = ((List.range a.nrows).map fun i => a.val i j * x.getD i 0).sum := by
  have htot : ∀ j, ksum (a.triples.map fun t => (t.1.2.toNat, t.2 * x.getD t.1.1.toNat 0)) j =
      ((List.range a.nrows).map fun i => a.val i j * x.getD i 0).sum := by
    intro j
    have := ksum_cooOps ha.tr (fun i => x.getD i 0) j
    rw [Coo.tr_triples, List.map_map] at this
    refine Eq.trans this ?_
    congr 1
    apply List.map_congr_left
    intro i _
    rw [Coo.tr_val]
  unfold VecdotCooRun
  by_cases hc : a.ncols = 0 ∨ a.data.length = 0
  · simp only [hc, if_true]
    refine ⟨⟨_, hx, rfl⟩, ?_⟩
    rintro y ⟨_, rfl⟩
    refine ⟨by simp, fun j hj => ?_⟩
    have h0 : a.triples = [] := by
      rw [← List.length_eq_zero_iff, ha.triples_length]; omega
    rw [← htot j, h0, replicate_getD_zero]; rfl
  simp only [hc, if_false]
  have hops : cooVecOps a x = some (a.triples.map fun t =>
      if !(x.getD t.1.1.toNat 0 == 0) then [(t.1.2.toNat, t.2 * x.getD t.1.1.toNat 0)] else []) := by
    unfold cooVecOps
    apply mapM_option_map
    intro t ht
    have hb := ha.triple_bounds t ht
    have h64 := hi.triple t ht
    rw [i64ToUsize_of_nonneg hb.1.1 h64.1, i64ToUsize_of_nonneg hb.2.1 h64.2, List.getD_eq_getElem?_getD,
      List.getElem?_eq_getElem (by omega : t.1.1.toNat < x.length)]
    rfl
  rw [hops]
  generalize hop : (a.triples.map fun t =>
      if !(x.getD t.1.1.toNat 0 == 0) then [(t.1.2.toNat, t.2 * x.getD t.1.1.toNat 0)] else []) = ops
  have hlt : ∀ o ∈ ops.flatten, o.1 < a.ncols := by
    intro o ho
    obtain ⟨l, hl, ho⟩ := List.mem_flatten.1 ho
    rw [← hop] at hl
    obtain ⟨t, ht, rfl⟩ := List.mem_map.1 hl
    split at ho
    · rw [List.mem_singleton] at ho
      subst ho
      have := (ha.triple_bounds t ht).2
      show t.1.2.toNat < a.ncols
      omega
    · cases ho
  have hsum : ∀ j, ksum ops.flatten j = ksum (a.triples.map fun t => (t.1.2.toNat, t.2 * x.getD t.1.1.toNat 0)) j := by
    intro j
    rw [← hop, ← List.flatMap_def]
    induction a.triples with
    | nil => rfl
    | cons t l ih =>
      rw [List.flatMap_cons, ksum_append, ih, List.map_cons, ksum_cons]
      congr 1
      split
      · rw [ksum_cons, ksum_nil, add_zero]
      · rename_i h
        have : x.getD t.1.1.toNat 0 = 0 := by simpa using h
        rw [this, mul_zero, ksum_nil]
        split <;> rfl
  have hflat : ((chunksOf (cooChunk nthreads a.data.length) ops).map List.flatten).flatten = ops.flatten := by
    rw [← List.flatten_flatten, chunksOf_flatten (cooChunk_pos _ _)]
  have key : ∀ groups, Division ((chunksOf (cooChunk nthreads a.data.length) ops).map List.flatten) groups →
      accumHash a.ncols 1024 (groups.map List.flatten) = some (ksums a.ncols ops.flatten) := by
    intro groups hd
    rw [accumHash_eq _ _ (division_mem hd (by rw [hflat]; exact hlt)) _ hn, accum_division hd, hflat]
  refine ⟨⟨_, hx, _, rfl, _, division_single _, key _ (division_single _)⟩, ?_⟩
  rintro y ⟨_, ops', ho, groups, hd, hy⟩
  obtain rfl := Option.some.inj ho
  rw [key groups hd] at hy
  obtain rfl := Option.some.inj hy
  refine ⟨ksums_length _ _, fun j hj => ?_⟩
  rw [ksums_getD _ _ _ hj, hsum, htot]

/-! ### Agreement of the formats, witnesses, findings -/

/-- C31: matrices with the same dense content give the same product in every format. -/
theorem spmv_formats_agree [Semiring V] [HasFma V] [IdealFma V] (n1 n2 : Nat) {a : Csr V} {b : Csc V} {c : Coo V}
    (ha : a.WFU) (hb : b.WFU) (hc : c.WF) (hci : c.I64) (hn : a.nrows ≤ usizeMax)
    (hbs : b.nrows = a.nrows ∧ b.ncols = a.ncols) (hcs : c.nrows = a.nrows ∧ c.ncols = a.ncols)
    (hbv : ∀ i j, i < a.nrows → j < a.ncols → b.val i j = a.val i j)
    (hcv : ∀ i j, i < a.nrows → j < a.ncols → c.val i j = a.val i j)
    (x y z w : List V) (hy : SpmvCsrRun a x y) (hz : SpmvCscRun n1 b x z) (hw : SpmvCooRun n2 c x w) :
    y = z ∧ z = w := by
  obtain ⟨y1, y2⟩ := spmv_csr_correct ha x y hy
  obtain ⟨z1, z2⟩ := (spmv_csc_correct n1 hb (by omega) x hz.1).2 z hz
  obtain ⟨w1, w2⟩ := (spmv_coo_correct n2 hc hci (by omega) x hw.1).2 w hw
  rw [hbs.1] at z1
  rw [hcs.1] at w1
  have e1 : y = z := by
    refine ext_getD (n := a.nrows) y1 z1 (fun i hi => ?_)
    rw [y2 i hi, z2 i (by omega), hbs.2]
    congr 1
    exact List.map_congr_left (fun j hj => by rw [hbv i j hi (List.mem_range.1 hj)])
  refine ⟨e1, ?_⟩
  rw [← e1]
  refine ext_getD (n := a.nrows) y1 w1 (fun i hi => ?_)
  rw [y2 i hi, w2 i (by omega), hcs.2]
  congr 1
  exact List.map_congr_left (fun j hj => by rw [hcv i j hi (List.mem_range.1 hj)])

section Witnesses

/-- Exact `mul_add` on the integers. -/
@[reducible] def intFma : HasFma Int := ⟨fun a b c => a * b + c⟩
attribute [local instance] intFma
theorem intIdealFma : IdealFma Int := ⟨fun _ _ _ => rfl⟩

theorem exA_wfu : exA.WFU := Comp.WF.wfu exA_wf
theorem exC_wfu : exC.WFU := Comp.WF.wfu exC_wf

/-- Witness for C30/C31/C33: `exA = [[5,0,6],[0,7,0]]`, `exC` its transpose,
`exDup` with the coordinate (0,1) stored twice. -/
example : SpmvCsrRun exA [1, 2, 3] [23, 14] := by
  refine ⟨rfl, ?_⟩
  rw [if_pos (by decide)]
  decide
example : SpmvCscRun 4 exC [2, 3] [10, 21, 12] := by
  refine ⟨rfl, ?_⟩
  rw [if_pos (by decide)]
  decide
example : SpmvCooRun 4 exDup [10, 1] [9, 0, 70] := by
  refine ⟨rfl, _, rfl, ?_⟩
  rw [if_pos (by decide)]
  decide
example : vecdotCsc exC [1, 2, 3] = some [23, 14] := by decide

/-- 21 entries run through all unrolling phases (16, 4, 1). -/
example : dotUnrolled ((List.range 21).map fun i => ((i : Int), 1)) = 210 := by decide

/-- Witness: every accumulation scheme on two threads with a repeated slot, a stripe length
that does not divide the output length, sparse and dense merge. -/
example : accumPlain 5 [[(0, 1), (4, 2)], [(4, 3), (4, 4), (1, 5)]] = some [(1 : Int), 5, 0, 0, 9] := by decide
example : accumTouch 5 [[(0, 1), (4, 2)], [(4, 3), (4, 4), (1, 5)]] = some [(1 : Int), 5, 0, 0, 9] := by decide
example : accumStripe 5 2 [[(0, 1), (4, 2)], [(4, 3), (4, 4), (1, 5), (3, 1)]] =
    some [(1 : Int), 5, 0, 1, 9] := by decide
example : accumHash 5 4 [[(0, 1), (4, 2)], [(4, 3), (4, 4), (1, 5)]] = some [(1 : Int), 5, 0, 0, 9] := by
  decide +kernel

/-- Witness for the N-D product. -/
example : ∃ r, spmvNd (fun l => l.mergeSort (fun a b => decide (a.1 ≤ b.1))) exN 1 [1, 10, 100] = some r ∧
    r.shape = [2] ∧ r.val [0] = 50 ∧ r.val [1] = 700 := by
  obtain ⟨r, h1, h2, _, _, _, h6⟩ := spmv_nd_correct (V := Int) isSort_mergeSort exN_wf (show ∀ i ∈ exN.indices, i ≤ i64Max by decide)
    (axis := 1) (by decide) (x := [1, 10, 100]) rfl (by decide) (noOverflow_of_pos (by decide) (by decide))
  exact ⟨r, h1, h2, by rw [h6]; decide, by rw [h6]; decide⟩

end Witnesses

/-! A weight of zero does not hide a NaN in the CSC kernel, but it does in the CSR and COO
kernels, which skip such rows. -/

namespace NanInt
instance : Mul NanInt := ⟨fun a b => match a, b with
  | .num x, .num y => .num (x * y)
  | _, _ => .qnan⟩
instance : Add NanInt := ⟨fun a b => match a, b with
  | .num x, .num y => .num (x + y)
  | _, _ => .qnan⟩
instance : AddCommMonoid NanInt where
  add_assoc a b c := by
    cases a <;> cases b <;> cases c <;> first | rfl | exact congrArg num (Int.add_assoc _ _ _)
  zero_add a := by cases a <;> first | rfl | exact congrArg num (Int.zero_add _)
  add_zero a := by cases a <;> first | rfl | exact congrArg num (Int.add_zero _)
  add_comm a b := by cases a <;> cases b <;> first | rfl | exact congrArg num (Int.add_comm _ _)
  nsmul := nsmulRec
@[reducible] def fmaN : HasFma NanInt := ⟨fun a b c => a * b + c⟩
end NanInt

attribute [local instance] NanInt.fmaN in
/-- C33, negative part: on the 1×1 matrix `[NaN]` with weight 0 the CSC kernel returns NaN,
the CSR and the COO kernel return 0. -/
theorem vecdot_nan_differs :
    vecdotCsc ⟨1, 1, [0, 1], [0], [NanInt.qnan]⟩ [0] = some [NanInt.qnan] ∧
    (∀ y, VecdotCsrRun ⟨1, 1, [0, 1], [0], [NanInt.qnan]⟩ [0] y → y = [0]) ∧
    (∀ nthreads y, VecdotCooRun nthreads ⟨1, 1, [0], [0], [NanInt.qnan]⟩ [0] y → y = [0]) := by
  refine ⟨by decide, ?_, ?_⟩
  · rintro y ⟨_, h⟩
    rw [if_neg (by decide)] at h
    obtain ⟨groups, hd, h⟩ := h
    have hitems : ((lineRanges (Csr.comp (⟨1, 1, [0, 1], [0], [NanInt.qnan]⟩ : Csr NanInt))).map fun r =>
        ((rangeLines r).filter fun i => !(([0] : List NanInt).getD i 0 == 0)).flatMap
          (lineOps (Csr.comp (⟨1, 1, [0, 1], [0], [NanInt.qnan]⟩ : Csr NanInt)) [0])).flatten = [] := by decide
    have hd' := division_flatten hd
    rw [hitems] at hd'
    have := accumStripe_eq (V := NanInt) 1 (groups.map List.flatten)
      (division_mem hd (P := fun o => o.1 < 1) (by rw [hitems]; simp)) stripeLen (by decide)
    rw [ksums_perm hd'] at this
    exact (Option.some.inj (this.symm.trans h)).symm
  · rintro nthreads y ⟨_, h⟩
    rw [if_neg (by decide)] at h
    obtain ⟨ops, ho, groups, hd, h⟩ := h
    have hops : ops = [[]] := Option.some.inj (ho.symm.trans (by decide))
    subst hops
    have hitems : ((chunksOf (cooChunk nthreads 1) [[]]).map List.flatten).flatten = ([] : List (Nat × NanInt)) := by
      rw [← List.flatten_flatten, chunksOf_flatten (cooChunk_pos _ _)]; rfl
    have hd' := division_flatten hd
    replace hd' := hd'.trans (List.Perm.of_eq hitems)
    have := accumHash_eq (V := NanInt) 1 (groups.map List.flatten)
      (division_mem hd (P := fun o => o.1 < 1)
        (fun o ho => absurd (hitems ▸ ho : o ∈ ([] : List (Nat × NanInt))) (by simp))) 1024 (by decide)
    rw [ksums_perm hd'] at this
    exact (Option.some.inj (this.symm.trans h)).symm

end Lacuna
