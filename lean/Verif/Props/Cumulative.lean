import Verif.Lemmas.Cumulative
import Verif.Props.Transpose
import Verif.Props.Logic
import Verif.Props.Spmv
import Mathlib.Algebra.BigOperators.Group.List.Basic
/-
C40: cumulative sums and products.
-/
namespace Lacuna
universe u
variable {V : Type u}

/-! ### Along the rows -/

theorem cumsumAxis1_eq [Zero V] [Add V] {a : Csr V} (ha : a.WF) (hm : a.nrows * a.ncols ≤ usizeMax) :
    cumsumAxis1 a = some ((List.range (a.nrows * a.ncols)).map fun p =>
      ((a.comp.row (p / a.ncols)).filter fun e => decide (e.1 ≤ ((p % a.ncols : Nat) : Int))).foldl
        (fun s e => s + e.2) 0) := by
  refine cumRows_eq (f := fun i j => ((a.comp.row i).filter fun e => decide (e.1 ≤ (j : Int))).foldl
    (fun s e => s + e.2) 0) hm (fun i hi => ?_)
  obtain ⟨y, h1, h2, h3⟩ := cumsum_rest (m := a.ncols) (a.comp.row i) (List.replicate a.ncols 0) 0 0 (by simp)
    (srt_row ha i) (fun e he => ⟨(bounds_row ha i e he).1, (bounds_row ha i e he).2, i64_row ha i e he⟩)
    (fun e he => by have := bounds_row ha i e he; omega) (Nat.zero_le _)
  refine ⟨y, h1, h2, fun j hj => ?_⟩
  rw [h3 j hj, if_neg (by omega)]

/-- C40, no algebraic law assumed: cell `(i, j)` holds the left-to-right total of the entries
stored in row `i` up to column `j`. -/
theorem cumsum_axis1_exact [Zero V] [Add V] {a : Csr V} (ha : a.WF) (hm : a.nrows * a.ncols ≤ usizeMax) :
    ∃ y, cumsumAxis1 a = some y ∧ y.length = a.nrows * a.ncols ∧ ∀ i j, i < a.nrows → j < a.ncols →
      y.getD (i * a.ncols + j) 0 =
        ((a.comp.row i).filter fun e => decide (e.1 ≤ (j : Int))).foldl (fun s e => s + e.2) 0 :=
  ⟨_, cumsumAxis1_eq ha hm, by simp, fun i j hi hj =>
    getD_grid a.nrows a.ncols (fun i j => ((a.comp.row i).filter fun e => decide (e.1 ≤ (j : Int))).foldl
      (fun s e => s + e.2) 0) hi hj⟩

theorem prefix_sum [AddCommMonoid V] {row : List (Int × V)} (hb : ∀ e ∈ row, 0 ≤ e.1) (j : Nat) :
    (row.filter fun e => decide (e.1 ≤ (j : Int))).foldl (fun s e => s + e.2) 0 =
      ((List.range (j + 1)).map fun (k : Nat) => ((row.filter fun e => e.1 == (k : Int)).map Prod.snd).sum).sum := by
  have := sum_over_keys (List.range (j + 1)) List.nodup_range
    ((row.filter fun e => decide (e.1 ≤ (j : Int))).map fun e => (e.1.toNat, e.2)) (by
      intro e he
      obtain ⟨e', he', rfl⟩ := List.mem_map.1 he
      obtain ⟨h1, h2⟩ := List.mem_filter.1 he'
      have := hb e' h1
      have h2 : e'.1 ≤ (j : Int) := by simpa using h2
      rw [List.mem_range]
      show e'.1.toNat < j + 1
      omega)
  rw [List.map_map] at this
  have e1 : (row.filter fun e => decide (e.1 ≤ (j : Int))).foldl (fun s e => s + e.2) 0 =
      ((row.filter fun e => decide (e.1 ≤ (j : Int))).map (Prod.snd ∘ fun e : Int × V => (e.1.toNat, e.2))).sum := by
    rw [← foldl_add_eq_sum, List.foldl_map]
    rfl
  rw [e1, ← this]
  congr 1
  apply List.map_congr_left
  intro k hk
  have hk := List.mem_range.1 hk
  rw [List.filter_map, List.map_map, List.filter_filter]
  have : row.filter (fun x => ((fun e : Nat × V => e.1 == k) ∘ fun e : Int × V => (e.1.toNat, e.2)) x && decide (x.1 ≤ (j : Int))) =
      row.filter fun e => e.1 == (k : Int) := by
    apply List.filter_congr
    intro e he
    have := hb e he
    rw [Bool.eq_iff_iff]
    simp only [Function.comp, Bool.and_eq_true, beq_iff_eq, decide_eq_true_eq]
    omega
  rw [this]
  rfl

/-- C40: row-wise cumulative sums are the prefix sums of the dense rows. -/
theorem cumsum_axis1_correct [AddCommMonoid V] {a : Csr V} (ha : a.WF) (hm : a.nrows * a.ncols ≤ usizeMax) :
    ∃ y, cumsumAxis1 a = some y ∧ IsScanRows List.sum a.nrows a.ncols a.val y := by
  obtain ⟨y, h1, h2, h3⟩ := cumsum_axis1_exact ha hm
  refine ⟨y, h1, h2, fun i j hi hj => ?_⟩
  rw [h3 i j hi hj, prefix_sum (fun e he => (bounds_row ha i e he).1)]
  rfl

theorem cumprodAxis1_eq [Zero V] [One V] [Mul V] {a : Csr V} (ha : a.WF) (hm : a.nrows * a.ncols ≤ usizeMax) :
    cumprodAxis1 a = some ((List.range (a.nrows * a.ncols)).map fun p =>
      (((List.range (p % a.ncols + 1)).mapM (a.stored (p / a.ncols))).map fun vs => vs.foldl (· * ·) 1).getD 0) := by
  refine cumRows_eq (f := fun i j => (((List.range (j + 1)).mapM (a.stored i)).map fun vs => vs.foldl (· * ·) 1).getD 0)
    hm (fun i hi => ?_)
  obtain ⟨y, h1, h2, h3⟩ := cumprod_rest (m := a.ncols) (a.comp.row i) (List.replicate a.ncols 0) 0 1 (by simp)
    (srt_row ha i) (fun e he => ⟨(bounds_row ha i e he).1, (bounds_row ha i e he).2, i64_row ha i e he⟩)
    (fun e he => by have := bounds_row ha i e he; omega) (Nat.zero_le _)
    (fun j _ hj => replicate_getD_zero _ _)
  refine ⟨y, h1, h2, fun j hj => ?_⟩
  rw [h3 j hj, if_neg (by omega), Nat.sub_zero, ← List.range_eq_range']
  rfl

/-- C40, no algebraic law assumed: as long as every cell of the row up to column `j` is stored,
cell `(i, j)` holds their left-to-right product; otherwise 0. -/
theorem cumprod_axis1_exact [Zero V] [One V] [Mul V] {a : Csr V} (ha : a.WF) (hm : a.nrows * a.ncols ≤ usizeMax) :
    ∃ y, cumprodAxis1 a = some y ∧ y.length = a.nrows * a.ncols ∧ ∀ i j, i < a.nrows → j < a.ncols →
      y.getD (i * a.ncols + j) 0 =
        (((List.range (j + 1)).mapM (a.stored i)).map fun vs => vs.foldl (· * ·) 1).getD 0 :=
  ⟨_, cumprodAxis1_eq ha hm, by simp, fun i j hi hj =>
    getD_grid a.nrows a.ncols (fun i j => (((List.range (j + 1)).mapM (a.stored i)).map
      fun vs => vs.foldl (· * ·) 1).getD 0) hi hj⟩

theorem prefix_prod [Semiring V] (f : Nat → Option V) (l : List Nat) :
    ((l.mapM f).map fun vs => vs.foldl (· * ·) 1).getD 0 = (l.map fun k => (f k).getD 0).prod := by
  have h : ∀ (l : List Nat) (acc : V), ((l.mapM f).map fun vs => vs.foldl (· * ·) acc).getD 0 =
      acc * (l.map fun k => (f k).getD 0).prod := by
    intro l
    induction l with
    | nil => intro acc; simp
    | cons k l ih =>
      intro acc
      rw [List.mapM_cons, List.map_cons, List.prod_cons]
      cases hk : f k with
      | none => simp
      | some v =>
        have := ih (acc * v)
        rw [Option.getD_some, ← mul_assoc, ← this]
        cases l.mapM f <;> rfl
  rw [h, one_mul]

/-- C40: row-wise cumulative products are the prefix products of the dense rows. -/
theorem cumprod_axis1_correct [Semiring V] {a : Csr V} (ha : a.WF) (hm : a.nrows * a.ncols ≤ usizeMax) :
    ∃ y, cumprodAxis1 a = some y ∧ IsScanRows List.prod a.nrows a.ncols a.val y := by
  obtain ⟨y, h1, h2, h3⟩ := cumprod_axis1_exact ha hm
  refine ⟨y, h1, h2, fun i j hi hj => ?_⟩
  rw [h3 i j hi hj, prefix_prod]
  congr 1
  apply List.map_congr_left
  intro k _
  exact (Comp.WF.val_eq_stored ha i k).symm

/-! ### Along the columns -/

/-- The frame of the axis-0 kernels, for every matrix whose rows store no column twice. -/
theorem cumAxis0_correct [Zero V] [Add V] {agg : List V → V} {axis1 : Csr V → Option (List V)}
    (h1 : ∀ t : Csr V, t.WF → t.nrows * t.ncols ≤ usizeMax →
      ∃ y, axis1 t = some y ∧ IsScanRows agg t.nrows t.ncols t.val y)
    {sort : List (Int × V) → List (Int × V)} (hsort : IsPairSort sort) (threads : Nat) {a : Csr V} (ha : a.WFU)
    (hd : a.comp.NoRep) (hf : a.comp.Fits) (hm : a.nrows * a.ncols ≤ usizeMax) :
    (∃ y, CumAxis0Run sort threads axis1 a y) ∧
      ∀ y, CumAxis0Run sort threads axis1 a y → IsScanCols agg a.nrows a.ncols a.val y := by
  unfold CumAxis0Run
  split
  · rename_i h0
    refine ⟨⟨[], rfl⟩, ?_⟩
    rintro y rfl
    refine ⟨by rcases h0 with h | h <;> simp [h], fun i j hi hj => by omega⟩
  · have key : ∀ t, TransposeCsrRun sort threads a t → ∃ y, ((axis1 t).bind fun o => transposeDense o t.nrows t.ncols) = some y ∧
        IsScanCols agg a.nrows a.ncols a.val y := by
      intro t ht
      obtain ⟨t1, t2, t3, -, -, t6⟩ := transpose_csr_sorts ha hd hf hsort ht
      obtain ⟨o, o1, o2, o3⟩ := h1 t t1 (by rw [t2, t3, Nat.mul_comm]; exact hm)
      obtain ⟨y, y1, y2, y3⟩ := transposeDense_eq o2 (by rw [t2, t3, Nat.mul_comm]; exact hm)
      refine ⟨y, by rw [o1]; exact y1, by rw [y2, t2, t3], fun i j hi hj => ?_⟩
      have e1 := y3 j i (by omega) (by omega)
      have e2 := o3 j i (by omega) (by omega)
      rw [t2] at e1
      rw [e1, e2]
      congr 1
      apply List.map_congr_left
      intro k _
      exact t6 k j
    constructor
    · obtain ⟨t, ht⟩ := transpose_csr_unsorted_exists ha hd hf hsort threads
      obtain ⟨y, h, -⟩ := key t ht
      exact ⟨y, t, ht, h⟩
    · rintro y ⟨t, ht, hy⟩
      obtain ⟨y', h, h'⟩ := key t ht
      rw [h] at hy
      obtain rfl := Option.some.inj hy
      exact h'

/-- C40: column-wise cumulative sums, every strategy and schedule of the transposition. -/
theorem cumsum_axis0_correct [AddCommMonoid V] {sort : List (Int × V) → List (Int × V)} (hsort : IsPairSort sort)
    (threads : Nat) {a : Csr V} (ha : a.WF) (hf : a.comp.Fits) (hm : a.nrows * a.ncols ≤ usizeMax) :
    (∃ y, CumsumAxis0Run sort threads a y) ∧
      ∀ y, CumsumAxis0Run sort threads a y → IsScanCols List.sum a.nrows a.ncols a.val y :=
  cumAxis0_correct (fun _ ht h => cumsum_axis1_correct ht h) hsort threads (Comp.WF.wfu ha) (Comp.WF.noRep ha) hf hm

/-- C40: column-wise cumulative products. -/
theorem cumprod_axis0_correct [Semiring V] {sort : List (Int × V) → List (Int × V)} (hsort : IsPairSort sort)
    (threads : Nat) {a : Csr V} (ha : a.WF) (hf : a.comp.Fits) (hm : a.nrows * a.ncols ≤ usizeMax) :
    (∃ y, CumprodAxis0Run sort threads a y) ∧
      ∀ y, CumprodAxis0Run sort threads a y → IsScanCols List.prod a.nrows a.ncols a.val y :=
  cumAxis0_correct (fun _ ht h => cumprod_axis1_correct ht h) hsort threads (Comp.WF.wfu ha) (Comp.WF.noRep ha) hf hm

/-! ### CSC and COO -/

theorem isScanCols_congr [Zero V] {agg : List V → V} {n m n' m' : Nat} {val val' : Nat → Nat → V} {y : List V}
    (hn : n' = n) (hm : m' = m) (hv : ∀ i j, val' i j = val i j) (h : IsScanCols agg n' m' val' y) :
    IsScanCols agg n m val y := by
  have : val' = val := funext fun i => funext fun j => hv i j
  subst hn hm this
  exact h

theorem isScanRows_congr [Zero V] {agg : List V → V} {n m n' m' : Nat} {val val' : Nat → Nat → V} {y : List V}
    (hn : n' = n) (hm : m' = m) (hv : ∀ i j, i < n → j < m → val' i j = val i j) (h : IsScanRows agg n' m' val' y) :
    IsScanRows agg n m val y := by
  subst hn hm
  refine ⟨h.1, fun i j hi hj => ?_⟩
  rw [h.2 i j hi hj]
  congr 1
  apply List.map_congr_left
  intro k hk
  exact hv i k hi (by have := List.mem_range.1 hk; omega)

theorem cumCscAxis0_correct [Zero V] [Add V] {agg : List V → V} {axis1 : Csr V → Option (List V)}
    (h1 : ∀ t : Csr V, t.WF → t.nrows * t.ncols ≤ usizeMax →
      ∃ y, axis1 t = some y ∧ IsScanRows agg t.nrows t.ncols t.val y)
    {sort : List (Int × V) → List (Int × V)} (hsort : IsPairSort sort) (threads : Nat) {a : Csc V} (ha : a.WF)
    (hf : a.comp.Fits) (hr : (a.nrows : Int) ≤ i64Max) (hm : a.nrows * a.ncols ≤ usizeMax) :
    (∃ y c, CscToCsrRun a c ∧ CumAxis0Run sort threads axis1 c y) ∧
      ∀ y c, CscToCsrRun a c → CumAxis0Run sort threads axis1 c y → IsScanCols agg a.nrows a.ncols a.val y := by
  have key : ∀ c, CscToCsrRun a c → (∃ y, CumAxis0Run sort threads axis1 c y) ∧
      ∀ y, CumAxis0Run sort threads axis1 c y → IsScanCols agg a.nrows a.ncols a.val y := by
    intro c hc
    obtain ⟨c1, c2, c3, c4, -, c6⟩ := csc_to_csr_correct (Comp.WF.wfu ha) hf hc
    have hd : c.comp.NoRep := by
      obtain ⟨sched, hs, e⟩ := atomicFill_eq (Comp.WF.wfu ha) hf hc
      rw [e]; exact tcomp_noRep ha hs hf
    have := cumAxis0_correct h1 hsort threads c4 hd
      ⟨by show (c.nrows : Int) ≤ _; rw [c1]; exact hr, by show (c.data.length : Int) ≤ _; rw [c3]; exact hf.2⟩
      (by rw [c1, c2]; exact hm)
    exact ⟨this.1, fun y hy => isScanCols_congr c1 c2 c6 (this.2 y hy)⟩
  constructor
  · obtain ⟨c, hc, -⟩ := csc_to_csr_sequential_wf ha hf
    obtain ⟨y, hy⟩ := (key c hc).1
    exact ⟨y, c, hc, hy⟩
  · intro y c hc hy
    exact (key c hc).2 y hy

/-- C40, CSC along the columns: right for every schedule, because the transposition restores
the order that the conversion may lose. -/
theorem cumsum_csc_axis0_correct [AddCommMonoid V] {sort : List (Int × V) → List (Int × V)} (hsort : IsPairSort sort)
    (threads : Nat) {a : Csc V} (ha : a.WF) (hf : a.comp.Fits) (hr : (a.nrows : Int) ≤ i64Max)
    (hm : a.nrows * a.ncols ≤ usizeMax) :
    (∃ y, CumsumCscAxis0Run sort threads a y) ∧
      ∀ y, CumsumCscAxis0Run sort threads a y → IsScanCols List.sum a.nrows a.ncols a.val y := by
  obtain ⟨h1, h2⟩ := cumCscAxis0_correct (fun _ ht h => cumsum_axis1_correct ht h) hsort threads ha hf hr hm
  exact ⟨h1, fun y ⟨c, hc, hy⟩ => h2 y c hc hy⟩

theorem cumprod_csc_axis0_correct [Semiring V] {sort : List (Int × V) → List (Int × V)} (hsort : IsPairSort sort)
    (threads : Nat) {a : Csc V} (ha : a.WF) (hf : a.comp.Fits) (hr : (a.nrows : Int) ≤ i64Max)
    (hm : a.nrows * a.ncols ≤ usizeMax) :
    (∃ y, CumprodCscAxis0Run sort threads a y) ∧
      ∀ y, CumprodCscAxis0Run sort threads a y → IsScanCols List.prod a.nrows a.ncols a.val y := by
  obtain ⟨h1, h2⟩ := cumCscAxis0_correct (fun _ ht h => cumprod_axis1_correct ht h) hsort threads ha hf hr hm
  exact ⟨h1, fun y ⟨c, hc, hy⟩ => h2 y c hc hy⟩

/-- C40, CSC along the rows: right whenever the conversion left the rows sorted, in particular
for the sequential schedule. -/
theorem cumsum_csc_axis1_sorted [AddCommMonoid V] {a : Csc V} (ha : a.WF) (hf : a.comp.Fits)
    (hm : a.nrows * a.ncols ≤ usizeMax) :
    (∃ c, CscToCsrRun a c ∧ c.WF) ∧ ∀ c, CscToCsrRun a c → c.WF →
      ∃ y, cumsumAxis1 c = some y ∧ IsScanRows List.sum a.nrows a.ncols a.val y := by
  refine ⟨csc_to_csr_sequential_wf ha hf, fun c hc hw => ?_⟩
  obtain ⟨c1, c2, -, -, -, c6⟩ := csc_to_csr_correct (Comp.WF.wfu ha) hf hc
  obtain ⟨y, h1, h2⟩ := cumsum_axis1_correct hw (by rw [c1, c2]; exact hm)
  exact ⟨y, h1, isScanRows_congr c1 c2 (fun i j _ _ => c6 i j) h2⟩

theorem cumprod_csc_axis1_sorted [Semiring V] {a : Csc V} (ha : a.WF) (hf : a.comp.Fits)
    (hm : a.nrows * a.ncols ≤ usizeMax) :
    (∃ c, CscToCsrRun a c ∧ c.WF) ∧ ∀ c, CscToCsrRun a c → c.WF →
      ∃ y, cumprodAxis1 c = some y ∧ IsScanRows List.prod a.nrows a.ncols a.val y := by
  refine ⟨csc_to_csr_sequential_wf ha hf, fun c hc hw => ?_⟩
  obtain ⟨c1, c2, -, -, -, c6⟩ := csc_to_csr_correct (Comp.WF.wfu ha) hf hc
  obtain ⟨y, h1, h2⟩ := cumprod_axis1_correct hw (by rw [c1, c2]; exact hm)
  exact ⟨y, h1, isScanRows_congr c1 c2 (fun i j _ _ => c6 i j) h2⟩

/-- C40, COO, both axes and both operations; repeated coordinates add up. -/
theorem cumulative_coo_correct [Semiring V] {tsort : List ((Int × Int) × V) → List ((Int × Int) × V)}
    (ht : IsTripleSort tsort) {sort : List (Int × V) → List (Int × V)} (hsort : IsPairSort sort) (threads : Nat)
    {a : Coo V} (ha : a.WF) (hi : a.I64) (hn : (a.nrows : Int) ≤ i64Max) (hl : (a.data.length : Int) ≤ i64Max)
    (hm : a.nrows * a.ncols ≤ usizeMax) :
    (∃ y, cumsumCooAxis1 tsort a = some y ∧ IsScanRows List.sum a.nrows a.ncols a.val y) ∧
    (∃ y, cumprodCooAxis1 tsort a = some y ∧ IsScanRows List.prod a.nrows a.ncols a.val y) ∧
    ((∃ y, CumsumCooAxis0Run tsort sort threads a y) ∧
      ∀ y, CumsumCooAxis0Run tsort sort threads a y → IsScanCols List.sum a.nrows a.ncols a.val y) ∧
    ((∃ y, CumprodCooAxis0Run tsort sort threads a y) ∧
      ∀ y, CumprodCooAxis0Run tsort sort threads a y → IsScanCols List.prod a.nrows a.ncols a.val y) := by
  obtain ⟨c1, c2, c3, c4⟩ := coo_to_csr_correct ht ha hi hn hl
  have hv : (cooToCsr tsort a).val = a.val := funext fun i => funext fun j => c4 i j
  have hff : (cooToCsr tsort a).comp.Fits := ⟨by show ((cooToCsr tsort a).nrows : Int) ≤ _; rw [c1]; exact hn,
    by have := cooToCsr_data_length_le ht ha; show ((cooToCsr tsort a).data.length : Int) ≤ _; omega⟩
  have hmm : (cooToCsr tsort a).nrows * (cooToCsr tsort a).ncols ≤ usizeMax := by rw [c1, c2]; exact hm
  have h1 := cumsum_axis1_correct c3 hmm
  have h2 := cumprod_axis1_correct c3 hmm
  have h3 := cumsum_axis0_correct hsort threads c3 hff hmm
  have h4 := cumprod_axis0_correct hsort threads c3 hff hmm
  rw [c1, c2, hv] at h1 h2 h3 h4
  exact ⟨h1, h2, h3, h4⟩

/-! ### Witnesses -/

-- [[5,0,6],[0,7,0]]
example : ∃ y, cumsumAxis1 exA = some y ∧ IsScanRows List.sum 2 3 exA.val y :=
  cumsum_axis1_correct exA_wf (by decide)
example : ((List.range 3).map fun k => exA.val 0 k).sum = 11 := by decide
example : ∃ y, cumprodAxis1 exA = some y ∧ IsScanRows List.prod 2 3 exA.val y :=
  cumprod_axis1_correct exA_wf (by decide)
example : (∃ y, CumsumAxis0Run (List.insertionSort pairLe) 3 exA y) ∧
    ∀ y, CumsumAxis0Run (List.insertionSort pairLe) 3 exA y → IsScanCols List.sum 2 3 exA.val y :=
  cumsum_axis0_correct isPairSort_insertionSort 3 exA_wf ⟨by decide, by decide⟩ (by decide)
example : (∃ y, CumprodAxis0Run (List.insertionSort pairLe) 3 exA y) ∧
    ∀ y, CumprodAxis0Run (List.insertionSort pairLe) 3 exA y → IsScanCols List.prod 2 3 exA.val y :=
  cumprod_axis0_correct isPairSort_insertionSort 3 exA_wf ⟨by decide, by decide⟩ (by decide)
example : (∃ y, CumsumCscAxis0Run (List.insertionSort pairLe) 3 exC y) ∧
    ∀ y, CumsumCscAxis0Run (List.insertionSort pairLe) 3 exC y → IsScanCols List.sum 3 2 exC.val y :=
  cumsum_csc_axis0_correct isPairSort_insertionSort 3 exC_wf ⟨by decide, by decide⟩ (by decide) (by decide)

/-! ### Where the code departs from the property -/

/-- The 1×2 matrix `[5, 7]` by columns. -/
def exTwoCols : Csc Int := ⟨1, 2, [0, 1, 2], [0, 0], [5, 7]⟩
theorem exTwoCols_wf : exTwoCols.WF :=
  ((csc_fromParts_iff 1 2 [0, 1, 2] [0, 0] [(5 : Int), 7] (by decide) exTwoCols).1 rfl).2.2

theorem chunks_one_two (x : V) : chunksOf 2 (List.replicate (wrapMul 1 2) x) = [[x, x]] := by
  have : wrapMul 1 2 = 1 * 2 := by decide
  rw [this, chunksOf_replicate 2 1 (by decide)]
  rfl

theorem exTwoCols_run : CscToCsrRun exTwoCols ⟨1, 2, [0, 2], [1, 0], [7, 5]⟩ :=
  atomicFill_of (Comp.WF.wfu exTwoCols_wf) ⟨by decide, by decide⟩
    (show Interleaving _ [(1, (0, 7)), (0, (0, 5))] from ⟨by decide, by decide⟩)

/-- C40, negative part: if column 1 claims its slot before column 0, the row-wise cumulative
sum of the CSC matrix `[5, 7]` comes out as `[12, 12]` and the product as `[0, 0]`; the right
results are `[5, 12]` and `[5, 35]`. -/
theorem cumulative_csc_axis1_wrong :
    exTwoCols.WF ∧ exTwoCols.comp.Fits ∧ CumsumCscAxis1Run exTwoCols [12, 12] ∧
      CumprodCscAxis1Run exTwoCols [0, 0] ∧ exTwoCols.val 0 0 = 5 ∧ exTwoCols.val 0 1 = 7 := by
  refine ⟨exTwoCols_wf, ⟨by decide, by decide⟩, ⟨_, exTwoCols_run, ?_⟩, ⟨_, exTwoCols_run, ?_⟩, by decide, by decide⟩
  · unfold cumsumAxis1 cumRows
    rw [if_neg (by decide)]
    show Option.map List.flatten (List.mapM _ (chunksOf 2 (List.replicate (wrapMul 1 2) 0)).zipIdx) = _
    rw [chunks_one_two]
    decide
  · unfold cumprodAxis1 cumRows
    rw [if_neg (by decide)]
    show Option.map List.flatten (List.mapM _ (chunksOf 2 (List.replicate (wrapMul 1 2) 0)).zipIdx) = _
    rw [chunks_one_two]
    decide

namespace NanInt
@[reducible] def oneN : One NanInt := ⟨.num 1⟩
end NanInt

attribute [local instance] NanInt.oneN in
/-- C40, negative part: a NaN is not carried past a missing element.  The dense cumulative
product of `[NaN, 0]` is `[NaN, NaN]`; the kernel returns `[NaN, 0]`. -/
theorem cumprod_nan_lost :
    cumprodAxis1 (⟨1, 2, [0, 1], [0], [NanInt.qnan]⟩ : Csr NanInt) = some [.qnan, .num 0] ∧
      NanInt.qnan * (0 : NanInt) = .qnan := by
  refine ⟨?_, rfl⟩
  unfold cumprodAxis1 cumRows
  rw [if_neg (by decide)]
  show Option.map List.flatten (List.mapM _ (chunksOf 2 (List.replicate (wrapMul 1 2) 0)).zipIdx) = _
  rw [chunks_one_two]
  decide

end Lacuna
