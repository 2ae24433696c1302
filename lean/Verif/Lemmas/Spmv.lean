import Verif.Lemmas.Accum
import Verif.Lemmas.Ranges
import Verif.Lemmas.Transpose
import Verif.Lemmas.NdShape
import Verif.Lemmas.Scalar
import Mathlib.Algebra.BigOperators.Ring.List
/-
Line dot products and the totals of the scatter products.
-/
namespace Lacuna
universe u
variable {V : Type u}

/-- `mul_add` without rounding. -/
class IdealFma (V : Type u) [Add V] [Mul V] [HasFma V] : Prop where
  mulAdd_eq : ∀ a b c : V, mulAdd a b c = a * b + c

theorem dot16_eq [HasFma V] (acc : V) (l : List (V × V)) :
    dot1 (dot16 acc l).1 (dot16 acc l).2 = dot1 acc l := by
  fun_induction dot16 acc l with
  | case1 acc p0 p1 p2 p3 p4 p5 p6 p7 p8 p9 p10 p11 p12 p13 p14 p15 rest ih => rw [ih]; rfl
  | case2 acc l => rfl

theorem dot8_eq [HasFma V] (acc : V) (l : List (V × V)) :
    dot1 (dot8 acc l).1 (dot8 acc l).2 = dot1 acc l := by
  fun_induction dot8 acc l with
  | case1 acc p0 p1 p2 p3 p4 p5 p6 p7 rest ih => rw [ih]; rfl
  | case2 acc l => rfl

theorem dot4_eq [HasFma V] (acc : V) (l : List (V × V)) :
    dot1 (dot4 acc l).1 (dot4 acc l).2 = dot1 acc l := by
  fun_induction dot4 acc l with
  | case1 acc p0 p1 p2 p3 rest ih => rw [ih]; rfl
  | case2 acc l => rfl

/-- All unrolling phases together are one left-to-right loop. -/
theorem dotUnrolled_eq [Zero V] [HasFma V] (l : List (V × V)) :
    dotUnrolled l = l.foldl (fun acc p => mulAdd p.1 p.2 acc) 0 := by
  unfold dotUnrolled
  show dot1 _ _ = dot1 0 l
  rw [dot4_eq, dot8_eq, dot16_eq]

theorem gather_eq [Zero V] {x : List V} {row : List (Int × V)}
    (hb : ∀ e ∈ row, 0 ≤ e.1 ∧ e.1 < x.length) (hi : ∀ e ∈ row, e.1 ≤ i64Max) :
    gather x row = some (row.map fun e => (e.2, x.getD e.1.toNat 0)) := by
  unfold gather
  apply mapM_option_map
  intro e he
  have h1 := hb e he
  rw [i64ToUsize_of_nonneg h1.1 (hi e he), List.getD_eq_getElem?_getD,
    List.getElem?_eq_getElem (by omega : e.1.toNat < x.length)]
  rfl

/-- Left-to-right fused accumulation of a line against a vector. -/
def lineDot [Zero V] [HasFma V] (x : List V) (row : List (Int × V)) : V :=
  row.foldl (fun acc e => mulAdd e.2 (x.getD e.1.toNat 0) acc) 0

theorem gather_dot [Zero V] [HasFma V] {x : List V} {row : List (Int × V)}
    (hb : ∀ e ∈ row, 0 ≤ e.1 ∧ e.1 < x.length) (hi : ∀ e ∈ row, e.1 ≤ i64Max) :
    (gather x row).map dotUnrolled = some (lineDot x row) := by
  rw [gather_eq hb hi, Option.map_some, dotUnrolled_eq, List.foldl_map]
  rfl

theorem spmvRow_eq [Zero V] [HasFma V] {a : Comp V} (ha : a.WFU) {x : List V} (hx : x.length = a.m)
    {i : Nat} (hi : i < a.n) : spmvRow a x i = some (lineDot x (a.row i)) := by
  unfold spmvRow
  split
  · rename_i h
    have hl := ha.row_length hi
    rw [h] at hl
    rw [List.length_eq_zero_iff.1 hl]; rfl
  · exact gather_dot (by rw [hx]; exact ha.row_bounds i) (ha.row_i64 i)

theorem lineDot_foldl [Semiring V] [HasFma V] [IdealFma V] (x : List V) (row : List (Int × V)) (s : V) :
    row.foldl (fun acc e => mulAdd e.2 (x.getD e.1.toNat 0) acc) s =
      s + (row.map fun e => e.2 * x.getD e.1.toNat 0).sum := by
  induction row generalizing s with
  | nil => simp
  | cons e row ih =>
    rw [List.foldl_cons, ih, IdealFma.mulAdd_eq, List.map_cons, List.sum_cons, ← add_assoc,
      add_comm s]

theorem lineDot_eq [Semiring V] [HasFma V] [IdealFma V] (x : List V) (row : List (Int × V)) :
    lineDot x row = (row.map fun e => e.2 * x.getD e.1.toNat 0).sum := by
  unfold lineDot; rw [lineDot_foldl, zero_add]

theorem range_flatMap_ranges {β : Type u} {a : Comp V} (f : Nat → List β)
    (hf : ∀ i, a.ptr (i + 1) - a.ptr i = 0 → f i = []) :
    (lineRanges a).flatMap (fun r => (rangeLines r).flatMap f) = (List.range a.n).flatMap f := by
  unfold lineRanges
  rw [List.range_eq_range']
  rw [rangeScan_flatMap (fun i => a.ptr (i + 1) - a.ptr i) (128 * 1024) f hf a.n 0 0 0 (by simp)]
  simp

theorem Comp.row_nil_of_len {a : Comp V} {i : Nat} (h : a.ptr (i + 1) - a.ptr i = 0) : a.row i = [] := by
  unfold Comp.row; rw [h, List.take_zero]

/-- A line against a vector, grouped by index. -/
theorem sum_line_dot [Semiring V] {m : Nat} {row : List (Int × V)} (hb : ∀ e ∈ row, 0 ≤ e.1 ∧ e.1 < m)
    (f : Nat → V) :
    (row.map fun e => e.2 * f e.1.toNat).sum =
      ((List.range m).map fun (j : Nat) => ((row.filter fun e => e.1 == (j : Int)).map Prod.snd).sum * f j).sum := by
  have := sum_over_keys (List.range m) List.nodup_range (row.map fun e => (e.1.toNat, e.2 * f e.1.toNat))
    (fun e he => by
      obtain ⟨e', he', rfl⟩ := List.mem_map.1 he
      have := hb e' he'
      rw [List.mem_range]
      show e'.1.toNat < m
      omega)
  rw [List.map_map] at this
  refine Eq.trans this.symm ?_
  congr 1
  apply List.map_congr_left
  intro j _
  rw [← List.sum_map_mul_right]
  congr 1
  clear this
  induction row with
  | nil => rfl
  | cons e row ih =>
    have hbe := hb e (by simp)
    have ih' := ih (fun e' he' => hb e' (by simp [he']))
    by_cases h : e.1 = (j : Int)
    · have h2 : e.1.toNat = j := by omega
      rw [h] at h2
      simp only [List.map_cons, List.filter_cons, h2, h, beq_self_eq_true, if_true, List.map_cons] at ih' ⊢
      rw [ih']
    · have h2 : ¬ e.1.toNat = j := by omega
      simp only [List.map_cons, List.filter_cons, beq_iff_eq, h2, h, if_false] at ih' ⊢
      exact ih'

/-- What line `j` contributes to slot `i`. -/
theorem ksum_lineOps [Semiring V] {a : Comp V} (ha : a.WFU) (x : List V) (j i : Nat) :
    ksum (lineOps a x j) i = a.val j i * x.getD j 0 := by
  unfold ksum lineOps Comp.val
  have hb := ha.row_bounds j
  have hi := ha.row_i64 j
  rw [← List.sum_map_mul_right]
  congr 1
  generalize a.row j = row at hb hi
  induction row with
  | nil => rfl
  | cons e row ih =>
    have hbe := hb e (by simp)
    have hie := i64ToUsize_of_nonneg hbe.1 (hi e (by simp))
    have ih' := ih (fun e' he' => hb e' (by simp [he'])) (fun e' he' => hi e' (by simp [he']))
    by_cases h : e.1 = (i : Int)
    · have h2 : i64ToUsize e.1 = i := by omega
      rw [h] at h2
      simp only [List.map_cons, List.filter_cons, h2, h, beq_self_eq_true, if_true, List.map_cons] at ih' ⊢
      rw [ih']
    · have h2 : ¬ i64ToUsize e.1 = i := by omega
      simp only [List.map_cons, List.filter_cons, beq_iff_eq, h2, h, if_false] at ih' ⊢
      exact ih'

theorem lineOps_lt [Zero V] [Mul V] {a : Comp V} (ha : a.WFU) (x : List V) (j : Nat) :
    ∀ o ∈ lineOps a x j, o.1 < a.m := by
  intro o ho
  obtain ⟨e, he, rfl⟩ := List.mem_map.1 ho
  have := ha.row_bounds j e he
  show i64ToUsize e.1 < a.m
  rw [i64ToUsize_of_nonneg this.1 (ha.row_i64 j e he)]
  omega

theorem accumChoose_eq [AddMonoid V] (nthreads n nnz : Nat) (hn : n ≤ usizeMax)
    (groups : List (List (Nat × V))) (hk : ∀ g ∈ groups, ∀ o ∈ g, o.1 < n) :
    accumChoose nthreads n nnz groups = some (ksums n groups.flatten) := by
  unfold accumChoose
  split
  · exact accumHash_eq n groups hk 1024 hn
  · split
    · exact accumTouch_eq n groups hk
    · exact accumStripe_eq n groups hk stripeLen (by decide)

/-- A parallel loop that accumulates with any of the schemes, for any division of the work. -/
theorem accum_division [AddCommMonoid V] {n : Nat} {items : List (List (Nat × V))}
    {groups : List (List (List (Nat × V)))} (hd : Division items groups) :
    ksums n (groups.map List.flatten).flatten = ksums n items.flatten :=
  ksums_perm (division_flatten hd)

theorem cooChunk_pos (nthreads nnz : Nat) : 0 < cooChunk nthreads nnz := by
  unfold cooChunk; omega

/-- Bounds of the stored triples. -/
theorem Coo.WF.triple_bounds {a : Coo V} (h : a.WF) : ∀ t ∈ a.triples,
    (0 ≤ t.1.1 ∧ t.1.1 < a.nrows) ∧ (0 ≤ t.1.2 ∧ t.1.2 < a.ncols) := by
  rintro ⟨⟨i, j⟩, v⟩ ht
  have h1 := (List.of_mem_zip ht).1
  have h2 := List.of_mem_zip h1
  exact ⟨h.row_bounds i h2.1, h.col_bounds j h2.2⟩

theorem Coo.I64.triple {a : Coo V} (h : a.I64) : ∀ t ∈ a.triples, t.1.1 ≤ i64Max ∧ t.1.2 ≤ i64Max := by
  rintro ⟨⟨i, j⟩, v⟩ ht
  have h1 := (List.of_mem_zip ht).1
  have h2 := List.of_mem_zip h1
  exact ⟨h.1 i h2.1, h.2 j h2.2⟩

theorem Coo.WF.triples_length {a : Coo V} (h : a.WF) : a.triples.length = a.data.length := by
  simp [Coo.triples, h.row_length, h.col_length]

end Lacuna
