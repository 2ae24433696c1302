import Verif.Spec.Stats
import Verif.Lemmas.Combine
import Verif.Lemmas.Cells
import Verif.Props.Sums
import Verif.Props.Transpose
import Mathlib.Algebra.Order.Monoid.Unbundled.WithTop
import Mathlib.Data.Int.Order.Basic
/-
C36: minimum and maximum.
-/
namespace Lacuna
universe u
variable {V : Type u}

/-! ### Direction-independent part -/

/-- What min and max have in common. -/
structure ExtLaw (o : ExtOps V) : Prop where
  mono : IsMonoid o.best o.far
  sel : ∀ x y, o.best x y = x ∨ o.best x y = y
  lane : o.lane = o.best
  keep : o.keep = o.best

/-- `r` is in the list and no element beats it. -/
def IsExt (o : ExtOps V) (l : List V) (r : V) : Prop := r ∈ l ∧ ∀ x ∈ l, o.best r x = r

namespace ExtLaw
variable {o : ExtOps V} (h : ExtLaw o)
include h

theorem idem (x : V) : o.best x x = x := by rcases h.sel x x with e | e <;> exact e

theorem fold_ext (l : List V) (hl : l ≠ []) : IsExt o l (l.foldl o.best o.far) := by
  induction l with
  | nil => exact absurd rfl hl
  | cons x l ih =>
    rw [List.foldl_cons, h.mono.unit, h.mono.foldl_start]
    by_cases hn : l = []
    · subst hn
      simp [IsExt, h.mono.unit', h.idem]
    · obtain ⟨h1, h2⟩ := ih hn
      refine ⟨?_, ?_⟩
      · rcases h.sel x (l.foldl o.best o.far) with e | e
        · rw [e]; simp
        · rw [e]; simp [h1]
      · intro y hy
        rcases List.mem_cons.1 hy with rfl | hy
        · rw [h.mono.comm _ (l.foldl o.best o.far), h.mono.assoc, h.idem]
        · rw [h.mono.assoc, h2 y hy]

omit h in
theorem ext_perm {l l' : List V} (hp : l.Perm l') {r : V} (he : IsExt o l r) : IsExt o l' r :=
  ⟨hp.subset he.1, fun x hx => he.2 x (hp.symm.subset hx)⟩

theorem chunkExt_eq (l : List V) : chunkExt o l = l.foldl o.best o.far := by
  unfold chunkExt
  split
  · rename_i he
    rw [List.isEmpty_iff.1 he]; rfl
  · rw [h.lane, h.keep, h.mono.simdFold_eq]

theorem fold_zeros (k : Nat) (hk : 0 < k) (z : V) : (List.replicate k z).foldl o.best o.far = z := by
  obtain ⟨k, rfl⟩ : ∃ j, k = j + 1 := ⟨k - 1, by omega⟩
  clear hk
  induction k with
  | zero => simp [h.mono.unit]
  | succ k ih =>
    rw [List.replicate_succ, List.foldl_cons, h.mono.unit, h.mono.foldl_start, ih, h.idem]

/-- Stored values followed by zeros. -/
theorem fold_padded (l : List V) (k : Nat) (z : V) :
    (l ++ List.replicate k z).foldl o.best o.far =
      if 0 < k then o.best (l.foldl o.best o.far) z else l.foldl o.best o.far := by
  rw [h.mono.foldl_append]
  split
  · rename_i hk; rw [h.fold_zeros k hk]
  · have : k = 0 := by omega
    subst this
    simp [h.mono.unit']

theorem ext_padded [Zero V] {cells l : List V} {full : Nat} (hf : 0 < full)
    (hp : cells.Perm (l ++ List.replicate (full - l.length) 0)) :
    IsExt o cells (if l.length < full then o.best (l.foldl o.best o.far) 0 else l.foldl o.best o.far) := by
  refine ExtLaw.ext_perm hp.symm ?_
  have hne : l ++ List.replicate (full - l.length) 0 ≠ [] := by
    intro hc
    have := congrArg List.length hc
    rw [List.length_append, List.length_replicate, List.length_nil] at this
    omega
  have := h.fold_ext _ hne
  rw [h.fold_padded] at this
  by_cases hlt : l.length < full
  · rw [if_pos hlt]; rwa [if_pos (by omega)] at this
  · rw [if_neg hlt]; rwa [if_neg (by omega)] at this

theorem extRun_eq {data : List V} {d : V} (hd : ChunkReduce (chunkExt o) o.best o.far data d) :
    d = data.foldl o.best o.far := h.mono.chunkReduce_eq h.chunkExt_eq hd

end ExtLaw

theorem satMul_lt {n m len : Nat} (hl : (len : Int) ≤ i64Max) : len < satMul n m ↔ len < n * m := by
  unfold satMul
  have : len < usizeMax := by
    have : (i64Max : Int) < usizeMax := by decide
    omega
  omega

theorem satMul_eq_zero {n m : Nat} : satMul n m = 0 ↔ n * m = 0 := by
  unfold satMul
  have : 0 < usizeMax := by decide
  omega

section
variable [Zero V] {o : ExtOps V}

theorem ExtLaw.global (h : ExtLaw o) {n m : Nat} (hn : 0 < n) (hm : 0 < m) {data cells : List V}
    (hl : (data.length : Int) ≤ i64Max)
    (hp : cells.Perm (data ++ List.replicate (n * m - data.length) 0)) {r : V} (hr : ExtRun o n m data r) :
    IsExt o cells r := by
  unfold ExtRun at hr
  rw [if_neg (by omega)] at hr
  obtain ⟨d, hd, rfl⟩ := hr
  rw [h.extRun_eq hd]
  have := h.ext_padded (Nat.mul_pos hn hm) hp
  simp only [satMul_lt hl]
  exact this

/-- The value both kinds of line kernels compute from the stored values of a line. -/
def extLine (o : ExtOps V) (m : Nat) (l : List V) : V :=
  if l.length = 0 then 0
  else if l.length < m then o.best (l.foldl o.best o.far) 0 else l.foldl o.best o.far

theorem ExtLaw.line (h : ExtLaw o) {m : Nat} (hm : 0 < m) {l cells : List V}
    (hp : cells.Perm (l ++ List.replicate (m - l.length) 0)) : IsExt o cells (extLine o m l) := by
  have := h.ext_padded hm hp
  unfold extLine
  split
  · rename_i h0
    rw [if_pos (by omega), List.length_eq_zero_iff.1 h0] at this
    simpa [h.mono.unit] using this
  · exact this

theorem ExtLaw.lineExts_eq (h : ExtLaw o) (a : Comp V) :
    lineExts o a = (List.range a.n).map fun i => extLine o a.m ((a.row i).map Prod.snd) := by
  unfold lineExts extLine
  apply List.map_congr_left
  intro i _
  simp only [h.chunkExt_eq]

theorem ksum_ones (keys : List Nat) (k : Nat) :
    ksum (keys.map fun i => (i, 1)) k = (keys.filter fun i => i == k).length := by
  induction keys with
  | nil => rfl
  | cons i keys ih =>
    unfold ksum at ih ⊢
    by_cases hk : i = k
    · simp [hk] at ih ⊢; omega
    · simp [hk] at ih ⊢; exact ih

theorem countKeys_eq (n : Nat) (keys : List Nat) (hk : ∀ k ∈ keys, k < n) :
    countKeys n keys = some ((List.range n).map fun k => (keys.filter fun i => i == k).length) := by
  unfold countKeys
  rw [addAll?_eq _ _ (fun o ho => by
    obtain ⟨k, hk', rfl⟩ := List.mem_map.1 ho
    simpa using hk k hk'), addAll_zero]
  unfold ksums
  congr 1
  exact List.map_congr_left fun k _ => ksum_ones keys k

/-- The COO line kernels compute `extLine` of the stored values of each line. -/
theorem ExtLaw.cooExts_iff (h : ExtLaw o) (nthreads n m : Nat) (ops : List (Nat × V)) (hk : ∀ x ∈ ops, x.1 < n)
    (y : List V) :
    CooExtsRun o nthreads n m ops y ↔
      y = (List.range n).map fun i => extLine o m ((ops.filter fun x => x.1 == i).map Prod.snd) := by
  unfold CooExtsRun
  split
  · rename_i h0; subst h0; rfl
  have hcount := countKeys_eq n (ops.map Prod.fst) (fun k hk' => by
    obtain ⟨x, hx, rfl⟩ := List.mem_map.1 hk'
    exact hk x hx)
  have hflat := chunksOf_flatten (cooChunk_pos nthreads ops.length) ops
  have hcomm : IsComm o.keep := by rw [h.keep]; exact h.mono.isComm
  have key : ∀ groups, Division (chunksOf (cooChunk nthreads ops.length) ops) groups →
      ∃ out seen, combineSeen 0 o.keep n stripeLen (groups.map List.flatten) = some (out, seen) ∧
        ∀ i, i < n → seen.getD i false = (kfold o.best ops i).isSome ∧
          out.getD i 0 = (kfold o.best ops i).getD 0 := by
    intro groups hd
    obtain ⟨out, seen, h1, h2, h3⟩ := combineSeen_ok (e := (0 : V)) hcomm (n := n) (stripe := stripeLen) (by decide)
      (groups := groups.map List.flatten) (division_mem hd (by rw [hflat]; exact hk))
    refine ⟨out, seen, h1, fun i hi => ?_⟩
    have hp : kfold o.keep (groups.map List.flatten).flatten i = kfold o.best ops i := by
      rw [kfold_perm hcomm (division_flatten hd), hflat, h.keep]
    rw [← hp]
    exact h3 i hi
  have hval : ∀ (counts : List Nat) (out : List V) (seen : List Bool), countKeys n (ops.map Prod.fst) = some counts →
      (∀ i, i < n → seen.getD i false = (kfold o.best ops i).isSome ∧ out.getD i 0 = (kfold o.best ops i).getD 0) →
      ((List.range n).map fun i =>
        if counts.getD i 0 < m then (if seen.getD i false then o.best (out.getD i 0) 0 else 0)
        else out.getD i 0) =
      (List.range n).map fun i => extLine o m ((ops.filter fun x => x.1 == i).map Prod.snd) := by
    intro counts out seen hc hs
    rw [hcount] at hc
    obtain rfl := Option.some.inj hc
    apply List.map_congr_left
    intro i hi
    have hi := List.mem_range.1 hi
    obtain ⟨h1, h2⟩ := hs i hi
    have hci : ((List.range n).map fun k => ((ops.map Prod.fst).filter fun i => i == k).length).getD i 0 =
        ((ops.filter fun x => x.1 == i).map Prod.snd).length := by
      rw [List.getD_eq_getElem?_getD, List.getElem?_map, List.getElem?_range hi]
      simp [List.filter_map, Function.comp_def]
    simp only [hci, h1, h2]
    unfold extLine
    by_cases hne : ((ops.filter fun x => x.1 == i).map Prod.snd) = []
    · rw [kfold_none hne, hne]
      simp
    · rw [kfold_some h.mono hne]
      have : ¬ ((ops.filter fun x => x.1 == i).map Prod.snd).length = 0 := by
        rwa [List.length_eq_zero_iff]
      rw [if_neg this]
      simp
  constructor
  · rintro ⟨counts, hc, groups, hd, out, seen, h1, rfl⟩
    obtain ⟨out', seen', h1', h2'⟩ := key groups hd
    rw [h1] at h1'
    obtain ⟨rfl, rfl⟩ := Prod.mk.inj (Option.some.inj h1')
    exact hval counts out seen hc h2'
  · rintro rfl
    obtain ⟨out, seen, h1, h2⟩ := key _ (division_single _)
    exact ⟨_, hcount, _, division_single _, out, seen, h1, (hval _ out seen hcount h2).symm⟩
end

/-- `y` are the extrema of the lines. -/
def AreExts (o : ExtOps V) (n : Nat) (cells : Nat → List V) (y : List V) : Prop :=
  y.length = n ∧ ∀ i r, y[i]? = some r → IsExt o (cells i) r

theorem areExts_map {o : ExtOps V} {n : Nat} {cells : Nat → List V} {f : Nat → V}
    (h : ∀ i, i < n → IsExt o (cells i) (f i)) : AreExts o n cells ((List.range n).map f) := by
  refine ⟨by simp, fun i r hr => ?_⟩
  rw [List.getElem?_map] at hr
  by_cases hi : i < n
  · rw [List.getElem?_range hi] at hr
    obtain rfl := Option.some.inj hr
    exact h i hi
  · rw [List.getElem?_eq_none (by simpa using hi)] at hr
    cases hr

section
variable [AddZeroClass V] {o : ExtOps V} (h : ExtLaw o)
include h

theorem ExtLaw.lines {a : Comp V} (ha : a.WF) (hm : 0 < a.m) :
    AreExts o a.n (fun i => (List.range a.m).map (a.val i)) (lineExts o a) := by
  rw [h.lineExts_eq]
  refine areExts_map fun i _ => h.line hm ?_
  have := ha.line_perm i
  rwa [List.length_map]

end

theorem lineExts_empty [Zero V] {o : ExtOps V} {a : Comp V} (ha : a.WF) (hm : a.m = 0) :
    lineExts o a = List.replicate a.n 0 := by
  unfold lineExts
  refine List.ext_getElem (by simp) (fun i _ _ => ?_)
  have := ha.row_length_le i
  rw [hm] at this
  have h0 : a.row i = [] := List.length_eq_zero_iff.1 (by omega)
  simp [h0]

/-! ### The two instances -/

section
variable [LinearOrder V] [HasMinMax V] [HasLt V]

theorem minLaw (hI : IdealMinMax V) : ExtLaw (minOps V) := by
  have hb : (minOps V).best = min := by funext x y; exact hI.fmin_eq x y
  have hl : (minOps V).lane = min := by funext x y; exact hI.vmin_eq x y
  refine ⟨⟨?_, ?_, ?_⟩, ?_, hl.trans hb.symm, ?_⟩
  · rw [hb]; exact min_assoc
  · rw [hb]; exact min_comm
  · intro a; rw [hb]; exact min_eq_right (hI.le_posInf a)
  · rw [hb]; intro x y
    rcases le_total x y with h | h
    · left; exact min_eq_left h
    · right; exact min_eq_right h
  · rw [hb]
    funext x y
    show (if flt y x then y else x) = min x y
    by_cases h : flt y x = true
    · rw [if_pos h, min_eq_right (le_of_lt ((hI.flt_iff _ _).1 h))]
    · rw [if_neg h, min_eq_left (le_of_not_gt (fun hc => h ((hI.flt_iff _ _).2 hc)))]

theorem maxLaw (hI : IdealMinMax V) : ExtLaw (maxOps V) := by
  have hb : (maxOps V).best = max := by funext x y; exact hI.fmax_eq x y
  have hl : (maxOps V).lane = max := by funext x y; exact hI.vmax_eq x y
  refine ⟨⟨?_, ?_, ?_⟩, ?_, hl.trans hb.symm, ?_⟩
  · rw [hb]; exact max_assoc
  · rw [hb]; exact max_comm
  · intro a; rw [hb]; exact max_eq_right (hI.negInf_le a)
  · rw [hb]; intro x y
    rcases le_total x y with h | h
    · right; exact max_eq_right h
    · left; exact max_eq_left h
  · rw [hb]
    funext x y
    show (if flt x y then y else x) = max x y
    by_cases h : flt x y = true
    · rw [if_pos h, max_eq_right (le_of_lt ((hI.flt_iff _ _).1 h))]
    · rw [if_neg h, max_eq_left (le_of_not_gt (fun hc => h ((hI.flt_iff _ _).2 hc)))]

theorem isMin_of_ext (hI : IdealMinMax V) {l : List V} {r : V} (h : IsExt (minOps V) l r) : IsMinOf l r :=
  ⟨h.1, fun x hx => by
    have := h.2 x hx
    rw [show (minOps V).best r x = min r x from hI.fmin_eq r x] at this
    exact min_eq_left_iff.1 this⟩

theorem isMax_of_ext (hI : IdealMinMax V) {l : List V} {r : V} (h : IsExt (maxOps V) l r) : IsMaxOf l r :=
  ⟨h.1, fun x hx => by
    have := h.2 x hx
    rw [show (maxOps V).best r x = max r x from hI.fmax_eq r x] at this
    exact max_eq_left_iff.1 this⟩

theorem areMins_of_ext (hI : IdealMinMax V) {n : Nat} {cells : Nat → List V} {y : List V}
    (h : AreExts (minOps V) n cells y) : AreMins n cells y :=
  ⟨h.1, fun i r hr => isMin_of_ext hI (h.2 i r hr)⟩

theorem areMaxs_of_ext (hI : IdealMinMax V) {n : Nat} {cells : Nat → List V} {y : List V}
    (h : AreExts (maxOps V) n cells y) : AreMaxs n cells y :=
  ⟨h.1, fun i r hr => isMax_of_ext hI (h.2 i r hr)⟩
end

/-! ### C36: the kernels -/

theorem csc_cells_perm [AddZeroClass V] {a : Csc V} (ha : a.WF) :
    a.cells.Perm (a.data ++ List.replicate (a.nrows * a.ncols - a.data.length) 0) := by
  have h1 := Comp.WF.cells_perm ha
  rw [Nat.mul_comm] at h1
  exact (cellsOf_swap _ _ _).trans h1

/-- The global kernels always return. -/
theorem ext_runs [Zero V] (o : ExtOps V) (n m : Nat) (data : List V) : ∃ r, ExtRun o n m data r := by
  unfold ExtRun
  split
  · exact ⟨0, rfl⟩
  · obtain ⟨d, hd⟩ := rayon_exists o.best o.far ((chunksOf 4096 data).map (chunkExt o))
    exact ⟨_, d, hd, rfl⟩

section
variable [LinearOrder V] [AddZeroClass V] [HasMinMax V] [HasLt V] (hI : IdealMinMax V)
include hI

/-- C36: global minimum and maximum of a CSR matrix, for every reduction tree. -/
theorem minmax_csr_correct {a : Csr V} (ha : a.WF) (hl : (a.data.length : Int) ≤ i64Max)
    (hn : 0 < a.nrows) (hm : 0 < a.ncols) :
    (∀ r, ExtRun (minOps V) a.nrows a.ncols a.data r → IsMinOf a.cells r) ∧
    (∀ r, ExtRun (maxOps V) a.nrows a.ncols a.data r → IsMaxOf a.cells r) :=
  ⟨fun _ h => isMin_of_ext hI ((minLaw hI).global hn hm hl (Comp.WF.cells_perm ha) h),
   fun _ h => isMax_of_ext hI ((maxLaw hI).global hn hm hl (Comp.WF.cells_perm ha) h)⟩

/-- C36: CSC. -/
theorem minmax_csc_correct {a : Csc V} (ha : a.WF) (hl : (a.data.length : Int) ≤ i64Max)
    (hn : 0 < a.nrows) (hm : 0 < a.ncols) :
    (∀ r, ExtRun (minOps V) a.nrows a.ncols a.data r → IsMinOf a.cells r) ∧
    (∀ r, ExtRun (maxOps V) a.nrows a.ncols a.data r → IsMaxOf a.cells r) :=
  ⟨fun _ h => isMin_of_ext hI ((minLaw hI).global hn hm hl (csc_cells_perm ha) h),
   fun _ h => isMax_of_ext hI ((maxLaw hI).global hn hm hl (csc_cells_perm ha) h)⟩

/-- C36: COO without repeated coordinates. -/
theorem minmax_coo_correct {a : Coo V} (ha : a.WF) (hd : a.NoDup) (hl : (a.data.length : Int) ≤ i64Max)
    (hn : 0 < a.nrows) (hm : 0 < a.ncols) :
    (∀ r, ExtRun (minOps V) a.nrows a.ncols a.data r → IsMinOf a.cells r) ∧
    (∀ r, ExtRun (maxOps V) a.nrows a.ncols a.data r → IsMaxOf a.cells r) :=
  ⟨fun _ h => isMin_of_ext hI ((minLaw hI).global hn hm hl (ha.cells_perm hd) h),
   fun _ h => isMax_of_ext hI ((maxLaw hI).global hn hm hl (ha.cells_perm hd) h)⟩

/-- C36: row minima and maxima of a CSR matrix. -/
theorem row_minmax_csr_correct {a : Csr V} (ha : a.WF) (hm : 0 < a.ncols) :
    AreMins a.nrows a.rowCells (lineExts (minOps V) a.comp) ∧
    AreMaxs a.nrows a.rowCells (lineExts (maxOps V) a.comp) :=
  ⟨areMins_of_ext hI ((minLaw hI).lines ha hm), areMaxs_of_ext hI ((maxLaw hI).lines ha hm)⟩

/-- C36: column minima and maxima of a CSC matrix. -/
theorem col_minmax_csc_correct {a : Csc V} (ha : a.WF) (hn : 0 < a.nrows) :
    AreMins a.ncols a.colCells (lineExts (minOps V) a.comp) ∧
    AreMaxs a.ncols a.colCells (lineExts (maxOps V) a.comp) :=
  ⟨areMins_of_ext hI ((minLaw hI).lines ha hn), areMaxs_of_ext hI ((maxLaw hI).lines ha hn)⟩

/-- C36, C46: column minima and maxima of a CSR matrix through the transpose, for every
thread count, schedule and sort. -/
theorem col_minmax_csr_correct {a : Csr V} (ha : a.WF) (hf : a.comp.Fits) (hn : 0 < a.nrows)
    {sort : List (Int × V) → List (Int × V)} (hsort : IsPairSort sort) (threads : Nat) :
    (∀ o : ExtOps V, ∃ y, ColExtsRun o sort threads a y) ∧
    (∀ y, ColExtsRun (minOps V) sort threads a y → AreMins a.ncols a.colCells y) ∧
    (∀ y, ColExtsRun (maxOps V) sort threads a y → AreMaxs a.ncols a.colCells y) := by
  have key : ∀ t, TransposeCsrRun sort threads a t →
      t.WF ∧ t.nrows = a.ncols ∧ 0 < t.ncols ∧ t.rowCells = a.colCells := by
    intro t ht
    obtain ⟨h1, h2, h3, _, _, h6⟩ := transpose_csr_correct ha hf hsort ht
    refine ⟨h1, h2, h3 ▸ hn, funext fun j => ?_⟩
    unfold Csr.rowCells Csr.colCells
    rw [h3]
    exact List.map_congr_left fun i _ => h6 i j
  refine ⟨fun o => ?_, ?_, ?_⟩
  · obtain ⟨t, ht⟩ := transpose_csr_exists ha hf hsort threads
    exact ⟨_, t, ht, rfl⟩
  · rintro y ⟨t, ht, rfl⟩
    obtain ⟨h1, h2, h3, h4⟩ := key t ht
    rw [← h2, ← h4]
    exact (row_minmax_csr_correct hI h1 h3).1
  · rintro y ⟨t, ht, rfl⟩
    obtain ⟨h1, h2, h3, h4⟩ := key t ht
    rw [← h2, ← h4]
    exact (row_minmax_csr_correct hI h1 h3).2

/-- C36, C46: row minima and maxima of a CSC matrix through the transpose. -/
theorem row_minmax_csc_correct {a : Csc V} (ha : a.WF) (hf : a.comp.Fits) (hm : 0 < a.ncols)
    {sort : List (Int × V) → List (Int × V)} (hsort : IsPairSort sort) (threads : Nat) :
    (∀ o : ExtOps V, ∃ y, RowExtsCscRun o sort threads a y) ∧
    (∀ y, RowExtsCscRun (minOps V) sort threads a y → AreMins a.nrows a.rowCells y) ∧
    (∀ y, RowExtsCscRun (maxOps V) sort threads a y → AreMaxs a.nrows a.rowCells y) := by
  have key : ∀ t, TransposeCscRun sort threads a t →
      t.WF ∧ t.ncols = a.nrows ∧ 0 < t.nrows ∧ t.colCells = a.rowCells := by
    intro t ht
    obtain ⟨h1, h2, h3, _, _, h6⟩ := transpose_csc_correct ha hf hsort ht
    refine ⟨h1, h3, h2 ▸ hm, funext fun i => ?_⟩
    unfold Csc.rowCells Csc.colCells
    rw [h2]
    exact List.map_congr_left fun j _ => h6 i j
  refine ⟨fun o => ?_, ?_, ?_⟩
  · obtain ⟨t, ht⟩ := transpose_csc_exists ha hf hsort threads
    exact ⟨_, t, ht, rfl⟩
  · rintro y ⟨t, ht, rfl⟩
    obtain ⟨h1, h2, h3, h4⟩ := key t ht
    rw [← h2, ← h4]
    exact (col_minmax_csc_correct hI h1 h3).1
  · rintro y ⟨t, ht, rfl⟩
    obtain ⟨h1, h2, h3, h4⟩ := key t ht
    rw [← h2, ← h4]
    exact (col_minmax_csc_correct hI h1 h3).2
end

theorem filter_rowOps {a : Coo V} (ha : a.WF) (hi : a.I64) (i : Nat) :
    (a.rowOps.filter fun x => x.1 == i).map Prod.snd =
      (a.triples.filter fun t => t.1.1 == (i : Int)).map Prod.snd := by
  unfold Coo.rowOps
  rw [List.filter_map, List.map_map]
  have : a.triples.filter ((fun o : Nat × V => o.1 == i) ∘ fun t => (i64ToUsize t.1.1, t.2)) =
      a.triples.filter fun t => t.1.1 == (i : Int) := by
    apply List.filter_congr
    intro t ht
    have hb := ha.triple_bounds t ht
    simp only [Function.comp, i64ToUsize_of_nonneg hb.1.1 (hi.triple t ht).1]
    rw [Bool.eq_iff_iff, beq_iff_eq, beq_iff_eq]
    omega
  rw [this]; rfl

theorem filter_colOps {a : Coo V} (ha : a.WF) (hi : a.I64) (j : Nat) :
    (a.colOps.filter fun x => x.1 == j).map Prod.snd =
      (a.triples.filter fun t => t.1.2 == (j : Int)).map Prod.snd := by
  unfold Coo.colOps
  rw [List.filter_map, List.map_map]
  have : a.triples.filter ((fun o : Nat × V => o.1 == j) ∘ fun t => (i64ToUsize t.1.2, t.2)) =
      a.triples.filter fun t => t.1.2 == (j : Int) := by
    apply List.filter_congr
    intro t ht
    have hb := ha.triple_bounds t ht
    simp only [Function.comp, i64ToUsize_of_nonneg hb.2.1 (hi.triple t ht).2]
    rw [Bool.eq_iff_iff, beq_iff_eq, beq_iff_eq]
    omega
  rw [this]; rfl

theorem rowOps_lt {a : Coo V} (ha : a.WF) (hi : a.I64) : ∀ x ∈ a.rowOps, x.1 < a.nrows := by
  intro x hx
  obtain ⟨t, ht, rfl⟩ := List.mem_map.1 hx
  have := ha.triple_bounds t ht
  simp only [i64ToUsize_of_nonneg this.1.1 (hi.triple t ht).1]
  omega

theorem colOps_lt {a : Coo V} (ha : a.WF) (hi : a.I64) : ∀ x ∈ a.colOps, x.1 < a.ncols := by
  intro x hx
  obtain ⟨t, ht, rfl⟩ := List.mem_map.1 hx
  have := ha.triple_bounds t ht
  simp only [i64ToUsize_of_nonneg this.2.1 (hi.triple t ht).2]
  omega

section
variable [AddZeroClass V]

theorem ExtLaw.coo_rows {o : ExtOps V} (h : ExtLaw o) (nthreads : Nat) {a : Coo V} (ha : a.WF) (hi : a.I64)
    (hd : a.NoDup) (hm : 0 < a.ncols) {y : List V} (hy : RowExtsCooRun o nthreads a y) :
    AreExts o a.nrows a.rowCells y := by
  rw [(h.cooExts_iff nthreads _ _ _ (rowOps_lt ha hi) y).1 hy]
  refine areExts_map fun i _ => h.line hm ?_
  rw [filter_rowOps ha hi, List.length_map]
  exact ha.row_perm hd i

theorem ExtLaw.coo_cols {o : ExtOps V} (h : ExtLaw o) (nthreads : Nat) {a : Coo V} (ha : a.WF) (hi : a.I64)
    (hd : a.NoDup) (hn : 0 < a.nrows) {y : List V} (hy : ColExtsCooRun o nthreads a y) :
    AreExts o a.ncols a.colCells y := by
  rw [(h.cooExts_iff nthreads _ _ _ (colOps_lt ha hi) y).1 hy]
  refine areExts_map fun i _ => h.line hn ?_
  rw [filter_colOps ha hi, List.length_map]
  exact ha.col_perm hd i
end

section
variable [LinearOrder V] [AddZeroClass V] [HasMinMax V] [HasLt V] (hI : IdealMinMax V)
include hI

/-- C36: row minima and maxima of a COO matrix without repeated coordinates, for every
division of the entries over threads and every merge order. -/
theorem row_minmax_coo_correct (nthreads : Nat) {a : Coo V} (ha : a.WF) (hi : a.I64) (hd : a.NoDup)
    (hm : 0 < a.ncols) :
    ((∃ y, RowExtsCooRun (minOps V) nthreads a y) ∧
      ∀ y, RowExtsCooRun (minOps V) nthreads a y → AreMins a.nrows a.rowCells y) ∧
    ((∃ y, RowExtsCooRun (maxOps V) nthreads a y) ∧
      ∀ y, RowExtsCooRun (maxOps V) nthreads a y → AreMaxs a.nrows a.rowCells y) :=
  ⟨⟨⟨_, ((minLaw hI).cooExts_iff nthreads _ _ _ (rowOps_lt ha hi) _).2 rfl⟩,
      fun _ hy => areMins_of_ext hI ((minLaw hI).coo_rows nthreads ha hi hd hm hy)⟩,
    ⟨_, ((maxLaw hI).cooExts_iff nthreads _ _ _ (rowOps_lt ha hi) _).2 rfl⟩,
      fun _ hy => areMaxs_of_ext hI ((maxLaw hI).coo_rows nthreads ha hi hd hm hy)⟩

/-- C36: column minima and maxima of a COO matrix without repeated coordinates. -/
theorem col_minmax_coo_correct (nthreads : Nat) {a : Coo V} (ha : a.WF) (hi : a.I64) (hd : a.NoDup)
    (hn : 0 < a.nrows) :
    ((∃ y, ColExtsCooRun (minOps V) nthreads a y) ∧
      ∀ y, ColExtsCooRun (minOps V) nthreads a y → AreMins a.ncols a.colCells y) ∧
    ((∃ y, ColExtsCooRun (maxOps V) nthreads a y) ∧
      ∀ y, ColExtsCooRun (maxOps V) nthreads a y → AreMaxs a.ncols a.colCells y) :=
  ⟨⟨⟨_, ((minLaw hI).cooExts_iff nthreads _ _ _ (colOps_lt ha hi) _).2 rfl⟩,
      fun _ hy => areMins_of_ext hI ((minLaw hI).coo_cols nthreads ha hi hd hn hy)⟩,
    ⟨_, ((maxLaw hI).cooExts_iff nthreads _ _ _ (colOps_lt ha hi) _).2 rfl⟩,
      fun _ hy => areMaxs_of_ext hI ((maxLaw hI).coo_cols nthreads ha hi hd hn hy)⟩
end

/-- Shapes without cells: the global kernels return 0 … -/
theorem minmax_no_cells [Zero V] (o : ExtOps V) {n m : Nat} (h : n * m = 0) (data : List V) {r : V}
    (hr : ExtRun o n m data r) : r = 0 := by
  unfold ExtRun at hr
  rwa [if_pos (by rwa [Nat.mul_eq_zero] at h)] at hr

/-- … and the line kernels return 0 for every line of length 0. -/
theorem line_minmax_no_cells [Zero V] (o : ExtOps V) {a : Comp V} (ha : a.WF) (hm : a.m = 0) :
    lineExts o a = List.replicate a.n 0 := lineExts_empty ha hm

/-- C36, negative part: a 1×1 matrix that stores only a NaN has minimum `+∞`.  The
hypotheses are facts about IEEE comparison and `f64::min`. -/
theorem min_nan_is_infinity [Zero V] [HasMinMax V] [HasLt V] (x : V) (hx : flt x (posInf : V) = false)
    (hinf : fmin (posInf : V) posInf = posInf) {r : V} (hr : ExtRun (minOps V) 1 1 [x] r) : r = posInf := by
  unfold ExtRun at hr
  rw [if_neg (by decide)] at hr
  obtain ⟨d, hd, rfl⟩ := hr
  have hc : (chunksOf 4096 [x]).map (chunkExt (minOps V)) = [posInf] := by
    have : chunksOf 4096 [x] = [[x]] := by
      unfold chunksOf; simp [chunksOf]
    rw [this]
    simp [chunkExt, simdFold, lanes4, minOps, ExtOps.keep, hinf, hx]
  unfold ChunkReduce at hd
  rw [hc] at hd
  have : ∀ l s, Rayon (minOps V).best (minOps V).far l s → (∀ z ∈ l, z = posInf) → s = posInf := by
    intro l s hs
    induction hs with
    | unit => intro _; rfl
    | one z => intro h; exact h z (by simp)
    | join _ _ h1 h2 =>
      intro h
      rw [h1 fun z hz => h z (List.mem_append_left _ hz), h2 fun z hz => h z (List.mem_append_right _ hz)]
      exact hinf
  have hdp := this _ _ hd (by simp)
  exact hdp

/-! ### Witnesses: the integers with two infinities -/

abbrev ExtInt := WithBot (WithTop ℤ)

def ExtInt.of (z : ℤ) : ExtInt := ((z : WithTop ℤ) : WithBot (WithTop ℤ))

instance : HasLt ExtInt := ⟨fun x y => decide (x < y)⟩
instance : HasMinMax ExtInt := ⟨min, max, min, max, ((⊤ : WithTop ℤ) : WithBot (WithTop ℤ)), ⊥⟩

theorem extInt_ideal : IdealMinMax ExtInt where
  fmin_eq _ _ := rfl
  fmax_eq _ _ := rfl
  vmin_eq _ _ := rfl
  vmax_eq _ _ := rfl
  flt_iff _ _ := decide_eq_true_iff
  le_posInf x := by
    show x ≤ ((⊤ : WithTop ℤ) : WithBot (WithTop ℤ))
    exact WithBot.recBotCoe bot_le (fun x => WithBot.coe_le_coe.2 le_top) x
  negInf_le _ := bot_le

/-- `[[5, 0, 6], [0, -7, 0]]`. -/
def exE : Csr ExtInt := ⟨2, 3, [0, 2, 3], [0, 2, 1], [.of 5, .of 6, .of (-7)]⟩
theorem exE_wf : exE.WF :=
  ((csr_fromParts_iff 2 3 [0, 2, 3] [0, 2, 1] [.of 5, .of 6, .of (-7)] (by decide) exE).1 (by rfl)).2.2

example : (∃ r, ExtRun (minOps ExtInt) exE.nrows exE.ncols exE.data r) ∧
    (∀ r, ExtRun (minOps ExtInt) exE.nrows exE.ncols exE.data r → r = ExtInt.of (-7)) ∧
    (∀ r, ExtRun (maxOps ExtInt) exE.nrows exE.ncols exE.data r → r = ExtInt.of 6) := by
  obtain ⟨h1, h2⟩ := minmax_csr_correct extInt_ideal exE_wf (by decide) (by decide) (by decide)
  have hc : exE.cells = [.of 5, .of 0, .of 6, .of 0, .of (-7), .of 0] := by decide
  refine ⟨ext_runs _ _ _ _, fun r hr => ?_, fun r hr => ?_⟩
  · have := h1 r hr
    rw [hc] at this
    obtain ⟨hm, hle⟩ := this
    have h7 : r ≤ .of (-7) := hle _ (by decide)
    simp only [List.mem_cons, List.not_mem_nil, or_false] at hm
    rcases hm with rfl | rfl | rfl | rfl | rfl | rfl <;> first | rfl | exact absurd h7 (by decide)
  · have := h2 r hr
    rw [hc] at this
    obtain ⟨hm, hle⟩ := this
    have h6 : .of 6 ≤ r := hle _ (by decide)
    simp only [List.mem_cons, List.not_mem_nil, or_false] at hm
    rcases hm with rfl | rfl | rfl | rfl | rfl | rfl <;> first | rfl | exact absurd h6 (by decide)

example : lineExts (minOps ExtInt) exE.comp = [.of 0, .of (-7)] ∧
    lineExts (maxOps ExtInt) exE.comp = [.of 6, .of 0] := by decide

example (threads : Nat) : ∃ y, ColExtsRun (minOps ExtInt) (List.insertionSort pairLe) threads exE y ∧
    AreMins 3 exE.colCells y := by
  obtain ⟨h1, h2, _⟩ := col_minmax_csr_correct extInt_ideal exE_wf ⟨by decide, by decide⟩ (by decide)
    isPairSort_insertionSort threads
  obtain ⟨y, hy⟩ := h1 (minOps ExtInt)
  exact ⟨y, hy, h2 y hy⟩

/-- `[[0, 3], [4, 5]]` as COO. -/
def exEc : Coo ExtInt := ⟨2, 2, [1, 0, 1], [1, 1, 0], [.of 5, .of 3, .of 4]⟩
example (nthreads : Nat) : exEc.WF ∧ exEc.NoDup ∧
    ∃ y, RowExtsCooRun (minOps ExtInt) nthreads exEc y ∧ AreMins 2 exEc.rowCells y := by
  have hw : exEc.WF := ⟨rfl, rfl, by decide, by decide⟩
  have hd : exEc.NoDup := by unfold Coo.NoDup; decide
  obtain ⟨⟨⟨y, hy⟩, h⟩, _⟩ := row_minmax_coo_correct extInt_ideal nthreads hw ⟨by decide, by decide⟩ hd
    (by decide)
  exact ⟨hw, hd, y, hy, h y hy⟩

/-- A 1×2 COO matrix that stores the cell (0,0) twice, as 3 and 4. -/
def exEd : Coo ExtInt := ⟨1, 2, [0, 0], [0, 0], [.of 3, .of 4]⟩

/-- C36, negative part: with a coordinate stored twice the kernels take the two parts for two
cells.  The cells are `[7, 0]`, but the kernel returns the minimum 3 and the maximum 4. -/
theorem minmax_coo_duplicates_wrong :
    exEd.WF ∧ exEd.cells = [.of 7, .of 0] ∧
    (∀ r, ExtRun (minOps ExtInt) exEd.nrows exEd.ncols exEd.data r → r = .of 3 ∧ ¬ IsMinOf exEd.cells r) ∧
    (∀ r, ExtRun (maxOps ExtInt) exEd.nrows exEd.ncols exEd.data r → r = .of 4 ∧ ¬ IsMaxOf exEd.cells r) := by
  have hc : exEd.cells = [.of 7, .of 0] := by decide
  refine ⟨⟨rfl, rfl, by decide, by decide⟩, hc, fun r hr => ?_, fun r hr => ?_⟩
  · unfold ExtRun at hr
    rw [if_neg (by decide)] at hr
    obtain ⟨d, hd, rfl⟩ := hr
    rw [(minLaw extInt_ideal).extRun_eq hd]
    have : exEd.data.foldl (minOps ExtInt).best (minOps ExtInt).far = ExtInt.of 3 := by decide
    rw [this, hc]
    exact ⟨rfl, fun h => absurd h.1 (by decide)⟩
  · unfold ExtRun at hr
    rw [if_neg (by decide)] at hr
    obtain ⟨d, hd, rfl⟩ := hr
    rw [(maxLaw extInt_ideal).extRun_eq hd]
    have : exEd.data.foldl (maxOps ExtInt).best (maxOps ExtInt).far = ExtInt.of 4 := by decide
    rw [this, hc]
    exact ⟨rfl, fun h => absurd h.1 (by decide)⟩

end Lacuna
