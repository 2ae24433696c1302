import Verif.Props.PyReduceOps
/-
C53: `count_nonzero` of the Python layer.  It counts stored entries, so it is right exactly when
nothing stored is zero and no coordinate is stored twice.
-/
namespace Lacuna
universe u
variable {V : Type u}

theorem countP_eq_sum' {α : Type*} (p : α → Bool) (l : List α) :
    l.countP p = (l.map fun x => if p x then 1 else 0).sum := by
  induction l with
  | nil => rfl
  | cons x l ih => rw [List.countP_cons, ih, List.map_cons, List.sum_cons, Nat.add_comm]

section
variable [AddZeroClass V] [BEq V] (h0 : ((0 : V) == 0) = true)
include h0

theorem countNz_stored {l s : List V} {k : Nat} (hp : l.Perm (s ++ List.replicate k 0))
    (hs : ∀ v ∈ s, (v == 0) = false) : countNz l = s.length := by
  unfold countNz
  rw [hp.countP_eq, List.countP_append, List.countP_eq_length.2 (fun v hv => by simp [hs v hv]),
    List.countP_eq_zero.2 (fun v hv => by rw [List.eq_of_mem_replicate hv]; simp [h0])]
  rfl

theorem count_line {a : Comp V} (ha : a.WF) (hz : a.NoZeros) (i : Nat) :
    countNz ((List.range a.m).map (a.val i)) = (a.row i).length := by
  rw [countNz_stored h0 (ha.line_perm i), List.length_map]
  intro v hv
  obtain ⟨e, he, rfl⟩ := List.mem_map.1 hv
  refine hz e.2 ?_
  unfold Comp.row at he
  exact (List.of_mem_zip (List.mem_of_mem_drop (List.mem_of_mem_take he) : e ∈ a.indices.zip a.data)).2

/-- Counting one index over all lines. -/
theorem count_minor {a : Comp V} (ha : a.WF) (hz : a.NoZeros) (j : Nat) :
    countNz ((List.range a.n).map fun i => a.val i j) = a.indices.count (j : Int) := by
  have hcell : ∀ i, (if !(a.val i j == 0) then 1 else 0) = ((a.row i).map Prod.fst).count (j : Int) := by
    intro i
    rw [ha.val_eq_stored, Comp.stored_eq_lk]
    cases hl : lk (j : Int) (a.row i) with
    | none =>
      rw [lk_eq_none_iff] at hl
      rw [List.count_eq_zero.2 (fun hm => by
        obtain ⟨e, he, hej⟩ := List.mem_map.1 hm
        exact hl e he hej)]
      simp [h0]
    | some v =>
      have hm := lk_mem hl
      have hv : (v == 0) = false := by
        refine hz v ?_
        unfold Comp.row at hm
        exact (List.of_mem_zip (List.mem_of_mem_drop (List.mem_of_mem_take hm) : ((j : Int), v) ∈ a.indices.zip a.data)).2
      rw [List.count_eq_one_of_mem (Comp.srt_nodup (srt_row ha i)) (List.mem_map.2 ⟨_, hm, rfl⟩)]
      simp [hv]
  rw [ha.wfu.indices_eq]
  unfold countNz Comp.rows
  rw [List.countP_map, countP_eq_sum', List.map_flatten, List.count_flatten, List.map_map, List.map_map]
  congr 1
  refine List.map_congr_left fun i _ => ?_
  exact hcell i

theorem count_all {a : Comp V} (ha : a.WF) (hz : a.NoZeros) : countNz (cellsOf a.n a.m a.val) = a.data.length :=
  countNz_stored h0 ha.cells_perm hz
end

theorem npDiff_length (l : List Int) : (npDiff l).length = l.length - 1 := by
  induction l with
  | nil => rfl
  | cons a l ih =>
    cases l with
    | nil => rfl
    | cons b l => rw [npDiff, List.length_cons, ih]; simp

theorem npDiff_get (l : List Int) (i : Nat) (r : Int) (h : (npDiff l)[i]? = some r) :
    r = l.getD (i + 1) 0 - l.getD i 0 := by
  induction l generalizing i with
  | nil => simp [npDiff] at h
  | cons a l ih =>
    cases l with
    | nil => simp [npDiff] at h
    | cons b l =>
      rw [npDiff] at h
      cases i with
      | zero => simpa using h.symm
      | succ i =>
        rw [List.getElem?_cons_succ] at h
        simpa using ih i h

/-- `np.diff(indptr)` lists the line lengths. -/
theorem npDiff_lines {a : Comp V} (ha : a.WFU) :
    (npDiff a.indptr).length = a.n ∧ ∀ i r, (npDiff a.indptr)[i]? = some r → r = ((a.row i).length : Int) := by
  have hlen : (npDiff a.indptr).length = a.n := by rw [npDiff_length, ha.ptr_length]; rfl
  refine ⟨hlen, fun i r h => ?_⟩
  have hi : i < a.n := by
    have := (List.getElem?_eq_some_iff.1 h).1
    omega
  rw [npDiff_get _ _ _ h, row_length_ptr ha hi, ← ha.ptr_cast (i := i + 1) (by omega), ← ha.ptr_cast (i := i) (by omega)]
  have := ha.ptr_mono' (i := i) (j := i + 1) (by omega) (by omega)
  omega

theorem foldl_max (xs : List Int) (n : Nat) (h : ∀ x ∈ xs, x.toNat < n) :
    xs.foldl (fun (m : Nat) x => max m (x.toNat + 1)) n = n := by
  induction xs with
  | nil => rfl
  | cons x xs ih =>
    rw [List.foldl_cons, Nat.max_eq_left (h x List.mem_cons_self)]
    exact ih fun y hy => h y (List.mem_cons_of_mem _ hy)

/-- `np.bincount` of in-range indices lists the multiplicities. -/
theorem npBincount_eq {xs : List Int} {n : Nat} (h : ∀ x ∈ xs, 0 ≤ x ∧ x < n) :
    npBincount xs n = .ok ((List.range n).map fun (j : Nat) => (xs.count (j : Int) : Int)) := by
  unfold npBincount
  rw [if_neg (by
    rw [List.any_eq_true]
    rintro ⟨x, hx, hn⟩
    have := h x hx
    simp at hn
    omega), foldl_max xs n (fun x hx => by have := h x hx; omega)]

section
variable [AddZeroClass V] [BEq V] (h0 : ((0 : V) == 0) = true)
include h0

/-- C53: `count_nonzero` of a CSR matrix that stores no zeros. -/
theorem count_nonzero_csr {a : Csr V} (ha : a.WF) (hz : a.comp.NoZeros) :
    Reduces a.nrows a.ncols (fun l r => r = (countNz l : Int)) a.val (countNonzeroCsr a) := by
  intro arg keep hv hne
  unfold countNonzeroCsr
  rw [npBincount_eq (xs := a.indices) (n := a.ncols) ha.bounds]
  refine reduce2d_correct ⟨?_, ?_, ?_⟩ arg keep hv hne
  · exact congrArg Nat.cast (count_all h0 ha hz).symm
  · exact lines_eq (P := fun l r => r = (countNz l : Int)) (cells := fun j => (List.range a.nrows).map fun i => a.val i j) rfl
      fun j _ => congrArg Nat.cast (count_minor h0 ha hz j).symm
  · refine ⟨(npDiff_lines ha.wfu).1, fun i r h => ?_⟩
    rw [(npDiff_lines ha.wfu).2 i r h]
    exact congrArg Nat.cast (count_line h0 ha hz i).symm

/-- C53: `count_nonzero` of a CSC matrix that stores no zeros. -/
theorem count_nonzero_csc {a : Csc V} (ha : a.WF) (hz : a.comp.NoZeros) :
    Reduces a.nrows a.ncols (fun l r => r = (countNz l : Int)) a.val (countNonzeroCsc a) := by
  intro arg keep hv hne
  unfold countNonzeroCsc
  rw [npBincount_eq (xs := a.indices) (n := a.nrows) ha.bounds]
  refine reduce2d_correct ⟨?_, ?_, ?_⟩ arg keep hv hne
  · refine congrArg Nat.cast ?_
    refine (count_all h0 ha hz).symm.trans ?_
    unfold countNz
    exact (cellsOf_swap a.ncols a.nrows fun j i => a.val i j).countP_eq _
  · refine ⟨(npDiff_lines ha.wfu).1, fun i r h => ?_⟩
    rw [(npDiff_lines ha.wfu).2 i r h]
    exact congrArg Nat.cast (count_line h0 ha hz i).symm
  · exact lines_eq (P := fun l r => r = (countNz l : Int)) (cells := fun i => (List.range a.ncols).map fun j => a.val i j) rfl
      fun j _ => congrArg Nat.cast (count_minor h0 ha hz j).symm

omit h0 [AddZeroClass V] [BEq V] in
theorem Coo.WF.row_eq {a : Coo V} (h : a.WF) : a.row = a.triples.map fun t => t.1.1 := by
  have : a.triples.map (fun t => t.1.1) = (a.triples.map Prod.fst).map Prod.fst := by rw [List.map_map]; rfl
  rw [this]
  unfold Coo.triples
  rw [List.map_fst_zip (by rw [List.length_zip, h.row_length, h.col_length]; simp),
    List.map_fst_zip (by rw [h.row_length, h.col_length])]

omit h0 [AddZeroClass V] [BEq V] in
theorem Coo.WF.col_eq {a : Coo V} (h : a.WF) : a.col = a.triples.map fun t => t.1.2 := by
  have : a.triples.map (fun t => t.1.2) = (a.triples.map Prod.fst).map Prod.snd := by rw [List.map_map]; rfl
  rw [this]
  unfold Coo.triples
  rw [List.map_fst_zip (by rw [List.length_zip, h.row_length, h.col_length]; simp),
    List.map_snd_zip (by rw [h.row_length, h.col_length])]

/-- C53: `count_nonzero` of a COO matrix that stores no zeros and no coordinate twice. -/
theorem count_nonzero_coo {a : Coo V} (ha : a.WF) (hd : a.NoDup) (hz : ∀ v ∈ a.data, (v == 0) = false) :
    Reduces a.nrows a.ncols (fun l r => r = (countNz l : Int)) a.val (countNonzeroCoo a) := by
  intro arg keep hv hne
  have hv' : ∀ p : (Int × Int) × V → Bool, ∀ v ∈ (a.triples.filter p).map Prod.snd, (v == 0) = false := by
    intro p v hv
    obtain ⟨t, ht, rfl⟩ := List.mem_map.1 hv
    exact hz _ (List.of_mem_zip (List.mem_filter.1 ht).1).2
  unfold countNonzeroCoo
  rw [npBincount_eq ha.row_bounds, npBincount_eq ha.col_bounds]
  refine reduce2d_correct ⟨?_, ?_, ?_⟩ arg keep hv hne
  · exact congrArg Nat.cast (countNz_stored h0 (ha.cells_perm hd) hz).symm
  · refine lines_eq (P := fun l r => r = (countNz l : Int)) (cells := fun j => (List.range a.nrows).map fun i => a.val i j) rfl
      fun j _ => congrArg Nat.cast ?_
    show a.col.count (j : Int) = countNz (a.colCells j)
    rw [countNz_stored h0 (ha.col_perm hd j) (hv' _), List.length_map, ha.col_eq, List.count, List.countP_map,
      List.countP_eq_length_filter]
    rfl
  · refine lines_eq (P := fun l r => r = (countNz l : Int)) (cells := fun i => (List.range a.ncols).map fun j => a.val i j) rfl
      fun j _ => congrArg Nat.cast ?_
    show a.row.count (j : Int) = countNz (a.rowCells j)
    rw [countNz_stored h0 (ha.row_perm hd j) (hv' _), List.length_map, ha.row_eq, List.count, List.countP_map,
      List.countP_eq_length_filter]
    rfl
end

/-- C53, negative part: an explicitly stored zero is counted.  The 1×2 matrix below is well formed
and has one non-zero element, `count_nonzero` returns 2. -/
theorem count_nonzero_explicit_zero :
    let a : Csr Int := ⟨1, 2, [0, 2], [0, 1], [5, 0]⟩
    a.WF ∧ countNz a.cells = 1 ∧ countNonzeroCsr a .none false = .ok ⟨[], [2]⟩ ∧
      countNonzeroCsr a (.one 0) false = .ok ⟨[2], [1, 1]⟩ :=
  ⟨((csr_fromParts_iff 1 2 [0, 2] [0, 1] [(5 : Int), 0] (by decide) _).1 rfl).2.2, by decide, by decide, by decide⟩

/-- C53, negative part: a coordinate stored twice is counted twice. -/
theorem count_nonzero_coo_duplicates :
    exDup.WF ∧ countNz exDup.cells = 2 ∧ countNonzeroCoo exDup .none false = .ok ⟨[], [3]⟩ ∧
      countNonzeroCoo exDup (.one 1) true = .ok ⟨[3, 1], [2, 0, 1]⟩ ∧ countNz (exDup.rowCells 0) = 1 :=
  ⟨exDup_wf, by decide, by decide, by decide, by decide⟩

example : exA.WF ∧ exA.comp.NoZeros ∧ countNonzeroCsr exA (.many [-1, 1]) true = .ok ⟨[2, 1], [2, 1]⟩ ∧
    countNonzeroCsr exA (.one (-2)) false = .ok ⟨[3], [1, 1, 1]⟩ :=
  ⟨exA_wf, by unfold Comp.NoZeros; decide, by decide, by decide⟩
example : exC.WF ∧ exC.comp.NoZeros ∧ countNonzeroCsc exC (.many [0, 1]) true = .ok ⟨[1, 1], [3]⟩ :=
  ⟨exC_wf, by unfold Comp.NoZeros; decide, by decide⟩
example : exFullCoo.WF ∧ exFullCoo.NoDup ∧ (∀ v ∈ exFullCoo.data, (v == 0) = false) := by
  refine ⟨⟨rfl, rfl, by decide, by decide⟩, by unfold Coo.NoDup; decide, by decide⟩

end Lacuna
