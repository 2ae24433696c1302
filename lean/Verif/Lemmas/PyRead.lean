import Verif.Spec.PyRead
import Verif.Lemmas.PyBitsProg
import Verif.Props.PyIndex
/-
Dense arrays as tables of their cells, NumPy's strides, and the densification of the four classes.
-/
set_option linter.unusedSectionVars false

namespace Lacuna
variable {V : Type}

/-! ### dense arrays -/

theorem indicesOf_rowMajor (s : List Nat) : (indicesOf s).map (rowMajor s) = List.range s.prod := by
  have hs : ((indicesOf s).map (rowMajor s)).Pairwise (· < ·) := by
    rw [List.pairwise_map]
    refine (indicesOf_sorted s).imp_of_mem fun hx hy h => ?_
    exact (rowMajor_lt_iff (mem_indicesOf.1 hx) (mem_indicesOf.1 hy)).2 h
  refine List.Perm.eq_of_pairwise (le := (· < ·)) ?_ hs List.pairwise_lt_range ?_
  · intro a b _ _ h1 h2; omega
  · rw [List.perm_ext_iff_of_nodup (hs.imp fun h => by omega) List.nodup_range]
    intro k
    rw [List.mem_map, List.mem_range]
    constructor
    · rintro ⟨x, hx, rfl⟩; exact rowMajor_lt (mem_indicesOf.1 hx)
    · intro hk
      obtain ⟨h1, h2⟩ := unravel_spec hk
      exact ⟨_, mem_indicesOf.2 h1, h2⟩

theorem isDenseNd_eq [Zero V] {s : List Nat} {f : List Int → V} {out : List V} (h : IsDenseNd s f out) :
    out = (indicesOf s).map f := by
  have h1 : out = (List.range s.prod).map fun k => out.getD k 0 := by
    rw [← h.1]
    apply List.ext_getElem (by simp)
    intro k h1 h2
    simp [h1]
  rw [h1, ← indicesOf_rowMajor, List.map_map]
  exact List.map_congr_left fun x hx => h.2 x (mem_indicesOf.1 hx)

theorem isDenseNd_of [Zero V] (s : List Nat) (f : List Int → V) : IsDenseNd s f ((indicesOf s).map f) := by
  refine ⟨by rw [List.length_map, indicesOf_length], fun x hx => ?_⟩
  have hk := rowMajor_lt hx
  have hl : rowMajor s x < (indicesOf s).length := by rw [indicesOf_length]; exact hk
  have e : (indicesOf s)[rowMajor s x] = x := by
    apply rowMajor_inj (mem_indicesOf.1 (List.getElem_mem hl)) hx
    have := congrArg (fun l => l[rowMajor s x]?) (indicesOf_rowMajor s)
    simp only [List.getElem?_map, List.getElem?_range hk, List.getElem?_eq_getElem hl, Option.map_some, Option.some.injEq] at this
    exact this
  rw [List.getD_eq_getElem?_getD, List.getElem?_map, List.getElem?_eq_getElem hl, e]
  rfl

theorem denseOf_elem [Zero V] {s : List Nat} {f : List Int → V} {x : List Int} (h : InBounds s x) : (denseOf s f).elem x = f x :=
  (isDenseNd_of s f).2 x h

theorem denseOf_congr {W : Type} {s : List Nat} {f g : List Int → W} (h : ∀ x, InBounds s x → f x = g x) :
    denseOf s f = denseOf s g := by
  unfold denseOf
  rw [List.map_congr_left fun x hx => h x (mem_indicesOf.1 hx)]

theorem isDense_nd [Zero V] {n m : Nat} {f : Nat → Nat → V} {out : List V} (h : IsDense n m f out) {g : List Int → V}
    (hg : ∀ i j : Nat, i < n → j < m → f i j = g [(i : Int), (j : Int)]) : IsDenseNd [n, m] g out := by
  refine ⟨by rw [h.1]; simp, fun x hx => ?_⟩
  obtain ⟨i, j, rfl, hi, hj⟩ := inBounds_pair hx
  rw [← hg i j hi hj, ← h.2 i j hi hj]
  simp [rowMajor]

/-! ### broadcasting -/

/-- The common length of two dimensions. -/
def bdim (d : Nat × Nat) : Option Nat :=
  if d.1 = d.2 then some d.1 else if d.1 = 1 then some d.2 else if d.2 = 1 then some d.1 else none

theorem mapM_cons_opt {α β : Type} (f : α → Option β) (x : α) (l : List α) :
    (x :: l).mapM f = (f x).bind fun y => (l.mapM f).map (y :: ·) := by
  rw [List.mapM_cons]
  cases f x with
  | none => rfl
  | some y => cases l.mapM f <;> rfl

theorem mapM_append_opt {α β : Type} (f : α → Option β) (l m : List α) :
    (l ++ m).mapM f = (l.mapM f).bind fun u => (m.mapM f).map (u ++ ·) := by
  induction l with
  | nil => cases h : m.mapM f <;> simp [h]
  | cons x l ih =>
    rw [List.cons_append, mapM_cons_opt, mapM_cons_opt, ih]
    cases f x with
    | none => rfl
    | some y => cases l.mapM f with
      | none => rfl
      | some u => cases m.mapM f <;> rfl

theorem mapM_reverse_opt {α β : Type} (f : α → Option β) (l : List α) : l.reverse.mapM f = (l.mapM f).map List.reverse := by
  induction l with
  | nil => rfl
  | cons x l ih =>
    rw [List.reverse_cons, mapM_append_opt, ih, mapM_cons_opt, mapM_cons_opt]
    cases l.mapM f with
    | none => cases f x <;> rfl
    | some u => cases f x with
      | none => rfl
      | some y => simp

theorem ones_right (t : List Nat) : ((List.replicate t.length 1).zip t).mapM bdim = some t := by
  induction t with
  | nil => rfl
  | cons y t ih =>
    rw [List.length_cons, List.replicate_succ, List.zip_cons_cons, mapM_cons_opt, ih]
    unfold bdim
    by_cases h : 1 = y
    · subst h; simp
    · simp [h]

theorem ones_left (t : List Nat) : (t.zip (List.replicate t.length 1)).mapM bdim = some t := by
  induction t with
  | nil => rfl
  | cons y t ih =>
    rw [List.length_cons, List.replicate_succ, List.zip_cons_cons, mapM_cons_opt, ih]
    unfold bdim
    by_cases h : y = 1
    · subst h; simp
    · simp [h]

theorem bcastRev_mapM (s t : List Nat) :
    ((s ++ List.replicate (max s.length t.length - s.length) 1).zip
      (t ++ List.replicate (max s.length t.length - t.length) 1)).mapM bdim = bcastRev s t := by
  induction s generalizing t with
  | nil => simpa [bcastRev] using ones_right t
  | cons x s ih =>
    cases t with
    | nil =>
      have : bcastRev (x :: s) [] = some (x :: s) := rfl
      rw [this]
      simpa using ones_left (x :: s)
    | cons y t =>
      have e1 : max (x :: s).length (y :: t).length - (x :: s).length = max s.length t.length - s.length := by
        simp only [List.length_cons]; omega
      have e2 : max (x :: s).length (y :: t).length - (y :: t).length = max s.length t.length - t.length := by
        simp only [List.length_cons]; omega
      rw [e1, e2, List.cons_append, List.cons_append, List.zip_cons_cons, mapM_cons_opt, ih]
      rw [bcastRev]
      unfold bdim
      by_cases h1 : x = y
      · simp [h1]
      · by_cases h2 : y = 1
        · subst h2; simp [h1]
        · by_cases h3 : x = 1
          · subst h3; simp [h1, h2]
          · simp [h1, h2, h3]

theorem zip_reverse_eq {α β : Type} {l : List α} {m : List β} (h : l.length = m.length) :
    (l.zip m).reverse = l.reverse.zip m.reverse := by
  rw [List.zip_eq_zipWith, List.zip_eq_zipWith, List.reverse_zipWith h]

/-- NumPy's common shape. -/
theorem npBroadcast_eq (s t : List Nat) : npBroadcast s t = bcastTo s t := by
  unfold npBroadcast bcastTo
  rw [← bcastRev_mapM, ← mapM_reverse_opt, zip_reverse_eq]
  · simp only [List.length_reverse, List.reverse_append, List.reverse_reverse, List.reverse_replicate]
    rfl
  · simp only [List.length_reverse, List.length_append, List.length_replicate]; omega

theorem npOffset_eq {s : List Nat} {x : List Int} (h : s.length ≤ x.length) :
    npOffset s x = rowMajor s (bcastIndex s x) := by
  unfold npOffset bcastIndex
  have hl : (x.drop (x.length - s.length)).length = s.length := by rw [List.length_drop]; omega
  generalize x.drop (x.length - s.length) = z at hl
  induction s generalizing z with
  | nil => simp [npStrides, rowMajor]
  | cons d s ih =>
    cases z with
    | nil => simp at hl
    | cons i z =>
      rw [npStrides, List.zipWith_cons_cons, List.zipWith_cons_cons, List.sum_cons, rowMajor,
        ih (Nat.le_of_succ_le h) z (by simpa using hl)]
      by_cases h1 : d = 1 <;> simp [h1]

theorem bcastRev_pos {s t u : List Nat} (h : bcastRev s t = some u) (hu : ∀ d ∈ u, 0 < d) :
    (∀ d ∈ s, 0 < d) ∧ (∀ d ∈ t, 0 < d) := by
  induction s generalizing t u with
  | nil => cases h; exact ⟨by simp, hu⟩
  | cons x s ih =>
    cases t with
    | nil => cases h; exact ⟨hu, by simp⟩
    | cons y t =>
      rw [bcastRev] at h
      split_ifs at h with h1 h2
      · obtain ⟨v, hv, rfl⟩ := Option.map_eq_some_iff.1 h
        obtain ⟨i1, i2⟩ := ih hv fun d hd => hu d (by simp [hd])
        have := hu x (by simp)
        refine ⟨fun d hd => ?_, fun d hd => ?_⟩ <;> rcases List.mem_cons.1 hd with e | e
        · omega
        · exact i1 d e
        · omega
        · exact i2 d e
      · obtain ⟨v, hv, rfl⟩ := Option.map_eq_some_iff.1 h
        obtain ⟨i1, i2⟩ := ih hv fun d hd => hu d (by simp [hd])
        have := hu y (by simp)
        refine ⟨fun d hd => ?_, fun d hd => ?_⟩ <;> rcases List.mem_cons.1 hd with e | e
        · omega
        · exact i1 d e
        · omega
        · exact i2 d e

theorem inBounds_pos {u : List Nat} {x : List Int} (h : InBounds u x) : ∀ d ∈ u, 0 < d := by
  induction h with
  | nil => simp
  | cons h1 _ ih =>
    intro d hd
    rcases List.mem_cons.1 hd with e | e
    · omega
    · exact ih d e

/-- The cells of the operands that a cell of the common shape is computed from. -/
theorem bcast_cells {s t u : List Nat} (h : bcastTo s t = some u) {x : List Int} (hx : InBounds u x) :
    s.length ≤ x.length ∧ t.length ≤ x.length ∧ InBounds s (bcastIndex s x) ∧ InBounds t (bcastIndex t x) := by
  have hp := inBounds_pos hx
  obtain ⟨v, hv, rfl⟩ := Option.map_eq_some_iff.1 h
  obtain ⟨p1, p2⟩ := bcastRev_pos hv fun d hd => hp d (by simpa using hd)
  have p1 : ∀ d ∈ s, 0 < d := fun d hd => p1 d (by simpa using hd)
  have p2 : ∀ d ∈ t, 0 < d := fun d hd => p2 d (by simpa using hd)
  have hb := bcastTo_some p1 p2 h
  have hl := hx.length_eq
  have hr := hb.rank
  exact ⟨by omega, by omega, bcastIndex_inBounds (.inl hb) p1 hx, bcastIndex_inBounds (.inr hb) p2 hx⟩

/-! ### densification -/

theorem npShape_nat (s : List Nat) : npShape (s.map Int.ofNat) = .ok s := by
  unfold npShape
  rw [if_neg]
  · rw [List.map_map]
    congr 1
    conv_rhs => rw [← List.map_id s]
    exact List.map_congr_left fun x _ => rfl
  · rintro ⟨d, hd, h⟩
    obtain ⟨n, -, rfl⟩ := List.mem_map.1 hd
    exact absurd h (by simp)

section
variable [Zero V] [Add V]

theorem head_stored {f : Fmt} {a : Comp V} (h : a.WF) (i j : Nat) :
    (valuesAt (SpVal.mat f a).stores (f.cell i j)).head? = a.stored i j := by
  let _ : Add V := ⟨fun x _ => x⟩
  rw [← total_stores h, total_eq_sumAll]
  cases valuesAt (SpVal.mat f a).stores (f.cell i j) with
  | nil => rfl
  | cons v vs =>
    show some v = some (vs.foldl (fun s _ => s) v)
    congr 1
    induction vs with
    | nil => rfl
    | cons w vs ih => exact ih

theorem denseCell_mat {f : Fmt} {a : Comp V} (h : a.WF) (i j : Nat) :
    denseCell true (SpVal.mat f a).stores (f.cell i j) = (a.stored i j).getD 0 := by
  rw [← head_stored (f := f) h, denseCell, if_pos rfl, List.headD_eq_head?_getD]

theorem toarray_coo_machine {a : Coo V} (h : a.WF) :
    ∃ out, toarrayCoo a = .ok out ∧ IsDense a.nrows a.ncols
      (fun i j => denseCell false (SpVal.coo a).stores [(i : Int), (j : Int)]) out := by
  refine ⟨_, toarrayCoo_eq h, ?_, ?_⟩
  · rw [addAll_length, List.length_replicate]
  · intro i j hi hj
    rw [addAll_slot _ _ _ (by rw [List.length_replicate]; exact cell_lt hi hj), replicate_getD_zero]
    dsimp only [denseCell, valuesAt, SpVal.stores]
    rw [if_neg (by simp), List.filter_map, List.map_map, List.filter_map, List.map_map]
    congr 2
    apply List.filter_congr
    intro t ht
    have h1 := List.of_mem_zip (show (t.1, t.2) ∈ (a.row.zip a.col).zip a.data from ht)
    have h2 := List.of_mem_zip (show (t.1.1, t.1.2) ∈ a.row.zip a.col from h1.1)
    have b1 := h.row_bounds _ h2.1
    have b2 := h.col_bounds _ h2.2
    rw [Function.comp, Function.comp, Bool.eq_iff_iff, beq_iff_eq, beq_iff_eq]
    simp only [List.cons.injEq, and_true]
    constructor
    · intro hp; have := cell_inj (by omega) hj hp; omega
    · rintro ⟨h3, h4⟩; rw [h3, h4]; rfl

theorem dense_nd_machine {a : CooNd V} (h : a.WF) :
    ∃ out, denseNd a = .ok out ∧ IsDenseNd a.shape (denseCell false (SpVal.nd a).stores) out := by
  refine ⟨_, denseNd_eq h, by rw [addAll_length, List.length_replicate], fun x hx => ?_⟩
  rw [addAll_slot _ _ _ (by rw [List.length_replicate]; exact rowMajor_lt hx), replicate_getD_zero]
  dsimp only [denseCell, valuesAt, SpVal.stores]
  rw [if_neg (by simp), List.filter_map, List.map_map]
  congr 2
  apply List.filter_congr
  intro e he
  rw [Function.comp, Bool.eq_iff_iff, beq_iff_eq, beq_iff_eq]
  exact ⟨fun hp => rowMajor_inj (h.entries_inBounds e he) hx hp, fun hp => by rw [hp]⟩

/-- The dense array the comparison functions make of an object of the four classes. -/
theorem dense_obj {w : SpVal V} (h : w.Valid) :
    w.obj.dense = .ok (denseOf w.ty.shape (denseCell w.ty.compressed w.stores)) := by
  cases w with
  | mat f a =>
    have hw : a.WF := h
    cases f with
    | csr =>
      obtain ⟨out, h1, h2⟩ := toarray_csr_last (a := a.toCsr) hw.wfu
      have h3 := isDenseNd_eq (isDense_nd h2 (g := denseCell true (SpVal.mat .csr a).stores) fun i j _ _ => by
        show (a.lastStored i j).getD 0 = _
        rw [lastStored_noRep hw.noRep]; exact (denseCell_mat (f := .csr) hw i j).symm)
      show ((npShape ([a.n, a.m].map Int.ofNat)).bind fun s => (toarrayCsr a.toCsr).map fun d => (⟨s, d⟩ : DenseNd V)) = _
      rw [npShape_nat, h1, h3]
      rfl
    | csc =>
      obtain ⟨out, h1, h2⟩ := toarray_csc_last (a := a.toCsc) hw.wfu
      have h3 := isDenseNd_eq (isDense_nd h2 (g := denseCell true (SpVal.mat .csc a).stores) fun i j _ _ => by
        show (a.lastStored j i).getD 0 = _
        rw [lastStored_noRep hw.noRep]; exact (denseCell_mat (f := .csc) hw j i).symm)
      show ((npShape ([a.m, a.n].map Int.ofNat)).bind fun s => (toarrayCsc a.toCsc).map fun d => (⟨s, d⟩ : DenseNd V)) = _
      rw [npShape_nat, h1, h3]
      rfl
  | coo a =>
    obtain ⟨hw, -⟩ : a.WF ∧ a.I64 := h
    obtain ⟨out, h1, h2⟩ := toarray_coo_machine hw
    have h3 := isDenseNd_eq (isDense_nd h2 (g := denseCell false (SpVal.coo a).stores) fun i j _ _ => rfl)
    show ((npShape ([a.nrows, a.ncols].map Int.ofNat)).bind fun s => (toarrayCoo a).map fun d => (⟨s, d⟩ : DenseNd V)) = _
    rw [npShape_nat, h1, h3]
    rfl
  | nd a =>
    obtain ⟨hw, -⟩ : a.WF ∧ a.I64 := h
    obtain ⟨out, h1, h2⟩ := dense_nd_machine hw
    have h3 := isDenseNd_eq h2
    have e : (⟨(a.shape.map Int.ofNat).map Int.toNat, a.indices, a.data⟩ : CooNd V) = a := by
      have : (a.shape.map Int.ofNat).map Int.toNat = a.shape := by
        rw [List.map_map]
        conv_rhs => rw [← List.map_id a.shape]
        exact List.map_congr_left fun x _ => rfl
      rw [this]
    show ((npShape (a.shape.map Int.ofNat)).bind fun s =>
      (denseNd ⟨(a.shape.map Int.ofNat).map Int.toNat, a.indices, a.data⟩).map fun d => (⟨s, d⟩ : DenseNd V)) = _
    rw [npShape_nat, e, h1, h3]
    rfl

/-- `toarray`. -/
theorem toarray_obj {w : SpVal V} (h : w.Valid) :
    w.obj.toarray = match w.ty with
      | .nd _ => .error .attributeError
      | τ => .ok (denseOf τ.shape (denseCell τ.compressed w.stores)) := by
  cases w with
  | mat f a => exact dense_obj h
  | coo a => exact dense_obj h
  | nd a => rfl

theorem lines_length {a : Comp V} (h : a.WF) : a.lines.length = a.data.length := by
  have h1 := congrArg List.length h.flatten_rows
  rw [h.entries_length, ← h.data_length] at h1
  rw [← h1]
  unfold Comp.lines Comp.rows
  rw [List.length_flatMap, List.length_flatten, List.map_map]
  congr 1
  exact List.map_congr_left fun i _ => by simp

theorem nnz_obj {w : SpVal V} (h : w.Valid) : w.obj.nnz = w.stores.length := by
  cases w with
  | mat f a =>
    have hw : a.WF := h
    cases f with
    | csr => exact (lines_length hw).symm
    | csc => rw [stores_csc, List.length_map]; exact (lines_length hw).symm
  | coo a =>
    show _ = (a.triples.map _).length
    rw [List.length_map]
    exact h.1.triples_length.symm
  | nd a => exact a.entries_length.symm

/-- Subscripts. -/
theorem getItem_obj {search : List Int → Int → Nat} (hs : IsSearchSorted search) {w : SpVal V} (h : w.Valid) (key : Key) :
    w.obj.getItem search key = match w.ty with
      | .mat .csr r c => readCsr r c (denseCell true w.stores) key
      | _ => .error .typeError := by
  cases w with
  | coo a => rfl
  | nd a => rfl
  | mat f a =>
    cases f with
    | csc => rfl
    | csr =>
      have hw : a.WF := h
      have hwc : a.toCsr.WF := hw
      have hcell : ∀ i j : Nat, denseCell true (SpVal.mat .csr a).stores [(i : Int), (j : Int)] = (a.stored i j).getD 0 :=
        fun i j => denseCell_mat (f := .csr) hw i j
      cases key with
      | cell i j =>
        show (getItemCsr search a.toCsr i j).map ReadRes.cell = if 0 ≤ i ∧ i < (a.n : Int) ∧ 0 ≤ j ∧ j < (a.m : Int) then _ else _
        rw [getitem_csr_correct hs hwc]
        by_cases hc : 0 ≤ i ∧ i < (a.n : Int) ∧ 0 ≤ j ∧ j < (a.m : Int)
        · rw [if_pos (show 0 ≤ i ∧ i < (a.toCsr.nrows : Int) ∧ 0 ≤ j ∧ j < (a.toCsr.ncols : Int) from hc), if_pos hc]
          obtain ⟨i', rfl⟩ := Int.eq_ofNat_of_zero_le hc.1
          obtain ⟨j', rfl⟩ := Int.eq_ofNat_of_zero_le hc.2.2.1
          rw [hcell]
          rfl
        · rw [if_neg (show ¬ (0 ≤ i ∧ i < (a.toCsr.nrows : Int) ∧ 0 ≤ j ∧ j < (a.toCsr.ncols : Int)) from hc), if_neg hc]
          rfl
      | row i =>
        have hrow : ∀ i : Nat, i < a.n → getRowCsr a.toCsr (i : Int) =
            .ok ((List.range a.m).map fun (j : Nat) => denseCell true (SpVal.mat .csr a).stores [(i : Int), (j : Int)]) := by
          intro i hi
          obtain ⟨out, h1, h2, h3⟩ := getrow_csr_last (a := a.toCsr) hw.wfu hi
          rw [h1]
          congr 1
          apply List.ext_getElem (by rw [h2]; simp; rfl)
          intro j hj1 hj2
          have hj : j < a.m := by simpa using hj2
          have := h3 j hj
          rw [List.getD_eq_getElem _ _ hj1] at this
          rw [this, List.getElem_map, List.getElem_range, hcell]
          show (a.lastStored i j).getD 0 = _
          rw [lastStored_noRep hw.noRep]
        show ((npShape ([a.m].map Int.ofNat)).bind fun _ => (getRowCsr a.toCsr i).map ReadRes.line) =
          if i = -1 then _ else if -((a.n : Int) + 1) ≤ i ∧ i < (a.n : Int) then _ else _
        rw [npShape_nat]
        show (getRowCsr a.toCsr i).map ReadRes.line = _
        by_cases h1 : i = -1
        · rw [if_pos h1, h1, getrow_csr_minus_one (a := a.toCsr) hw.wfu]; rfl
        rw [if_neg h1]
        by_cases h2 : -((a.n : Int) + 1) ≤ i ∧ i < (a.n : Int)
        · rw [if_pos h2]
          by_cases h3 : i < 0
          · obtain ⟨k, hk⟩ := Int.eq_ofNat_of_zero_le (show 0 ≤ -i by omega)
            have hik : i = -(k : Int) := by omega
            rw [if_pos h3, hik, getrow_csr_negative (a := a.toCsr) hw.wfu (by omega) (by show k ≤ a.n + 1; omega)]
            show (getRowCsr a.toCsr ((a.n + 1 - k : Nat) : Int)).map _ = _
            rw [hrow _ (by omega), show -(k : Int) + ((Fmt.csr.rows a : Nat) : Int) + 1 = ((a.n + 1 - k : Nat) : Int) by show -(k : Int) + (a.n : Int) + 1 = _; omega]
            rfl
          · rw [if_neg h3]
            obtain ⟨i', rfl⟩ := Int.eq_ofNat_of_zero_le (show 0 ≤ i by omega)
            rw [hrow _ (by omega)]
            rfl
        · rw [if_neg h2, getrow_csr_rejects (a := a.toCsr) hw.wfu (by show (a.n : Int) ≤ i ∨ i < -((a.n : Int) + 1); omega)]
          rfl
      | col j =>
        show ((npShape ([a.n].map Int.ofNat)).bind fun _ => (getColCsr search a.toCsr j).map ReadRes.line) =
          Except.ok (ReadRes.line ((List.range a.n).map fun (i : Nat) => if 0 ≤ j ∧ j < (a.m : Int) then _ else _))
        rw [npShape_nat, getcol_csr_eq hs hwc]
        show Except.ok (ReadRes.line _) = _
        congr 2
        apply List.map_congr_left
        intro i _
        by_cases hj : 0 ≤ j ∧ j < (a.m : Int)
        · rw [if_pos hj]
          obtain ⟨j', rfl⟩ := Int.eq_ofNat_of_zero_le hj.1
          rw [hcell]
          rfl
        · rw [if_neg hj]
          show (lk j (a.row i)).getD 0 = 0
          cases hl : lk j (a.row i) with
          | none => rfl
          | some v => exact absurd (bounds_row hw i _ (lk_mem hl)) hj
      | all => rfl
      | single i => rfl

end

end Lacuna
