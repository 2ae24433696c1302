import Verif.Spec.PyBits
import Verif.Lemmas.PyMeaningNd
import Mathlib.Data.List.Sort
/-
Stored entries of list-level values, in any arithmetic.
-/
set_option linter.unusedSectionVars false

namespace Lacuna
variable {V : Type}

/-! ### tables -/

theorem tabulate_congr {xs : List (List Int)} {g h : List Int → Option V} (H : ∀ x ∈ xs, g x = h x) :
    tabulate xs g = tabulate xs h := by
  unfold tabulate
  apply List.filterMap_congr
  intro x hx
  rw [H x hx]

theorem mem_tabulate {xs : List (List Int)} {g : List Int → Option V} {x : List Int} {v : V} :
    (x, v) ∈ tabulate xs g ↔ x ∈ xs ∧ g x = some v := by
  unfold tabulate
  simp only [List.mem_filterMap, Option.map_eq_some_iff, Prod.mk.injEq]
  constructor
  · rintro ⟨y, hy, w, h1, rfl, rfl⟩; exact ⟨hy, h1⟩
  · rintro ⟨h1, h2⟩; exact ⟨x, h1, v, h2, rfl, rfl⟩

theorem tabulate_keys (xs : List (List Int)) (g : List Int → Option V) :
    ((tabulate xs g).map Prod.fst).Sublist xs := by
  induction xs with
  | nil => exact List.nil_sublist _
  | cons x xs ih =>
    unfold tabulate at ih ⊢
    rw [List.filterMap_cons]
    cases g x with
    | none => exact ih.cons _
    | some v => exact ih.cons_cons _

/-- A list whose keys come in the order of `xs` is a table. -/
theorem tabulate_eq {xs : List (List Int)} (hn : xs.Nodup) {l : List (List Int × V)}
    (hs : (l.map Prod.fst).Sublist xs) {g : List Int → Option V}
    (h : ∀ x ∈ xs, ∀ v, (x, v) ∈ l ↔ g x = some v) : l = tabulate xs g := by
  induction xs generalizing l with
  | nil =>
    have : l.map Prod.fst = [] := List.sublist_nil.1 hs
    rw [List.map_eq_nil_iff] at this
    subst this; rfl
  | cons x xs ih =>
    rw [List.nodup_cons] at hn
    have step : ∀ l' : List (List Int × V), (l'.map Prod.fst).Sublist xs →
        (∀ y ∈ xs, ∀ v, (y, v) ∈ l' ↔ g y = some v) → l' = tabulate xs g := fun l' h1 h2 => ih hn.2 h1 h2
    cases l with
    | nil =>
      have hx : g x = none := by
        cases hg : g x with
        | none => rfl
        | some v => exact absurd ((h x (by simp) v).2 hg) (by simp)
      have := step [] (List.nil_sublist _) fun y hy v => h y (by simp [hy]) v
      unfold tabulate at this ⊢
      rw [List.filterMap_cons, hx]; exact this
    | cons e l =>
      obtain ⟨k, w⟩ := e
      by_cases hk : k = x
      · subst hk
        have hsub : (l.map Prod.fst).Sublist xs := by
          have := hs
          rw [List.map_cons] at this
          exact List.cons_sublist_cons.1 this
        have hx : g k = some w := (h k (by simp) w).1 (by simp)
        have := step l hsub fun y hy v => by
          rw [← h y (by simp [hy]) v, List.mem_cons]
          constructor
          · exact .inr
          · rintro (e | e)
            · cases e; exact absurd hy hn.1
            · exact e
        unfold tabulate at this ⊢
        rw [List.filterMap_cons, hx]
        show _ = (k, w) :: _
        rw [← this]
      · have hsub : (((k, w) :: l).map Prod.fst).Sublist xs := by
          rw [List.map_cons] at hs ⊢
          cases hs with
          | cons _ h => exact h
          | cons_cons _ h => exact absurd rfl hk
        have hx : g x = none := by
          cases hg : g x with
          | none => rfl
          | some v =>
            have := (h x (by simp) v).2 hg
            exact absurd (hsub.subset (List.mem_map.2 ⟨_, this, rfl⟩)) hn.1
        have := step ((k, w) :: l) hsub fun y hy v => h y (by simp [hy]) v
        unfold tabulate at this ⊢
        rw [List.filterMap_cons, hx]; exact this

theorem total_tabulate [Add V] {xs : List (List Int)} (hn : xs.Nodup) {g : List Int → Option V} {x : List Int} (hx : x ∈ xs) :
    total (tabulate xs g) x = g x := by
  apply option_eq_of_iff
  intro v
  rw [total_nodup (hn.sublist (tabulate_keys xs g)), mem_tabulate]
  exact ⟨fun h => h.2, fun h => ⟨hx, h⟩⟩

/-! ### order -/

theorem indicesOf_sorted (s : List Nat) : (indicesOf s).Pairwise (fun x y => x < y) := by
  induction s with
  | nil => simp [indicesOf]
  | cons n s ih =>
    simp only [indicesOf]
    rw [List.pairwise_flatMap]
    refine ⟨fun i _ => ?_, ?_⟩
    · rw [List.pairwise_map]
      exact ih.imp fun h => List.cons_lt_cons_iff.2 (.inr ⟨rfl, h⟩)
    · refine List.pairwise_lt_range.imp fun {i j} hij x hx y hy => ?_
      obtain ⟨x', -, rfl⟩ := List.mem_map.1 hx
      obtain ⟨y', -, rfl⟩ := List.mem_map.1 hy
      exact List.cons_lt_cons_iff.2 (.inl (by show (i : Int) < (j : Int); omega))

theorem sorted_sublist {l : List (List Int)} (h : l.Pairwise (fun x y => x < y)) {s : List Nat}
    (hb : ∀ x ∈ l, InBounds s x) : l.Sublist (indicesOf s) := by
  have : Std.Antisymm (fun x y : List Int => x < y) := ⟨fun x y h1 h2 => absurd (List.lt_trans h1 h2) (List.lt_irrefl x)⟩
  exact List.sublist_of_subperm_of_pairwise ((nodup_of_lt h).subperm fun x hx => mem_indicesOf.2 (hb x hx)) h
    (indicesOf_sorted s)

/-- A sorted N-D array as a table. -/
theorem nd_tabulate {r : CooNd V} (hw : r.WF) (hs : r.Sorted) {g : List Int → Option V}
    (h : ∀ x, InBounds r.shape x → ∀ v, (x, v) ∈ r.entries ↔ g x = some v) : r.entries = tabulate (indicesOf r.shape) g :=
  tabulate_eq (indicesOf_nodup _)
    (sorted_sublist hs fun x hx => by
      obtain ⟨e, he, rfl⟩ := List.mem_map.1 hx
      exact hw.entries_inBounds e he)
    fun x hx v => h x (mem_indicesOf.1 hx) v

/-! ### compressed matrices -/

/-- The entries line by line. -/
def Comp.lines (a : Comp V) : List (List Int × V) :=
  (List.range a.n).flatMap fun (i : Nat) => (a.row i).map fun e => ([(i : Int), e.1], e.2)

theorem mem_lines {a : Comp V} {x : List Int} {v : V} :
    (x, v) ∈ a.lines ↔ ∃ i : Nat, ∃ j : Int, x = [(i : Int), j] ∧ i < a.n ∧ (j, v) ∈ a.row i := by
  unfold Comp.lines
  simp only [List.mem_flatMap, List.mem_range, List.mem_map, Prod.mk.injEq, Prod.exists]
  constructor
  · rintro ⟨i, hi, j, w, h, rfl, rfl⟩; exact ⟨i, j, rfl, hi, h⟩
  · rintro ⟨i, j, rfl, hi, h⟩; exact ⟨i, hi, j, v, h, rfl, rfl⟩

theorem lines_sorted {a : Comp V} (h : a.WF) : (a.lines.map Prod.fst).Pairwise (fun x y => x < y) := by
  unfold Comp.lines
  rw [List.map_flatMap, List.pairwise_flatMap]
  refine ⟨fun i _ => ?_, ?_⟩
  · rw [List.map_map, List.pairwise_map]
    have hs : ((a.row i).map Prod.fst).Pairwise (· < ·) := srt_row h i
    rw [List.pairwise_map] at hs
    exact hs.imp fun h => List.cons_lt_cons_iff.2 (.inr ⟨rfl, List.cons_lt_cons_iff.2 (.inl h)⟩)
  · refine List.pairwise_lt_range.imp fun {i j} hij x hx y hy => ?_
    rw [List.map_map] at hx hy
    obtain ⟨x', -, rfl⟩ := List.mem_map.1 hx
    obtain ⟨y', -, rfl⟩ := List.mem_map.1 hy
    exact List.cons_lt_cons_iff.2 (.inl (by show (i : Int) < (j : Int); omega))

theorem lines_inBounds {a : Comp V} (h : a.WF) : ∀ e ∈ a.lines, InBounds [a.n, a.m] e.1 := by
  rintro ⟨x, v⟩ he
  obtain ⟨i, j, rfl, hi, hj⟩ := mem_lines.1 he
  have := bounds_row h i _ hj
  exact inBounds_cons.2 ⟨by omega, inBounds_cons.2 ⟨this, .nil⟩⟩

theorem lk_some_iff {r : Row V} (h : Srt r) (j : Int) (v : V) : lk j r = some v ↔ (j, v) ∈ r := by
  refine ⟨lk_mem, fun hm => ?_⟩
  induction r with
  | nil => cases hm
  | cons e r ih =>
    obtain ⟨k, w⟩ := e
    have hs : (k :: r.map Prod.fst).Pairwise (· < ·) := h
    rw [List.pairwise_cons] at hs
    rcases List.mem_cons.1 hm with e | e
    · cases e; exact lk_cons_self _ _ _
    · have := hs.1 j (List.mem_map.2 ⟨_, e, rfl⟩)
      rw [lk_cons_ne _ _ (by omega)]
      exact ih hs.2 e

/-- Reading a stored entry. -/
theorem total_lines [Add V] {a : Comp V} (h : a.WF) (i j : Nat) : total a.lines [(i : Int), (j : Int)] = a.stored i j := by
  apply option_eq_of_iff
  intro v
  rw [total_nodup (nodup_of_lt (lines_sorted h)), mem_lines, Comp.stored_eq_lk, lk_some_iff (srt_row h i)]
  constructor
  · rintro ⟨i', j', e, -, hm⟩
    simp only [List.cons.injEq, and_true] at e
    obtain ⟨e1, rfl⟩ := e
    have : i' = i := by omega
    subst this; exact hm
  · intro hm
    refine ⟨i, j, rfl, ?_, hm⟩
    by_contra hi
    rw [Comp.row_of_ge h.ptr_length (by omega)] at hm
    cases hm

/-- A well-formed matrix as a table. -/
theorem lines_tabulate {a : Comp V} (h : a.WF) {g : List Int → Option V}
    (hg : ∀ i j : Nat, i < a.n → j < a.m → a.stored i j = g [(i : Int), (j : Int)]) :
    a.lines = tabulate (indicesOf [a.n, a.m]) g := by
  let _ : Add V := ⟨fun x _ => x⟩
  refine tabulate_eq (indicesOf_nodup _) (sorted_sublist (lines_sorted h) fun x hx => ?_) fun x hx v => ?_
  · obtain ⟨e, he, rfl⟩ := List.mem_map.1 hx
    exact lines_inBounds h e he
  · obtain ⟨i, j, rfl, hi, hj⟩ := inBounds_pair (mem_indicesOf.1 hx)
    rw [← total_nodup (nodup_of_lt (lines_sorted h)), total_lines h, hg i j hi hj]

theorem stores_csr (a : Comp V) : (SpVal.mat .csr a).stores = a.lines := rfl

theorem stores_csc (a : Comp V) : (SpVal.mat .csc a).stores = a.lines.map fun e => (e.1.reverse, e.2) := by
  show (List.range a.n).flatMap _ = ((List.range a.n).flatMap _).map _
  rw [List.map_flatMap]
  congr 1
  funext j
  rw [List.map_map]
  rfl

theorem tabulate_reverse (xs : List (List Int)) (g : List Int → Option V) :
    tabulate (xs.map List.reverse) g = (tabulate xs fun x => g x.reverse).map fun e => (e.1.reverse, e.2) := by
  unfold tabulate
  rw [List.filterMap_map, List.map_filterMap]
  apply List.filterMap_congr
  intro x _
  simp only [Function.comp]
  cases g x.reverse <;> rfl

theorem total_reverse [Add V] (l : List (List Int × V)) (x : List Int) :
    total (l.map fun e => (e.1.reverse, e.2)) x.reverse = total l x :=
  total_map_key l List.reverse x fun _ _ h => List.reverse_injective h

/-- The row and the column of a cell, as line and position. -/
def Fmt.cell (f : Fmt) (i j : Nat) : List Int :=
  match f with
  | .csr => [(i : Int), (j : Int)]
  | .csc => [(j : Int), (i : Int)]

theorem total_stores [Add V] {f : Fmt} {a : Comp V} (h : a.WF) (i j : Nat) :
    total (SpVal.mat f a).stores (f.cell i j) = a.stored i j := by
  cases f with
  | csr => exact total_lines h i j
  | csc =>
    rw [stores_csc]
    show total _ [(i : Int), (j : Int)].reverse = _
    rw [total_reverse, total_lines h]

theorem stores_tabulate {f : Fmt} {a : Comp V} (h : a.WF) {g : List Int → Option V}
    (hg : ∀ i j : Nat, i < a.n → j < a.m → a.stored i j = g (f.cell i j)) :
    (SpVal.mat f a).stores = tabulate (SpVal.mat f a).ty.order g := by
  cases f with
  | csr => exact lines_tabulate h hg
  | csc =>
    rw [stores_csc, lines_tabulate h (g := fun x => g x.reverse) hg]
    exact (tabulate_reverse _ _).symm


/-! ### keys of stored entries -/

theorem stores_nodup_mat {f : Fmt} {a : Comp V} (h : a.WF) : ((SpVal.mat f a).stores.map Prod.fst).Nodup := by
  cases f with
  | csr => exact nodup_of_lt (lines_sorted h)
  | csc =>
    rw [stores_csc, List.map_map]
    have e : (Prod.fst ∘ fun e : List Int × V => (e.1.reverse, e.2)) = List.reverse ∘ Prod.fst := rfl
    rw [e, ← List.map_map]
    exact (nodup_of_lt (lines_sorted h)).map List.reverse_injective

theorem stores_inBounds {v : SpVal V} (h : v.Valid) : ∀ e ∈ v.stores, InBounds v.ty.shape e.1 := by
  cases v with
  | mat f a =>
    have hw : a.WF := h
    cases f with
    | csr => exact lines_inBounds hw
    | csc =>
      rw [stores_csc]
      intro e he
      obtain ⟨⟨x, w⟩, he', rfl⟩ := List.mem_map.1 he
      obtain ⟨i, j, rfl, hi, hj⟩ := mem_lines.1 he'
      have := bounds_row hw i _ hj
      exact inBounds_cons.2 ⟨this, inBounds_cons.2 ⟨⟨by omega, by show (i : Int) < (a.n : Int); omega⟩, .nil⟩⟩
  | coo a =>
    obtain ⟨hw, -⟩ : a.WF ∧ a.I64 := h
    intro e he
    obtain ⟨t, ht, rfl⟩ := List.mem_map.1 he
    have h1 := List.of_mem_zip (List.of_mem_zip (a := t.1) (b := t.2) ht).1
    exact inBounds_cons.2 ⟨hw.row_bounds _ h1.1, inBounds_cons.2 ⟨hw.col_bounds _ h1.2, .nil⟩⟩
  | nd a =>
    obtain ⟨hw, -⟩ : a.WF ∧ a.I64 := h
    exact hw.entries_inBounds

section
variable [Zero V] [One V] [Add V] [Sub V] [Mul V] [Div V] [Neg V] [BEq V] [NatCast V] [HasFinite V]
  [HasFloor V] [HasPowf V] [HasAbs V] [HasLt V] [HasNan V]

/-! ### functions of the stored values -/

/-- The function applied to every stored value. -/
def DataOp.bits (op : DataOp V) (v : V) : V :=
  match op with
  | .mul alpha => scaleBits alpha v
  | .abs => fabs v
  | .sign => signF v
  | .floordiv alpha => floordivBy alpha v
  | .rem alpha => remBy alpha v
  | .pow alpha => powBy alpha v

theorem DataOp.fn_bits (op : DataOp V) (d : List V) : op.fn d = d.map op.bits := by
  cases op with
  | mul alpha =>
    simp only [DataOp.fn]
    show _ = d.map (scaleBits alpha)
    unfold scaleBits
    split_ifs
    · simp
    · rfl
    · rfl
  | abs => rfl
  | sign => rfl
  | floordiv alpha => rfl
  | rem alpha => rfl
  | pow alpha => rfl

theorem stores_mapData (op : DataOp V) (v : SpVal V) : (v.mapData op).stores = v.stores.map fun e => (e.1, op.bits e.2) := by
  cases v with
  | mat f a =>
    have e : ({ a with data := op.fn a.data } : Comp V) = a.mapData op.bits := by
      unfold Comp.mapData; rw [op.fn_bits]
    have hl : (a.mapData op.bits).lines = a.lines.map fun e => (e.1, op.bits e.2) := by
      unfold Comp.lines
      rw [List.map_flatMap]
      show (List.range a.n).flatMap _ = _
      congr 1
      funext i
      rw [Comp.row_mapData, List.map_map, List.map_map]
      rfl
    show (SpVal.mat f { a with data := op.fn a.data }).stores = _
    rw [e]
    cases f with
    | csr => exact hl
    | csc => rw [stores_csc, stores_csc, hl, List.map_map, List.map_map]; rfl
  | coo a =>
    show (({ a with data := op.fn a.data } : Coo V).triples).map _ = (a.triples.map _).map _
    rw [op.fn_bits, Coo.triples_mapData, List.map_map, List.map_map]
    rfl
  | nd a =>
    show ({ a with data := op.fn a.data } : CooNd V).entries = a.entries.map _
    rw [op.fn_bits, CooNd.entries_mapData]

theorem stores_un (op : UnOp) (v : SpVal V) : (v.un op).stores = v.stores.map fun e => (e.1, op.bits e.2) := by
  cases op <;> exact stores_mapData _ v

theorem stores_scalar (op : BinOp) (alpha : V) {v w : SpVal V} (hw : v.scalar op alpha = .ok w) :
    w.stores = v.stores.map fun e => (e.1, op.scalarBits alpha e.2) := by
  cases op with
  | add => cases v <;> cases hw
  | sub => cases v <;> cases hw
  | mul => cases v <;> cases hw <;> exact stores_mapData (.mul alpha) _
  | div =>
    cases v with
    | nd a => cases hw
    | mat f a =>
      simp only [SpVal.scalar] at hw
      split_ifs at hw
      cases hw
      exact stores_mapData (.mul (1 / alpha)) _
    | coo a =>
      simp only [SpVal.scalar] at hw
      split_ifs at hw
      cases hw
      exact stores_mapData (.mul (1 / alpha)) _
  | floordiv =>
    simp only [SpVal.scalar] at hw
    split_ifs at hw
    cases hw
    exact stores_mapData (.floordiv alpha) _
  | rem =>
    simp only [SpVal.scalar] at hw
    split_ifs at hw
    cases hw
    exact stores_mapData (.rem alpha) _
  | pow =>
    simp only [SpVal.scalar] at hw
    cases hw
    exact stores_mapData (.pow alpha) _

theorem stores_left (op : BinOp) (alpha : V) {v w : SpVal V} (hw : v.left op alpha = .ok w) :
    w.stores = v.stores.map fun e => (e.1, scaleBits alpha e.2) := by
  cases op <;> cases v <;> simp only [SpVal.left] at hw <;> first | (cases hw; exact stores_mapData (.mul alpha) _) | cases hw

/-! ### transpose -/

theorem stores_T_coo (a : Coo V) : (SpVal.coo a).T.stores = (SpVal.coo a).stores.map fun e => (e.1.reverse, e.2) := by
  show ((a.col.zip a.row).zip a.data).map _ = (((a.row.zip a.col).zip a.data).map _).map _
  rw [List.map_map, ← List.zip_swap a.row a.col, List.zip_map_left, List.map_map]
  rfl

theorem stores_T_mat {f : Fmt} {a : Comp V} (h : (SpVal.mat f a).Good) :
    (SpVal.mat f a).T.stores = tabulate (SpVal.mat f a).T.ty.order
      (total ((SpVal.mat f a).stores.map fun e => (e.1.reverse, e.2))) := by
  have hw : a.WF := h.1
  have hf := Comp.WFU.fits_of_machine hw.wfu h.held.mach
  refine stores_tabulate (tcomp_events_wf hw.noRep hf) fun i j _ _ => ?_
  rw [tcomp_stored hw.wfu (interleaving_events a) hf]
  have : f.cell i j = (f.cell j i).reverse := by cases f <;> rfl
  rw [this, total_reverse, total_stores hw]

/-! ### prune -/

theorem lines_snd {a : Comp V} (h : a.WF) : a.lines.map Prod.snd = a.data := by
  rw [h.wfu.data_eq]
  unfold Comp.lines Comp.rows
  rw [List.map_flatMap, List.flatMap_def, List.map_flatten, List.map_map]
  congr 1
  apply List.map_congr_left
  intro i _
  rw [List.map_map]
  rfl

theorem lines_filter {a : Comp V} (q : V → Bool) {b : Comp V} (hn : b.n = a.n)
    (h : ∀ i, i < a.n → b.row i = (a.row i).filter fun e => q e.2) : b.lines = a.lines.filter fun e => q e.2 := by
  unfold Comp.lines
  rw [hn, List.filter_flatMap]
  apply List.flatMap_congr
  intro i hi
  rw [h i (List.mem_range.1 hi), List.filter_map]
  rfl

theorem stores_any {f : Fmt} {a : Comp V} (h : a.WF) (q : V → Bool) :
    ((SpVal.mat f a).stores.any fun e => q e.2) = a.data.any q := by
  have : (SpVal.mat f a).stores.map Prod.snd = a.data := by
    cases f with
    | csr => exact lines_snd h
    | csc => rw [stores_csc, List.map_map]; exact lines_snd h
  rw [← this, List.any_map]
  rfl

theorem stores_prune_mat (eps : V) {f : Fmt} {a : Comp V} (h : a.WF) :
    ((SpVal.mat f a).prune eps).stores = pruneBits true eps (SpVal.mat f a).stores := by
  show (SpVal.mat f (if pruneSkips eps a.data then a else Comp.ofRows a.m (pruneOuts eps a))).stores = _
  unfold pruneBits
  rw [stores_any h fun v => v == 0]
  unfold pruneSkips
  by_cases h1 : flt eps 0 = true
  · rw [if_pos (by rw [h1]; rfl), if_pos h1]
  · rw [if_neg h1]
    rw [Bool.not_eq_true] at h1
    rw [h1, Bool.false_or, Bool.true_and]
    by_cases h2 : (eps == 0 && !a.data.any fun v => v == 0) = true
    · rw [if_pos h2, if_pos h2]
    · rw [if_neg h2, if_neg h2]
      have hl : (Comp.ofRows a.m (pruneOuts eps a)).lines = a.lines.filter fun e => flt eps (fabs e.2) := by
        apply lines_filter (fun v => flt eps (fabs v))
        · simp [Comp.ofRows, pruneOuts]
        · intro i hi
          unfold pruneOuts
          rw [Comp.row_ofRows', if_pos hi]
          rfl
      cases f with
      | csr => exact hl
      | csc => rw [stores_csc, stores_csc, hl, List.filter_map]; rfl

theorem stores_prune_coo (eps : V) (a : Coo V) :
    ((SpVal.coo a).prune eps).stores = pruneBits false eps (SpVal.coo a).stores := by
  show (SpVal.coo (pruneCoo a eps)).stores = _
  unfold pruneBits pruneCoo
  split_ifs with h1 h2
  · rfl
  · simp at h2
  · show (((_ : List ((Int × Int) × V)).map _ |>.zip _).zip _).map _ = (a.triples.map _).filter _
    rw [List.filter_map]
    congr 1
    show _ = a.triples.filter fun t => flt eps (fabs t.2)
    generalize a.triples = l
    simp only [significant]
    induction l with
    | nil => rfl
    | cons t l ih =>
      rw [List.filter_cons]
      split_ifs
      · simpa using ih
      · exact ih

/-! ### two matrices -/

theorem BinOp.comp_stored (op : BinOp) {a b : Comp V} (ha : a.WF) (hb : b.WF) (hn : a.n = b.n) (hm : a.m = b.m) (i j : Nat) :
    (binComp op.count op.fill a b).stored i j = op.bits (a.stored i j) (b.stored i j) := by
  have inter : ∀ {keep : V → V → Bool} {cell : V → V → Option V},
      (∀ x y, keep x y = (cell x y).isSome) →
      (binComp (interRowCount keep) (interRowFill cell) a b).stored i j = interCell cell (a.stored i j) (b.stored i j) :=
    fun hk => (binComp_inter ha hb hn (fun i => (inter_refines hk 0).eq _ _ (i64_row ha i) (i64_row hb i))
      (fun i => interRowFill_spec (srt_row ha i) (srt_row hb i))).2.2.2.1 i j
  have cells : ∀ {c d : V → V → Option V}, (∀ x y, c x y = d x y) → ∀ u v, interCell c u v = interCell d u v :=
    fun h u v => by cases u <;> cases v <;> simp only [interCell, h]
  cases op with
  | add =>
    exact (binComp_union (fb := fun x y : V => x + y) ha hb hn hm (fun i => add_count_eq_fill _ _)
      (fun i => addRowFill_spec (srt_row ha i) (srt_row hb i) (i64_row ha i) (i64_row hb i))).2.2.2.1 i j
  | sub =>
    exact (binComp_union (fb := fun x y : V => x - y) ha hb hn hm
      (fun i => sub_count_eq_fill _ _ (i64_row ha i) (i64_row hb i))
      (fun i => subRowFill_spec (srt_row ha i) (srt_row hb i) (i64_row ha i) (i64_row hb i))).2.2.2.1 i j
  | mul =>
    refine (inter hadamardKeep_isSome).trans ?_
    simp only [BinOp.bits]
    refine cells (fun x y => ?_) _ _
    simp only [hadamardCell]
    cases x * y == 0 <;> rfl
  | div =>
    refine (inter divKeep_isSome).trans ?_
    simp only [BinOp.bits]
    refine cells (fun x y => ?_) _ _
    simp only [divCell, keepFinite]
    cases y == 0 <;> cases x / y == 0 <;> cases isFinite (x / y) <;> rfl
  | floordiv =>
    refine (inter floordivKeep_isSome).trans ?_
    simp only [BinOp.bits]
    refine cells (fun x y => ?_) _ _
    simp only [floordivCell, keepFinite]
    cases y == 0 <;> cases HasFloor.floor (x / y) == 0 <;> cases isFinite (HasFloor.floor (x / y)) <;> rfl
  | rem =>
    refine (inter remKeep_isSome).trans ?_
    simp only [BinOp.bits]
    refine cells (fun x y => ?_) _ _
    simp only [remCell, keepFinite]
    cases y == 0 <;> cases x - y * HasFloor.floor (x / y) == 0 <;>
      cases isFinite (x - y * HasFloor.floor (x / y)) <;> rfl
  | pow =>
    refine (inter powKeep_isSome).trans ?_
    simp only [BinOp.bits]
    refine cells (fun x y => ?_) _ _
    simp only [powCell, keepFinite]
    cases HasPowf.powf x y == 0 <;> cases isFinite (HasPowf.powf x y) <;> rfl

theorem stores_bin_mat (op : BinOp) {f : Fmt} {a b : Comp V} (ha : a.WF) (hb : b.WF) (hn : a.n = b.n) (hm : a.m = b.m) :
    (SpVal.mat f (binComp op.count op.fill a b)).stores =
      tabulate (SpVal.mat f (binComp op.count op.fill a b)).ty.order
        fun x => op.bits (total (SpVal.mat f a).stores x) (total (SpVal.mat f b).stores x) :=
  stores_tabulate (op.comp_wf ha hb hn hm).1 fun i j _ _ => by
    rw [op.comp_stored ha hb hn hm, total_stores ha, total_stores hb]

end
end Lacuna
