import Verif.Props.F64NdRed
import Verif.Props.Exact
import Verif.Props.PyDotNd
/-
C97: what `tensordot` and `vecdot` of programs whose value is a `COOND` compute in binary64, element by element.
-/
set_option linter.unusedSectionVars false
namespace Lacuna

theorem mem_line {s : List Nat} {axis : Nat} (hax : axis < s.length) {u k : List Int} (hu : InBounds (s.eraseIdx axis) u) (hk : InBounds s k) :
    k ∈ (List.range (s.getD axis 0)).map (fun (j : Nat) => u.insertIdx axis (j : Int)) ↔ k.eraseIdx axis = u := by
  rw [← indicesOf_fibre hax hu, List.mem_filter, mem_indicesOf, select_restAxes hax hk.length_eq, beq_iff_eq]
  exact ⟨fun h => h.2, fun h => ⟨hk, h⟩⟩

theorem ndDotTerms_perm {stores : List (List Int × F64)} {s : List Nat} {axis : Nat} (hax : axis < s.length) {u : List Int}
    (hu : InBounds (s.eraseIdx axis) u) (hin : ∀ k ∈ stores, InBounds s k.1) (y : DenseNd F64) (z : List Int) :
    ((List.range (s.getD axis 0)).flatMap fun (j : Nat) =>
        (valuesAt stores (u.insertIdx axis (j : Int))).map fun a => (a, y.elem ((j : Int) :: z))).Perm
      (ndDotTerms stores axis y u z) := by
  have hul : axis ≤ u.length := by
    have := hu.length_eq
    rw [List.length_eraseIdx_of_lt hax] at this
    omega
  have hget : ∀ j : Int, (u.insertIdx axis j).getD axis 0 = j := fun j => by
    rw [List.getD_eq_getElem?_getD, List.getElem?_insertIdx_self]
    simp [hul]
  have hnd : ((List.range (s.getD axis 0)).map (fun (j : Nat) => u.insertIdx axis (j : Int))).Nodup := by
    refine List.Nodup.map (fun i j h => ?_) List.nodup_range
    have h : u.insertIdx axis (i : Int) = u.insertIdx axis (j : Int) := h
    have := congrArg (fun l => l.getD axis 0) h
    simp only [hget] at this
    exact Int.ofNat_inj.1 this
  have hperm := (perm_by_key (fun k : List Int × F64 => k.1) hnd stores).map fun k => (k.2, y.elem (k.1.getD axis 0 :: z))
  have e3 : (stores.filter fun k => ((List.range (s.getD axis 0)).map (fun (j : Nat) => u.insertIdx axis (j : Int))).contains k.1) =
      stores.filter fun k => k.1.eraseIdx axis == u := by
    apply List.filter_congr
    intro k hk
    rw [Bool.eq_iff_iff, List.contains_iff_mem, mem_line hax hu (hin k hk), beq_iff_eq]
  rw [e3] at hperm
  have e4 : (((List.range (s.getD axis 0)).map (fun (j : Nat) => u.insertIdx axis (j : Int))).flatMap fun k =>
      stores.filter fun x => x.1 == k).map (fun k => (k.2, y.elem (k.1.getD axis 0 :: z))) =
      (List.range (s.getD axis 0)).flatMap fun (j : Nat) =>
        (valuesAt stores (u.insertIdx axis (j : Int))).map fun a => (a, y.elem ((j : Int) :: z)) := by
    rw [List.map_flatMap, List.flatMap_map]
    congr 1
    funext j
    unfold valuesAt
    rw [List.map_map]
    apply List.map_congr_left
    intro k hk
    have : k.1 = u.insertIdx axis (j : Int) := by simpa using (List.mem_filter.1 hk).2
    show (k.2, _) = (k.2, _)
    rw [this, hget]
  rw [e4] at hperm
  exact hperm

theorem keptDot_int {l : List (F64 × F64)} (hi : ∀ q ∈ l, q.1.IsInt ∧ q.2.IsInt)
    (hb : (l.map fun q => |q.1.val * q.2.val|).sum ≤ 2 ^ 53) :
    ((keptDot l).getD 0).IsFin ∧ ((keptDot l).getD 0).val = (l.map fun q => q.1.val * q.2.val).sum := by
  have hm : ∀ q ∈ l, (q.1 * q.2).IsInt ∧ (q.1 * q.2).val = q.1.val * q.2.val := fun q hq =>
    F64.int_mul (hi q hq).1 (hi q hq).2 (le_trans (List.single_le_sum (fun x hx => by
      obtain ⟨p, -, rfl⟩ := List.mem_map.1 hx; exact abs_nonneg _) _ (List.mem_map.2 ⟨q, hq, rfl⟩)) hb)
  have e : ∀ g : ℚ → ℚ, g 0 = 0 → (((l.map fun q => q.1 * q.2).filter fun v => !(v == 0)).map fun x => g x.val).sum =
      (l.map fun q => g (q.1.val * q.2.val)).sum := by
    intro g hg
    clear hb hi
    induction l with
    | nil => rfl
    | cons a l ih =>
      have ih := ih fun q hq => hm q (List.mem_cons_of_mem _ hq)
      have ha := (hm a List.mem_cons_self).2
      rw [List.map_cons, List.map_cons, List.sum_cons, List.filter_cons]
      cases h0 : a.1 * a.2 == 0 with
      | true => rw [if_neg (by simp), ih, ← ha, F64.val_of_eq_zero _ h0, hg, zero_add]
      | false => rw [if_pos (by simp), List.map_cons, List.sum_cons, ih, ha]
  have := F64.addTree_int (keptDot_tree l) (fun x hx => by
    obtain ⟨q, hq, rfl⟩ := List.mem_map.1 (List.mem_filter.1 (Multiset.mem_coe.1 hx)).1
    exact (hm q hq).1) (by rw [Multiset.map_coe, Multiset.sum_coe, e (fun x => |x|) abs_zero]; exact hb)
  rw [Multiset.map_coe, Multiset.sum_coe] at this
  exact ⟨this.1.1, by rw [this.2]; exact e (fun x => x) rfl⟩

section
variable [HasMinMax F64] [HasPowf F64]

theorem elems_line_exact {env : PyEnv F64} (he : env.Ok) {e : Prog F64} (hl : e.LitsOk) (hs : e.Small) (hd : e.AsElems)
    {s : List Nat} (hc : e.check = .ok (.nd s)) {axis : Nat} (hax : axis < s.length) {u : List Int}
    (hu : InBounds (s.eraseIdx axis) u) (y : DenseNd F64) (z : List Int) :
    F64.ExactDot ((List.range (s.getD axis 0)).map fun (j : Nat) => (e.elems (u.insertIdx axis (j : Int)), y.elem ((j : Int) :: z)))
      ((keptDot (ndDotTerms e.stores axis y u z)).getD 0) := by
  obtain ⟨hin, hh⟩ := elems_held he hl hs hd hc
  intro hi hb
  have hh : ∀ j ∈ List.range (s.getD axis 0), HeldAs (valuesAt e.stores (u.insertIdx axis (j : Int))) (e.elems (u.insertIdx axis (j : Int))) :=
    fun j hj => hh _ (insertIdx_inBounds hax hu (List.mem_range.1 hj))
  have hperm := ndDotTerms_perm hax hu hin y z
  have sums : ∀ g : ℚ → ℚ, g 0 = 0 → ((ndDotTerms e.stores axis y u z).map fun q => g (q.1.val * q.2.val)).sum =
      ((List.range (s.getD axis 0)).map fun (j : Nat) => g ((e.elems (u.insertIdx axis (j : Int))).val * (y.elem ((j : Int) :: z)).val)).sum := by
    intro g hg
    rw [← (hperm.map fun q : F64 × F64 => g (q.1.val * q.2.val)).sum_eq, List.map_flatMap]
    simp only [List.map_map]
    exact heldAs_sum (List.range (s.getD axis 0)) hh (fun j a => g (a.val * (y.elem ((j : Int) :: z)).val))
      (fun j a b h => by rw [F64.same_val h]) (fun j => by rw [show (0 : F64).val = 0 from rfl, zero_mul, hg])
  rw [List.map_map] at hb
  have := keptDot_int (l := ndDotTerms e.stores axis y u z) (fun q hq => by
    obtain ⟨j, hj, hq⟩ := List.mem_flatMap.1 (hperm.mem_iff.2 hq)
    obtain ⟨a, ha, rfl⟩ := List.mem_map.1 hq
    have := hi _ (List.mem_map_of_mem (f := fun (j : Nat) => (e.elems (u.insertIdx axis (j : Int)), y.elem ((j : Int) :: z))) hj)
    exact ⟨heldAs_int (x := j) (held := fun (j : Nat) => valuesAt e.stores (u.insertIdx axis (j : Int)))
      (dense := fun (j : Nat) => e.elems (u.insertIdx axis (j : Int))) (hh j hj) this.1 ha, this.2⟩)
    (by rw [sums (fun x => |x|) abs_zero]; exact hb)
  refine ⟨this.1, ?_⟩
  rw [this.2, sums (fun x => x) rfl, List.map_map]
  rfl

theorem elems_line_rounded {env : PyEnv F64} (he : env.Ok) {e : Prog F64} (hl : e.LitsOk) (hs : e.Small) (hd : e.AsElems)
    {s : List Nat} (hc : e.check = .ok (.nd s)) {axis : Nat} (hax : axis < s.length) {u : List Int}
    (hu : InBounds (s.eraseIdx axis) u) (y : DenseNd F64) (z : List Int) {v : F64}
    (h : RoundedDot F64.fp.toFpMul (ndDotTerms e.stores axis y u z : Multiset (F64 × F64)) v) :
    RoundedDot F64.fp.toFpMul (((List.range (s.getD axis 0)).map fun (j : Nat) =>
      (e.elems (u.insertIdx axis (j : Int)), y.elem ((j : Int) :: z)) : List (F64 × F64)) : Multiset (F64 × F64)) v := by
  obtain ⟨hin, hh⟩ := elems_held he hl hs hd hc
  rw [show ((ndDotTerms e.stores axis y u z : List (F64 × F64)) : Multiset (F64 × F64)) = _ from
    (Multiset.coe_eq_coe.2 (ndDotTerms_perm hax hu hin y z)).symm] at h
  exact heldAs_dot (fun j hj => hh _ (insertIdx_inBounds hax hu (List.mem_range.1 hj))) h

theorem elems_line_nan {env : PyEnv F64} (he : env.Ok) {e : Prog F64} (hl : e.LitsOk) (hs : e.Small) (hd : e.AsElems)
    {s : List Nat} (hc : e.check = .ok (.nd s)) {axis : Nat} (hax : axis < s.length) {u : List Int}
    (hu : InBounds (s.eraseIdx axis) u) (y : DenseNd F64) (z : List Int)
    (h : ∃ j : Nat, j < s.getD axis 0 ∧ (isNan (e.elems (u.insertIdx axis (j : Int))) = true ∨
      (e.elems (u.insertIdx axis (j : Int)) == 0) = false ∧ isNan (y.elem ((j : Int) :: z)) = true)) :
    ∃ q ∈ ndDotTerms e.stores axis y u z, isNan q.1 = true ∨ isNan q.2 = true := by
  obtain ⟨hin, hh⟩ := elems_held he hl hs hd hc
  obtain ⟨j, hj, h⟩ := h
  have hmem : ∀ a, valuesAt e.stores (u.insertIdx axis (j : Int)) = [a] → (a, y.elem ((j : Int) :: z)) ∈ ndDotTerms e.stores axis y u z :=
    fun a ha => (ndDotTerms_perm hax hu hin y z).mem_iff.1 (List.mem_flatMap.2 ⟨j, List.mem_range.2 hj, by rw [ha]; exact List.mem_cons_self⟩)
  have hn0 : ∀ x : F64, isNan x = true → (x == 0) = false := fun x hx => by
    cases x with
    | nan => rfl
    | inf s => cases hx
    | zero s => cases hx
    | num x => cases hx
  rcases hh _ (insertIdx_inBounds hax hu hj) with ⟨-, e2⟩ | ⟨v, e1, e2⟩
  · rcases h with h | ⟨h, -⟩
    · rw [hn0 _ h] at e2; cases e2
    · rw [h] at e2; cases e2
  · refine ⟨_, hmem v e1, ?_⟩
    rcases h with h | ⟨-, h⟩
    · rcases e2 with e2 | ⟨-, e2⟩
      · exact .inl (by rw [e2]; exact h)
      · rw [hn0 _ h] at e2; cases e2
    · exact .inr h

/-- C97: in binary64, `tensordot` of a program whose value is a `COOND` with a dense array has one outcome, on
every machine.  Its element at `u` and `z` is the exact sum of the products of the elements of the program along
the contracted axis with those of the array, up to the rounding error of binary64.  It is exact if the numbers
are whole and small.  It is `NaN` if an element of the program there is, or if an element of the array that meets
an element other than zero is. -/
theorem elems_tensordot_nd {env : PyEnv F64} (he : env.Ok) {e : Prog F64} (hl : e.LitsOk) (hs : e.Small) (hd : e.AsElems)
    {s : List Nat} (hc : e.check = .ok (.nd s)) {axes : AxesArg} {axis : Nat} (hax : axis < s.length)
    (hnd : (LinFn.tensordot axes).NdContraction s.length axis)
    {y : DenseNd F64} (hy : y.Ok) {rest : List Nat} (hys : y.shape = s.getD axis 0 :: rest) (hpos : 0 < rest.prod)
    (hcells : (((s.eraseIdx axis).prod * rest.prod : Nat) : Int) ≤ i64Max)
    (hmem : 24 * ((e.stores.length * s.length * rest.prod : Nat) : Int) ≤ i64Max) :
    ∃ r : CooNd F64, (∀ out, e.Linalg env (.tensordot axes) y out ↔ out = .ret (.sparse (SpVal.nd r).obj)) ∧
      r.shape = s.eraseIdx axis ++ [rest.prod] ∧
      ∀ u z, InBounds (s.eraseIdx axis) u → InBounds rest z →
        RoundedDot F64.fp.toFpMul (((List.range (s.getD axis 0)).map fun (j : Nat) =>
            (e.elems (u.insertIdx axis (j : Int)), y.elem ((j : Int) :: z)) : List (F64 × F64)) : Multiset (F64 × F64))
          (readAt r.entries (u ++ [(rowMajor rest z : Int)])) ∧
        F64.ExactDot ((List.range (s.getD axis 0)).map fun (j : Nat) => (e.elems (u.insertIdx axis (j : Int)), y.elem ((j : Int) :: z)))
          (readAt r.entries (u ++ [(rowMajor rest z : Int)])) ∧
        ((∃ j : Nat, j < s.getD axis 0 ∧ (isNan (e.elems (u.insertIdx axis (j : Int))) = true ∨
          (e.elems (u.insertIdx axis (j : Int)) == 0) = false ∧ isNan (y.elem ((j : Int) :: z)) = true)) →
          isNan (readAt r.entries (u ++ [(rowMajor rest z : Int)])) = true) := by
  have hdet := hd.wf.1
  obtain ⟨r, h1, -, -, h4, h5⟩ := prog_tensordot_nd_any he hl hs hdet hc hax hnd hy hys hpos hcells hmem
  obtain ⟨r', h1', h4', h5'⟩ := prog_tensordot_nd_error F64.fp.toFpMul F64.val_of_eq_zero he hl hs hdet hc hax hnd hy hys hpos hcells hmem
  obtain rfl : r = r' := by
    have := (h1' _).1 ((h1 _).2 rfl)
    have hsh : r.shape = r'.shape := h4.trans h4'.symm
    cases r; cases r'
    cases hsh
    simpa [SpVal.obj, PyNd.of] using this
  refine ⟨r, h1, h4, fun u z hu hz => ⟨elems_line_rounded he hl hs hd hc hax hu y z (h5' u z hu hz), ?_, fun hn => ?_⟩⟩
  · intro hi hb
    obtain ⟨k1, k2⟩ := elems_line_exact he hl hs hd hc hax hu y z hi hb
    rcases read_kept (h5 u z hu hz) with ⟨v, e1, -, e3⟩ | ⟨e1, e2⟩
    · rw [e3]
      rw [e1] at k1 k2
      exact ⟨k1, k2⟩
    · rw [e1, ← k2]
      refine ⟨trivial, ?_⟩
      cases ht : keptDot (ndDotTerms e.stores axis y u z) with
      | none => rfl
      | some v => exact (F64.val_of_eq_zero v (e2 v ht)).symm
  · obtain ⟨v, e1, e2, e3⟩ := keptDot_nan F64.isNan_add F64.isNan_mul (fun x hx => by cases x <;> first | rfl | cases hx)
      (elems_line_nan he hl hs hd hc hax hu y z hn)
    rcases read_kept (h5 u z hu hz) with ⟨v', k1, -, k3⟩ | ⟨-, k2⟩
    · rw [e1] at k1
      cases k1
      rw [k3]; exact e2
    · rw [k2 v e1] at e3; cases e3

/-- C97: `vecdot` in binary64. -/
theorem elems_vecdot_nd {env : PyEnv F64} (he : env.Ok) {e : Prog F64} (hl : e.LitsOk) (hs : e.Small) (hd : e.AsElems)
    {s : List Nat} (hc : e.check = .ok (.nd s)) {ax : Option Int} {axis : Nat} (hax : axis < s.length) (hrank : 1 < s.length)
    (hnd : (LinFn.vecdot ax).NdContraction s.length axis) {y : DenseNd F64} (hy : y.Ok) (hys : y.shape = [s.getD axis 0]) :
    ∃ r : CooNd F64, (∀ out, e.Linalg env (.vecdot ax) y out ↔ out = .ret (.sparse (SpVal.nd r).obj)) ∧
      r.shape = s.eraseIdx axis ∧
      ∀ u, InBounds (s.eraseIdx axis) u →
        RoundedDot F64.fp.toFpMul (((List.range (s.getD axis 0)).map fun (j : Nat) =>
            (e.elems (u.insertIdx axis (j : Int)), y.elem [(j : Int)]) : List (F64 × F64)) : Multiset (F64 × F64)) (readAt r.entries u) ∧
        F64.ExactDot ((List.range (s.getD axis 0)).map fun (j : Nat) => (e.elems (u.insertIdx axis (j : Int)), y.elem [(j : Int)]))
          (readAt r.entries u) ∧
        ((∃ j : Nat, j < s.getD axis 0 ∧ (isNan (e.elems (u.insertIdx axis (j : Int))) = true ∨
          (e.elems (u.insertIdx axis (j : Int)) == 0) = false ∧ isNan (y.elem [(j : Int)]) = true)) →
          isNan (readAt r.entries u) = true) := by
  have hdet := hd.wf.1
  obtain ⟨r, h1, -, -, h4, h5⟩ := prog_vecdot_nd_any he hl hs hdet hc hax hrank hnd hy hys
  refine ⟨r, h1, h4, fun u hu => ?_⟩
  rw [read_total (h5 u)]
  refine ⟨elems_line_rounded he hl hs hd hc hax hu y [] (keptDot_rounded F64.fp.toFpMul F64.val_of_eq_zero _),
    elems_line_exact he hl hs hd hc hax hu y [], fun hn => ?_⟩
  obtain ⟨v, e1, e2, -⟩ := keptDot_nan F64.isNan_add F64.isNan_mul (fun x hx => by cases x <;> first | rfl | cases hx)
    (elems_line_nan he hl hs hd hc hax hu y [] hn)
  rw [e1]; exact e2

/-! ### examples -/

/-- `N` is the array `[[3, NaN], [0, -2]]` as a `COOND`, and `P` is `N` with its axes swapped, `[[3, 0], [NaN, -2]]`. -/
def exN97 : Prog F64 := .nd [2, 2] [0, 0, 0, 1, 1, 1] [F64.ofRat (3 : ℤ), F64.nan, F64.ofRat (-2 : ℤ)]
def exP97 : Prog F64 := .ndop .permute [1, 0] exN97

theorem exN97_ok : exN97.LitsOk ∧ exN97.Small ∧ exN97.AsElems ∧ exN97.check = .ok (.nd [2, 2]) := by
  have h1 : ∀ k < 3, ∀ d (h : d < [2, 2].length), 0 ≤ ([0, 0, 0, 1, 1, 1] : List Int).getD (k * 2 + d) 0 ∧
      ([0, 0, 0, 1, 1, 1] : List Int).getD (k * 2 + d) 0 < (([2, 2] : List Nat)[d] : Nat) := by decide
  refine ⟨⟨by decide, ⟨by decide, rfl, h1⟩, ?_⟩, by decide +kernel, ?_, by decide +kernel⟩
  · show ∀ i ∈ ([0, 0, 0, 1, 1, 1] : List Int), i ≤ i64Max; decide
  · show ([[0, 0], [0, 1], [1, 1]] : List (List Int)).Nodup
    decide

theorem exP97_ok : exP97.LitsOk ∧ exP97.Small ∧ exP97.AsElems ∧ exP97.check = .ok (.nd [2, 2]) := by
  obtain ⟨h1, -, h3, -⟩ := exN97_ok
  exact ⟨h1, by decide +kernel, h3, by decide +kernel⟩

/-- `y` is `[5, 7]`: in every execution `vecdot(N, y)` is `[NaN, -14]`. -/
example {env : PyEnv F64} (he : env.Ok) : ∃ r : CooNd F64,
    (∀ out, exN97.Linalg env (.vecdot none) ⟨[2], [F64.ofRat (5 : ℤ), F64.ofRat (7 : ℤ)]⟩ out ↔ out = .ret (.sparse (SpVal.nd r).obj)) ∧
      r.shape = [2] ∧ readAt r.entries [0] = .nan ∧ (readAt r.entries [1]).IsFin ∧ (readAt r.entries [1]).val = -14 := by
  obtain ⟨h1, h2, h3, h4⟩ := exN97_ok
  obtain ⟨r, ho, hs, h⟩ := elems_vecdot_nd he h1 h2 h3 h4 (ax := none) (axis := 1) (by decide) (by decide) (.inl ⟨.inl rfl, rfl⟩)
    (y := ⟨[2], [F64.ofRat (5 : ℤ), F64.ofRat (7 : ℤ)]⟩) ⟨rfl, by decide⟩ rfl
  have n2 := int_lit (-2) (by norm_num)
  have n5 := int_lit 5 (by norm_num)
  have n7 := int_lit 7 (by norm_num)
  refine ⟨r, ho, hs, ?_, ?_⟩
  · have := (h [0] (.cons ⟨by decide, by decide⟩ .nil)).2.2 ⟨1, by decide, .inl rfl⟩
    cases hr : readAt r.entries [0] with
    | nan => rfl
    | inf s => rw [hr] at this; cases this
    | zero s => rw [hr] at this; cases this
    | num x => rw [hr] at this; cases this
  · have := (h [1] (.cons ⟨by decide, by decide⟩ .nil)).2.1
    have el : ((List.range (([2, 2] : List Nat).getD 1 0)).map fun (j : Nat) => (exN97.elems (([1] : List Int).insertIdx 1 (j : Int)),
        (⟨[2], [F64.ofRat (5 : ℤ), F64.ofRat (7 : ℤ)]⟩ : DenseNd F64).elem [(j : Int)])) =
        [((0 : F64), F64.ofRat (5 : ℤ)), (F64.ofRat (-2 : ℤ), F64.ofRat (7 : ℤ))] := rfl
    rw [el] at this
    have hv : (0 : F64).val = 0 := rfl
    have := this (by
      intro q hq
      simp only [List.mem_cons, List.not_mem_nil, or_false] at hq
      rcases hq with rfl | rfl
      · exact ⟨F64.int_zero, n5.1⟩
      · exact ⟨n2.1, n7.1⟩) (by simp only [List.map_cons, List.map_nil, List.sum_cons, List.sum_nil, n2.2, n5.2, n7.2, hv]; norm_num)
    refine ⟨this.1, ?_⟩
    rw [this.2]
    simp only [List.map_cons, List.map_nil, List.sum_cons, List.sum_nil, n2.2, n5.2, n7.2, hv]
    norm_num

/-- `Y` is `[[5, 1], [7, 0]]`: in every execution `tensordot(P, Y, axes=1)` has the shape `(2, 2)`, its element at
`(0, 1)` is `3` and that at `(1, 0)` is `NaN`. -/
example {env : PyEnv F64} (he : env.Ok) : ∃ r : CooNd F64,
    (∀ out, exP97.Linalg env (.tensordot (.int 1)) ⟨[2, 2], [F64.ofRat (5 : ℤ), F64.ofRat (1 : ℤ), F64.ofRat (7 : ℤ), 0]⟩ out ↔
      out = .ret (.sparse (SpVal.nd r).obj)) ∧
      r.shape = [2, 2] ∧ (readAt r.entries [0, 1]).val = 3 ∧ isNan (readAt r.entries [1, 0]) = true := by
  obtain ⟨h1, h2, h3, h4⟩ := exP97_ok
  obtain ⟨r, ho, hs, h⟩ := elems_tensordot_nd he h1 h2 h3 h4 (axes := .int 1) (axis := 1) (by decide) (.inl ⟨rfl, rfl⟩)
    (y := ⟨[2, 2], [F64.ofRat (5 : ℤ), F64.ofRat (1 : ℤ), F64.ofRat (7 : ℤ), 0]⟩) ⟨rfl, by decide⟩ (rest := [2]) rfl (by decide)
    (by decide) (show 24 * ((3 * 2 * 2 : Nat) : Int) ≤ i64Max by decide)
  have n3 := int_lit 3 (by norm_num)
  have n1 := int_lit 1 (by norm_num)
  refine ⟨r, ho, hs, ?_, ?_⟩
  · have := (h [0] [1] (.cons ⟨by decide, by decide⟩ .nil) (.cons ⟨by decide, by decide⟩ .nil)).2.1
    have el : ((List.range (([2, 2] : List Nat).getD 1 0)).map fun (j : Nat) => (exP97.elems (([0] : List Int).insertIdx 1 (j : Int)),
        (⟨[2, 2], [F64.ofRat (5 : ℤ), F64.ofRat (1 : ℤ), F64.ofRat (7 : ℤ), 0]⟩ : DenseNd F64).elem [(j : Int), 1])) =
        [(F64.ofRat (3 : ℤ), F64.ofRat (1 : ℤ)), ((0 : F64), (0 : F64))] := rfl
    rw [el] at this
    have hv : (0 : F64).val = 0 := rfl
    have := this (by
      intro q hq
      simp only [List.mem_cons, List.not_mem_nil, or_false] at hq
      rcases hq with rfl | rfl
      · exact ⟨n3.1, n1.1⟩
      · exact ⟨F64.int_zero, F64.int_zero⟩) (by simp only [List.map_cons, List.map_nil, List.sum_cons, List.sum_nil, n3.2, n1.2, hv]; norm_num)
    show (readAt r.entries ([0] ++ [(rowMajor [2] [1] : Int)])).val = 3
    rw [this.2]
    simp only [List.map_cons, List.map_nil, List.sum_cons, List.sum_nil, n3.2, n1.2, hv]
    norm_num
  · exact (h [1] [0] (.cons ⟨by decide, by decide⟩ .nil) (.cons ⟨by decide, by decide⟩ .nil)).2.2 ⟨0, by decide, .inl rfl⟩

end
end Lacuna
