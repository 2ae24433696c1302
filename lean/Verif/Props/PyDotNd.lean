import Verif.Spec.PyDotNd
import Verif.Props.PyDot
import Verif.Props.PyScanAny
/-
C97: `tensordot` and `vecdot` of N-D arrays in any arithmetic.
-/
set_option linter.unusedSectionVars false
namespace Lacuna
variable {V : Type}

theorem filter_range_eq {k c : Nat} (h : c < k) : (List.range k).filter (fun d => decide (d = c)) = [c] := by
  induction k with
  | zero => omega
  | succ k ih =>
    rw [List.range_succ, List.filter_append]
    by_cases hk : c = k
    · subst hk
      have : (List.range c).filter (fun d => decide (d = c)) = [] := by
        rw [List.filter_eq_nil_iff]
        intro d hd
        have := List.mem_range.1 hd
        simp only [decide_eq_true_eq]; omega
      rw [this]; simp
    · rw [ih (by omega)]
      have : ¬ k = c := fun h => hk h.symm
      simp [this]

theorem filter_filter_comm {α : Type} (p q : α → Bool) (l : List α) : (l.filter p).filter q = (l.filter q).filter p := by
  rw [List.filter_filter, List.filter_filter]
  exact List.filter_congr fun x _ => Bool.and_comm _ _

section
variable [Zero V] [Mul V] [BEq V]

theorem valuesAt_mm {a : CooNd V} (ha : ∀ e ∈ a.entries, e.1.length = a.shape.length) {axis : Nat} (hax : axis < a.shape.length) (b : List V)
    {k c : Nat} (hc : c < k) (u : List Int) :
    valuesAt (ndMmEntries a axis b k) (u ++ [(c : Int)]) =
      (((a.entries.filter fun e => e.1.eraseIdx axis == u).map fun e =>
        e.2 * b.getD ((e.1.getD axis 0).toNat * k + c) 0)).filter fun v => !(v == 0) := by
  unfold valuesAt ndMmEntries
  rw [filter_filter_comm]
  have one : ∀ (w : List Int) (f : Nat → V), ((List.range k).map fun (d : Nat) => (w ++ [(d : Int)], f d)).filter
      (fun e => e.1 == u ++ [(c : Int)]) = if w == u then [(u ++ [(c : Int)], f c)] else [] := by
    intro w f
    rw [List.filter_map]
    by_cases hw : w = u
    · subst hw
      have : (fun e : List Int × V => e.1 == w ++ [(c : Int)]) ∘ (fun (d : Nat) => (w ++ [(d : Int)], f d)) = fun d => decide (d = c) := by
        funext d
        simp [Bool.beq_eq_decide_eq]
      rw [this, filter_range_eq hc, if_pos (by simp)]
      rfl
    · rw [if_neg (by simpa using hw), List.map_eq_nil_iff, List.filter_eq_nil_iff]
      intro d _ h
      have : w ++ [(d : Int)] = u ++ [(c : Int)] := by simpa using h
      exact hw (List.append_inj' this rfl).1
  generalize a.entries = l at ha
  induction l with
  | nil => rfl
  | cons e l ih =>
    have ih := ih fun e he => ha e (by simp [he])
    rw [List.flatMap_cons, List.filter_append, one, List.filter_append, List.map_append, ih,
      select_restAxes hax (ha e (by simp)), List.filter_cons]
    split
    · rw [List.map_cons, List.filter_cons]
      simp only [List.filter_cons, List.filter_nil]
      split <;> rfl
    · rfl

theorem valuesAt_mulEntries {a : CooNd V} (ha : ∀ e ∈ a.entries, e.1.length = a.shape.length) {axis : Nat} (hax : axis < a.shape.length)
    (x : List V) (u : List Int) :
    valuesAt (ndMulEntries a axis x) u =
      (((a.entries.filter fun e => e.1.eraseIdx axis == u).map fun e =>
        e.2 * x.getD (e.1.getD axis 0).toNat 0)).filter fun v => !(v == 0) := by
  unfold valuesAt ndMulEntries
  rw [filter_filter_comm]
  generalize a.entries = l at ha
  induction l with
  | nil => rfl
  | cons e l ih =>
    have ih := ih fun e he => ha e (by simp [he])
    rw [List.map_cons, List.filter_cons, List.filter_cons]
    simp only [select_restAxes hax (ha e (by simp))]
    split
    · rw [List.filter_cons, List.map_cons, List.filter_cons]
      simp only
      split
      · rw [List.map_cons, ih]
      · exact ih
    · exact ih

end

section
variable [Zero V] [Add V] [Mul V] [BEq V]

/-- `tensordot` of a valid `COOND` object, without any law of arithmetic. -/
theorem py_tensordot_nd_spec {dbg : Bool} {sort : List (Nat × V) → List (Nat × V)} (hsort : IsSort sort) {axes : AxesArg}
    {a : CooNd V} (ha : a.WF) (hai : a.I64) {axis : Nat} (hax : axis < a.shape.length) (hnd : NdAxis a.shape.length axes axis)
    {y : DenseNd V} {rest : List Nat} (hy : y.shape = a.shape.getD axis 0 :: rest) (hyo : y.Ok) (hpos : 0 < rest.prod)
    (hr : (rest.prod : Int) ≤ i64Max) (hd : ∀ d ∈ a.shape, (d : Int) ≤ i64Max)
    (hno : NoOverflow ((restAxes a.shape.length [axis]).map (fun d => a.shape.getD d 0) ++ [rest.prod]))
    (hmap : 24 * ((a.data.length * rest.prod : Nat) : Int) ≤ i64Max)
    (hidx : 8 * ((a.indices.length * rest.prod : Nat) : Int) ≤ i64Max) :
    ∃ r : CooNd V, (∀ out, PyTensordotNd dbg sort axes (PyNd.of a) y out ↔ out = .ret (PyNd.of r)) ∧
      r.shape = (restAxes a.shape.length [axis]).map (fun d => a.shape.getD d 0) ++ [rest.prod] ∧
      r.WF ∧ r.Sorted ∧ r.NoZeros ∧
      ∀ x v, (x, v) ∈ r.entries ↔ total (ndMmEntries a axis y.data rest.prod) x = some v ∧ (v == 0) = false := by
  have hyl : y.data.length = a.shape.getD axis 0 * rest.prod := by rw [hyo.1, hy, List.prod_cons]
  have hm : a.shape.getD axis 0 * rest.prod ≤ usizeMax := by rw [← hyl]; exact bytes_usize hyo.2
  have hu : a.data.length * a.shape.length ≤ usizeMax := by
    rw [← ha.length]
    refine le_trans (Nat.le_mul_of_pos_right _ hpos) (bytes_usize hidx)
  have hr' : rest.prod ≤ usizeMax := by
    have := hno [rest.prod] (List.suffix_append _ _)
    simpa using this
  have hc := tensordotCols_eq hpos hr' hm hyl
  obtain ⟨r, h1, hsh, hw, -, hso, hnz, hent⟩ := spmmNd_spec hsort ha hai hax hpos hyl hm (by omega) hno
  have huni : ∀ N, 3 * (a.data.length * rest.prod) + 16 ≤ N →
      tensordotNdP dbg N sort a axis y.data (a.shape.getD axis 0 :: rest) = .ok r := by
    intro N hN
    obtain ⟨r1, f1, f2⟩ := spmm_nd_ptr (dbg := dbg) hsort ha hai hax hpos hyl hm (by omega) hno hmap hidx hN
    unfold tensordotNdP
    rw [decide_eq_true hax, hc]
    simp only [assertP, if_true, expectP, ok_bind]
    rw [f1, Option.some.inj (f2.symm.trans h1)]
  refine ⟨r, fun out => ?_, hsh, hw, hso, hnz, hent⟩
  rw [tensordotNd_reaches ha.rank ha.length hu hax hnd hy]
  have key : ∀ o, Settles (fun N o => o = tensordotNdP dbg N sort a axis y.data y.shape) o ↔ o = .ok r := fun o =>
    settles_iff _ fun N hN o => by rw [hy, huni N hN]
  simp only [key, exists_eq_left]
  show out = PyNd.wrap r ↔ _
  rw [pyNd_wrap hw.rank hw.length]
  intro d hd'
  rw [hsh, List.mem_append] at hd'
  rcases hd' with h | h
  · obtain ⟨k, hk, rfl⟩ := List.mem_map.1 h
    have : k < a.shape.length := by simpa using (List.mem_filter.1 hk).1
    rw [List.getD_eq_getElem _ _ this]
    exact hd _ (List.getElem_mem _)
  · rw [List.mem_singleton.1 h]; exact hr

/-- `vecdot` of a valid `COOND` object with at least two axes, without any law of arithmetic. -/
theorem py_vecdot_nd_spec {dbg : Bool} {sort : List (Nat × V) → List (Nat × V)} (hsort : IsSort sort) {ax : Option Int}
    {a : CooNd V} (ha : a.WF) (hai : a.I64) {axis : Nat} (hax : axis < a.shape.length) (hrest : 1 < a.shape.length)
    (hnd : ((ax = none ∨ ax = some (-1)) ∧ axis + 1 = a.shape.length) ∨ ax = some (axis : Int))
    {y : DenseNd V} (hy : y.shape = [a.shape.getD axis 0]) (hyo : y.Ok) (hd : ∀ d ∈ a.shape, (d : Int) ≤ i64Max)
    (hno : NoOverflow ((restAxes a.shape.length [axis]).map fun d => a.shape.getD d 0))
    (hmap : 24 * (a.data.length : Int) ≤ i64Max) (hidx : 8 * (a.indices.length : Int) ≤ i64Max) :
    ∃ r : CooNd V, (∀ out, PyVecdotNd dbg sort ax (PyNd.of a) y out ↔ out = .ret (PyNd.of r)) ∧
      r.shape = (restAxes a.shape.length [axis]).map (fun d => a.shape.getD d 0) ∧ r.WF ∧ r.Sorted ∧
      ∀ x v, (x, v) ∈ r.entries ↔ total (ndMulEntries a axis y.data) x = some v := by
  have hyl : y.data.length = a.shape.getD axis 0 := by rw [hyo.1, hy]; simp
  have hu : a.data.length * a.shape.length ≤ usizeMax := by rw [← ha.length]; exact bytes_usize hidx
  obtain ⟨r, h1, hsh, hw, -, hso, hent⟩ := spmvNd_spec hsort ha hai hax hyl hrest hno
  refine ⟨r, fun out => ?_, hsh, hw, hso, hent⟩
  rw [vecdotNd_reaches ha.rank ha.length hu hax hnd hy]
  have huni : ∀ N, 3 * a.data.length + 16 ≤ N → spmvNdP dbg N sort a axis y.data = .ok r := by
    intro N hN
    obtain ⟨r1, f1, f2⟩ := spmv_nd_ptr (dbg := dbg) hsort ha hai hax hyl hrest hno hmap hidx hN
    rw [f1, Option.some.inj (f2.symm.trans h1)]
  have key : ∀ o, Settles (fun N o => o = spmvNdP dbg N sort a axis y.data) o ↔ o = .ok r := fun o =>
    settles_iff _ fun N hN o => by rw [huni N hN]
  simp only [key, exists_eq_left]
  show out = PyNd.wrap r ↔ _
  rw [pyNd_wrap hw.rank hw.length]
  intro d hd'
  rw [hsh] at hd'
  obtain ⟨k, hk, rfl⟩ := List.mem_map.1 hd'
  have : k < a.shape.length := by simpa using (List.mem_filter.1 hk).1
  rw [List.getD_eq_getElem _ _ this]
  exact hd _ (List.getElem_mem _)

end

theorem entries_length {a : CooNd V} (ha : a.WF) : ∀ e ∈ a.entries, e.1.length = a.shape.length :=
  fun e he => (ha.entries_inBounds e he).length

section
variable [Zero V] [Add V] [Mul V] [BEq V] [HasFma V]

/-- C97: `tensordot` of a valid `COOND` in any arithmetic: one possible outcome.  An element of the result is
stored where the products of its factors that are not zero add up to something other than zero; they are added
in storage order. -/
theorem py_tensordot_nd_any {env : PyEnv V} (he : env.Ok) {a : CooNd V} (hv : (SpVal.nd a).Valid)
    (hs : (SpVal.nd a).ty.SizeOk a.data.length) {axes : AxesArg} {axis : Nat} (hax : axis < a.shape.length)
    (hnd : (LinFn.tensordot axes).NdContraction a.shape.length axis) {y : DenseNd V} (hy : y.Ok) {rest : List Nat}
    (hys : y.shape = a.shape.getD axis 0 :: rest) (hpos : 0 < rest.prod)
    (hcells : (((a.shape.eraseIdx axis).prod * rest.prod : Nat) : Int) ≤ i64Max)
    (hmem : 24 * ((a.data.length * a.shape.length * rest.prod : Nat) : Int) ≤ i64Max) :
    ∃ r : CooNd V, (∀ out, LinSparseDense env (.tensordot axes) (SpVal.nd a).obj y out ↔ out = .ret (.sparse (SpVal.nd r).obj)) ∧
      r.WF ∧ r.Sorted ∧ r.shape = a.shape.eraseIdx axis ++ [rest.prod] ∧
      ∀ u z, InBounds (a.shape.eraseIdx axis) u → InBounds rest z → ∀ v,
        (u ++ [(rowMajor rest z : Int)], v) ∈ r.entries ↔
          keptDot (ndDotTerms a.entries axis y u z) = some v ∧ (v == 0) = false := by
  obtain ⟨hwf, hi, hp0, hpu⟩ := good_nd ⟨hv, hs⟩
  obtain ⟨-, hpi, -, -⟩ := hs
  have hpi : (a.shape.prod : Int) ≤ i64Max := hpi
  have hdvd : (a.shape.eraseIdx axis).prod ∣ a.shape.prod := (List.eraseIdx_sublist a.shape axis).prod_dvd_prod
  have he0 : 0 < (a.shape.eraseIdx axis).prod := Nat.pos_of_dvd_of_pos hdvd hp0
  have hr : (rest.prod : Int) ≤ i64Max := by
    refine le_trans ?_ hcells
    exact_mod_cast Nat.le_mul_of_pos_left _ he0
  have hap : (a.shape.eraseIdx axis ++ [rest.prod]).prod = (a.shape.eraseIdx axis).prod * rest.prod := by simp
  have hn0 : 0 < a.shape.length := by omega
  obtain ⟨r, h1, h2, h3, h4, h5, h6⟩ := py_tensordot_nd_spec (dbg := env.dbg) he.nd hwf hi hax hnd hys hy hpos hr
    (fun d hd => le_trans (by exact_mod_cast le_prod_of_mem hp0 hd) hpi)
    (by rw [shape_restAxes hax]
        refine noOverflow_of_pos (by rw [hap]; exact Nat.mul_pos he0 hpos) ?_
        rw [hap]; unfold i64Max at hcells; unfold usizeMax; omega)
    (by refine le_trans ?_ hmem
        have : a.data.length * rest.prod ≤ a.data.length * a.shape.length * rest.prod :=
          Nat.mul_le_mul_right _ (Nat.le_mul_of_pos_right _ hn0)
        omega)
    (by rw [hwf.length]; omega)
  rw [shape_restAxes hax] at h2
  refine ⟨r, fun out => ?_, h3, h4, h2, fun u z hu hz v => ?_⟩
  · show (∃ o, PyTensordotNd env.dbg env.ndSort axes (PyNd.of a) y o ∧ out = o.bind fun r => .ret (.sparse (.nd r))) ↔ _
    simp only [h1, exists_eq_left]; rfl
  · rw [h6, total_eq_sumAll, valuesAt_mm (entries_length hwf) hax y.data (rowMajor_lt hz) u]
    unfold keptDot ndDotTerms
    rw [List.map_map]
    have : (a.entries.filter fun e => e.1.eraseIdx axis == u).map (fun e =>
        e.2 * y.data.getD ((e.1.getD axis 0).toNat * rest.prod + rowMajor rest z) 0) =
      (a.entries.filter fun e => e.1.eraseIdx axis == u).map ((fun q : V × V => q.1 * q.2) ∘ fun e => (e.2, y.elem (e.1.getD axis 0 :: z))) := by
      refine List.map_congr_left fun e _ => ?_
      simp only [Function.comp, DenseNd.elem, hys]
      rfl
    rw [this]

/-- C97: `vecdot` of a valid `COOND` with at least two axes in any arithmetic: one possible outcome.  An element
is stored where there is a product other than zero, also if these add up to zero. -/
theorem py_vecdot_nd_any {env : PyEnv V} (he : env.Ok) {a : CooNd V} (hv : (SpVal.nd a).Valid)
    (hs : (SpVal.nd a).ty.SizeOk a.data.length) {ax : Option Int} {axis : Nat} (hax : axis < a.shape.length)
    (hrank : 1 < a.shape.length) (hnd : (LinFn.vecdot ax).NdContraction a.shape.length axis) {y : DenseNd V} (hy : y.Ok)
    (hys : y.shape = [a.shape.getD axis 0]) :
    ∃ r : CooNd V, (∀ out, LinSparseDense env (.vecdot ax) (SpVal.nd a).obj y out ↔ out = .ret (.sparse (SpVal.nd r).obj)) ∧
      r.WF ∧ r.Sorted ∧ r.shape = a.shape.eraseIdx axis ∧
      ∀ u v, (u, v) ∈ r.entries ↔ keptDot (ndDotTerms a.entries axis y u []) = some v := by
  obtain ⟨hwf, hi, hp0, hpu⟩ := good_nd ⟨hv, hs⟩
  obtain ⟨-, hpi, hm, hix⟩ := hs
  have hpi : (a.shape.prod : Int) ≤ i64Max := hpi
  have hdvd : (a.shape.eraseIdx axis).prod ∣ a.shape.prod := (List.eraseIdx_sublist a.shape axis).prod_dvd_prod
  have he0 : 0 < (a.shape.eraseIdx axis).prod := Nat.pos_of_dvd_of_pos hdvd hp0
  obtain ⟨r, h1, h2, h3, h4, h5⟩ := py_vecdot_nd_spec (dbg := env.dbg) he.nd hwf hi hax hrank hnd hys hy
    (fun d hd => le_trans (by exact_mod_cast le_prod_of_mem hp0 hd) hpi)
    (by rw [shape_restAxes hax]; exact noOverflow_of_pos he0 (le_trans (Nat.le_of_dvd hp0 hdvd) hpu)) hm
    (by rw [hwf.length]; exact hix)
  rw [shape_restAxes hax] at h2
  refine ⟨r, fun out => ?_, h3, h4, h2, fun u v => ?_⟩
  · show (∃ o, PyVecdotNd env.dbg env.ndSort ax (PyNd.of a) y o ∧ out = o.bind fun r => .ret (.sparse (.nd r))) ↔ _
    simp only [h1, exists_eq_left]; rfl
  · rw [h5, total_eq_sumAll, valuesAt_mulEntries (entries_length hwf) hax y.data u]
    unfold keptDot ndDotTerms
    rw [List.map_map]
    have : (a.entries.filter fun e => e.1.eraseIdx axis == u).map (fun e => e.2 * y.data.getD (e.1.getD axis 0).toNat 0) =
      (a.entries.filter fun e => e.1.eraseIdx axis == u).map ((fun q : V × V => q.1 * q.2) ∘ fun e => (e.2, y.elem [e.1.getD axis 0])) := by
      refine List.map_congr_left fun e _ => ?_
      simp only [Function.comp, DenseNd.elem, hys]
      simp [rowMajor]
    rw [this]

end

/-! ### Rounding -/

/-- Leaving out numbers whose value is zero keeps the bound. -/
theorem RoundedSum.of_filter [Zero V] [Add V] {M : FpAdd V} {l : List V} {v : V} {q : V → Bool}
    (hq : ∀ x ∈ l, q x = false → M.val x = 0) (h : RoundedSum M (l.filter q : Multiset V) v) : RoundedSum M (l : Multiset V) v := by
  have e : ∀ f : V → ℚ, (∀ x ∈ l, q x = false → f x = 0) → ((l.filter q).map f).sum = (l.map f).sum := by
    intro f hf
    clear h hq
    induction l with
    | nil => rfl
    | cons p l ih =>
      have ih := ih fun p hp => hf p (List.mem_cons_of_mem _ hp)
      by_cases hp : q p = true
      · rw [List.filter_cons_of_pos hp, List.map_cons, List.sum_cons, List.map_cons, List.sum_cons, ih]
      · rw [List.filter_cons_of_neg hp, ih, List.map_cons, List.sum_cons, hf p List.mem_cons_self (by simpa using hp), zero_add]
  have s1 := e M.val hq
  have s2 := e (fun x => |M.val x|) fun x hx hf => by rw [hq x hx hf, abs_zero]
  intro hs hb
  have hn : (l.filter q).length ≤ l.length := List.length_filter_le _ _
  have h1 : 1 ≤ 1 + M.eps := by linarith [M.eps_nonneg]
  have hS : 0 ≤ (l.map fun x => |M.val x|).sum := List.sum_nonneg (by
    intro x hx
    obtain ⟨p, -, rfl⟩ := List.mem_map.1 hx
    exact abs_nonneg _)
  simp only [Multiset.coe_card, Multiset.map_coe, Multiset.sum_coe] at hb ⊢
  unfold RoundedSum at h
  simp only [Multiset.coe_card, Multiset.map_coe, Multiset.sum_coe, s1, s2] at h
  obtain ⟨f, hf⟩ := h (fun p hp => hs p (Multiset.mem_coe.2 (List.mem_filter.1 (Multiset.mem_coe.1 hp)).1)) (by
    refine le_trans ?_ hb
    exact mul_le_mul_of_nonneg_right (pow_le_pow_right₀ h1 hn) hS)
  refine ⟨f, le_trans hf ?_⟩
  exact mul_le_mul_of_nonneg_right (by linarith [pow_le_pow_right₀ h1 (show (l.filter q).length - 1 ≤ l.length - 1 by omega)]) hS

section
variable [Zero V] [Add V] [Mul V] [BEq V]

theorem keptDot_tree (l : List (V × V)) :
    AddTree (((l.map fun q => q.1 * q.2).filter fun v => !(v == 0) : List V) : Multiset V) ((keptDot l).getD 0) := by
  unfold keptDot
  generalize ((l.map fun q => q.1 * q.2).filter fun v => !(v == 0)) = m
  cases m with
  | nil => exact .zero
  | cons x m => exact foldl_tree m (AddTree.leaf x)

/-- The bound covers products that are left out because they underflow to zero. -/
theorem keptDot_rounded (M : FpMul V) (hz : ∀ x : V, (x == 0) = true → M.val x = 0) (l : List (V × V)) :
    RoundedDot M (l : Multiset (V × V)) ((keptDot l).getD 0) := by
  refine RoundedSum.dot M (g := fun q => q.1 * q.2) (fun _ _ => .inl rfl) ?_
  rw [Multiset.map_coe]
  exact RoundedSum.of_filter (fun x _ hx => hz x (by simpa using hx)) ((keptDot_tree l).rounded M.toFpAdd)

/-- What is read where the total is stored unless it is zero. -/
theorem read_kept {r : CooNd V} {x : List Int} {t : Option V} (h : ∀ v, (x, v) ∈ r.entries ↔ t = some v ∧ (v == 0) = false) :
    (∃ v, t = some v ∧ (v == 0) = false ∧ readAt r.entries x = v) ∨ readAt r.entries x = 0 ∧ ∀ v, t = some v → (v == 0) = true := by
  by_cases hx : ∃ v, t = some v ∧ (v == 0) = false
  · obtain ⟨v, h1, h2⟩ := hx
    refine .inl ⟨v, h1, h2, ?_⟩
    have hm := (h v).2 ⟨h1, h2⟩
    unfold readAt
    cases hv : valuesAt r.entries x with
    | nil =>
      have : v ∈ valuesAt r.entries x := List.mem_map.2 ⟨_, List.mem_filter.2 ⟨hm, by simp⟩, rfl⟩
      rw [hv] at this; cases this
    | cons w l =>
      have hw : w ∈ valuesAt r.entries x := by rw [hv]; exact List.mem_cons_self
      obtain ⟨e, he, rfl⟩ := List.mem_map.1 hw
      obtain ⟨he, hk⟩ := List.mem_filter.1 he
      have hk : e.1 = x := by simpa using hk
      have := (h e.2).1 (by rw [← hk]; exact he)
      rw [h1] at this
      exact (Option.some.inj this.1).symm
  · refine .inr ⟨?_, fun v hv => by
      by_contra hn
      exact hx ⟨v, hv, by simpa using hn⟩⟩
    unfold readAt
    cases hv : valuesAt r.entries x with
    | nil => rfl
    | cons w l =>
      exfalso
      have hw : w ∈ valuesAt r.entries x := by rw [hv]; exact List.mem_cons_self
      obtain ⟨e, he, rfl⟩ := List.mem_map.1 hw
      obtain ⟨he, hk⟩ := List.mem_filter.1 he
      have hk : e.1 = x := by simpa using hk
      exact hx ⟨e.2, (h e.2).1 (by rw [← hk]; exact he)⟩

theorem read_total {r : CooNd V} {x : List Int} {t : Option V} (h : ∀ v, (x, v) ∈ r.entries ↔ t = some v) :
    readAt r.entries x = t.getD 0 := by
  have key : ∀ w ∈ valuesAt r.entries x, t = some w := by
    intro w hw
    obtain ⟨e, he, rfl⟩ := List.mem_map.1 hw
    obtain ⟨he, hk⟩ := List.mem_filter.1 he
    have hk : e.1 = x := by simpa using hk
    exact (h e.2).1 (by rw [← hk]; exact he)
  unfold readAt
  cases hv : valuesAt r.entries x with
  | nil =>
    cases t with
    | none => rfl
    | some v =>
      have : v ∈ valuesAt r.entries x := List.mem_map.2 ⟨_, List.mem_filter.2 ⟨(h v).2 rfl, by simp⟩, rfl⟩
      rw [hv] at this; cases this
  | cons w l =>
    rw [key w (by rw [hv]; exact List.mem_cons_self)]
    rfl

end

section
variable [Zero V] [One V] [Add V] [Sub V] [Mul V] [Div V] [Neg V] [BEq V] [NatCast V] [HasFinite V]
  [HasFloor V] [HasPowf V] [HasAbs V] [HasLt V] [HasNan V] [HasMinMax V] [HasSqrt V] [HasFma V]

/-- C97: a program whose value is a `COOND`, with `tensordot` in the end: one possible outcome, the same on every
machine and for every sort routine.  The elements are made of the numbers the program stores (C79), in that order. -/
theorem prog_tensordot_nd_any {env : PyEnv V} (he : env.Ok) {e : Prog V} (hl : e.LitsOk) (hs : e.Small) (hd : e.Determined)
    {s : List Nat} (hc : e.check = .ok (.nd s)) {axes : AxesArg} {axis : Nat} (hax : axis < s.length)
    (hnd : (LinFn.tensordot axes).NdContraction s.length axis)
    {y : DenseNd V} (hy : y.Ok) {rest : List Nat} (hys : y.shape = s.getD axis 0 :: rest) (hpos : 0 < rest.prod)
    (hcells : (((s.eraseIdx axis).prod * rest.prod : Nat) : Int) ≤ i64Max)
    (hmem : 24 * ((e.stores.length * s.length * rest.prod : Nat) : Int) ≤ i64Max) :
    ∃ r : CooNd V, (∀ out, e.Linalg env (.tensordot axes) y out ↔ out = .ret (.sparse (SpVal.nd r).obj)) ∧
      r.WF ∧ r.Sorted ∧ r.shape = s.eraseIdx axis ++ [rest.prod] ∧
      ∀ u z, InBounds (s.eraseIdx axis) u → InBounds rest z → ∀ v,
        (u ++ [(rowMajor rest z : Int)], v) ∈ r.entries ↔
          keptDot (ndDotTerms e.stores axis y u z) = some v ∧ (v == 0) = false := by
  obtain ⟨w, hv, hs', ht, hst, hev⟩ := prog_stores he hl hs hd hc
  cases w with
  | mat f a => cases ht
  | coo a => cases ht
  | nd a =>
    cases ht
    have hst : a.entries = e.stores := hst
    have hlen : a.data.length = e.stores.length := by rw [← hst, CooNd.entries_length]
    obtain ⟨r, h1, h2, h3, h4, h5⟩ := py_tensordot_nd_any he hv hs' hax hnd hy hys hpos hcells (by rw [hlen]; exact hmem)
    rw [hst] at h5
    exact ⟨r, fun out => by rw [linalg_then hev]; exact h1 out, h2, h3, h4, h5⟩

/-- C97: `vecdot` in the end. -/
theorem prog_vecdot_nd_any {env : PyEnv V} (he : env.Ok) {e : Prog V} (hl : e.LitsOk) (hs : e.Small) (hd : e.Determined)
    {s : List Nat} (hc : e.check = .ok (.nd s)) {ax : Option Int} {axis : Nat} (hax : axis < s.length) (hrank : 1 < s.length)
    (hnd : (LinFn.vecdot ax).NdContraction s.length axis) {y : DenseNd V} (hy : y.Ok) (hys : y.shape = [s.getD axis 0]) :
    ∃ r : CooNd V, (∀ out, e.Linalg env (.vecdot ax) y out ↔ out = .ret (.sparse (SpVal.nd r).obj)) ∧
      r.WF ∧ r.Sorted ∧ r.shape = s.eraseIdx axis ∧
      ∀ u v, (u, v) ∈ r.entries ↔ keptDot (ndDotTerms e.stores axis y u []) = some v := by
  obtain ⟨w, hv, hs', ht, hst, hev⟩ := prog_stores he hl hs hd hc
  cases w with
  | mat f a => cases ht
  | coo a => cases ht
  | nd a =>
    cases ht
    have hst : a.entries = e.stores := hst
    obtain ⟨r, h1, h2, h3, h4, h5⟩ := py_vecdot_nd_any he hv hs' hax hrank hnd hy hys
    rw [hst] at h5
    exact ⟨r, fun out => by rw [linalg_then hev]; exact h1 out, h2, h3, h4, h5⟩

/-- C97: in floating-point arithmetic, every element of the result of `tensordot` - stored or not - is the sum of
the products of its factors up to the usual rounding error; products that underflow to zero and are left out are
within it. -/
theorem prog_tensordot_nd_error (M : FpMul V) (hz : ∀ x : V, (x == 0) = true → M.val x = 0) {env : PyEnv V} (he : env.Ok) {e : Prog V}
    (hl : e.LitsOk) (hs : e.Small) (hd : e.Determined)
    {s : List Nat} (hc : e.check = .ok (.nd s)) {axes : AxesArg} {axis : Nat} (hax : axis < s.length)
    (hnd : (LinFn.tensordot axes).NdContraction s.length axis)
    {y : DenseNd V} (hy : y.Ok) {rest : List Nat} (hys : y.shape = s.getD axis 0 :: rest) (hpos : 0 < rest.prod)
    (hcells : (((s.eraseIdx axis).prod * rest.prod : Nat) : Int) ≤ i64Max)
    (hmem : 24 * ((e.stores.length * s.length * rest.prod : Nat) : Int) ≤ i64Max) :
    ∃ r : CooNd V, (∀ out, e.Linalg env (.tensordot axes) y out ↔ out = .ret (.sparse (SpVal.nd r).obj)) ∧
      r.shape = s.eraseIdx axis ++ [rest.prod] ∧
      ∀ u z, InBounds (s.eraseIdx axis) u → InBounds rest z →
        RoundedDot M (ndDotTerms e.stores axis y u z : Multiset (V × V)) (readAt r.entries (u ++ [(rowMajor rest z : Int)])) := by
  obtain ⟨r, h1, -, -, h4, h5⟩ := prog_tensordot_nd_any he hl hs hd hc hax hnd hy hys hpos hcells hmem
  refine ⟨r, h1, h4, fun u z hu hz' => ?_⟩
  have hk := keptDot_rounded M hz (ndDotTerms e.stores axis y u z)
  rcases read_kept (h5 u z hu hz') with ⟨v, e1, -, e3⟩ | ⟨e1, e2⟩
  · rw [e3]
    rwa [e1] at hk
  · rw [e1]
    cases ht : keptDot (ndDotTerms e.stores axis y u z) with
    | none => rwa [ht] at hk
    | some v =>
      rw [ht] at hk
      intro a b
      obtain ⟨-, k2⟩ := hk a b
      refine ⟨M.fin_zero, ?_⟩
      rw [Option.getD_some, hz v (e2 v ht), ← M.val_zero] at k2
      exact k2

/-- C97: the same for `vecdot`. -/
theorem prog_vecdot_nd_error (M : FpMul V) (hz : ∀ x : V, (x == 0) = true → M.val x = 0) {env : PyEnv V} (he : env.Ok) {e : Prog V}
    (hl : e.LitsOk) (hs : e.Small) (hd : e.Determined)
    {s : List Nat} (hc : e.check = .ok (.nd s)) {ax : Option Int} {axis : Nat} (hax : axis < s.length) (hrank : 1 < s.length)
    (hnd : (LinFn.vecdot ax).NdContraction s.length axis) {y : DenseNd V} (hy : y.Ok) (hys : y.shape = [s.getD axis 0]) :
    ∃ r : CooNd V, (∀ out, e.Linalg env (.vecdot ax) y out ↔ out = .ret (.sparse (SpVal.nd r).obj)) ∧
      r.shape = s.eraseIdx axis ∧
      ∀ u, RoundedDot M (ndDotTerms e.stores axis y u [] : Multiset (V × V)) (readAt r.entries u) := by
  obtain ⟨r, h1, -, -, h4, h5⟩ := prog_vecdot_nd_any he hl hs hd hc hax hrank hnd hy hys
  refine ⟨r, h1, h4, fun u => ?_⟩
  rw [read_total (h5 u)]
  exact keptDot_rounded M hz _

theorem keptDot_nan (ha : ∀ x y : V, isNan x = true ∨ isNan y = true → isNan (x + y) = true)
    (hm : ∀ x y : V, isNan x = true ∨ isNan y = true → isNan (x * y) = true) (hz : ∀ x : V, isNan x = true → (x == 0) = false)
    {l : List (V × V)} (h : ∃ q ∈ l, isNan q.1 = true ∨ isNan q.2 = true) : ∃ v, keptDot l = some v ∧ isNan v = true ∧ (v == 0) = false := by
  obtain ⟨q, hq, hn⟩ := h
  have hp := hm q.1 q.2 hn
  have hmem : q.1 * q.2 ∈ (l.map fun q => q.1 * q.2).filter fun v => !(v == 0) :=
    List.mem_filter.2 ⟨List.mem_map.2 ⟨q, hq, rfl⟩, by rw [hz _ hp]; rfl⟩
  have ht := keptDot_tree l
  cases hk : keptDot l with
  | none =>
    unfold keptDot at hk
    rw [sumAll_eq_none.1 hk] at hmem
    cases hmem
  | some v =>
    rw [hk] at ht
    have := addTree_nan ha ht ⟨_, Multiset.mem_coe.2 hmem, hp⟩
    exact ⟨v, rfl, this, hz v this⟩

/-- C97: a `NaN` among the factors - a stored one, or one in the dense operand that meets a stored number - makes
the element `NaN`, and it is stored. -/
theorem prog_tensordot_nd_nan (ha : ∀ x y : V, isNan x = true ∨ isNan y = true → isNan (x + y) = true)
    (hm : ∀ x y : V, isNan x = true ∨ isNan y = true → isNan (x * y) = true) (hz : ∀ x : V, isNan x = true → (x == 0) = false)
    {env : PyEnv V} (he : env.Ok) {e : Prog V} (hl : e.LitsOk) (hs : e.Small) (hd : e.Determined)
    {s : List Nat} (hc : e.check = .ok (.nd s)) {axes : AxesArg} {axis : Nat} (hax : axis < s.length)
    (hnd : (LinFn.tensordot axes).NdContraction s.length axis)
    {y : DenseNd V} (hy : y.Ok) {rest : List Nat} (hys : y.shape = s.getD axis 0 :: rest) (hpos : 0 < rest.prod)
    (hcells : (((s.eraseIdx axis).prod * rest.prod : Nat) : Int) ≤ i64Max)
    (hmem : 24 * ((e.stores.length * s.length * rest.prod : Nat) : Int) ≤ i64Max) :
    ∃ r : CooNd V, (∀ out, e.Linalg env (.tensordot axes) y out ↔ out = .ret (.sparse (SpVal.nd r).obj)) ∧
      ∀ u z, InBounds (s.eraseIdx axis) u → InBounds rest z →
        (∃ q ∈ ndDotTerms e.stores axis y u z, isNan q.1 = true ∨ isNan q.2 = true) →
          ∃ v, (u ++ [(rowMajor rest z : Int)], v) ∈ r.entries ∧ isNan v = true := by
  obtain ⟨r, h1, -, -, -, h5⟩ := prog_tensordot_nd_any he hl hs hd hc hax hnd hy hys hpos hcells hmem
  refine ⟨r, h1, fun u z hu hz' hq => ?_⟩
  obtain ⟨v, e1, e2, e3⟩ := keptDot_nan ha hm hz hq
  exact ⟨v, (h5 u z hu hz' v).2 ⟨e1, e3⟩, e2⟩

/-- C97: the same for `vecdot`. -/
theorem prog_vecdot_nd_nan (ha : ∀ x y : V, isNan x = true ∨ isNan y = true → isNan (x + y) = true)
    (hm : ∀ x y : V, isNan x = true ∨ isNan y = true → isNan (x * y) = true) (hz : ∀ x : V, isNan x = true → (x == 0) = false)
    {env : PyEnv V} (he : env.Ok) {e : Prog V} (hl : e.LitsOk) (hs : e.Small) (hd : e.Determined)
    {s : List Nat} (hc : e.check = .ok (.nd s)) {ax : Option Int} {axis : Nat} (hax : axis < s.length) (hrank : 1 < s.length)
    (hnd : (LinFn.vecdot ax).NdContraction s.length axis) {y : DenseNd V} (hy : y.Ok) (hys : y.shape = [s.getD axis 0]) :
    ∃ r : CooNd V, (∀ out, e.Linalg env (.vecdot ax) y out ↔ out = .ret (.sparse (SpVal.nd r).obj)) ∧
      ∀ u, (∃ q ∈ ndDotTerms e.stores axis y u [], isNan q.1 = true ∨ isNan q.2 = true) →
        ∃ v, (u, v) ∈ r.entries ∧ isNan v = true := by
  obtain ⟨r, h1, -, -, -, h5⟩ := prog_vecdot_nd_any he hl hs hd hc hax hrank hnd hy hys
  refine ⟨r, h1, fun u hq => ?_⟩
  obtain ⟨v, e1, e2, -⟩ := keptDot_nan ha hm hz hq
  exact ⟨v, (h5 u v).2 e1, e2⟩

end

end Lacuna
