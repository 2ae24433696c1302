import Verif.Props.F64Nd
import Verif.Props.F64Red
/-
C96: what programs over all classes give at the end, in binary64: sums, means, variances, extrema, products,
truth values, counts, running sums and products, differences, comparisons and products with dense arrays.
-/
set_option linter.unusedSectionVars false
namespace Lacuna
section
variable [HasMinMax F64] [HasPowf F64]

theorem elems_pow_bounds (k : Nat) : (1 - 1 / 2 ^ 53 : ℚ) ^ k ≤ 1 ∧ (1 : ℚ) ≤ (1 + 1 / 2 ^ 53) ^ k ∧ (0 : ℚ) < (1 - 1 / 2 ^ 53) ^ k :=
  ⟨pow_le_one₀ (by norm_num) (by norm_num), one_le_pow₀ (by norm_num), pow_pos (by norm_num) k⟩

theorem is2d_shape {τ : Ty} (h : τ.Is2d) : ∃ r c, τ.shape = [r, c] := by
  cases τ with
  | mat f r c => exact ⟨r, c, rfl⟩
  | coo r c => exact ⟨r, c, rfl⟩
  | nd s => exact h.elim

theorem elems_held {env : PyEnv F64} (he : env.Ok) {e : Prog F64} (hl : e.LitsOk) (hs : e.Small) (hd : e.AsElems) {τ : Ty}
    (hc : e.check = .ok τ) : (∀ k ∈ e.stores, InBounds τ.shape k.1) ∧
      ∀ x, InBounds τ.shape x → HeldAs (valuesAt e.stores x) (e.elems x) := by
  obtain ⟨hn, hin⟩ := stores_keys he hl hs hd hc
  exact ⟨hin, fun x hx => heldAs_of hn (f64_elems he hl hs hd hc x hx)⟩

theorem elems_cell {env : PyEnv F64} (he : env.Ok) {e : Prog F64} (hl : e.LitsOk) (hs : e.Small) (hd : e.AsElems) {τ : Ty}
    (hc : e.check = .ok τ) {x : List Int} (hx : InBounds τ.shape x) : SameNum (e.denseCell x) (e.elems x) := by
  unfold Prog.denseCell denseCell
  rcases (elems_held he hl hs hd hc).2 x hx with ⟨e1, e2⟩ | ⟨v, e1, e2⟩
  · rw [e1]
    split
    · exact .inr ⟨rfl, e2⟩
    · exact .inr ⟨rfl, e2⟩
  · rw [e1]
    split
    · exact e2
    · exact F64.same_trans (F64.same_zero_add false v) e2

/-- C96: in binary64, `program.toarray()` of a program over compressed and coordinate matrices (and N-D arrays
that are unfolded) has one outcome, on every machine, and its elements are those of `Prog.elems`, rounding,
overflow, infinities and `NaN` included, up to the sign of zeros. -/
theorem elems_toarray {env : PyEnv F64} (he : env.Ok) {e : Prog F64} (hl : e.LitsOk) (hs : e.Small) (hd : e.AsElems) {τ : Ty}
    (hc : e.check = .ok τ) (h2d : τ.Is2d) : ∃ d, (∀ out, e.Toarray env out ↔ out = .ret d) ∧
      d.shape = τ.shape ∧ d.data.length = τ.shape.prod ∧ ∀ x, InBounds τ.shape x → SameNum (d.elem x) (e.elems x) := by
  refine ⟨denseOf τ.shape e.denseCell, fun out => ?_, rfl, ?_, fun x hx => ?_⟩
  · rw [prog_toarray he hl hs hd.wf.1 out, hc]
    cases τ with
    | nd s => exact h2d.elim
    | _ => rfl
  · show ((indicesOf τ.shape).map e.denseCell).length = _
    rw [List.length_map, indicesOf_length]
  · rw [denseOf_elem hx]
    exact elems_cell he hl hs hd hc hx

/-- C96: the value of a program that is an N-D array: it stores no coordinate twice, and what it stores for a
coordinate is the element of `Prog.elems`; what it does not store is zero there. -/
theorem elems_entries {env : PyEnv F64} (he : env.Ok) {e : Prog F64} (hl : e.LitsOk) (hs : e.Small) (hd : e.AsElems) {s : List Nat}
    (hc : e.check = .ok (.nd s)) : ∃ a : CooNd F64, (∀ out, e.Eval env out ↔ out = .ret (SpVal.nd a).obj) ∧ a.shape = s ∧
      (a.entries.map Prod.fst).Nodup ∧ (∀ k ∈ a.entries, InBounds s k.1 ∧ SameNum k.2 (e.elems k.1)) ∧
      ∀ x, InBounds s x → x ∉ a.entries.map Prod.fst → (e.elems x == 0) = true := by
  obtain ⟨w, hv, ht, hst, hev⟩ := prog_stored he hl hs hd.wf.1 hc
  obtain ⟨hn, hin⟩ := stores_keys he hl hs hd hc
  have hh := (elems_held he hl hs hd hc).2
  cases w with
  | mat f a => cases ht
  | coo a => cases ht
  | nd a =>
    have hst : a.entries = e.stores := hst
    refine ⟨a, hev, by cases ht; rfl, by rw [hst]; exact hn, fun k hk => ?_, fun x hx hk => ?_⟩
    · rw [hst] at hk
      refine ⟨hin k hk, ?_⟩
      have hm : k.2 ∈ valuesAt e.stores k.1 := mem_valuesAt.2 hk
      rcases hh k.1 (hin k hk) with ⟨e1, -⟩ | ⟨v, e1, e2⟩
      · rw [e1] at hm; cases hm
      · rw [e1] at hm
        rw [List.mem_singleton.1 hm]
        exact e2
    · rw [hst] at hk
      rcases hh x hx with ⟨-, e2⟩ | ⟨v, e1, -⟩
      · exact e2
      · have hm : v ∈ valuesAt e.stores x := by rw [e1]; exact List.mem_singleton_self _
        exact absurd (List.mem_map.2 ⟨_, mem_valuesAt.1 hm, rfl⟩) hk

/-- C96: sums.  Every cell of `sum(program, axis)` is the exact sum of the elements along the axis up to
the error bound of recursive summation of binary64 numbers, on every machine and for every schedule. -/
theorem elems_sum {env : PyEnv F64} (he : env.Ok) {e : Prog F64} (hl : e.LitsOk) (hs : e.Small) (hd : e.AsElems) {τ : Ty}
    (hc : e.check = .ok τ) (h2d : τ.Is2d) {axis : AxisArg} (keep : Bool) (ha : axis.Valid 2) (hne : axis ≠ .many [])
    {out : PyRes (RedOut F64 F64)} (h : e.Reduce env .sum axis keep out) :
    ∃ r, out = .ret (.dense r) ∧ IsReduction τ.shape (axis.covers 2) keep
      (fun l v => RoundedSum F64.fp.toFpAdd (l : Multiset F64) v) e.elems r := by
  obtain ⟨-, hh⟩ := elems_held he hl hs hd hc
  obtain ⟨r, e1, hr⟩ := prog_sum_rounded F64.fp.toFpAdd he hl hs hd.wf.1 hc h2d keep ha hne h
  refine ⟨r, e1, hr.shape_eq, hr.size, fun y hy => ?_⟩
  obtain ⟨v, h1, h2⟩ := hr.cell y hy
  refine ⟨v, h1, ?_⟩
  obtain ⟨xs, hxs, hfib⟩ := fibre_map τ.shape (axis.covers 2) keep y
  rw [hfib] at h2 ⊢
  exact heldAs_rounded (fun x hx => hh x (hxs x hx)) h2

/-- C96: a `NaN` among the elements along the axis makes the sum a `NaN`. -/
theorem elems_sum_nan {env : PyEnv F64} (he : env.Ok) {e : Prog F64} (hl : e.LitsOk) (hs : e.Small) (hd : e.AsElems) {τ : Ty}
    (hc : e.check = .ok τ) (h2d : τ.Is2d) {axis : AxisArg} (keep : Bool) (ha : axis.Valid 2) (hne : axis ≠ .many [])
    {out : PyRes (RedOut F64 F64)} (h : e.Reduce env .sum axis keep out) :
    ∃ r, out = .ret (.dense r) ∧ IsReduction τ.shape (axis.covers 2) keep
      (fun l v => (∃ x ∈ l, isNan x = true) → isNan v = true) e.elems r := by
  obtain ⟨-, hh⟩ := elems_held he hl hs hd hc
  obtain ⟨r, e1, hr⟩ := prog_sum_nan F64.isNan_add he hl hs hd.wf.1 hc h2d keep ha hne h
  refine ⟨r, e1, hr.shape_eq, hr.size, fun y hy => ?_⟩
  obtain ⟨v, h1, h2⟩ := hr.cell y hy
  refine ⟨v, h1, ?_⟩
  obtain ⟨xs, hxs, hfib⟩ := fibre_map τ.shape (axis.covers 2) keep y
  rw [hfib] at h2 ⊢
  rintro ⟨d, hd, hn⟩
  obtain ⟨x, hx, rfl⟩ := List.mem_map.1 hd
  refine h2 ⟨_, List.mem_map_of_mem hx, ?_⟩
  rcases hh x (hxs x hx) with ⟨-, e2⟩ | ⟨w, e1, e2⟩
  · obtain ⟨s, e3⟩ := F64.eq_zero_iff.1 e2
    rw [e3] at hn; cases hn
  · refine ⟨w, by rw [e1]; exact List.mem_singleton_self _, ?_⟩
    rcases e2 with e2 | ⟨-, e2⟩
    · rw [e2]; exact hn
    · obtain ⟨s, e3⟩ := F64.eq_zero_iff.1 e2
      rw [e3] at hn; cases hn

/-- C96: means.  Every cell of `mean(program, axis)` is the exact mean of the elements along the axis, up to
rounding. -/
theorem elems_mean {env : PyEnv F64} (he : env.Ok) {e : Prog F64} (hl : e.LitsOk) (hs : e.Small) (hd : e.AsElems) {τ : Ty}
    (hc : e.check = .ok τ) (h2d : τ.Is2d) (h0 : 0 < τ.shape.prod) (h53 : τ.shape.prod ≤ 2 ^ 53) {axis : AxisArg} (keep : Bool) (ha : axis.Valid 2)
    (hne : axis ≠ .many []) :
    (∃ out, e.Reduce env .mean axis keep out) ∧
    ∀ out, e.Reduce env .mean axis keep out →
      ∃ r, out = .ret (.dense r) ∧ IsReduction τ.shape (axis.covers 2) keep F64.RoundedMean e.elems r := by
  obtain ⟨-, hh⟩ := elems_held he hl hs hd hc
  obtain ⟨hex, hall⟩ := prog_reduce_any he hl hs hd.wf.1 hc h2d (op := .mean) keep ha hne (fun _ _ => by
    rw [Bool.eq_false_iff]
    intro h
    have k := (f64_nat h53).2
    rw [F64.val_of_eq_zero _ h] at k
    have : (τ.shape.prod : ℚ) ≠ 0 := by exact_mod_cast Nat.pos_iff_ne_zero.1 h0
    exact this k.symm)
  refine ⟨hex, fun out hout => ?_⟩
  obtain ⟨r', e1, hr⟩ := hall out hout
  refine ⟨r', e1, hr.shape_eq, hr.size, fun y hy => ?_⟩
  obtain ⟨v, h1, h2⟩ := hr.cell y hy
  refine ⟨v, h1, ?_⟩
  have hlen : ∀ {W : Type} (g : List Int → W), (fibre τ.shape (axis.covers 2) keep g y).length ≤ τ.shape.prod := by
    intro W g
    unfold fibre
    rw [List.length_map]
    exact le_trans (List.length_filter_le _ _) (by rw [indicesOf_length])
  have hlen := hlen e.elems
  obtain ⟨xs, hxs, hfib⟩ := fibre_map τ.shape (axis.covers 2) keep y
  rw [hfib] at h2 hlen ⊢
  obtain ⟨t, ht, hv⟩ := h2
  refine f64_mean_of (heldAs_rounded (fun x hx => hh x (hxs x hx)) (AddTree.rounded F64.fp.toFpAdd ht)) (le_trans hlen h53) ?_
  rw [hv, List.length_map, List.length_map]

/-- C96: a variance is never negative, and a standard deviation is never negative and a `NaN` only if the
variance is one: the square root is not taken of the negative number that rounding may leave. -/
theorem elems_var {env : PyEnv F64} (he : env.Ok) {e : Prog F64} (hl : e.LitsOk) (hs : e.Small) (hd : e.AsElems) {τ : Ty}
    (hc : e.check = .ok τ) (h2d : τ.Is2d) {axis : AxisArg} (keep : Bool) (ha : axis.Valid 2) (hne : axis ≠ .many []) (corr : F64)
    {out : PyRes (RedOut F64 F64)} :
    (e.Reduce env (.var corr) axis keep out → ∃ r, out = .ret (.dense r) ∧ IsReduction τ.shape (axis.covers 2) keep
      (fun _ v => flt v 0 = false) e.elems r) ∧
    (e.Reduce env (.std corr) axis keep out → ∃ r, out = .ret (.dense r) ∧ IsReduction τ.shape (axis.covers 2) keep
      (fun _ v => flt v 0 = false ∧ ∃ t, flt t 0 = false ∧ v = fsqrt t ∧ (isNan v = true → isNan t = true)) e.elems r) := by
  obtain ⟨-, hh⟩ := elems_held he hl hs hd hc
  constructor
  · intro h
    obtain ⟨r', e1, hr⟩ := (prog_reduce_any he hl hs hd.wf.1 hc h2d (op := .var corr) keep ha hne (fun h => by cases h)).2 out h
    refine ⟨r', e1, hr.shape_eq, hr.size, fun y hy => ?_⟩
    obtain ⟨v, h1, t, q, -, -, h2⟩ := hr.cell y hy
    exact ⟨v, h1, h2 ▸ varOf_nonneg ..⟩
  · intro h
    obtain ⟨r', e1, hr⟩ := (prog_reduce_any he hl hs hd.wf.1 hc h2d (op := .std corr) keep ha hne (fun h => by cases h)).2 out h
    refine ⟨r', e1, hr.shape_eq, hr.size, fun y hy => ?_⟩
    obtain ⟨v, h1, t, q, -, -, h2⟩ := hr.cell y hy
    have hn := varOf_nonneg t q (Nat.min (fibre τ.shape (axis.covers 2) keep (fun x => valuesAt e.stores x) y).length usizeMax) corr
    exact ⟨v, h1, h2 ▸ (f64_sqrt hn).1, _, hn, h2, h2 ▸ (f64_sqrt hn).2⟩

/-- C96: `cumsum(program, axis)` is what NumPy computes, rounding included, up to the sign of zeros: every
element is the sum of the elements up to it, from the first to the last. -/
theorem elems_cumsum {env : PyEnv F64} (he : env.Ok) {e : Prog F64} (hl : e.LitsOk) (hs : e.Small) (hd : e.AsElems) {τ : Ty}
    (hc : e.check = .ok τ) (h2d : τ.Is2d) {axis : AxisArg} {rowwise : Bool} (ha : axis.Single rowwise)
    (hsz : 8 * (τ.shape.prod : Int) ≤ i64Max) (hcsc : rowwise = true → ∀ r c, τ ≠ .mat .csc r c) :
    (∃ out, e.Scan env .sum axis out) ∧
    ∀ out, e.Scan env .sum axis out → ∃ r, out = .ret r ∧
      IsScanBy (fun l v => SameNum v (l.foldl (· + ·) 0)) rowwise τ.shape e.elems r := by
  obtain ⟨-, hh⟩ := elems_held he hl hs hd hc
  obtain ⟨hex, hall⟩ := prog_scan_any he hl hs hd.wf.1 hc h2d .sum ha hsz hcsc
  refine ⟨hex, fun out hout => ?_⟩
  obtain ⟨r', cc, e1, hcs, n, m, hsh, r1, r2, r3⟩ := hall out hout
  rw [hsh] at hh hcs
  refine ⟨r', e1, n, m, hsh, r1, r2, fun i j hi hj => ?_⟩
  rw [r3 i j hi hj]
  show SameNum (((upTo rowwise cc i j).filterMap id).foldl (· + ·) 0) _
  unfold upTo
  cases rowwise
  · rw [if_neg (by simp), if_neg (by simp)]
    refine cellAs_fold (List.range (i + 1)) (c := fun (k : Nat) => cc [(k : Int), (j : Int)]) (fun k hk => ?_) (F64.same_refl 0)
    have := List.mem_range.1 hk
    exact cellSums_as hh hcs (.cons ⟨by omega, by omega⟩ (.cons ⟨by omega, by omega⟩ .nil))
  · rw [if_pos rfl, if_pos rfl]
    refine cellAs_fold (List.range (j + 1)) (c := fun (k : Nat) => cc [(i : Int), (k : Int)]) (fun k hk => ?_) (F64.same_refl 0)
    have := List.mem_range.1 hk
    exact cellSums_as hh hcs (.cons ⟨by omega, by omega⟩ (.cons ⟨by omega, by omega⟩ .nil))

/-- C96: `matmul`, `tensordot` and `vecdot` of a program and a dense array: every element of the result is the
exact sum of the products of the elements of the program (those of a row, or of a column if the rows
are contracted) with the elements of the array, up to the rounding error of binary64. -/
theorem elems_linalg {env : PyEnv F64} (he : env.Ok) {e : Prog F64} (hl : e.LitsOk) (hs : e.Small) (hd : e.AsElems) {τ : Ty}
    (hc : e.check = .ok τ) (h2d : τ.Is2d) {fn : LinFn} {y : DenseNd F64} (hy : y.Ok) {tr : Bool} {p : Nat}
    (hfn : fn.Contraction y.shape.length tr p) {r c : Nat} (hrc : (if tr then τ.shape.reverse else τ.shape) = [r, c])
    (hyc : y.shape[p]? = some c) (hpos : 0 < (y.shape.eraseIdx p).prod)
    (hsz : 8 * ((max r 1 * (y.shape.eraseIdx p).prod : Nat) : Int) ≤ i64Max) :
    (∃ out, e.Linalg env fn y out) ∧
    ∀ out, e.Linalg env fn y out → ∃ d, out = .ret (.dense d) ∧ d.shape = y.shape.set p r ∧ d.data.length = d.shape.prod ∧
      ∀ z, InBounds d.shape z → RoundedDot F64.fp.toFpMul
        (((List.range c).map fun (j : Nat) => (e.elems (if tr then [(j : Int), z.getD p 0] else [z.getD p 0, (j : Int)]),
          y.elem (z.set p (j : Int))) : List (F64 × F64)) : Multiset (F64 × F64)) (d.elem z) := by
  obtain ⟨hin, hh⟩ := elems_held he hl hs hd hc
  obtain ⟨r0, c0, hsh⟩ := is2d_shape h2d
  obtain ⟨hex, hall⟩ := prog_linalg_any F64.mul_comm he hl hs hd.wf.1 hc h2d hy hfn hrc hyc hpos hsz
  rw [hsh] at hrc hin hh
  refine ⟨hex, fun out hout => ?_⟩
  obtain ⟨d, e1, hd1, hd2, hd3⟩ := hall out hout
  refine ⟨d, e1, hd1, hd2, fun z hz => ?_⟩
  have h := dotCell_rounded F64.fp F64.val_of_eq_zero (hd3 z hz)
  have hp : p < y.shape.length := by
    by_contra h
    rw [List.getElem?_eq_none (by omega)] at hyc
    cases hyc
  rw [show ((dotTerms e.stores tr p y z : List (F64 × F64)) : Multiset (F64 × F64)) = _ from
    (Multiset.coe_eq_coe.2 (dotTerms_perm (p := p) (z := z) hrc hin y)).symm] at h
  exact heldAs_dot (fun j hj => hh (dotKey tr p z j) (dotKey_bounds hrc hp (hd1 ▸ hz) (List.mem_range.1 hj))) h

/-- C96: `min(program, axis)`.  If none of the elements along the axis is `NaN`, the smallest of them is
returned, up to the sign of zeros, on every machine and for every schedule. -/
theorem elems_min (M : F64.MinMaxOk) {env : PyEnv F64} (he : env.Ok) {e : Prog F64} (hl : e.LitsOk) (hs : e.Small) (hd : e.AsElems) {τ : Ty}
    (hc : e.check = .ok τ) (h2d : τ.Is2d) {axis : AxisArg} (keep : Bool) (ha : axis.Valid 2) (hne : axis ≠ .many []) :
    (∃ out, e.Reduce env .min axis keep out) ∧
    ∀ out, e.Reduce env .min axis keep out →
      ∃ r, out = .ret (.dense r) ∧ IsReduction τ.shape (axis.covers 2) keep F64.IsMin e.elems r := by
  obtain ⟨-, hh⟩ := elems_held he hl hs hd hc
  obtain ⟨hex, hall⟩ := prog_reduce_any he hl hs hd.wf.1 hc h2d (op := .min) keep ha hne nofun
  refine ⟨hex, fun out h => ?_⟩
  obtain ⟨r, e1, hr⟩ := hall out h
  refine ⟨r, e1, hr.shape_eq, hr.size, fun y hy => ?_⟩
  obtain ⟨v, h1, h2⟩ := hr.cell y hy
  refine ⟨v, h1, ?_⟩
  obtain ⟨xs, hxs, hfib⟩ := fibre_map τ.shape (axis.covers 2) keep y
  rw [hfib] at h2 ⊢
  intro hne hnan
  have hk : (xs.map fun x => valuesAt e.stores x).length = xs.length := List.length_map _
  have h2 : if (xs.map fun x => valuesAt e.stores x).length = 0 then v = 0
    else JoinTree MinJoin posInf (withZero (xs.map fun x => valuesAt e.stores x).length ((xs.map fun x => valuesAt e.stores x).flatten : List F64)) v := h2
  rw [hk, if_neg (fun h0 => hne (by rw [List.length_eq_zero_iff.1 h0]; rfl))] at h2
  obtain ⟨w1, w2⟩ := withZero_held xs (fun x hx => hh x (hxs x hx))
  obtain ⟨m1, m2, m3⟩ := minTree M h2 fun x hx => by
    obtain ⟨y, hy, e⟩ := w1 x hx
    rw [F64.same_isNan e]
    exact hnan _ (List.mem_map_of_mem hy)
  have hlow : ∀ d ∈ xs.map e.elems, flt d v = false := by
    intro d hd
    obtain ⟨x, hx, rfl⟩ := List.mem_map.1 hd
    obtain ⟨u, hu, e⟩ := w2 x hx
    rw [← F64.same_lt e (F64.same_refl v)]
    exact m3 u hu
  refine ⟨?_, hlow⟩
  rcases m2 with m2 | m2
  · obtain ⟨d, hd⟩ := List.exists_mem_of_ne_nil _ hne
    refine ⟨d, hd, .inl ?_⟩
    rw [m2, M.posInf]
    have := hlow d hd
    rw [m2, M.posInf] at this
    exact (F64.posInf_top (hnan d hd) this).symm
  · obtain ⟨x, hx, e⟩ := w1 v m2
    exact ⟨_, List.mem_map_of_mem hx, e⟩

/-- C96: `max(program, axis)`. -/
theorem elems_max (M : F64.MinMaxOk) {env : PyEnv F64} (he : env.Ok) {e : Prog F64} (hl : e.LitsOk) (hs : e.Small) (hd : e.AsElems) {τ : Ty}
    (hc : e.check = .ok τ) (h2d : τ.Is2d) {axis : AxisArg} (keep : Bool) (ha : axis.Valid 2) (hne : axis ≠ .many []) :
    (∃ out, e.Reduce env .max axis keep out) ∧
    ∀ out, e.Reduce env .max axis keep out →
      ∃ r, out = .ret (.dense r) ∧ IsReduction τ.shape (axis.covers 2) keep F64.IsMax e.elems r := by
  obtain ⟨-, hh⟩ := elems_held he hl hs hd hc
  obtain ⟨hex, hall⟩ := prog_reduce_any he hl hs hd.wf.1 hc h2d (op := .max) keep ha hne nofun
  refine ⟨hex, fun out h => ?_⟩
  obtain ⟨r, e1, hr⟩ := hall out h
  refine ⟨r, e1, hr.shape_eq, hr.size, fun y hy => ?_⟩
  obtain ⟨v, h1, h2⟩ := hr.cell y hy
  refine ⟨v, h1, ?_⟩
  obtain ⟨xs, hxs, hfib⟩ := fibre_map τ.shape (axis.covers 2) keep y
  rw [hfib] at h2 ⊢
  intro hne hnan
  have hk : (xs.map fun x => valuesAt e.stores x).length = xs.length := List.length_map _
  have h2 : if (xs.map fun x => valuesAt e.stores x).length = 0 then v = 0
    else JoinTree MaxJoin negInf (withZero (xs.map fun x => valuesAt e.stores x).length ((xs.map fun x => valuesAt e.stores x).flatten : List F64)) v := h2
  rw [hk, if_neg (fun h0 => hne (by rw [List.length_eq_zero_iff.1 h0]; rfl))] at h2
  obtain ⟨w1, w2⟩ := withZero_held xs (fun x hx => hh x (hxs x hx))
  obtain ⟨m1, m2, m3⟩ := maxTree M h2 fun x hx => by
    obtain ⟨y, hy, e⟩ := w1 x hx
    rw [F64.same_isNan e]
    exact hnan _ (List.mem_map_of_mem hy)
  have hup : ∀ d ∈ xs.map e.elems, flt v d = false := by
    intro d hd
    obtain ⟨x, hx, rfl⟩ := List.mem_map.1 hd
    obtain ⟨u, hu, e⟩ := w2 x hx
    rw [← F64.same_lt (F64.same_refl v) e]
    exact m3 u hu
  refine ⟨?_, hup⟩
  rcases m2 with m2 | m2
  · obtain ⟨d, hd⟩ := List.exists_mem_of_ne_nil _ hne
    refine ⟨d, hd, .inl ?_⟩
    rw [m2, M.negInf]
    have := hup d hd
    rw [m2, M.negInf] at this
    exact (F64.negInf_bot (hnan d hd) this).symm
  · obtain ⟨x, hx, e⟩ := w1 v m2
    exact ⟨_, List.mem_map_of_mem hx, e⟩

/-- C96: `prod(program, axis)`.  If the elements along the axis are finite and no product of some of them is
near the ends of the range, the exact product is returned, up to one rounding for each multiplication but one
at most, whatever the machine and the schedule.  If an element is zero, the product is exactly zero. -/
theorem elems_prod {env : PyEnv F64} (he : env.Ok) {e : Prog F64} (hl : e.LitsOk) (hs : e.Small) (hd : e.AsElems) {τ : Ty}
    (hc : e.check = .ok τ) (h2d : τ.Is2d) {axis : AxisArg} (keep : Bool) (ha : axis.Valid 2) (hne : axis ≠ .many []) :
    (∃ out, e.Reduce env .prod axis keep out) ∧
    ∀ out, e.Reduce env .prod axis keep out →
      ∃ r, out = .ret (.dense r) ∧ IsReduction τ.shape (axis.covers 2) keep F64.RoundedProd e.elems r := by
  obtain ⟨-, hh⟩ := elems_held he hl hs hd hc
  obtain ⟨hex, hall⟩ := prog_reduce_any he hl hs hd.wf.1 hc h2d (op := .prod) keep ha hne nofun
  refine ⟨hex, fun out h => ?_⟩
  obtain ⟨r, e1, hr⟩ := hall out h
  refine ⟨r, e1, hr.shape_eq, hr.size, fun y hy => ?_⟩
  obtain ⟨v, h1, h2⟩ := hr.cell y hy
  refine ⟨v, h1, ?_⟩
  obtain ⟨xs, hxs, hfib⟩ := fibre_map τ.shape (axis.covers 2) keep y
  rw [hfib] at h2 ⊢
  have hh : ∀ x ∈ xs, HeldAs (valuesAt e.stores x) (e.elems x) := fun x hx => hh x (hxs x hx)
  intro hf hrange
  have h2 : if (((xs.map fun x => valuesAt e.stores x).flatten : List F64) : Multiset F64).card < (xs.map fun x => valuesAt e.stores x).length
    then v = 0 else JoinTree (fun a b c : F64 => c = a * b) 1 (((xs.map fun x => valuesAt e.stores x).flatten : List F64) : Multiset F64) v := h2
  have hp := heldAs_prod xs hh
  rw [Multiset.coe_card, List.length_map] at h2
  by_cases hlt : (xs.map fun x => valuesAt e.stores x).flatten.length < xs.length
  · rw [if_pos hlt] at h2 hp
    obtain ⟨r1, r2, -⟩ := elems_pow_bounds ((xs.map e.elems).length - 1)
    rw [h2, hp]
    exact ⟨trivial, 1, r1, r2, by rw [mul_zero]; rfl⟩
  · rw [if_neg hlt] at h2
    have hv := heldAs_vals xs hh hlt
    have hlen : (xs.map fun x => valuesAt e.stores x).flatten.length = (xs.map e.elems).length := by
      have := congrArg List.length hv
      rwa [List.length_map, List.length_map] at this
    obtain ⟨v1, -, θ, v2, v3, v4⟩ := mulTree_rounded h2 (xs.map e.elems).length (by rw [Multiset.coe_card, hlen]) (fun a ha => by
        obtain ⟨l, hl, ha⟩ := List.mem_flatten.1 (Multiset.mem_coe.1 ha)
        obtain ⟨x, hx, rfl⟩ := List.mem_map.1 hl
        rcases hh x hx with ⟨e1, -⟩ | ⟨w, e1, e2⟩
        · rw [e1] at ha; cases ha
        · rw [e1] at ha
          rw [List.mem_singleton.1 ha]
          exact F64.same_fin e2 (hf _ (List.mem_map_of_mem hx))) (by
        rw [Multiset.map_coe, hv]; exact hrange)
    rw [Multiset.coe_card, hlen] at v2 v3
    rw [Multiset.map_coe, hv, Multiset.prod_coe] at v4
    exact ⟨v1, θ, v2, v3, v4⟩

/-- C96: `cumprod(program, axis)` is what NumPy computes, rounding, underflow and overflow included, up to the sign
of zeros, but may be zero where NumPy's product is `NaN` and has a factor zero. -/
theorem elems_cumprod {env : PyEnv F64} (he : env.Ok) {e : Prog F64} (hl : e.LitsOk) (hs : e.Small) (hd : e.AsElems) {τ : Ty}
    (hc : e.check = .ok τ) (h2d : τ.Is2d) {axis : AxisArg} {rowwise : Bool} (ha : axis.Single rowwise)
    (hsz : 8 * (τ.shape.prod : Int) ≤ i64Max) (hcsc : rowwise = true → ∀ r c, τ ≠ .mat .csc r c) :
    (∃ out, e.Scan env .prod axis out) ∧
    ∀ out, e.Scan env .prod axis out → ∃ r, out = .ret r ∧ IsScanBy F64.RunningProd rowwise τ.shape e.elems r := by
  obtain ⟨-, hh⟩ := elems_held he hl hs hd hc
  obtain ⟨hex, hall⟩ := prog_scan_any he hl hs hd.wf.1 hc h2d .prod ha hsz hcsc
  refine ⟨hex, fun out hout => ?_⟩
  obtain ⟨r', cc, e1, hcs, n, m, hsh, r1, r2, r3⟩ := hall out hout
  rw [hsh] at hh hcs
  refine ⟨r', e1, n, m, hsh, r1, r2, fun i j hi hj => ?_⟩
  rw [r3 i j hi hj]
  unfold upTo
  cases rowwise
  · rw [if_neg (by simp), if_neg (by simp)]
    refine cellAs_foldProd (List.range (i + 1)) (c := fun (k : Nat) => cc [(k : Int), (j : Int)]) (fun k hk => ?_)
    have := List.mem_range.1 hk
    exact cellSums_as hh hcs (.cons ⟨by omega, by omega⟩ (.cons ⟨by omega, by omega⟩ .nil))
  · rw [if_pos rfl, if_pos rfl]
    refine cellAs_foldProd (List.range (j + 1)) (c := fun (k : Nat) => cc [(i : Int), (k : Int)]) (fun k hk => ?_)
    have := List.mem_range.1 hk
    exact cellSums_as hh hcs (.cons ⟨by omega, by omega⟩ (.cons ⟨by omega, by omega⟩ .nil))

/-- C96: `all(program, axis)` and `any(program, axis)` are NumPy's, `NaN`s and infinities included. -/
theorem elems_logic {env : PyEnv F64} (he : env.Ok) {e : Prog F64} (hl : e.LitsOk) (hs : e.Small) (hd : e.AsElems) {τ : Ty}
    (hc : e.check = .ok τ) (h2d : τ.Is2d) (op : LogicOp) {axis : AxisArg} (keep : Bool) (ha : axis.Valid 2) (hne : axis ≠ .many []) :
    (∃ out, e.Logic env op axis keep out) ∧
    ∀ out, e.Logic env op axis keep out →
      ∃ r, out = .ret r ∧ IsReduction τ.shape (axis.covers 2) keep (F64.Truth op) e.elems r := by
  obtain ⟨-, hh⟩ := elems_held he hl hs hd hc
  obtain ⟨hex, hall⟩ := prog_logic_any he hl hs hd.wf.1 hc h2d op keep ha hne
  refine ⟨hex, fun out h => ?_⟩
  obtain ⟨r, e1, hr⟩ := hall out h
  refine ⟨r, e1, hr.shape_eq, hr.size, fun y hy => ?_⟩
  obtain ⟨v, h1, h2⟩ := hr.cell y hy
  refine ⟨v, h1, ?_⟩
  obtain ⟨xs, hxs, hfib⟩ := fibre_map τ.shape (axis.covers 2) keep y
  rw [hfib] at h2 ⊢
  exact f64_logic_cells op xs (fun x hx => hh x (hxs x hx)) h2

/-- C96: `count_nonzero(program, axis)`, if the program stores no zero: NumPy's count, in which a `NaN`
counts. -/
theorem elems_count {env : PyEnv F64} (he : env.Ok) {e : Prog F64} (hl : e.LitsOk) (hs : e.Small) (hd : e.AsElems) {τ : Ty}
    (hc : e.check = .ok τ) (h2d : τ.Is2d) (hz : ∀ k ∈ e.stores, (k.2 == 0) = false) {axis : AxisArg} (keep : Bool) (ha : axis.Valid 2)
    (hne : axis ≠ .many []) :
    ∃ r, (∀ out, e.Count env axis keep out ↔ out = .ret r) ∧
      IsReduction τ.shape (axis.covers 2) keep (fun l r => r = (countNz l : Int)) e.elems r := by
  obtain ⟨-, hh⟩ := elems_held he hl hs hd hc
  obtain ⟨r, h1, hr⟩ := prog_count_any he hl hs hd.wf.1 hc h2d keep ha hne
  refine ⟨r, h1, hr.shape_eq, hr.size, fun y hy => ?_⟩
  obtain ⟨v, h1, h2⟩ := hr.cell y hy
  refine ⟨v, h1, ?_⟩
  obtain ⟨xs, hxs, hfib⟩ := fibre_map τ.shape (axis.covers 2) keep y
  rw [hfib] at h2 ⊢
  rw [h2, heldAs_count xs (fun x hx => hh x (hxs x hx)) fun x _ v hv => ?_]
  obtain ⟨k, hk, rfl⟩ := List.mem_map.1 hv
  exact hz k (List.mem_filter.1 hk).1

/-- C96: `diff(program, n=n, axis=axis)` is what NumPy computes, rounding included, up to the sign of zeros. -/
theorem elems_diff {env : PyEnv F64} (he : env.Ok) {e : Prog F64} (hl : e.LitsOk) (hs : e.Small) (hd : e.AsElems) {τ : Ty}
    (hc : e.check = .ok τ) (h2d : τ.Is2d) {axis : Int} {rowwise : Bool}
    (hx : if rowwise then axis = 1 ∨ axis = -1 else axis = 0 ∨ axis = -2)
    {n : Nat} (hn : n ≤ usizeMax) (hsz : 32 * (τ.shape.prod : Int) ≤ i64Max) :
    (∃ out, e.Diff env n axis out) ∧
    ∀ out, e.Diff env n axis out → ∃ w : SpVal F64, out = .ret w.obj ∧ w.ty = τ.diff rowwise n ∧
      ∀ x, InBounds w.ty.shape x → SameNum ((w.held x).head?.getD 0) (diffCells rowwise n e.elems x) := by
  obtain ⟨-, hh⟩ := elems_held he hl hs hd hc
  obtain ⟨w, hv, hs', ht, hw, hev⟩ := prog_held he hl hs hd.wf.1 hc
  have h2 : w.ty.Is2d := by rw [ht]; exact h2d
  obtain ⟨⟨y, -, hy⟩, -⟩ := py_diff_safe he hv hs' h2 hx hn (by rw [ht]; exact hsz)
  refine ⟨⟨_, _, (hev _).2 rfl, hy⟩, ?_⟩
  rintro out ⟨o, ho, hout⟩
  rw [(hev o).1 ho] at hout
  obtain ⟨z, cc, e1, hzt, hcs, hz⟩ := py_diff_dense F64.subLaws he hv hs' h2 hx hn (by rw [ht]; exact hsz) hout
  rw [ht] at hzt
  refine ⟨z, e1, hzt, fun x hxb => F64.same_trans (hz x hxb) ?_⟩
  have hcs : CellSumsOf τ.shape (fun x => valuesAt e.stores x) cc := by
    have : CellSumsOf w.ty.shape w.held cc := hcs
    rw [ht, hw] at this
    exact this
  obtain ⟨r, c, hsh⟩ := is2d_shape h2d
  have hds : (τ.diff rowwise n).shape = if rowwise then [r, c - n] else [r - n, c] := by
    cases τ with
    | nd s => exact h2d.elim
    | mat f r' c' => cases hsh; cases rowwise <;> rfl
    | coo r' c' => cases hsh; cases rowwise <;> rfl
  rw [hzt, hds] at hxb
  rw [hsh] at hcs hh
  cases rowwise
  · have hxb : InBounds [r - n, c] x := hxb
    obtain ⟨i, j, hi, hj, rfl⟩ := inBounds_two hxb
    exact diffN_same n fun k hk => cellSums_as hh hcs (.cons ⟨by omega, by omega⟩ (.cons ⟨by omega, by omega⟩ .nil))
  · have hxb : InBounds [r, c - n] x := hxb
    obtain ⟨i, j, hi, hj, rfl⟩ := inBounds_two hxb
    exact diffN_same n fun k hk => cellSums_as hh hcs (.cons ⟨by omega, by omega⟩ (.cons ⟨by omega, by omega⟩ .nil))

/-- C96: `sum` of a program that is an N-D array: the exact sum of the elements up to the error bound of recursive
summation, and a `NaN` if one of them is. -/
theorem elems_nd_sum {env : PyEnv F64} (he : env.Ok) {e : Prog F64} (hl : e.LitsOk) (hs : e.Small) (hd : e.AsElems)
    {s : List Nat} (hc : e.check = .ok (.nd s)) (keep : Bool) :
    (∃ out, e.Reduce env .sum .none keep out) ∧
    ∀ out, e.Reduce env .sum .none keep out →
      ∃ r, out = .ret (.dense r) ∧ IsReduction s (fun _ => true) keep
        (fun l v => RoundedSum F64.fp.toFpAdd (l : Multiset F64) v ∧ ((∃ x ∈ l, isNan x = true) → isNan v = true)) e.elems r := by
  obtain ⟨-, hh⟩ := elems_held he hl hs hd hc
  obtain ⟨hex, hall⟩ := prog_nd_reduce_any he hl hs hd.wf.1 hc (op := .sum) trivial keep nofun
  refine ⟨hex, fun out hout => ?_⟩
  obtain ⟨r', e1, hr⟩ := hall out hout
  refine ⟨r', e1, hr.shape_eq, hr.size, fun y hy => ?_⟩
  obtain ⟨v, h1, h2⟩ := hr.cell y hy
  refine ⟨v, h1, ?_⟩
  obtain ⟨xs, hxs, hfib⟩ := fibre_map s (fun _ => true) keep y
  rw [hfib] at h2 ⊢
  refine ⟨heldAs_rounded (fun x hx => hh x (hxs x hx)) (AddTree.rounded F64.fp.toFpAdd h2), ?_⟩
  rintro ⟨d, hd, hn⟩
  obtain ⟨x, hx, rfl⟩ := List.mem_map.1 hd
  refine addTree_nan F64.isNan_add h2 ?_
  rcases hh x (hxs x hx) with ⟨-, e2⟩ | ⟨w, e1, e2⟩
  · obtain ⟨s, e3⟩ := F64.eq_zero_iff.1 e2
    rw [e3] at hn; cases hn
  · refine ⟨w, Multiset.mem_coe.2 (List.mem_flatten.2 ⟨_, List.mem_map_of_mem hx, by rw [e1]; exact List.mem_singleton_self _⟩), ?_⟩
    rw [F64.same_isNan e2]
    exact hn

/-- C96: `mean` of a program that is an N-D array, up to rounding. -/
theorem elems_nd_mean {env : PyEnv F64} (he : env.Ok) {e : Prog F64} (hl : e.LitsOk) (hs : e.Small) (hd : e.AsElems)
    {s : List Nat} (hc : e.check = .ok (.nd s)) (h0 : 0 < s.prod) (h53 : s.prod ≤ 2 ^ 53) (keep : Bool) :
    (∃ out, e.Reduce env .mean .none keep out) ∧
    ∀ out, e.Reduce env .mean .none keep out →
      ∃ r, out = .ret (.dense r) ∧ IsReduction s (fun _ => true) keep F64.RoundedMean e.elems r := by
  obtain ⟨-, hh⟩ := elems_held he hl hs hd hc
  obtain ⟨hex, hall⟩ := prog_nd_reduce_any he hl hs hd.wf.1 hc (op := .mean) trivial keep (fun _ => by
    rw [Bool.eq_false_iff]
    intro h
    have k := (f64_nat h53).2
    rw [F64.val_of_eq_zero _ h] at k
    have : (s.prod : ℚ) ≠ 0 := by exact_mod_cast Nat.pos_iff_ne_zero.1 h0
    exact this k.symm)
  refine ⟨hex, fun out hout => ?_⟩
  obtain ⟨r', e1, hr⟩ := hall out hout
  refine ⟨r', e1, hr.shape_eq, hr.size, fun y hy => ?_⟩
  obtain ⟨v, h1, h2⟩ := hr.cell y hy
  refine ⟨v, h1, ?_⟩
  have hlen : ∀ {W : Type} (g : List Int → W), (fibre s (fun _ => true) keep g y).length ≤ s.prod := by
    intro W g
    unfold fibre
    rw [List.length_map]
    exact le_trans (List.length_filter_le _ _) (by rw [indicesOf_length])
  have hlen := hlen e.elems
  obtain ⟨xs, hxs, hfib⟩ := fibre_map s (fun _ => true) keep y
  rw [hfib] at h2 hlen ⊢
  obtain ⟨t, ht, hv⟩ := h2
  refine f64_mean_of (heldAs_rounded (fun x hx => hh x (hxs x hx)) (AddTree.rounded F64.fp.toFpAdd ht)) (le_trans hlen h53) ?_
  rw [hv, List.length_map, List.length_map]

/-! ### comparisons -/

theorem cmpArg_elems {env : PyEnv F64} (he : env.Ok) {x : CmpArg F64} (hx : x.ElemsOk) {s : List Nat} (h : x.check = .ok s) :
    ∃ g, x.Gives env s g ∧ ∀ i, InBounds s i → SameNum (g i) (x.elems i) := by
  cases x with
  | array y => cases h; exact ⟨_, gives_array env hx, fun i _ => F64.same_refl _⟩
  | prog e =>
    obtain ⟨hl, hs, hd⟩ : e.LitsOk ∧ e.Small ∧ e.AsElems := hx
    have h : e.check.map Ty.shape = .ok s := h
    cases hc : e.check with
    | error x => rw [hc] at h; cases h
    | ok τ =>
      rw [hc] at h; cases h
      exact ⟨_, gives_prog he hl hs hd.wf.1 hc, fun i hi => elems_cell he hl hs hd hc hi⟩

/-- C96: the comparisons of two programs over any classes, or of a program and an array, whose shapes broadcast:
exactly NumPy's comparisons of the elements, `NaN`s, infinities and zeros of both signs included. -/
theorem elems_compare {env : PyEnv F64} (he : env.Ok) (numpy : CmpOp → DenseNd F64 → DenseNd F64 → PyRes (DenseNd Bool)) (op : CmpOp)
    {x y : CmpArg F64} (hx : x.ElemsOk) (hy : y.ElemsOk) (hp : x.IsProg ∨ y.IsProg) {s t u : List Nat} (hcx : x.check = .ok s)
    (hcy : y.check = .ok t) (hb : bcastTo s t = some u) (out : PyRes (DenseNd Bool)) :
    Compare env numpy op x y out ↔
      out = .ret (denseOf u fun i => op.run (x.elems (bcastIndex s i)) (y.elems (bcastIndex t i))) := by
  obtain ⟨f, gx, hf⟩ := cmpArg_elems he hx hcx
  obtain ⟨g, gy, hg⟩ := cmpArg_elems he hy hcy
  rw [compare_gives numpy op gx gy hp out, hb]
  show out = .ret (denseOf u fun i => op.run (f (bcastIndex s i)) (g (bcastIndex t i))) ↔ _
  rw [denseOf_congr (g := fun i => op.run (x.elems (bcastIndex s i)) (y.elems (bcastIndex t i))) fun i hi => by
    obtain ⟨-, -, h3, h4⟩ := bcast_cells hb hi
    exact same_run op (hf _ h3) (hg _ h4)]

/-! ### examples -/

/-- `A` is the 2 × 1 array `[[0.5], [3]]`, `B` the vector `[0, 3]`; `A * B` is `[[0, 1.5], [0, 9]]`. -/
def exAB96 : Prog F64 := .bin .mul (.nd [2, 1] [0, 0, 1, 0] [F64.ofRat (1 / 2), F64.ofRat 3]) (.nd [2] [1] [F64.ofRat 3])
/-- `(A * B)` with its axes swapped, as a matrix with one row per element of `B`: `[[0, 0], [1.5, 9]]`. -/
def exU96 : Prog F64 := .un .neg (.ndop (.unfold .csc) [0] (.ndop .permute [1, 0] exAB96))
/-- The coordinate matrix `[[0, NaN], [-3, 0]]` with the entries out of order, transposed. -/
def exC96 : Prog F64 := .un .abs (.T (.coo 2 2 [1, 0] [0, 1] [-F64.ofRat 3, F64.nan]))

theorem exAB96_ok : exAB96.LitsOk ∧ exAB96.Small ∧ exAB96.AsElems ∧ exAB96.check = .ok (.nd [2, 2]) := by
  have h1 : ∀ k < 2, ∀ d (h : d < [2, 1].length), 0 ≤ ([0, 0, 1, 0] : List Int).getD (k * 2 + d) 0 ∧
      ([0, 0, 1, 0] : List Int).getD (k * 2 + d) 0 < (([2, 1] : List Nat)[d] : Nat) := by decide
  have h2 : ∀ k < 1, ∀ d (h : d < [2].length), 0 ≤ ([1] : List Int).getD (k * 1 + d) 0 ∧
      ([1] : List Int).getD (k * 1 + d) 0 < (([2] : List Nat)[d] : Nat) := by decide
  obtain ⟨⟨f1, -⟩, f2, -⟩ := exNums
  refine ⟨⟨⟨by decide, ⟨by decide, rfl, h1⟩, ?_⟩, by decide, ⟨by decide, rfl, h2⟩, ?_⟩, by decide +kernel, ⟨?_, ?_, fun x hx => ?_⟩, by decide +kernel⟩
  · show ∀ i ∈ ([0, 0, 1, 0] : List Int), i ≤ i64Max; decide
  · show ∀ i ∈ ([1] : List Int), i ≤ i64Max; decide
  · show ([[0, 0], [1, 0]] : List (List Int)).Nodup
    decide
  · show ([[1]] : List (List Int)).Nodup
    decide
  · have hx : InBounds [2, 2] x := hx
    obtain ⟨i, j, rfl, hi, hj⟩ := inBounds_pair hx
    have : i = 0 ∨ i = 1 := by omega
    have : j = 0 ∨ j = 1 := by omega
    rcases ‹i = 0 ∨ i = 1› with rfl | rfl <;> rcases ‹j = 0 ∨ j = 1› with rfl | rfl
    · exact ⟨f1, trivial⟩
    · exact ⟨f1, f2⟩
    · exact ⟨f2, trivial⟩
    · exact ⟨f2, f2⟩

theorem exU96_ok : exU96.LitsOk ∧ exU96.Small ∧ exU96.AsElems ∧ exU96.check = .ok (.mat .csc 2 2) := by
  obtain ⟨h1, -, h3, -⟩ := exAB96_ok
  exact ⟨h1, by decide +kernel, h3, by decide +kernel⟩

/-- In every execution the elements of `U` are `[[0, 0], [-1.5, -9]]`. -/
example {env : PyEnv F64} (he : env.Ok) : ∃ d, (∀ out, exU96.Toarray env out ↔ out = .ret d) ∧ d.shape = [2, 2] ∧
    d.elem [1, 0] = F64.ofRat (-3 / 2) ∧ d.elem [1, 1] = F64.ofRat (-9) ∧ (d.elem [0, 1] == 0) = true := by
  obtain ⟨h1, h2, h3, h4⟩ := exU96_ok
  obtain ⟨d, ho, hs, -, hd⟩ := elems_toarray he h1 h2 h3 h4 trivial
  have c0 : exU96.elems [1, 0] = -(F64.ofRat (1 / 2) * F64.ofRat 3) := rfl
  have c1 : exU96.elems [1, 1] = -(F64.ofRat 3 * F64.ofRat 3) := rfl
  have c2 : exU96.elems [0, 1] = -(F64.ofRat 3 * 0) := rfl
  have h (i j : Nat) (hi : i < 2) (hj : j < 2) : SameNum (d.elem [(i : Int), (j : Int)]) (exU96.elems [(i : Int), (j : Int)]) :=
    hd [(i : Int), (j : Int)] (.cons ⟨by omega, by omega⟩ (.cons ⟨by omega, by omega⟩ .nil))
  refine ⟨d, ho, hs, ?_, ?_, ?_⟩
  · exact same_at (h 1 0 (by decide) (by decide)) (c0.trans (by decide +kernel)) (by decide +kernel)
  · exact same_at (h 1 1 (by decide) (by decide)) (c1.trans (by decide +kernel)) (by decide +kernel)
  · have : SameNum (d.elem [0, 1]) (exU96.elems [0, 1]) := h 0 1 (by decide) (by decide)
    rw [F64.same_eq this (F64.same_refl 0)]
    show (exU96.elems [0, 1] == 0) = true
    rw [c2]
    decide +kernel

/-- `A * B` in every execution: three of its four elements are stored or zero. -/
example {env : PyEnv F64} (he : env.Ok) : ∃ a : CooNd F64, (∀ out, exAB96.Eval env out ↔ out = .ret (SpVal.nd a).obj) ∧ a.shape = [2, 2] ∧
    ∀ k ∈ a.entries, InBounds [2, 2] k.1 ∧ SameNum k.2 (exAB96.elems k.1) := by
  obtain ⟨h1, h2, h3, h4⟩ := exAB96_ok
  obtain ⟨a, ho, hs, -, hk, -⟩ := elems_entries he h1 h2 h3 h4
  exact ⟨a, ho, hs, hk⟩

theorem exC96_ok : exC96.LitsOk ∧ exC96.Small ∧ exC96.AsElems ∧ exC96.check = .ok (.coo 2 2) := by
  refine ⟨⟨by decide, by decide, ⟨rfl, rfl, ?_, ?_⟩, ?_, ?_⟩, by decide +kernel, ?_, by decide +kernel⟩
  · show ∀ i ∈ ([1, 0] : List Int), 0 ≤ i ∧ i < ((2 : Nat) : Int); decide
  · show ∀ i ∈ ([0, 1] : List Int), 0 ≤ i ∧ i < ((2 : Nat) : Int); decide
  · show ∀ i ∈ ([1, 0] : List Int), i ≤ i64Max; decide
  · show ∀ i ∈ ([0, 1] : List Int), i ≤ i64Max; decide
  · show ([((1 : Int), (0 : Int)), (0, 1)] : List (Int × Int)).Nodup
    decide

/-- `C` is `[[0, 3], [NaN, 0]]`: `min(C, axis=1)` has the smallest element of the first row in it, `sum(C, axis=1)`
a `NaN` for the second, `any(C, axis=1)` is true for both. -/
example (M : F64.MinMaxOk) {env : PyEnv F64} (he : env.Ok) :
    (∀ out, exC96.Reduce env .min (.one 1) false out → ∃ r v, out = .ret (.dense r) ∧ r.data[0]? = some v ∧ (v == 0) = true) ∧
    (∀ out, exC96.Reduce env .sum (.one 1) false out → ∃ r v, out = .ret (.dense r) ∧ r.data[1]? = some v ∧ isNan v = true) ∧
    ∀ out, exC96.Logic env .any (.one 1) false out → ∃ r, out = .ret r ∧ r.data[0]? = some true ∧ r.data[1]? = some true := by
  obtain ⟨h1, h2, h3, h4⟩ := exC96_ok
  refine ⟨fun out h => ?_, fun out h => ?_, fun out h => ?_⟩
  · obtain ⟨r, e, hr⟩ := (elems_min M he h1 h2 h3 h4 trivial (axis := .one 1) false axis_one (by simp)).2 out h
    have hsh : r.shape = [2] := hr.shape_eq
    obtain ⟨v, c, p⟩ := hr.cell [0] (by rw [hsh]; exact .cons ⟨by omega, by omega⟩ .nil)
    rw [hsh] at c
    refine ⟨r, v, e, c, ?_⟩
    have p : F64.IsMin [0, fabs (-F64.ofRat 3)] v := p
    obtain ⟨⟨d, hd, e'⟩, hlow⟩ := p (by simp) (by decide +kernel)
    rw [F64.same_eq e' (F64.same_refl 0)]
    simp only [List.mem_cons, List.not_mem_nil, or_false] at hd
    rcases hd with rfl | rfl
    · rfl
    · have := hlow 0 (by simp)
      rw [F64.same_lt (F64.same_refl 0) e'] at this
      exact absurd this (by decide +kernel)
  · obtain ⟨r, e, hr⟩ := elems_sum_nan he h1 h2 h3 h4 trivial (axis := .one 1) false axis_one (by simp) h
    have hsh : r.shape = [2] := hr.shape_eq
    obtain ⟨v, c, p⟩ := hr.cell [1] (by rw [hsh]; exact .cons ⟨by omega, by omega⟩ .nil)
    rw [hsh] at c
    have p : (∃ x ∈ [F64.nan, 0], isNan x = true) → isNan v = true := p
    exact ⟨r, v, e, c, p ⟨.nan, by simp, rfl⟩⟩
  · obtain ⟨r, e, hr⟩ := (elems_logic he h1 h2 h3 h4 trivial .any (axis := .one 1) false axis_one (by simp)).2 out h
    have hsh : r.shape = [2] := hr.shape_eq
    obtain ⟨v, c, p⟩ := hr.cell [0] (by rw [hsh]; exact .cons ⟨by omega, by omega⟩ .nil)
    obtain ⟨w, c', p'⟩ := hr.cell [1] (by rw [hsh]; exact .cons ⟨by omega, by omega⟩ .nil)
    rw [hsh] at c c'
    have p : v = [0, fabs (-F64.ofRat 3)].any fun d : F64 => !(d == 0) := p
    have p' : w = [F64.nan, 0].any fun d : F64 => !(d == 0) := p'
    exact ⟨r, e, c.trans (by rw [p]; decide +kernel), c'.trans (by rw [p']; decide +kernel)⟩

/-- The other functions of `C` and their results. -/
example (M : F64.MinMaxOk) {env : PyEnv F64} (he : env.Ok) :
    (∃ out, exC96.Reduce env .mean (.one 1) false out) ∧ (∃ out, exC96.Reduce env .max (.one 1) true out) ∧
    (∃ out, exC96.Reduce env .prod (.one 1) false out) ∧ (∃ out, exC96.Scan env .sum (.one 1) out) ∧
    (∃ out, exC96.Scan env .prod (.one 1) out) ∧ (∃ out, exC96.Diff env (1 : Nat) 1 out) ∧
    ∃ out, exC96.Linalg env .matmul ⟨[2], [1, .nan]⟩ out := by
  obtain ⟨h1, h2, h3, h4⟩ := exC96_ok
  exact ⟨(elems_mean he h1 h2 h3 h4 trivial (by decide) (by decide) (axis := .one 1) false axis_one (by simp)).1,
    (elems_max M he h1 h2 h3 h4 trivial (axis := .one 1) true axis_one (by simp)).1,
    (elems_prod he h1 h2 h3 h4 trivial (axis := .one 1) false axis_one (by simp)).1,
    (elems_cumsum he h1 h2 h3 h4 trivial (axis := .one 1) (rowwise := true) ⟨axis_one, by decide, by decide⟩ (by decide) (fun _ _ _ => nofun)).1,
    (elems_cumprod he h1 h2 h3 h4 trivial (axis := .one 1) (rowwise := true) ⟨axis_one, by decide, by decide⟩ (by decide) (fun _ _ _ => nofun)).1,
    (elems_diff he h1 h2 h3 h4 trivial (axis := 1) (rowwise := true) (.inl rfl) (n := 1) (by decide) (by decide)).1,
    (elems_linalg he h1 h2 h3 h4 trivial (fn := .matmul) (y := ⟨[2], [1, .nan]⟩) ⟨rfl, by decide⟩ (tr := false) (p := 0)
      ⟨rfl, .inl ⟨rfl, rfl⟩⟩ (r := 2) (c := 2) rfl rfl (by decide) (by decide)).1⟩

/-- `less(A * B, C)`: an N-D array is compared with a coordinate matrix, and `0 < NaN` is false. -/
example {env : PyEnv F64} (he : env.Ok) (numpy : CmpOp → DenseNd F64 → DenseNd F64 → PyRes (DenseNd Bool)) :
    ∀ out, Compare env numpy .lt (.prog exAB96) (.prog exC96) out ↔ out = .ret ⟨[2, 2], [false, true, false, false]⟩ := by
  obtain ⟨h1, h2, h3, h4⟩ := exAB96_ok
  obtain ⟨k1, k2, k3, k4⟩ := exC96_ok
  have hc : (CmpArg.prog exAB96).check = .ok [2, 2] := by
    show exAB96.check.map Ty.shape = _
    rw [h4]; rfl
  have hc' : (CmpArg.prog exC96).check = .ok [2, 2] := by
    show exC96.check.map Ty.shape = _
    rw [k4]; rfl
  intro out
  rw [elems_compare he numpy .lt (x := .prog exAB96) (y := .prog exC96) ⟨h1, h2, h3⟩ ⟨k1, k2, k3⟩ (.inl trivial) hc hc' (u := [2, 2]) (by decide) out]
  have : (denseOf [2, 2] fun i => CmpOp.lt.run ((CmpArg.prog exAB96).elems (bcastIndex [2, 2] i)) ((CmpArg.prog exC96).elems (bcastIndex [2, 2] i))) =
      ⟨[2, 2], [false, true, false, false]⟩ := by
    show (⟨[2, 2], [CmpOp.lt.run (F64.ofRat (1 / 2) * 0) 0, CmpOp.lt.run (F64.ofRat (1 / 2) * F64.ofRat 3) (fabs (-F64.ofRat 3)),
      CmpOp.lt.run (F64.ofRat 3 * 0) (fabs .nan), CmpOp.lt.run (F64.ofRat 3 * F64.ofRat 3) 0]⟩ : DenseNd Bool) = _
    decide +kernel
  rw [this]

/-- `sum(A * B)` and `mean(A * B)` return. -/
example {env : PyEnv F64} (he : env.Ok) :
    (∃ out, exAB96.Reduce env .sum .none false out) ∧ (∃ out, exAB96.Reduce env .mean .none false out) := by
  obtain ⟨h1, h2, h3, h4⟩ := exAB96_ok
  exact ⟨(elems_nd_sum he h1 h2 h3 h4 false).1, (elems_nd_mean he h1 h2 h3 h4 (by decide) (by decide) false).1⟩

end
end Lacuna
