import Verif.Props.F64NdRed
import Verif.Props.F64Round
/-
C91 and C96: variances and standard deviations of programs over all classes in binary64, and that every reduction of such a
program has an outcome.
-/
set_option linter.unusedSectionVars false
namespace Lacuna
section
variable [HasMinMax F64] [HasPowf F64]

/-- C96: every reduction of a program with a 2-D value has an outcome (`mean` of arrays with 1 to `2 ^ 53` elements), and every
outcome is a dense array of the reduced shape. -/
theorem elems_reduce_runs {env : PyEnv F64} (he : env.Ok) {e : Prog F64} (hl : e.LitsOk) (hs : e.Small) (hd : e.AsElems) {τ : Ty}
    (hc : e.check = .ok τ) (h2d : τ.Is2d) (op : RedOp F64) {axis : AxisArg} (keep : Bool) (ha : axis.Valid 2) (hne : axis ≠ .many [])
    (hm : op = .mean → 0 < τ.shape.prod ∧ τ.shape.prod ≤ 2 ^ 53) :
    (∃ out, e.Reduce env op axis keep out) ∧
    ∀ out, e.Reduce env op axis keep out → ∃ r, out = .ret (.dense r) ∧ IsReduction τ.shape (axis.covers 2) keep
      (fun _ _ => True) e.elems r := by
  have h := prog_reduce_any he hl hs hd.wf.1 hc h2d (op := op) keep ha hne (fun h _ => by
    obtain ⟨h0, h53⟩ := hm h
    rw [Bool.eq_false_iff]
    intro hz
    have k := (f64_nat h53).2
    rw [F64.val_of_eq_zero _ hz] at k
    have : ((τ.shape.prod : Nat) : ℚ) ≠ 0 := by exact_mod_cast Nat.pos_iff_ne_zero.1 h0
    exact this k.symm)
  refine ⟨h.1, fun out ho => ?_⟩
  obtain ⟨r, e1, hr⟩ := h.2 out ho
  refine ⟨r, e1, hr.shape_eq, hr.size, fun y hy => ?_⟩
  obtain ⟨v, h1, -⟩ := hr.cell y hy
  exact ⟨v, h1, trivial⟩

/-- C88: the same for the programs of C88. -/
theorem f64_reduce_runs {env : PyEnv F64} (he : env.Ok) {e : Prog F64} (hl : e.LitsOk) (hs : e.Small) (hd : e.AsDense) {τ : Ty}
    (hc : e.check = .ok τ) (op : RedOp F64) {axis : AxisArg} (keep : Bool) (ha : axis.Valid 2) (hne : axis ≠ .many [])
    (hm : op = .mean → 0 < τ.shape.prod ∧ τ.shape.prod ≤ 2 ^ 53) : ∃ out, e.Reduce env op axis keep out := by
  obtain ⟨f, r, c, rfl, -⟩ := f64_held he hl hs hd hc
  refine (prog_reduce_any he hl hs hd.determined hc trivial (op := op) keep ha hne (fun h _ => ?_)).1
  obtain ⟨h0, h53⟩ := hm h
  rw [Bool.eq_false_iff]
  intro hz
  have k := (f64_nat h53).2
  rw [F64.val_of_eq_zero _ hz] at k
  have : (((Ty.mat f r c).shape.prod : Nat) : ℚ) ≠ 0 := by exact_mod_cast Nat.pos_iff_ne_zero.1 h0
  exact this k.symm

/-- C91: `var` and `std` of programs over all classes: there is an outcome, and in every outcome the variances are those of the
elements (`Prog.elems`) up to an error bounded relative to the sum of their squares, whatever the class, the number of threads
and the schedule; no binary64 number is closer to the square root of such a variance than the standard deviation. -/
theorem elems_var_error {env : PyEnv F64} (he : env.Ok) {e : Prog F64} (hl : e.LitsOk) (hs : e.Small) (hd : e.AsElems) {τ : Ty}
    (hc : e.check = .ok τ) (h2d : τ.Is2d) {axis : AxisArg} (keep : Bool) (ha : axis.Valid 2) (hne : axis ≠ .many []) (corr : F64) :
    ((∃ out, e.Reduce env (.var corr) axis keep out) ∧ ∀ out, e.Reduce env (.var corr) axis keep out →
      ∃ r, out = .ret (.dense r) ∧ IsReduction τ.shape (axis.covers 2) keep (F64.RoundedVar corr) e.elems r) ∧
    ((∃ out, e.Reduce env (.std corr) axis keep out) ∧ ∀ out, e.Reduce env (.std corr) axis keep out →
      ∃ r, out = .ret (.dense r) ∧ IsReduction τ.shape (axis.covers 2) keep (fun l v => ∃ w, F64.RoundedVar corr l w ∧
        (w.IsFin → v.IsFin ∧ 0 ≤ w.val ∧ ∀ q, B64.Rep q → |(v.val : ℝ) - √(w.val : ℝ)| ≤ |(q : ℝ) - √(w.val : ℝ)|)) e.elems r) := by
  have hh := (elems_held he hl hs hd hc).2
  have hv := prog_reduce_any he hl hs hd.wf.1 hc h2d (op := .var corr) keep ha hne (fun h => by cases h)
  have hw := prog_reduce_any he hl hs hd.wf.1 hc h2d (op := .std corr) keep ha hne (fun h => by cases h)
  refine ⟨⟨hv.1, fun out h => ?_⟩, hw.1, fun out h => ?_⟩
  · obtain ⟨r', e1, hr⟩ := hv.2 out h
    refine ⟨r', e1, hr.shape_eq, hr.size, fun y hy => ?_⟩
    obtain ⟨v, h1, h2⟩ := hr.cell y hy
    refine ⟨v, h1, ?_⟩
    obtain ⟨xs, hxs, hfib⟩ := fibre_map τ.shape (axis.covers 2) keep y
    rw [hfib] at h2 ⊢
    obtain ⟨t, q, ht, hq, h2⟩ := h2
    rw [h2]
    exact var_of_held (fun x hx => hh x (hxs x hx)) ht hq corr
  · obtain ⟨r', e1, hr⟩ := hw.2 out h
    refine ⟨r', e1, hr.shape_eq, hr.size, fun y hy => ?_⟩
    obtain ⟨v, h1, h2⟩ := hr.cell y hy
    refine ⟨v, h1, ?_⟩
    obtain ⟨xs, hxs, hfib⟩ := fibre_map τ.shape (axis.covers 2) keep y
    rw [hfib] at h2 ⊢
    obtain ⟨t, q, ht, hq, h2⟩ := h2
    refine ⟨_, var_of_held (fun x hx => hh x (hxs x hx)) ht hq corr, fun hf => ?_⟩
    rw [h2]
    have hn := varOf_nonneg t q (Nat.min (List.map (fun x => valuesAt e.stores x) xs).length usizeMax) corr
    revert hf hn
    generalize varOf t q (Nat.min (List.map (fun x => valuesAt e.stores x) xs).length usizeMax) corr = w
    intro hf hn
    cases w with
    | nan => exact hf.elim
    | inf s => exact hf.elim
    | zero s =>
      refine ⟨trivial, le_refl _, fun q hq => ?_⟩
      show |((0 : ℚ) : ℝ) - √((0 : ℚ) : ℝ)| ≤ _
      rw [Rat.cast_zero, Real.sqrt_zero, sub_zero, abs_zero]
      exact abs_nonneg _
    | num x =>
      have hx : 0 < x.1 := lt_of_le_of_ne (not_lt.1 (of_decide_eq_false hn)) (Ne.symm x.2.2)
      have := f64_sqrt_nearest (a := F64.num x) trivial hx
      exact ⟨this.1, hx.le, this.2.2⟩

/-- `var(U, axis=1)`, where `U` is made from N-D arrays: the second element is near 14.0625, the variance of -1.5 and -9. -/
example {env : PyEnv F64} (he : env.Ok) : ∃ out, exU96.Reduce env (.var 0) (.one 1) false out ∧
    ∃ r v, out = .ret (.dense r) ∧ r.shape = [2] ∧ r.data[1]? = some v ∧ F64.RoundedVar 0 [F64.ofRat (-3 / 2), F64.ofRat (-9)] v := by
  obtain ⟨h1, h2, h3, h4⟩ := exU96_ok
  obtain ⟨⟨⟨out, ho⟩, h⟩, -⟩ := elems_var_error he h1 h2 h3 h4 trivial (axis := .one 1) false axis_one (by simp) 0
  obtain ⟨r, e1, hr⟩ := h out ho
  have hsh : r.shape = [2] := hr.shape_eq
  obtain ⟨v, c1, c2⟩ := hr.cell [1] (by rw [hsh]; exact .cons ⟨by omega, by omega⟩ .nil)
  rw [hsh] at c1
  refine ⟨out, ho, r, v, e1, hsh, c1, ?_⟩
  have c2 : F64.RoundedVar 0 [-(F64.ofRat (1 / 2) * F64.ofRat 3), -(F64.ofRat 3 * F64.ofRat 3)] v := c2
  rwa [show -(F64.ofRat (1 / 2) * F64.ofRat 3) = F64.ofRat (-3 / 2) by decide +kernel,
    show -(F64.ofRat 3 * F64.ofRat 3) = F64.ofRat (-9) by decide +kernel] at c2

/-- The variance these numbers have. -/
example : exactVar 0 [-3 / 2, -9] = 225 / 16 := by unfold exactVar; norm_num

/-- All reductions of the coordinate matrix `C`, which holds a NaN, return. -/
example {env : PyEnv F64} (he : env.Ok) (op : RedOp F64) : ∃ out, exC96.Reduce env op (.one 1) true out := by
  obtain ⟨h1, h2, h3, h4⟩ := exC96_ok
  exact (elems_reduce_runs he h1 h2 h3 h4 trivial op (axis := .one 1) true axis_one (by simp) (fun _ => by decide)).1

/-- `sum`, `mean`, `prod`, `min`, `max`, `var` and `std` of `[[1, 3]]` return. -/
example {env : PyEnv F64} (he : env.Ok) (op : RedOp F64) :
    ∃ out, (exPair (F64.ofRat (1 : ℤ)) (F64.ofRat (3 : ℤ))).Reduce env op (.one 1) false out :=
  f64_reduce_runs (e := exPair (F64.ofRat (1 : ℤ)) (F64.ofRat (3 : ℤ))) he (τ := .mat .csr 1 2) ⟨by decide, nofun⟩ (by decide +kernel) trivial (by decide +kernel) op (axis := .one 1) false
    axis_one (by simp) (fun _ => by decide)

end
end Lacuna
