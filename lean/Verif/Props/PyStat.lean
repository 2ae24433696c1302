import Verif.Lemmas.PyStatObj
import Verif.Props.PyMeaning
import Verif.Props.Var
/-
C76: the reductions `sum`, `mean`, `prod`, `var`, `std`, `min`, `max`, `all`, `any` of objects of the four
sparse classes, from the axis argument down to the pointer-level kernels, and as the last step of a
program.
-/
set_option linter.unusedSectionVars false

namespace Lacuna
variable {V : Type}

theorem redMethod_2d [Zero V] [One V] [Add V] [Sub V] [Mul V] [Div V] [BEq V] [NatCast V] [HasLt V] [HasMinMax V] [HasSqrt V]
    (env : PyEnv V) (op : RedOp V) (axis : AxisArg) (keep : Bool) {v : SpVal V} (h2 : v.ty.Is2d) (out : PyRes (RedOut V V)) :
    RedMethod env op axis keep v.obj out ↔ ∃ o, Red2d env op axis keep v.obj o ∧ out = o.bind fun r => .ret (.dense r) := by
  cases v with
  | mat f a => exact Iff.rfl
  | coo a => exact Iff.rfl
  | nd a => exact absurd h2 id

theorem redMethod_gives [Zero V] [One V] [Add V] [Sub V] [Mul V] [Div V] [BEq V] [NatCast V] [HasLt V] [HasMinMax V] [HasSqrt V]
    {env : PyEnv V} {op : RedOp V} {axis : AxisArg} {keep : Bool} {v : SpVal V} (h2 : v.ty.Is2d) {R : NdArr V → Prop}
    (h : GivesPy (Red2d env op axis keep v.obj) R) :
    (∃ out, RedMethod env op axis keep v.obj out) ∧
    ∀ out, RedMethod env op axis keep v.obj out → ∃ r, out = .ret (.dense r) ∧ R r := by
  obtain ⟨⟨o, ho⟩, h'⟩ := h
  refine ⟨⟨_, (redMethod_2d env op axis keep h2 _).2 ⟨o, ho, rfl⟩⟩, fun out hout => ?_⟩
  obtain ⟨o, ho, rfl⟩ := (redMethod_2d env op axis keep h2 _).1 hout
  obtain ⟨y, rfl, hy⟩ := h' o ho
  exact ⟨y, rfl, hy⟩

/-! ### matrices -/

section
variable [Field V] [LinearOrder V] [IsStrictOrderedRing V] [BEq V] [LawfulBEq V] [HasLt V] [HasMinMax V] [HasSqrt V]

/-- C76: let the arithmetic be exact.  `sum`, `mean`, `prod`, `var` and `std` of a valid `CSR`, `CSC` or
`COO` object, over any axes that exist, with and without `keepdims`: whatever the schedule, the call
has an outcome, and every outcome is the dense array whose cells are the reductions of the cells of the
matrix along these axes.  (`COO` must not store a coordinate twice, except for `sum` and `mean`.) -/
theorem py_reduce (hlt : ∀ x y : V, flt x y = true ↔ x < y) {env : PyEnv V} (he : env.Ok) {v : SpVal V} (hv : v.Valid)
    (hs : v.ty.SizeOk v.nnz) (h2 : v.ty.Is2d) {op : RedOp V}
    (hsq : (∃ c, op = .std c) → ∀ x : V, 0 ≤ x → 0 ≤ (fsqrt x : V) ∧ (fsqrt x : V) * fsqrt x = x)
    (hop : op ≠ .min ∧ op ≠ .max) (hon : ¬ op.Linear → v.Once) (hsz : op.Size v.ty.shape)
    {axis : AxisArg} (keep : Bool) (ha : axis.Valid 2) (hne : axis ≠ .many []) :
    (∃ out, RedMethod env op axis keep v.obj out) ∧
    ∀ out, RedMethod env op axis keep v.obj out →
      ∃ r, out = .ret (.dense r) ∧ IsReduction v.ty.shape (axis.covers 2) keep op.Is v.cell r :=
  redMethod_gives h2 (red2d_value hlt he ⟨hv, hs⟩ h2 hsq hop hon hsz axis keep ha hne)

end

/-- C76: the same for `min` and `max` of a matrix with a cell. -/
theorem py_minmax [LinearOrder V] [AddZeroClass V] [One V] [Sub V] [Mul V] [Div V] [BEq V] [NatCast V] [HasLt V]
    [HasMinMax V] [HasSqrt V] (hI : IdealMinMax V) {env : PyEnv V} (he : env.Ok) {v : SpVal V} (hv : v.Valid)
    (hs : v.ty.SizeOk v.nnz) (h2 : v.ty.Is2d) (hon : v.Once) (hpos : 0 < v.ty.shape.prod)
    {axis : AxisArg} (keep : Bool) (ha : axis.Valid 2) (hne : axis ≠ .many []) :
    ((∃ out, RedMethod env .min axis keep v.obj out) ∧
      ∀ out, RedMethod env .min axis keep v.obj out →
        ∃ r, out = .ret (.dense r) ∧ IsReduction v.ty.shape (axis.covers 2) keep IsMinOf v.cell r) ∧
    ((∃ out, RedMethod env .max axis keep v.obj out) ∧
      ∀ out, RedMethod env .max axis keep v.obj out →
        ∃ r, out = .ret (.dense r) ∧ IsReduction v.ty.shape (axis.covers 2) keep IsMaxOf v.cell r) :=
  have h := red2d_minmax hI he (v := v) ⟨hv, hs⟩ h2 hon hpos axis keep ha hne
  ⟨redMethod_gives h2 h.1, redMethod_gives h2 h.2⟩

/-- C76: the same for `all` and `any`; entries with the same coordinate are added up first. -/
theorem py_logic [AddCommMonoid V] [One V] [Sub V] [Mul V] [Div V] [BEq V] [NatCast V] [HasLt V] [HasMinMax V] [HasSqrt V]
    (h0 : ((0 : V) == 0) = true) {env : PyEnv V} (he : env.Ok) {v : SpVal V} (hv : v.Valid) (hs : v.ty.SizeOk v.nnz)
    (h2 : v.ty.Is2d) (op : LogicOp) {axis : AxisArg} (keep : Bool) (ha : axis.Valid 2) (hne : axis ≠ .many []) :
    (∃ out, LogicMethod env op axis keep v.obj out) ∧
    ∀ out, LogicMethod env op axis keep v.obj out →
      ∃ r, out = .ret r ∧ IsReduction v.ty.shape (axis.covers 2) keep op.Is v.cell r := by
  have h := logic2d_value h0 he (v := v) ⟨hv, hs⟩ h2 op axis keep ha hne
  cases v with
  | mat f a => exact h
  | coo a => exact h
  | nd a => exact absurd h2 id

section
variable [Zero V] [One V] [Add V] [Sub V] [Mul V] [Div V] [BEq V] [NatCast V] [HasLt V] [HasMinMax V] [HasSqrt V]

/-- C76: for any matrix object, valid or not, an axis that does not exist raises `ValueError`, and
`axis=()` raises `NotImplementedError`. -/
theorem py_reduce_rejects (env : PyEnv V) (keep : Bool) {x : PyObj V} (hx : ∀ a, x ≠ .nd a) :
    (∀ axis : AxisArg, ¬ axis.Valid 2 →
      (∀ op out, RedMethod env op axis keep x out ↔ out = .raises .valueError) ∧
      (∀ op out, LogicMethod env op axis keep x out ↔ out = .raises .valueError)) ∧
    (∀ op out, RedMethod env op (.many []) keep x out ↔ out = .raises .notImplemented) ∧
    (∀ op out, LogicMethod env op (.many []) keep x out ↔ out = .raises .notImplemented) := by
  have key : ∀ (op : RedOp V) (axis : AxisArg) out, RedMethod env op axis keep x out ↔
      ∃ o, Red2d env op axis keep x o ∧ out = o.bind fun r => .ret (.dense r) := by
    intro op axis out
    cases x with
    | mat f a => exact Iff.rfl
    | coo a => exact Iff.rfl
    | nd a => exact absurd rfl (hx a)
  have key' : ∀ (op : LogicOp) (axis : AxisArg) out, LogicMethod env op axis keep x out ↔ Logic2d env op axis keep x out := by
    intro op axis out
    cases x with
    | mat f a => exact Iff.rfl
    | coo a => exact Iff.rfl
    | nd a => exact absurd rfl (hx a)
  have pull : ∀ {p : PyRes (NdArr V) → Prop} {e : PyErr} {out : PyRes (RedOut V V)}, (∀ o, p o ↔ o = .raises e) →
      ((∃ o, p o ∧ out = o.bind fun r => .ret (.dense r)) ↔ out = .raises e) := by
    intro p e out hp
    constructor
    · rintro ⟨o, ho, rfl⟩; rw [(hp o).1 ho]; rfl
    · rintro rfl; exact ⟨_, (hp _).2 rfl, rfl⟩
  refine ⟨fun axis h => ⟨fun op out => ?_, fun op out => ?_⟩, fun op out => ?_, fun op out => ?_⟩
  · rw [key]; exact pull fun o => (reduce2dObj_rejects axis keep o).1 h
  · rw [key']; exact (reduce2dObj_rejects axis keep out).1 h
  · rw [key]; exact pull fun o => Iff.rfl
  · rw [key']; exact Iff.rfl

/-- C76: `mean(x)` of a valid matrix without cells raises `ZeroDivisionError`; NumPy returns `nan`. -/
theorem py_mean_no_cells (h0 : (((0 : Nat) : V) == 0) = true) (env : PyEnv V) {v : SpVal V} (hv : v.Valid)
    (hs : v.ty.SizeOk v.nnz) (h2 : v.ty.Is2d) (hz : v.ty.shape.prod = 0) (keep : Bool) (out : PyRes (RedOut V V)) :
    RedMethod env .mean .none keep v.obj out ↔ out = .raises .zeroDivision := by
  have core : ∀ {nat : Native V} {n m : Nat}, (∀ mat coo, v.obj.native mat coo = .ok nat) → v.obj.dims = (n, m) →
      n * m = 0 → nat.data.length ≤ usizeMax → ∀ o, Red2d env .mean .none keep v.obj o ↔ o = .raises .zeroDivision := by
    intro nat n m hn hd hz hlen o
    have hg : GivesPy (NativeCall (.ok nat) fun N a => RedOp.mean.Glob N a) fun _ => True :=
      Gives.call (run := fun N a => RedOp.mean.Glob N a)
        (gives_of (nat.data.length + 1) (fun N hN o => sum_ptr nat.data hlen (by omega) o) (sum_runs _) fun _ _ => trivial)
    have hpost : ∀ s : V, RedOp.mean.globPost 0 s = .raises .zeroDivision := by
      intro s
      show PyRes.ofExcept (pyFloatDiv s _) = _
      unfold pyFloatDiv
      rw [h0]; rfl
    unfold Red2d
    rw [hn, hd]
    simp only []
    rw [hz]
    constructor
    · rintro ⟨p, ⟨q, hq, rfl⟩, rfl⟩
      obtain ⟨s, rfl, -⟩ := hg.2 q hq
      show PyRes.bind (RedOp.mean.globPost 0 s) _ = _
      rw [hpost]; rfl
    · rintro rfl
      obtain ⟨q, hq⟩ := hg.1
      obtain ⟨s, rfl, -⟩ := hg.2 q hq
      refine ⟨.raises .zeroDivision, ⟨_, hq, ?_⟩, rfl⟩
      exact (hpost s).symm
  have hg : v.Good := ⟨hv, hs⟩
  have hlen : v.nnz ≤ usizeMax := by have := good_nnz hg; unfold i64Max at this; unfold usizeMax; omega
  have key : ∀ o, Red2d env .mean .none keep v.obj o ↔ o = .raises .zeroDivision := by
    cases v with
    | mat f a =>
      cases f with
      | csr => exact core (native_csr hg) (n := a.n) (m := a.m) rfl (by have hz : a.n * (a.m * 1) = 0 := hz; rwa [Nat.mul_one] at hz) hlen
      | csc => exact core (native_csc hg) (n := a.m) (m := a.n) rfl (by have hz : a.m * (a.n * 1) = 0 := hz; rwa [Nat.mul_one] at hz) hlen
    | coo a =>
      exact core (native_coo hg) (n := a.nrows) (m := a.ncols) rfl
        (by have hz : a.nrows * (a.ncols * 1) = 0 := hz; rwa [Nat.mul_one] at hz) hlen
    | nd a => exact absurd h2 id
  rw [redMethod_2d env _ _ keep h2]
  constructor
  · rintro ⟨o, ho, rfl⟩; rw [(key o).1 ho]; rfl
  · rintro rfl; exact ⟨_, (key _).2 rfl, rfl⟩

/-! ### N-D arrays -/

/-- C76, negative part: `prod`, `var`, `std`, `all` and `any` of a `COOND` cannot be called with success.
With `axis=None` the dispatch passes `x.shape`, a tuple, to a binding that takes an array of `i64`; any
other axis raises `NotImplementedError`, as `min` and `max` always do. -/
theorem py_nd_unsupported (env : PyEnv V) (keep : Bool) (x : PyNd V) :
    (∀ op : RedOp V, ¬ op.Linear → ∀ axis out, RedMethod env op axis keep (.nd x) out →
      out = .raises .typeError ∨ out = .raises .notImplemented) ∧
    (∀ axis out, RedMethod env .min axis keep (.nd x) out ↔ out = .raises .notImplemented) ∧
    (∀ axis out, RedMethod env .max axis keep (.nd x) out ↔ out = .raises .notImplemented) ∧
    (∀ out, RedMethod env .prod .none keep (.nd x) out ↔ out = .raises .typeError) ∧
    (∀ c out, RedMethod env (.var c) .none keep (.nd x) out ↔ out = .raises .typeError) ∧
    (∀ c out, RedMethod env (.std c) .none keep (.nd x) out ↔ out = .raises .typeError) ∧
    (∀ op out, LogicMethod env op .none keep (.nd x) out ↔ out = .raises .typeError) ∧
    (∀ op axis out, axis ≠ AxisArg.none → (LogicMethod env op axis keep (.nd x) out ↔ out = .raises .notImplemented)) := by
  refine ⟨fun op hop axis out h => ?_, fun _ _ => Iff.rfl, fun _ _ => Iff.rfl, fun _ => Iff.rfl, fun _ _ => Iff.rfl,
    fun _ _ => Iff.rfl, fun _ _ => Iff.rfl, fun op axis out hn => ?_⟩
  · have ht : tupleShape axis = .typeError ∨ tupleShape axis = .notImplemented := by
      cases axis
      · exact .inl rfl
      · exact .inr rfl
      · exact .inr rfl
    cases op with
    | sum => exact absurd trivial hop
    | mean => exact absurd trivial hop
    | min => exact .inr h
    | max => exact .inr h
    | prod => rcases ht with e | e <;> rw [← e] <;> [exact .inl h; exact .inr h]
    | var c => rcases ht with e | e <;> rw [← e] <;> [exact .inl h; exact .inr h]
    | std c => rcases ht with e | e <;> rw [← e] <;> [exact .inl h; exact .inr h]
  · cases axis with
    | none => exact absurd rfl hn
    | one a => exact Iff.rfl
    | many as => exact Iff.rfl

/-- C76: for any `COOND` object, an axis of `sum` or `mean` that does not exist raises `ValueError`, and
`axis=()` raises `NotImplementedError`. -/
theorem py_nd_rejects (env : PyEnv V) (keep : Bool) (x : PyNd V) {op : RedOp V} (hop : op.Linear) :
    (∀ axis : AxisArg, ¬ axis.Valid x.shape.length → ∀ out, RedMethod env op axis keep (.nd x) out ↔ out = .raises .valueError) ∧
    (∀ out, RedMethod env op (.many []) keep (.nd x) out ↔ out = .raises .notImplemented) := by
  have key : ∀ mean : Bool, (∀ axis : AxisArg, ¬ axis.Valid x.shape.length →
      ∀ out, RedNd env mean axis keep x out ↔ out = .raises .valueError) ∧
      (∀ out, RedNd env mean (.many []) keep x out ↔ out = .raises .notImplemented) := by
    intro mean
    refine ⟨fun axis h out => ?_, fun out => Iff.rfl⟩
    unfold RedNd
    rw [normalizeAxesNd_invalid _ axis h]
  cases op with
  | sum => exact key false
  | mean => exact key true
  | _ => exact absurd hop id

/-- C76, negative part: `sum` and `mean` of a valid `COOND` over all its axes, named one by one, panic;
NumPy returns the same as for `axis=None`. -/
theorem py_nd_all_axes {env : PyEnv V} (he : env.Ok) {a : CooNd V} (hv : (SpVal.nd a).Valid)
    (hs : (SpVal.nd a).ty.SizeOk a.data.length) (hrank : (a.shape.length : Int) ≤ i64Max) {op : RedOp V} (hop : op.Linear)
    {axis : AxisArg} (keep : Bool) (hn : axis ≠ .none) (hne : axis ≠ .many []) (ha : axis.Valid a.shape.length)
    (hall : ∀ d, d < a.shape.length → axis.covers a.shape.length d = true) (out : PyRes (RedOut V V)) :
    RedMethod env op axis keep (SpVal.nd a).obj out ↔ out = .raises .panic := by
  cases op with
  | sum => exact redNd_all he ⟨hv, hs⟩ hrank false keep hn hne ha hall out
  | mean => exact redNd_all he ⟨hv, hs⟩ hrank true keep hn hne ha hall out
  | _ => exact absurd hop id

end

section
variable [Field V] [LinearOrder V] [IsStrictOrderedRing V] [BEq V] [LawfulBEq V] [HasLt V] [HasMinMax V] [HasSqrt V]

/-- C76: let the arithmetic be exact.  `sum(x)` and `mean(x)` of a valid `COOND` have an outcome, and every
outcome is the sum or mean of all cells; with `keepdims` it is an array with all extents 1. -/
theorem py_nd_reduce_all {env : PyEnv V} {a : CooNd V} (hv : (SpVal.nd a).Valid)
    (hs : (SpVal.nd a).ty.SizeOk a.data.length) {op : RedOp V} (hop : op.Linear) (keep : Bool) :
    (∃ out, RedMethod env op .none keep (SpVal.nd a).obj out) ∧
    ∀ out, RedMethod env op .none keep (SpVal.nd a).obj out →
      ∃ r, out = .ret (.dense r) ∧ IsReduction a.shape (fun _ => true) keep op.Is a.val r := by
  have hg : (SpVal.nd a).Good := ⟨hv, hs⟩
  obtain ⟨hw, hi, hpos, hus⟩ := good_nd hg
  have h24 : 24 * (a.data.length : Int) ≤ i64Max := good_nnz hg
  have hlen : a.data.length ≤ usizeMax := by unfold i64Max at h24; unfold usizeMax; omega
  have main : ∀ (mean : Bool) (P : List V → V → Prop), Gives (fun N => NdGlob N mean a) (P a.cells) →
      (∃ out, RedNd env mean .none keep (PyNd.of a) out) ∧ ∀ out, RedNd env mean .none keep (PyNd.of a) out →
        ∃ r, out = .ret (.dense r) ∧ IsReduction a.shape (fun _ => true) keep P a.val r := by
    intro mean P h
    have hpost : ∀ s : V, ((PyRes.ofExcept (if keep then npReshape ⟨[], [s]⟩ ((PyNd.of a).shape.map fun _ => 1) else .ok ⟨[], [s]⟩)).bind
        fun r => .ret (.dense r) : PyRes (RedOut V V)) = .ret (.dense ⟨if keep then a.shape.map fun _ => 1 else [], [s]⟩) := by
      intro s
      cases keep with
      | false => rfl
      | true =>
        rw [if_pos rfl, if_pos rfl]
        unfold npReshape
        rw [show ((PyNd.of a).shape.map fun _ => 1) = a.shape.map fun _ => 1 from List.map_map, if_pos (by simp)]
        rfl
    have hiff : ∀ out, RedNd env mean .none keep (PyNd.of a) out ↔ ∃ o, Settles (fun N => NdGlob N mean a) o ∧
        out = (PyRes.ofKernel o).bind fun s => (PyRes.ofExcept (if keep then npReshape ⟨[], [s]⟩
          ((PyNd.of a).shape.map fun _ => 1) else .ok ⟨[], [s]⟩)).bind fun r => .ret (.dense r) := by
      intro out
      unfold RedNd
      show (match (PyNd.of a).parts with | .error e => _ | .ok a => _) ↔ _
      rw [hg.ndParts]
    refine ⟨?_, fun out hout => ?_⟩
    · obtain ⟨o, ho⟩ := h.1
      exact ⟨_, (hiff _).2 ⟨o, ho, rfl⟩⟩
    · obtain ⟨o, ho, rfl⟩ := (hiff _).1 hout
      obtain ⟨s, rfl, hs⟩ := h.2 o ho
      exact ⟨_, hpost s, isReduction_nd_all hs keep⟩
  have hsum : ∀ N, a.data.length + 1 ≤ N → ∀ o, SumPtrRun N a.data o ↔ ∃ r, SumRun a.data r ∧ o = .ok r :=
    fun N hN o => sum_ptr a.data hlen (by omega) o
  cases op with
  | sum => exact main false _ (gives_of (a.data.length + 1) hsum (sum_runs _) fun r hr => sum_coond_correct hw hr)
  | mean =>
    refine main true _ ?_
    have hz : (((a.shape.prod : Nat) : V) == 0) = false := by
      rw [beq_eq_false_iff_ne, Nat.cast_ne_zero]; omega
    have e : (fun N => NdGlob (V := V) N true a) =
        fun N out => ∃ o, SumPtrRun N a.data o ∧ out = o.map fun s => s / ((a.shape.prod : Nat) : V) := by
      funext N out
      unfold NdGlob
      rw [if_pos rfl, if_neg hw.rank, productChecked_pos hpos hus]
      simp only []
      rw [hz]
      rfl
    rw [e]
    refine gives_map (Q := fun s => s = a.cells.sum) (a.data.length + 1) hsum (sum_runs _) (fun r hr => sum_coond_correct hw hr) ?_
    intro s hs
    show _ = listMean a.cells
    have hrun : MeanNdRun a (s / ((a.shape.prod : Nat) : V)) := by
      unfold MeanNdRun
      rw [if_neg hw.rank]
      refine ⟨_, productChecked_pos hpos hus, ?_⟩
      rw [hz]
      obtain ⟨s', hs'⟩ := sum_runs a.data
      exact ⟨s', hs', by rw [hs, sum_coond_correct hw hs']⟩
    exact (mean_coond_correct hw hrun).trans (if_neg (by omega))
  | _ => exact absurd hop id

/-- C76: `sum` and `mean` of a valid `COOND` over axes that leave one: every call returns the same valid
`COOND`, whose shape lacks these axes (with `keepdims` they have extent 1) and whose cells are the sums
or means over them. -/
theorem py_nd_reduce_axes {env : PyEnv V} (he : env.Ok) {a : CooNd V} (hv : (SpVal.nd a).Valid)
    (hs : (SpVal.nd a).ty.SizeOk a.data.length) (hrank : (a.shape.length : Int) ≤ i64Max) {op : RedOp V} (hop : op.Linear)
    {axis : AxisArg} (keep : Bool) (hn : axis ≠ .none) (hne : axis ≠ .many []) (ha : axis.Valid a.shape.length)
    (hleft : ∃ d, d < a.shape.length ∧ axis.covers a.shape.length d = false) :
    ∃ r : CooNd V, (∀ out, RedMethod env op axis keep (SpVal.nd a).obj out ↔ out = .ret (.sparse (SpVal.nd r).obj)) ∧
      r.WF ∧ r.shape = reducedShape a.shape (axis.covers a.shape.length) keep ∧
      ∀ y, op.Is (fibre a.shape (axis.covers a.shape.length) keep a.val y) (r.val y) := by
  have hg : (SpVal.nd a).Good := ⟨hv, hs⟩
  obtain ⟨hw, hi, hpos, hus⟩ := good_nd hg
  cases op with
  | sum =>
    obtain ⟨r, h1, h2, h3, h4⟩ := redNd_axes he hg hrank false keep hn hne ha hleft (0 : V)
    have hno : NoOverflow (reducedShape a.shape (axis.covers a.shape.length) false) := by
      have hp := extents_prod_le (restAxes_ok a.shape.length ((List.range a.shape.length).filter (axis.covers a.shape.length))) hpos
      rw [restAxes_covered] at hp
      rw [reducedShape_false]
      exact noOverflow_of_pos hp.1 (hp.2.trans hus)
    obtain ⟨r', g1, -, -, g4⟩ := py_sum_coond he.nd hw hi (0 : V) keep hn hne ha hleft hno
    rw [show (if false then reduceMeanNd env.ndSort a else reduceSumNd env.ndSort a) = reduceSumNd env.ndSort a from rfl, g1] at h1
    cases h1
    exact ⟨r, h4, h3, h2, g4⟩
  | mean =>
    obtain ⟨r, h1, h2, h3, h4⟩ := redNd_axes he hg hrank true keep hn hne ha hleft (0 : V)
    obtain ⟨r', g1, -, -, g4⟩ := py_mean_coond he.nd hw hi (0 : V) keep hn hne ha hleft hpos hus
    rw [show (if true then reduceMeanNd env.ndSort a else reduceSumNd env.ndSort a) = reduceMeanNd env.ndSort a from rfl, g1] at h1
    cases h1
    exact ⟨r, h4, h3, h2, g4⟩
  | _ => exact absurd hop id

end

/-! ### programs -/

section
variable [Zero V] [One V] [Add V] [Sub V] [Mul V] [Div V] [Neg V] [BEq V] [NatCast V] [HasFinite V]
  [HasFloor V] [HasPowf V] [HasAbs V] [HasLt V] [HasNan V] [HasMinMax V] [HasSqrt V]

/-- C76: a reduction at the end of a program that raises an exception raises this exception. -/
theorem prog_reduce_raises {env : PyEnv V} (he : env.Ok) {e : Prog V} (hl : e.LitsOk) (hs : e.Small) {x : PyErr}
    (hc : e.check = .error x) (axis : AxisArg) (keep : Bool) :
    (∀ op out, e.Reduce env op axis keep out ↔ out = .raises x) ∧
    (∀ op out, e.Logic env op axis keep out ↔ out = .raises x) := by
  obtain ⟨h1, h2⟩ := Prog.step he hl hs
  rw [hc] at h1
  have h1 : e.value env = .error x := h1
  rw [h1] at h2
  have h2 : ∀ o, e.Eval env o ↔ o = .raises x := h2
  constructor
  · intro op out
    constructor
    · rintro ⟨o, ho, h⟩; rw [(h2 o).1 ho] at h; exact h
    · rintro rfl; exact ⟨_, (h2 _).2 rfl, rfl⟩
  · intro op out
    constructor
    · rintro ⟨o, ho, h⟩; rw [(h2 o).1 ho] at h; exact h
    · rintro rfl; exact ⟨_, (h2 _).2 rfl, rfl⟩

end

section
variable [Field V] [LinearOrder V] [IsStrictOrderedRing V] [FloorRing V] [BEq V] [LawfulBEq V] [HasFinite V]
  [HasFloor V] [HasPowf V] [HasAbs V] [HasLt V] [HasNan V] [IdealOrd V] [HasMinMax V] [HasSqrt V]

/-- What is done with the value of a program. -/
theorem prog_value (hfin : ∀ v : V, isFinite v = true) (hfl : ∀ v : V, HasFloor.floor v = (⌊v⌋ : V)) {env : PyEnv V}
    (he : env.Ok) {e : Prog V} (hl : e.LitsOk) (hs : e.Small) (hx : e.Exact) {τ : Ty} (hc : e.check = .ok τ) :
    ∃ w : SpVal V, w.Valid ∧ w.ty.SizeOk w.nnz ∧ w.ty = τ ∧ (e.Distinct → w.Once) ∧
      (∀ x, InBounds τ.shape x → w.cell x = e.cells x) ∧ ∀ o, e.Eval env o ↔ o = .ret w.obj := by
  obtain ⟨h1, h2⟩ := Prog.step he hl hs
  have hf := Prog.small_fits hs
  unfold Prog.Fits at hf
  rw [hc] at h1 hf
  obtain ⟨w, e1, hv, ht, hn⟩ := h1
  rw [e1] at h2
  obtain ⟨d1, d2⟩ := Prog.value_cells hfin hfl he hl hs e1
  refine ⟨w, hv, ?_, ht, fun hd => ?_, fun x hxb => d2 hx x (by rw [ht]; exact hxb), h2⟩
  · rw [ht]; exact Ty.SizeOk.mono hf hn
  · have := d1 hd
    cases w with
    | mat f a => exact fun i => (show a.WF from hv).noRep i
    | coo a => exact this
    | nd a => exact this

/-- C76: let the arithmetic be exact.  A program whose value is a matrix, reduced by `sum`, `mean`, `prod`,
`var` or `std` in the end: every run returns the dense array that reduces the array the program denotes. -/
theorem prog_reduce (hfin : ∀ v : V, isFinite v = true) (hfl : ∀ v : V, HasFloor.floor v = (⌊v⌋ : V)) {env : PyEnv V}
    (he : env.Ok) {e : Prog V} (hl : e.LitsOk) (hs : e.Small) (hx : e.Exact) {τ : Ty} (hc : e.check = .ok τ) (h2 : τ.Is2d)
    {op : RedOp V} (hsq : (∃ c, op = .std c) → ∀ x : V, 0 ≤ x → 0 ≤ (fsqrt x : V) ∧ (fsqrt x : V) * fsqrt x = x)
    (hop : op ≠ .min ∧ op ≠ .max) (hd : ¬ op.Linear → e.Distinct) (hsz : op.Size τ.shape)
    {axis : AxisArg} (keep : Bool) (ha : axis.Valid 2) (hne : axis ≠ .many []) :
    (∃ out, e.Reduce env op axis keep out) ∧
    ∀ out, e.Reduce env op axis keep out →
      ∃ r, out = .ret (.dense r) ∧ IsReduction τ.shape (axis.covers 2) keep op.Is e.cells r := by
  obtain ⟨w, hv, hs', rfl, hon, hcell, hev⟩ := prog_value hfin hfl he hl hs hx hc
  obtain ⟨⟨out, ho⟩, h⟩ := py_reduce IdealOrd.flt_iff he hv hs' h2 hsq hop (fun h => hon (hd h)) hsz keep ha hne
  refine ⟨⟨out, _, (hev _).2 rfl, ho⟩, ?_⟩
  rintro out ⟨o, ho, hout⟩
  rw [(hev o).1 ho] at hout
  obtain ⟨r, e1, hr⟩ := h out hout
  exact ⟨r, e1, isReduction_congr hr hcell⟩

/-- C76: the same for `all` and `any`. -/
theorem prog_logic (hfin : ∀ v : V, isFinite v = true) (hfl : ∀ v : V, HasFloor.floor v = (⌊v⌋ : V)) {env : PyEnv V}
    (he : env.Ok) {e : Prog V} (hl : e.LitsOk) (hs : e.Small) (hx : e.Exact) {τ : Ty} (hc : e.check = .ok τ) (h2 : τ.Is2d)
    (op : LogicOp) {axis : AxisArg} (keep : Bool) (ha : axis.Valid 2) (hne : axis ≠ .many []) :
    (∃ out, e.Logic env op axis keep out) ∧
    ∀ out, e.Logic env op axis keep out →
      ∃ r, out = .ret r ∧ IsReduction τ.shape (axis.covers 2) keep op.Is e.cells r := by
  obtain ⟨w, hv, hs', rfl, hon, hcell, hev⟩ := prog_value hfin hfl he hl hs hx hc
  obtain ⟨⟨out, ho⟩, h⟩ := py_logic (by simp) he hv hs' h2 op keep ha hne
  refine ⟨⟨out, _, (hev _).2 rfl, ho⟩, ?_⟩
  rintro out ⟨o, ho, hout⟩
  rw [(hev o).1 ho] at hout
  obtain ⟨r, e1, hr⟩ := h out hout
  exact ⟨r, e1, isReduction_congr hr hcell⟩

/-- C76: a program whose value is a `COOND`, with `sum` or `mean` in the end: over all axes. -/
theorem prog_nd_reduce_all (hfin : ∀ v : V, isFinite v = true) (hfl : ∀ v : V, HasFloor.floor v = (⌊v⌋ : V)) {env : PyEnv V}
    (he : env.Ok) {e : Prog V} (hl : e.LitsOk) (hs : e.Small) (hx : e.Exact) {s : List Nat} (hc : e.check = .ok (.nd s))
    {op : RedOp V} (hop : op.Linear) (keep : Bool) :
    (∃ out, e.Reduce env op .none keep out) ∧
    ∀ out, e.Reduce env op .none keep out →
      ∃ r, out = .ret (.dense r) ∧ IsReduction s (fun _ => true) keep op.Is e.cells r := by
  obtain ⟨w, hv, hs', ht, hon, hcell, hev⟩ := prog_value hfin hfl he hl hs hx hc
  cases w with
  | mat f a => cases ht
  | coo a => cases ht
  | nd a =>
    cases ht
    obtain ⟨⟨out, ho⟩, h⟩ := py_nd_reduce_all (env := env) hv hs' hop keep
    refine ⟨⟨out, _, (hev _).2 rfl, ho⟩, ?_⟩
    rintro out ⟨o, ho, hout⟩
    rw [(hev o).1 ho] at hout
    obtain ⟨r, e1, hr⟩ := h out hout
    exact ⟨r, e1, isReduction_congr hr hcell⟩

/-- C76: and over axes that leave one: every run returns the same valid `COOND`. -/
theorem prog_nd_reduce_axes (hfin : ∀ v : V, isFinite v = true) (hfl : ∀ v : V, HasFloor.floor v = (⌊v⌋ : V)) {env : PyEnv V}
    (he : env.Ok) {e : Prog V} (hl : e.LitsOk) (hs : e.Small) (hx : e.Exact) {s : List Nat} (hc : e.check = .ok (.nd s))
    (hrank : (s.length : Int) ≤ i64Max) {op : RedOp V} (hop : op.Linear)
    {axis : AxisArg} (keep : Bool) (hn : axis ≠ .none) (hne : axis ≠ .many []) (ha : axis.Valid s.length)
    (hleft : ∃ d, d < s.length ∧ axis.covers s.length d = false) :
    ∃ r : CooNd V, (∀ out, e.Reduce env op axis keep out ↔ out = .ret (.sparse (SpVal.nd r).obj)) ∧
      r.WF ∧ r.shape = reducedShape s (axis.covers s.length) keep ∧
      ∀ y, op.Is (fibre s (axis.covers s.length) keep e.cells y) (r.val y) := by
  obtain ⟨w, hv, hs', ht, hon, hcell, hev⟩ := prog_value hfin hfl he hl hs hx hc
  cases w with
  | mat f a => cases ht
  | coo a => cases ht
  | nd a =>
    cases ht
    obtain ⟨r, h1, h2, h3, h4⟩ := py_nd_reduce_axes he hv hs' hrank hop keep hn hne ha hleft
    refine ⟨r, fun out => ?_, h2, h3, fun y => ?_⟩
    · rw [← h1 out]
      constructor
      · rintro ⟨o, ho, hout⟩; rw [(hev o).1 ho] at hout; exact hout
      · exact fun h => ⟨_, (hev _).2 rfl, h⟩
    · have : fibre a.shape (axis.covers a.shape.length) keep e.cells y = fibre a.shape (axis.covers a.shape.length) keep a.val y := by
        unfold fibre
        exact List.map_congr_left fun x hx => (hcell x (mem_indicesOf.1 (List.mem_filter.1 hx).1)).symm
      rw [this]
      exact h4 y

end

/-! ### examples -/

local instance decAxisValid (n : Nat) (a : AxisArg) : Decidable (a.Valid n) := by unfold AxisArg.Valid; infer_instance

/-- An environment over any numbers. -/
def exEnvAny (V : Type) (dbg : Bool) : PyEnv V :=
  ⟨dbg, 4, List.insertionSort pairLe, List.insertionSort tripleLe, fun l => l.mergeSort (fun a b => decide (a.1 ≤ b.1)),
    fun la lb => (la.filter fun k => lb.contains k).dedup⟩

theorem exEnvAny_ok (V : Type) (dbg : Bool) : (exEnvAny V dbg).Ok :=
  ⟨isPairSort_insertionSort, isTripleSort_insertionSort, isSort_mergeSort, isCommonKeys_filter, by show 4 < 2 ^ 60; decide⟩

/-- `[[a, 0, b], [0, 0, 0]]` in compressed form. -/
def exStat (a b : V) : Comp V := ⟨2, 3, [0, 2, 2], [0, 2], [a, b]⟩
theorem exStat_wf (a b : V) : (exStat a b).WF :=
  ((csr_fromParts_iff 2 3 [0, 2, 2] [0, 2] [a, b] (by decide) ⟨2, 3, [0, 2, 2], [0, 2], [a, b]⟩).1 rfl).2.2

section
attribute [local instance] meaningHasFinite meaningHasFloor meaningHasPowf meaningHasLt meaningHasAbs meaningHasNan meaningIdealOrd
local instance statMinMaxQ : HasMinMax ℚ := ⟨min, max, min, max, 0, 0⟩
local instance statSqrtQ : HasSqrt ℚ := ⟨id⟩

/-- `mean(program, axis=-1)` for the program of C74, `[[10, -2, -21], [-9/2, 0, 0]]`. -/
example (dbg : Bool) : (∃ out, exCalc.Reduce (exEnvQ dbg) .mean (.one (-1)) false out) ∧
    ∀ out, exCalc.Reduce (exEnvQ dbg) .mean (.one (-1)) false out →
      ∃ r, out = .ret (.dense r) ∧ r.shape = [2] ∧ r.data[0]? = some (-13 / 3 : ℚ) ∧ r.data[1]? = some (-3 / 2 : ℚ) := by
  obtain ⟨h1, h2⟩ := prog_reduce (fun _ => rfl) (fun _ => rfl) (exEnvQ_ok dbg) exCalc_lits exCalc_small exCalc_exact exCalc_type
    trivial (op := .mean) (fun h => by obtain ⟨c, hc⟩ := h; cases hc) ⟨by simp, by simp⟩ (fun h => absurd trivial h)
    (show 0 < 2 * (3 * 1) by decide) (axis := .one (-1)) false (by decide) (by simp)
  refine ⟨h1, fun out h => ?_⟩
  obtain ⟨r, e, hr⟩ := h2 out h
  have hsh : r.shape = [2] := hr.shape_eq
  obtain ⟨r0, c0, p0⟩ := hr.cell [0] (by rw [hsh]; exact .cons ⟨by omega, by omega⟩ .nil)
  obtain ⟨r1, c1, p1⟩ := hr.cell [1] (by rw [hsh]; exact .cons ⟨by omega, by omega⟩ .nil)
  have e0 : r0 = -13 / 3 := by
    rw [show r0 = listMean _ from p0]; decide +kernel
  have e1 : r1 = -3 / 2 := by
    rw [show r1 = listMean _ from p1]; decide +kernel
  rw [hsh] at c0 c1
  exact ⟨r, e, hsh, by rw [← e0]; exact c0, by rw [← e1]; exact c1⟩

/-- `var(x, correction=1)` of a `CSR` object. -/
example (dbg : Bool) : ∀ out, RedMethod (exEnvQ dbg) (.var 1) .none true (SpVal.mat .csr (exStat (5 : ℚ) (-7))).obj out →
    ∃ r, out = .ret (.dense r) ∧ r.shape = [1, 1] ∧ r.data[0]? = some (44 / 3) := by
  intro out h
  obtain ⟨r, e, hr⟩ := (py_reduce (fun _ _ => by simp [flt]) (exEnvQ_ok dbg) (v := .mat .csr (exStat (5 : ℚ) (-7))) (exStat_wf _ _)
    (show Ty.SizeOk 2 (.mat .csr 2 3) by decide) trivial (op := .var 1) (fun h => by obtain ⟨c, hc⟩ := h; cases hc)
    ⟨by simp, by simp⟩ (fun _ i => (exStat_wf (5 : ℚ) (-7)).noRep i) (show 2 * (3 * 1) ≤ usizeMax by decide)
    (axis := .none) true (by simp [AxisArg.Valid, AxisArg.ints]) (by simp)).2 out h
  have hsh : r.shape = [1, 1] := hr.shape_eq
  obtain ⟨r0, c0, p0⟩ := hr.cell [0, 0] (by rw [hsh]; exact .cons ⟨by omega, by omega⟩ (.cons ⟨by omega, by omega⟩ .nil))
  have e0 : r0 = 44 / 3 := by rw [show r0 = specVar 1 _ from p0]; decide +kernel
  rw [hsh] at c0
  exact ⟨r, e, hsh, by rw [← e0]; exact c0⟩

/-- `mean` of a matrix without rows; an axis that does not exist. -/
example (dbg : Bool) (out : PyRes (RedOut ℚ ℚ)) :
    RedMethod (exEnvQ dbg) .mean .none false (SpVal.coo (⟨0, 3, [], [], []⟩ : Coo ℚ)).obj out ↔ out = .raises .zeroDivision :=
  py_mean_no_cells (by simp) (exEnvQ dbg) (v := .coo ⟨0, 3, [], [], []⟩)
    ⟨⟨rfl, rfl, by simp, by simp⟩, by simp [Coo.I64]⟩ (show Ty.SizeOk 0 (.coo 0 3) by decide) trivial rfl false out
example (dbg : Bool) (out : PyRes (RedOut ℚ ℚ)) :
    RedMethod (exEnvQ dbg) .prod (.many [1, -3]) false (SpVal.mat .csr (exStat (5 : ℚ) (-7))).obj out ↔ out = .raises .valueError :=
  ((py_reduce_rejects (exEnvQ dbg) false (x := (SpVal.mat .csr (exStat (5 : ℚ) (-7))).obj) (fun a h => by cases h)).1
    (.many [1, -3]) (by decide)).1 .prod out

/-- A 2 × 3 × 1 array with two entries in one cell. -/
def exStatNd : CooNd ℚ := ⟨[2, 3, 1], [0, 1, 0, 1, 2, 0, 0, 1, 0], [5, 6, 7]⟩
theorem exStatNd_valid : (SpVal.nd exStatNd).Valid := by
  refine ⟨⟨by decide, rfl, ?_⟩, by unfold CooNd.I64; decide⟩
  show ∀ k < 3, ∀ d (h : d < [2, 3, 1].length), 0 ≤ ([0, 1, 0, 1, 2, 0, 0, 1, 0] : List Int).getD (k * 3 + d) 0 ∧
    ([0, 1, 0, 1, 2, 0, 0, 1, 0] : List Int).getD (k * 3 + d) 0 < (([2, 3, 1] : List Nat)[d] : Nat)
  decide

example (dbg : Bool) : ∃ r : CooNd ℚ,
    (∀ out, RedMethod (exEnvQ dbg) .sum (.many [0, -1]) true (SpVal.nd exStatNd).obj out ↔ out = .ret (.sparse (SpVal.nd r).obj)) ∧
      r.WF ∧ r.shape = [1, 3, 1] ∧ r.val [0, 1, 0] = 12 ∧ r.val [0, 2, 0] = 6 := by
  obtain ⟨r, h1, h2, h3, h4⟩ := py_nd_reduce_axes (exEnvQ_ok dbg) exStatNd_valid (show Ty.SizeOk 3 (.nd [2, 3, 1]) by decide)
    (by decide) (op := .sum) trivial (axis := .many [0, -1]) true (by simp) (by simp) (by decide) ⟨1, by decide, by decide⟩
  refine ⟨r, h1, h2, h3, ?_, ?_⟩
  · rw [show r.val [0, 1, 0] = List.sum _ from h4 [0, 1, 0]]; decide +kernel
  · rw [show r.val [0, 2, 0] = List.sum _ from h4 [0, 2, 0]]; decide +kernel

example (dbg : Bool) : ∀ out, RedMethod (exEnvQ dbg) .mean .none false (SpVal.nd exStatNd).obj out →
    ∃ r, out = .ret (.dense r) ∧ r.shape = [] ∧ r.data[0]? = some 3 := by
  intro out h
  obtain ⟨r, e, hr⟩ := (py_nd_reduce_all (env := exEnvQ dbg) exStatNd_valid (show Ty.SizeOk 3 (.nd [2, 3, 1]) by decide)
    (op := .mean) trivial false).2 out h
  have hsh : r.shape = [] := hr.shape_eq
  obtain ⟨r0, c0, p0⟩ := hr.cell [] (by rw [hsh]; exact .nil)
  have e0 : r0 = 3 := by rw [show r0 = listMean _ from p0]; decide +kernel
  rw [hsh] at c0
  exact ⟨r, e, hsh, by rw [← e0]; exact c0⟩

example (dbg : Bool) (out : PyRes (RedOut ℚ ℚ)) :
    RedMethod (exEnvQ dbg) .sum (.many [0, 1, 2]) false (SpVal.nd exStatNd).obj out ↔ out = .raises .panic :=
  py_nd_all_axes (exEnvQ_ok dbg) exStatNd_valid (show Ty.SizeOk 3 (.nd [2, 3, 1]) by decide) (by decide) (op := .sum) trivial
    (axis := .many [0, 1, 2]) false (by simp) (by simp) (by decide) (by decide) out

/-- `any(abs(COO(…) - …), axis=0)`: the two entries of a cell cancel. -/
example (dbg : Bool) : ∀ out, LogicMethod (exEnvQ dbg) .any (.one 0) false
    (SpVal.coo (⟨2, 2, [0, 0, 1], [0, 0, 1], [3, -3, 4]⟩ : Coo ℚ)).obj out →
      ∃ r, out = .ret r ∧ r.shape = [2] ∧ r.data[0]? = some false ∧ r.data[1]? = some true := by
  intro out h
  obtain ⟨r, e, hr⟩ := (py_logic (by simp) (exEnvQ_ok dbg) (v := .coo ⟨2, 2, [0, 0, 1], [0, 0, 1], [3, -3, 4]⟩)
    ⟨⟨rfl, rfl, by decide, by decide⟩, by decide, by decide⟩ (show Ty.SizeOk 3 (.coo 2 2) by decide) trivial .any
    (axis := .one 0) false (by decide) (by simp)).2 out h
  have hsh : r.shape = [2] := hr.shape_eq
  obtain ⟨r0, c0, p0⟩ := hr.cell [0] (by rw [hsh]; exact .cons ⟨by omega, by omega⟩ .nil)
  obtain ⟨r1, c1, p1⟩ := hr.cell [1] (by rw [hsh]; exact .cons ⟨by omega, by omega⟩ .nil)
  rw [hsh] at c0 c1
  have e0 : r0 = false := by
    rw [Bool.eq_false_iff]
    intro h
    have := (show r0 = true ↔ AnyNonzero _ from p0).1 h
    revert this
    unfold AnyNonzero
    decide +kernel
  have e1 : r1 = true := (show r1 = true ↔ AnyNonzero _ from p1).2 (by unfold AnyNonzero; decide +kernel)
  exact ⟨r, e, hsh, by rw [← e0]; exact c0, by rw [← e1]; exact c1⟩

end

section
local instance statOneE : One ExtInt := ⟨.of 1⟩
local instance statSubE : Sub ExtInt := ⟨fun x _ => x⟩
local instance statMulE : Mul ExtInt := ⟨fun x _ => x⟩
local instance statDivE : Div ExtInt := ⟨fun x _ => x⟩
local instance statNatE : NatCast ExtInt := ⟨fun n => .of n⟩
local instance statSqrtE : HasSqrt ExtInt := ⟨id⟩

/-- `max(x, axis=1)` of a `CSC` object: the matrix `[[-5, 0], [0, 0], [-7, 0]]`. -/
example (dbg : Bool) : ∀ out, RedMethod (exEnvAny ExtInt dbg) .max (.one 0) false
    (SpVal.mat .csc (exStat (ExtInt.of (-5)) (.of (-7)))).obj out →
      ∃ r, out = .ret (.dense r) ∧ r.shape = [2] ∧ r.data[0]? = some (.of 0) := by
  intro out h
  obtain ⟨r, e, hr⟩ := (py_minmax extInt_ideal (exEnvAny_ok ExtInt dbg) (v := .mat .csc (exStat (ExtInt.of (-5)) (.of (-7))))
    (exStat_wf _ _) (show Ty.SizeOk 2 (.mat .csc 3 2) by decide) trivial (fun i => (exStat_wf _ _).noRep i)
    (show 0 < 3 * (2 * 1) by decide) (axis := .one 0) false (by decide) (by simp)).2.2 out h
  have hsh : r.shape = [2] := hr.shape_eq
  obtain ⟨r0, c0, p0⟩ := hr.cell [0] (by rw [hsh]; exact .cons ⟨by omega, by omega⟩ .nil)
  rw [hsh] at c0
  have hc : fibre [3, 2] ((AxisArg.one 0).covers 2) false (SpVal.mat .csc (exStat (ExtInt.of (-5)) (.of (-7)))).cell [0] =
      [.of (-5), .of 0, .of (-7)] := by decide +kernel
  have p0 : IsMaxOf (fibre [3, 2] ((AxisArg.one 0).covers 2) false (SpVal.mat .csc (exStat (ExtInt.of (-5)) (.of (-7)))).cell [0]) r0 := p0
  rw [hc] at p0
  have e0 : r0 = .of 0 := by
    obtain ⟨hm, hle⟩ := p0
    have h0 : ExtInt.of 0 ≤ r0 := hle _ (by simp)
    simp only [List.mem_cons, List.not_mem_nil, or_false] at hm
    rcases hm with rfl | rfl | rfl <;> first | rfl | exact absurd h0 (by decide)
  exact ⟨r, e, hsh, by rw [← e0]; exact c0⟩

end

section
noncomputable local instance statSqrtR : HasSqrt ℝ := ⟨Real.sqrt⟩
noncomputable local instance statMinMaxR : HasMinMax ℝ := ⟨min, max, min, max, 0, 0⟩
noncomputable local instance statLtR : HasLt ℝ := ⟨fun x y => decide (x < y)⟩
noncomputable local instance statBEqR : BEq ℝ := ⟨fun x y => decide (x = y)⟩
local instance statLawfulR : LawfulBEq ℝ := { eq_of_beq := fun h => of_decide_eq_true h, rfl := decide_eq_true rfl }

/-- `std(x)` of a real `CSR` object has the square root of the variance. -/
example (dbg : Bool) : ∀ out, RedMethod (exEnvAny ℝ dbg) (.std 0) .none false (SpVal.mat .csr (exStat (3 : ℝ) 3)).obj out →
    ∃ r, out = .ret (.dense r) ∧ IsReduction [2, 3] (fun _ => true) false (RedOp.std 0).Is (SpVal.mat .csr (exStat (3 : ℝ) 3)).cell r := by
  intro out h
  exact (py_reduce (fun _ _ => by simp [flt]) (exEnvAny_ok ℝ dbg) (v := .mat .csr (exStat (3 : ℝ) 3)) (exStat_wf _ _)
    (show Ty.SizeOk 2 (.mat .csr 2 3) by decide) trivial (op := .std 0)
    (fun _ x hx => ⟨Real.sqrt_nonneg x, Real.mul_self_sqrt hx⟩)
    ⟨by simp, by simp⟩ (fun _ i => (exStat_wf (3 : ℝ) 3).noRep i) (show 2 * (3 * 1) ≤ usizeMax by decide)
    (axis := .none) false (by simp [AxisArg.Valid, AxisArg.ints]) (by simp)).2 out h

end

end Lacuna
