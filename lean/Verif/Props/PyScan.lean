import Verif.Lemmas.PyScan
import Verif.Props.PyStat
import Verif.Props.PtrCumulative
/-
C77: `cumsum`, `cumprod`, `diff` and `count_nonzero` of objects of the sparse classes, from the arguments
down to the pointer-level kernels, and as the last step of a program.
-/
set_option linter.unusedSectionVars false

namespace Lacuna
variable {V : Type}

/-! ### Cumulative sums and products -/

/-- C77: over a semiring, `cumsum` and `cumprod` of an object that holds a valid matrix, along one of its
axes, under every schedule of the kernels: never undefined behaviour, the dense array of the shape of the matrix whose elements
are the partial sums (products).  A CSC matrix scanned along the rows must not store two entries in a row. -/
theorem py_scan [Semiring V] {env : PyEnv V} (he : env.Ok) {v : SpVal V} (hv : v.Valid) (hs : v.ty.SizeOk v.nnz) (h2 : v.ty.Is2d)
    (op : ScanOp) {axis : AxisArg} {rowwise : Bool} (hx : axis.Single rowwise) (hd : 8 * (v.ty.shape.prod : Int) ≤ i64Max)
    (hap : rowwise = true → v.RowsApart) :
    (∃ out, ScanMethod env op axis v.obj out) ∧
    ∀ out, ScanMethod env op axis v.obj out → ∃ r, out = .ret r ∧ IsScan op.agg rowwise v.ty.shape v.cell r :=
  scan_value he ⟨hv, hs⟩ h2 op hx hd hap

/-- C77: along the rows of any valid CSC matrix: never undefined behaviour, always a dense array of the right
shape and number of elements, and one of the possible outcomes is the right one. -/
theorem py_scan_csc_rows [Semiring V] {env : PyEnv V} (he : env.Ok) {a : Comp V} (hv : a.WF)
    (hs : (SpVal.mat .csc a).ty.SizeOk a.data.length) (op : ScanOp) {axis : AxisArg} (hx : axis.Single true)
    (hd : 8 * ((a.m * a.n : Nat) : Int) ≤ i64Max) :
    (∀ out, ScanMethod env op axis (SpVal.mat .csc a).obj out →
      ∃ r, out = .ret r ∧ r.shape = [a.m, a.n] ∧ r.data.length = a.m * a.n) ∧
    ∃ r, ScanMethod env op axis (SpVal.mat .csc a).obj (.ret r) ∧
      IsScan op.agg true [a.m, a.n] (SpVal.mat .csc a).cell r := by
  have hg : (SpVal.mat .csc a).Good := ⟨hv, hs⟩
  have hw : a.toCsc.WF := hv
  have hm := hg.held.mach
  have hdim := hg.dims
  have hf : a.toCsc.comp.Fits := Comp.WFU.fits_of_machine (Comp.WF.wfu hv) hm
  have key := scanMethod_single (env := env) (op := op) hx (x := (SpVal.mat .csc a).obj) (by simp [SpVal.obj])
  rw [native_csc hg] at key
  have run : ∀ N, a.data.length + 2 ≤ N → ∀ o, op.Run env true N (.csc a.toCsc) o ↔
      ∃ y, (∃ c, CscToCsrRun a.toCsc c ∧ op.Listed env true c y) ∧ o = .ok y := fun N hN o =>
    scan_csc_iff he op true hw hm hdim.2.1 (by show 16 * (a.data.length : Int) ≤ _; omega) hd hN o
  have hlen : ∀ c y, CscToCsrRun a.toCsc c → op.Listed env true c y → y.length = a.m * a.n := by
    intro c y hc hy
    obtain ⟨c1, c2, c3, c4, c5⟩ := csc_to_csr_held hw hm hdim.2.1 hc
    have c1 : c.nrows = a.m := c1
    have c2 : c.ncols = a.n := c2
    obtain ⟨z, hz, hl⟩ := scanRows_length op (env := env) c4 (by rw [c1, c2]; exact hd)
    have : z = y := by cases op <;> exact Option.some.inj (Eq.trans (Eq.symm hz) hy)
    rw [← this, hl, c1, c2]
  have hsa : ∀ y : List V, y.length = a.m * a.n → scanArray a.m a.n y = .ret ⟨[a.m, a.n], y⟩ := fun y hy =>
    scanArray_ok hd (by omega) (by omega) hy
  constructor
  · intro out hout
    obtain ⟨p, ⟨o, ho, rfl⟩, rfl⟩ := (key out).1 hout
    obtain ⟨N₀, hN⟩ := ho
    obtain ⟨y, ⟨c, hc, hy⟩, rfl⟩ := (run (max N₀ (a.data.length + 2)) (by omega) o).1 (hN _ (by omega))
    have := hlen c y hc hy
    exact ⟨⟨[a.m, a.n], y⟩, hsa y this, rfl, this⟩
  · have hus : a.toCsc.nrows * a.toCsc.ncols ≤ usizeMax := usize_of_bytes hd
    have fin : ∀ c y, CscToCsrRun a.toCsc c → op.Listed env true c y → IsScanRows op.agg a.m a.n a.toCsc.val y →
        ∃ r, ScanMethod env op axis (SpVal.mat .csc a).obj (.ret r) ∧
          IsScan op.agg true [a.m, a.n] (SpVal.mat .csc a).cell r := by
      intro c y hc hy hr
      refine ⟨⟨[a.m, a.n], y⟩, (key _).2 ⟨.ret y, ⟨.ok y, ⟨_, fun N hN => (run N hN _).2 ⟨y, ⟨c, hc, hy⟩, rfl⟩⟩, rfl⟩, ?_⟩,
        a.m, a.n, rfl, rfl, hr⟩
      exact (hsa y (hlen c y hc hy)).symm
    cases op
    · obtain ⟨⟨c, hc, hw'⟩, h⟩ := cumsum_csc_axis1_sorted hw hf hus
      obtain ⟨y, hy, hr⟩ := h c hc hw'
      exact fin c y hc hy hr
    · obtain ⟨⟨c, hc, hw'⟩, h⟩ := cumprod_csc_axis1_sorted hw hf hus
      obtain ⟨y, hy, hr⟩ := h c hc hw'
      exact fin c y hc hy hr

section
variable [Zero V] [One V] [Add V] [Mul V]

/-- C77: for any matrix object, valid or not: an axis that does not exist and both axes at once raise
`ValueError`; no axis (`axis=None`, `axis=()`) raises `NotImplementedError`.  A `COOND` always raises it. -/
theorem py_scan_rejects (env : PyEnv V) (op : ScanOp) {x : PyObj V} (hx : ∀ a, x ≠ .nd a) :
    (∀ axis : AxisArg, axis ≠ .none → ¬ axis.Valid 2 → ∀ out, ScanMethod env op axis x out ↔ out = .raises .valueError) ∧
    (∀ axis : AxisArg, axis ≠ .none → axis.Valid 2 → axis.covers 2 0 = true → axis.covers 2 1 = true →
      ∀ out, ScanMethod env op axis x out ↔ out = .raises .valueError) ∧
    (∀ out, ScanMethod env op .none x out ↔ out = .raises .notImplemented) ∧
    (∀ out, ScanMethod env op (.many []) x out ↔ out = .raises .notImplemented) ∧
    (∀ axis a out, ScanMethod env op axis (.nd a : PyObj V) out ↔ out = .raises .notImplemented) := by
  have unf : ∀ axis out, ScanMethod env op axis x out ↔ (match normalizeAxes2d axis with
    | .error e => out = .raises e
    | .ok norm =>
      if norm = none ∨ norm = some [] then out = .raises .notImplemented
      else if norm = some [0] then
        ∃ p, NativeCall (x.native (fun _ => .parts) .parts) (fun N a => op.Run env false N a) p ∧
          out = p.bind (scanArray x.dims.1 x.dims.2)
      else if norm = some [1] then
        ∃ p, NativeCall (x.native (fun _ => .parts) .parts) (fun N a => op.Run env true N a) p ∧
          out = p.bind (scanArray x.dims.1 x.dims.2)
      else out = .raises .valueError) := by
    intro axis out
    cases x with
    | mat f a => exact Iff.rfl
    | coo a => exact Iff.rfl
    | nd a => exact absurd rfl (hx a)
  refine ⟨fun axis hn h out => ?_, fun axis hn h h0 h1 out => ?_, fun out => ?_, fun out => ?_, fun _ _ _ => Iff.rfl⟩
  · rw [unf, normalizeAxes2d_eq, normalizeAxesNd_invalid 2 axis h]
  · rw [unf, normalizeAxes2d_eq, normalizeAxesNd_eq 2 axis hn h]
    simp [List.range_succ, h0, h1]
  · rw [unf]; rfl
  · rw [unf]; rfl

end

/-- C77, negative part: `cumsum(x, axis=1)` and `cumprod(x, axis=1)` of the `CSC` matrix `[5, 7]` can return
`[12, 12]` and `[0, 0]`; the right results are `[5, 12]` and `[5, 35]`. -/
theorem py_scan_csc_wrong (dbg : Bool) :
    (SpVal.mat .csc exTwoCols.comp).Valid ∧
    ScanMethod (exEnvAny Int dbg) .sum (.one 1) (SpVal.mat .csc exTwoCols.comp).obj (.ret ⟨[1, 2], [12, 12]⟩) ∧
    ScanMethod (exEnvAny Int dbg) .prod (.one 1) (SpVal.mat .csc exTwoCols.comp).obj (.ret ⟨[1, 2], [0, 0]⟩) ∧
    (SpVal.mat .csc exTwoCols.comp).cell [0, 0] = 5 ∧ (SpVal.mat .csc exTwoCols.comp).cell [0, 1] = 7 := by
  have hw : (SpVal.mat .csc exTwoCols.comp).Valid := exTwoCols_wf
  have hg : (SpVal.mat .csc exTwoCols.comp).Good := ⟨hw, show Ty.SizeOk 2 (.mat .csc 1 2) by decide⟩
  have hx : (AxisArg.one 1).Single true := ⟨by simp [AxisArg.Valid, AxisArg.ints], by decide, by decide⟩
  have main : ∀ (op : ScanOp) (y : List Int), (∃ c, CscToCsrRun exTwoCols c ∧ op.Listed (exEnvAny Int dbg) true c y) →
      y.length = 2 →
      ScanMethod (exEnvAny Int dbg) op (.one 1) (SpVal.mat .csc exTwoCols.comp).obj (.ret ⟨[1, 2], y⟩) := by
    intro op y hy hl
    rw [scanMethod_single hx (by simp [SpVal.obj]), native_csc hg]
    refine ⟨.ret y, ⟨.ok y, ⟨4, fun N hN => ?_⟩, rfl⟩, (scanArray_ok (n := 1) (m := 2) (by decide) (by decide) (by decide) hl).symm⟩
    exact (scan_csc_iff (exEnvAny_ok Int dbg) op true (a := exTwoCols) exTwoCols_wf hg.held.mach (by decide) (by decide) (by decide)
      hN _).2 ⟨y, hy, rfl⟩
  obtain ⟨-, -, ⟨c, h1, h2⟩, ⟨d, h3, h4⟩, h5, h6⟩ := cumulative_csc_axis1_wrong
  exact ⟨hw, main .sum _ ⟨c, h1, h2⟩ rfl, main .prod _ ⟨d, h3, h4⟩ rfl, h5, h6⟩

/-- C77, negative part: a valid `CSR` matrix with five stored entries, but more than 2⁶⁴ cells.  The size
of the dense result wraps around: built without overflow checks, `cumsum(x, axis=1)` and `cumprod(x, axis=1)` write past the end of the result; built with them, they panic. -/
theorem py_scan_size_wraps (out : PyRes (NdArr Int)) :
    (SpVal.mat .csr exWrap.comp).Valid ∧
    (∀ op, ScanMethod (exEnvAny Int false) op (.one 1) (SpVal.mat .csr exWrap.comp).obj out ↔ out = .ub) ∧
    (∀ op, ScanMethod (exEnvAny Int true) op (.one 1) (SpVal.mat .csr exWrap.comp).obj out ↔ out = .raises .panic) := by
  have hm : exWrap.comp.Machine := ⟨by decide, by decide, by decide, by decide⟩
  have hx : (AxisArg.one 1).Single true := ⟨by simp [AxisArg.Valid, AxisArg.ints], by decide, by decide⟩
  have hnat : (SpVal.mat .csr exWrap.comp).obj.native (fun _ => .parts) .parts = .ok (.csr exWrap) := rfl
  have main : ∀ (dbg : Bool) (op : ScanOp) (f : Fault),
      (∀ N, 7 ≤ N → ∀ o, op.Kernel (exEnvAny Int dbg) true N exWrap o ↔ o = .error f) →
      (ScanMethod (exEnvAny Int dbg) op (.one 1) (SpVal.mat .csr exWrap.comp).obj out ↔
        out = (PyRes.ofKernel (.error f : Except Fault (List Int))).bind (scanArray 5 3689348814741910324)) := by
    intro dbg op f hk
    rw [scanMethod_single hx (by simp [SpVal.obj]), hnat]
    constructor
    · rintro ⟨p, ⟨o, ⟨N₀, hN⟩, rfl⟩, rfl⟩
      rw [(hk (max N₀ 7) (by omega) o).1 (hN _ (by omega))]; rfl
    · rintro rfl
      exact ⟨_, ⟨.error f, ⟨7, fun N hN => (hk N hN _).2 rfl⟩, rfl⟩, rfl⟩
  refine ⟨exWrap_wf, fun op => ?_, fun op => ?_⟩
  · cases op
    · exact main false .sum .ub fun N hN o => cumsum_size_wraps exWrap_wf hm (L := 4) (by decide) (by decide)
        (by decide) (by decide) (by decide) (by decide) (by decide) (by show 5 < N; omega) o
    · exact main false .prod .ub fun N hN o => cumprod_size_wraps exWrap_wf hm (L := 4) (by decide) (by decide)
        (by decide) (by decide) (by decide) (by decide) (by show 5 + 1 < N; omega) o
  · cases op
    · exact main true .sum .panic fun N hN o => by
        show CumsumAxis1Ptr true N exWrap o ↔ _
        exact cum_size_debug (a := exWrap) (by decide) _ o
    · exact main true .prod .panic fun N hN o => by
        show CumprodAxis1Ptr true N exWrap o ↔ _
        exact cum_size_debug (a := exWrap) (by decide) _ o

/-! ### Differences -/

/-- C77: over an abelian group, `diff(x, n=n, axis=axis)` of an object that holds a valid matrix, under every
schedule of the kernels: never undefined behaviour, an object of the same class that holds the `n`-th differences.  The result
is valid, except that the lines of a CSC result may be unsorted. -/
theorem py_diff [BEq V] [LawfulBEq V] [AddCommGroup V] {env : PyEnv V} (he : env.Ok) {v : SpVal V} (hv : v.Valid)
    (hs : v.ty.SizeOk v.nnz) (h2 : v.ty.Is2d) {axis : Int} {rowwise : Bool}
    (hx : if rowwise then axis = 1 ∨ axis = -1 else axis = 0 ∨ axis = -2) {n : Nat} (hn : n ≤ usizeMax)
    (hd : 32 * (v.ty.shape.prod : Int) ≤ i64Max) :
    (∃ w : SpVal V, w.Valid ∧ DiffMethod env n axis v.obj (.ret w.obj)) ∧
    ∀ out, DiffMethod env n axis v.obj out → ∃ w : SpVal V, out = .ret w.obj ∧ w.IsDiffOf v rowwise n := by
  obtain ⟨⟨⟨o, ho⟩, h⟩, hc⟩ := diff_value he ⟨hv, hs⟩ h2 hx hn hd
  refine ⟨?_, fun out hout => ?_⟩
  · by_cases hcsc : ∃ a, v = .mat .csc a
    · exact hc hcsc
    · obtain ⟨y, rfl, w, rfl, hw⟩ := h o ho
      exact ⟨w, (hw.valid fun a ha => hcsc ⟨a, ha⟩).1, ho⟩
  · obtain ⟨y, rfl, w, rfl, hw⟩ := h out hout
    exact ⟨w, rfl, hw⟩

section
variable [Zero V] [Add V] [Neg V] [BEq V]

/-- C77: what `diff` rejects, for any matrix object, valid or not: an axis outside -2 … 1 raises `ValueError`; with an
axis that exists, a negative `n` or one that is no `usize` raises `OverflowError`.  A `COOND` always raises
`NotImplementedError`. -/
theorem py_diff_rejects (env : PyEnv V) (n axis : Int) (out : PyRes (PyObj V)) :
    (∀ x : PyObj V, (∀ a, x ≠ .nd a) →
      ((axis < -2 ∨ 1 < axis) → (DiffMethod env n axis x out ↔ out = .raises .valueError)) ∧
      (-2 ≤ axis → axis ≤ 1 → (n < 0 ∨ (usizeMax : Int) < n) → (DiffMethod env n axis x out ↔ out = .raises .overflowError))) ∧
    (∀ a, DiffMethod env n axis (.nd a : PyObj V) out ↔ out = .raises .notImplemented) := by
  refine ⟨fun x hx => ⟨fun ha => ?_, fun h3 h4 hn => ?_⟩, fun _ => Iff.rfl⟩
  · have : ¬ (axis = -2 ∨ axis = -1 ∨ axis = 0 ∨ axis = 1) := by omega
    cases x with
    | mat f a => show (if _ then _ else _) ↔ _; rw [if_pos this]
    | coo a => show (if _ then _ else _) ↔ _; rw [if_pos this]
    | nd a => exact absurd rfl (hx a)
  · have hax : ¬ ¬ (axis = -2 ∨ axis = -1 ∨ axis = 0 ∨ axis = 1) := by omega
    have harg : ∀ {α : Type} (a : Except PyErr α), diffArgs a n = .error .overflowError := by
      intro α a
      unfold diffArgs pyUsize
      rw [if_neg (by omega)]; rfl
    cases x with
    | mat f a =>
      show (if _ then _ else _) ↔ _
      rw [if_neg hax]
      cases f with
      | csr => simp only []; rw [harg]
      | csc => simp only []; rw [harg]
    | coo a =>
      show (if _ then _ else _) ↔ _
      rw [if_neg hax]
      rw [harg]
    | nd a => exact absurd rfl (hx a)

end

/-- The `CSC` matrix `[[0, 1], [0, 2]]`. -/
def exDiffCsc : Comp Int := ⟨2, 2, [0, 0, 2], [0, 1], [1, 2]⟩
theorem exDiffCsc_wf : exDiffCsc.WF :=
  ((csr_fromParts_iff 2 2 [0, 0, 2] [0, 1] [(1 : Int), 2] (by decide) ⟨2, 2, [0, 0, 2], [0, 1], [1, 2]⟩).1 rfl).2.2

/-- C77, negative part: `diff` of a valid `CSC` matrix can return an object with unsorted row indices. -/
theorem py_diff_csc_unsorted (dbg : Bool) :
    (SpVal.mat .csc exDiffCsc).Valid ∧ ∃ w : SpVal Int,
      DiffMethod (exEnvAny Int dbg) 1 1 (SpVal.mat .csc exDiffCsc).obj (.ret w.obj) ∧
      w = .mat .csc ⟨1, 2, [0, 2], [1, 0], [2, 1]⟩ ∧ ¬ w.Valid := by
  have hw : exDiffCsc.toCsc.WF := exDiffCsc_wf
  have hg : (SpVal.mat .csc exDiffCsc).Good := ⟨exDiffCsc_wf, show Ty.SizeOk 2 (.mat .csc 2 2) by decide⟩
  have hb : (⟨2, 1, [0, 1, 2], [0, 0], [1, 2]⟩ : Csr Int).WF :=
    ((csr_fromParts_iff 2 1 [0, 1, 2] [0, 0] [(1 : Int), 2] (by decide) _).1 rfl).2.2
  have hc1 : CscToCsrRun exDiffCsc.toCsc ⟨2, 2, [0, 1, 2], [1, 1], [1, 2]⟩ :=
    atomicFill_of (Comp.WF.wfu exDiffCsc_wf) ⟨by decide, by decide⟩
      (show Interleaving _ [(1, (0, 1)), (1, (1, 2))] from ⟨by decide, by decide⟩)
  have hc2 : CsrToCscRun ⟨2, 1, [0, 1, 2], [0, 0], [1, 2]⟩ ⟨2, 1, [0, 2], [1, 0], [2, (1 : Int)]⟩ :=
    atomicFill_of (Comp.WF.wfu hb) ⟨by decide, by decide⟩
      (show Interleaving _ [(1, (0, 2)), (0, (0, 1))] from ⟨by decide, by decide⟩)
  have hd : DiffCsrAxis1Run (exEnvAny Int dbg).ndSort 1 ⟨2, 2, [0, 1, 2], [1, 1], [1, 2]⟩
      (⟨2, 1, [0, 1, 2], [0, 0], [1, 2]⟩ : Csr Int) := by
    unfold DiffCsrAxis1Run
    simp only []
    rw [if_neg (by decide)]
    refine ⟨[[(0, 1)], [(0, 2)]], by cases dbg <;> decide +kernel, by decide, [[(0, 1)], [(0, 2)]], by decide +kernel, ?_⟩
    exact ⟨_, _, List.Perm.refl _, List.Perm.refl _, by decide⟩
  have hrun : DiffCscAxis1Run (exEnvAny Int dbg).ndSort 1 exDiffCsc.toCsc ⟨2, 1, [0, 2], [1, 0], [2, 1]⟩ :=
    ⟨_, _, hc1, hd, hc2⟩
  refine ⟨exDiffCsc_wf, _, ?_, rfl, fun h => ?_⟩
  · unfold DiffMethod
    simp only [SpVal.obj]
    rw [if_neg (by decide)]
    rw [hg.held.operand, show (1 : Int) = ((1 : Nat) : Int) from rfl, diffArgs_ok _ (by decide)]
    refine ⟨.ok ⟨2, 1, [0, 2], [1, 0], [2, 1]⟩, ⟨5, fun N hN => ?_⟩, rfl⟩
    exact (diff_csc_axis1_ptr (exEnvAny_ok Int dbg).nd hw hg.held.mach (by decide) (by decide) (by show 2 < N; omega) dbg _).2
      ⟨_, hrun, rfl⟩
  · exact absurd ((show Comp.WF _ from h).sorted 0 (by decide) 0 1 (by decide) (by decide) (by decide)) (by decide)

/-! ### Counts -/

/-- C77: `count_nonzero` of an object that holds a valid matrix without stored zeros, no cell twice, counts
the nonzero elements. -/
theorem py_count [AddZeroClass V] [BEq V] (h0 : ((0 : V) == 0) = true) {v : SpVal V} (hv : v.Valid) (h2 : v.ty.Is2d)
    (hon : v.Once) (hz : v.NoZeros) {axis : AxisArg} (keep : Bool) (ha : axis.Valid 2) (hne : axis ≠ .many []) :
    ∃ r, (∀ out, CountMethod axis keep v.obj out ↔ out = .ret r) ∧
      IsReduction v.ty.shape (axis.covers 2) keep (fun l r => r = (countNz l : Int)) v.cell r :=
  count_value h0 hv h2 hon hz keep ha hne

/-- C77, negative part: a stored zero is counted, and an entry stored twice is counted twice. -/
theorem py_count_wrong (out : PyRes (NdArr Int)) :
    (CountMethod .none false (SpVal.mat .csr (⟨1, 2, [0, 2], [0, 1], [5, 0]⟩ : Comp Int)).obj out ↔ out = .ret ⟨[], [2]⟩) ∧
    (CountMethod .none false (SpVal.coo (⟨1, 1, [0, 0], [0, 0], [5, -5]⟩ : Coo Int)).obj out ↔ out = .ret ⟨[], [2]⟩) ∧
    countNz ((List.range 2).map fun j : Nat => (SpVal.mat .csr (⟨1, 2, [0, 2], [0, 1], [5, 0]⟩ : Comp Int)).cell [0, (j : Int)]) = 1 ∧
    (SpVal.coo (⟨1, 1, [0, 0], [0, 0], [5, -5]⟩ : Coo Int)).cell [0, 0] = 0 :=
  ⟨Iff.rfl, Iff.rfl, by decide, by decide⟩

/-! ### Programs -/

section
variable [Zero V] [One V] [Add V] [Sub V] [Mul V] [Div V] [Neg V] [BEq V] [NatCast V] [HasFinite V]
  [HasFloor V] [HasPowf V] [HasAbs V] [HasLt V] [HasNan V]

/-- C77: if the program raises an exception, so does the program with the operation in the end. -/
theorem prog_scan_raises {env : PyEnv V} (he : env.Ok) {e : Prog V} (hl : e.LitsOk) (hs : e.Small) {x : PyErr}
    (hc : e.check = .error x) :
    (∀ op axis out, e.Scan env op axis out ↔ out = .raises x) ∧
    (∀ n axis out, e.Diff env n axis out ↔ out = .raises x) ∧
    (∀ axis keep out, e.Count env axis keep out ↔ out = .raises x) := by
  obtain ⟨h1, h2⟩ := Prog.step he hl hs
  rw [hc] at h1
  have h1 : e.value env = .error x := h1
  rw [h1] at h2
  have h2 : ∀ o, e.Eval env o ↔ o = .raises x := h2
  have main : ∀ {β : Type} (k : PyObj V → PyRes β → Prop) (out : PyRes β),
      (∃ o, e.Eval env o ∧ o.Then k out) ↔ out = .raises x := by
    intro β k out
    constructor
    · rintro ⟨o, ho, h⟩; rw [(h2 o).1 ho] at h; exact h
    · rintro rfl; exact ⟨_, (h2 _).2 rfl, rfl⟩
  exact ⟨fun _ _ out => main _ out, fun _ _ out => main _ out, fun _ _ out => main _ out⟩

end

/-- Stored zeros are visible on the object. -/
theorem SpVal.noZeros_obj [Zero V] [BEq V] {v w : SpVal V} (h : v.obj = w.obj) (hz : v.NoZeros) : w.NoZeros := by
  cases v with
  | mat f a =>
    cases w with
    | mat g b =>
      have : (PyMat.of f a).data = (PyMat.of g b).data := by injection h with h1 h2; rw [h2]
      have : a.data = b.data := by cases f <;> cases g <;> exact this
      intro x hx; exact hz x (this ▸ hx)
    | coo b => cases h
    | nd b => cases h
  | coo a =>
    cases w with
    | mat g b => cases h
    | coo b =>
      have : (PyCoo.of a).data = (PyCoo.of b).data := by injection h with h; rw [h]
      intro x hx; exact hz x (show x ∈ (PyCoo.of a).data from this ▸ hx)
    | nd b => cases h
  | nd a =>
    cases w with
    | mat g b => cases h
    | coo b => cases h
    | nd b =>
      have : (PyNd.of a).data = (PyNd.of b).data := by injection h with h; rw [h]
      intro x hx; exact hz x (show x ∈ (PyNd.of a).data from this ▸ hx)

theorem IsScan.congr [Zero V] {agg : List V → V} {rowwise : Bool} {shape : List Nat} {f g : List Int → V} {r : NdArr V}
    (h : IsScan agg rowwise shape f r) (hfg : ∀ x, InBounds shape x → f x = g x) : IsScan agg rowwise shape g r := by
  obtain ⟨n, m, rfl, hr, h⟩ := h
  have hb : ∀ i j : Nat, i < n → j < m → f [(i : Int), (j : Int)] = g [(i : Int), (j : Int)] := fun i j hi hj =>
    hfg _ (.cons ⟨by omega, by omega⟩ (.cons ⟨by omega, by omega⟩ .nil))
  refine ⟨n, m, rfl, hr, ?_⟩
  cases rowwise
  · refine ⟨h.1, fun i j hi hj => (h.2 i j hi hj).trans (congrArg agg (List.map_congr_left fun k hk => ?_))⟩
    exact hb k j (by have := List.mem_range.1 hk; omega) hj
  · refine ⟨h.1, fun i j hi hj => (h.2 i j hi hj).trans (congrArg agg (List.map_congr_left fun k hk => ?_))⟩
    exact hb i k hi (by have := List.mem_range.1 hk; omega)

theorem diffCells_congr [Sub V] {rowwise : Bool} {n r c : Nat} {f g : List Int → V} (hfg : ∀ x, InBounds [r, c] x → f x = g x)
    {x : List Int} (hx : InBounds (if rowwise then [r, c - n] else [r - n, c]) x) :
    diffCells rowwise n f x = diffCells rowwise n g x := by
  have hb : ∀ i j : Nat, i < r → j < c → f [(i : Int), (j : Int)] = g [(i : Int), (j : Int)] := fun i j hi hj =>
    hfg _ (.cons ⟨by omega, by omega⟩ (.cons ⟨by omega, by omega⟩ .nil))
  cases rowwise
  · obtain ⟨i, j, hi, hj, rfl⟩ := inBounds_two (show InBounds [r - n, c] x from hx)
    exact diffN_congr n fun k _ hk => hb k j (by have : ((i : Int)).toNat = i := rfl; omega) hj
  · obtain ⟨i, j, hi, hj, rfl⟩ := inBounds_two (show InBounds [r, c - n] x from hx)
    exact diffN_congr n fun k _ hk => hb i k hi (by have : ((j : Int)).toNat = j := rfl; omega)

section
variable [Field V] [LinearOrder V] [IsStrictOrderedRing V] [FloorRing V] [BEq V] [LawfulBEq V] [HasFinite V]
  [HasFloor V] [HasPowf V] [HasAbs V] [HasLt V] [HasNan V] [IdealOrd V]

/-- C77: let the arithmetic be exact.  A program whose value is a matrix, with `cumsum` or `cumprod` along one
axis in the end: every run returns the partial sums (products) of the array the program denotes, unless the value is a CSC
matrix and the axis is 1. -/
theorem prog_scan (hfin : ∀ v : V, isFinite v = true) (hfl : ∀ v : V, HasFloor.floor v = (⌊v⌋ : V)) {env : PyEnv V}
    (he : env.Ok) {e : Prog V} (hl : e.LitsOk) (hs : e.Small) (hx : e.Exact) {τ : Ty} (hc : e.check = .ok τ) (h2 : τ.Is2d)
    (op : ScanOp) {axis : AxisArg} {rowwise : Bool} (ha : axis.Single rowwise) (hd : 8 * (τ.shape.prod : Int) ≤ i64Max)
    (hcsc : rowwise = true → ∀ r c, τ ≠ .mat .csc r c) :
    (∃ out, e.Scan env op axis out) ∧
    ∀ out, e.Scan env op axis out → ∃ r, out = .ret r ∧ IsScan op.agg rowwise τ.shape e.cells r := by
  let _ : HasMinMax V := ⟨min, max, min, max, 0, 0⟩
  let _ : HasSqrt V := ⟨id⟩
  obtain ⟨w, hv, hs', rfl, -, hcell, hev⟩ := prog_value hfin hfl he hl hs hx hc
  have hap : rowwise = true → w.RowsApart := by
    intro hr
    cases w with
    | mat f a =>
      cases f with
      | csr => trivial
      | csc => exact absurd rfl (hcsc hr a.m a.n)
    | coo a => trivial
    | nd a => trivial
  obtain ⟨⟨out, ho⟩, h⟩ := py_scan he hv hs' h2 op ha hd hap
  refine ⟨⟨out, _, (hev _).2 rfl, ho⟩, ?_⟩
  rintro out ⟨o, ho, hout⟩
  rw [(hev o).1 ho] at hout
  obtain ⟨r, e1, hr⟩ := h out hout
  exact ⟨r, e1, hr.congr hcell⟩

/-- C77: the same with `diff` in the end: every run returns an object of the type of the differences whose
elements are the differences of the array the program denotes; unless it is a CSC matrix it is valid. -/
theorem prog_diff (hfin : ∀ v : V, isFinite v = true) (hfl : ∀ v : V, HasFloor.floor v = (⌊v⌋ : V)) {env : PyEnv V}
    (he : env.Ok) {e : Prog V} (hl : e.LitsOk) (hs : e.Small) (hx : e.Exact) {τ : Ty} (hc : e.check = .ok τ) (h2 : τ.Is2d)
    {axis : Int} {rowwise : Bool} (ha : if rowwise then axis = 1 ∨ axis = -1 else axis = 0 ∨ axis = -2)
    {n : Nat} (hn : n ≤ usizeMax) (hd : 32 * (τ.shape.prod : Int) ≤ i64Max) :
    (∃ out, e.Diff env n axis out) ∧
    ∀ out, e.Diff env n axis out → ∃ w : SpVal V, out = .ret w.obj ∧ w.ty = τ.diff rowwise n ∧
      ((∀ r c, τ ≠ .mat .csc r c) → w.Valid) ∧
      ∀ x, InBounds w.ty.shape x → w.cell x = diffCells rowwise n e.cells x := by
  let _ : HasMinMax V := ⟨min, max, min, max, 0, 0⟩
  let _ : HasSqrt V := ⟨id⟩
  obtain ⟨w, hv, hs', rfl, -, hcell, hev⟩ := prog_value hfin hfl he hl hs hx hc
  obtain ⟨⟨y, -, hy⟩, h⟩ := py_diff he hv hs' h2 ha hn hd
  refine ⟨⟨_, _, (hev _).2 rfl, hy⟩, ?_⟩
  rintro out ⟨o, ho, hout⟩
  rw [(hev o).1 ho] at hout
  obtain ⟨z, e1, hz⟩ := h out hout
  refine ⟨z, e1, hz.ty, fun hne => (hz.valid fun a ha => ?_).1, fun x hxb => (hz.cell x hxb).trans ?_⟩
  · rw [ha] at hne; exact hne a.m a.n rfl
  · have hsh : ∃ r c, w.ty.shape = [r, c] ∧ z.ty.shape = if rowwise then [r, c - n] else [r - n, c] := by
      rw [hz.ty]
      cases w with
      | mat f a => cases f <;> cases rowwise <;> exact ⟨_, _, rfl, rfl⟩
      | coo a => cases rowwise <;> exact ⟨_, _, rfl, rfl⟩
      | nd a => exact absurd h2 id
    obtain ⟨r, c, k1, k2⟩ := hsh
    rw [k2] at hxb
    rw [k1] at hcell
    exact diffCells_congr hcell hxb

/-- C77: the same with `eliminate_zeros()` and then `count_nonzero` in the end, if the value of the program
stores no coordinate twice: every run returns the numbers of nonzero elements of the array the program denotes. -/
theorem prog_count (hfin : ∀ v : V, isFinite v = true) (hfl : ∀ v : V, HasFloor.floor v = (⌊v⌋ : V)) {env : PyEnv V}
    (he : env.Ok) {e : Prog V} (hl : e.LitsOk) (hs : (Prog.elimZeros e).Small) (hx : e.Exact) (hd : e.Distinct) {τ : Ty} (hc : e.check = .ok τ)
    (h2 : τ.Is2d) {axis : AxisArg} (keep : Bool) (ha : axis.Valid 2) (hne : axis ≠ .many []) :
    ∃ r, (∀ out, (Prog.elimZeros e).Count env axis keep out ↔ out = .ret r) ∧
      IsReduction τ.shape (axis.covers 2) keep (fun l r => r = (countNz l : Int)) e.cells r := by
  let _ : HasMinMax V := ⟨min, max, min, max, 0, 0⟩
  let _ : HasSqrt V := ⟨id⟩
  obtain ⟨v, vv, vs, rfl, -, -, vev⟩ := prog_value hfin hfl he hl hs.1 hx hc
  have hp : v.ty.prune = .ok v.ty := by
    cases v with
    | mat f a => rfl
    | coo a => rfl
    | nd a => exact absurd h2 id
  have hc' : (Prog.elimZeros e).check = .ok v.ty := by
    show (e.check.bind Ty.prune) = _
    rw [hc]; exact hp
  obtain ⟨w, hv, hs', hty, hon, hcell, hev⟩ := prog_value hfin hfl he (e := .elimZeros e) hl hs hx hc'
  have hobj : (v.prune 0).obj = w.obj := by
    have : (Prog.elimZeros e).Eval env (.ret (v.prune 0).obj) :=
      ⟨_, (vev _).2 rfl, (pruneMethod_iff env 0 ⟨vv, vs⟩ hp _).2 rfl⟩
    injection (hev _).1 this
  have hz : w.NoZeros := SpVal.noZeros_obj hobj (prune_noZeros h2)
  obtain ⟨r, h1, h3⟩ := py_count (by simp) hv (by rw [hty]; exact h2) (hon hd) hz keep ha hne
  rw [hty] at h3
  refine ⟨r, fun out => ?_, isReduction_congr h3 hcell⟩
  rw [← h1 out]
  constructor
  · rintro ⟨o, ho, hout⟩; rw [(hev o).1 ho] at hout; exact hout
  · exact fun hout => ⟨_, (hev _).2 rfl, hout⟩

end

/-! ### examples -/

attribute [local instance] decAxisValid

section
attribute [local instance] meaningHasFinite meaningHasFloor meaningHasPowf meaningHasLt meaningHasAbs meaningHasNan meaningIdealOrd

/-- `cumsum(program, axis=-1)` for the program of C74, `[[10, -2, -21], [-9/2, 0, 0]]`. -/
example (dbg : Bool) : (∃ out, exCalc.Scan (exEnvQ dbg) .sum (.one (-1)) out) ∧
    ∀ out, exCalc.Scan (exEnvQ dbg) .sum (.one (-1)) out →
      ∃ r, out = .ret r ∧ r.shape = [2, 3] ∧ r.data.getD 2 0 = (-13 : ℚ) ∧ r.data.getD 5 0 = (-9 / 2 : ℚ) := by
  obtain ⟨h1, h2⟩ := prog_scan (fun _ => rfl) (fun _ => rfl) (exEnvQ_ok dbg) exCalc_lits exCalc_small exCalc_exact exCalc_type
    trivial .sum (axis := .one (-1)) (rowwise := true) ⟨by decide, by decide, by decide⟩ (by decide) (by simp)
  refine ⟨h1, fun out h => ?_⟩
  obtain ⟨r, e, n, m, hsh, hr, -, hs⟩ := h2 out h
  have h2 : n = 2 ∧ m = 3 := by cases hsh; exact ⟨rfl, rfl⟩
  obtain ⟨rfl, rfl⟩ := h2
  refine ⟨r, e, hr, ?_, ?_⟩
  · rw [hs 0 2 (by decide) (by decide)]; decide +kernel
  · rw [hs 1 2 (by decide) (by decide)]; decide +kernel

/-- `cumprod(x, axis=(0,))` of a `CSC` matrix, `[[2, 0], [3, 4]]`. -/
example (dbg : Bool) : ∀ out, ScanMethod (exEnvAny Int dbg) .prod (.many [0])
      (SpVal.mat .csc (⟨2, 2, [0, 2, 3], [0, 1, 1], [2, 3, 4]⟩ : Comp Int)).obj out →
    ∃ r, out = .ret r ∧ r.shape = [2, 2] ∧ r.data.getD 2 0 = 6 ∧ r.data.getD 3 0 = 0 := by
  intro out h
  have hw : (⟨2, 2, [0, 2, 3], [0, 1, 1], [2, 3, 4]⟩ : Comp Int).WF :=
    ((csc_fromParts_iff 2 2 [0, 2, 3] [0, 1, 1] [(2 : Int), 3, 4] (by decide) ⟨2, 2, [0, 2, 3], [0, 1, 1], [2, 3, 4]⟩).1 rfl).2.2
  obtain ⟨r, e, n, m, hsh, hr, -, hs⟩ := (py_scan (exEnvAny_ok Int dbg) (v := .mat .csc ⟨2, 2, [0, 2, 3], [0, 1, 1], [2, 3, 4]⟩) hw
    (show Ty.SizeOk 3 (.mat .csc 2 2) by decide) trivial .prod (axis := .many [0]) (rowwise := false)
    ⟨by decide, by decide, by decide⟩ (by decide) (by simp)).2 out h
  have h2 : n = 2 ∧ m = 2 := by cases hsh; exact ⟨rfl, rfl⟩
  obtain ⟨rfl, rfl⟩ := h2
  refine ⟨r, e, hr, ?_, ?_⟩
  · rw [hs 1 0 (by decide) (by decide)]; decide
  · rw [hs 1 1 (by decide) (by decide)]; decide

/-- A `CSC` matrix whose rows store one entry each satisfies the condition of `py_scan` along the rows. -/
example : (SpVal.mat .csc (⟨2, 2, [0, 1, 2], [1, 0], [5, 7]⟩ : Comp Int)).RowsApart := by
  intro i j k hj hk
  have bound : ∀ j : Nat, (⟨2, 2, [0, 1, 2], [1, 0], [(5 : Int), 7]⟩ : Comp Int).stored j i ≠ none → j = 1 - i ∧ i ≤ 1 := by
    intro j hj
    obtain ⟨x, hx1, hx2⟩ := Comp.mem_row_of_stored hj
    match j with
    | 0 =>
      have : x = ((1 : Int), (5 : Int)) := by simpa [Comp.row, Comp.ptr, Comp.entries] using hx1
      rw [this] at hx2
      simp at hx2; omega
    | 1 =>
      have : x = ((0 : Int), (7 : Int)) := by simpa [Comp.row, Comp.ptr, Comp.entries] using hx1
      rw [this] at hx2
      simp at hx2; omega
    | j + 2 =>
      simp [Comp.row, Comp.ptr] at hx1
  rw [(bound j hj).1, (bound k hk).1]

/-- `cumsum(x)` without an axis. -/
example (dbg : Bool) (out : PyRes (NdArr Int)) :
    ScanMethod (exEnvAny Int dbg) .sum .none (SpVal.mat .csc exDiffCsc).obj out ↔ out = .raises .notImplemented :=
  (py_scan_rejects (exEnvAny Int dbg) .sum (x := (SpVal.mat .csc exDiffCsc).obj) (fun a h => by cases h)).2.2.1 out

/-- `diff(program, n=2, axis=1)` for the same program. -/
example (dbg : Bool) : ∀ out, exCalc.Diff (exEnvQ dbg) (2 : Nat) 1 out →
    ∃ w : SpVal ℚ, out = .ret w.obj ∧ w.ty = .mat .csr 2 1 ∧ w.Valid ∧ w.cell [0, 0] = -7 ∧ w.cell [1, 0] = -9 / 2 := by
  intro out h
  obtain ⟨w, e, ht, hv, hc⟩ := (prog_diff (fun _ => rfl) (fun _ => rfl) (exEnvQ_ok dbg) exCalc_lits exCalc_small exCalc_exact exCalc_type
    trivial (axis := 1) (rowwise := true) (.inl rfl) (n := 2) (by decide) (by decide)).2 out h
  have hsh : w.ty = .mat .csr 2 1 := ht
  refine ⟨w, e, hsh, hv (by simp), ?_, ?_⟩
  · rw [hc [0, 0] (by rw [hsh]; exact .cons ⟨by omega, by omega⟩ (.cons ⟨by omega, by omega⟩ .nil))]; decide +kernel
  · rw [hc [1, 0] (by rw [hsh]; exact .cons ⟨by omega, by omega⟩ (.cons ⟨by omega, by omega⟩ .nil))]; decide +kernel

/-- `count_nonzero(program.eliminate_zeros(), axis=0)` for the same program. -/
example (dbg : Bool) : ∃ r, (∀ out, (Prog.elimZeros exCalc).Count (exEnvQ dbg) (.one 0) false out ↔ out = .ret r) ∧
    r.shape = [3] ∧ r.data[0]? = some 2 ∧ r.data[2]? = some 1 := by
  obtain ⟨r, h, hr⟩ := prog_count (fun _ => rfl) (fun _ => rfl) (exEnvQ_ok dbg) (e := exCalc) exCalc_lits
    ⟨exCalc_small, by decide +kernel⟩ exCalc_exact (show exCalc.Distinct from trivial) exCalc_type trivial (axis := .one 0) false (by decide) (by simp)
  have hsh : r.shape = [3] := hr.shape_eq
  obtain ⟨r0, c0, p0⟩ := hr.cell [0] (by rw [hsh]; exact .cons ⟨by omega, by omega⟩ .nil)
  obtain ⟨r2, c2, p2⟩ := hr.cell [2] (by rw [hsh]; exact .cons ⟨by omega, by omega⟩ .nil)
  have e0 : r0 = 2 := by rw [p0]; decide +kernel
  have e2 : r2 = 1 := by rw [p2]; decide +kernel
  rw [hsh] at c0 c2
  exact ⟨r, h, hsh, by rw [← e0]; exact c0, by rw [← e2]; exact c2⟩

/-- The differences of a `COO` matrix of ones vanish; nothing is stored for them. -/
example (dbg : Bool) (out : PyRes (PyObj Int))
    (h : DiffMethod (exEnvAny Int dbg) (1 : Nat) (-2) (SpVal.coo (⟨2, 1, [0, 1], [0, 0], [1, 1]⟩ : Coo Int)).obj out) :
    ∃ w : SpVal Int, out = .ret w.obj ∧ w.ty = .coo 1 1 ∧ w.Valid ∧ w.cell [0, 0] = 0 := by
  obtain ⟨w, e, hw⟩ := (py_diff (exEnvAny_ok Int dbg) (v := .coo ⟨2, 1, [0, 1], [0, 0], [1, 1]⟩)
    ⟨⟨rfl, rfl, by decide, by decide⟩, by simp [Coo.I64, i64Max]⟩ (show Ty.SizeOk 2 (.coo 2 1) by decide) trivial (axis := -2)
    (rowwise := false) (.inr rfl) (n := 1) (by decide) (by decide)).2 out h
  have hsh : w.ty = .coo 1 1 := hw.ty
  refine ⟨w, e, hsh, (hw.valid (by simp)).1, ?_⟩
  rw [hw.cell [0, 0] (by rw [hsh]; exact .cons ⟨by omega, by omega⟩ (.cons ⟨by omega, by omega⟩ .nil))]; decide

end

end Lacuna
