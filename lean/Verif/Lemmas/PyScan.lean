import Verif.Spec.PyScan
import Verif.Lemmas.PyStatObj
import Verif.Props.PtrDiff
import Verif.Props.CountNonzero
/-
Cumulative operations, differences and counts of objects that hold valid arrays.
-/
set_option linter.unusedSectionVars false

namespace Lacuna
variable {V : Type}

/-! ### Kernels of the cumulative operations -/

/-- What the kernels return at list level. -/
def ScanOp.Listed [Zero V] [One V] [Add V] [Mul V] (env : PyEnv V) (op : ScanOp) (rowwise : Bool) (a : Csr V) (y : List V) : Prop :=
  match op, rowwise with
  | .sum, true => cumsumAxis1 a = some y
  | .sum, false => CumsumAxis0Run env.pairSort env.threads a y
  | .prod, true => cumprodAxis1 a = some y
  | .prod, false => CumprodAxis0Run env.pairSort env.threads a y

section
variable [Zero V] [One V] [Add V] [Mul V]

theorem scanKernel_iff {env : PyEnv V} (he : env.Ok) (op : ScanOp) (rowwise : Bool) {a : Csr V} (hw : a.WFU) (hd : a.comp.NoRep)
    (hm : a.comp.Machine) (hl : 8 * ((a.ncols : Int) + 1) ≤ i64Max) (h16 : 16 * (a.data.length : Int) ≤ i64Max)
    (hs : 8 * ((a.nrows * a.ncols : Nat) : Int) ≤ i64Max) {N : Nat} (hN : a.data.length + 2 ≤ N) (o : Except Fault (List V)) :
    op.Kernel env rowwise N a o ↔ ∃ y, op.Listed env rowwise a y ∧ o = .ok y := by
  have ht : env.threads < 2 ^ 62 := by have := he.threads; omega
  cases op <;> cases rowwise
  · exact cumsum_axis0_ptr hw hd hm hl h16 hs he.pair ht (by omega) env.dbg o
  · exact cumsum_axis1_ptr (Comp.WFU.ptrOk hw) hm hw.inRange hs (by omega) env.dbg o
  · exact cumprod_axis0_ptr hw hd hm hl h16 hs he.pair ht (by omega) env.dbg o
  · exact cumprod_axis1_ptr (Comp.WFU.ptrOk hw) hm hw.inRange hs (by omega) env.dbg o

end

section
variable [Semiring V]

/-- The kernels on a well-formed matrix. -/
theorem scanList_correct {env : PyEnv V} (he : env.Ok) (op : ScanOp) (rowwise : Bool) {a : Csr V} (ha : a.WF) (hf : a.comp.Fits)
    (hs : a.nrows * a.ncols ≤ usizeMax) :
    (∃ y, op.Listed env rowwise a y) ∧
    ∀ y, op.Listed env rowwise a y → (if rowwise then IsScanRows else IsScanCols) op.agg a.nrows a.ncols a.val y := by
  cases op <;> cases rowwise
  · exact cumsum_axis0_correct he.pair _ ha hf hs
  · obtain ⟨y, h1, h2⟩ := cumsum_axis1_correct ha hs
    refine ⟨⟨y, h1⟩, fun z hz => ?_⟩
    have : y = z := Option.some.inj (h1.symm.trans hz)
    exact this ▸ h2
  · exact cumprod_axis0_correct he.pair _ ha hf hs
  · obtain ⟨y, h1, h2⟩ := cumprod_axis1_correct ha hs
    refine ⟨⟨y, h1⟩, fun z hz => ?_⟩
    have : y = z := Option.some.inj (h1.symm.trans hz)
    exact this ▸ h2

theorem scan_csr_gives {env : PyEnv V} (he : env.Ok) (op : ScanOp) (rowwise : Bool) {a : Csr V} (ha : a.WF)
    (hm : a.comp.Machine) (hl : 8 * ((a.ncols : Int) + 1) ≤ i64Max) (h16 : 16 * (a.data.length : Int) ≤ i64Max)
    (hs : 8 * ((a.nrows * a.ncols : Nat) : Int) ≤ i64Max) :
    Gives (fun N => op.Kernel env rowwise N a)
      ((if rowwise then IsScanRows else IsScanCols) op.agg a.nrows a.ncols a.val) := by
  have hw : a.WFU := Comp.WF.wfu ha
  obtain ⟨h1, h2⟩ := scanList_correct he op rowwise ha (Comp.WFU.fits_of_machine hw hm) (usize_of_bytes hs)
  exact gives_of (a.data.length + 2)
    (fun N hN o => scanKernel_iff he op rowwise hw (Comp.WF.noRep ha) hm hl h16 hs hN o) h1 h2

end

section
variable [Zero V] [One V] [Add V] [Mul V]

/-- The list-level result of the row-wise kernels on unsorted rows. -/
theorem scanRows_length (op : ScanOp) {env : PyEnv V} {a : Csr V} (hw : a.WFU) (hs : 8 * ((a.nrows * a.ncols : Nat) : Int) ≤ i64Max) :
    ∃ y, op.Listed env true a y ∧ y.length = a.nrows * a.ncols := by
  have hc : ∀ i, i < a.nrows → (a.ncols : Int) ≤ i64Max := fun i hi => by
    have : 1 * a.ncols ≤ a.nrows * a.ncols := Nat.mul_le_mul_right _ (by omega)
    omega
  have fin : ∀ {row : List (Int × V) → List V → Option (List V)},
      (∀ i, i < a.nrows → ∃ y, row (a.comp.row i) (List.replicate a.ncols 0) = some y ∧ y.length = a.ncols) →
      ∃ y, cumRows a row = some y ∧ y.length = a.nrows * a.ncols := by
    intro row hrow
    refine ⟨_, cumRows_eq (usize_of_bytes hs)
      (f := fun i j => ((row (a.comp.row i) (List.replicate a.ncols 0)).getD []).getD j 0) fun i hi => ?_, by simp⟩
    obtain ⟨y, h1, h2⟩ := hrow i hi
    exact ⟨y, h1, h2, fun j _ => by rw [h1]; rfl⟩
  cases op
  · refine fin fun i hi => ?_
    obtain ⟨y, -, y2, y3⟩ := cumsumRowE_ok (dbg := false) (m := a.ncols) (out := List.replicate a.ncols (0 : V))
      (by simp) (hc i hi) (hw.inRange i hi)
    exact ⟨y, y2, y3⟩
  · refine fin fun i hi => ?_
    obtain ⟨y, -, y2, y3⟩ := cumprodRowE_ok (dbg := false) (L := a.ncols) (hc i hi) (a.comp.row i)
      ⟨List.replicate a.ncols (0 : V), 0, 1⟩ (by simp) (hw.inRange i hi)
    exact ⟨y, y2, y3⟩

/-- A conversion from CSC in front of a kernel. -/
theorem cscThen_iff {β : Type} {a : Csc V} (ha : a.WF) (hm : a.comp.Machine) (hl : 8 * ((a.nrows : Int) + 1) ≤ i64Max) {dbg : Bool}
    {K : Csr V → Except Fault β → Prop} {R : Csr V → β → Prop}
    (hK : ∀ c, CscToCsrRun a c → ∀ o, K c o ↔ ∃ y, R c y ∧ o = .ok y) (out : Except Fault β) :
    (∃ oc, CscToCsrPtr dbg a oc ∧
      (match oc with
      | .error x => out = .error x
      | .ok c => K c out)) ↔ ∃ y, (∃ c, CscToCsrRun a c ∧ R c y) ∧ out = .ok y := by
  have key := csc_to_csr_ptr (Comp.WF.wfu ha) hm hl dbg
  constructor
  · rintro ⟨oc, hoc, h⟩
    obtain ⟨c, hc, rfl⟩ := (key oc).1 hoc
    obtain ⟨y, hy, rfl⟩ := (hK c hc out).1 h
    exact ⟨y, ⟨c, hc, hy⟩, rfl⟩
  · rintro ⟨y, ⟨c, hc, hy⟩, rfl⟩
    exact ⟨.ok c, (key _).2 ⟨c, hc, rfl⟩, (hK c hc _).2 ⟨y, hy, rfl⟩⟩

/-- If no row of the CSC matrix stores two entries, the conversion leaves nothing unsorted. -/
theorem csc_to_csr_apart {a : Csc V} (ha : a.WF) (hf : a.comp.Fits)
    (hap : ∀ i j k, a.comp.stored j i ≠ none → a.comp.stored k i ≠ none → j = k) {c : Csr V} (hc : CscToCsrRun a c) : c.WF := by
  obtain ⟨c1, c2, c3, c4, c5, -⟩ := csc_to_csr_correct (Comp.WF.wfu ha) hf hc
  have hnr := csc_to_csr_noRep ha hf hc
  have hp : c.comp.PtrOk := Comp.WFU.ptrOk c4
  refine ⟨c4.ptr_length, c4.data_length, c4.ptr_first, c4.ptr_last, c4.ptr_mono, c4.bounds, ?_, c4.i64⟩
  intro i hi p q h1 h2 h3
  exfalso
  have hl := hp.row_length (i := i) hi
  have hle := hp.ptr_le_indices (i := i + 1) (show i + 1 ≤ c.comp.n from hi)
  have hst : ∀ k (hk : k < (c.comp.row i).length), ∃ j : Nat, (((c.comp.row i)[k]).1 = (j : Int)) ∧ a.comp.stored j i ≠ none := by
    intro k hk
    obtain ⟨b1, -⟩ := c4.inRange i hi _ (List.getElem_mem hk)
    refine ⟨((c.comp.row i)[k]).1.toNat, by omega, ?_⟩
    have e := c5 i ((c.comp.row i)[k]).1.toNat
    rw [show a.comp.stored ((c.comp.row i)[k]).1.toNat i = a.stored i ((c.comp.row i)[k]).1.toNat from rfl, ← e]
    show lk _ (c.comp.row i) ≠ none
    rw [Ne, lk_eq_none_iff]
    intro hall
    exact hall _ (List.getElem_mem hk) (by omega)
  obtain ⟨x, x1, x2⟩ := hst (p - c.comp.ptr i) (by omega)
  obtain ⟨y, y1, y2⟩ := hst (q - c.comp.ptr i) (by omega)
  have hxy := hap i x y x2 y2
  have := (hnr i).getElem_inj_iff (i := p - c.comp.ptr i) (j := q - c.comp.ptr i)
    (hi := by rw [List.length_map]; omega) (hj := by rw [List.length_map]; omega)
  rw [List.getElem_map, List.getElem_map, x1, y1, hxy] at this
  have := this.1 rfl
  omega

theorem csc_to_csr_held {a : Csc V} (ha : a.WF) (hm : a.comp.Machine) (hl : 8 * ((a.nrows : Int) + 1) ≤ i64Max)
    {c : Csr V} (h : CscToCsrRun a c) :
    c.nrows = a.nrows ∧ c.ncols = a.ncols ∧ c.data.length = a.data.length ∧ c.WFU ∧ c.comp.Machine := by
  obtain ⟨c1, c2, c3, c4, -, -⟩ := csc_to_csr_correct (Comp.WF.wfu ha) (Comp.WFU.fits_of_machine (Comp.WF.wfu ha) hm) h
  refine ⟨c1, c2, c3, c4, Comp.WFU.machine c4 ?_ ?_⟩
  · show 8 * ((c.nrows : Int) + 1) ≤ _
    rw [c1]; exact hl
  · show 8 * (c.data.length : Int) ≤ _
    rw [c3]; exact hm.data

/-- The native calls on CSC. -/
theorem scan_csc_iff {env : PyEnv V} (he : env.Ok) (op : ScanOp) (rowwise : Bool) {a : Csc V} (ha : a.WF) (hm : a.comp.Machine)
    (hl : 8 * ((a.nrows : Int) + 1) ≤ i64Max) (h16 : 16 * (a.data.length : Int) ≤ i64Max)
    (hs : 8 * ((a.nrows * a.ncols : Nat) : Int) ≤ i64Max) {N : Nat} (hN : a.data.length + 2 ≤ N) (o : Except Fault (List V)) :
    op.Run env rowwise N (.csc a) o ↔ ∃ y, (∃ c, CscToCsrRun a c ∧ op.Listed env rowwise c y) ∧ o = .ok y := by
  have hf : a.comp.Fits := Comp.WFU.fits_of_machine (Comp.WF.wfu ha) hm
  have hnc : 8 * ((a.ncols : Int) + 1) ≤ i64Max := by
    have e1 := hm.indptr
    have e2 : a.comp.indptr.length = a.ncols + 1 := (Comp.WF.wfu ha).ptr_length
    omega
  refine cscThen_iff ha hm hl (K := fun c => op.Kernel env rowwise N c) (fun c hc o => ?_) o
  obtain ⟨c1, c2, c3, c4, c5⟩ := csc_to_csr_held ha hm hl hc
  exact scanKernel_iff he op rowwise c4 (csc_to_csr_noRep ha hf hc) c5 (by rw [c2]; exact hnc) (by rw [c3]; exact h16)
    (by rw [c1, c2]; exact hs) (by rw [c3]; exact hN) o

end

section
variable [Semiring V]

theorem scan_csc_gives {env : PyEnv V} (he : env.Ok) (op : ScanOp) (rowwise : Bool) {a : Csc V} (ha : a.WF) (hm : a.comp.Machine)
    (hl : 8 * ((a.nrows : Int) + 1) ≤ i64Max) (h16 : 16 * (a.data.length : Int) ≤ i64Max)
    (hs : 8 * ((a.nrows * a.ncols : Nat) : Int) ≤ i64Max)
    (hap : rowwise = true → ∀ i j k, a.comp.stored j i ≠ none → a.comp.stored k i ≠ none → j = k) :
    Gives (fun N => op.Run env rowwise N (.csc a))
      ((if rowwise then IsScanRows else IsScanCols) op.agg a.nrows a.ncols a.val) := by
  have hf : a.comp.Fits := Comp.WFU.fits_of_machine (Comp.WF.wfu ha) hm
  have hus := usize_of_bytes hs
  have hr : (a.nrows : Int) ≤ i64Max := by omega
  refine gives_of (a.data.length + 2) (fun N hN o => scan_csc_iff he op rowwise ha hm hl h16 hs hN o) ?_ ?_
  · cases op <;> cases rowwise
    · obtain ⟨y, c, hc, hy⟩ := (cumsum_csc_axis0_correct he.pair env.threads ha hf hr hus).1
      exact ⟨y, c, hc, hy⟩
    · obtain ⟨⟨c, hc, hw⟩, h⟩ := cumsum_csc_axis1_sorted ha hf hus
      obtain ⟨y, hy, -⟩ := h c hc hw
      exact ⟨y, c, hc, hy⟩
    · obtain ⟨y, c, hc, hy⟩ := (cumprod_csc_axis0_correct he.pair env.threads ha hf hr hus).1
      exact ⟨y, c, hc, hy⟩
    · obtain ⟨⟨c, hc, hw⟩, h⟩ := cumprod_csc_axis1_sorted ha hf hus
      obtain ⟨y, hy, -⟩ := h c hc hw
      exact ⟨y, c, hc, hy⟩
  · rintro y ⟨c, hc, hy⟩
    cases op <;> cases rowwise
    · exact (cumsum_csc_axis0_correct he.pair env.threads ha hf hr hus).2 y ⟨c, hc, hy⟩
    · obtain ⟨z, hz, hs⟩ := (cumsum_csc_axis1_sorted ha hf hus).2 c hc (csc_to_csr_apart ha hf (hap rfl) hc)
      have : z = y := Option.some.inj (hz.symm.trans hy)
      exact this ▸ hs
    · exact (cumprod_csc_axis0_correct he.pair env.threads ha hf hr hus).2 y ⟨c, hc, hy⟩
    · obtain ⟨z, hz, hs⟩ := (cumprod_csc_axis1_sorted ha hf hus).2 c hc (csc_to_csr_apart ha hf (hap rfl) hc)
      have : z = y := Option.some.inj (hz.symm.trans hy)
      exact this ▸ hs

theorem scan_coo_gives {env : PyEnv V} (he : env.Ok) (op : ScanOp) (rowwise : Bool) {a : Coo V} (ha : a.WF) (hi : a.I64)
    (hn : 8 * ((a.nrows : Int) + 1) ≤ i64Max) (hc : 8 * ((a.ncols : Int) + 1) ≤ i64Max)
    (h24 : 24 * (a.data.length : Int) ≤ i64Max) (hs : 8 * ((a.nrows * a.ncols : Nat) : Int) ≤ i64Max) :
    Gives (fun N => op.Run env rowwise N (.coo a))
      ((if rowwise then IsScanRows else IsScanCols) op.agg a.nrows a.ncols a.val) := by
  obtain ⟨c1, c2, c3, c4⟩ := coo_to_csr_correct he.triple ha hi (by omega) (by omega)
  have hlen := cooToCsr_data_length_le he.triple ha (by omega) (by omega)
  have hv : (cooToCsr env.tripleSort a).val = a.val := funext fun i => funext fun j => c4 i j
  have hm : (cooToCsr env.tripleSort a).comp.Machine := Comp.WFU.machine (Comp.WF.wfu c3)
    (by show 8 * (((cooToCsr env.tripleSort a).nrows : Int) + 1) ≤ _; rw [c1]; exact hn)
    (by show 8 * ((cooToCsr env.tripleSort a).data.length : Int) ≤ _; omega)
  have := scan_csr_gives he op rowwise c3 hm (by rw [c2]; exact hc) (by omega) (by rw [c1, c2]; exact hs)
  rw [c1, c2, hv] at this
  exact this

end

/-! ### The axis argument -/

theorem single_norm {axis : AxisArg} {rowwise : Bool} (h : axis.Single rowwise) :
    normalizeAxes2d axis = .ok (some [if rowwise then 1 else 0]) := by
  obtain ⟨hv, h0, h1⟩ := h
  have hn : axis ≠ .none := by
    rintro rfl
    cases rowwise <;> simp [AxisArg.covers] at h0 h1
  rw [normalizeAxes2d_eq, normalizeAxesNd_eq 2 axis hn hv]
  cases rowwise <;> simp [List.range_succ, h0, h1]

section
variable [Zero V] [One V] [Add V] [Mul V]

/-- The list in the shape of the matrix. -/
theorem scanArray_ok {n m : Nat} {y : List V} (hs : 8 * ((n * m : Nat) : Int) ≤ i64Max)
    (hn : (n : Int) ≤ i64Max) (hm : (m : Int) ≤ i64Max) (hl : y.length = n * m) : scanArray n m y = .ret ⟨[n, m], y⟩ := by
  unfold scanArray
  rw [if_pos]
  refine ⟨?_, hl⟩
  by_cases h0 : n = 0
  · by_cases h1 : m = 0
    · simp [h0, h1, i64Max]
    · simpa [h0, h1] using hm
  · by_cases h1 : m = 0
    · simpa [h0, h1] using hn
    · rw [if_neg h0, if_neg h1]; omega

/-- The branch that is taken for one axis. -/
theorem scanMethod_single {env : PyEnv V} {op : ScanOp} {axis : AxisArg} {rowwise : Bool} (hx : axis.Single rowwise)
    {x : PyObj V} (h2 : ∀ a, x ≠ .nd a) (out : PyRes (NdArr V)) :
    ScanMethod env op axis x out ↔ ∃ p, NativeCall (x.native (fun _ => .parts) .parts) (fun N a => op.Run env rowwise N a) p ∧
      out = p.bind (scanArray x.dims.1 x.dims.2) := by
  unfold ScanMethod
  cases x with
  | nd a => exact absurd rfl (h2 a)
  | mat f a =>
    simp only []
    rw [single_norm hx]
    cases rowwise <;> simp
  | coo a =>
    simp only []
    rw [single_norm hx]
    cases rowwise <;> simp

end

section
variable [Semiring V]

theorem scan_value {env : PyEnv V} (he : env.Ok) {v : SpVal V} (h : v.Good) (h2 : v.ty.Is2d) (op : ScanOp) {axis : AxisArg}
    {rowwise : Bool} (hx : axis.Single rowwise) (hs : 8 * (v.ty.shape.prod : Int) ≤ i64Max)
    (hap : rowwise = true → v.RowsApart) :
    GivesPy (ScanMethod env op axis v.obj) (IsScan op.agg rowwise v.ty.shape v.cell) := by
  have core : ∀ {nat : Native V} {n m : Nat} {f : Nat → Nat → V},
      (v.obj.native (fun _ => .parts) .parts = .ok nat) → v.obj.dims = (n, m) → v.ty.shape = [n, m] →
      (∀ a, v.obj ≠ .nd a) → (n : Int) ≤ i64Max → (m : Int) ≤ i64Max →
      (∀ i j : Nat, v.cell [(i : Int), (j : Int)] = f i j) →
      Gives (fun N => op.Run env rowwise N nat) ((if rowwise then IsScanRows else IsScanCols) op.agg n m f) →
      GivesPy (ScanMethod env op axis v.obj) (IsScan op.agg rowwise v.ty.shape v.cell) := by
    intro nat n m f hn hd hsh hnd hn1 hm1 hcell g
    have hs' : 8 * ((n * m : Nat) : Int) ≤ i64Max := by
      rw [hsh] at hs
      simpa using hs
    have hcell' : (fun i j : Nat => v.cell [(i : Int), (j : Int)]) = f := funext fun i => funext fun j => hcell i j
    have := (Gives.call (run := fun N a => op.Run env rowwise N a) g).bind
      (S := IsScan op.agg rowwise v.ty.shape v.cell) (k := scanArray n m) fun y hy => by
        have hlen : y.length = n * m := by cases rowwise <;> exact hy.1
        exact ⟨_, scanArray_ok hs' hn1 hm1 hlen, n, m, hsh, rfl, by rw [hcell']; exact hy⟩
    have key := scanMethod_single (env := env) (op := op) hx hnd
    rw [hn, hd] at key
    exact ⟨this.1.imp fun o ho => (key o).2 ho, fun o ho => this.2 o ((key o).1 ho)⟩
  cases v with
  | mat fm a =>
    have hd := h.dims
    cases fm with
    | csr =>
      have hs' : 8 * ((a.n * (a.m * 1) : Nat) : Int) ≤ i64Max := hs
      rw [Nat.mul_one] at hs'
      exact core (n := a.n) (m := a.m) (f := a.toCsr.val) (native_csr h _ _) rfl rfl (by simp [SpVal.obj]) (by omega) (by omega) (fun _ _ => rfl)
        (scan_csr_gives he op rowwise (a := a.toCsr) h.1 h.held.mach hd.2.1 (by show 16 * (a.data.length : Int) ≤ _; omega) hs')
    | csc =>
      have hs' : 8 * ((a.m * (a.n * 1) : Nat) : Int) ≤ i64Max := hs
      rw [Nat.mul_one] at hs'
      exact core (n := a.m) (m := a.n) (f := a.toCsc.val) (native_csc h _ _) rfl rfl (by simp [SpVal.obj]) (by omega) (by omega) (fun _ _ => rfl)
        (scan_csc_gives he op rowwise (a := a.toCsc) h.1 h.held.mach hd.2.1 (by show 16 * (a.data.length : Int) ≤ _; omega) hs' hap)
  | coo a =>
    have hs' : 8 * ((a.nrows * (a.ncols * 1) : Nat) : Int) ≤ i64Max := hs
    rw [Nat.mul_one] at hs'
    obtain ⟨d1, d2, d3⟩ : 8 * ((a.nrows : Int) + 1) ≤ i64Max ∧ 8 * ((a.ncols : Int) + 1) ≤ i64Max ∧
      24 * (a.data.length : Int) ≤ i64Max := h.2
    exact core (n := a.nrows) (m := a.ncols) (f := a.val) (native_coo h _ _) rfl rfl (by simp [SpVal.obj]) (by omega) (by omega) (fun _ _ => rfl)
      (scan_coo_gives he op rowwise h.1.1 h.1.2 d1 d2 d3 hs')
  | nd a => exact absurd h2 id

end

/-! ### Differences -/

/-- An object around unsorted lines. -/
theorem wrapMat_wfu {f : Fmt} {c : Comp V} (hw : c.WFU) (hn : 8 * ((c.n : Int) + 1) ≤ i64Max) (hm : 8 * ((c.m : Int) + 1) ≤ i64Max)
    (hl : 8 * (c.data.length : Int) ≤ i64Max) : wrapMat f c = .ret (SpVal.mat f c).obj := by
  have h1 : c.n ≤ usizeMax := by unfold i64Max at hn; unfold usizeMax; omega
  have h2 : c.m ≤ usizeMax := by unfold i64Max at hm; unfold usizeMax; omega
  have h3 : c.n + 1 ≤ usizeMax := by unfold i64Max at hn; unfold usizeMax; omega
  have hchk : checkParts c.n c.m c.indptr c.indices c.data false = .ok () := by
    unfold checkParts
    rw [if_neg (by omega), if_neg (by rw [hw.ptr_length]; simp), if_neg (by rw [hw.data_length]; simp)]
    simp only []
    have hlast : c.indptr.getLast?.getD 0 = c.indices.length := by
      rw [← hw.ptr_last, List.getLast?_eq_getElem?, hw.ptr_length]
      simp [List.getD_eq_getElem?_getD]
    have hhead : c.indptr.head?.getD 0 = 0 := by
      have := hw.ptr_first
      rw [List.getD_eq_getElem?_getD] at this
      rw [List.head?_eq_getElem?, this]
    rw [hlast, hhead, if_neg, if_neg (by simp)]
    · rfl
    · rw [not_not, toUsize?_eq_some]
  have hdl := hw.data_length
  have hnew : nativeNew f (f.rows c) (f.cols c) c.indptr c.indices c.data false = .ok c := by
    cases f with
    | csr =>
      show nativeNew .csr (c.n : Int) (c.m : Int) c.indptr c.indices c.data false = .ok c
      rw [nativeNew_csr (r' := c.n) (c' := c.m) (pyUsize_nat h1) (pyUsize_nat h2), Csr.fromParts, hchk]
      rfl
    | csc =>
      show nativeNew .csc (c.m : Int) (c.n : Int) c.indptr c.indices c.data false = .ok c
      rw [nativeNew_csc (r' := c.m) (c' := c.n) (pyUsize_nat h2) (pyUsize_nat h1), Csc.fromParts, hchk]
      rfl
  unfold wrapMat PyMat.wrap
  rw [if_pos ⟨by omega, by omega⟩]
  unfold PyMat.new
  cases f with
  | csr =>
    show PyRes.bind (PyRes.ret (PyMat.mk (c.n : Int) c.m c.indptr c.indices c.data
      (nativeNew .csr (Fmt.rows .csr c) (Fmt.cols .csr c) c.indptr c.indices c.data false).toOption)) _ = _
    rw [hnew]; rfl
  | csc =>
    show PyRes.bind (PyRes.ret (PyMat.mk (c.m : Int) c.n c.indptr c.indices c.data
      (nativeNew .csc (Fmt.rows .csc c) (Fmt.cols .csc c) c.indptr c.indices c.data false).toOption)) _ = _
    rw [hnew]; rfl

section
variable [BEq V] [Zero V] [Add V] [Neg V]

/-- What the kernels return at list level. -/
def DiffListed (env : PyEnv V) (rowwise : Bool) (n : Nat) (a r : Csr V) : Prop :=
  if rowwise then DiffCsrAxis1Run env.ndSort n a r else DiffCsrAxis0Run env.ndSort env.pairSort env.threads n a r

theorem diffKernel_iff {env : PyEnv V} (he : env.Ok) (rowwise : Bool) (n : Nat) {a : Csr V} (hw : a.WFU) (hnr : a.comp.NoRep)
    (hm : a.comp.Machine) (hl : 8 * ((a.ncols : Int) + 1) ≤ i64Max) (hd : 32 * ((a.nrows * a.ncols : Nat) : Int) ≤ i64Max)
    (hz : a.data.length ≤ a.nrows * a.ncols) {N : Nat} (hN : a.nrows * a.ncols + 1 ≤ N) (o : Except Fault (Csr V)) :
    DiffKernel env rowwise n N a o ↔ ∃ r, DiffListed env rowwise n a r ∧ o = .ok r := by
  have ht : env.threads < 2 ^ 62 := by have := he.threads; omega
  cases rowwise
  · exact diff_csr_axis0_ptr he.nd he.pair ht hw hnr hm hl hd hz (by omega) env.dbg o
  · exact diff_csr_axis1_ptr he.nd (Comp.WFU.ptrOk hw) hm hw.inRange hd (by omega) (by omega) env.dbg o

end

section
variable [BEq V] [LawfulBEq V] [AddCommGroup V]

/-- The element that the differences put at `(i, j)`. -/
def diffAt (rowwise : Bool) (n : Nat) (f : Nat → Nat → V) (i j : Nat) : V :=
  if rowwise then diffN n (f i) j else diffN n (fun k => f k j) i

/-- What the differences of an `r × c` matrix look like. -/
def IsDiff (rowwise : Bool) (n r c : Nat) (f : Nat → Nat → V) (r' c' : Nat) (g : Nat → Nat → V) : Prop :=
  r' = (if rowwise then r else r - n) ∧ c' = (if rowwise then c - n else c) ∧
    ∀ i j, i < r' → j < c' → g i j = diffAt rowwise n f i j

theorem IsDiff.cells {rowwise : Bool} {n r c : Nat} {f : Nat → Nat → V} {r' c' : Nat} {g : Nat → Nat → V}
    (h : IsDiff rowwise n r c f r' c' g) : r' ≤ r ∧ c' ≤ c ∧ r' * c' ≤ r * c := by
  obtain ⟨h1, h2, -⟩ := h
  have h1 : r' ≤ r := by cases rowwise <;> simp at h1 <;> omega
  have h2 : c' ≤ c := by cases rowwise <;> simp at h2 <;> omega
  exact ⟨h1, h2, Nat.mul_le_mul h1 h2⟩

theorem diffListed_correct {env : PyEnv V} (he : env.Ok) (rowwise : Bool) (n : Nat) {a : Csr V} (ha : a.WF)
    (hm : a.comp.Machine) (hl : 8 * ((a.ncols : Int) + 1) ≤ i64Max) (hd : 32 * ((a.nrows * a.ncols : Nat) : Int) ≤ i64Max) :
    (∃ r, DiffListed env rowwise n a r) ∧
    ∀ r, DiffListed env rowwise n a r → r.WF ∧ IsDiff rowwise n a.nrows a.ncols a.val r.nrows r.ncols r.val := by
  have hw : a.WFU := Comp.WF.wfu ha
  have hf : a.comp.Fits := Comp.WFU.fits_of_machine hw hm
  cases rowwise
  · have : (a.nrows - n) * a.ncols ≤ a.nrows * a.ncols := Nat.mul_le_mul_right _ (by omega)
    refine ⟨diff_csr_axis0_exists he.nd he.pair env.threads hw (Comp.WF.noRep ha) hf (by omega) (n := n) (by omega), ?_⟩
    intro r hr
    obtain ⟨d1, d2, d3, d4, -, d6⟩ := diff_csr_axis0_correct he.nd he.pair hw (Comp.WF.noRep ha) hf (by omega) hr
    refine ⟨?_, d1, d2, fun i j hi hj => d6 i j (by omega) (by omega)⟩
    by_cases h0 : n = 0
    · rw [d3 h0]; exact ha
    · exact (d4 (by omega)).1
  · have : a.nrows * (a.ncols - n) ≤ a.nrows * a.ncols := Nat.mul_le_mul_left _ (by omega)
    refine ⟨diff_csr_axis1_exists he.nd hw (n := n) (.inr ha) (by omega), ?_⟩
    intro r hr
    obtain ⟨d1, d2, -, d4, d5, -, d7⟩ := diff_csr_axis1_correct he.nd hw hr
    exact ⟨d4 (.inr ha), d1, d2, fun i j hi hj => d7 i j (by omega) (by omega)⟩

theorem diff_csr_gives {env : PyEnv V} (he : env.Ok) (rowwise : Bool) (n : Nat) {a : Csr V} (ha : a.WF)
    (hm : a.comp.Machine) (hl : 8 * ((a.ncols : Int) + 1) ≤ i64Max) (hd : 32 * ((a.nrows * a.ncols : Nat) : Int) ≤ i64Max) :
    Gives (fun N => DiffKernel env rowwise n N a)
      (fun r => r.WF ∧ IsDiff rowwise n a.nrows a.ncols a.val r.nrows r.ncols r.val) := by
  obtain ⟨h1, h2⟩ := diffListed_correct he rowwise n ha hm hl hd
  exact gives_of (a.nrows * a.ncols + 1) (fun N hN o => diffKernel_iff he rowwise n (Comp.WF.wfu ha) (Comp.WF.noRep ha) hm hl hd
    (Comp.WF.data_length_le ha) hN o) h1 h2

theorem diff_csc_gives {env : PyEnv V} (he : env.Ok) (rowwise : Bool) (n : Nat) {a : Csc V} (ha : a.WF)
    (hm : a.comp.Machine) (hl : 8 * ((a.nrows : Int) + 1) ≤ i64Max) (hd : 32 * ((a.nrows * a.ncols : Nat) : Int) ≤ i64Max) :
    Gives (fun N => DiffCscPtr env.dbg (DiffKernel env rowwise n N) a)
      (fun r => r.WFU ∧ 8 * (r.data.length : Int) ≤ i64Max ∧ IsDiff rowwise n a.nrows a.ncols a.val r.nrows r.ncols r.val) ∧
    ∃ r, r.WF ∧ Settles (fun N => DiffCscPtr env.dbg (DiffKernel env rowwise n N) a) (.ok r) := by
  have ht : env.threads < 2 ^ 62 := by have := he.threads; omega
  have hf : a.comp.Fits := Comp.WFU.fits_of_machine (Comp.WF.wfu ha) hm
  have hle : a.data.length ≤ a.ncols * a.nrows := Comp.WF.data_length_le ha
  rw [Nat.mul_comm] at hle
  cases rowwise
  · have hx := (diff_csc_exists he.nd he.pair env.threads ha hf (by omega) (n := n)).2
      (by have : (a.nrows - n) * a.ncols ≤ a.nrows * a.ncols := Nat.mul_le_mul_right _ (by omega)
          omega)
    have key : ∀ N, a.nrows * a.ncols + 1 ≤ N → ∀ o, DiffCscPtr env.dbg (DiffKernel env false n N) a o ↔
        ∃ r, DiffCscAxis0Run env.ndSort env.pairSort env.threads n a r ∧ o = .ok r := fun N hN o =>
      diff_csc_axis0_ptr he.nd he.pair ht ha hm hl hd (by omega) env.dbg o
    refine ⟨gives_of _ key (hx.imp fun _ h => h.1) ?_, ?_⟩
    · intro r hr
      obtain ⟨d1, d2, d3, d4⟩ := diff_csc_axis0_correct he.nd he.pair ha hf (by omega) hr
      refine ⟨d3, ?_, d1, d2, fun i j hi hj => d4 i j (by omega) (by omega)⟩
      obtain ⟨c, b, hc, hb, hr⟩ := hr
      obtain ⟨c1, c2, c3, c4, c5⟩ := csc_to_csr_machine ha hm hl hc
      obtain ⟨k1, k2, k3, k4, k5, -⟩ := diff_csr_axis0_correct he.nd he.pair c4 (csc_to_csr_noRep ha hf hc)
        (Comp.WFU.fits_of_machine c4 c5) (by rw [c2]; have := hf.1; exact this) hb
      have hbw : b.WFU ∧ 8 * (b.data.length : Int) ≤ i64Max := by
        by_cases h0 : n = 0
        · rw [k3 h0]; exact ⟨c4, by rw [c3]; omega⟩
        · have bw := (k4 (by omega)).1
          have ble : b.data.length ≤ b.nrows * b.ncols := Comp.WF.data_length_le bw
          have : b.nrows * b.ncols ≤ a.nrows * a.ncols := by
            rw [k1, k2, c1, c2]; exact Nat.mul_le_mul_right _ (by omega)
          exact ⟨Comp.WF.wfu bw, by omega⟩
      obtain ⟨-, -, r3, -⟩ := csr_to_csc_correct hbw.1 ⟨by show (b.nrows : Int) ≤ _; rw [k1, c1]; omega, k5⟩ hr
      rw [r3]; exact hbw.2
    · obtain ⟨r, h1, h2⟩ := hx
      exact ⟨r, h2, _, fun N hN => (key N hN _).2 ⟨r, h1, rfl⟩⟩
  · have hx := (diff_csc_exists he.nd he.pair env.threads ha hf (by omega) (n := n)).1
      (by have : a.nrows * (a.ncols - n) ≤ a.nrows * a.ncols := Nat.mul_le_mul_left _ (by omega)
          omega)
    have key : ∀ N, a.nrows * a.ncols + 1 ≤ N → ∀ o, DiffCscPtr env.dbg (DiffKernel env true n N) a o ↔
        ∃ r, DiffCscAxis1Run env.ndSort n a r ∧ o = .ok r := fun N hN o =>
      diff_csc_axis1_ptr he.nd ha hm hl hd (by omega) env.dbg o
    refine ⟨gives_of _ key (hx.imp fun _ h => h.1) ?_, ?_⟩
    · intro r hr
      obtain ⟨d1, d2, d3, d4⟩ := diff_csc_axis1_correct he.nd ha hf (by omega) hr
      refine ⟨d3, ?_, d1, d2, fun i j hi hj => d4 i j (by omega) (by omega)⟩
      obtain ⟨c, b, hc, hb, hr⟩ := hr
      obtain ⟨c1, c2, c3, c4, c5⟩ := csc_to_csr_machine ha hm hl hc
      obtain ⟨k1, k2, k3, -, -, k6, -⟩ := diff_csr_axis1_correct he.nd c4 hb
      obtain ⟨-, -, r3, -⟩ := csr_to_csc_correct k3
        ⟨by show (b.nrows : Int) ≤ _; rw [k1, c1]; omega, by show (b.data.length : Int) ≤ _; omega⟩ hr
      rw [r3]; exact k6
    · obtain ⟨r, h1, h2⟩ := hx
      exact ⟨r, h2, _, fun N hN => (key N hN _).2 ⟨r, h1, rfl⟩⟩

theorem diff_coo_gives {env : PyEnv V} (he : env.Ok) (rowwise : Bool) (n : Nat) {a : Coo V} (ha : a.WF) (hi : a.I64)
    (hn : 8 * ((a.nrows : Int) + 1) ≤ i64Max) (hc : 8 * ((a.ncols : Int) + 1) ≤ i64Max)
    (h24 : 24 * (a.data.length : Int) ≤ i64Max) (hd : 32 * ((a.nrows * a.ncols : Nat) : Int) ≤ i64Max) :
    Gives (fun N => DiffCooKernel env rowwise n N a)
      (fun r => r.WF ∧ r.I64 ∧ r.NoDup ∧ r.data.length ≤ r.nrows * r.ncols ∧
        IsDiff rowwise n a.nrows a.ncols a.val r.nrows r.ncols r.val) := by
  obtain ⟨c1, c2, c3, c4⟩ := coo_to_csr_correct he.triple ha hi (by omega) (by omega)
  have hlen := cooToCsr_data_length_le he.triple ha (by omega) (by omega)
  have hv : (cooToCsr env.tripleSort a).val = a.val := funext fun i => funext fun j => c4 i j
  have hm : (cooToCsr env.tripleSort a).comp.Machine := Comp.WFU.machine (Comp.WF.wfu c3)
    (by show 8 * (((cooToCsr env.tripleSort a).nrows : Int) + 1) ≤ _; rw [c1]; exact hn)
    (by show 8 * ((cooToCsr env.tripleSort a).data.length : Int) ≤ _; omega)
  obtain ⟨⟨b0, hb0⟩, h2⟩ := diffListed_correct he rowwise n c3 hm (by rw [c2]; exact hc) (by rw [c1, c2]; exact hd)
  rw [c1, c2, hv] at h2
  have hb : ∀ b, DiffListed env rowwise n (cooToCsr env.tripleSort a) b → b.WF ∧ b.comp.Machine ∧
      b.data.length ≤ b.nrows * b.ncols ∧ IsDiff rowwise n a.nrows a.ncols a.val b.nrows b.ncols b.val := by
    intro b hb
    obtain ⟨b1, b2⟩ := h2 b hb
    obtain ⟨k1, k2, k3⟩ := b2.cells
    have hle : b.data.length ≤ b.nrows * b.ncols := Comp.WF.data_length_le b1
    exact ⟨b1, Comp.WFU.machine (Comp.WF.wfu b1) (by show 8 * ((b.nrows : Int) + 1) ≤ _; omega)
      (by show 8 * (b.data.length : Int) ≤ _; omega), hle, b2⟩
  refine gives_of (R := fun r => ∃ b, DiffListed env rowwise n (cooToCsr env.tripleSort a) b ∧ CsrToCooRun b r)
    (a.nrows * a.ncols + 1) (fun N hN o => ?_) ?_ ?_
  · have key := diffKernel_iff he rowwise n (Comp.WF.wfu c3) (Comp.WF.noRep c3) hm (by rw [c2]; exact hc)
      (by rw [c1, c2]; exact hd) (Comp.WF.data_length_le c3) (N := N) (by rw [c1, c2]; exact hN)
    unfold DiffCooKernel
    constructor
    · rintro ⟨ob, hob, h⟩
      obtain ⟨b, hbl, rfl⟩ := (key ob).1 hob
      obtain ⟨b1, b2, -, -⟩ := hb b hbl
      obtain ⟨r, hr, rfl⟩ := (csr_to_coo_ptr (Comp.WFU.ptrOk (Comp.WF.wfu b1)) b2 env.dbg o).1 h
      exact ⟨r, ⟨b, hbl, hr⟩, rfl⟩
    · rintro ⟨r, ⟨b, hbl, hr⟩, rfl⟩
      obtain ⟨b1, b2, -, -⟩ := hb b hbl
      exact ⟨.ok b, (key _).2 ⟨b, hbl, rfl⟩,
        (csr_to_coo_ptr (Comp.WFU.ptrOk (Comp.WF.wfu b1)) b2 env.dbg _).2 ⟨r, hr, rfl⟩⟩
  · obtain ⟨r, hr⟩ := csr_to_coo_exists b0
    exact ⟨r, b0, hb0, hr⟩
  · rintro r ⟨b, hbl, hr⟩
    obtain ⟨b1, b2, b3, e1, e2, e3⟩ := hb b hbl
    obtain ⟨r1, r2, r3, r4, r5, -, -, r8, r9⟩ := csr_to_coo_correct (Comp.WF.wfu b1)
      (Comp.WFU.fits_of_machine (Comp.WF.wfu b1) b2) hr
    refine ⟨r3, r4, r9 b1, by rw [r5, r1, r2]; exact b3, by rw [r1]; exact e1, by rw [r2]; exact e2, fun i j hi hj => ?_⟩
    rw [r8]
    exact e3 i j (by omega) (by omega)

end

theorem diffArgs_ok {α : Type} (a : α) {n : Nat} (hn : n ≤ usizeMax) : diffArgs (.ok a) (n : Int) = .ok (a, n) := by
  unfold diffArgs
  rw [pyUsize_nat hn]; rfl

/-- From the kernels to the object. -/
theorem settles_wrap {α : Type} {run : Nat → Except Fault α → Prop} {R : α → Prop} {S : PyObj V → Prop} {k : α → PyRes (PyObj V)}
    (h : Gives run R) (hk : ∀ y, R y → ∃ z, k y = .ret z ∧ S z) :
    GivesPy (fun out => ∃ o, Settles run o ∧ out = (PyRes.ofKernel o).bind k) S := by
  obtain ⟨⟨o, ho⟩, h2⟩ := h
  refine ⟨⟨_, o, ho, rfl⟩, ?_⟩
  rintro out ⟨q, hq, rfl⟩
  obtain ⟨y, rfl, hy⟩ := h2 q hq
  obtain ⟨z, e, hz⟩ := hk y hy
  exact ⟨z, e, hz⟩

/-- The axis of `diff`: one of the two, counted from the front or the back. -/
theorem diffMethod_axis {axis : Int} {rowwise : Bool}
    (hx : if rowwise then axis = 1 ∨ axis = -1 else axis = 0 ∨ axis = -2) :
    (axis = -2 ∨ axis = -1 ∨ axis = 0 ∨ axis = 1) ∧
      decide ((if axis < 0 then 2 + axis else axis) ≠ 0) = rowwise := by
  cases rowwise
  · rcases hx with rfl | rfl <;> exact ⟨by decide, by decide⟩
  · rcases hx with rfl | rfl <;> exact ⟨by decide, by decide⟩

section
variable [BEq V] [LawfulBEq V] [AddCommGroup V]

theorem diff_value {env : PyEnv V} (he : env.Ok) {v : SpVal V} (h : v.Good) (h2 : v.ty.Is2d) {axis : Int} {rowwise : Bool}
    (hx : if rowwise then axis = 1 ∨ axis = -1 else axis = 0 ∨ axis = -2) {n : Nat} (hn : n ≤ usizeMax)
    (hs : 32 * (v.ty.shape.prod : Int) ≤ i64Max) :
    GivesPy (DiffMethod env n axis v.obj) (fun o => ∃ w : SpVal V, o = w.obj ∧ w.IsDiffOf v rowwise n) ∧
    ((∃ a, v = .mat .csc a) → ∃ w : SpVal V, w.Valid ∧ DiffMethod env n axis v.obj (.ret w.obj)) := by
  obtain ⟨hx1, hx2⟩ := diffMethod_axis hx
  cases v with
  | mat fm a =>
    have hd := h.dims
    cases fm with
    | csr =>
      have hs' : 32 * ((a.n * (a.m * 1) : Nat) : Int) ≤ i64Max := hs
      rw [Nat.mul_one] at hs'
      have g := diff_csr_gives he rowwise n (a := a.toCsr) h.1 h.held.mach hd.2.1 hs'
      have key : ∀ out, DiffMethod env n axis (SpVal.mat .csr a).obj out ↔
          ∃ o, Settles (fun N => DiffKernel env rowwise n N a.toCsr) o ∧
            out = (PyRes.ofKernel o).bind fun r => wrapMat .csr r.comp := by
        intro out
        show (if ¬ _ then _ else _) ↔ _
        rw [if_neg (not_not.2 hx1)]
        simp only [hx2]
        rw [h.held.operand, diffArgs_ok _ hn]
      have := settles_wrap (S := fun o => ∃ w : SpVal V, o = w.obj ∧ w.IsDiffOf (.mat .csr a) rowwise n)
        (k := fun r : Csr V => wrapMat .csr r.comp) g (fun r hr => by
          obtain ⟨r1, r2⟩ := hr
          obtain ⟨k1, k2, k3⟩ := r2.cells
          have hle : r.data.length ≤ r.nrows * r.ncols := Comp.WF.data_length_le r1
          have e1 : a.toCsr.nrows = a.n := rfl
          have e2 : a.toCsr.ncols = a.m := rfl
          have hok : (SpVal.mat .csr r.comp).ty.SizeOk (SpVal.mat .csr r.comp).nnz :=
            ⟨by show 8 * ((r.nrows : Int) + 1) ≤ _; omega, by show 8 * ((r.ncols : Int) + 1) ≤ _; omega,
              by show 24 * (r.data.length : Int) ≤ _; rw [e1, e2] at k3; omega⟩
          refine ⟨_, wrapMat_of (f := .csr) (a := r.comp) ⟨r1, hok⟩, .mat .csr r.comp, rfl, ?_, Comp.WF.wfu r1,
            fun _ => ⟨r1, hok, Comp.WF.noRep r1⟩, ?_⟩
          · obtain ⟨t1, t2, -⟩ := r2
            show Ty.mat .csr r.nrows r.ncols = _
            rw [t1, t2]
            cases rowwise <;> rfl
          · intro x hxb
            obtain ⟨i, j, hi, hj, rfl⟩ := inBounds_two (show InBounds [r.nrows, r.ncols] x from hxb)
            have := r2.2.2 i j hi hj
            cases rowwise <;> exact this)
      refine ⟨⟨this.1.imp fun o ho => (key o).2 ho, fun o ho => this.2 o ((key o).1 ho)⟩, ?_⟩
      rintro ⟨b, hb⟩
      cases hb
    | csc =>
      have hs' : 32 * ((a.m * (a.n * 1) : Nat) : Int) ≤ i64Max := hs
      rw [Nat.mul_one] at hs'
      obtain ⟨g, r0, hr0, hset⟩ := diff_csc_gives he rowwise n (a := a.toCsc) h.1 h.held.mach hd.2.1 hs'
      have key : ∀ out, DiffMethod env n axis (SpVal.mat .csc a).obj out ↔
          ∃ o, Settles (fun N => DiffCscPtr env.dbg (DiffKernel env rowwise n N) a.toCsc) o ∧
            out = (PyRes.ofKernel o).bind fun r => wrapMat .csc r.comp := by
        intro out
        show (if ¬ _ then _ else _) ↔ _
        rw [if_neg (not_not.2 hx1)]
        simp only [hx2]
        rw [h.held.operand, diffArgs_ok _ hn]
      have hwrap : ∀ r : Csc V, r.WFU ∧ 8 * (r.data.length : Int) ≤ i64Max ∧
          IsDiff rowwise n a.toCsc.nrows a.toCsc.ncols a.toCsc.val r.nrows r.ncols r.val →
          wrapMat .csc r.comp = .ret (SpVal.mat .csc r.comp).obj := by
        rintro r ⟨r1, r2, r3⟩
        obtain ⟨k1, k2, k3⟩ := r3.cells
        have e1 : a.toCsc.nrows = a.m := rfl
        have e2 : a.toCsc.ncols = a.n := rfl
        exact wrapMat_wfu r1 (by show 8 * ((r.ncols : Int) + 1) ≤ _; omega) (by show 8 * ((r.nrows : Int) + 1) ≤ _; omega) r2
      have := settles_wrap (S := fun o => ∃ w : SpVal V, o = w.obj ∧ w.IsDiffOf (.mat .csc a) rowwise n)
        (k := fun r : Csc V => wrapMat .csc r.comp) g (fun r hr => by
          refine ⟨_, hwrap r hr, .mat .csc r.comp, rfl, ?_, hr.1, fun hcsc => absurd rfl (hcsc a), ?_⟩
          · obtain ⟨t1, t2, -⟩ := hr.2.2
            show Ty.mat .csc r.nrows r.ncols = _
            rw [t1, t2]
            cases rowwise <;> rfl
          · intro x hxb
            obtain ⟨i, j, hi, hj, rfl⟩ := inBounds_two (show InBounds [r.nrows, r.ncols] x from hxb)
            have := hr.2.2.2.2 i j hi hj
            cases rowwise <;> exact this)
      refine ⟨⟨this.1.imp fun o ho => (key o).2 ho, fun o ho => this.2 o ((key o).1 ho)⟩, fun _ => ?_⟩
      obtain ⟨y, e, hy⟩ := g.2 _ hset
      cases e
      exact ⟨.mat .csc r0.comp, hr0, (key _).2 ⟨_, hset, (hwrap _ hy).symm⟩⟩
  | coo a =>
    have hs' : 32 * ((a.nrows * (a.ncols * 1) : Nat) : Int) ≤ i64Max := hs
    rw [Nat.mul_one] at hs'
    obtain ⟨d1, d2, d3⟩ : 8 * ((a.nrows : Int) + 1) ≤ i64Max ∧ 8 * ((a.ncols : Int) + 1) ≤ i64Max ∧
      24 * (a.data.length : Int) ≤ i64Max := h.2
    have g := diff_coo_gives he rowwise n (a := a) h.1.1 h.1.2 d1 d2 d3 hs'
    have key : ∀ out, DiffMethod env n axis (SpVal.coo a).obj out ↔
        ∃ o, Settles (fun N => DiffCooKernel env rowwise n N a) o ∧ out = (PyRes.ofKernel o).bind wrapCoo := by
      intro out
      show (if ¬ _ then _ else _) ↔ _
      rw [if_neg (not_not.2 hx1)]
      simp only [hx2]
      rw [h.cooOperand, diffArgs_ok _ hn]
    have := settles_wrap (S := fun o => ∃ w : SpVal V, o = w.obj ∧ w.IsDiffOf (.coo a) rowwise n)
      (k := fun r : Coo V => wrapCoo r) g (fun r hr => by
        obtain ⟨r1, r2, r3, r4, r5⟩ := hr
        obtain ⟨k1, k2, k3⟩ := r5.cells
        have hok : (SpVal.coo r).ty.SizeOk (SpVal.coo r).nnz :=
          ⟨by show 8 * ((r.nrows : Int) + 1) ≤ _; omega, by show 8 * ((r.ncols : Int) + 1) ≤ _; omega,
            by show 24 * (r.data.length : Int) ≤ _; omega⟩
        refine ⟨_, wrapCoo_of (a := r) ⟨⟨r1, r2⟩, hok⟩, .coo r, rfl, ?_, ⟨r1, r2⟩,
          fun _ => ⟨⟨r1, r2⟩, hok, r3⟩, ?_⟩
        · obtain ⟨t1, t2, -⟩ := r5
          show Ty.coo r.nrows r.ncols = _
          rw [t1, t2]
          cases rowwise <;> rfl
        · intro x hxb
          obtain ⟨i, j, hi, hj, rfl⟩ := inBounds_two (show InBounds [r.nrows, r.ncols] x from hxb)
          have := r5.2.2 i j hi hj
          cases rowwise <;> exact this)
    refine ⟨⟨this.1.imp fun o ho => (key o).2 ho, fun o ho => this.2 o ((key o).1 ho)⟩, ?_⟩
    rintro ⟨b, hb⟩
    cases hb
  | nd a => exact absurd h2 id

end

/-! ### Counts -/

theorem count_value [AddZeroClass V] [BEq V] (h0 : ((0 : V) == 0) = true) {v : SpVal V} (hv : v.Valid) (h2 : v.ty.Is2d)
    (hon : v.Once) (hz : v.NoZeros) {axis : AxisArg} (keep : Bool) (ha : axis.Valid 2) (hne : axis ≠ .many []) :
    ∃ r, (∀ out, CountMethod axis keep v.obj out ↔ out = .ret r) ∧
      IsReduction v.ty.shape (axis.covers 2) keep (fun l r => r = (countNz l : Int)) v.cell r := by
  cases v with
  | mat fm a =>
    cases fm with
    | csr =>
      obtain ⟨r, e, hr⟩ := count_nonzero_csr h0 (a := a.toCsr) hv hz axis keep ha hne
      refine ⟨r, fun out => ?_, isReduction_congr hr fun x hx => ?_⟩
      · show out = PyRes.ofExcept (countNonzeroCsr a.toCsr axis keep) ↔ _
        rw [e]; rfl
      · obtain ⟨i, j, -, -, rfl⟩ := inBounds_two hx
        rfl
    | csc =>
      obtain ⟨r, e, hr⟩ := count_nonzero_csc h0 (a := a.toCsc) hv hz axis keep ha hne
      refine ⟨r, fun out => ?_, isReduction_congr hr fun x hx => ?_⟩
      · show out = PyRes.ofExcept (countNonzeroCsc a.toCsc axis keep) ↔ _
        rw [e]; rfl
      · obtain ⟨i, j, -, -, rfl⟩ := inBounds_two hx
        rfl
  | coo a =>
    obtain ⟨r, e, hr⟩ := count_nonzero_coo h0 (a := a) hv.1 hon hz axis keep ha hne
    refine ⟨r, fun out => ?_, isReduction_congr hr fun x hx => ?_⟩
    · show out = PyRes.ofExcept (countNonzeroCoo a axis keep) ↔ _
      rw [e]; rfl
    · obtain ⟨i, j, -, -, rfl⟩ := inBounds_two hx
      rfl
  | nd a => exact absurd h2 id

/-- After `eliminate_zeros` nothing stored is zero. -/
theorem prune_noZeros [Ring V] [LinearOrder V] [IsStrictOrderedRing V] [BEq V] [LawfulBEq V] [HasLt V] [HasAbs V] [HasNan V]
    [IdealOrd V] {v : SpVal V} (h2 : v.ty.Is2d) : (v.prune 0).NoZeros := by
  cases v with
  | mat f a =>
    have hnz : ∀ x : V, significant 0 x = true → (x == 0) = false := fun x hx => by
      rw [beq_eq_false_iff_ne]
      exact (flt_zero_fabs x).1 hx
    show ∀ x ∈ (if pruneSkips 0 a.data then a else Comp.ofRows a.m (pruneOuts 0 a)).data, (x == 0) = false
    split
    next hsk =>
      unfold pruneSkips at hsk
      rw [flt_zero_zero] at hsk
      simpa using hsk
    next =>
      intro x hx
      obtain ⟨e, he, rfl⟩ := List.mem_map.1 hx
      obtain ⟨r, hr, hxr⟩ := List.mem_flatten.1 he
      obtain ⟨i, -, rfl⟩ := List.mem_map.1 hr
      exact hnz _ (List.mem_filter.1 hxr).2
  | coo a =>
    intro x hx
    have hx : x ∈ (pruneCoo a 0).data := hx
    unfold pruneCoo at hx
    rw [flt_zero_zero] at hx
    obtain ⟨t, ht, rfl⟩ := List.mem_map.1 hx
    rw [beq_eq_false_iff_ne]
    exact (flt_zero_fabs _).1 (List.mem_filter.1 ht).2
  | nd a => exact absurd h2 id

end Lacuna
