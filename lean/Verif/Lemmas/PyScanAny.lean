import Verif.Spec.PyScanAny
import Verif.Lemmas.PyScan
import Verif.Lemmas.PyAnyObj
/-
Cumulative operations and differences of objects that hold valid arrays, in any arithmetic.
-/
set_option linter.unusedSectionVars false

namespace Lacuna
variable {V : Type}

/-! ### Prefixes of a sorted row -/

theorem sorted_split {row : List (Int × V)} (hs : Srt row) (n : Int) :
    (row.filter fun e => decide (e.1 < n + 1)) = (row.filter fun e => decide (e.1 < n)) ++ row.filter fun e => e.1 == n := by
  induction row with
  | nil => rfl
  | cons e l ih =>
    have hs' := List.pairwise_cons.1 (show ((e.1 :: l.map Prod.fst).Pairwise (· < ·)) from hs)
    have hlt : ∀ t ∈ l, e.1 < t.1 := fun t ht => hs'.1 _ (List.mem_map.2 ⟨t, ht, rfl⟩)
    have ih := ih hs'.2
    rcases Int.lt_trichotomy e.1 n with h | h | h
    · rw [List.filter_cons_of_pos (by simpa using by omega), List.filter_cons_of_pos (by simpa using h),
        List.filter_cons_of_neg (by simpa using by omega), ih]
      rfl
    · have h0 : (l.filter fun e => decide (e.1 < n)) = [] := by
        rw [List.filter_eq_nil_iff]
        intro t ht
        have := hlt t ht
        simpa using by omega
      rw [List.filter_cons_of_pos (by simpa using by omega), List.filter_cons_of_neg (by simpa using by omega),
        List.filter_cons_of_pos (by simpa using h), ih, h0]
      rfl
    · rw [List.filter_cons_of_neg (by simpa using by omega), List.filter_cons_of_neg (by simpa using by omega),
        List.filter_cons_of_neg (by simpa using by omega), ih]

theorem sorted_prefix {row : List (Int × V)} (hs : Srt row) (hb : ∀ e ∈ row, 0 ≤ e.1) (n : Nat) :
    (row.filter fun e => decide (e.1 < (n : Int))).map Prod.snd =
      ((List.range n).map fun (k : Nat) => lk (k : Int) row).filterMap id := by
  induction n with
  | zero =>
    have : (row.filter fun e => decide (e.1 < ((0 : Nat) : Int))) = [] := by
      rw [List.filter_eq_nil_iff]
      intro t ht
      have := hb t ht
      simpa using this
    rw [this]; rfl
  | succ n ih =>
    have hd : (row.map Prod.fst).Nodup := List.Pairwise.imp (fun h => by omega) hs
    rw [List.range_succ, List.map_append, List.filterMap_append, ← ih]
    have := sorted_split hs (n : Int)
    rw [show ((n + 1 : Nat) : Int) = (n : Int) + 1 from by omega, this, List.map_append, filter_toList hd]
    rw [List.map_singleton]
    cases h : lk (n : Int) row <;> simp

theorem mapM_cells {α : Type} [Zero V] (g : List V → V) (f : α → Option V) (l : List α) :
    ((l.mapM f).map g).getD 0 = if (l.map f).any Option.isNone then 0 else g ((l.map f).filterMap id) := by
  have h : l.mapM f = if (l.map f).any Option.isNone then none else some ((l.map f).filterMap id) := by
    induction l with
    | nil => rfl
    | cons k l ih =>
      rw [List.mapM_cons, ih]
      cases hk : f k with
      | none => simp [hk]
      | some v =>
        by_cases ha : (l.map f).any Option.isNone
        · simp [hk, ha]
        · simp [hk, ha]
  rw [h]
  split <;> rfl

section
variable [Zero V]

/-- The row-major `n × m` list whose element at a cell aggregates the cells up to this one. -/
def ScanIs (agg : List (Option V) → V) (rowwise : Bool) (n m : Nat) (s : Nat → Nat → Option V) (y : List V) : Prop :=
  y.length = n * m ∧ ∀ i j, i < n → j < m → y.getD (i * m + j) 0 =
    agg (if rowwise then (List.range (j + 1)).map (s i) else (List.range (i + 1)).map fun k => s k j)

theorem ScanIs.congr {agg : List (Option V) → V} {rowwise : Bool} {n m n' m' : Nat} {s s' : Nat → Nat → Option V} {y : List V}
    (hn : n' = n) (hm : m' = m) (hs : ∀ i j, s' i j = s i j) (h : ScanIs agg rowwise n' m' s' y) :
    ScanIs agg rowwise n m s y := by
  have : s' = s := funext fun i => funext fun j => hs i j
  subst hn hm this
  exact h

end

section
variable [Zero V] [One V] [Add V] [Mul V]

/-- Along the rows of a well-formed matrix. -/
theorem scanRows_cells (op : ScanOp) (env : PyEnv V) {a : Csr V} (ha : a.WF) (hs : a.nrows * a.ncols ≤ usizeMax) :
    ∃ y, op.Listed env true a y ∧ ScanIs op.bits true a.nrows a.ncols a.stored y := by
  cases op
  · obtain ⟨y, h1, h2, h3⟩ := cumsum_axis1_exact ha hs
    refine ⟨y, h1, h2, fun i j hi hj => ?_⟩
    rw [h3 i j hi hj, if_pos rfl]
    show _ = (((List.range (j + 1)).map (a.stored i)).filterMap id).foldl (· + ·) 0
    have e := sorted_prefix (srt_row ha i) (fun e he => (bounds_row ha i e he).1) (j + 1)
    have e' : ((List.range (j + 1)).map (a.stored i)) = (List.range (j + 1)).map fun (k : Nat) => lk (k : Int) (a.comp.row i) := rfl
    rw [e', ← e, List.foldl_map]
    congr 1
    apply List.filter_congr
    intro x _
    rw [Bool.eq_iff_iff]
    simp only [decide_eq_true_eq]
    omega
  · obtain ⟨y, h1, h2, h3⟩ := cumprod_axis1_exact ha hs
    refine ⟨y, h1, h2, fun i j hi hj => ?_⟩
    rw [h3 i j hi hj, if_pos rfl, mapM_cells]
    rfl

/-- Down the columns, for every matrix whose rows store no column twice. -/
theorem cumAxis0_cells {agg : List (Option V) → V} {axis1 : Csr V → Option (List V)}
    (h1 : ∀ t : Csr V, t.WF → t.nrows * t.ncols ≤ usizeMax →
      ∃ y, axis1 t = some y ∧ ScanIs agg true t.nrows t.ncols t.stored y)
    {sort : List (Int × V) → List (Int × V)} (hsort : IsPairSort sort) (threads : Nat) {a : Csr V} (ha : a.WFU)
    (hd : a.comp.NoRep) (hf : a.comp.Fits) (hm : a.nrows * a.ncols ≤ usizeMax) :
    (∃ y, CumAxis0Run sort threads axis1 a y) ∧
      ∀ y, CumAxis0Run sort threads axis1 a y → ScanIs agg false a.nrows a.ncols a.stored y := by
  unfold CumAxis0Run
  split
  · rename_i h0
    refine ⟨⟨[], rfl⟩, ?_⟩
    rintro y rfl
    refine ⟨by rcases h0 with h | h <;> simp [h], fun i j hi hj => by omega⟩
  · have key : ∀ t, TransposeCsrRun sort threads a t → ∃ y, ((axis1 t).bind fun o => transposeDense o t.nrows t.ncols) = some y ∧
        ScanIs agg false a.nrows a.ncols a.stored y := by
      intro t ht
      obtain ⟨t1, t2, t3, -, t5, -⟩ := transpose_csr_sorts ha hd hf hsort ht
      obtain ⟨o, o1, o2, o3⟩ := h1 t t1 (by rw [t2, t3, Nat.mul_comm]; exact hm)
      obtain ⟨y, y1, y2, y3⟩ := transposeDense_eq o2 (by rw [t2, t3, Nat.mul_comm]; exact hm)
      refine ⟨y, by rw [o1]; exact y1, by rw [y2, t2, t3], fun i j hi hj => ?_⟩
      have e1 := y3 j i (by omega) (by omega)
      have e2 := o3 j i (by omega) (by omega)
      rw [t2] at e1
      rw [e1, e2, if_pos rfl, if_neg (by decide)]
      congr 1
      apply List.map_congr_left
      intro k _
      exact t5 k j
    constructor
    · obtain ⟨t, ht⟩ := transpose_csr_unsorted_exists ha hd hf hsort threads
      obtain ⟨y, h, -⟩ := key t ht
      exact ⟨y, t, ht, h⟩
    · rintro y ⟨t, ht, hy⟩
      obtain ⟨y', h, h'⟩ := key t ht
      rw [h] at hy
      obtain rfl := Option.some.inj hy
      exact h'

/-- The kernels at list level: along the rows the rows must be sorted. -/
theorem scanList_cells {env : PyEnv V} (he : env.Ok) (op : ScanOp) (rowwise : Bool) {a : Csr V} (hw : a.WFU) (hd : a.comp.NoRep)
    (hr : rowwise = true → a.WF) (hf : a.comp.Fits) (hs : a.nrows * a.ncols ≤ usizeMax) :
    (∃ y, op.Listed env rowwise a y) ∧
    ∀ y, op.Listed env rowwise a y → ScanIs op.bits rowwise a.nrows a.ncols a.stored y := by
  cases rowwise
  · cases op
    · exact cumAxis0_cells (fun t ht h => scanRows_cells .sum env ht h) he.pair _ hw hd hf hs
    · exact cumAxis0_cells (fun t ht h => scanRows_cells .prod env ht h) he.pair _ hw hd hf hs
  · obtain ⟨y, h1, h2⟩ := scanRows_cells op env (hr rfl) hs
    refine ⟨⟨y, h1⟩, fun z hz => ?_⟩
    have : y = z := by cases op <;> exact Option.some.inj (Eq.trans (Eq.symm h1) hz)
    exact this ▸ h2

theorem scan_csr_cells {env : PyEnv V} (he : env.Ok) (op : ScanOp) (rowwise : Bool) {a : Csr V} (ha : a.WF)
    (hm : a.comp.Machine) (hl : 8 * ((a.ncols : Int) + 1) ≤ i64Max) (h16 : 16 * (a.data.length : Int) ≤ i64Max)
    (hs : 8 * ((a.nrows * a.ncols : Nat) : Int) ≤ i64Max) :
    Gives (fun N => op.Kernel env rowwise N a) (ScanIs op.bits rowwise a.nrows a.ncols a.stored) := by
  have hw : a.WFU := Comp.WF.wfu ha
  obtain ⟨h1, h2⟩ := scanList_cells he op rowwise hw (Comp.WF.noRep ha) (fun _ => ha) (Comp.WFU.fits_of_machine hw hm) (usize_of_bytes hs)
  exact gives_of (a.data.length + 2)
    (fun N hN o => scanKernel_iff he op rowwise hw (Comp.WF.noRep ha) hm hl h16 hs hN o) h1 h2

/-- What the conversion hands to the kernels. -/
theorem csc_list_cells {env : PyEnv V} (he : env.Ok) (op : ScanOp) (rowwise : Bool) {a : Csc V} (ha : a.WF) (hm : a.comp.Machine)
    (hl : 8 * ((a.nrows : Int) + 1) ≤ i64Max) (hs : 8 * ((a.nrows * a.ncols : Nat) : Int) ≤ i64Max)
    {c : Csr V} (hc : CscToCsrRun a c) (hr : rowwise = true → c.WF) :
    (∃ y, op.Listed env rowwise c y) ∧
    ∀ y, op.Listed env rowwise c y → ScanIs op.bits rowwise a.nrows a.ncols a.stored y := by
  have hf : a.comp.Fits := Comp.WFU.fits_of_machine (Comp.WF.wfu ha) hm
  obtain ⟨c1, c2, -, c4, c5, -⟩ := csc_to_csr_correct (Comp.WF.wfu ha) hf hc
  obtain ⟨-, -, -, -, cm⟩ := csc_to_csr_held ha hm hl hc
  obtain ⟨h1, h2⟩ := scanList_cells he op rowwise c4 (csc_to_csr_noRep ha hf hc) hr (Comp.WFU.fits_of_machine c4 cm)
    (by rw [c1, c2]; exact usize_of_bytes hs)
  exact ⟨h1, fun y hy => (h2 y hy).congr c1 c2 c5⟩

theorem scan_csc_cells {env : PyEnv V} (he : env.Ok) (op : ScanOp) (rowwise : Bool) {a : Csc V} (ha : a.WF) (hm : a.comp.Machine)
    (hl : 8 * ((a.nrows : Int) + 1) ≤ i64Max) (h16 : 16 * (a.data.length : Int) ≤ i64Max)
    (hs : 8 * ((a.nrows * a.ncols : Nat) : Int) ≤ i64Max)
    (hap : rowwise = true → ∀ i j k, a.comp.stored j i ≠ none → a.comp.stored k i ≠ none → j = k) :
    Gives (fun N => op.Run env rowwise N (.csc a)) (ScanIs op.bits rowwise a.nrows a.ncols a.stored) := by
  have hf : a.comp.Fits := Comp.WFU.fits_of_machine (Comp.WF.wfu ha) hm
  refine gives_of (a.data.length + 2) (fun N hN o => scan_csc_iff he op rowwise ha hm hl h16 hs hN o) ?_ ?_
  · obtain ⟨c, hc, hcw⟩ := csc_to_csr_sequential_wf ha hf
    obtain ⟨y, hy⟩ := (csc_list_cells he op rowwise ha hm hl hs hc fun _ => hcw).1
    exact ⟨y, c, hc, hy⟩
  · rintro y ⟨c, hc, hy⟩
    exact (csc_list_cells he op rowwise ha hm hl hs hc fun h => csc_to_csr_apart ha hf (hap h) hc).2 y hy

theorem scan_coo_cells {env : PyEnv V} (he : env.Ok) (op : ScanOp) (rowwise : Bool) {a : Coo V} (ha : a.WF) (hi : a.I64)
    (hn : 8 * ((a.nrows : Int) + 1) ≤ i64Max) (hc : 8 * ((a.ncols : Int) + 1) ≤ i64Max)
    (h24 : 24 * (a.data.length : Int) ≤ i64Max) (hs : 8 * ((a.nrows * a.ncols : Nat) : Int) ≤ i64Max) :
    Gives (fun N => op.Run env rowwise N (.coo a)) (ScanIs op.bits rowwise a.nrows a.ncols
      fun i j => total (env.tripleSort a.triples) ((i : Int), (j : Int))) := by
  obtain ⟨c1, c2, c3, c4⟩ := coo_to_csr_exact he.triple ha hi (by omega) (by omega)
  have hlen := cooToCsr_data_length_le he.triple ha (by omega) (by omega)
  have hm : (cooToCsr env.tripleSort a).comp.Machine := Comp.WFU.machine (Comp.WF.wfu c3)
    (by show 8 * (((cooToCsr env.tripleSort a).nrows : Int) + 1) ≤ _; rw [c1]; exact hn)
    (by show 8 * ((cooToCsr env.tripleSort a).data.length : Int) ≤ _; omega)
  have := scan_csr_cells he op rowwise c3 hm (by rw [c2]; exact hc) (by omega) (by rw [c1, c2]; exact hs)
  refine ⟨this.1, fun o ho => ?_⟩
  obtain ⟨y, e, hy⟩ := this.2 o ho
  exact ⟨y, e, hy.congr c1 c2 c4⟩

end

section
variable [Zero V] [Add V]

theorem opt_sumAll (o : Option V) : o = sumAll o.toList := by cases o <;> rfl

/-- The cells of a matrix as a function of the index. -/
def cellsFun (s : Nat → Nat → Option V) : List Int → Option V
  | [i, j] => s i.toNat j.toNat
  | _ => none

theorem cellsFun_at (s : Nat → Nat → Option V) (i j : Nat) : cellsFun s [(i : Int), (j : Int)] = s i j := rfl

/-- Cell sums, matrix by matrix. -/
theorem cellSums_csr {a : Comp V} (hd : a.NoRep) : (SpVal.mat .csr a).CellSums (cellsFun a.toCsr.stored) := by
  intro x hx
  obtain ⟨i, j, hi, hj, rfl⟩ := inBounds_two (show InBounds [a.n, a.m] x from hx)
  exact ⟨_, List.Perm.refl _, by rw [held_csr a hi j, cell_toList hd]; exact opt_sumAll _⟩

theorem cellSums_csc {a : Comp V} (hd : a.NoRep) : (SpVal.mat .csc a).CellSums (cellsFun a.toCsc.stored) := by
  intro x hx
  obtain ⟨i, j, hi, hj, rfl⟩ := inBounds_two (show InBounds [a.m, a.n] x from hx)
  exact ⟨_, List.Perm.refl _, by rw [held_csc a i hj, cell_toList hd]; exact opt_sumAll _⟩

theorem cellSums_coo {sort : List ((Int × Int) × V) → List ((Int × Int) × V)} (hs : IsTripleSort sort) (a : Coo V) :
    (SpVal.coo a).CellSums (cellsFun fun i j => total (sort a.triples) ((i : Int), (j : Int))) := by
  intro x hx
  obtain ⟨i, j, hi, hj, rfl⟩ := inBounds_two (show InBounds [a.nrows, a.ncols] x from hx)
  refine ⟨valuesAt (sort a.triples) ((i : Int), (j : Int)), ?_, rfl⟩
  rw [held_coo]
  exact ((hs a.triples).1.filter _).map _

end

section
variable [Zero V] [One V] [Add V] [Mul V]

theorem ScanIs.toArr {agg : List (Option V) → V} {rowwise : Bool} {n m : Nat} {s : Nat → Nat → Option V} {y : List V}
    (h : ScanIs agg rowwise n m s y) : IsScanOf agg rowwise [n, m] (cellsFun s) ⟨[n, m], y⟩ := by
  refine ⟨n, m, rfl, rfl, h.1, fun i j hi hj => ?_⟩
  rw [h.2 i j hi hj]
  unfold upTo
  congr 1

/-- `cumsum` and `cumprod` of a valid 2-D object in any arithmetic. -/
theorem scan_held {env : PyEnv V} (he : env.Ok) {v : SpVal V} (h : v.Good) (h2 : v.ty.Is2d) (op : ScanOp) {axis : AxisArg}
    {rowwise : Bool} (hx : axis.Single rowwise) (hs : 8 * (v.ty.shape.prod : Int) ≤ i64Max)
    (hap : rowwise = true → v.RowsApart) :
    GivesPy (ScanMethod env op axis v.obj) (fun r => ∃ c, v.CellSums c ∧ IsScanOf op.bits rowwise v.ty.shape c r) := by
  have core : ∀ {nat : Native V} {n m : Nat} {s : Nat → Nat → Option V},
      (v.obj.native (fun _ => .parts) .parts = .ok nat) → v.obj.dims = (n, m) → v.ty.shape = [n, m] →
      (∀ a, v.obj ≠ .nd a) → (n : Int) ≤ i64Max → (m : Int) ≤ i64Max → v.CellSums (cellsFun s) →
      Gives (fun N => op.Run env rowwise N nat) (ScanIs op.bits rowwise n m s) →
      GivesPy (ScanMethod env op axis v.obj) (fun r => ∃ c, v.CellSums c ∧ IsScanOf op.bits rowwise v.ty.shape c r) := by
    intro nat n m s hn hd hsh hnd hn1 hm1 hcell g
    have hs' : 8 * ((n * m : Nat) : Int) ≤ i64Max := by
      rw [hsh] at hs
      simpa using hs
    have := (Gives.call (run := fun N a => op.Run env rowwise N a) g).bind
      (S := fun r => ∃ c, v.CellSums c ∧ IsScanOf op.bits rowwise v.ty.shape c r) (k := scanArray n m) fun y hy =>
        ⟨_, scanArray_ok hs' hn1 hm1 hy.1, _, hcell, by rw [hsh]; exact hy.toArr⟩
    have key := scanMethod_single (env := env) (op := op) hx hnd
    rw [hn, hd] at key
    exact ⟨this.1.imp fun o ho => (key o).2 ho, fun o ho => this.2 o ((key o).1 ho)⟩
  cases v with
  | mat fm a =>
    have hd := h.dims
    cases fm with
    | csr =>
      have hs' : 8 * ((a.n * (a.m * 1) : Nat) : Int) ≤ i64Max := hs
      rw [Nat.mul_one] at hs'
      exact core (n := a.n) (m := a.m) (native_csr h _ _) rfl rfl (by simp [SpVal.obj]) (by omega) (by omega)
        (cellSums_csr (Comp.WF.noRep h.1))
        (scan_csr_cells he op rowwise (a := a.toCsr) h.1 h.held.mach hd.2.1 (by show 16 * (a.data.length : Int) ≤ _; omega) hs')
    | csc =>
      have hs' : 8 * ((a.m * (a.n * 1) : Nat) : Int) ≤ i64Max := hs
      rw [Nat.mul_one] at hs'
      exact core (n := a.m) (m := a.n) (native_csc h _ _) rfl rfl (by simp [SpVal.obj]) (by omega) (by omega)
        (cellSums_csc (Comp.WF.noRep h.1))
        (scan_csc_cells he op rowwise (a := a.toCsc) h.1 h.held.mach hd.2.1 (by show 16 * (a.data.length : Int) ≤ _; omega) hs' hap)
  | coo a =>
    have hs' : 8 * ((a.nrows * (a.ncols * 1) : Nat) : Int) ≤ i64Max := hs
    rw [Nat.mul_one] at hs'
    obtain ⟨d1, d2, d3⟩ : 8 * ((a.nrows : Int) + 1) ≤ i64Max ∧ 8 * ((a.ncols : Int) + 1) ≤ i64Max ∧
      24 * (a.data.length : Int) ≤ i64Max := h.2
    exact core (n := a.nrows) (m := a.ncols) (native_coo h _ _) rfl rfl (by simp [SpVal.obj]) (by omega) (by omega)
      (cellSums_coo he.triple a)
      (scan_coo_cells he op rowwise h.1.1 h.1.2 d1 d2 d3 hs')
  | nd a => exact absurd h2 id

end

/-! ### Differences -/

section
variable [BEq V] [Zero V] [Add V] [Neg V]

/-- The cell that the differences put at `(i, j)`. -/
def diffCellAt (rowwise : Bool) (n : Nat) (s : Nat → Nat → Option V) (i j : Nat) : Option V :=
  if rowwise then diffRowOpt n (s i) j else diffOpt n (fun k => s k j) i

/-- What the differences of the cells of an `r × c` matrix look like. -/
def IsDiffC (rowwise : Bool) (n r c : Nat) (s : Nat → Nat → Option V) (r' c' : Nat) (g : Nat → Nat → Option V) : Prop :=
  r' = (if rowwise then r else r - n) ∧ c' = (if rowwise then c - n else c) ∧
    ((∀ a b : V, a + b = b + a) → ∀ i j, i < r' → j < c' → g i j = diffCellAt rowwise n s i j)

theorem IsDiffC.cells {rowwise : Bool} {n r c : Nat} {s : Nat → Nat → Option V} {r' c' : Nat} {g : Nat → Nat → Option V}
    (h : IsDiffC rowwise n r c s r' c' g) : r' ≤ r ∧ c' ≤ c ∧ r' * c' ≤ r * c := by
  obtain ⟨h1, h2, -⟩ := h
  have h1 : r' ≤ r := by cases rowwise <;> simp at h1 <;> omega
  have h2 : c' ≤ c := by cases rowwise <;> simp at h2 <;> omega
  exact ⟨h1, h2, Nat.mul_le_mul h1 h2⟩

theorem diffListed_cells {env : PyEnv V} (he : env.Ok) (rowwise : Bool) (n : Nat) {a : Csr V} (ha : a.WF)
    (hm : a.comp.Machine) (hl : 8 * ((a.ncols : Int) + 1) ≤ i64Max) (hd : 32 * ((a.nrows * a.ncols : Nat) : Int) ≤ i64Max) :
    (∃ r, DiffListed env rowwise n a r) ∧
    ∀ r, DiffListed env rowwise n a r → r.WF ∧ IsDiffC rowwise n a.nrows a.ncols a.stored r.nrows r.ncols r.stored := by
  have hw : a.WFU := Comp.WF.wfu ha
  have hf : a.comp.Fits := Comp.WFU.fits_of_machine hw hm
  cases rowwise
  · have : (a.nrows - n) * a.ncols ≤ a.nrows * a.ncols := Nat.mul_le_mul_right _ (by omega)
    refine ⟨diff_csr_axis0_defined he.nd he.pair env.threads hw (Comp.WF.noRep ha) hf (by omega) (n := n) (by omega), ?_⟩
    intro r hr
    obtain ⟨d1, d2, d3, d4, -, d6⟩ := diff_csr_axis0_any he.nd he.pair hw (Comp.WF.noRep ha) hf (by omega) hr
    refine ⟨?_, d1, d2, fun hcm i j hi hj => d6 hcm i j (by omega) (by omega)⟩
    by_cases h0 : n = 0
    · rw [d3 h0]; exact ha
    · exact (d4 (by omega)).1
  · have : a.nrows * (a.ncols - n) ≤ a.nrows * a.ncols := Nat.mul_le_mul_left _ (by omega)
    refine ⟨diff_csr_axis1_defined he.nd hw (n := n) (.inr ha) (by omega), ?_⟩
    intro r hr
    obtain ⟨d1, d2, -, d4, -, -, -, d8⟩ := diff_csr_axis1_any he.nd hw hr
    exact ⟨d4 (.inr ha), d1, d2, fun hcm i j hi hj => d8 hcm (Comp.WF.noRep ha) i j (by omega) (by omega)⟩

theorem diff_csr_cells {env : PyEnv V} (he : env.Ok) (rowwise : Bool) (n : Nat) {a : Csr V} (ha : a.WF)
    (hm : a.comp.Machine) (hl : 8 * ((a.ncols : Int) + 1) ≤ i64Max) (hd : 32 * ((a.nrows * a.ncols : Nat) : Int) ≤ i64Max) :
    Gives (fun N => DiffKernel env rowwise n N a)
      (fun r => r.WF ∧ IsDiffC rowwise n a.nrows a.ncols a.stored r.nrows r.ncols r.stored) := by
  obtain ⟨h1, h2⟩ := diffListed_cells he rowwise n ha hm hl hd
  exact gives_of (a.nrows * a.ncols + 1) (fun N hN o => diffKernel_iff he rowwise n (Comp.WF.wfu ha) (Comp.WF.noRep ha) hm hl hd
    (Comp.WF.data_length_le ha) hN o) h1 h2

theorem diff_csc_cells {env : PyEnv V} (he : env.Ok) (rowwise : Bool) (n : Nat) {a : Csc V} (ha : a.WF)
    (hm : a.comp.Machine) (hl : 8 * ((a.nrows : Int) + 1) ≤ i64Max) (hd : 32 * ((a.nrows * a.ncols : Nat) : Int) ≤ i64Max) :
    Gives (fun N => DiffCscPtr env.dbg (DiffKernel env rowwise n N) a)
      (fun r => r.WFU ∧ r.comp.NoRep ∧ 8 * (r.data.length : Int) ≤ i64Max ∧
        IsDiffC rowwise n a.nrows a.ncols a.stored r.nrows r.ncols r.stored) ∧
    ∃ r, r.WF ∧ Settles (fun N => DiffCscPtr env.dbg (DiffKernel env rowwise n N) a) (.ok r) := by
  have ht : env.threads < 2 ^ 62 := by have := he.threads; omega
  have hf : a.comp.Fits := Comp.WFU.fits_of_machine (Comp.WF.wfu ha) hm
  have hle : a.data.length ≤ a.ncols * a.nrows := Comp.WF.data_length_le ha
  rw [Nat.mul_comm] at hle
  cases rowwise
  · have hx := (diff_csc_defined he.nd he.pair env.threads ha hf (by omega) (n := n)).2
      (by have : (a.nrows - n) * a.ncols ≤ a.nrows * a.ncols := Nat.mul_le_mul_right _ (by omega)
          omega)
    have key : ∀ N, a.nrows * a.ncols + 1 ≤ N → ∀ o, DiffCscPtr env.dbg (DiffKernel env false n N) a o ↔
        ∃ r, DiffCscAxis0Run env.ndSort env.pairSort env.threads n a r ∧ o = .ok r := fun N hN o =>
      diff_csc_axis0_ptr he.nd he.pair ht ha hm hl hd (by omega) env.dbg o
    refine ⟨gives_of _ key (hx.imp fun _ h => h.1) ?_, ?_⟩
    · intro r hr
      obtain ⟨d1, d2, d3, dn, d4⟩ := diff_csc_axis0_any he.nd he.pair ha hf (by omega) hr
      refine ⟨d3, dn, ?_, d1, d2, fun hcm i j hi hj => d4 hcm i j (by omega) (by omega)⟩
      obtain ⟨c, b, hc, hb, hr⟩ := hr
      obtain ⟨c1, c2, c3, c4, c5⟩ := csc_to_csr_machine ha hm hl hc
      obtain ⟨k1, k2, k3, k4, k5, -⟩ := diff_csr_axis0_any he.nd he.pair c4 (csc_to_csr_noRep ha hf hc)
        (Comp.WFU.fits_of_machine c4 c5) (by rw [c2]; have := hf.1; exact this) hb
      have hbw : b.WFU ∧ 8 * (b.data.length : Int) ≤ i64Max := by
        by_cases h0 : n = 0
        · rw [k3 h0]; exact ⟨c4, by rw [c3]; omega⟩
        · have bw := (k4 (by omega)).1
          have ble : b.data.length ≤ b.nrows * b.ncols := Comp.WF.data_length_le bw
          have : b.nrows * b.ncols ≤ a.nrows * a.ncols := by
            rw [k1, k2, c1, c2]; exact Nat.mul_le_mul_right _ (by omega)
          exact ⟨Comp.WF.wfu bw, by omega⟩
      obtain ⟨-, -, r3, -⟩ := csr_to_csc_correct hbw.1 ⟨by show (b.nrows : Int) ≤ _; rw [k1, c1]; omega, k5⟩ hr
      rw [r3]; exact hbw.2
    · obtain ⟨r, h1, h2⟩ := hx
      exact ⟨r, h2, _, fun N hN => (key N hN _).2 ⟨r, h1, rfl⟩⟩
  · have hx := (diff_csc_defined he.nd he.pair env.threads ha hf (by omega) (n := n)).1
      (by have : a.nrows * (a.ncols - n) ≤ a.nrows * a.ncols := Nat.mul_le_mul_left _ (by omega)
          omega)
    have key : ∀ N, a.nrows * a.ncols + 1 ≤ N → ∀ o, DiffCscPtr env.dbg (DiffKernel env true n N) a o ↔
        ∃ r, DiffCscAxis1Run env.ndSort n a r ∧ o = .ok r := fun N hN o =>
      diff_csc_axis1_ptr he.nd ha hm hl hd (by omega) env.dbg o
    refine ⟨gives_of _ key (hx.imp fun _ h => h.1) ?_, ?_⟩
    · intro r hr
      obtain ⟨d1, d2, d3, dn, d5, d4⟩ := diff_csc_axis1_any he.nd ha hf (by omega) hr
      exact ⟨d3, dn, by exact_mod_cast d5, d1, d2, fun hcm i j hi hj => d4 hcm i j (by omega) (by omega)⟩
    · obtain ⟨r, h1, h2⟩ := hx
      exact ⟨r, h2, _, fun N hN => (key N hN _).2 ⟨r, h1, rfl⟩⟩

theorem diff_coo_cells {env : PyEnv V} (he : env.Ok) (rowwise : Bool) (n : Nat) {a : Coo V} (ha : a.WF) (hi : a.I64)
    (hn : 8 * ((a.nrows : Int) + 1) ≤ i64Max) (hc : 8 * ((a.ncols : Int) + 1) ≤ i64Max)
    (h24 : 24 * (a.data.length : Int) ≤ i64Max) (hd : 32 * ((a.nrows * a.ncols : Nat) : Int) ≤ i64Max) :
    Gives (fun N => DiffCooKernel env rowwise n N a)
      (fun r => r.WF ∧ r.I64 ∧ r.NoDup ∧ r.data.length ≤ r.nrows * r.ncols ∧
        ∃ g : Nat → Nat → Option V, (∀ i j : Nat, i < r.nrows → valuesAt r.triples ((i : Int), (j : Int)) = (g i j).toList) ∧
        IsDiffC rowwise n a.nrows a.ncols (fun i j => total (env.tripleSort a.triples) ((i : Int), (j : Int)))
          r.nrows r.ncols g) := by
  obtain ⟨c1, c2, c3, c4⟩ := coo_to_csr_exact he.triple ha hi (by omega) (by omega)
  have hlen := cooToCsr_data_length_le he.triple ha (by omega) (by omega)
  have hv : (cooToCsr env.tripleSort a).stored = fun (i j : Nat) => total (env.tripleSort a.triples) ((i : Int), (j : Int)) :=
    funext fun i => funext fun j => c4 i j
  have hm : (cooToCsr env.tripleSort a).comp.Machine := Comp.WFU.machine (Comp.WF.wfu c3)
    (by show 8 * (((cooToCsr env.tripleSort a).nrows : Int) + 1) ≤ _; rw [c1]; exact hn)
    (by show 8 * ((cooToCsr env.tripleSort a).data.length : Int) ≤ _; omega)
  obtain ⟨⟨b0, hb0⟩, h2⟩ := diffListed_cells he rowwise n c3 hm (by rw [c2]; exact hc) (by rw [c1, c2]; exact hd)
  rw [c1, c2, hv] at h2
  have hb : ∀ b, DiffListed env rowwise n (cooToCsr env.tripleSort a) b → b.WF ∧ b.comp.Machine ∧
      b.data.length ≤ b.nrows * b.ncols ∧ IsDiffC rowwise n a.nrows a.ncols
        (fun (i j : Nat) => total (env.tripleSort a.triples) ((i : Int), (j : Int))) b.nrows b.ncols b.stored := by
    intro b hb
    obtain ⟨b1, b2⟩ := h2 b hb
    obtain ⟨k1, k2, k3⟩ := b2.cells
    have hle : b.data.length ≤ b.nrows * b.ncols := Comp.WF.data_length_le b1
    exact ⟨b1, Comp.WFU.machine (Comp.WF.wfu b1) (by show 8 * ((b.nrows : Int) + 1) ≤ _; omega)
      (by show 8 * (b.data.length : Int) ≤ _; omega), hle, b2⟩
  refine gives_of (R := fun r => ∃ b, DiffListed env rowwise n (cooToCsr env.tripleSort a) b ∧ CsrToCooRun b r)
    (a.nrows * a.ncols + 1) (fun N hN o => ?_) ?_ ?_
  · have key := diffKernel_iff he rowwise n (Comp.WF.wfu c3) (Comp.WF.noRep c3) hm (by rw [c2]; exact hc)
      (by rw [c1, c2]; exact hd) (Comp.WF.data_length_le c3) (N := N) (by rw [c1, c2]; exact hN)
    unfold DiffCooKernel
    constructor
    · rintro ⟨ob, hob, h⟩
      obtain ⟨b, hbl, rfl⟩ := (key ob).1 hob
      obtain ⟨b1, b2, -, -⟩ := hb b hbl
      obtain ⟨r, hr, rfl⟩ := (csr_to_coo_ptr (Comp.WFU.ptrOk (Comp.WF.wfu b1)) b2 env.dbg o).1 h
      exact ⟨r, ⟨b, hbl, hr⟩, rfl⟩
    · rintro ⟨r, ⟨b, hbl, hr⟩, rfl⟩
      obtain ⟨b1, b2, -, -⟩ := hb b hbl
      exact ⟨.ok b, (key _).2 ⟨b, hbl, rfl⟩,
        (csr_to_coo_ptr (Comp.WFU.ptrOk (Comp.WF.wfu b1)) b2 env.dbg _).2 ⟨r, hr, rfl⟩⟩
  · obtain ⟨r, hr⟩ := csr_to_coo_exists b0
    exact ⟨r, b0, hb0, hr⟩
  · rintro r ⟨b, hbl, hr⟩
    obtain ⟨b1, b2, b3, e1, e2, e3⟩ := hb b hbl
    obtain ⟨r1, r2, r3, r4, r5, -, r7, -, r9⟩ := csr_to_coo_correct (Comp.WF.wfu b1)
      (Comp.WFU.fits_of_machine (Comp.WF.wfu b1) b2) hr
    refine ⟨r3, r4, r9 b1, by rw [r5, r1, r2]; exact b3, b.stored, fun i j hi => ?_,
      by rw [r1]; exact e1, by rw [r2]; exact e2, fun hcm i j hi hj => e3 hcm i j (by omega) (by omega)⟩
    rw [← held_coo, show b.stored i j = b.comp.stored i j from rfl, ← cell_toList (Comp.WF.noRep b1)]
    rw [← held_csr b.comp (show i < b.comp.n by rw [r1] at hi; exact hi) j]
    unfold SpVal.held
    congr 1
    show (r.triples.map fun t => ([t.1.1, t.1.2], t.2)) = _
    rw [r7, List.map_flatMap]
    refine List.flatMap_congr fun k _ => ?_
    rw [List.map_map]
    rfl

theorem diffBits_at (rowwise : Bool) (n : Nat) (s : Nat → Nat → Option V) (i j : Nat) :
    diffBits rowwise n (cellsFun s) [(i : Int), (j : Int)] = diffCellAt rowwise n s i j := by
  unfold diffBits diffCellAt diffRowOpt
  cases rowwise
  · rfl
  · by_cases h : n = 0
    · simp only [h]; rfl
    · simp only [h]; rfl

/-- `diff` of a valid 2-D object in any arithmetic. -/
theorem diff_held {env : PyEnv V} (he : env.Ok) {v : SpVal V} (h : v.Good) (h2 : v.ty.Is2d) {axis : Int} {rowwise : Bool}
    (hx : if rowwise then axis = 1 ∨ axis = -1 else axis = 0 ∨ axis = -2) {n : Nat} (hn : n ≤ usizeMax)
    (hs : 32 * (v.ty.shape.prod : Int) ≤ i64Max) :
    GivesPy (DiffMethod env n axis v.obj) (fun o => ∃ w : SpVal V, o = w.obj ∧ w.DiffTyped v rowwise n ∧
      ∃ c, v.CellSums c ∧ ((∀ a b : V, a + b = b + a) →
        ∀ x, InBounds w.ty.shape x → w.held x = (diffBits rowwise n c x).toList)) ∧
    ((∃ a, v = .mat .csc a) → ∃ w : SpVal V, w.Valid ∧ DiffMethod env n axis v.obj (.ret w.obj)) := by
  obtain ⟨hx1, hx2⟩ := diffMethod_axis hx
  cases v with
  | mat fm a =>
    have hd := h.dims
    cases fm with
    | csr =>
      have hs' : 32 * ((a.n * (a.m * 1) : Nat) : Int) ≤ i64Max := hs
      rw [Nat.mul_one] at hs'
      have g := diff_csr_cells he rowwise n (a := a.toCsr) h.1 h.held.mach hd.2.1 hs'
      have key : ∀ out, DiffMethod env n axis (SpVal.mat .csr a).obj out ↔
          ∃ o, Settles (fun N => DiffKernel env rowwise n N a.toCsr) o ∧
            out = (PyRes.ofKernel o).bind fun r => wrapMat .csr r.comp := by
        intro out
        show (if ¬ _ then _ else _) ↔ _
        rw [if_neg (not_not.2 hx1)]
        simp only [hx2]
        rw [h.held.operand, diffArgs_ok _ hn]
      have := settles_wrap (S := fun o => ∃ w : SpVal V, o = w.obj ∧ w.DiffTyped (.mat .csr a) rowwise n ∧
          ∃ c, (SpVal.mat .csr a).CellSums c ∧ ((∀ a b : V, a + b = b + a) →
            ∀ x, InBounds w.ty.shape x → w.held x = (diffBits rowwise n c x).toList))
        (k := fun r : Csr V => wrapMat .csr r.comp) g (fun r hr => by
          obtain ⟨r1, r2⟩ := hr
          obtain ⟨k1, k2, k3⟩ := r2.cells
          have hle : r.data.length ≤ r.nrows * r.ncols := Comp.WF.data_length_le r1
          have e1 : a.toCsr.nrows = a.n := rfl
          have e2 : a.toCsr.ncols = a.m := rfl
          have hok : (SpVal.mat .csr r.comp).ty.SizeOk (SpVal.mat .csr r.comp).nnz :=
            ⟨by show 8 * ((r.nrows : Int) + 1) ≤ _; omega, by show 8 * ((r.ncols : Int) + 1) ≤ _; omega,
              by show 24 * (r.data.length : Int) ≤ _; rw [e1, e2] at k3; omega⟩
          refine ⟨_, wrapMat_of (f := .csr) (a := r.comp) ⟨r1, hok⟩, .mat .csr r.comp, rfl, ⟨?_, Comp.WF.wfu r1,
            Comp.WF.noRep r1, fun _ => ⟨r1, hok⟩⟩, _, cellSums_csr (Comp.WF.noRep h.1), ?_⟩
          · obtain ⟨t1, t2, -⟩ := r2
            show Ty.mat .csr r.nrows r.ncols = _
            rw [t1, t2]
            cases rowwise <;> rfl
          · intro hcm x hxb
            obtain ⟨i, j, hi, hj, rfl⟩ := inBounds_two (show InBounds [r.nrows, r.ncols] x from hxb)
            rw [held_csr r.comp hi j, cell_toList (Comp.WF.noRep r1), diffBits_at]
            exact congrArg Option.toList (r2.2.2 hcm i j hi hj))
      refine ⟨⟨this.1.imp fun o ho => (key o).2 ho, fun o ho => this.2 o ((key o).1 ho)⟩, ?_⟩
      rintro ⟨b, hb⟩
      cases hb
    | csc =>
      have hs' : 32 * ((a.m * (a.n * 1) : Nat) : Int) ≤ i64Max := hs
      rw [Nat.mul_one] at hs'
      obtain ⟨g, r0, hr0, hset⟩ := diff_csc_cells he rowwise n (a := a.toCsc) h.1 h.held.mach hd.2.1 hs'
      have key : ∀ out, DiffMethod env n axis (SpVal.mat .csc a).obj out ↔
          ∃ o, Settles (fun N => DiffCscPtr env.dbg (DiffKernel env rowwise n N) a.toCsc) o ∧
            out = (PyRes.ofKernel o).bind fun r => wrapMat .csc r.comp := by
        intro out
        show (if ¬ _ then _ else _) ↔ _
        rw [if_neg (not_not.2 hx1)]
        simp only [hx2]
        rw [h.held.operand, diffArgs_ok _ hn]
      have hwrap : ∀ r : Csc V, r.WFU ∧ r.comp.NoRep ∧ 8 * (r.data.length : Int) ≤ i64Max ∧
          IsDiffC rowwise n a.toCsc.nrows a.toCsc.ncols a.toCsc.stored r.nrows r.ncols r.stored →
          wrapMat .csc r.comp = .ret (SpVal.mat .csc r.comp).obj := by
        rintro r ⟨r1, -, r2, r3⟩
        obtain ⟨k1, k2, k3⟩ := r3.cells
        have e1 : a.toCsc.nrows = a.m := rfl
        have e2 : a.toCsc.ncols = a.n := rfl
        exact wrapMat_wfu r1 (by show 8 * ((r.ncols : Int) + 1) ≤ _; omega) (by show 8 * ((r.nrows : Int) + 1) ≤ _; omega) r2
      have := settles_wrap (S := fun o => ∃ w : SpVal V, o = w.obj ∧ w.DiffTyped (.mat .csc a) rowwise n ∧
          ∃ c, (SpVal.mat .csc a).CellSums c ∧ ((∀ a b : V, a + b = b + a) →
            ∀ x, InBounds w.ty.shape x → w.held x = (diffBits rowwise n c x).toList))
        (k := fun r : Csc V => wrapMat .csc r.comp) g (fun r hr => by
          refine ⟨_, hwrap r hr, .mat .csc r.comp, rfl, ⟨?_, hr.1, hr.2.1, fun hcsc => absurd rfl (hcsc a)⟩, _,
            cellSums_csc (Comp.WF.noRep h.1), ?_⟩
          · obtain ⟨t1, t2, -⟩ := hr.2.2.2
            show Ty.mat .csc r.nrows r.ncols = _
            rw [t1, t2]
            cases rowwise <;> rfl
          · intro hcm x hxb
            obtain ⟨i, j, hi, hj, rfl⟩ := inBounds_two (show InBounds [r.nrows, r.ncols] x from hxb)
            rw [held_csc r.comp i hj, cell_toList hr.2.1, diffBits_at]
            exact congrArg Option.toList (hr.2.2.2.2.2 hcm i j hi hj))
      refine ⟨⟨this.1.imp fun o ho => (key o).2 ho, fun o ho => this.2 o ((key o).1 ho)⟩, fun _ => ?_⟩
      obtain ⟨y, e, hy⟩ := g.2 _ hset
      cases e
      exact ⟨.mat .csc r0.comp, hr0, (key _).2 ⟨_, hset, (hwrap _ hy).symm⟩⟩
  | coo a =>
    have hs' : 32 * ((a.nrows * (a.ncols * 1) : Nat) : Int) ≤ i64Max := hs
    rw [Nat.mul_one] at hs'
    obtain ⟨d1, d2, d3⟩ : 8 * ((a.nrows : Int) + 1) ≤ i64Max ∧ 8 * ((a.ncols : Int) + 1) ≤ i64Max ∧
      24 * (a.data.length : Int) ≤ i64Max := h.2
    have g := diff_coo_cells he rowwise n (a := a) h.1.1 h.1.2 d1 d2 d3 hs'
    have key : ∀ out, DiffMethod env n axis (SpVal.coo a).obj out ↔
        ∃ o, Settles (fun N => DiffCooKernel env rowwise n N a) o ∧ out = (PyRes.ofKernel o).bind wrapCoo := by
      intro out
      show (if ¬ _ then _ else _) ↔ _
      rw [if_neg (not_not.2 hx1)]
      simp only [hx2]
      rw [h.cooOperand, diffArgs_ok _ hn]
    have := settles_wrap (S := fun o => ∃ w : SpVal V, o = w.obj ∧ w.DiffTyped (.coo a) rowwise n ∧
          ∃ c, (SpVal.coo a).CellSums c ∧ ((∀ a b : V, a + b = b + a) →
            ∀ x, InBounds w.ty.shape x → w.held x = (diffBits rowwise n c x).toList))
      (k := fun r : Coo V => wrapCoo r) g (fun r hr => by
        obtain ⟨r1, r2, r3, r4, gg, r6, r5⟩ := hr
        obtain ⟨k1, k2, k3⟩ := r5.cells
        have hok : (SpVal.coo r).ty.SizeOk (SpVal.coo r).nnz :=
          ⟨by show 8 * ((r.nrows : Int) + 1) ≤ _; omega, by show 8 * ((r.ncols : Int) + 1) ≤ _; omega,
            by show 24 * (r.data.length : Int) ≤ _; omega⟩
        refine ⟨_, wrapCoo_of (a := r) ⟨⟨r1, r2⟩, hok⟩, .coo r, rfl, ⟨?_, ⟨r1, r2⟩, r3,
          fun _ => ⟨⟨r1, r2⟩, hok⟩⟩, _, cellSums_coo he.triple a, ?_⟩
        · obtain ⟨t1, t2, -⟩ := r5
          show Ty.coo r.nrows r.ncols = _
          rw [t1, t2]
          cases rowwise <;> rfl
        · intro hcm x hxb
          obtain ⟨i, j, hi, hj, rfl⟩ := inBounds_two (show InBounds [r.nrows, r.ncols] x from hxb)
          rw [held_coo, r6 i j hi, diffBits_at]
          exact congrArg Option.toList (r5.2.2 hcm i j hi hj))
    refine ⟨⟨this.1.imp fun o ho => (key o).2 ho, fun o ho => this.2 o ((key o).1 ho)⟩, ?_⟩
    rintro ⟨b, hb⟩
    cases hb
  | nd a => exact absurd h2 id

end
end Lacuna
