import Verif.Lemmas.PyScanAny
import Verif.Props.PyScan
import Verif.Props.PyAny
/-
C87: `cumsum`, `cumprod` and `diff` of objects of the sparse classes and of programs over them, in whatever
arithmetic the machine has.
-/
set_option linter.unusedSectionVars false

namespace Lacuna
variable {V : Type}

/-! ### Cumulative sums and products -/

section
variable [Zero V] [One V] [Add V] [Mul V]

/-- C87: `cumsum` and `cumprod` of a valid matrix along one axis, in any arithmetic: whatever the schedule, the call
has an outcome, and every outcome is the dense array of the shape of the matrix whose element at a cell is
accumulated from left to right over the cells up to this one, empty ones left out of a sum and turning a product into 0;
a cell that holds several numbers contributes their sum, added in some order.  A CSC matrix scanned along the rows must not store
two entries in a row. -/
theorem py_scan_any {env : PyEnv V} (he : env.Ok) {v : SpVal V} (hv : v.Valid) (hs : v.ty.SizeOk v.nnz) (h2 : v.ty.Is2d)
    (op : ScanOp) {axis : AxisArg} {rowwise : Bool} (hx : axis.Single rowwise) (hd : 8 * (v.ty.shape.prod : Int) ≤ i64Max)
    (hap : rowwise = true → v.RowsApart) :
    (∃ out, ScanMethod env op axis v.obj out) ∧
    ∀ out, ScanMethod env op axis v.obj out →
      ∃ r c, out = .ret r ∧ v.CellSums c ∧ IsScanOf op.bits rowwise v.ty.shape c r := by
  obtain ⟨h1, h⟩ := scan_held he ⟨hv, hs⟩ h2 op hx hd hap
  refine ⟨h1, fun out hout => ?_⟩
  obtain ⟨r, e, c, hc, hr⟩ := h out hout
  exact ⟨r, c, e, hc, hr⟩

/-- C87: along the rows of any valid CSC matrix, in any arithmetic: never undefined behaviour, always a dense
array of the right shape and number of elements, and one of the possible outcomes is the right one. -/
theorem py_scan_csc_rows_any {env : PyEnv V} (he : env.Ok) {a : Comp V} (hv : a.WF)
    (hs : (SpVal.mat .csc a).ty.SizeOk a.data.length) (op : ScanOp) {axis : AxisArg} (hx : axis.Single true)
    (hd : 8 * ((a.m * a.n : Nat) : Int) ≤ i64Max) :
    (∀ out, ScanMethod env op axis (SpVal.mat .csc a).obj out →
      ∃ r, out = .ret r ∧ r.shape = [a.m, a.n] ∧ r.data.length = a.m * a.n) ∧
    ∃ r c, ScanMethod env op axis (SpVal.mat .csc a).obj (.ret r) ∧ (SpVal.mat .csc a).CellSums c ∧
      IsScanOf op.bits true [a.m, a.n] c r := by
  have hg : (SpVal.mat .csc a).Good := ⟨hv, hs⟩
  have hw : a.toCsc.WF := hv
  have hm := hg.held.mach
  have hdim := hg.dims
  have hf : a.toCsc.comp.Fits := Comp.WFU.fits_of_machine (Comp.WF.wfu hv) hm
  have key := scanMethod_single (env := env) (op := op) hx (x := (SpVal.mat .csc a).obj) (by simp [SpVal.obj])
  rw [native_csc hg] at key
  have run : ∀ N, a.data.length + 2 ≤ N → ∀ o, op.Run env true N (.csc a.toCsc) o ↔
      ∃ y, (∃ c, CscToCsrRun a.toCsc c ∧ op.Listed env true c y) ∧ o = .ok y := fun N hN o =>
    scan_csc_iff he op true hw hm hdim.2.1 (by show 16 * (a.data.length : Int) ≤ _; omega) hd hN o
  have hlen : ∀ c y, CscToCsrRun a.toCsc c → op.Listed env true c y → y.length = a.m * a.n := by
    intro c y hc hy
    obtain ⟨c1, c2, c3, c4, c5⟩ := csc_to_csr_held hw hm hdim.2.1 hc
    have c1 : c.nrows = a.m := c1
    have c2 : c.ncols = a.n := c2
    obtain ⟨z, hz, hl⟩ := scanRows_length op (env := env) c4 (by rw [c1, c2]; exact hd)
    have : z = y := by cases op <;> exact Option.some.inj (Eq.trans (Eq.symm hz) hy)
    rw [← this, hl, c1, c2]
  have hsa : ∀ y : List V, y.length = a.m * a.n → scanArray a.m a.n y = .ret ⟨[a.m, a.n], y⟩ := fun y hy =>
    scanArray_ok hd (by omega) (by omega) hy
  constructor
  · intro out hout
    obtain ⟨p, ⟨o, ho, rfl⟩, rfl⟩ := (key out).1 hout
    obtain ⟨N₀, hN⟩ := ho
    obtain ⟨y, ⟨c, hc, hy⟩, rfl⟩ := (run (max N₀ (a.data.length + 2)) (by omega) o).1 (hN _ (by omega))
    have := hlen c y hc hy
    exact ⟨⟨[a.m, a.n], y⟩, hsa y this, rfl, this⟩
  · obtain ⟨c, hc, hcw⟩ := csc_to_csr_sequential_wf hw hf
    obtain ⟨⟨y, hy⟩, h⟩ := csc_list_cells he op true hw hm hdim.2.1 hd hc fun _ => hcw
    refine ⟨⟨[a.m, a.n], y⟩, _, (key _).2 ⟨.ret y, ⟨.ok y, ⟨_, fun N hN => (run N hN _).2 ⟨y, ⟨c, hc, hy⟩, rfl⟩⟩, rfl⟩, ?_⟩,
      cellSums_csc (Comp.WF.noRep hv), (h y hy).toArr⟩
    exact (hsa y (hlen c y hc hy)).symm

/-! #### One number in a cell -/

/-- The array is determined by the cells. -/
theorem IsScanOf.unique {agg : List (Option V) → V} {rowwise : Bool} {shape : List Nat} {c d : List Int → Option V}
    (hcd : ∀ x, InBounds shape x → c x = d x) {r s : NdArr V}
    (hr : IsScanOf agg rowwise shape c r) (hs : IsScanOf agg rowwise shape d s) : r = s := by
  obtain ⟨n, m, rfl, r1, r2, r3⟩ := hr
  obtain ⟨n', m', e, s1, s2, s3⟩ := hs
  cases e
  have hsh : r.shape = s.shape := by rw [r1, s1]
  have hda : r.data = s.data := by
    refine List.ext_getElem (by rw [r2, s2]) fun p hp hq => ?_
    rw [r2] at hp
    have hm : 0 < m := Nat.pos_of_ne_zero fun h => by rw [h, Nat.mul_zero] at hp; omega
    have hi : p / m < n := Nat.div_lt_of_lt_mul (by rw [Nat.mul_comm]; exact hp)
    have hj : p % m < m := Nat.mod_lt _ hm
    have e1 := r3 (p / m) (p % m) hi hj
    have e2 := s3 (p / m) (p % m) hi hj
    rw [Nat.div_add_mod', List.getD_eq_getElem _ _ (by omega)] at e1 e2
    rw [e1, e2]
    congr 1
    unfold upTo
    have hb : ∀ i j : Nat, i < n → j < m → InBounds [n, m] [(i : Int), (j : Int)] := fun i j hi hj =>
      .cons ⟨by omega, by omega⟩ (.cons ⟨by omega, by omega⟩ .nil)
    split
    · refine List.map_congr_left fun k hk => hcd _ (hb _ _ hi ?_)
      have := List.mem_range.1 hk
      omega
    · refine List.map_congr_left fun k hk => hcd _ (hb _ _ ?_ hj)
      have := List.mem_range.1 hk
      omega
  cases r; cases s
  cases hsh; cases hda; rfl

theorem valuesAt_nodup {K : Type} [BEq K] [LawfulBEq K] {l : List (K × V)} (h : (l.map Prod.fst).Nodup) (k : K) :
    (valuesAt l k).length ≤ 1 := by
  unfold valuesAt
  rw [List.length_map, ← List.countP_eq_length_filter]
  have := List.nodup_iff_count_le_one.1 h k
  rw [List.count, List.countP_map] at this
  exact this

/-- A value that stores no cell twice has one choice of cell sums. -/
theorem SpVal.CellSums.once {v : SpVal V} (hv : v.Valid) (h2 : v.ty.Is2d) (hon : v.Once) {c : List Int → Option V}
    (hc : v.CellSums c) {x : List Int} (hx : InBounds v.ty.shape x) : c x = (v.held x).head? := by
  have hlen : (v.held x).length ≤ 1 := by
    cases v with
    | mat f a =>
      cases f with
      | csr =>
        obtain ⟨i, j, hi, hj, rfl⟩ := inBounds_two (show InBounds [a.n, a.m] x from hx)
        rw [held_csr a hi j, cell_toList hon]
        cases a.stored i j <;> simp
      | csc =>
        obtain ⟨i, j, hi, hj, rfl⟩ := inBounds_two (show InBounds [a.m, a.n] x from hx)
        rw [held_csc a i hj, cell_toList hon]
        cases a.stored j i <;> simp
    | coo a =>
      obtain ⟨i, j, hi, hj, rfl⟩ := inBounds_two (show InBounds [a.nrows, a.ncols] x from hx)
      rw [held_coo]
      exact valuesAt_nodup hon _
    | nd a => exact absurd h2 id
  obtain ⟨l, hp, e⟩ := hc x hx
  rw [e]
  cases hh : v.held x with
  | nil => rw [hh] at hp; rw [List.perm_nil.1 hp]; rfl
  | cons y t =>
    cases t with
    | nil => rw [hh] at hp; rw [List.perm_singleton.1 hp]; rfl
    | cons z t => rw [hh] at hlen; simp at hlen

/-- C87: if no cell is stored twice there is a single outcome, the same in every environment. -/
theorem py_scan_once {v : SpVal V} (hv : v.Valid) (hs : v.ty.SizeOk v.nnz) (h2 : v.ty.Is2d) (hon : v.Once)
    (op : ScanOp) {axis : AxisArg} {rowwise : Bool} (hx : axis.Single rowwise) (hd : 8 * (v.ty.shape.prod : Int) ≤ i64Max)
    (hap : rowwise = true → v.RowsApart) (hex : ∃ env : PyEnv V, env.Ok) :
    ∃ r, IsScanOf op.bits rowwise v.ty.shape (fun x => (v.held x).head?) r ∧
      ∀ env : PyEnv V, env.Ok → ∀ out, ScanMethod env op axis v.obj out ↔ out = .ret r := by
  have conv : ∀ {c r}, v.CellSums c → IsScanOf op.bits rowwise v.ty.shape c r →
      IsScanOf op.bits rowwise v.ty.shape (fun x => (v.held x).head?) r := by
    intro c r hc hr
    obtain ⟨n, m, e, r1, r2, r3⟩ := hr
    refine ⟨n, m, e, r1, r2, fun i j hi hj => (r3 i j hi hj).trans ?_⟩
    congr 1
    unfold upTo
    have hb : ∀ i j : Nat, i < n → j < m → InBounds v.ty.shape [(i : Int), (j : Int)] := fun i j hi hj => by
      rw [e]; exact .cons ⟨by omega, by omega⟩ (.cons ⟨by omega, by omega⟩ .nil)
    split
    · refine List.map_congr_left fun k hk => hc.once hv h2 hon (hb _ _ hi ?_)
      have := List.mem_range.1 hk
      omega
    · refine List.map_congr_left fun k hk => hc.once hv h2 hon (hb _ _ ?_ hj)
      have := List.mem_range.1 hk
      omega
  obtain ⟨env, he⟩ := hex
  obtain ⟨⟨o, ho⟩, h⟩ := py_scan_any he hv hs h2 op hx hd hap
  obtain ⟨r, c, rfl, hc, hr⟩ := h o ho
  refine ⟨r, conv hc hr, fun env' he' out => ?_⟩
  obtain ⟨⟨o', ho'⟩, h'⟩ := py_scan_any he' hv hs h2 op hx hd hap
  have uniq : ∀ out, ScanMethod env' op axis v.obj out → out = .ret r := by
    intro out hout
    obtain ⟨r', c', rfl, hc', hr'⟩ := h' out hout
    rw [(conv hc' hr').unique (fun _ _ => rfl) (conv hc hr)]
  exact ⟨uniq out, fun e => by rw [e, ← uniq o' ho']; exact ho'⟩

/-- C87: as soon as a cell on the way is empty, `cumprod` returns 0, whatever the other cells hold (a dense
product of a NaN or an infinity with 0 is a NaN). -/
theorem py_cumprod_gap {env : PyEnv V} (he : env.Ok) {v : SpVal V} (hv : v.Valid) (hs : v.ty.SizeOk v.nnz) (h2 : v.ty.Is2d)
    {axis : AxisArg} {rowwise : Bool} (hx : axis.Single rowwise) (hd : 8 * (v.ty.shape.prod : Int) ≤ i64Max)
    (hap : rowwise = true → v.RowsApart) {out : PyRes (NdArr V)} (h : ScanMethod env .prod axis v.obj out) :
    ∃ r, out = .ret r ∧ IsScanBy (fun cells p => [] ∈ cells → p = 0) rowwise v.ty.shape v.held r := by
  obtain ⟨r, c, e, hc, n, m, hsh, r1, r2, r3⟩ := (py_scan_any he hv hs h2 .prod hx hd hap).2 out h
  refine ⟨r, e, n, m, hsh, r1, r2, fun i j hi hj hgap => ?_⟩
  rw [r3 i j hi hj]
  show (if _ then _ else _) = (0 : V)
  have hb : ∀ i j : Nat, i < n → j < m → InBounds v.ty.shape [(i : Int), (j : Int)] := fun i j hi hj => by
    rw [hsh]; exact .cons ⟨by omega, by omega⟩ (.cons ⟨by omega, by omega⟩ .nil)
  have hnone : ∀ x, InBounds v.ty.shape x → v.held x = [] → c x = none := by
    intro x hx hh
    obtain ⟨l, hp, e⟩ := hc x hx
    rw [hh] at hp
    rw [e, List.perm_nil.1 hp]; rfl
  rw [if_pos]
  rw [List.any_eq_true]
  unfold upTo at hgap ⊢
  cases rowwise
  · obtain ⟨k, hk, e⟩ := List.mem_map.1 hgap
    have := List.mem_range.1 hk
    exact ⟨_, List.mem_map.2 ⟨k, hk, rfl⟩, by rw [hnone _ (hb k j (by omega) hj) e]; rfl⟩
  · obtain ⟨k, hk, e⟩ := List.mem_map.1 hgap
    have := List.mem_range.1 hk
    exact ⟨_, List.mem_map.2 ⟨k, hk, rfl⟩, by rw [hnone _ (hb i k hi (by omega)) e]; rfl⟩

/-! #### Sums up to rounding -/

theorem sumAll_tree {l : List V} {v : V} (h : sumAll l = some v) : AddTree (l : Multiset V) v := by
  cases l with
  | nil => cases h
  | cons x l =>
    cases h
    have := foldl_tree l (AddTree.leaf x)
    rw [← Multiset.cons_coe, ← Multiset.singleton_add]
    exact this

/-- The partial sums are sums of everything held on the way. -/
theorem cells_tree {α : Type} (f : α → List V) (c : α → Option V) (xs : List α)
    (h : ∀ x ∈ xs, ∃ l, l.Perm (f x) ∧ c x = sumAll l) :
    AddTree (((xs.map f).flatten : List V) : Multiset V) (((xs.map c).filterMap id).foldl (· + ·) 0) := by
  have main : ∀ (xs : List α), (∀ x ∈ xs, ∃ l, l.Perm (f x) ∧ c x = sumAll l) → ∀ {s : Multiset V} {v : V}, AddTree s v →
      AddTree (s + (((xs.map f).flatten : List V) : Multiset V)) (((xs.map c).filterMap id).foldl (· + ·) v) := by
    intro xs
    induction xs with
    | nil => intro _ s v hs; simpa using hs
    | cons x xs ih =>
      intro h s v hs
      obtain ⟨l, hp, e⟩ := h x (by simp)
      have hrest := fun y hy => h y (List.mem_cons_of_mem _ hy)
      rw [List.map_cons, List.map_cons, List.flatten_cons, ← Multiset.coe_add, ← add_assoc]
      cases hc : c x with
      | none =>
        rw [hc] at e
        have hl : l = [] := by cases l with | nil => rfl | cons => cases e
        subst hl
        rw [List.nil_perm.1 hp]
        simpa using ih hrest hs
      | some w =>
        rw [hc] at e
        have ht := sumAll_tree e.symm
        rw [Multiset.coe_eq_coe.2 hp] at ht
        simpa using ih hrest (hs.node ht)
  have := main xs h .zero
  rwa [zero_add] at this

theorem IsScanOf.trees {shape : List Nat} {held : List Int → List V} {c : List Int → Option V} {rowwise : Bool} {r : NdArr V}
    (hc : CellSumsOf shape held c) (hr : IsScanOf ScanOp.sum.bits rowwise shape c r) :
    IsScanBy (fun cells v => AddTree ((cells.flatten : List V) : Multiset V) v) rowwise shape held r := by
  obtain ⟨n, m, hsh, r1, r2, r3⟩ := hr
  refine ⟨n, m, hsh, r1, r2, fun i j hi hj => ?_⟩
  rw [r3 i j hi hj]
  have hb : ∀ i j : Nat, i < n → j < m → InBounds shape [(i : Int), (j : Int)] := fun i j hi hj => by
    rw [hsh]; exact .cons ⟨by omega, by omega⟩ (.cons ⟨by omega, by omega⟩ .nil)
  unfold upTo
  cases rowwise
  · refine cells_tree _ _ _ fun k hk => hc _ (hb k j ?_ hj)
    have := List.mem_range.1 hk
    omega
  · refine cells_tree _ _ _ fun k hk => hc _ (hb i k hi ?_)
    have := List.mem_range.1 hk
    omega

end

/-! ### Differences -/

section
variable [BEq V] [Zero V] [Add V] [Neg V]

/-- C87: `diff(x, n=n, axis=axis)` of a valid matrix, under every schedule of the kernels and with no law of
arithmetic assumed: never undefined behaviour, an object of the same class and of the right shape that stores no cell twice.
It is valid, except that the lines of a CSC result may be unsorted. -/
theorem py_diff_safe {env : PyEnv V} (he : env.Ok) {v : SpVal V} (hv : v.Valid) (hs : v.ty.SizeOk v.nnz) (h2 : v.ty.Is2d)
    {axis : Int} {rowwise : Bool} (hx : if rowwise then axis = 1 ∨ axis = -1 else axis = 0 ∨ axis = -2) {n : Nat}
    (hn : n ≤ usizeMax) (hd : 32 * (v.ty.shape.prod : Int) ≤ i64Max) :
    (∃ w : SpVal V, w.Valid ∧ DiffMethod env n axis v.obj (.ret w.obj)) ∧
    ∀ out, DiffMethod env n axis v.obj out → ∃ w : SpVal V, out = .ret w.obj ∧ w.DiffTyped v rowwise n := by
  obtain ⟨⟨⟨o, ho⟩, h⟩, hc⟩ := diff_held he ⟨hv, hs⟩ h2 hx hn hd
  refine ⟨?_, fun out hout => ?_⟩
  · by_cases hcsc : ∃ a, v = .mat .csc a
    · exact hc hcsc
    · obtain ⟨y, rfl, w, rfl, hw, -⟩ := h o ho
      exact ⟨w, (hw.valid fun a ha => hcsc ⟨a, ha⟩).1, ho⟩
  · obtain ⟨y, rfl, w, rfl, hw, -⟩ := h out hout
    exact ⟨w, rfl, hw⟩

/-- C87: if addition is commutative (as IEEE addition is), the result holds the repeated differences of
neighbouring cells, computed in this arithmetic, without zeros. -/
theorem py_diff_any (hcm : ∀ a b : V, a + b = b + a) {env : PyEnv V} (he : env.Ok) {v : SpVal V} (hv : v.Valid)
    (hs : v.ty.SizeOk v.nnz) (h2 : v.ty.Is2d) {axis : Int} {rowwise : Bool}
    (hx : if rowwise then axis = 1 ∨ axis = -1 else axis = 0 ∨ axis = -2) {n : Nat}
    (hn : n ≤ usizeMax) (hd : 32 * (v.ty.shape.prod : Int) ≤ i64Max) {out : PyRes (PyObj V)}
    (h : DiffMethod env n axis v.obj out) :
    ∃ (w : SpVal V) (c : List Int → Option V), out = .ret w.obj ∧ w.DiffTyped v rowwise n ∧ v.CellSums c ∧
      ∀ x, InBounds w.ty.shape x → w.held x = (diffBits rowwise n c x).toList := by
  obtain ⟨y, rfl, w, rfl, hw, c, hc, hh⟩ := (diff_held he ⟨hv, hs⟩ h2 hx hn hd).1.2 out h
  exact ⟨w, c, rfl, hw, hc, hh hcm⟩

/-! #### Dense differences -/

/-- `c` is the sparse form of the number `d`. -/
def CellOf (c : Option V) (d : V) : Prop := match c with
  | none => (d == 0) = true
  | some v => SameNum v d

theorem SameNum.symm {a b : V} (h : SameNum a b) : SameNum b a := h.imp Eq.symm And.symm
theorem SameNum.trans {a b c : V} (h : SameNum a b) (h' : SameNum b c) : SameNum a c := by
  rcases h with rfl | h
  · exact h'
  · rcases h' with rfl | h'
    · exact .inr h
    · exact .inr ⟨h.1, h'.2⟩
theorem SameNum.zero {a b : V} (h : SameNum a b) (hb : (b == 0) = true) : (a == 0) = true := by
  rcases h with rfl | h
  · exact hb
  · exact h.1

theorem CellOf.keep {v d : V} (h : SameNum v d) : CellOf (keepNz (some v)) d := by
  unfold keepNz
  by_cases hz : (v == 0) = true
  · have : (some v).filter (fun v => v != 0) = none := by simp [bne, hz]
    rw [this]
    exact h.symm.zero hz
  · have : (some v).filter (fun v => v != 0) = some v := by simp [bne, hz]
    rw [this]
    exact h

variable [Sub V]

theorem CellOf.diff (L : SubLaws V) {a b : Option V} {x y : V} (ha : CellOf a x) (hb : CellOf b y) :
    CellOf (keepNz (diffCell a b)) (y - x) := by
  cases a with
  | none =>
    have hx : (x == 0) = true := ha
    cases b with
    | none =>
      have hy : (y == 0) = true := hb
      exact (L.sub_zero x y hx).zero hy
    | some b =>
      have hb : SameNum b y := hb
      exact CellOf.keep (hb.trans (L.sub_zero x y hx).symm)
  | some a =>
    have ha : SameNum a x := ha
    have hneg : SameNum (-a) (-x) := by
      rcases ha with rfl | ⟨h1, h2⟩
      · exact .inl rfl
      · exact .inr ⟨L.neg a h1, L.neg x h2⟩
    cases b with
    | none =>
      have hy : (y == 0) = true := hb
      exact CellOf.keep (hneg.trans (L.zero_sub x y hy).symm)
    | some b =>
      have hb : SameNum b y := hb
      show CellOf (keepNz (some (b + -a))) (y - x)
      refine CellOf.keep ?_
      rw [← L.sub]
      rcases ha with rfl | ⟨h1, h2⟩
      · rcases hb with rfl | ⟨h3, h4⟩
        · exact .inl rfl
        · exact (L.zero_sub a b h3).trans (L.zero_sub a y h4).symm
      · exact (L.sub_zero a b h1).trans (hb.trans (L.sub_zero x y h2).symm)

theorem diffOpt_dense (L : SubLaws V) (n : Nat) : ∀ {c : Nat → Option V} {f : Nat → V}, (∀ j, CellOf (c j) (f j)) →
    ∀ j, CellOf (diffOpt n c j) (diffN n f j) := by
  induction n with
  | zero => intro c f h j; exact h j
  | succ n ih => intro c f h j; exact ih (fun j => CellOf.diff L (h j) (h (j + 1))) j

/-- C87: under the laws of subtraction, the elements of `diff(x, n=n)` are those that NumPy computes from the
dense array, in the same arithmetic, up to the sign of zeros. -/
theorem py_diff_dense (L : SubLaws V) {env : PyEnv V} (he : env.Ok) {v : SpVal V} (hv : v.Valid)
    (hs : v.ty.SizeOk v.nnz) (h2 : v.ty.Is2d) {axis : Int} {rowwise : Bool}
    (hx : if rowwise then axis = 1 ∨ axis = -1 else axis = 0 ∨ axis = -2) {n : Nat}
    (hn : n ≤ usizeMax) (hd : 32 * (v.ty.shape.prod : Int) ≤ i64Max) {out : PyRes (PyObj V)}
    (h : DiffMethod env n axis v.obj out) :
    ∃ (w : SpVal V) (c : List Int → Option V), out = .ret w.obj ∧ w.ty = v.ty.diff rowwise n ∧ v.CellSums c ∧
      ∀ x, InBounds w.ty.shape x →
        SameNum ((w.held x).head?.getD 0) (diffCells rowwise n (fun y => (c y).getD 0) x) := by
  obtain ⟨w, c, rfl, hw, hc, hh⟩ := py_diff_any L.comm he hv hs h2 hx hn hd h
  refine ⟨w, c, rfl, hw.ty, hc, fun x hxb => ?_⟩
  rw [hh x hxb]
  have hcell : ∀ o : Option V, CellOf o (o.getD 0) := fun o => by
    cases o with
    | none => exact L.zero
    | some v => exact .inl rfl
  have hsh : ∃ r c : Nat, w.ty.shape = [r, c] := by
    rw [hw.ty]
    cases v with
    | mat f a => cases f <;> cases rowwise <;> exact ⟨_, _, rfl⟩
    | coo a => cases rowwise <;> exact ⟨_, _, rfl⟩
    | nd a => exact absurd h2 id
  obtain ⟨r, cc, hsh⟩ := hsh
  rw [hsh] at hxb
  obtain ⟨i, j, hi, hj, rfl⟩ := inBounds_two hxb
  have fin : ∀ {o : Option V} {d : V}, CellOf o d → SameNum (o.toList.head?.getD 0) d := by
    intro o d h
    cases o with
    | none => exact .inr ⟨L.zero, h⟩
    | some v => exact h
  apply fin
  unfold diffBits diffCells
  cases rowwise
  · exact diffOpt_dense L n (fun k => hcell _) i
  · by_cases h0 : n = 0
    · subst h0
      show CellOf (keepNz (c [(i : Int), (j : Int)])) ((c [(i : Int), ((j : Nat) : Int)]).getD 0)
      cases hcx : c [(i : Int), (j : Int)] with
      | none => exact L.zero
      | some v => exact CellOf.keep (.inl rfl)
    · show CellOf (if n = 0 then _ else _) _
      rw [if_neg h0]
      exact diffOpt_dense L n (fun k => hcell _) j

end

/-! ### Programs -/

section
variable [Zero V] [One V] [Add V] [Sub V] [Mul V] [Div V] [Neg V] [BEq V] [NatCast V] [HasFinite V]
  [HasFloor V] [HasPowf V] [HasAbs V] [HasLt V] [HasNan V] [HasMinMax V] [HasSqrt V]

/-- The value of a program that is no CSC matrix. -/
theorem rowsApart_of {v : SpVal V} (h : ∀ r c, v.ty ≠ .mat .csc r c) : v.RowsApart := by
  cases v with
  | mat f a =>
    cases f with
    | csr => trivial
    | csc => exact absurd rfl (h a.m a.n)
  | coo a => trivial
  | nd a => trivial

/-- C87: a program whose value is a matrix, with `cumsum` or `cumprod` along one axis in the end, in any
arithmetic: accumulated are the cells of what the program stores (C79), unless the value is a CSC matrix and the axis is 1. -/
theorem prog_scan_any {env : PyEnv V} (he : env.Ok) {e : Prog V} (hl : e.LitsOk) (hs : e.Small) (hdt : e.Determined) {τ : Ty}
    (hc : e.check = .ok τ) (h2 : τ.Is2d) (op : ScanOp) {axis : AxisArg} {rowwise : Bool} (ha : axis.Single rowwise)
    (hd : 8 * (τ.shape.prod : Int) ≤ i64Max) (hcsc : rowwise = true → ∀ r c, τ ≠ .mat .csc r c) :
    (∃ out, e.Scan env op axis out) ∧
    ∀ out, e.Scan env op axis out → ∃ r c, out = .ret r ∧ CellSumsOf τ.shape (fun x => valuesAt e.stores x) c ∧
      IsScanOf op.bits rowwise τ.shape c r := by
  obtain ⟨w, hv, hs', rfl, hh, hev⟩ := prog_held he hl hs hdt hc
  obtain ⟨⟨out, ho⟩, h⟩ := py_scan_any he hv hs' h2 op ha hd fun hr => rowsApart_of (hcsc hr)
  refine ⟨⟨out, _, (hev _).2 rfl, ho⟩, ?_⟩
  rintro out ⟨o, ho, hout⟩
  rw [(hev o).1 ho] at hout
  rw [← hh]
  exact h out hout

/-- C87: `cumsum` of a program up to rounding.  With an addition of relative error `eps`, every element of the
result is the sum of what the program stores up to this cell, up to the error bound of recursive summation. -/
theorem prog_cumsum_rounded (M : FpAdd V) {env : PyEnv V} (he : env.Ok) {e : Prog V} (hl : e.LitsOk) (hs : e.Small)
    (hdt : e.Determined) {τ : Ty} (hc : e.check = .ok τ) (h2 : τ.Is2d) {axis : AxisArg} {rowwise : Bool} (ha : axis.Single rowwise)
    (hd : 8 * (τ.shape.prod : Int) ≤ i64Max) (hcsc : rowwise = true → ∀ r c, τ ≠ .mat .csc r c) {out : PyRes (NdArr V)}
    (h : e.Scan env .sum axis out) :
    ∃ r, out = .ret r ∧ IsScanBy (fun cells v => RoundedSum M ((cells.flatten : List V) : Multiset V) v) rowwise τ.shape
      (fun x => valuesAt e.stores x) r := by
  obtain ⟨r, c, e1, hcs, hr⟩ := (prog_scan_any he hl hs hdt hc h2 .sum ha hd hcsc).2 out h
  obtain ⟨n, m, hsh, r1, r2, r3⟩ := hr.trees hcs
  exact ⟨r, e1, n, m, hsh, r1, r2, fun i j hi hj => AddTree.rounded M (r3 i j hi hj)⟩

/-- C87: where addition passes on a `NaN`, every partial sum from a `NaN` on is a `NaN`. -/
theorem prog_cumsum_nan (hnan : ∀ x y : V, isNan x = true ∨ isNan y = true → isNan (x + y) = true) {env : PyEnv V} (he : env.Ok)
    {e : Prog V} (hl : e.LitsOk) (hs : e.Small) (hdt : e.Determined) {τ : Ty} (hc : e.check = .ok τ) (h2 : τ.Is2d)
    {axis : AxisArg} {rowwise : Bool} (ha : axis.Single rowwise) (hd : 8 * (τ.shape.prod : Int) ≤ i64Max)
    (hcsc : rowwise = true → ∀ r c, τ ≠ .mat .csc r c) {out : PyRes (NdArr V)} (h : e.Scan env .sum axis out) :
    ∃ r, out = .ret r ∧ IsScanBy (fun cells v => (∃ l ∈ cells, ∃ x ∈ l, isNan x = true) → isNan v = true) rowwise τ.shape
      (fun x => valuesAt e.stores x) r := by
  obtain ⟨r, c, e1, hcs, hr⟩ := (prog_scan_any he hl hs hdt hc h2 .sum ha hd hcsc).2 out h
  obtain ⟨n, m, hsh, r1, r2, r3⟩ := hr.trees hcs
  refine ⟨r, e1, n, m, hsh, r1, r2, fun i j hi hj ⟨l, hl, x, hx, hn⟩ => addTree_nan hnan (r3 i j hi hj) ⟨x, ?_, hn⟩⟩
  exact Multiset.mem_coe.2 (List.mem_flatten.2 ⟨l, hl, hx⟩)

/-- C87: a program whose value is a matrix, with `diff` in the end, in any arithmetic whose addition commutes:
the repeated differences of the cells of what the program stores. -/
theorem prog_diff_any (hcm : ∀ a b : V, a + b = b + a) {env : PyEnv V} (he : env.Ok) {e : Prog V} (hl : e.LitsOk) (hs : e.Small)
    (hdt : e.Determined) {τ : Ty} (hc : e.check = .ok τ) (h2 : τ.Is2d) {axis : Int} {rowwise : Bool}
    (hx : if rowwise then axis = 1 ∨ axis = -1 else axis = 0 ∨ axis = -2) {n : Nat} (hn : n ≤ usizeMax)
    (hd : 32 * (τ.shape.prod : Int) ≤ i64Max) :
    (∃ out, e.Diff env n axis out) ∧
    ∀ out, e.Diff env n axis out → ∃ (w : SpVal V) (c : List Int → Option V), out = .ret w.obj ∧ w.ty = τ.diff rowwise n ∧
      w.Once ∧ ((∀ r c, τ ≠ .mat .csc r c) → w.Valid) ∧ CellSumsOf τ.shape (fun x => valuesAt e.stores x) c ∧
      ∀ x, InBounds w.ty.shape x → w.held x = (diffBits rowwise n c x).toList := by
  obtain ⟨w, hv, hs', rfl, hh, hev⟩ := prog_held he hl hs hdt hc
  obtain ⟨⟨y, -, hy⟩, -⟩ := py_diff_safe he hv hs' h2 hx hn hd
  refine ⟨⟨_, _, (hev _).2 rfl, hy⟩, ?_⟩
  rintro out ⟨o, ho, hout⟩
  rw [(hev o).1 ho] at hout
  obtain ⟨z, c, e1, hz, hcs, hc⟩ := py_diff_any hcm he hv hs' h2 hx hn hd hout
  rw [← hh]
  refine ⟨z, c, e1, hz.ty, hz.once, fun hne => (hz.valid fun a ha => ?_).1, hcs, hc⟩
  rw [ha] at hne; exact hne a.m a.n rfl

end

/-! ### examples -/

local instance decAxisScan (n : Nat) (a : AxisArg) : Decidable (a.Valid n) := by unfold AxisArg.Valid; infer_instance

section
local instance scanMinMaxSat : HasMinMax Sat := ⟨fun a b => if a.n ≤ b.n then a else b, fun a b => if a.n ≤ b.n then b else a,
  fun a b => if a.n ≤ b.n then a else b, fun a b => if a.n ≤ b.n then b else a, ⟨8⟩, ⟨-8⟩⟩
local instance scanSqrtSat : HasSqrt Sat := ⟨id⟩

/-- `cumsum(x, axis=1)` of `[[5, 7, -6]]`, with numbers cut off at 8. -/
example (dbg : Bool) : ∃ r, r.data = [⟨5⟩, ⟨8⟩, ⟨2⟩] ∧ ∀ out,
    ScanMethod (exEnvSat dbg 4) .sum (.one 1) (SpVal.mat .csr (⟨1, 3, [0, 3], [0, 1, 2], [⟨5⟩, ⟨7⟩, ⟨-6⟩]⟩ : Comp Sat)).obj out ↔
      out = .ret r := by
  have hw : (⟨1, 3, [0, 3], [0, 1, 2], [⟨5⟩, ⟨7⟩, ⟨-6⟩]⟩ : Comp Sat).WF :=
    ((csr_fromParts_iff 1 3 [0, 3] [0, 1, 2] [(⟨5⟩ : Sat), ⟨7⟩, ⟨-6⟩] (by decide) _).1 rfl).2.2
  obtain ⟨r, ⟨n, m, hsh, r1, r2, r3⟩, h⟩ := py_scan_once
    (v := .mat .csr (⟨1, 3, [0, 3], [0, 1, 2], [⟨5⟩, ⟨7⟩, ⟨-6⟩]⟩ : Comp Sat)) hw
    (show Ty.SizeOk 3 (.mat .csr 1 3) by decide) trivial (Comp.WF.noRep hw) .sum (axis := .one 1) (rowwise := true)
    ⟨by decide, by decide, by decide⟩ (by decide) (fun _ => trivial) ⟨_, exEnvSat_ok dbg (threads := 4) (by decide)⟩
  have h2 : n = 1 ∧ m = 3 := by cases hsh; exact ⟨rfl, rfl⟩
  obtain ⟨rfl, rfl⟩ := h2
  refine ⟨r, ?_, h _ (exEnvSat_ok dbg (by decide))⟩
  have e0 := r3 0 0 (by decide) (by decide)
  have e1 := r3 0 1 (by decide) (by decide)
  have e2 := r3 0 2 (by decide) (by decide)
  have hl : r.data.length = 3 := r2
  match hd : r.data, hl with
  | [a, b, c], _ =>
    rw [hd] at e0 e1 e2
    have e0 : a = ⟨5⟩ := e0.trans (by decide +kernel)
    have e1 : b = ⟨8⟩ := e1.trans (by decide +kernel)
    have e2 : c = ⟨2⟩ := e2.trans (by decide +kernel)
    rw [e0, e1, e2]

/-- Three numbers in a cell of a COO matrix are added in an order that is not fixed; the partial sum is one of these
sums. -/
example (dbg : Bool) : (∃ out, exSatCoo.Scan (exEnvSat dbg 4) .sum (.one 1) out) ∧
    ∀ out, exSatCoo.Scan (exEnvSat dbg 4) .sum (.one 1) out →
      ∃ r, out = .ret r ∧ r.shape = [2, 1] ∧ ∃ l : List Sat, l.Perm [⟨5⟩, ⟨7⟩, ⟨-6⟩] ∧
        r.data.getD 1 0 = ((sumAll l).toList).foldl (· + ·) 0 := by
  obtain ⟨h1, h2⟩ := prog_scan_any (exEnvSat_ok dbg (threads := 4) (by decide)) exSatCoo_lits (by decide +kernel) trivial
    (τ := .coo 2 1) (by decide +kernel) trivial .sum (axis := .one 1) (rowwise := true) ⟨by decide, by decide, by decide⟩
    (by decide) (by simp)
  refine ⟨h1, fun out h => ?_⟩
  obtain ⟨r, c, e, hc, n, m, hsh, r1, r2, r3⟩ := h2 out h
  have h2 : n = 2 ∧ m = 1 := by cases hsh; exact ⟨rfl, rfl⟩
  obtain ⟨rfl, rfl⟩ := h2
  obtain ⟨l, hp, hcl⟩ := hc [1, 0] (.cons ⟨by omega, by omega⟩ (.cons ⟨by omega, by omega⟩ .nil))
  rw [show (fun x => valuesAt exSatCoo.stores x) [1, 0] = [⟨5⟩, ⟨7⟩, ⟨-6⟩] by decide +kernel] at hp
  refine ⟨r, e, r1, l, hp, ?_⟩
  have := r3 1 0 (by decide) (by decide)
  rw [show (1 * 1 + 0 : Nat) = 1 from rfl] at this
  rw [this]
  show (List.filterMap id [c [1, 0]]).foldl (· + ·) 0 = _
  rw [hcl]
  cases sumAll l <;> rfl
example : (sumAll [(⟨5⟩ : Sat), ⟨7⟩, ⟨-6⟩], sumAll [(⟨7⟩ : Sat), ⟨-6⟩, ⟨5⟩]) = (some ⟨2⟩, some ⟨6⟩) := by decide +kernel

/-- The numbers between -8 and 8 are exact as long as nothing is cut off. -/
def exSatFp : FpAdd Sat where
  Fin a := -8 ≤ a.n ∧ a.n ≤ 8
  val a := a.n
  eps := 0
  big := 8
  eps_nonneg := le_refl 0
  fin_zero := by decide
  val_zero := by decide
  add := by
    intro a b ha hb h
    have h := abs_le.1 h
    have h1 : -8 ≤ a.n + b.n := by have := h.1; exact_mod_cast this
    have h2 : a.n + b.n ≤ 8 := by have := h.2; exact_mod_cast this
    have e : (a + b).n = a.n + b.n := by show max (-8) (min 8 (a.n + b.n)) = _; omega
    rw [e]
    refine ⟨⟨h1, h2⟩, ?_⟩
    push_cast
    simp
  zero_add := by
    intro a b ha hb h
    have h0 : a.n = 0 := by exact_mod_cast h
    have e : (a + b).n = b.n := by show max (-8) (min 8 (a.n + b.n)) = _; omega
    rw [e]
    exact ⟨hb, rfl⟩
  add_zero := by
    intro a b ha hb h
    have h0 : b.n = 0 := by exact_mod_cast h
    have e : (a + b).n = a.n := by show max (-8) (min 8 (a.n + b.n)) = _; omega
    rw [e]
    exact ⟨ha, rfl⟩

/-- `cumsum(x, axis=0)` of the CSC matrix `[[5, 0], [-3, 4]]`: nothing is cut off, so the partial sums are exact. -/
example (dbg : Bool) : ∀ out, (Prog.mat .csc 2 2 [0, 2, 3] [0, 1, 1] [(⟨5⟩ : Sat), ⟨-3⟩, ⟨4⟩]).Scan (exEnvSat dbg 4) .sum (.one 0) out →
    ∃ r, out = .ret r ∧ r.shape = [2, 2] ∧ r.data.getD 2 0 = ⟨2⟩ := by
  intro out h
  obtain ⟨r, e, n, m, hsh, r1, r2, r3⟩ := prog_cumsum_rounded exSatFp (exEnvSat_ok dbg (threads := 4) (by decide))
    (e := .mat .csc 2 2 [0, 2, 3] [0, 1, 1] [(⟨5⟩ : Sat), ⟨-3⟩, ⟨4⟩])
    ⟨by show ∀ i ∈ ([0, 1, 1] : List Int), i ≤ i64Max; decide, fun _ => ⟨_, rfl⟩⟩
    (by decide +kernel) trivial (τ := .mat .csc 2 2) (by decide +kernel) trivial (axis := .one 0) (rowwise := false)
    ⟨by decide, by decide, by decide⟩ (by decide) (by simp) h
  have h2 : n = 2 ∧ m = 2 := by cases hsh; exact ⟨rfl, rfl⟩
  obtain ⟨rfl, rfl⟩ := h2
  have hb := r3 1 0 (by decide) (by decide)
  rw [show upTo false (fun x => valuesAt (Prog.mat .csc 2 2 [0, 2, 3] [0, 1, 1] [(⟨5⟩ : Sat), ⟨-3⟩, ⟨4⟩]).stores x) 1 0 =
    [[⟨5⟩], [⟨-3⟩]] by decide +kernel] at hb
  refine ⟨r, e, r1, ?_⟩
  generalize hv : r.data.getD 2 0 = v
  have hb : RoundedSum exSatFp (([⟨5⟩, ⟨-3⟩] : List Sat) : Multiset Sat) v := by rw [← hv]; exact hb
  obtain ⟨-, e⟩ := hb (by
    intro x hx
    rcases List.mem_cons.1 (Multiset.mem_coe.1 hx) with rfl | hx
    · exact ⟨by decide, by decide⟩
    · rw [List.mem_singleton.1 hx]; exact ⟨by decide, by decide⟩) (by
    show ((1 : ℚ) + 0) ^ 2 * (([|((5 : Int) : ℚ)|, |((-3 : Int) : ℚ)|] : List ℚ).sum) ≤ 8
    norm_num)
  have e : |(v.n : ℚ) - ([((5 : Int) : ℚ), ((-3 : Int) : ℚ)] : List ℚ).sum| ≤ ((1 + 0 : ℚ) ^ (2 - 1) - 1) * _ := e
  norm_num at e
  have : (v.n : ℚ) = 2 := by linarith
  have : v.n = 2 := by exact_mod_cast this
  cases v; exact congrArg Sat.mk this

/-- `diff(x, axis=1)` of `[[-3, 8, 0, 4]]`: `8 - -3` is cut off. -/
example (dbg : Bool) : (∃ out, (Prog.mat .csr 1 4 [0, 3] [0, 1, 3] [(⟨-3⟩ : Sat), ⟨8⟩, ⟨4⟩]).Diff (exEnvSat dbg 4) (1 : Nat) 1 out) ∧
    ∀ out, (Prog.mat .csr 1 4 [0, 3] [0, 1, 3] [(⟨-3⟩ : Sat), ⟨8⟩, ⟨4⟩]).Diff (exEnvSat dbg 4) (1 : Nat) 1 out →
    ∃ w : SpVal Sat, out = .ret w.obj ∧ w.ty = .mat .csr 1 3 ∧ w.Valid ∧ w.held [0, 0] = [⟨8⟩] ∧ w.held [0, 1] = [⟨-8⟩] ∧
      w.held [0, 2] = [⟨4⟩] := by
  obtain ⟨h1, h2⟩ := prog_diff_any (fun a b => by show Sat.cut _ = Sat.cut _; rw [Int.add_comm]) (exEnvSat_ok dbg (threads := 4) (by decide))
    (e := .mat .csr 1 4 [0, 3] [0, 1, 3] [(⟨-3⟩ : Sat), ⟨8⟩, ⟨4⟩])
    ⟨by show ∀ i ∈ ([0, 1, 3] : List Int), i ≤ i64Max; decide, by simp⟩
    (by decide +kernel) trivial (τ := .mat .csr 1 4) (by decide +kernel) trivial (axis := 1) (rowwise := true) (.inl rfl) (n := 1)
    (by decide) (by decide)
  refine ⟨h1, fun out h => ?_⟩
  obtain ⟨w, c, e, ht, -, hv, hc, hh⟩ := h2 out h
  have hsh : w.ty = .mat .csr 1 3 := ht
  have one : ∀ {j : Nat}, j < 4 → ∀ {l : List Sat}, l.length ≤ 1 →
      valuesAt (Prog.mat .csr 1 4 [0, 3] [0, 1, 3] [(⟨-3⟩ : Sat), ⟨8⟩, ⟨4⟩]).stores [0, (j : Int)] = l → c [0, (j : Int)] = l.head? := by
    intro j hj l hl e
    obtain ⟨l', hp, e'⟩ := hc [0, (j : Int)] (.cons ⟨by omega, by omega⟩ (.cons ⟨by omega, by omega⟩ .nil))
    have hp : l'.Perm l := by rw [← e]; exact hp
    rw [e']
    match l, hl with
    | [], _ => rw [List.perm_nil.1 hp]; rfl
    | [x], _ => rw [List.perm_singleton.1 hp]; rfl
  have c0 : c [0, 0] = some ⟨-3⟩ := one (j := 0) (by omega) (l := [⟨-3⟩]) (by simp) (by decide +kernel)
  have c1 : c [0, 1] = some ⟨8⟩ := one (j := 1) (by omega) (l := [⟨8⟩]) (by simp) (by decide +kernel)
  have c2 : c [0, 2] = none := one (j := 2) (by omega) (l := []) (by simp) (by decide +kernel)
  have c3 : c [0, 3] = some ⟨4⟩ := one (j := 3) (by omega) (l := [⟨4⟩]) (by simp) (by decide +kernel)
  have hb : ∀ j : Nat, j < 3 → InBounds w.ty.shape [0, (j : Int)] := fun j hj => by
    rw [hsh]; exact .cons ⟨by omega, by omega⟩ (.cons ⟨by omega, by omega⟩ .nil)
  refine ⟨w, e, hsh, hv (by simp), ?_, ?_, ?_⟩
  · rw [hh [0, 0] (hb 0 (by omega))]
    show (keepNz (diffCell (c [0, 0]) (c [0, 1]))).toList = _
    rw [c0, c1]; decide +kernel
  · rw [hh [0, 1] (hb 1 (by omega))]
    show (keepNz (diffCell (c [0, 1]) (c [0, 2]))).toList = _
    rw [c1, c2]; decide +kernel
  · rw [hh [0, 2] (hb 2 (by omega))]
    show (keepNz (diffCell (c [0, 2]) (c [0, 3]))).toList = _
    rw [c2, c3]; decide +kernel

end

section
/-- Whole numbers and a `NaN`, with a subtraction. -/
local instance scanZeroO : Zero (Option Int) := ⟨some 0⟩
local instance scanOneO : One (Option Int) := ⟨some 1⟩
local instance scanAddO : Add (Option Int) := ⟨fun a b => match a, b with | some x, some y => some (x + y) | _, _ => none⟩
local instance scanSubO : Sub (Option Int) := ⟨fun a b => match a, b with | some x, some y => some (x - y) | _, _ => none⟩
local instance scanMulO : Mul (Option Int) := ⟨fun a b => match a, b with | some x, some y => some (x * y) | _, _ => none⟩
local instance scanDivO : Div (Option Int) := ⟨fun a _ => a⟩
local instance scanNegO : Neg (Option Int) := ⟨Option.map (- ·)⟩
local instance scanCastO : NatCast (Option Int) := ⟨fun n => some n⟩
local instance scanFiniteO : HasFinite (Option Int) := ⟨Option.isSome⟩
local instance scanFloorO : HasFloor (Option Int) := ⟨id⟩
local instance scanPowfO : HasPowf (Option Int) := ⟨fun a _ => a⟩
local instance scanAbsO : HasAbs (Option Int) := ⟨Option.map fun x => (x.natAbs : Int)⟩
local instance scanLtO : HasLt (Option Int) := ⟨fun a b => match a, b with | some x, some y => decide (x < y) | _, _ => false⟩
local instance scanNanO : HasNan (Option Int) := ⟨Option.isNone, none⟩
local instance scanMinMaxO : HasMinMax (Option Int) := ⟨fun a _ => a, fun a _ => a, fun a _ => a, fun a _ => a, none, none⟩
local instance scanSqrtO : HasSqrt (Option Int) := ⟨id⟩

/-- `cumsum(x, axis=1)` of `[[3, 0, NaN], [0, 0, 0]]`. -/
example (dbg : Bool) : ∀ out, (Prog.mat .csr 2 3 [0, 2, 2] [0, 2] [some 3, none]).Scan (exEnvAny (Option Int) dbg) .sum (.one 1) out →
    ∃ r, out = .ret r ∧ r.shape = [2, 3] ∧ r.data.getD 2 0 = none := by
  intro out h
  obtain ⟨r, e, n, m, hsh, r1, r2, r3⟩ := prog_cumsum_nan (fun x y h => by
      rcases h with h | h
      · cases x with | none => rfl | some x => cases h
      · cases y with | none => cases x <;> rfl | some y => cases h)
    (exEnvAny_ok (Option Int) dbg) (e := .mat .csr 2 3 [0, 2, 2] [0, 2] [some 3, none])
    ⟨by show ∀ i ∈ ([0, 2] : List Int), i ≤ i64Max; decide, by simp⟩ (by decide +kernel) trivial
    (τ := .mat .csr 2 3) (by decide +kernel) trivial (axis := .one 1) (rowwise := true) ⟨by decide, by decide, by decide⟩
    (by decide) (by simp) h
  have h2 : n = 2 ∧ m = 3 := by cases hsh; exact ⟨rfl, rfl⟩
  obtain ⟨rfl, rfl⟩ := h2
  refine ⟨r, e, r1, ?_⟩
  have := r3 0 2 (by decide) (by decide) ⟨[none], by decide +kernel, none, by simp, rfl⟩
  rw [show (0 * 3 + 2 : Nat) = 2 from rfl] at this
  cases hx : r.data.getD 2 0 with
  | none => rfl
  | some x => rw [hx] at this; cases this

/-- `cumprod(x, axis=1)` of `[[NaN, 0, 2], [0, 0, 0]]` ends in 0, the product of the dense row in `NaN`. -/
example (dbg : Bool) : ∀ out, ScanMethod (exEnvAny (Option Int) dbg) .prod (.one 1)
      (SpVal.mat .csr (exStat (none : Option Int) (some 2))).obj out →
    ∃ r, out = .ret r ∧ r.shape = [2, 3] ∧ r.data.getD 2 0 = some 0 := by
  intro out h
  obtain ⟨r, e, n, m, hsh, r1, r2, r3⟩ := py_cumprod_gap (exEnvAny_ok (Option Int) dbg)
    (v := .mat .csr (exStat (none : Option Int) (some 2))) (exStat_wf _ _)
    (show Ty.SizeOk 2 (.mat .csr 2 3) by decide) trivial (axis := .one 1) (rowwise := true) ⟨by decide, by decide, by decide⟩
    (by decide) (fun _ => trivial) h
  have h2 : n = 2 ∧ m = 3 := by cases hsh; exact ⟨rfl, rfl⟩
  obtain ⟨rfl, rfl⟩ := h2
  exact ⟨r, e, r1, r3 0 2 (by decide) (by decide) (by decide +kernel)⟩
example : ([(none : Option Int), some 0, some 2] : List (Option Int)).foldl (· * ·) 1 = none := by decide +kernel

/-- This arithmetic has the laws of `py_diff_dense`. -/
theorem optInt_subLaws : SubLaws (Option Int) where
  comm a b := by
    cases a <;> cases b <;> first | rfl | exact congrArg some (Int.add_comm _ _)
  sub a b := by
    cases a <;> cases b <;> first | rfl | exact congrArg some Int.sub_eq_add_neg
  zero := by decide
  neg a h := by
    cases a with
    | none => cases h
    | some a => have : a = 0 := Option.some.inj (eq_of_beq h)
                rw [this]; decide
  sub_zero a b h := by
    have : a = some 0 := eq_of_beq h
    subst this
    left
    cases b with
    | none => rfl
    | some b => exact congrArg some (Int.sub_zero b)
  zero_sub a b h := by
    have : b = some 0 := eq_of_beq h
    subst this
    left
    cases a with
    | none => rfl
    | some a => exact congrArg some (Int.zero_sub a)

/-- `diff(x, n=2, axis=-1)` of `[[NaN, 0, 2], [0, 0, 0]]`. -/
example (dbg : Bool) : ∀ out, DiffMethod (exEnvAny (Option Int) dbg) (2 : Nat) (-1)
      (SpVal.mat .csr (exStat (none : Option Int) (some 2))).obj out →
    ∃ w : SpVal (Option Int), out = .ret w.obj ∧ w.ty = .mat .csr 2 1 ∧ (w.held [0, 0]).head?.getD 0 = none := by
  intro out h
  obtain ⟨w, c, e, ht, hc, hs⟩ := py_diff_dense optInt_subLaws (exEnvAny_ok (Option Int) dbg)
    (v := .mat .csr (exStat (none : Option Int) (some 2))) (exStat_wf _ _)
    (show Ty.SizeOk 2 (.mat .csr 2 3) by decide) trivial (axis := -1) (rowwise := true) (.inr rfl) (n := 2) (by decide) (by decide) h
  have hsh : w.ty = .mat .csr 2 1 := ht
  refine ⟨w, e, hsh, ?_⟩
  have := hs [0, 0] (by rw [hsh]; exact .cons ⟨by omega, by omega⟩ (.cons ⟨by omega, by omega⟩ .nil))
  have hcell : ∀ j : Nat, j < 3 → c [0, (j : Int)] = ((SpVal.mat .csr (exStat (none : Option Int) (some 2))).held [0, (j : Int)]).head? :=
    fun j hj => SpVal.CellSums.once (v := .mat .csr (exStat (none : Option Int) (some 2))) (exStat_wf _ _) trivial
      (Comp.WF.noRep (exStat_wf _ _)) hc
      (show InBounds [2, 3] _ from .cons ⟨by omega, by omega⟩ (.cons ⟨by omega, by omega⟩ .nil))
  have c0 : c [0, ((0 : Nat) : Int)] = some none := (hcell 0 (by omega)).trans (by decide +kernel)
  have c1 : c [0, ((1 : Nat) : Int)] = none := (hcell 1 (by omega)).trans (by decide +kernel)
  have c2 : c [0, ((2 : Nat) : Int)] = some (some 2) := (hcell 2 (by omega)).trans (by decide +kernel)
  have hd : diffCells true 2 (fun y => (c y).getD 0) [0, 0] =
    ((c [0, ((2 : Nat) : Int)]).getD 0 - (c [0, ((1 : Nat) : Int)]).getD 0) - ((c [0, ((1 : Nat) : Int)]).getD 0 - (c [0, ((0 : Nat) : Int)]).getD 0) := rfl
  rw [hd, c0, c1, c2] at this
  rcases this with h | ⟨-, h⟩
  · exact h
  · exact absurd h (by decide +kernel)

end
end Lacuna
