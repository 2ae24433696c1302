import Verif.Lemmas.PyStat
import Verif.Lemmas.PyProgNd
import Verif.Props.PyReduceNd
/-
The reductions of Model/PyStat on objects that hold valid arrays.
-/
set_option linter.unusedSectionVars false

namespace Lacuna
variable {V : Type}

/-- The elements of a matrix by row and column. -/
def SpVal.at2 [Add V] [Zero V] (v : SpVal V) (i j : Nat) : V := v.cell [(i : Int), (j : Int)]

/-- What a valid 2-D object hands to the kernels. -/
theorem native_csr {a : Comp V} (h : (SpVal.mat .csr a).Good) (mat : Fmt → Path) (coo : Path) :
    (SpVal.mat .csr a).obj.native mat coo = .ok (.csr a.toCsr) := by
  show (operand .csr (mat .csr) (PyMat.of .csr a)).map _ = _
  rw [h.held.operand]; rfl
theorem native_csc {a : Comp V} (h : (SpVal.mat .csc a).Good) (mat : Fmt → Path) (coo : Path) :
    (SpVal.mat .csc a).obj.native mat coo = .ok (.csc a.toCsc) := by
  show (operand .csc (mat .csc) (PyMat.of .csc a)).map _ = _
  rw [h.held.operand]; rfl
theorem native_coo {a : Coo V} (h : (SpVal.coo a).Good) (mat : Fmt → Path) (coo : Path) :
    (SpVal.coo a).obj.native mat coo = .ok (.coo a) := by
  show ((PyCoo.of a).operand coo).map _ = _
  rw [h.cooOperand]; rfl

theorem good_nnz {v : SpVal V} (h : v.Good) : 24 * (v.nnz : Int) ≤ i64Max := by
  cases v with
  | mat f a => exact h.2.2.2
  | coo a => exact h.2.2.2
  | nd a => exact h.2.2.2.1

theorem good_nd {a : CooNd V} (h : (SpVal.nd a).Good) : a.WF ∧ a.I64 ∧ 0 < a.shape.prod ∧ a.shape.prod ≤ usizeMax := by
  obtain ⟨⟨h1, h2⟩, h3, h4, -, -⟩ := h
  have h4 : (a.shape.prod : Int) ≤ i64Max := h4
  exact ⟨h1, h2, h3, by unfold i64Max at h4; unfold usizeMax; omega⟩

theorem inBounds_two {n m : Nat} {x : List Int} (h : InBounds [n, m] x) :
    ∃ i j : Nat, i < n ∧ j < m ∧ x = [(i : Int), (j : Int)] := by
  cases h with
  | cons h1 h2 =>
    cases h2 with
    | cons h3 h4 =>
      cases h4
      rename_i p q
      refine ⟨p.toNat, q.toNat, by omega, by omega, ?_⟩
      congr 1
      · omega
      · congr 1; omega

section
variable [Zero V] [One V] [Add V] [Sub V] [Mul V] [Div V] [BEq V] [NatCast V] [HasLt V] [HasMinMax V] [HasSqrt V]

/-- The three native calls decide the reduction. -/
theorem red2d_core {env : PyEnv V} {op : RedOp V} {x : PyObj V} {nat : Native V} {n m : Nat} {f : Nat → Nat → V}
    {Raw Is : List V → V → Prop} (hn : ∀ mat coo, x.native mat coo = .ok nat) (hd : x.dims = (n, m))
    (hglob : ∀ g, Raw (cellsOf n m f) g → ∃ z, op.globPost (n * m) g = .ret z ∧ Is (cellsOf n m f) z)
    (hcol : ∀ y, LinesAre Raw m (fun j => (List.range n).map fun i => f i j) y →
      LinesAre Is m (fun j => (List.range n).map fun i => f i j) (op.linePost n y))
    (hrow : ∀ y, LinesAre Raw n (fun i => (List.range m).map fun j => f i j) y →
      LinesAre Is n (fun i => (List.range m).map fun j => f i j) (op.linePost m y))
    (g1 : Gives (fun N => op.Glob N nat) (Raw (cellsOf n m f)))
    (g2 : Gives (fun N => op.Cols env N nat) (LinesAre Raw m fun j => (List.range n).map fun i => f i j))
    (g3 : Gives (fun N => op.Rows env N nat) (LinesAre Raw n fun i => (List.range m).map fun j => f i j))
    (axis : AxisArg) (keep : Bool) (hv : axis.Valid 2) (hne : axis ≠ .many []) :
    GivesPy (Red2d env op axis keep x) (IsReduction [n, m] (axis.covers 2) keep Is (matFun f)) := by
  unfold Red2d
  rw [hn, hd]
  refine reduce2dObj_correct (P := Is) (f := f) ?_ ?_ ?_ axis keep hv hne
  · exact (Gives.call (run := fun N a => op.Glob N a) g1).bind hglob
  · exact (Gives.call (run := fun N a => op.Cols env N a) g2).bind fun y hy => ⟨_, rfl, hcol y hy⟩
  · exact (Gives.call (run := fun N a => op.Rows env N a) g3).bind fun y hy => ⟨_, rfl, hrow y hy⟩

end

/-- The same for `all` and `any`. -/
theorem logic2d_core [Zero V] [One V] [Add V] [Sub V] [Mul V] [Div V] [BEq V] [NatCast V] [HasLt V] [HasMinMax V] [HasSqrt V]
    {env : PyEnv V} {op : LogicOp} {x : PyObj V} {nat : Native V} {n m : Nat} {f : Nat → Nat → V}
    (hn : ∀ mat coo, x.native mat coo = .ok nat) (hd : x.dims = (n, m))
    (g : Gives (fun _ => op.Glob env nat) (op.Is (cellsOf n m f)) ∧
      Gives (fun N => op.Cols env N nat) (LinesAre op.Is m fun j => (List.range n).map fun i => f i j) ∧
      Gives (fun _ => op.Rows env nat) (LinesAre op.Is n fun i => (List.range m).map fun j => f i j))
    (axis : AxisArg) (keep : Bool) (hv : axis.Valid 2) (hne : axis ≠ .many []) :
    GivesPy (Logic2d env op axis keep x) (IsReduction [n, m] (axis.covers 2) keep op.Is (matFun f)) := by
  unfold Logic2d
  rw [hn, hd]
  exact reduce2dObj_correct (P := op.Is) (f := f) (Gives.call (run := fun _ a => op.Glob env a) g.1)
    (Gives.call (run := fun N a => op.Cols env N a) g.2.1) (Gives.call (run := fun _ a => op.Rows env a) g.2.2) axis keep hv hne

theorem linePost_id [Div V] [NatCast V] [Zero V] [BEq V] {op : RedOp V} (h : op ≠ .mean) (n : Nat) (v : List V) (s : V) :
    op.linePost n v = v ∧ op.globPost n s = .ret s := by
  cases op <;> first | exact absurd rfl h | exact ⟨rfl, rfl⟩

theorem mean_lines [DivisionRing V] {n k : Nat} {cells : Nat → List V} {y : List V} (hk : ∀ i, (cells i).length = k)
    (h : LinesAre (fun l r => r = l.sum) n cells y) :
    LinesAre (fun l r => r = listMean l) n cells (y.map fun s => s / (k : V)) := by
  refine ⟨by rw [List.length_map]; exact h.1, fun i r hr => ?_⟩
  rw [List.getElem?_map, Option.map_eq_some_iff] at hr
  obtain ⟨v, hv, rfl⟩ := hr
  have := h.2 i v hv
  simp only [] at this
  rw [this, listMean, hk]

section
variable [Field V] [LinearOrder V] [IsStrictOrderedRing V] [BEq V] [LawfulBEq V] [HasLt V] [HasMinMax V] [HasSqrt V]
variable (hlt : ∀ x y : V, flt x y = true ↔ x < y)
include hlt

theorem red2d_exact {env : PyEnv V} {op : RedOp V} {x : PyObj V} {nat : Native V} {n m : Nat} {f : Nat → Nat → V}
    (hn : ∀ mat coo, x.native mat coo = .ok nat) (hd : x.dims = (n, m)) (hsz : op.Size [n, m])
    (g : Gives (fun N => op.Glob N nat) (op.Raw (cellsOf n m f)) ∧
      Gives (fun N => op.Cols env N nat) (LinesAre op.Raw m fun j => (List.range n).map fun i => f i j) ∧
      Gives (fun N => op.Rows env N nat) (LinesAre op.Raw n fun i => (List.range m).map fun j => f i j))
    (axis : AxisArg) (keep : Bool) (hv : axis.Valid 2) (hne : axis ≠ .many []) :
    GivesPy (Red2d env op axis keep x) (IsReduction [n, m] (axis.covers 2) keep op.Is (matFun f)) := by
  by_cases hm : op = .mean
  · subst hm
    have hsz : 0 < n * (m * 1) := hsz
    have hz : (((n * m : Nat) : V) == 0) = false := by
      rw [beq_eq_false_iff_ne, Nat.cast_ne_zero]
      intro h
      rw [Nat.mul_one, h] at hsz
      exact absurd hsz (by decide)
    refine red2d_core (Raw := RedOp.mean.Raw) (Is := RedOp.mean.Is) hn hd ?_ ?_ ?_ g.1 g.2.1 g.2.2 axis keep hv hne
    · intro s hs
      have hs : s = (cellsOf n m f).sum := hs
      refine ⟨s / ((n * m : Nat) : V), ?_, ?_⟩
      · show PyRes.ofExcept (pyFloatDiv s ((n * m : Nat) : V)) = _
        unfold pyFloatDiv
        rw [hz]; rfl
      · show _ = listMean _
        rw [listMean, cellsOf_length, hs]
    · exact fun y hy => mean_lines (fun j => by simp) hy
    · exact fun y hy => mean_lines (fun j => by simp) hy
  · have hraw : op.Raw = op.Is := by cases op <;> first | exact absurd rfl hm | rfl
    rw [hraw] at g
    refine red2d_core hn hd ?_ ?_ ?_ g.1 g.2.1 g.2.2 axis keep hv hne
    · exact fun s hs => ⟨s, (linePost_id hm _ [] s).2, hs⟩
    · exact fun y hy => by rw [(linePost_id hm n y 0).1]; exact hy
    · exact fun y hy => by rw [(linePost_id hm m y 0).1]; exact hy

/-- The reductions of a valid 2-D object, in exact arithmetic. -/
theorem red2d_value {env : PyEnv V} (he : env.Ok) {v : SpVal V} (h : v.Good) (h2 : v.ty.Is2d) {op : RedOp V}
    (hsq : (∃ c, op = .std c) → ∀ x : V, 0 ≤ x → 0 ≤ (fsqrt x : V) ∧ (fsqrt x : V) * fsqrt x = x)
    (hop : op ≠ .min ∧ op ≠ .max) (hon : ¬ op.Linear → v.Once) (hsz : op.Size v.ty.shape)
    (axis : AxisArg) (keep : Bool) (hv : axis.Valid 2) (hne : axis ≠ .many []) :
    GivesPy (Red2d env op axis keep v.obj) (IsReduction v.ty.shape (axis.covers 2) keep op.Is v.cell) := by
  cases v with
  | mat fm a =>
    have hd := h.dims
    cases fm with
    | csr =>
      have := red2d_exact hlt (env := env) (op := op) (f := a.toCsr.val) (native_csr h) (n := a.n) (m := a.m) rfl hsz
        (csr_gives hlt he (a := a.toCsr) h.1 h.held.mach hd.2.1 hd.2.2 hsq hop hsz) axis keep hv hne
      refine ⟨this.1, fun o ho => ?_⟩
      obtain ⟨y, e, hy⟩ := this.2 o ho
      refine ⟨y, e, isReduction_congr hy fun x hx => ?_⟩
      obtain ⟨i, j, -, -, rfl⟩ := inBounds_two hx
      rfl
    | csc =>
      have := red2d_exact hlt (env := env) (op := op) (f := a.toCsc.val) (native_csc h) (n := a.m) (m := a.n) rfl hsz
        (csc_gives hlt he (a := a.toCsc) h.1 h.held.mach hd.2.1 hd.2.2 hsq hop hsz) axis keep hv hne
      refine ⟨this.1, fun o ho => ?_⟩
      obtain ⟨y, e, hy⟩ := this.2 o ho
      refine ⟨y, e, isReduction_congr hy fun x hx => ?_⟩
      obtain ⟨i, j, -, -, rfl⟩ := inBounds_two hx
      rfl
  | coo a =>
    have := red2d_exact hlt (env := env) (op := op) (f := a.val) (native_coo h) (n := a.nrows) (m := a.ncols) rfl hsz
      (coo_gives hlt h.1.1 h.1.2 h.2.1 h.2.2.1 h.2.2.2 hsq hon hop hsz) axis keep hv hne
    refine ⟨this.1, fun o ho => ?_⟩
    obtain ⟨y, e, hy⟩ := this.2 o ho
    refine ⟨y, e, isReduction_congr hy fun x hx => ?_⟩
    obtain ⟨i, j, -, -, rfl⟩ := inBounds_two hx
    rfl
  | nd a => exact absurd h2 id

end

section
variable [LinearOrder V] [AddZeroClass V] [One V] [Sub V] [Mul V] [Div V] [BEq V] [NatCast V] [HasLt V] [HasMinMax V]
  [HasSqrt V]

theorem red2d_minmax (hI : IdealMinMax V) {env : PyEnv V} (he : env.Ok) {v : SpVal V} (h : v.Good) (h2 : v.ty.Is2d)
    (hon : v.Once) (hpos : 0 < v.ty.shape.prod)
    (axis : AxisArg) (keep : Bool) (hv : axis.Valid 2) (hne : axis ≠ .many []) :
    GivesPy (Red2d env .min axis keep v.obj) (IsReduction v.ty.shape (axis.covers 2) keep IsMinOf v.cell) ∧
    GivesPy (Red2d env .max axis keep v.obj) (IsReduction v.ty.shape (axis.covers 2) keep IsMaxOf v.cell) := by
  have core : ∀ {op : RedOp V} {nat : Native V} {n m : Nat} {f : Nat → Nat → V} {P : List V → V → Prop},
      op ≠ .mean → (∀ mat coo, v.obj.native mat coo = .ok nat) → v.obj.dims = (n, m) → v.ty.shape = [n, m] →
      (∀ i j : Nat, i < n → j < m → v.cell [(i : Int), (j : Int)] = f i j) →
      (Gives (fun N => op.Glob N nat) (P (cellsOf n m f)) ∧
      Gives (fun N => op.Cols env N nat) (LinesAre P m fun j => (List.range n).map fun i => f i j) ∧
      Gives (fun N => op.Rows env N nat) (LinesAre P n fun i => (List.range m).map fun j => f i j)) →
      GivesPy (Red2d env op axis keep v.obj) (IsReduction v.ty.shape (axis.covers 2) keep P v.cell) := by
    intro op nat n m f P hm hn hd hsh hcell g
    have := red2d_core (env := env) (Raw := P) (Is := P) hn hd
      (fun s hs => ⟨s, (linePost_id hm _ [] s).2, hs⟩)
      (fun y hy => by rw [(linePost_id hm n y 0).1]; exact hy)
      (fun y hy => by rw [(linePost_id hm m y 0).1]; exact hy) g.1 g.2.1 g.2.2 axis keep hv hne
    refine ⟨this.1, fun o ho => ?_⟩
    obtain ⟨y, e, hy⟩ := this.2 o ho
    rw [hsh]
    refine ⟨y, e, isReduction_congr hy fun x hx => ?_⟩
    obtain ⟨i, j, hi, hj, rfl⟩ := inBounds_two hx
    exact (hcell i j hi hj).symm
  cases v with
  | mat fm a =>
    have hd := h.dims
    cases fm with
    | csr =>
      have hpos : 0 < a.n * (a.m * 1) := hpos
      have hn0 : 0 < a.n := Nat.pos_of_ne_zero fun e => by rw [e, Nat.zero_mul] at hpos; exact absurd hpos (by decide)
      have hm0 : 0 < a.m := Nat.pos_of_ne_zero fun e => by rw [e] at hpos; simp at hpos
      have g := csr_minmax_gives hI he (a := a.toCsr) h.1 h.held.mach hd.2.1 hd.2.2 hn0 hm0
      exact ⟨core (f := a.toCsr.val) (by simp) (native_csr h) rfl rfl (fun _ _ _ _ => rfl) g.1,
        core (f := a.toCsr.val) (by simp) (native_csr h) rfl rfl (fun _ _ _ _ => rfl) g.2⟩
    | csc =>
      have hpos : 0 < a.m * (a.n * 1) := hpos
      have hn0 : 0 < a.m := Nat.pos_of_ne_zero fun e => by rw [e, Nat.zero_mul] at hpos; exact absurd hpos (by decide)
      have hm0 : 0 < a.n := Nat.pos_of_ne_zero fun e => by rw [e] at hpos; simp at hpos
      have g := csc_minmax_gives hI he (a := a.toCsc) h.1 h.held.mach hd.2.1 hd.2.2 hn0 hm0
      exact ⟨core (f := a.toCsc.val) (by simp) (native_csc h) rfl rfl (fun _ _ _ _ => rfl) g.1,
        core (f := a.toCsc.val) (by simp) (native_csc h) rfl rfl (fun _ _ _ _ => rfl) g.2⟩
  | coo a =>
    have hpos : 0 < a.nrows * (a.ncols * 1) := hpos
    have hn0 : 0 < a.nrows := Nat.pos_of_ne_zero fun e => by rw [e, Nat.zero_mul] at hpos; exact absurd hpos (by decide)
    have hm0 : 0 < a.ncols := Nat.pos_of_ne_zero fun e => by rw [e] at hpos; simp at hpos
    have g := coo_minmax_gives hI (env := env) h.1.1 h.1.2 hon h.2.2.2 hn0 hm0
    exact ⟨core (f := a.val) (by simp) (native_coo h) rfl rfl (fun _ _ _ _ => rfl) g.1,
      core (f := a.val) (by simp) (native_coo h) rfl rfl (fun _ _ _ _ => rfl) g.2⟩
  | nd a => exact absurd h2 id

end

/-- `all` and `any` of a valid 2-D object. -/
theorem logic2d_value [AddCommMonoid V] [One V] [Sub V] [Mul V] [Div V] [BEq V] [NatCast V] [HasLt V] [HasMinMax V] [HasSqrt V]
    (h0 : ((0 : V) == 0) = true) {env : PyEnv V} (he : env.Ok) {v : SpVal V} (h : v.Good) (h2 : v.ty.Is2d) (op : LogicOp)
    (axis : AxisArg) (keep : Bool) (hv : axis.Valid 2) (hne : axis ≠ .many []) :
    GivesPy (Logic2d env op axis keep v.obj) (IsReduction v.ty.shape (axis.covers 2) keep op.Is v.cell) := by
  have core : ∀ {nat : Native V} {n m : Nat} {f : Nat → Nat → V},
      (∀ mat coo, v.obj.native mat coo = .ok nat) → v.obj.dims = (n, m) → v.ty.shape = [n, m] →
      (∀ i j : Nat, i < n → j < m → v.cell [(i : Int), (j : Int)] = f i j) →
      (Gives (fun _ => op.Glob env nat) (op.Is (cellsOf n m f)) ∧
      Gives (fun N => op.Cols env N nat) (LinesAre op.Is m fun j => (List.range n).map fun i => f i j) ∧
      Gives (fun _ => op.Rows env nat) (LinesAre op.Is n fun i => (List.range m).map fun j => f i j)) →
      GivesPy (Logic2d env op axis keep v.obj) (IsReduction v.ty.shape (axis.covers 2) keep op.Is v.cell) := by
    intro nat n m f hn hd hsh hcell g
    have := logic2d_core hn hd g axis keep hv hne
    refine ⟨this.1, fun o ho => ?_⟩
    obtain ⟨y, e, hy⟩ := this.2 o ho
    rw [hsh]
    refine ⟨y, e, isReduction_congr hy fun x hx => ?_⟩
    obtain ⟨i, j, hi, hj, rfl⟩ := inBounds_two hx
    exact (hcell i j hi hj).symm
  cases v with
  | mat fm a =>
    have hd := h.dims
    cases fm with
    | csr =>
      exact core (f := a.toCsr.val) (native_csr h) rfl rfl (fun _ _ _ _ => rfl)
        (csr_logic_gives h0 he (a := a.toCsr) h.1 h.held.mach hd.2.1 hd.2.2 op)
    | csc =>
      exact core (f := a.toCsc.val) (native_csc h) rfl rfl (fun _ _ _ _ => rfl)
        (csc_logic_gives h0 (env := env) (a := a.toCsc) h.1 h.held.mach hd.2.1 op)
  | coo a =>
    exact core (f := a.val) (native_coo h) rfl rfl (fun _ _ _ _ => rfl)
      (coo_logic_gives h0 he h.1.1 h.1.2 h.2.1 h.2.2.1 h.2.2.2 op)
  | nd a => exact absurd h2 id

/-! ### N-D arrays -/

section
variable [Zero V] [One V] [Add V] [Sub V] [Mul V] [Div V] [BEq V] [NatCast V]

/-- Putting the reduced axes back as axes of length one. -/
theorem keepdimsObj_of {shape : List Nat} {S : Nat → Bool} {axes : List Nat}
    (hS : ∀ d, d < shape.length → axes.contains d = S d)
    (hrem : ((List.range shape.length).filter fun d => !(S d)) ≠ []) {r : CooNd V}
    (hr : r.shape = reducedShape shape S false) (hw : r.WF) :
    keepdimsObj shape.length (PyNd.of r) axes = .ret (PyNd.of (coondKeepdims shape.length r axes)) := by
  have hk := coondKeepdims_wf rfl hS hrem hr hw
  have hlen : r.shape.length = ((List.range shape.length).filter fun d => !(axes.contains d)).length := by
    rw [hr, reducedShape_false, List.length_map]
    congr 1
    exact List.filter_congr fun d hd => by rw [hS d (List.mem_range.1 hd)]
  have hsh : (PyNd.of r).shape.map Int.toNat = r.shape := by
    show (r.shape.map Int.ofNat).map Int.toNat = _
    rw [List.map_map]
    conv => rhs; rw [← List.map_id r.shape]
    rfl
  unfold keepdimsObj
  simp only []
  rw [if_neg, hsh]
  · show PyRes.ofExcept (PyNd.new _ _ _) = _
    rw [show (⟨r.shape, (PyNd.of r).indices, (PyNd.of r).data⟩ : CooNd V) = r from rfl, pyNd_new_any hk.2.rank hk.2.length]
    rfl
  · rintro ⟨-, h⟩
    exact h (by rw [← hlen]; exact hw.length)

theorem argDims_nat {l : List Nat} (h : ∀ d ∈ l, (d : Int) ≤ i64Max) : argDims (l.map fun (d : Nat) => (d : Int)) = .ok l := by
  rw [argDims_eq]
  have e1 : npInt64 (l.map fun (d : Nat) => (d : Int)) = .ok (l.map fun (d : Nat) => (d : Int)) := by
    unfold npInt64
    rw [if_pos]
    intro x hx
    obtain ⟨d, hd, rfl⟩ := List.mem_map.1 hx
    have := h d hd
    omega
  rw [e1]
  exact shapeUsize_of l

/-- The call of `sum` or `mean` over axes that leave one, in any arithmetic. -/
theorem redNd_axes [HasLt V] [HasMinMax V] [HasSqrt V] {env : PyEnv V} (he : env.Ok) {a : CooNd V} (h : (SpVal.nd a).Good)
    (hrank : (a.shape.length : Int) ≤ i64Max)
    (mean : Bool) {axis : AxisArg} (keep : Bool) (hn : axis ≠ .none) (hne : axis ≠ .many []) (hv : axis.Valid a.shape.length)
    (hleft : ∃ d, d < a.shape.length ∧ axis.covers a.shape.length d = false) (g : V) :
    ∃ r : CooNd V, reduceCoond a g (if mean then reduceMeanNd env.ndSort a else reduceSumNd env.ndSort a) axis keep =
        .ok (.sparse r) ∧ r.shape = reducedShape a.shape (axis.covers a.shape.length) keep ∧ r.WF ∧
      ∀ out, RedNd env mean axis keep (PyNd.of a) out ↔ out = .ret (.sparse (SpVal.nd r).obj) := by
  let _ : Neg V := ⟨id⟩
  let _ : HasFinite V := ⟨fun _ => true⟩
  let _ : HasFloor V := ⟨id⟩
  let _ : HasPowf V := ⟨fun x _ => x⟩
  let _ : HasAbs V := ⟨id⟩
  let _ : HasNan V := ⟨fun _ => false, 0⟩
  set S := axis.covers a.shape.length with hS
  set L := (List.range a.shape.length).filter S with hL
  have hLne : L ≠ [] := covered_ne_nil hn hne hv
  have hrest : restAxes a.shape.length L = (List.range a.shape.length).filter fun d => !(S d) := restAxes_covered _ _
  have hrem : ((List.range a.shape.length).filter fun d => !(S d)) ≠ [] := by
    obtain ⟨d, hd, hc⟩ := hleft
    exact List.ne_nil_of_mem (List.mem_filter.2 ⟨List.mem_range.2 hd, by rw [hc]; rfl⟩)
  have hLok : AxesOk a.shape.length L := ⟨fun _ hp => List.mem_range.1 (List.mem_filter.1 hp).1, List.Nodup.filter _ List.nodup_range⟩
  have harg : argDims (L.map fun (d : Nat) => (d : Int)) = .ok L := by
    refine argDims_nat fun d hd => ?_
    have := hLok.1 d hd
    omega
  obtain ⟨hw, hi, hpos, h63, hus, h24, hidx, hU⟩ := nd_fits h
  let op : NdOp := if mean then .reduceMean else .reduceSum
  have hty : op.ty a.shape L = .ok (.nd (extents a.shape (restAxes a.shape.length L))) := by
    have hc : AxesOk a.shape.length L ∧ L ≠ [] ∧ restAxes a.shape.length L ≠ [] := ⟨hLok, hLne, by rw [hrest]; exact hrem⟩
    cases mean
    · exact if_pos hc
    · exact if_pos hc
  have hap : op.apply env a L = ndRes ((if mean then reduceMeanNd env.ndSort a else reduceSumNd env.ndSort a) L) := by
    cases mean <;> rfl
  have hfit : ∀ τ, (SpVal.nd a).ty.ndop op (L.map fun (d : Nat) => (d : Int)) = .ok τ → τ.SizeOk (SpVal.nd a).nnz := by
    intro τ hτ
    have : (SpVal.nd a).ty.ndop op (L.map fun (d : Nat) => (d : Int)) =
        (argDims (L.map fun (d : Nat) => (d : Int))).bind (op.ty a.shape) := rfl
    rw [this, harg] at hτ
    have hτ : op.ty a.shape L = .ok τ := hτ
    rw [hty] at hτ
    cases hτ
    have hp := extents_prod_le (restAxes_ok a.shape.length L) hpos
    have hlen : (extents a.shape (restAxes a.shape.length L)).length ≤ a.shape.length := by
      unfold extents restAxes
      rw [List.length_map]
      exact (List.length_filter_le _ _).trans (by simp)
    refine ⟨hp.1, ?_, h24, ?_⟩
    · have := hp.2; omega
    · have h4 : 8 * ((a.data.length * a.shape.length : Nat) : Int) ≤ i64Max := h.2.2.2.2
      have := Nat.mul_le_mul_left a.data.length hlen
      show 8 * ((a.data.length * (extents a.shape (restAxes a.shape.length L)).length : Nat) : Int) ≤ i64Max
      omega
  obtain ⟨hm, hR⟩ := step_ndop he op (L.map fun (d : Nat) => (d : Int)) h hfit
  have hnd : (SpVal.nd a).ndop env op (L.map fun (d : Nat) => (d : Int)) = op.apply env a L := by
    show (argDims (L.map fun (d : Nat) => (d : Int))).bind _ = _
    rw [harg]; rfl
  have htn : (SpVal.nd a).ty.ndop op (L.map fun (d : Nat) => (d : Int)) =
      .ok (.nd (extents a.shape (restAxes a.shape.length L))) := by
    show (argDims (L.map fun (d : Nat) => (d : Int))).bind _ = _
    rw [harg]; exact hty
  rw [hnd, htn] at hm
  rw [hnd] at hR
  obtain ⟨w, e1, hwv, hwt, -⟩ := hm
  rw [hap] at e1
  cases hpart : (if mean then reduceMeanNd env.ndSort a else reduceSumNd env.ndSort a) L with
  | none => rw [hpart] at e1; cases e1
  | some r =>
    rw [hpart] at e1
    cases e1
    have hrw : r.WF := hwv.1
    have hrs : r.shape = reducedShape a.shape S false := by
      have : Ty.nd r.shape = .nd (extents a.shape (restAxes a.shape.length L)) := hwt
      rw [reducedShape_false, ← hrest]
      exact Ty.nd.inj this
    have hcont : ∀ d, d < a.shape.length → L.contains d = S d := fun d hd => contains_covered hd
    have hnorm := normalizeAxesNd_eq a.shape.length axis hn hv
    have hax := axesToUsize_covers a.shape.length S
    rw [hap, hpart] at hR
    refine ⟨if keep then coondKeepdims a.shape.length r L else r, ?_, ?_, ?_, ?_⟩
    · rw [reduceCoond_some a g _ keep hn hne hv]
      rw [hpart]
    · cases keep
      · exact hrs
      · exact (coondKeepdims_wf rfl hcont hrem hrs hrw).1
    · cases keep
      · exact hrw
      · exact (coondKeepdims_wf rfl hcont hrem hrs hrw).2
    · intro out
      unfold RedNd
      rw [show (PyNd.of a).shape.length = a.shape.length from List.length_map _, hnorm]
      rw [← hS, ← hL] at *
      cases hLm : L.map fun (d : Nat) => (d : Int) with
      | nil => exact absurd (List.map_eq_nil_iff.1 hLm) hLne
      | cons d ds =>
        rw [hLm] at hR hax
        simp only []
        have hR' : ∀ o, NdMethod env (if mean then .reduceMean else .reduceSum) (d :: ds) (.nd (PyNd.of a)) o ↔
            o = .ret (.nd (PyNd.of r)) := hR
        constructor
        · rintro ⟨o, ho, rfl⟩
          rw [hR'] at ho
          subst ho
          cases keep
          · rfl
          · show (keepdimsObj _ _ (axesToUsize (d :: ds))).bind _ = _
            rw [hax, keepdimsObj_of hcont hrem hrs hrw]
            rfl
        · rintro rfl
          refine ⟨_, (hR' _).2 rfl, ?_⟩
          cases keep
          · rfl
          · show _ = (keepdimsObj _ _ (axesToUsize (d :: ds))).bind _
            rw [hax, keepdimsObj_of hcont hrem hrs hrw]
            rfl

/-- Reducing over all axes by naming them, in any arithmetic. -/
theorem redNd_all [HasLt V] [HasMinMax V] [HasSqrt V] {env : PyEnv V} (he : env.Ok) {a : CooNd V} (h : (SpVal.nd a).Good)
    (hrank : (a.shape.length : Int) ≤ i64Max)
    (mean : Bool) {axis : AxisArg} (keep : Bool) (hn : axis ≠ .none) (hne : axis ≠ .many []) (hv : axis.Valid a.shape.length)
    (hall : ∀ d, d < a.shape.length → axis.covers a.shape.length d = true) (out : PyRes (RedOut V V)) :
    RedNd env mean axis keep (PyNd.of a) out ↔ out = .raises .panic := by
  let _ : Neg V := ⟨id⟩
  let _ : HasFinite V := ⟨fun _ => true⟩
  let _ : HasFloor V := ⟨id⟩
  let _ : HasPowf V := ⟨fun x _ => x⟩
  let _ : HasAbs V := ⟨id⟩
  let _ : HasNan V := ⟨fun _ => false, 0⟩
  have hnorm := normalizeAxesNd_eq a.shape.length axis hn hv
  have hLne := covered_ne_nil hn hne hv
  have hrest : restAxes a.shape.length ((List.range a.shape.length).filter (axis.covers a.shape.length)) = [] := by
    rw [restAxes_covered, List.filter_eq_nil_iff]
    intro d hd
    simp [hall d (List.mem_range.1 hd)]
  have hlt : ∀ d ∈ (List.range a.shape.length).filter (axis.covers a.shape.length), d < a.shape.length :=
    fun d hd => List.mem_range.1 (List.mem_filter.1 hd).1
  generalize (List.range a.shape.length).filter (axis.covers a.shape.length) = L at hnorm hLne hrest hlt
  have harg : argDims (L.map fun (d : Nat) => (d : Int)) = .ok L := by
    refine argDims_nat fun d hd => ?_
    have := hlt d hd
    omega
  let op : NdOp := if mean then .reduceMean else .reduceSum
  have hty : (SpVal.nd a).ty.ndop op (L.map fun (d : Nat) => (d : Int)) = .error .panic := by
    show (argDims (L.map fun (d : Nat) => (d : Int))).bind _ = _
    rw [harg]
    have hc : ¬ (AxesOk a.shape.length L ∧ L ≠ [] ∧ restAxes a.shape.length L ≠ []) := fun hc => hc.2.2 hrest
    cases mean
    · exact if_neg hc
    · exact if_neg hc
  obtain ⟨hm, hR⟩ := step_ndop he op (L.map fun (d : Nat) => (d : Int)) h fun τ hτ => by rw [hty] at hτ; cases hτ
  rw [hty] at hm
  have hm : (SpVal.nd a).ndop env op (L.map fun (d : Nat) => (d : Int)) = .error .panic := hm
  rw [hm] at hR
  unfold RedNd
  rw [show (PyNd.of a).shape.length = a.shape.length from List.length_map _, hnorm]
  cases hLm : L.map fun (d : Nat) => (d : Int) with
  | nil => exact absurd (List.map_eq_nil_iff.1 hLm) hLne
  | cons d ds =>
    rw [hLm] at hR
    have hR' : ∀ o, NdMethod env (if mean then .reduceMean else .reduceSum) (d :: ds) (.nd (PyNd.of a)) o ↔
        o = .raises .panic := hR
    simp only []
    constructor
    · rintro ⟨o, ho, rfl⟩
      rw [hR'] at ho
      subst ho
      rfl
    · rintro rfl
      exact ⟨_, (hR' _).2 rfl, rfl⟩

end
end Lacuna
