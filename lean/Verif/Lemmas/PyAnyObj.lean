import Verif.Lemmas.AnyLogic
import Verif.Lemmas.PyBitsProg
import Verif.Props.PyStat
/-
The reductions of Python objects in any arithmetic.
-/
set_option linter.unusedSectionVars false

namespace Lacuna
variable {V : Type}

/-! ### What a cell holds -/

theorem held_lines (a : Comp V) {i : Nat} (hi : i < a.n) (j : Nat) :
    valuesAt ((List.range a.n).flatMap fun (i : Nat) => (a.row i).map fun e => ([(i : Int), e.1], e.2)) [(i : Int), (j : Int)] =
      ((a.row i).filter fun e => e.1 == (j : Int)).map Prod.snd := by
  unfold valuesAt
  rw [List.filter_flatMap, List.map_flatMap]
  rw [← flatMap_single a.n i hi (((a.row i).filter fun e => e.1 == (j : Int)).map Prod.snd)]
  refine List.flatMap_congr fun k _ => ?_
  rw [List.filter_map, List.map_map]
  by_cases hk : k = i
  · subst hk
    rw [if_pos rfl]
    congr 1
    apply List.filter_congr
    intro e _
    rw [Bool.eq_iff_iff]
    simp
  · rw [if_neg hk]
    have : (a.row k).filter ((fun e : List Int × V => e.1 == [(i : Int), (j : Int)]) ∘ fun e => ([(k : Int), e.1], e.2)) = [] := by
      rw [List.filter_eq_nil_iff]
      intro e _
      simp
      omega
    rw [this]; rfl

theorem held_csr (a : Comp V) {i : Nat} (hi : i < a.n) (j : Nat) : (SpVal.mat .csr a).held [(i : Int), (j : Int)] =
    ((a.row i).filter fun e => e.1 == (j : Int)).map Prod.snd := held_lines a hi j

theorem held_csc (a : Comp V) (i : Nat) {j : Nat} (hj : j < a.n) : (SpVal.mat .csc a).held [(i : Int), (j : Int)] =
    ((a.row j).filter fun e => e.1 == (i : Int)).map Prod.snd := by
  rw [← held_lines a hj i]
  unfold SpVal.held
  show valuesAt ((List.range a.n).flatMap fun (j : Nat) => (a.row j).map fun e => ([e.1, (j : Int)], e.2)) _ = _
  unfold valuesAt
  rw [List.filter_flatMap, List.map_flatMap, List.filter_flatMap, List.map_flatMap]
  refine List.flatMap_congr fun k _ => ?_
  rw [List.filter_map, List.map_map, List.filter_map, List.map_map]
  congr 1
  apply List.filter_congr
  intro e _
  rw [Bool.eq_iff_iff]
  simp [And.comm]

theorem held_coo (a : Coo V) (i j : Nat) : (SpVal.coo a).held [(i : Int), (j : Int)] = valuesAt a.triples ((i : Int), (j : Int)) := by
  unfold SpVal.held
  show valuesAt (a.triples.map fun t => ([t.1.1, t.1.2], t.2)) _ = _
  unfold valuesAt
  rw [List.filter_map, List.map_map]
  congr 1
  apply List.filter_congr
  intro e _
  rw [Bool.eq_iff_iff]
  simp [Prod.ext_iff]

/-- The values under some keys. -/
theorem values_by_key {K : Type} [BEq K] [LawfulBEq K] {ks : List K} (hk : ks.Nodup) (l : List (K × V)) :
    ((ks.map (valuesAt l)).flatten).Perm ((l.filter fun e => ks.contains e.1).map Prod.snd) := by
  have h := (perm_by_key (fun e : K × V => e.1) hk l).map Prod.snd
  rw [List.map_flatMap] at h
  exact h

/-- The cells of a 2-D object along its rows, its columns and altogether hold what the kernels read. -/
theorem coo_cells {a : Coo V} (ha : a.WF) :
    (∀ i : Nat, (((List.range a.ncols).map fun (j : Nat) => valuesAt a.triples ((i : Int), (j : Int))).flatten).Perm (a.rowVals i)) ∧
    (∀ j : Nat, (((List.range a.nrows).map fun (i : Nat) => valuesAt a.triples ((i : Int), (j : Int))).flatten).Perm (a.colVals j)) := by
  constructor
  · intro i
    have h1 : ((List.range a.ncols).map fun (j : Nat) => ((i : Int), (j : Int))).Nodup :=
      List.nodup_range.map (fun _ _ h => by simpa using h)
    have h2 := values_by_key h1 a.triples
    rw [List.map_map] at h2
    refine h2.trans (List.Perm.of_eq ?_)
    unfold Coo.rowVals
    congr 1
    apply List.filter_congr
    intro e he
    have hb := ha.triple_bounds e he
    rw [Bool.eq_iff_iff, List.contains_iff_mem, List.mem_map, beq_iff_eq]
    constructor
    · rintro ⟨j, -, e1⟩; rw [← e1]
    · intro h
      exact ⟨e.1.2.toNat, List.mem_range.2 (by omega), Prod.ext h.symm (by show ((e.1.2.toNat : Nat) : Int) = e.1.2; omega)⟩
  · intro j
    have h1 : ((List.range a.nrows).map fun (i : Nat) => ((i : Int), (j : Int))).Nodup :=
      List.nodup_range.map (fun _ _ h => by simpa using h)
    have h2 := values_by_key h1 a.triples
    rw [List.map_map] at h2
    refine h2.trans (List.Perm.of_eq ?_)
    unfold Coo.colVals
    congr 1
    apply List.filter_congr
    intro e he
    have hb := ha.triple_bounds e he
    rw [Bool.eq_iff_iff, List.contains_iff_mem, List.mem_map, beq_iff_eq]
    constructor
    · rintro ⟨j, -, e1⟩; rw [← e1]
    · intro h
      exact ⟨e.1.1.toNat, List.mem_range.2 (by omega), Prod.ext (by show ((e.1.1.toNat : Nat) : Int) = e.1.1; omega) h.symm⟩

theorem cellsOf_flatten (n m : Nat) (f : Nat → Nat → List V) :
    (cellsOf n m f).flatten = (List.range n).flatMap fun i => ((List.range m).map (f i)).flatten := by
  unfold cellsOf
  rw [List.flatMap_def, List.flatMap_def, List.flatten_flatten, List.map_map]
  rfl

theorem coo_all_cells {a : Coo V} (ha : a.WF) :
    ((cellsOf a.nrows a.ncols fun i j => valuesAt a.triples ((i : Int), (j : Int))).flatten).Perm a.data := by
  rw [cellsOf_flatten]
  refine (List.Perm.flatMap_left _ fun i _ => (coo_cells ha).1 i).trans ?_
  have h1 : ((List.range a.nrows).map fun (i : Nat) => (i : Int)).Nodup :=
    List.nodup_range.map (fun _ _ h => by simpa using h)
  have h2 := (perm_by_key (fun t : (Int × Int) × V => t.1.1) h1 a.triples).map Prod.snd
  rw [filter_contains_all (fun e he => by
    have := ha.triple_bounds e he
    exact List.mem_map.2 ⟨e.1.1.toNat, List.mem_range.2 (by omega), by omega⟩), List.map_flatMap, List.flatMap_map] at h2
  refine h2.trans (List.Perm.of_eq ?_)
  unfold Coo.triples
  rw [List.map_snd_zip]
  have h1 := ha.row_length
  have h2 := ha.col_length
  rw [List.length_zip]
  omega

/-! ### From the kernels to the calls -/

section
variable [Zero V] [One V] [Add V] [Sub V] [Mul V] [Div V] [BEq V] [NatCast V] [HasLt V] [HasMinMax V] [HasSqrt V]

theorem computes_perm {op : RedOp V} {cells : List (List V)} {k : Nat} {s : List V} (hk : cells.length = k)
    (hp : cells.flatten.Perm s) {r : V} (h : op.Computes k (s : Multiset V) r) : op.OfCells cells r := by
  subst hk
  unfold RedOp.OfCells
  rw [Multiset.coe_eq_coe.2 hp]
  exact h

/-- `mean` divides what the kernels return. -/
theorem computes_mean {op : RedOp V} (hm : op = .mean) {k : Nat} {s : Multiset V} {t : V} (h : op.kernel.Computes k s t) :
    op.Computes k s (t / (k : V)) := by
  subst hm
  exact ⟨t, h, rfl⟩

theorem kernel_id {op : RedOp V} (hm : op ≠ .mean) : op.kernel = op := by
  cases op <;> first | exact absurd rfl hm | rfl

theorem linePost_any {op : RedOp V} {n k : Nat} {vals : Nat → List V} {cells : Nat → List (List V)} {y : List V}
    (hk : ∀ i, (cells i).length = k) (hp : ∀ i, i < n → ((cells i).flatten).Perm (vals i))
    (h : op.Each n k (fun i => (vals i : Multiset V)) y) : LinesAre op.OfCells n cells (op.linePost k y) := by
  by_cases hm : op = .mean
  · subst hm
    refine ⟨by show (y.map _).length = n; rw [List.length_map]; exact h.1, fun i r hr => ?_⟩
    have hr : (y.map fun s => s / (k : V))[i]? = some r := hr
    rw [List.getElem?_map, Option.map_eq_some_iff] at hr
    obtain ⟨t, ht, rfl⟩ := hr
    have hi : i < n := by rw [← h.1]; exact (List.getElem?_eq_some_iff.1 ht).1
    exact computes_perm (hk i) (hp i hi) (computes_mean rfl (h.2 i t ht))
  · rw [(linePost_id hm k y 0).1]
    refine ⟨h.1, fun i r hr => ?_⟩
    have hi : i < n := by rw [← h.1]; exact (List.getElem?_eq_some_iff.1 hr).1
    have := h.2 i r hr
    rw [kernel_id hm] at this
    exact computes_perm (hk i) (hp i hi) this

/-- Axes that leave one do not look at the total. -/
theorem reduce2dObj_glob {W : Type} {n m : Nat} {glob glob' : PyRes W → Prop} {cols rows : PyRes (List W) → Prop} {axis : AxisArg}
    {keep : Bool} (hv : axis.Valid 2) (hc : ∃ d, d < 2 ∧ axis.covers 2 d = false) (out : PyRes (NdArr W)) :
    Reduce2dObj n m glob cols rows axis keep out ↔ Reduce2dObj n m glob' cols rows axis keep out := by
  obtain ⟨d, hd, hc⟩ := hc
  have hn : axis ≠ .none := by rintro rfl; cases hc
  unfold Reduce2dObj
  rw [normalizeAxes2d_eq, normalizeAxesNd_eq 2 axis hn hv]
  simp only []
  have hne : ¬ (some (((List.range 2).filter (axis.covers 2)).map fun (d : Nat) => (d : Int)) = none ∨
      some (((List.range 2).filter (axis.covers 2)).map fun (d : Nat) => (d : Int)) = some [0, 1]) := by
    rintro (h | h)
    · cases h
    · have hm : (d : Int) ∈ ((List.range 2).filter (axis.covers 2)).map fun (d : Nat) => (d : Int) := by
        rw [Option.some.inj h]
        have : d = 0 ∨ d = 1 := by omega
        rcases this with rfl | rfl <;> simp
      obtain ⟨d', hd', e⟩ := List.mem_map.1 hm
      have : d' = d := by omega
      rw [this, List.mem_filter, hc] at hd'
      cases hd'.2
  rw [if_neg hne, if_neg hne]

/-- The three native calls decide the reduction. -/
theorem red2d_any {env : PyEnv V} {op : RedOp V} {x : PyObj V} {nat : Native V} {n m : Nat} {f : Nat → Nat → List V}
    {rowVals colVals : Nat → List V}
    (hn : ∀ mat coo, x.native mat coo = .ok nat) (hd : x.dims = (n, m))
    (hall : ((cellsOf n m f).flatten).Perm nat.data)
    (hrow : ∀ i, i < n → (((List.range m).map fun j => f i j).flatten).Perm (rowVals i))
    (hcol : ∀ j, j < m → (((List.range n).map fun i => f i j).flatten).Perm (colVals j))
    (g : Gives (fun N => op.Glob N nat) (op.kernel.Computes (n * m) (nat.data : Multiset V)) ∧
      Gives (fun N => op.Cols env N nat) (op.Each m n fun j => (colVals j : Multiset V)) ∧
      Gives (fun N => op.Rows env N nat) (op.Each n m fun i => (rowVals i : Multiset V)))
    (axis : AxisArg) (keep : Bool) (hv : axis.Valid 2) (hne : axis ≠ .many [])
    (hz : op = .mean → (∀ d, d < 2 → axis.covers 2 d = true) → (((n * m : Nat) : V) == 0) = false) :
    GivesPy (Red2d env op axis keep x) (IsReduction [n, m] (axis.covers 2) keep op.OfCells (matFun f)) := by
  have hcols : GivesPy (fun o => ∃ p, NativeCall (.ok nat) (fun N a => op.Cols env N a) p ∧ o = p.bind fun v => .ret (op.linePost n v))
      fun cs => cs.length = m ∧ ∀ j r, cs[j]? = some r → op.OfCells ((List.range n).map fun i => f i j) r :=
    (Gives.call (run := fun N a => op.Cols env N a) g.2.1).bind fun y hy =>
      ⟨_, rfl, linePost_any (cells := fun j => (List.range n).map fun i => f i j) (by simp) hcol hy⟩
  have hrows : GivesPy (fun o => ∃ p, NativeCall (.ok nat) (fun N a => op.Rows env N a) p ∧ o = p.bind fun v => .ret (op.linePost m v))
      fun rs => rs.length = n ∧ ∀ i r, rs[i]? = some r → op.OfCells ((List.range m).map fun j => f i j) r :=
    (Gives.call (run := fun N a => op.Rows env N a) g.2.2).bind fun y hy =>
      ⟨_, rfl, linePost_any (cells := fun i => (List.range m).map fun j => f i j) (by simp) hrow hy⟩
  have hglob := Gives.call (run := fun N a => op.Glob N a) g.1
  unfold Red2d
  rw [hn, hd]
  by_cases hm : op = .mean
  · by_cases hall' : ∀ d, d < 2 → axis.covers 2 d = true
    · refine reduce2dObj_correct (P := op.OfCells) (f := f) (hglob.bind fun s hs => ⟨s / ((n * m : Nat) : V), ?_, ?_⟩)
        hcols hrows axis keep hv hne
      · subst hm
        show PyRes.ofExcept (pyFloatDiv s ((n * m : Nat) : V)) = _
        unfold pyFloatDiv
        rw [hz rfl hall']; rfl
      · exact computes_perm (cellsOf_length _ _ _) hall (computes_mean hm hs)
    · have hex : ∃ d, d < 2 ∧ axis.covers 2 d = false := by
        by_contra hh
        exact hall' fun d hd => by
          by_contra hb
          exact hh ⟨d, hd, by simpa using hb⟩
      have hg' : GivesPy (fun o : PyRes V => ∃ s, op.kernel.Computes (n * m) (nat.data : Multiset V) s ∧ o = .ret (s / ((n * m : Nat) : V)))
          fun g => op.OfCells (cellsOf n m f) g := by
        refine ⟨?_, ?_⟩
        · obtain ⟨⟨o, ho⟩, h2⟩ := hglob
          obtain ⟨s, -, hs⟩ := h2 o ho
          exact ⟨_, s, hs, rfl⟩
        · rintro o ⟨s, hs, rfl⟩
          exact ⟨_, rfl, computes_perm (cellsOf_length _ _ _) hall (computes_mean hm hs)⟩
      have key := reduce2dObj_correct (P := op.OfCells) (f := f) hg' hcols hrows axis keep hv hne
      exact ⟨key.1.imp fun o ho => (reduce2dObj_glob hv hex o).1 ho, fun o ho => key.2 o ((reduce2dObj_glob hv hex o).1 ho)⟩
  · refine reduce2dObj_correct (P := op.OfCells) (f := f) (hglob.bind fun s hs => ⟨s, (linePost_id hm _ [] s).2, ?_⟩)
      hcols hrows axis keep hv hne
    rw [kernel_id hm] at hs
    exact computes_perm (cellsOf_length _ _ _) hall hs

theorem shape_prod_two (n m : Nat) : [n, m].prod = n * m := by simp

/-- The reductions of a valid 2-D object in any arithmetic. -/
theorem red2d_held {env : PyEnv V} (he : env.Ok) {v : SpVal V} (h : v.Good) (h2 : v.ty.Is2d) {op : RedOp V}
    (axis : AxisArg) (keep : Bool) (hv : axis.Valid 2) (hne : axis ≠ .many [])
    (hz : op = .mean → (∀ d, d < 2 → axis.covers 2 d = true) → (((v.ty.shape.prod : Nat) : V) == 0) = false) :
    GivesPy (Red2d env op axis keep v.obj) (IsReduction v.ty.shape (axis.covers 2) keep op.OfCells v.held) := by
  have core : ∀ {nat : Native V} {n m : Nat} {f : Nat → Nat → List V} {rowVals colVals : Nat → List V},
      (∀ mat coo, v.obj.native mat coo = .ok nat) → v.obj.dims = (n, m) → v.ty.shape = [n, m] →
      (∀ i j : Nat, i < n → j < m → v.held [(i : Int), (j : Int)] = f i j) →
      ((cellsOf n m f).flatten).Perm nat.data →
      (∀ i, i < n → (((List.range m).map fun j => f i j).flatten).Perm (rowVals i)) →
      (∀ j, j < m → (((List.range n).map fun i => f i j).flatten).Perm (colVals j)) →
      (Gives (fun N => op.Glob N nat) (op.kernel.Computes (n * m) (nat.data : Multiset V)) ∧
      Gives (fun N => op.Cols env N nat) (op.Each m n fun j => (colVals j : Multiset V)) ∧
      Gives (fun N => op.Rows env N nat) (op.Each n m fun i => (rowVals i : Multiset V))) →
      GivesPy (Red2d env op axis keep v.obj) (IsReduction v.ty.shape (axis.covers 2) keep op.OfCells v.held) := by
    intro nat n m f rowVals colVals hn hd hsh hcell h1 h2 h3 g
    have := red2d_any hn hd h1 h2 h3 g axis keep hv hne fun a b => by rw [← shape_prod_two, ← hsh]; exact hz a b
    refine ⟨this.1, fun o ho => ?_⟩
    obtain ⟨y, e, hy⟩ := this.2 o ho
    rw [hsh]
    refine ⟨y, e, isReduction_congr hy fun x hx => ?_⟩
    obtain ⟨i, j, hi, hj, rfl⟩ := inBounds_two hx
    exact (hcell i j hi hj).symm
  cases v with
  | mat fm a =>
    have hd := h.dims
    have hw : a.WFU := Comp.WF.wfu h.1
    cases fm with
    | csr =>
      refine core (f := fun i j => ((a.row i).filter fun e => e.1 == (j : Int)).map Prod.snd) (native_csr h) rfl rfl
        (fun i j hi _ => held_csr a hi j) ?_ (fun i _ => ?_) (fun j _ => ?_)
        (csr_any he (a := a.toCsr) h.1 h.held.mach hd.2.1 hd.2.2 op)
      · rw [cellsOf_flatten]
        show List.Perm _ a.data
        rw [data_lines hw]
        exact List.Perm.flatMap_left _ fun i _ => row_by_index hw i
      · exact row_by_index hw i
      · exact List.Perm.refl _
    | csc =>
      refine core (f := fun i j => ((a.row j).filter fun e => e.1 == (i : Int)).map Prod.snd) (native_csc h) rfl rfl
        (fun i j _ hj => held_csc a i hj) ?_ (fun i _ => ?_) (fun j _ => ?_)
        (csc_any he (a := a.toCsc) h.1 h.held.mach hd.2.1 hd.2.2 op)
      · rw [cellsOf_flatten]
        show List.Perm _ a.data
        rw [data_lines hw]
        refine (List.Perm.of_eq ?_).trans ((cells_swap a.m a.n fun i j => a.stored j i).trans ?_)
        · unfold cellsOf
          rw [List.flatMap_assoc]
          simp only [List.flatMap_map]
          refine List.flatMap_congr fun i _ => ?_
          rw [List.flatMap_def]
          congr 1
          refine List.map_congr_left fun j _ => ?_
          exact cell_toList (Comp.WF.noRep h.1) j i
        · exact (data_lines hw) ▸ (data_perm h.1).symm
      · exact List.Perm.refl _
      · exact row_by_index hw j
  | coo a =>
    exact core (f := fun i j => valuesAt a.triples ((i : Int), (j : Int))) (native_coo h) rfl rfl (fun i j _ _ => held_coo a i j)
      (coo_all_cells h.1.1) (fun i _ => (coo_cells h.1.1).1 i) (fun j _ => (coo_cells h.1.1).2 j)
      (coo_any (env := env) h.1.1 h.1.2 h.2.1 h.2.2.1 h.2.2.2 op)
  | nd a => exact absurd h2 id

/-- `all` and `any` of a valid 2-D object in any arithmetic. -/
theorem logic2d_held {env : PyEnv V} (he : env.Ok) {v : SpVal V} (h : v.Good) (h2 : v.ty.Is2d) (op : LogicOp)
    (axis : AxisArg) (keep : Bool) (hv : axis.Valid 2) (hne : axis ≠ .many []) :
    GivesPy (Logic2d env op axis keep v.obj) (IsReduction v.ty.shape (axis.covers 2) keep op.OfCells v.held) := by
  have core : ∀ {nat : Native V} {n m : Nat} {f : Nat → Nat → Option V},
      (∀ mat coo, v.obj.native mat coo = .ok nat) → v.obj.dims = (n, m) → v.ty.shape = [n, m] →
      (∀ i j : Nat, i < n → j < m → ∃ l, l.Perm (v.held [(i : Int), (j : Int)]) ∧ f i j = sumAll l) →
      (Gives (fun _ => op.Glob env nat) (fun r => r = op.over (cellsOf n m f)) ∧
      Gives (fun N => op.Cols env N nat) (LinesAre (fun l r => r = op.over l) m fun j => (List.range n).map fun i => f i j) ∧
      Gives (fun _ => op.Rows env nat) (LinesAre (fun l r => r = op.over l) n fun i => (List.range m).map fun j => f i j)) →
      GivesPy (Logic2d env op axis keep v.obj) (IsReduction v.ty.shape (axis.covers 2) keep op.OfCells v.held) := by
    intro nat n m f hn hd hsh hcell g
    have : GivesPy (Logic2d env op axis keep v.obj)
        (IsReduction [n, m] (axis.covers 2) keep (fun l r => r = op.over l) (matFun f)) := by
      unfold Logic2d
      rw [hn, hd]
      exact reduce2dObj_correct (P := fun l r => r = op.over l) (f := f) (Gives.call (run := fun _ a => op.Glob env a) g.1)
        (Gives.call (run := fun N a => op.Cols env N a) g.2.1) (Gives.call (run := fun _ a => op.Rows env a) g.2.2) axis keep hv hne
    refine ⟨this.1, fun o ho => ?_⟩
    obtain ⟨y, e, hy⟩ := this.2 o ho
    rw [hsh]
    refine ⟨y, e, hy.shape_eq, hy.size, fun z hz => ?_⟩
    obtain ⟨r, h1, rfl⟩ := hy.cell z hz
    refine ⟨_, h1, _, ?_, rfl⟩
    unfold fibre
    rw [List.forall₂_map_left_iff, List.forall₂_map_right_iff, List.forall₂_same]
    intro x hx
    obtain ⟨i, j, hi, hj, rfl⟩ := inBounds_two (mem_indicesOf.1 (List.mem_filter.1 hx).1)
    exact hcell i j hi hj
  have hopt : ∀ o : Option V, o = sumAll o.toList := fun o => by cases o <;> rfl
  cases v with
  | mat fm a =>
    have hd := h.dims
    cases fm with
    | csr =>
      exact core (f := a.toCsr.stored) (native_csr h) rfl rfl
        (fun i j hi _ => ⟨_, List.Perm.refl _, by rw [held_csr a hi j, cell_toList (Comp.WF.noRep h.1)]; exact hopt _⟩)
        (csr_logic_any he (a := a.toCsr) h.1 h.held.mach hd.2.1 hd.2.2 op)
    | csc =>
      exact core (f := a.toCsc.stored) (native_csc h) rfl rfl
        (fun i j _ hj => ⟨_, List.Perm.refl _, by rw [held_csc a i hj, cell_toList (Comp.WF.noRep h.1)]; exact hopt _⟩)
        (csc_logic_any (env := env) (a := a.toCsc) h.1 h.held.mach hd.2.1 hd.2.2 op)
  | coo a =>
    obtain ⟨f, hf, g⟩ := coo_logic_any he h.1.1 h.1.2 h.2.1 h.2.2.1 h.2.2.2 op
    refine core (f := f) (native_coo h) rfl rfl (fun i j _ _ => ⟨valuesAt (env.tripleSort a.triples) ((i : Int), (j : Int)), ?_, hf i j⟩) g
    rw [held_coo]
    exact ((he.triple a.triples).1.filter _).map _
  | nd a => exact absurd h2 id

end
end Lacuna
