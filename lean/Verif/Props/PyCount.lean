import Verif.Props.PyAny
import Verif.Props.PyScan
/-
C95: `count_nonzero` counts what is stored.
-/
set_option linter.unusedSectionVars false
namespace Lacuna
variable {V : Type}

theorem count_indices {a : Comp V} (hw : a.WFU) (j : Nat) :
    a.indices.count (j : Int) = (((List.range a.n).map fun i => ((a.row i).filter fun e => e.1 == (j : Int)).map Prod.snd).flatten).length := by
  rw [hw.indices_eq]
  unfold Comp.rows
  rw [List.map_flatten, List.count_flatten, List.length_flatten, List.map_map, List.map_map, List.map_map]
  congr 1
  refine List.map_congr_left fun i _ => ?_
  show ((a.row i).map Prod.fst).count (j : Int) = (((a.row i).filter fun e => e.1 == (j : Int)).map Prod.snd).length
  rw [List.length_map, List.count, List.countP_map, List.countP_eq_length_filter]
  rfl

/-- C95: `count_nonzero(x, axis, keepdims)` of a valid `CSR`, `CSC` or `COO` object, in any arithmetic and
whatever is stored: the numbers of entries stored along the reduced axes.  Zeros are counted, and a
coordinate stored twice is counted twice. -/
theorem py_count_any {v : SpVal V} (hv : v.Valid) (h2 : v.ty.Is2d) {axis : AxisArg} (keep : Bool) (ha : axis.Valid 2)
    (hne : axis ≠ .many []) :
    ∃ r, (∀ out, CountMethod axis keep v.obj out ↔ out = .ret r) ∧
      IsReduction v.ty.shape (axis.covers 2) keep (fun cells r => r = (cells.flatten.length : Int)) v.held r := by
  have core : ∀ {n m : Nat} {f : Nat → Nat → List V} {g : Int} {cs rs : List Int},
      (∀ out, CountMethod axis keep v.obj out ↔ out = .ofExcept (reduce2d n m (.ok g) (.ok cs) (.ok rs) axis keep)) → v.ty.shape = [n, m] →
      (∀ i j : Nat, i < n → j < m → v.held [(i : Int), (j : Int)] = f i j) →
      Kernels2d n m (fun cells r => r = (cells.flatten.length : Int)) f g cs rs →
      ∃ r, (∀ out, CountMethod axis keep v.obj out ↔ out = .ret r) ∧
        IsReduction v.ty.shape (axis.covers 2) keep (fun cells r => r = (cells.flatten.length : Int)) v.held r := by
    intro n m f g cs rs hcall hsh hcell hk
    obtain ⟨r, e, hr⟩ := reduce2d_correct hk axis keep ha hne
    refine ⟨r, fun out => by rw [hcall, e]; rfl, ?_⟩
    rw [hsh]
    refine isReduction_congr hr fun x hx => ?_
    obtain ⟨i, j, hi, hj, rfl⟩ := inBounds_two hx
    exact (hcell i j hi hj).symm
  cases v with
  | mat fm a =>
    have hwf : a.WF := hv
    have hw : a.WFU := hwf.wfu
    have hrow : ∀ i, (((List.range a.m).map fun (j : Nat) => ((a.row i).filter fun e => e.1 == (j : Int)).map Prod.snd).flatten).length =
        (a.row i).length := fun i => (row_by_index hw i).length_eq.trans (by unfold Comp.lineVals; rw [List.length_map])
    have hall : (cellsOf a.n a.m fun i j => ((a.row i).filter fun e => e.1 == (j : Int)).map Prod.snd).flatten.length = a.data.length := by
      rw [cellsOf_flatten, hw.data_eq, List.length_map, List.length_flatMap, List.length_flatten]
      unfold Comp.rows
      rw [List.map_map]
      congr 1
      exact List.map_congr_left fun i _ => hrow i
    cases fm with
    | csr =>
      refine core (n := a.n) (m := a.m) (f := fun i j => ((a.row i).filter fun e => e.1 == (j : Int)).map Prod.snd)
        (g := (a.data.length : Int)) (cs := (List.range a.m).map fun (j : Nat) => (a.indices.count (j : Int) : Int)) (rs := npDiff a.indptr)
        (fun out => ?_) rfl (fun i j hi _ => held_csr a hi j) ⟨?_, ?_, ?_⟩
      · show out = PyRes.ofExcept (countNonzeroCsr a.toCsr axis keep) ↔ _
        unfold countNonzeroCsr
        rw [npBincount_eq (xs := a.toCsr.indices) (n := a.toCsr.ncols) hwf.bounds]; rfl
      · exact congrArg Nat.cast hall.symm
      · exact lines_eq (P := fun (cells : List (List V)) r => r = (cells.flatten.length : Int))
          (cells := fun (j : Nat) => (List.range a.n).map fun i => ((a.row i).filter fun e => e.1 == (j : Int)).map Prod.snd) rfl
          fun j _ => congrArg Nat.cast (count_indices hw j)
      · refine ⟨(npDiff_lines hw).1, fun i r h => ?_⟩
        rw [(npDiff_lines hw).2 i r h]
        exact congrArg Nat.cast (hrow i).symm
    | csc =>
      refine core (n := a.m) (m := a.n) (f := fun i j => ((a.row j).filter fun e => e.1 == (i : Int)).map Prod.snd)
        (g := (a.data.length : Int)) (cs := npDiff a.indptr) (rs := (List.range a.m).map fun (j : Nat) => (a.indices.count (j : Int) : Int))
        (fun out => ?_) rfl (fun i j _ hj => held_csc a i hj) ⟨?_, ?_, ?_⟩
      · show out = PyRes.ofExcept (countNonzeroCsc a.toCsc axis keep) ↔ _
        unfold countNonzeroCsc
        rw [npBincount_eq (xs := a.toCsc.indices) (n := a.toCsc.nrows) hwf.bounds]; rfl
      · refine congrArg Nat.cast (hall.symm.trans ?_)
        rw [List.length_flatten, List.length_flatten]
        exact ((cellsOf_swap a.n a.m fun i j => ((a.row i).filter fun e => e.1 == (j : Int)).map Prod.snd).map List.length).sum_eq
      · refine ⟨(npDiff_lines hw).1, fun i r h => ?_⟩
        rw [(npDiff_lines hw).2 i r h]
        exact congrArg Nat.cast (hrow i).symm
      · exact lines_eq (P := fun (cells : List (List V)) r => r = (cells.flatten.length : Int))
          (cells := fun (j : Nat) => (List.range a.n).map fun i => ((a.row i).filter fun e => e.1 == (j : Int)).map Prod.snd) rfl
          fun j _ => congrArg Nat.cast (count_indices hw j)
  | coo a =>
    have hw : a.WF := hv.1
    refine core (n := a.nrows) (m := a.ncols) (f := fun i j => valuesAt a.triples ((i : Int), (j : Int)))
      (g := (a.data.length : Int)) (cs := (List.range a.ncols).map fun (j : Nat) => (a.col.count (j : Int) : Int))
      (rs := (List.range a.nrows).map fun (j : Nat) => (a.row.count (j : Int) : Int))
      (fun out => ?_) rfl (fun i j _ _ => held_coo a i j) ⟨?_, ?_, ?_⟩
    · show out = PyRes.ofExcept (countNonzeroCoo a axis keep) ↔ _
      unfold countNonzeroCoo
      rw [npBincount_eq hw.row_bounds, npBincount_eq hw.col_bounds]
    · exact congrArg Nat.cast (coo_all_cells hw).length_eq.symm
    · refine lines_eq (P := fun (cells : List (List V)) r => r = (cells.flatten.length : Int))
        (cells := fun (j : Nat) => (List.range a.nrows).map fun (i : Nat) => valuesAt a.triples ((i : Int), (j : Int))) rfl
        fun j _ => congrArg Nat.cast ?_
      rw [((coo_cells hw).2 j).length_eq, hw.col_eq, List.count, List.countP_map, List.countP_eq_length_filter]
      unfold Coo.colVals
      rw [List.length_map]; rfl
    · refine lines_eq (P := fun (cells : List (List V)) r => r = (cells.flatten.length : Int))
        (cells := fun (i : Nat) => (List.range a.ncols).map fun (j : Nat) => valuesAt a.triples ((i : Int), (j : Int))) rfl
        fun j _ => congrArg Nat.cast ?_
      rw [((coo_cells hw).1 j).length_eq, hw.row_eq, List.count, List.countP_map, List.countP_eq_length_filter]
      unfold Coo.rowVals
      rw [List.length_map]; rfl
  | nd a => exact absurd h2 id

/-- A `COO` matrix with an entry stored twice and a zero: three entries in the first row, two of them in the first
column. -/
example : ∃ r, (∀ out, CountMethod (.one 1) false (SpVal.coo (⟨2, 2, [0, 0, 0], [0, 1, 0], [4, 0, 5]⟩ : Coo Int)).obj out ↔ out = .ret r) ∧
    r.shape = [2] ∧ r.data[0]? = some 3 ∧ r.data[1]? = some 0 := by
  obtain ⟨r, h, hr⟩ := py_count_any (v := .coo (⟨2, 2, [0, 0, 0], [0, 1, 0], [4, 0, 5]⟩ : Coo Int))
    ⟨⟨rfl, rfl, by decide, by decide⟩, by decide, by decide⟩ trivial (axis := .one 1) false
    (by intro a ha; rw [List.mem_singleton.1 ha]; decide) (by simp)
  have hsh : r.shape = [2] := hr.shape_eq
  refine ⟨r, h, hsh, ?_, ?_⟩
  · obtain ⟨v, c, p⟩ := hr.cell [0] (by rw [hsh]; exact .cons ⟨by omega, by omega⟩ .nil)
    rw [hsh] at c
    rw [show v = 3 from p] at c
    exact c
  · obtain ⟨v, c, p⟩ := hr.cell [1] (by rw [hsh]; exact .cons ⟨by omega, by omega⟩ .nil)
    rw [hsh] at c
    rw [show v = 0 from p] at c
    exact c

section
variable [Zero V] [One V] [Add V] [Sub V] [Mul V] [Div V] [Neg V] [BEq V] [NatCast V] [HasFinite V]
  [HasFloor V] [HasPowf V] [HasAbs V] [HasLt V] [HasNan V]

/-- C95: a program with `count_nonzero` in the end, in any arithmetic: the numbers of entries the program
stores along the reduced axes (C79), on every machine. -/
theorem prog_count_any {env : PyEnv V} (he : env.Ok) {e : Prog V} (hl : e.LitsOk) (hs : e.Small) (hd : e.Determined) {τ : Ty}
    (hc : e.check = .ok τ) (h2 : τ.Is2d) {axis : AxisArg} (keep : Bool) (ha : axis.Valid 2) (hne : axis ≠ .many []) :
    ∃ r, (∀ out, e.Count env axis keep out ↔ out = .ret r) ∧
      IsReduction τ.shape (axis.covers 2) keep (fun cells r => r = (cells.flatten.length : Int)) (fun x => valuesAt e.stores x) r := by
  let _ : HasMinMax V := ⟨fun a _ => a, fun a _ => a, fun a _ => a, fun a _ => a, 0, 0⟩
  let _ : HasSqrt V := ⟨id⟩
  obtain ⟨w, hv, -, rfl, hh, hev⟩ := prog_held he hl hs hd hc
  obtain ⟨r, h1, h3⟩ := py_count_any hv h2 keep ha hne
  rw [hh] at h3
  refine ⟨r, fun out => ?_, h3⟩
  rw [← h1 out]
  constructor
  · rintro ⟨o, ho, hout⟩; rw [(hev o).1 ho] at hout; exact hout
  · exact fun hout => ⟨_, (hev _).2 rfl, hout⟩

end
end Lacuna
