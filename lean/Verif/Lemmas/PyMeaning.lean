import Verif.Spec.PyMeaning
import Verif.Lemmas.PyProgNd
import Verif.Props.Scalar
import Verif.Props.Prune
import Verif.Props.NdShape
import Verif.Props.Unfold
import Verif.Props.Broadcast
import Mathlib.Tactic.FieldSimp
/-
The list-level values of Python programs against their meaning.
-/
set_option linter.unusedSectionVars false

namespace Lacuna
variable {V : Type}

/-- No coordinate is stored twice. -/
def SpVal.Distinct : SpVal V → Prop
  | .mat _ _ => True
  | .coo a => a.NoDup
  | .nd a => a.NoDup

/-! ### indices -/

theorem inBounds_pair {r c : Nat} {x : List Int} (h : InBounds [r, c] x) :
    ∃ i j : Nat, x = [(i : Int), (j : Int)] ∧ i < r ∧ j < c := by
  unfold InBounds at h
  cases h with
  | cons h1 h2 => cases h2 with
    | cons h2 h3 =>
      cases h3
      rename_i a b
      refine ⟨a.toNat, b.toNat, ?_, by omega, by omega⟩
      rw [Int.toNat_of_nonneg h1.1, Int.toNat_of_nonneg h2.1]

theorem bcastIndex_self {s : List Nat} {x : List Int} (h : InBounds s x) : bcastIndex s x = x := by
  unfold bcastIndex
  rw [h.length_eq, Nat.sub_self, List.drop_zero]
  unfold InBounds at h
  induction h with
  | nil => rfl
  | cons hab _ ih =>
    rw [List.zipWith_cons_cons, ih]
    split_ifs with h1
    · congr 1; omega
    · rfl

/-! ### stored values -/

theorem sum_filter_keep [AddZeroClass V] {K : Type} (l : List (K × V)) (q : V → Bool) (p : K → Bool) :
    (((l.filter fun e => q e.2).filter fun e => p e.1).map Prod.snd).sum =
      (((l.map fun e => (e.1, if q e.2 then e.2 else 0)).filter fun e => p e.1).map Prod.snd).sum := by
  induction l with
  | nil => rfl
  | cons e l ih =>
    by_cases h1 : q e.2 = true <;> by_cases h2 : p e.1 = true <;>
      simp [h1, h2, ih, -List.filter_filter]

section
variable [Field V] [LinearOrder V] [IsStrictOrderedRing V] [FloorRing V] [BEq V] [LawfulBEq V] [HasFinite V]
  [HasFloor V] [HasPowf V] [HasAbs V] [HasLt V] [HasNan V] [IdealOrd V]

/-- The function applied to every stored value. -/
def DataOp.g (op : DataOp V) (x : V) : V :=
  match op with
  | .mul alpha => x * alpha
  | .abs => |x|
  | .sign => if 0 < x then 1 else if x < 0 then -1 else 0
  | .floordiv alpha => (⌊x / alpha⌋ : V)
  | .rem alpha => x - alpha * (⌊x / alpha⌋ : V)
  | .pow alpha => HasPowf.powf x alpha

theorem DataOp.fn_eq (hfl : ∀ v : V, HasFloor.floor v = (⌊v⌋ : V)) (op : DataOp V) (d : List V) : op.fn d = d.map op.g := by
  cases op with
  | mul alpha =>
    simp only [DataOp.fn]
    split_ifs with h1 h0
    · have : alpha = 1 := by simpa using h1
      subst this
      show d = d.map fun x => x * 1
      simp
    · have : alpha = 0 := by simpa using h0
      subst this
      show _ = d.map fun x => x * 0
      simp
    · rfl
  | abs => exact List.map_congr_left fun x _ => IdealOrd.fabs_eq x
  | sign => exact List.map_congr_left fun x _ => signF_eq x
  | floordiv alpha => exact List.map_congr_left fun x _ => hfl _
  | rem alpha => exact List.map_congr_left fun x _ => by show x - alpha * HasFloor.floor (x / alpha) = _; rw [hfl]; rfl
  | pow alpha => rfl

theorem cell_mapData (hfl : ∀ v : V, HasFloor.floor v = (⌊v⌋ : V)) (op : DataOp V) (h0 : op.g 0 = 0) {v : SpVal V}
    (hv : v.Valid) (hd : v.Distinct) {x : List Int} (hx : InBounds v.ty.shape x) :
    (v.mapData op).cell x = op.g (v.cell x) := by
  cases v with
  | mat f a =>
    obtain ⟨i, j, rfl, -, -⟩ := inBounds_pair hx
    have e : ({ a with data := op.fn a.data } : Comp V) = a.mapData op.g := by
      unfold Comp.mapData; rw [op.fn_eq hfl]
    have hw : a.WF := hv
    cases f
    · show Comp.val _ _ _ = op.g (Comp.val _ _ _); rw [e, hw.val_mapData h0]
    · show Comp.val _ _ _ = op.g (Comp.val _ _ _); rw [e, hw.val_mapData h0]
  | coo a =>
    obtain ⟨i, j, rfl, -, -⟩ := inBounds_pair hx
    show Coo.val { a with data := op.fn a.data } _ _ = op.g (Coo.val a _ _)
    unfold Coo.val
    rw [op.fn_eq hfl, Coo.triples_mapData, Int.toNat_natCast, Int.toNat_natCast]
    exact keyed_sum_map hd h0 (fun k : Int × Int => k.1 == (i : Int) && k.2 == (j : Int))
      (fun x y hx hy => by simp only [Bool.and_eq_true, beq_iff_eq] at hx hy; ext <;> omega)
  | nd a =>
    show CooNd.val { a with data := op.fn a.data } x = op.g (CooNd.val a x)
    unfold CooNd.val
    rw [op.fn_eq hfl, CooNd.entries_mapData]
    exact keyed_sum_map hd h0 (fun k => k == x) (fun x y hx hy => by simp at hx hy; rw [hx, hy])

theorem cell_mapData_mul (hfl : ∀ v : V, HasFloor.floor v = (⌊v⌋ : V)) (alpha : V) {v : SpVal V}
    {x : List Int} (hx : InBounds v.ty.shape x) : (v.mapData (.mul alpha)).cell x = v.cell x * alpha := by
  cases v with
  | mat f a =>
    obtain ⟨i, j, rfl, -, -⟩ := inBounds_pair hx
    have e : ({ a with data := (DataOp.mul alpha).fn a.data } : Comp V) = a.mapData (fun v => v * alpha) := by
      unfold Comp.mapData; rw [DataOp.fn_eq hfl]; rfl
    cases f
    · show Comp.val _ _ _ = Comp.val _ _ _ * alpha; rw [e, Comp.val_mapData_mul]
    · show Comp.val _ _ _ = Comp.val _ _ _ * alpha; rw [e, Comp.val_mapData_mul]
  | coo a =>
    obtain ⟨i, j, rfl, -, -⟩ := inBounds_pair hx
    show Coo.val { a with data := (DataOp.mul alpha).fn a.data } _ _ = Coo.val a _ _ * alpha
    unfold Coo.val
    rw [DataOp.fn_eq hfl, Coo.triples_mapData]
    rw [filter_map_pair (fun k : Int × Int => k.1 == (((i : Int).toNat : Nat) : Int) && k.2 == (((j : Int).toNat : Nat) : Int))
      (DataOp.mul alpha).g]
    exact sum_map_mul_right' _ alpha
  | nd a =>
    show CooNd.val { a with data := (DataOp.mul alpha).fn a.data } x = CooNd.val a x * alpha
    unfold CooNd.val
    rw [DataOp.fn_eq hfl, CooNd.entries_mapData, filter_map_pair (fun k => k == x) (DataOp.mul alpha).g]
    exact sum_map_mul_right' _ alpha

theorem distinct_mapData (op : DataOp V) {v : SpVal V} (hv : v.Valid) (hd : v.Distinct) : (v.mapData op).Distinct := by
  cases v with
  | mat f a => trivial
  | coo a =>
    show ((({ a with data := op.fn a.data } : Coo V).triples).map Prod.fst).Nodup
    obtain ⟨hw, -⟩ := hv
    have h1 : (a.row.zip a.col).length = a.data.length := by rw [List.length_zip, hw.row_length, hw.col_length, Nat.min_self]
    have : (a.triples.map Prod.fst) = a.row.zip a.col := List.map_fst_zip (by omega)
    have hd : (a.triples.map Prod.fst).Nodup := hd
    rw [this] at hd
    show (((a.row.zip a.col).zip (op.fn a.data)).map Prod.fst).Nodup
    rw [List.map_fst_zip (by rw [op.fn_length]; omega)]
    exact hd
  | nd a =>
    have hd : (a.entries.map Prod.fst).Nodup := hd
    show ((({ a with data := op.fn a.data } : CooNd V).entries).map Prod.fst).Nodup
    unfold CooNd.entries at hd ⊢
    rw [List.map_fst_zip (by simp)] at hd
    dsimp only
    rw [op.fn_length]
    rw [List.map_fst_zip (by simp [op.fn_length])]
    exact hd

/-! ### transpose, prune -/

theorem cell_T {v : SpVal V} (h : v.Good) {τ : Ty} (ht : v.ty.T = .ok τ) {x : List Int} (hx : InBounds τ.shape x) :
    InBounds v.ty.shape x.reverse ∧ v.T.cell x = v.cell x.reverse := by
  cases v with
  | mat f a =>
    have hw : a.WF := h.1
    have hf := Comp.WFU.fits_of_machine hw.wfu h.held.mach
    have hv := tcomp_val hw.wfu (interleaving_events a) hf
    cases ht
    obtain ⟨i, j, rfl, hi, hj⟩ := inBounds_pair hx
    refine ⟨.cons ⟨by omega, by omega⟩ (.cons ⟨by omega, by omega⟩ .nil), ?_⟩
    cases f
    · exact hv j i
    · exact hv i j
  | coo a =>
    cases ht
    obtain ⟨i, j, rfl, hi, hj⟩ := inBounds_pair hx
    refine ⟨.cons ⟨by omega, by omega⟩ (.cons ⟨by omega, by omega⟩ .nil), ?_⟩
    show (transposeCoo a).val i j = a.val j i
    unfold Coo.val Coo.triples transposeCoo
    dsimp only
    have hz : a.col.zip a.row = (a.row.zip a.col).map Prod.swap := (List.zip_swap _ _).symm
    rw [hz, List.zip_map_left, List.filter_map, List.map_map]
    have : ((fun t : (Int × Int) × V => t.1.1 == (i : Int) && t.1.2 == (j : Int)) ∘ Prod.map Prod.swap id) =
        fun t => t.1.1 == (j : Int) && t.1.2 == (i : Int) := by
      funext t; simp [Bool.and_comm]
    rw [this]
    rfl
  | nd a => cases ht

theorem distinct_T {v : SpVal V} (hd : v.Distinct) : v.T.Distinct := by
  cases v with
  | mat f a => trivial
  | coo a =>
    have hd : (((a.row.zip a.col).zip a.data).map Prod.fst).Nodup := hd
    show (((a.col.zip a.row).zip a.data).map Prod.fst).Nodup
    have hz : a.col.zip a.row = (a.row.zip a.col).map Prod.swap := (List.zip_swap _ _).symm
    rw [hz, List.zip_map_left, List.map_map]
    have : (Prod.fst ∘ Prod.map Prod.swap id : (Int × Int) × V → Int × Int) = Prod.swap ∘ Prod.fst := rfl
    rw [this, ← List.map_map]
    exact hd.map Prod.swap_injective
  | nd a => exact hd

/-- What is left of a value. -/
def pruneG (eps x : V) : V := if eps < |x| then x else 0

theorem pruneG_zero (eps : V) : pruneG eps (0 : V) = 0 := by unfold pruneG; split_ifs <;> rfl

theorem pruneG_keep (eps x : V) : (if flt eps (fabs x) = true then x else 0) = pruneG eps x := by
  unfold pruneG
  simp only [IdealOrd.flt_iff, IdealOrd.fabs_eq]

theorem pruneG_neg {eps : V} (h : eps < 0) (x : V) : pruneG eps x = x :=
  if_pos (lt_of_lt_of_le h (abs_nonneg x))

theorem prune_row {eps : V} {a : Comp V} (ha : a.WF) (i : Nat) : ∃ q : V → Bool,
    (∀ x ∈ a.data, (if q x = true then x else 0) = pruneG eps x) ∧
    (if pruneSkips eps a.data then a else Comp.ofRows a.m (pruneOuts eps a)).row i = (a.row i).filter fun e => q e.2 := by
  by_cases hs : pruneSkips eps a.data = true
  · refine ⟨fun _ => true, fun x hx => ?_, by rw [if_pos hs]; simp⟩
    rw [if_pos rfl]
    unfold pruneSkips at hs
    rcases Bool.or_eq_true_iff.1 hs with h | h
    · rw [IdealOrd.flt_iff] at h
      rw [pruneG_neg h]
    · rw [Bool.and_eq_true] at h
      obtain ⟨h1, h2⟩ := h
      have h1 : eps = 0 := by simpa using h1
      subst h1
      have hx0 : x ≠ 0 := by
        rintro rfl
        rw [Bool.not_eq_true', List.any_eq_false] at h2
        exact h2 _ hx (by simp)
      unfold pruneG
      rw [if_pos (abs_pos.2 hx0)]
  · refine ⟨fun x => flt eps (fabs x), fun x _ => pruneG_keep eps x, ?_⟩
    rw [if_neg hs]
    unfold pruneOuts
    rw [Comp.row_ofRows']
    split_ifs with hi
    · rfl
    · rw [Comp.row_of_ge ha.ptr_length (by omega)]; rfl

theorem cell_prune (eps : V) {v : SpVal V} (h : v.Valid) (hd : v.Distinct) (hn : v.ty.prune = .ok v.ty) {x : List Int}
    (hx : InBounds v.ty.shape x) : (v.prune eps).cell x = pruneG eps (v.cell x) := by
  cases v with
  | mat f a =>
    have hw : a.WF := h
    obtain ⟨i, j, rfl, -, -⟩ := inBounds_pair hx
    have key : ∀ k l : Nat, (if pruneSkips eps a.data then a else Comp.ofRows a.m (pruneOuts eps a)).val k l =
        pruneG eps (a.val k l) := by
      intro k l
      obtain ⟨q, hq, hrow⟩ := prune_row (eps := eps) hw k
      unfold Comp.val
      rw [hrow, sum_filter_keep (a.row k) q (fun m => m == (l : Int))]
      have : ((a.row k).map fun e => (e.1, if q e.2 then e.2 else 0)) = (a.row k).map fun e => (e.1, pruneG eps e.2) := by
        apply List.map_congr_left
        intro e he
        rw [hq e.2 (List.of_mem_zip (List.mem_of_mem_drop (List.mem_of_mem_take he))).2]
      rw [this]
      exact keyed_sum_map (hw.noRep k) (pruneG_zero eps) (fun m => m == (l : Int))
        (fun x y hx hy => by simp at hx hy; omega)
    cases f
    · exact key _ _
    · exact key _ _
  | coo a =>
    obtain ⟨i, j, rfl, -, -⟩ := inBounds_pair hx
    show (pruneCoo a eps).val i j = pruneG eps (a.val i j)
    by_cases hneg : flt eps 0 = true
    · have : pruneCoo a eps = a := by unfold pruneCoo; rw [if_pos hneg]
      rw [this]
      rw [IdealOrd.flt_iff] at hneg
      exact (pruneG_neg hneg _).symm
    · obtain ⟨-, -, -, h4⟩ := prune_coo_correct h.1 (by simpa using hneg)
      unfold Coo.val
      rw [h4, sum_filter_keep a.triples (fun x => flt eps (fabs x)) (fun k : Int × Int => k.1 == (i : Int) && k.2 == (j : Int))]
      simp only [pruneG_keep]
      exact keyed_sum_map hd (pruneG_zero eps) (fun k : Int × Int => k.1 == (i : Int) && k.2 == (j : Int))
        (fun x y hx hy => by simp only [Bool.and_eq_true, beq_iff_eq] at hx hy; ext <;> omega)
  | nd a => cases hn

theorem cell_elimZeros {v : SpVal V} (h : v.Valid) (hn : v.ty.prune = .ok v.ty) {x : List Int}
    (hx : InBounds v.ty.shape x) : (v.prune 0).cell x = v.cell x := by
  have g0 : ∀ x : V, pruneG 0 x = x := fun x => by
    unfold pruneG
    split_ifs with h0
    · rfl
    · rw [abs_pos, not_not] at h0; exact h0.symm
  cases v with
  | mat f a => rw [cell_prune 0 h trivial hn hx, g0]
  | coo a =>
    obtain ⟨i, j, rfl, -, -⟩ := inBounds_pair hx
    exact (eliminate_zeros_coo_correct h.1).2.2.2.1 i j
  | nd a => cases hn

theorem distinct_prune (eps : V) {v : SpVal V} (h : v.Valid) (hd : v.Distinct) : (v.prune eps).Distinct := by
  cases v with
  | mat f a => trivial
  | coo a =>
    show (pruneCoo a eps).NoDup
    by_cases hneg : flt eps 0 = true
    · have : pruneCoo a eps = a := by unfold pruneCoo; rw [if_pos hneg]
      rw [this]; exact hd
    · obtain ⟨-, -, -, h4⟩ := prune_coo_correct h.1 (by simpa using hneg)
      unfold Coo.NoDup
      rw [h4]
      exact (List.Sublist.map _ List.filter_sublist).nodup hd
  | nd a => exact hd

/-! ### binary operators -/

theorem BinOp.comp_val (hfin : ∀ v : V, isFinite v = true) (hfl : ∀ v : V, HasFloor.floor v = (⌊v⌋ : V)) (op : BinOp)
    (hop : op ≠ .pow) {a b : Comp V} (ha : a.WF) (hb : b.WF) (hn : a.n = b.n) (hm : a.m = b.m) (i j : Nat) :
    (binComp op.count op.fill a b).val i j = op.eval (a.val i j) (b.val i j) := by
  obtain ⟨hw, -⟩ := op.comp_wf ha hb hn hm
  rw [hw.val_eq_stored, ha.val_eq_stored, hb.val_eq_stored]
  have inter : ∀ {keep : V → V → Bool} {cell : V → V → Option V},
      (∀ x y, keep x y = (cell x y).isSome) →
      (binComp (interRowCount keep) (interRowFill cell) a b).stored i j = interCell cell (a.stored i j) (b.stored i j) :=
    fun hk => (binComp_inter ha hb hn (fun i => (inter_refines hk 0).eq _ _ (i64_row ha i) (i64_row hb i))
      (fun i => interRowFill_spec (srt_row ha i) (srt_row hb i))).2.2.2.1 i j
  cases op with
  | add =>
    have := (binComp_union (fb := fun x y : V => x + y) ha hb hn hm (fun i => add_count_eq_fill _ _)
      (fun i => addRowFill_spec (srt_row ha i) (srt_row hb i) (i64_row ha i) (i64_row hb i))).2.2.2.1 i j
    show Option.getD ((binComp addRowCount addRowFill a b).stored i j) 0 = _
    rw [this]
    show _ = (a.stored i j).getD 0 + (b.stored i j).getD 0
    cases a.stored i j <;> cases b.stored i j <;> simp [unionCell] <;> split <;> simp_all
  | sub =>
    have := (binComp_union (fb := fun x y : V => x - y) ha hb hn hm
      (fun i => sub_count_eq_fill _ _ (i64_row ha i) (i64_row hb i))
      (fun i => subRowFill_spec (srt_row ha i) (srt_row hb i) (i64_row ha i) (i64_row hb i))).2.2.2.1 i j
    show Option.getD ((binComp subRowCount subRowFill a b).stored i j) 0 = _
    rw [this]
    show _ = (a.stored i j).getD 0 - (b.stored i j).getD 0
    cases a.stored i j <;> cases b.stored i j <;> simp [unionCell] <;> split <;> simp_all
  | mul =>
    show Option.getD ((binComp (interRowCount hadamardKeep) (interRowFill hadamardCell) a b).stored i j) 0 = _
    rw [inter hadamardKeep_isSome]
    show _ = (a.stored i j).getD 0 * (b.stored i j).getD 0
    cases a.stored i j <;> cases b.stored i j <;> simp [interCell, hadamardCell]
    rename_i x y
    by_cases hx : x = 0
    · simp [hx]
    · by_cases hy : y = 0
      · simp [hy]
      · simp [hx, hy]
  | div =>
    show Option.getD ((binComp (interRowCount divKeep) (interRowFill divCell) a b).stored i j) 0 = _
    rw [inter divKeep_isSome]
    show _ = if (b.stored i j).getD 0 = 0 then 0 else (a.stored i j).getD 0 / (b.stored i j).getD 0
    cases a.stored i j <;> cases b.stored i j <;> simp [interCell, divCell, hfin]
    rename_i x y
    by_cases hy : y = 0
    · simp [hy]
    · by_cases hx : x = 0
      · simp [hx, hy]
      · simp [hx, hy]
  | floordiv =>
    show Option.getD ((binComp (interRowCount floordivKeep) (interRowFill floordivCell) a b).stored i j) 0 = _
    rw [inter floordivKeep_isSome]
    show _ = if (b.stored i j).getD 0 = 0 then 0 else ((⌊(a.stored i j).getD 0 / (b.stored i j).getD 0⌋ : Int) : V)
    cases a.stored i j <;> cases b.stored i j <;> simp [interCell, floordivCell, hfin, hfl, -Int.floor_eq_zero_iff]
    rename_i x y
    by_cases hy : y = 0
    · simp [hy]
    · by_cases hx : ⌊x / y⌋ = 0
      · simp [hx, hy, -Int.floor_eq_zero_iff]
      · simp [hx, hy, -Int.floor_eq_zero_iff]
  | rem =>
    show Option.getD ((binComp (interRowCount remKeep) (interRowFill remCell) a b).stored i j) 0 = _
    rw [inter remKeep_isSome]
    show _ = if (b.stored i j).getD 0 = 0 then 0 else (a.stored i j).getD 0 -
      (b.stored i j).getD 0 * ((⌊(a.stored i j).getD 0 / (b.stored i j).getD 0⌋ : Int) : V)
    cases a.stored i j <;> cases b.stored i j <;> simp [interCell, remCell, hfin, hfl]
    rename_i x y
    by_cases hy : y = 0
    · simp [hy]
    · by_cases hx : x - y * ((⌊x / y⌋ : Int) : V) = 0
      · simp [hx, hy]
      · simp [hx, hy]
  | pow => exact absurd rfl hop

end
end Lacuna
