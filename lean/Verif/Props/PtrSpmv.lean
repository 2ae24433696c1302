import Verif.Lemmas.PtrSpmv
import Verif.Lemmas.PtrRanges
import Verif.Props.Spmv
import Verif.Props.PtrElementwise
/-
C56: the unsafe dot-product kernels stay inside their buffers, never race, terminate, and
compute the left-to-right fused accumulation.
-/
namespace Lacuna
variable {V : Type}

theorem Comp.WFU.idxOk {a : Comp V} (h : a.WFU) : a.IdxOk := fun i _ => h.row_bounds i

theorem maskLimits (n : Nat) : ∃ k16 k8 k4, n - n % 16 = 0 + k16 * 16 ∧
    n - n % 8 = n - n % 16 + k8 * 8 ∧ n - n % 4 = n - n % 8 + k4 * 4 ∧
    n = n - n % 4 + (n % 4) * 1 ∧ k16 ≤ n ∧ k8 ≤ n ∧ k4 ≤ n ∧ n % 4 ≤ n :=
  ⟨n / 16, (n % 16) / 8, (n % 8) / 4, by omega, by omega, by omega, by omega, by omega, by omega,
    by omega, by omega⟩

section
variable [Zero V] [HasFma V]

/-- The pairs a line is accumulated from. -/
def linePairs (x : List V) (row : List (Int × V)) : List (V × V) :=
  row.map fun e => (e.2, x.getD e.1.toNat 0)

theorem dot1_linePairs (x : List V) (row : List (Int × V)) :
    dot1 0 (linePairs x row) = lineDot x row := by
  unfold dot1 linePairs lineDot; rw [List.foldl_map]

theorem spmvRowP_eq {a : Comp V} (ha : a.PtrOk) (hj : a.IdxOk) (hm : a.Machine) {x : List V}
    (hx : x.length = a.m) (dbg : Bool) {F i : Nat} (hi : i < a.n) (hF : a.indices.length < F) :
    spmvRowP dbg F a x i = .ok (lineDot x (a.row i)) := by
  have l1 := ha.load hm dbg (i := i) (by omega)
  have l2 := ha.load hm dbg (i := i + 1) (by omega)
  have hl := ha.ptr_length
  have hle := ha.ptr_le_indices (i := i + 1) (by omega)
  have hmi := hm.indices
  rw [index_eq (by omega), ok_bind] at l1 l2
  have hseg := ha.seg hi
  have hrl := ha.row_length hi
  unfold spmvRowP
  rw [index_eq (by omega), ok_bind, l1, ok_bind, index_eq (by omega), ok_bind, l2, ok_bind,
    subUsize_eq (ha.ptr_mono' (by omega) (by omega)), ok_bind]
  rw [← hrl] at hseg ⊢
  by_cases h0 : (a.row i).length = 0
  · rw [if_pos h0, List.length_eq_zero_iff.1 h0]; rfl
  rw [if_neg h0, asPtr_add (ha.ptr_le_indices (by omega)), ok_bind,
    asPtr_add (ha.ptr_le_data (by omega)), ok_bind]
  have hlen : (linePairs x (a.row i)).length = (a.row i).length := by simp [linePairs]
  have hL : LoadsOk (V := V) ⟨fun t => do i64ToUsizeP dbg (← Ptr.get ⟨a.indices, a.ptr i⟩ t),
      Ptr.get ⟨a.data, a.ptr i⟩, getUnchecked x⟩ 0 (linePairs x (a.row i))
      (fun k => ((a.row i).getD k (0, 0)).1.toNat) := by
    refine ⟨fun k hk => ?_, fun k hk => ?_, fun k hk => ?_⟩
    · rw [hlen] at hk
      have hb := hj i hi _ (List.getElem_mem hk)
      have hb' := row_i64 hm i _ (List.getElem_mem hk)
      simp only [Nat.zero_add]
      rw [hseg.idx_get k hk, ok_bind, i64ToUsizeP_eq hb.1 hb']
      simp [hk]
    · rw [hlen] at hk
      simp only [Nat.zero_add]
      rw [hseg.val_get k hk]
      simp [linePairs]
    · rw [hlen] at hk
      have hb := hj i hi _ (List.getElem_mem hk)
      have e : ((a.row i).getD k (0, 0)).1.toNat = ((a.row i)[k]).1.toNat := by simp [hk]
      show getUnchecked x _ = _
      rw [e, getUnchecked_eq (by omega)]
      simp only [linePairs, List.getElem_map]
      rw [List.getD_eq_getElem?_getD, List.getElem?_eq_getElem (by omega)]; rfl
  generalize hLd : (Loads.mk (V := V) (fun t => do i64ToUsizeP dbg (← Ptr.get ⟨a.indices, a.ptr i⟩ t))
      (Ptr.get ⟨a.data, a.ptr i⟩) (getUnchecked x)) = L at hL ⊢
  have hus : (a.row i).length ≤ usizeMax := by
    have : i64Max ≤ (usizeMax : Int) := by decide
    omega
  obtain ⟨k16, k8, k4, e16, e8, e4, e1, b16, b8, b4, b1⟩ := maskLimits (a.row i).length
  have s16 := blockLoop_eq (base := 0) (by decide : 0 < 16) (fun q acc hq => block16P_eq hL hq acc) (0 : V)
    (F := F) k16 e16 (by omega) (by omega)
  have s8 := blockLoop_eq (base := 0) (by decide : 0 < 8) (fun q acc hq => block8P_eq hL hq acc) (0 : V)
    (F := F) k8 e8 (by omega) (by omega)
  have s4 := blockLoop_eq (base := 0) (by decide : 0 < 4) (fun q acc hq => block4P_eq hL hq acc) (0 : V)
    (F := F) k4 e4 (by omega) (by omega)
  have s1 := blockLoop_eq (base := 0) (by decide : 0 < 1) (fun q acc hq => block1P_eq hL hq acc) (0 : V)
    (F := F) _ e1 (by omega) (by omega)
  simp only [Nat.zero_add] at s16 s8 s4 s1
  have m16 : andNot (a.row i).length 15 = _ := andNot_eq 4 (by decide) hus
  have m8 : andNot (a.row i).length 7 = _ := andNot_eq 3 (by decide) hus
  have m4 : andNot (a.row i).length 3 = _ := andNot_eq 2 (by decide) hus
  simp only [List.take_zero] at s16
  replace s16 : untilP F _ (block16P L) (0, 0) = _ := s16
  rw [m16, m8, m4]
  show (do
    let s ← untilP F ((a.row i).length - (a.row i).length % 16) (block16P L) (0, 0)
    let s ← untilP F ((a.row i).length - (a.row i).length % 8) (block8P L) s
    let s ← untilP F ((a.row i).length - (a.row i).length % 4) (block4P L) s
    let s ← untilP F (a.row i).length (block1P L) s
    pure s.2) = _
  rw [s16, ok_bind, s8, ok_bind, s4, ok_bind, s1, ok_bind]
  show Except.ok _ = _
  rw [← hlen, dot1_all, dot1_linePairs]

/-- C56 (CSR times vector): for row pointers that point into the arrays and stored columns
inside the matrix, in both builds and for every schedule, there is exactly one outcome: row by
row the left-to-right fused accumulation, or the panic of the length check. -/
theorem spmv_csr_ptr {a : Csr V} (ha : a.comp.PtrOk) (hj : a.comp.IdxOk) (hm : a.comp.Machine)
    (x : List V) (dbg : Bool) {F : Nat} (hF : a.indices.length < F) (out : Except Fault (List V)) :
    SpmvPtrRun dbg F a x out ↔ out = if x.length = a.ncols then
      .ok ((List.range a.nrows).map fun i =>
        (a.comp.row i).foldl (fun acc e => mulAdd e.2 (x.getD e.1.toNat 0) acc) 0)
      else .error .panic := by
  unfold SpmvPtrRun
  by_cases hx : x.length = a.ncols
  swap
  · rw [if_neg hx, if_neg hx]
  rw [if_pos hx, if_pos hx]
  have hrow : ∀ i, i < a.nrows → spmvRowP dbg F a.comp x i = .ok (lineDot x (a.comp.row i)) :=
    fun i hi => spmvRowP_eq ha hj hm hx dbg hi hF
  show _ ↔ out = .ok ((List.range a.nrows).map fun i => lineDot x (a.comp.row i))
  split
  · rw [mapM_exceptOk _ (fun i hi => hrow i (List.mem_range.1 hi))]
  · rw [show a.nrows = a.comp.n from rfl, ha.rangesP hm dbg]
    refine rangesPtr_iff (w := fun i => a.comp.ptr (i + 1) - a.comp.ptr i)
      (g := fun i => lineDot x (a.comp.row i)) (fun i _ hw => ?_) (fun r hr => ?_) out
    · rw [Comp.row_nil_of_len hw]; rfl
    · unfold spmvRangeP
      refine mapM_exceptOk _ fun i hi => ?_
      unfold rangeLines at hi
      rw [List.mem_range'_1] at hi
      have hin : i < a.nrows := by change r.2 ≤ a.nrows at hr; omega
      rw [hrow i hin, ok_bind, MutPtr.put_eq (by show 0 + i < a.nrows; omega)]
      simp

theorem and_mask (n k : Nat) : n &&& (2 ^ k - 1) = n % 2 ^ k := Nat.and_two_pow_sub_one_eq_mod n k

theorem vecdotColP_eq {a : Comp V} (ha : a.PtrOk) (hj : a.IdxOk) (hm : a.Machine) {x : List V}
    (hx : x.length = a.m) (dbg : Bool) {F i : Nat} (hi : i < a.n) (hF : a.indices.length < F) :
    vecdotColP dbg F a x i = .ok (lineDot x (a.row i)) := by
  have l1 := ha.load hm dbg (i := i) (by omega)
  have l2 := ha.load hm dbg (i := i + 1) (by omega)
  have hl := ha.ptr_length
  have hle := ha.ptr_le_indices (i := i + 1) (by omega)
  have hle' := ha.ptr_le_data (i := i + 1) (by omega)
  have hmo := ha.ptr_mono' (i := i) (j := i + 1) (by omega) (by omega)
  rw [index_eq (by omega), ok_bind] at l1 l2
  have hseg := ha.seg hi
  have hrl := ha.row_length hi
  unfold vecdotColP
  rw [index_eq (by omega), ok_bind, l1, ok_bind, index_eq (by omega), ok_bind, l2, ok_bind]
  have hlen : (linePairs x (a.row i)).length = (a.row i).length := by simp [linePairs]
  have hL : LoadsOk (V := V) ⟨fun p => do i64ToUsizeP dbg (← getUnchecked a.indices p),
      getUnchecked a.data, getUnchecked x⟩ (a.ptr i) (linePairs x (a.row i))
      (fun k => ((a.row i).getD k (0, 0)).1.toNat) := by
    refine ⟨fun k hk => ?_, fun k hk => ?_, fun k hk => ?_⟩
    · rw [hlen] at hk
      have hb := hj i hi _ (List.getElem_mem hk)
      have hb' := row_i64 hm i _ (List.getElem_mem hk)
      have hg := hseg.idx_get k hk
      rw [Ptr.get_eq (by show a.ptr i + k < a.indices.length; omega)] at hg
      injection hg with hg
      show (do i64ToUsizeP dbg (← getUnchecked a.indices (a.ptr i + k))) = _
      rw [getUnchecked_eq (by omega), ok_bind]
      rw [show a.indices[a.ptr i + k]'(by omega) = ((a.row i)[k]).1 from hg, i64ToUsizeP_eq hb.1 hb']
      simp [hk]
    · rw [hlen] at hk
      have hg := hseg.val_get k hk
      rw [Ptr.get_eq (by show a.ptr i + k < a.data.length; omega)] at hg
      injection hg with hg
      show getUnchecked a.data (a.ptr i + k) = _
      rw [getUnchecked_eq (by omega)]
      rw [show a.data[a.ptr i + k]'(by omega) = ((a.row i)[k]).2 from hg]
      simp [linePairs]
    · rw [hlen] at hk
      have hb := hj i hi _ (List.getElem_mem hk)
      have e : ((a.row i).getD k (0, 0)).1.toNat = ((a.row i)[k]).1.toNat := by simp [hk]
      show getUnchecked x _ = _
      rw [e, getUnchecked_eq (by omega)]
      simp only [linePairs, List.getElem_map]
      rw [List.getD_eq_getElem?_getD, List.getElem?_eq_getElem (by omega)]; rfl
  generalize hLd : (Loads.mk (V := V) (fun p => do i64ToUsizeP dbg (← getUnchecked a.indices p))
      (getUnchecked a.data) (getUnchecked x)) = L at hL ⊢
  obtain ⟨k16, k8, k4, e16, e8, e4, e1, b16, b8, b4, b1⟩ := maskLimits (a.row i).length
  have s16 := blockLoop_eq (base := a.ptr i) (by decide : 0 < 16) (fun q acc hq => block16P_eq hL hq acc) (0 : V)
    (F := F) k16 e16 (by omega) (by omega)
  have s8 := blockLoop_eq (base := a.ptr i) (by decide : 0 < 8) (fun q acc hq => block8P_eq hL hq acc) (0 : V)
    (F := F) k8 e8 (by omega) (by omega)
  have s4 := blockLoop_eq (base := a.ptr i) (by decide : 0 < 4) (fun q acc hq => block4P_eq hL hq acc) (0 : V)
    (F := F) k4 e4 (by omega) (by omega)
  have s1 := blockLoop_eq (base := a.ptr i) (by decide : 0 < 1) (fun q acc hq => block1P_eq hL hq acc) (0 : V)
    (F := F) _ e1 (by omega) (by omega)
  simp only [List.take_zero, Nat.add_zero] at s16
  replace s16 : untilP F _ (block16P L) (a.ptr i, 0) = _ := s16
  have hend : a.ptr (i + 1) = a.ptr i + (a.row i).length := by omega
  have c16 : subUsize dbg (a.ptr (i + 1)) (a.ptr (i + 1) - a.ptr i &&& 15)
      = .ok (a.ptr i + ((a.row i).length - (a.row i).length % 16)) := by
    rw [show (15 : Nat) = 2 ^ 4 - 1 by rfl, and_mask, subUsize_eq (by omega)]
    congr 1; omega
  have c8 : subUsize dbg (a.ptr (i + 1))
      (a.ptr (i + 1) - (a.ptr i + ((a.row i).length - (a.row i).length % 16)) &&& 7)
      = .ok (a.ptr i + ((a.row i).length - (a.row i).length % 8)) := by
    rw [show (7 : Nat) = 2 ^ 3 - 1 by rfl, and_mask, subUsize_eq (by omega)]
    congr 1; omega
  have c4 : subUsize dbg (a.ptr (i + 1))
      (a.ptr (i + 1) - (a.ptr i + ((a.row i).length - (a.row i).length % 8)) &&& 3)
      = .ok (a.ptr i + ((a.row i).length - (a.row i).length % 4)) := by
    rw [show (3 : Nat) = 2 ^ 2 - 1 by rfl, and_mask, subUsize_eq (by omega)]
    congr 1; omega
  rw [subUsize_eq hmo, ok_bind, c16, ok_bind, s16, ok_bind, subUsize_eq (by simp only; omega), ok_bind, c8,
    ok_bind, s8, ok_bind, subUsize_eq (by simp only; omega), ok_bind, c4, ok_bind, s4, ok_bind, hend, s1]
  show Except.ok _ = _
  rw [← hlen, dot1_all, dot1_linePairs]

/-- C56 (vector times CSC). -/
theorem vecdot_csc_ptr {a : Csc V} (ha : a.comp.PtrOk) (hj : a.comp.IdxOk) (hm : a.comp.Machine)
    (x : List V) (dbg : Bool) {F : Nat} (hF : a.indices.length < F) (out : Except Fault (List V)) :
    VecdotCscPtrRun dbg F a x out ↔ out = if x.length = a.nrows then
      .ok ((List.range a.ncols).map fun j =>
        (a.comp.row j).foldl (fun acc e => mulAdd e.2 (x.getD e.1.toNat 0) acc) 0)
      else .error .panic := by
  unfold VecdotCscPtrRun
  by_cases hx : x.length = a.nrows
  · rw [if_pos hx, if_pos hx]
    exact parCollect_ok (fun j hj' => vecdotColP_eq ha hj hm hx dbg hj' hF) out
  · rw [if_neg hx, if_neg hx]

end

/-- End to end: the pointer-level product of a matrix accepted by the constructor with a
vector of the right length returns `Σ_j a(i,j) x(j)` in every run. -/
theorem spmv_csr_ptr_correct [Semiring V] [HasFma V] [IdealFma V] {a : Csr V} (ha : a.WFU)
    (hm : a.comp.Machine) {x : List V} (hx : x.length = a.ncols) (dbg : Bool) :
    ∃ y, y.length = a.nrows ∧
      (∀ i, i < a.nrows → y.getD i 0 = ((List.range a.ncols).map fun j => a.val i j * x.getD j 0).sum) ∧
      ∀ F, a.indices.length < F → ∀ out, SpmvPtrRun dbg F a x out ↔ out = .ok y := by
  have hr := (spmvCsr_run_iff ha x _).2 ⟨hx, rfl⟩
  obtain ⟨h1, h2⟩ := spmv_csr_correct ha x _ hr
  refine ⟨_, h1, h2, fun F hF out => ?_⟩
  rw [spmv_csr_ptr (Comp.WFU.ptrOk ha) (Comp.WFU.idxOk ha) hm x dbg hF, if_pos hx]
  rfl

/-! ### What happens without the index condition -/

/-- One row with a column index outside the matrix. -/
def exOutside : Csr Int := ⟨1, 2, [0, 1], [5], [7]⟩

/-- `exOutside` is accepted with `check=False`; the product with a vector of the right length
reads outside the vector, in both builds and in every run. -/
theorem spmv_csr_unchecked_ub (dbg : Bool) (F : Nat) :
    Csr.fromParts 1 2 [0, 1] [5] [(7 : Int)] false = .ok exOutside ∧ exOutside.comp.PtrOk ∧
    ∀ out, @SpmvPtrRun Int _ intFma dbg (F + 2) exOutside [1, 1] out → out = .error .ub := by
  refine ⟨rfl, ⟨by decide, by decide, by decide, by decide, by decide⟩, fun out h => ?_⟩
  let _ := intFma
  unfold SpmvPtrRun at h
  rw [if_pos (by decide), if_pos (.inl (by decide))] at h
  rw [h]
  cases dbg <;> rfl

/-! ### Examples -/

example (dbg : Bool) (out : Except Fault (List Int)) :
    @SpmvPtrRun Int _ intFma dbg 10 exA [1, 2, 3] out ↔
      out = .ok ((List.range 2).map fun i => @lineDot Int _ intFma [1, 2, 3] (exA.comp.row i)) := by
  let _ := intFma
  rw [spmv_csr_ptr (Comp.WFU.ptrOk exA_wfu) (Comp.WFU.idxOk exA_wfu) exA_machine _ dbg (by decide),
    if_pos (by decide)]
  rfl

/-- 21 entries in one row: every loop of the unrolled kernel runs. -/
example (dbg : Bool) :
    letI := intFma
    spmvRowP dbg 30 ⟨1, 1, [0, 21], List.replicate 21 0, List.replicate 21 (2 : Int)⟩ [3] 0
      = .ok 126 := by cases dbg <;> rfl

end Lacuna
