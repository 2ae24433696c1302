import Verif.Lemmas.Scalar
import Verif.Spec.Ideal
import Verif.Props.Elementwise
import Mathlib.Data.Sign.Defs
/-
C13 scalar multiplication, C14 abs / sign, C47 floor division, remainder and power by a
scalar, C15 canonical form.
-/
namespace Lacuna
universe u
variable {V : Type u}

/-! ### C13 -/

/-- C13: whichever path is taken, the stored values are exactly the products (for every
arithmetic, once `alpha` is neither 1 nor 0). -/
theorem mulScalar_data [Zero V] [One V] [Mul V] [BEq V] (alpha : V) (data : List V)
    (h1 : (alpha == 1) = false) (h0 : (alpha == 0) = false) :
    mulScalarData alpha data = data.map (fun v => v * alpha) := by
  unfold mulScalarData
  rw [h1, h0]
  simp [simdMapData_eq]

theorem mulScalar_data_ideal [Semiring V] [BEq V] [LawfulBEq V] (alpha : V) (data : List V) :
    mulScalarData alpha data = data.map (fun v => v * alpha) := by
  cases h1 : (alpha == 1)
  · cases h0 : (alpha == 0)
    · exact mulScalar_data alpha data h1 h0
    · unfold mulScalarData
      rw [h1, h0]
      have : alpha = 0 := by simpa using h0
      subst this
      simp [List.map_const']
  · unfold mulScalarData
    rw [h1]
    have : alpha = 1 := by simpa using h1
    subst this
    simp

/-- C13 (CSR): same pattern, every element multiplied. Holds for any stored arrays,
well-formed or not. -/
theorem mulScalar_csr_correct [Semiring V] [BEq V] [LawfulBEq V] (a : Csr V) (alpha : V) :
    (mulScalarCsr a alpha).nrows = a.nrows ∧ (mulScalarCsr a alpha).ncols = a.ncols ∧
    (mulScalarCsr a alpha).indptr = a.indptr ∧ (mulScalarCsr a alpha).indices = a.indices ∧
    (a.WF → (mulScalarCsr a alpha).WF) ∧
    ∀ i j, (mulScalarCsr a alpha).val i j = a.val i j * alpha := by
  have h : (mulScalarCsr a alpha).comp = a.comp.mapData (fun v => v * alpha) := by
    unfold mulScalarCsr; rw [mulScalar_data_ideal]; rfl
  refine ⟨rfl, rfl, rfl, rfl, fun hw => ?_, fun i j => ?_⟩
  · unfold Csr.WF; rw [h]; exact hw.mapData _
  · unfold Csr.val; rw [h, Comp.val_mapData_mul]

/-- C13 (CSC). -/
theorem mulScalar_csc_correct [Semiring V] [BEq V] [LawfulBEq V] (a : Csc V) (alpha : V) :
    (mulScalarCsc a alpha).nrows = a.nrows ∧ (mulScalarCsc a alpha).ncols = a.ncols ∧
    (mulScalarCsc a alpha).indptr = a.indptr ∧ (mulScalarCsc a alpha).indices = a.indices ∧
    (a.WF → (mulScalarCsc a alpha).WF) ∧
    ∀ i j, (mulScalarCsc a alpha).val i j = a.val i j * alpha := by
  have h : (mulScalarCsc a alpha).comp = a.comp.mapData (fun v => v * alpha) := by
    unfold mulScalarCsc; rw [mulScalar_data_ideal]; rfl
  refine ⟨rfl, rfl, rfl, rfl, fun hw => ?_, fun i j => ?_⟩
  · unfold Csc.WF; rw [h]; exact hw.mapData _
  · unfold Csc.val; rw [h, Comp.val_mapData_mul]

/-- C13 (COO), duplicates included. -/
theorem mulScalar_coo_correct [Semiring V] [BEq V] [LawfulBEq V] (a : Coo V) (alpha : V) :
    (mulScalarCoo a alpha).nrows = a.nrows ∧ (mulScalarCoo a alpha).ncols = a.ncols ∧
    (mulScalarCoo a alpha).row = a.row ∧ (mulScalarCoo a alpha).col = a.col ∧
    ∀ i j, (mulScalarCoo a alpha).val i j = a.val i j * alpha := by
  refine ⟨rfl, rfl, rfl, rfl, fun i j => ?_⟩
  unfold Coo.val mulScalarCoo
  rw [mulScalar_data_ideal, Coo.triples_mapData,
    filter_map_pair (fun k : Int × Int => k.1 == (i : Int) && k.2 == (j : Int)) (fun v => v * alpha),
    sum_map_mul_right']

/-- C13 (N-D COO), duplicates included. -/
theorem mulScalar_coond_correct [Semiring V] [BEq V] [LawfulBEq V] (a : CooNd V) (alpha : V) :
    (mulScalarCooNd a alpha).shape = a.shape ∧ (mulScalarCooNd a alpha).indices = a.indices ∧
    ∀ x, (mulScalarCooNd a alpha).val x = a.val x * alpha := by
  refine ⟨rfl, rfl, fun x => ?_⟩
  unfold CooNd.val mulScalarCooNd
  rw [mulScalar_data_ideal, CooNd.entries_mapData,
    filter_map_pair (fun k => k == x) (fun v => v * alpha), sum_map_mul_right']

example : mulScalarCsr exA 3 = ⟨2, 3, [0, 2, 3], [0, 2, 1], [15, 18, 21]⟩ := by decide
example : mulScalarCoo (⟨1, 1, [0, 0, 0, 0, 0], [0, 0, 0, 0, 0], [1, 2, 3, 4, 5]⟩ : Coo Int) 2
    = ⟨1, 1, [0, 0, 0, 0, 0], [0, 0, 0, 0, 0], [2, 4, 6, 8, 10]⟩ := by decide

/-! ### C14 -/

section C14
variable [Ring V] [LinearOrder V] [HasLt V] [HasAbs V] [HasNan V] [IdealOrd V]

theorem fabs_zero' [IsStrictOrderedRing V] : fabs (0 : V) = 0 := by rw [IdealOrd.fabs_eq, abs_zero]

theorem signF_eq (x : V) : signF x = if 0 < x then 1 else if x < 0 then -1 else 0 := by
  unfold signF
  rw [IdealOrd.isNan_eq]
  simp only [IdealOrd.flt_iff, Bool.false_eq_true, if_false]

theorem signF_zero : signF (0 : V) = 0 := by rw [signF_eq]; simp

/-- C14 (CSR, abs): pattern kept, element-wise absolute value. -/
theorem abs_csr_correct [IsStrictOrderedRing V] {a : Csr V} (h : a.WF) :
    (absCsr a).nrows = a.nrows ∧ (absCsr a).ncols = a.ncols ∧
    (absCsr a).indptr = a.indptr ∧ (absCsr a).indices = a.indices ∧ (absCsr a).WF ∧
    ∀ i j, (absCsr a).val i j = |a.val i j| := by
  have e : (absCsr a).comp = a.comp.mapData fabs := by unfold absCsr; rw [simdMapData_eq]; rfl
  refine ⟨rfl, rfl, rfl, rfl, ?_, fun i j => ?_⟩
  · unfold Csr.WF; rw [e]; exact Comp.WF.mapData h _
  · unfold Csr.val; rw [e, Comp.WF.val_mapData h fabs_zero', IdealOrd.fabs_eq]

theorem abs_csc_correct [IsStrictOrderedRing V] {a : Csc V} (h : a.WF) :
    (absCsc a).nrows = a.nrows ∧ (absCsc a).ncols = a.ncols ∧
    (absCsc a).indptr = a.indptr ∧ (absCsc a).indices = a.indices ∧ (absCsc a).WF ∧
    ∀ i j, (absCsc a).val i j = |a.val i j| := by
  have e : (absCsc a).comp = a.comp.mapData fabs := by unfold absCsc; rw [simdMapData_eq]; rfl
  refine ⟨rfl, rfl, rfl, rfl, ?_, fun i j => ?_⟩
  · unfold Csc.WF; rw [e]; exact Comp.WF.mapData h _
  · unfold Csc.val; rw [e, Comp.WF.val_mapData h fabs_zero', IdealOrd.fabs_eq]

/-- C14 (COO, abs), without duplicate coordinates. -/
theorem abs_coo_correct [IsStrictOrderedRing V] {a : Coo V} (h : a.NoDup) :
    (absCoo a).row = a.row ∧ (absCoo a).col = a.col ∧
    ∀ i j, (absCoo a).val i j = |a.val i j| := by
  refine ⟨rfl, rfl, fun i j => ?_⟩
  unfold Coo.val absCoo
  rw [simdMapData_eq, Coo.triples_mapData]
  rw [keyed_sum_map h fabs_zero' (fun k : Int × Int => k.1 == (i : Int) && k.2 == (j : Int))
    (fun x y hx hy => by simp only [Bool.and_eq_true, beq_iff_eq] at hx hy; ext <;> omega),
    IdealOrd.fabs_eq]

theorem abs_coond_correct [IsStrictOrderedRing V] {a : CooNd V} (h : a.NoDup) :
    (absCooNd a).shape = a.shape ∧ (absCooNd a).indices = a.indices ∧
    ∀ x, (absCooNd a).val x = |a.val x| := by
  refine ⟨rfl, rfl, fun x => ?_⟩
  unfold CooNd.val absCooNd
  rw [simdMapData_eq, CooNd.entries_mapData]
  rw [keyed_sum_map h fabs_zero' (fun k => k == x)
    (fun x y hx hy => by simp at hx hy; rw [hx, hy]), IdealOrd.fabs_eq]

/-- C14 (CSR, sign). -/
theorem sign_csr_correct {a : Csr V} (h : a.WF) :
    (signCsr a).nrows = a.nrows ∧ (signCsr a).ncols = a.ncols ∧
    (signCsr a).indptr = a.indptr ∧ (signCsr a).indices = a.indices ∧ (signCsr a).WF ∧
    ∀ i j, (signCsr a).val i j = if 0 < a.val i j then 1 else if a.val i j < 0 then -1 else 0 := by
  have e : (signCsr a).comp = a.comp.mapData signF := by unfold signCsr; rw [chunkMapData_eq]; rfl
  refine ⟨rfl, rfl, rfl, rfl, ?_, fun i j => ?_⟩
  · unfold Csr.WF; rw [e]; exact Comp.WF.mapData h _
  · unfold Csr.val; rw [e, Comp.WF.val_mapData h signF_zero, signF_eq]

theorem sign_csc_correct {a : Csc V} (h : a.WF) :
    (signCsc a).nrows = a.nrows ∧ (signCsc a).ncols = a.ncols ∧
    (signCsc a).indptr = a.indptr ∧ (signCsc a).indices = a.indices ∧ (signCsc a).WF ∧
    ∀ i j, (signCsc a).val i j = if 0 < a.val i j then 1 else if a.val i j < 0 then -1 else 0 := by
  have e : (signCsc a).comp = a.comp.mapData signF := by unfold signCsc; rw [chunkMapData_eq]; rfl
  refine ⟨rfl, rfl, rfl, rfl, ?_, fun i j => ?_⟩
  · unfold Csc.WF; rw [e]; exact Comp.WF.mapData h _
  · unfold Csc.val; rw [e, Comp.WF.val_mapData h signF_zero, signF_eq]

theorem sign_coo_correct {a : Coo V} (h : a.NoDup) :
    (signCoo a).row = a.row ∧ (signCoo a).col = a.col ∧
    ∀ i j, (signCoo a).val i j = if 0 < a.val i j then 1 else if a.val i j < 0 then -1 else 0 := by
  refine ⟨rfl, rfl, fun i j => ?_⟩
  rw [← signF_eq]
  unfold Coo.val signCoo
  rw [chunkMapData_eq, Coo.triples_mapData]
  rw [keyed_sum_map h signF_zero (fun k : Int × Int => k.1 == (i : Int) && k.2 == (j : Int))
    (fun x y hx hy => by simp only [Bool.and_eq_true, beq_iff_eq] at hx hy; ext <;> omega)]

theorem sign_coond_correct {a : CooNd V} (h : a.NoDup) :
    (signCooNd a).shape = a.shape ∧ (signCooNd a).indices = a.indices ∧
    ∀ x, (signCooNd a).val x = if 0 < a.val x then 1 else if a.val x < 0 then -1 else 0 := by
  refine ⟨rfl, rfl, fun x => ?_⟩
  rw [← signF_eq]
  unfold CooNd.val signCooNd
  rw [chunkMapData_eq, CooNd.entries_mapData]
  rw [keyed_sum_map h signF_zero (fun k => k == x)
    (fun x y hx hy => by simp at hx hy; rw [hx, hy])]

end C14

section
attribute [local instance] intLt intAbs intNan intIdeal
example : exB.WF ∧ absCsr exB = ⟨2, 3, [0, 2, 2], [0, 1], [5, 4]⟩ ∧
    signCsr exB = ⟨2, 3, [0, 2, 2], [0, 1], [-1, 1]⟩ := by
  refine ⟨exB_wf, by decide, ?_⟩
  unfold signCsr; rw [chunkMapData_eq]; decide
example : (⟨2, 2, [1, 0], [0, 1], [-3, 4]⟩ : Coo Int).NoDup ∧
    absCoo (⟨2, 2, [1, 0], [0, 1], [-3, 4]⟩ : Coo Int) = ⟨2, 2, [1, 0], [0, 1], [3, 4]⟩ := by
  unfold Coo.NoDup; decide

/-- C14, negative part: with a duplicated coordinate the COO kernel does *not* give the
absolute value of the element (element `5 + (-5) = 0`, result `10`). -/
theorem abs_coo_duplicates_wrong :
    ∃ a : Coo Int, a.WF ∧ ∃ i j, (absCoo a).val i j ≠ |a.val i j| :=
  ⟨⟨1, 1, [0, 0], [0, 0], [5, -5]⟩, ⟨rfl, rfl, by decide, by decide⟩, 0, 0, by decide⟩

/-- The same for sign. -/
theorem sign_coo_duplicates_wrong :
    ∃ a : Coo Int, a.WF ∧ ∃ i j, (signCoo a).val i j ≠
      if 0 < a.val i j then 1 else if a.val i j < 0 then -1 else 0 := by
  refine ⟨⟨1, 1, [0, 0], [0, 0], [5, -4]⟩, ⟨rfl, rfl, by decide, by decide⟩, 0, 0, ?_⟩
  unfold signCoo; rw [chunkMapData_eq]; decide
end

/-! ### C15: canonical form -/

/-- C15, compressed view. -/
theorem Comp.canonical [AddZeroClass V] {a b : Comp V} (ha : a.WF) (hb : b.WF)
    (hn : a.n = b.n) (hm : a.m = b.m)
    (za : ∀ v ∈ a.data, v ≠ 0) (zb : ∀ v ∈ b.data, v ≠ 0)
    (h : ∀ i j, i < a.n → j < a.m → a.val i j = b.val i j) : a = b := by
  have data_of : ∀ {c : Comp V}, c.WF → ∀ i e, e ∈ c.row i → e.2 ∈ c.data := by
    intro c hc i e he
    have he' : e ∈ c.entries := List.mem_of_mem_drop (List.mem_of_mem_take he)
    exact (List.of_mem_zip (show (e.1, e.2) ∈ c.indices.zip c.data from he')).2
  apply ha.ext_rows hb hm hn
  intro i hi
  apply srt_ext (srt_row ha i) (srt_row hb i)
  intro j
  by_cases hj : 0 ≤ j ∧ j < a.m
  · have hv := h i j.toNat hi (by omega)
    rw [ha.val_eq_stored, hb.val_eq_stored, Comp.stored_eq_lk, Comp.stored_eq_lk] at hv
    have hcast : ((j.toNat : Nat) : Int) = j := by omega
    rw [hcast] at hv
    cases hA : lk j (a.row i) with
    | none =>
      cases hB : lk j (b.row i) with
      | none => rfl
      | some y =>
        rw [hA, hB] at hv
        exact absurd hv.symm (zb y (data_of hb i _ (lk_mem hB)))
    | some x =>
      cases hB : lk j (b.row i) with
      | none =>
        rw [hA, hB] at hv
        exact absurd hv (za x (data_of ha i _ (lk_mem hA)))
      | some y => rw [hA, hB] at hv; simpa using hv
  · rw [lk_none (fun e he => by have := bounds_row ha i e he; omega),
      lk_none (fun e he => by have := bounds_row hb i e he; omega)]

/-- C15: a well-formed CSR matrix without explicit zeros is determined by its shape and
its elements. -/
theorem csr_canonical [AddZeroClass V] {a b : Csr V} (ha : a.WF) (hb : b.WF)
    (hr : a.nrows = b.nrows) (hc : a.ncols = b.ncols)
    (za : ∀ v ∈ a.data, v ≠ 0) (zb : ∀ v ∈ b.data, v ≠ 0)
    (h : ∀ i j, i < a.nrows → j < a.ncols → a.val i j = b.val i j) : a = b := by
  have := Comp.canonical ha hb hr hc za zb h
  cases a; cases b
  simpa [Csr.comp] using this

/-- C15 (CSC). -/
theorem csc_canonical [AddZeroClass V] {a b : Csc V} (ha : a.WF) (hb : b.WF)
    (hr : a.nrows = b.nrows) (hc : a.ncols = b.ncols)
    (za : ∀ v ∈ a.data, v ≠ 0) (zb : ∀ v ∈ b.data, v ≠ 0)
    (h : ∀ i j, i < a.nrows → j < a.ncols → a.val i j = b.val i j) : a = b := by
  have := Comp.canonical ha hb hc hr za zb (fun i j hi hj => h j i hj hi)
  cases a; cases b
  simp only [Csc.comp, Comp.mk.injEq] at this
  simp [this]

/-- C15: addition is commutative on the stored representation. -/
theorem add_csr_comm [AddCommMonoid V] [BEq V] [LawfulBEq V] {a b : Csr V} (ha : a.WF) (hb : b.WF) :
    addCsr a b = addCsr b a := by
  by_cases hs : a.nrows = b.nrows ∧ a.ncols = b.ncols
  · obtain ⟨c, h1, h2, h3, h4, h5, h6⟩ := add_csr_correct ha hb hs.1 hs.2
    obtain ⟨d, g1, g2, g3, g4, g5, g6⟩ := add_csr_correct hb ha hs.1.symm hs.2.symm
    rw [h1, g1, csr_canonical h2 g2 (by omega) (by omega) h6 g6
      (fun i j _ _ => by rw [h5, g5, add_comm])]
  · rw [add_csr_panics_iff.2 hs, add_csr_panics_iff.2 (fun h => hs ⟨h.1.symm, h.2.symm⟩)]

/-- C15: addition is associative on the stored representation. -/
theorem add_csr_assoc [AddCommMonoid V] [BEq V] [LawfulBEq V] {a b c ab bc : Csr V}
    (ha : a.WF) (hb : b.WF) (hc : c.WF)
    (hab : addCsr a b = some ab) (hbc : addCsr b c = some bc) :
    addCsr ab c = addCsr a bc := by
  have s1 : a.nrows = b.nrows ∧ a.ncols = b.ncols := by
    by_contra hn; rw [add_csr_panics_iff.2 hn] at hab; cases hab
  have s2 : b.nrows = c.nrows ∧ b.ncols = c.ncols := by
    by_contra hn; rw [add_csr_panics_iff.2 hn] at hbc; cases hbc
  obtain ⟨x, h1, h2, h3, h4, h5, h6⟩ := add_csr_correct ha hb s1.1 s1.2
  obtain ⟨y, g1, g2, g3, g4, g5, g6⟩ := add_csr_correct hb hc s2.1 s2.2
  rw [hab] at h1; cases h1
  rw [hbc] at g1; cases g1
  obtain ⟨p, p1, p2, p3, p4, p5, p6⟩ := add_csr_correct h2 hc (by omega) (by omega)
  obtain ⟨q, q1, q2, q3, q4, q5, q6⟩ := add_csr_correct ha g2 (by omega) (by omega)
  rw [p1, q1, csr_canonical p2 q2 (by omega) (by omega) p6 q6
    (fun i j _ _ => by rw [p5, q5, h5, g5, add_assoc])]

/-- C15: the element-wise product is commutative on the stored representation. -/
theorem hadamard_csr_comm [CommSemiring V] [BEq V] [LawfulBEq V] {a b : Csr V}
    (ha : a.WF) (hb : b.WF) : hadamardCsr a b = hadamardCsr b a := by
  by_cases hs : a.nrows = b.nrows ∧ a.ncols = b.ncols
  · obtain ⟨c, h1, h2, h3, h4, h5, h6⟩ := hadamard_csr_correct ha hb hs.1 hs.2
    obtain ⟨d, g1, g2, g3, g4, g5, g6⟩ := hadamard_csr_correct hb ha hs.1.symm hs.2.symm
    rw [h1, g1, csr_canonical h2 g2 (by omega) (by omega) h6 g6
      (fun i j _ _ => by rw [h5, g5, mul_comm])]
  · rw [hadamard_csr_panics_iff.2 hs, hadamard_csr_panics_iff.2 (fun h => hs ⟨h.1.symm, h.2.symm⟩)]

/-- C15: the element-wise product distributes over addition on the stored representation. -/
theorem hadamard_add_distrib [CommSemiring V] [BEq V] [LawfulBEq V] {a b c s : Csr V}
    (ha : a.WF) (hb : b.WF) (hc : c.WF) (hab : a.nrows = b.nrows ∧ a.ncols = b.ncols)
    (hs : addCsr b c = some s) :
    ∃ x y z, hadamardCsr a s = some x ∧ hadamardCsr a b = some y ∧ hadamardCsr a c = some z ∧
      addCsr y z = some x := by
  have s2 : b.nrows = c.nrows ∧ b.ncols = c.ncols := by
    by_contra hn; rw [add_csr_panics_iff.2 hn] at hs; cases hs
  obtain ⟨s', g1, g2, g3, g4, g5, g6⟩ := add_csr_correct hb hc s2.1 s2.2
  rw [hs] at g1; cases g1
  obtain ⟨x, x1, x2, x3, x4, x5, x6⟩ := hadamard_csr_correct ha g2 (by omega) (by omega)
  obtain ⟨y, y1, y2, y3, y4, y5, y6⟩ := hadamard_csr_correct ha hb (by omega) (by omega)
  obtain ⟨z, z1, z2, z3, z4, z5, z6⟩ := hadamard_csr_correct ha hc (by omega) (by omega)
  obtain ⟨p, p1, p2, p3, p4, p5, p6⟩ := add_csr_correct y2 z2 (by omega) (by omega)
  refine ⟨x, y, z, x1, y1, z1, ?_⟩
  rw [p1, csr_canonical p2 x2 (by omega) (by omega) p6 x6
    (fun i j _ _ => by rw [p5, x5, y5, z5, g5, mul_add])]

example : addCsr exA exB = addCsr exB exA ∧ (∀ v ∈ exA.data, v ≠ 0) ∧ exA.WF := by
  refine ⟨by decide, by decide, exA_wf⟩

/-! ### C47: floor division, remainder and power by a scalar -/

section C47

/-- C47 (CSR, any arithmetic): floor division, remainder and power by a scalar keep the
pattern and apply the operation to each stored value. -/
theorem scalar_ops_csr_stored [Div V] [Mul V] [Sub V] [HasFloor V] [HasPowf V] (a : Csr V) (alpha : V)
    (i j : Nat) :
    (floordivScalarCsr a alpha).stored i j = (a.stored i j).map (fun v => HasFloor.floor (v / alpha)) ∧
    (remScalarCsr a alpha).stored i j
      = (a.stored i j).map (fun v => v - alpha * HasFloor.floor (v / alpha)) ∧
    (powScalarCsr a alpha).stored i j = (a.stored i j).map (fun v => HasPowf.powf v alpha) := by
  refine ⟨?_, ?_, ?_⟩
  · unfold floordivScalarCsr Csr.stored
    rw [chunkMapData_eq]; exact Comp.stored_mapData _ a.comp i j
  · unfold remScalarCsr Csr.stored
    rw [chunkMapData_eq]; exact Comp.stored_mapData _ a.comp i j
  · unfold powScalarCsr Csr.stored
    rw [chunkMapData_eq]; exact Comp.stored_mapData _ a.comp i j

theorem scalar_ops_csc_stored [Div V] [Mul V] [Sub V] [HasFloor V] [HasPowf V] (a : Csc V) (alpha : V)
    (i j : Nat) :
    (floordivScalarCsc a alpha).stored i j = (a.stored i j).map (fun v => HasFloor.floor (v / alpha)) ∧
    (remScalarCsc a alpha).stored i j
      = (a.stored i j).map (fun v => v - alpha * HasFloor.floor (v / alpha)) ∧
    (powScalarCsc a alpha).stored i j = (a.stored i j).map (fun v => HasPowf.powf v alpha) := by
  refine ⟨?_, ?_, ?_⟩
  · unfold floordivScalarCsc Csc.stored
    rw [chunkMapData_eq]; exact Comp.stored_mapData _ a.comp j i
  · unfold remScalarCsc Csc.stored
    rw [chunkMapData_eq]; exact Comp.stored_mapData _ a.comp j i
  · unfold powScalarCsc Csc.stored
    rw [chunkMapData_eq]; exact Comp.stored_mapData _ a.comp j i

/-- C47 over an ordered field: floor division and remainder by a nonzero scalar are the
dense ones and satisfy the division identity.  (The guard `alpha ≠ 0` is the caller's duty
per floor_divide.rs 297; with `alpha = 0` the real quotient is infinite, not a field element.) -/
theorem scalar_floordiv_rem_correct [Field V] [LinearOrder V] [IsStrictOrderedRing V] [FloorRing V]
    [HasFloor V] (hfl : ∀ v : V, HasFloor.floor v = (⌊v⌋ : V)) {a : Csr V} (ha : a.WF)
    {alpha : V} (_h0 : alpha ≠ 0) :
    (floordivScalarCsr a alpha).WF ∧ (remScalarCsr a alpha).WF ∧ ∀ i j,
      (floordivScalarCsr a alpha).val i j = (⌊a.val i j / alpha⌋ : V) ∧
      a.val i j = alpha * (floordivScalarCsr a alpha).val i j + (remScalarCsr a alpha).val i j := by
  have e1 : (floordivScalarCsr a alpha).comp = a.comp.mapData (floordivBy alpha) := by
    unfold floordivScalarCsr; rw [chunkMapData_eq]; rfl
  have e2 : (remScalarCsr a alpha).comp = a.comp.mapData (remBy alpha) := by
    unfold remScalarCsr; rw [chunkMapData_eq]; rfl
  refine ⟨?_, ?_, fun i j => ?_⟩
  · unfold Csr.WF; rw [e1]; exact Comp.WF.mapData ha _
  · unfold Csr.WF; rw [e2]; exact Comp.WF.mapData ha _
  · have z1 : floordivBy alpha (0 : V) = 0 := by simp [floordivBy, hfl]
    have z2 : remBy alpha (0 : V) = 0 := by simp [remBy, hfl]
    unfold Csr.val
    rw [e1, e2, Comp.WF.val_mapData ha z1, Comp.WF.val_mapData ha z2]
    simp [floordivBy, remBy, hfl]

/-- C47: power by a scalar is the dense power when `0 ^ alpha = 0`. -/
theorem scalar_pow_correct [AddZeroClass V] [HasPowf V] {a : Csr V} (ha : a.WF)
    {alpha : V} (h0 : HasPowf.powf 0 alpha = 0) :
    (powScalarCsr a alpha).WF ∧ ∀ i j,
      (powScalarCsr a alpha).val i j = HasPowf.powf (a.val i j) alpha := by
  have e : (powScalarCsr a alpha).comp = a.comp.mapData (powBy alpha) := by
    unfold powScalarCsr; rw [chunkMapData_eq]; rfl
  refine ⟨?_, fun i j => ?_⟩
  · unfold Csr.WF; rw [e]; exact Comp.WF.mapData ha _
  · unfold Csr.val; rw [e, Comp.WF.val_mapData ha (f := powBy alpha) h0]; rfl

section
local instance : HasPowf Int := ⟨fun x y => x ^ y.toNat⟩
/-- C47, negative part: with exponent 0 (`x ** 0 = 1` for every `x`) the kernel leaves the
implicit zeros at 0, so the result is not the dense power. -/
theorem scalar_pow_zero_wrong :
    ∃ a : Csr Int, a.WF ∧ ∃ i j, i < a.nrows ∧ j < a.ncols ∧
      (powScalarCsr a 0).val i j ≠ HasPowf.powf (a.val i j) 0 := by
  refine ⟨exA, exA_wf, 0, 1, by decide, by decide, ?_⟩
  unfold powScalarCsr; rw [chunkMapData_eq]; decide
example : HasPowf.powf (0 : Int) 2 = 0 := by decide
end

end C47

end Lacuna
