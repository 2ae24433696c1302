import Verif.Props.Scalar
import Verif.Props.Logic
/-!
# C47, C39, C48: the remaining formats, and when the N-D kernels return

`scalar_floordiv_rem_correct` and `scalar_pow_correct` (Props/Scalar) are about CSR; here are the
CSC and COO kernels.  `all_any_coond_correct` and `mean_coond_correct` (Props/Logic) say what a
returned value is; here it is shown exactly when the kernels return one.
-/
set_option linter.unusedSectionVars false
namespace Lacuna
universe u
variable {V : Type u}

/-- C47 (CSC): floor division and remainder by a nonzero scalar are the dense ones and satisfy the
division identity. -/
theorem scalar_floordiv_rem_csc_correct [Field V] [LinearOrder V] [IsStrictOrderedRing V] [FloorRing V]
    [HasFloor V] (hfl : ∀ v : V, HasFloor.floor v = (⌊v⌋ : V)) {a : Csc V} (ha : a.WF)
    {alpha : V} (_h0 : alpha ≠ 0) :
    (floordivScalarCsc a alpha).WF ∧ (remScalarCsc a alpha).WF ∧ ∀ i j,
      (floordivScalarCsc a alpha).val i j = (⌊a.val i j / alpha⌋ : V) ∧
      a.val i j = alpha * (floordivScalarCsc a alpha).val i j + (remScalarCsc a alpha).val i j := by
  have e1 : (floordivScalarCsc a alpha).comp = a.comp.mapData (floordivBy alpha) := by
    unfold floordivScalarCsc; rw [chunkMapData_eq]; rfl
  have e2 : (remScalarCsc a alpha).comp = a.comp.mapData (remBy alpha) := by
    unfold remScalarCsc; rw [chunkMapData_eq]; rfl
  refine ⟨?_, ?_, fun i j => ?_⟩
  · unfold Csc.WF; rw [e1]; exact Comp.WF.mapData ha _
  · unfold Csc.WF; rw [e2]; exact Comp.WF.mapData ha _
  · have z1 : floordivBy alpha (0 : V) = 0 := by simp [floordivBy, hfl]
    have z2 : remBy alpha (0 : V) = 0 := by simp [remBy, hfl]
    unfold Csc.val
    rw [e1, e2, Comp.WF.val_mapData ha z1, Comp.WF.val_mapData ha z2]
    simp [floordivBy, remBy, hfl]

/-- C47 (CSC): power by a scalar is the dense power when `0 ^ alpha = 0`. -/
theorem scalar_pow_csc_correct [AddZeroClass V] [HasPowf V] {a : Csc V} (ha : a.WF)
    {alpha : V} (h0 : HasPowf.powf 0 alpha = 0) :
    (powScalarCsc a alpha).WF ∧ ∀ i j,
      (powScalarCsc a alpha).val i j = HasPowf.powf (a.val i j) alpha := by
  have e : (powScalarCsc a alpha).comp = a.comp.mapData (powBy alpha) := by
    unfold powScalarCsc; rw [chunkMapData_eq]; rfl
  refine ⟨?_, fun i j => ?_⟩
  · unfold Csc.WF; rw [e]; exact Comp.WF.mapData ha _
  · unfold Csc.val; rw [e, Comp.WF.val_mapData ha (f := powBy alpha) h0]; rfl

/-- A COO matrix whose values are mapped by a function that keeps zero: without repeated
coordinates every element is mapped. -/
theorem Coo.NoDup.val_mapData [AddZeroClass V] {a : Coo V} (h : a.NoDup) {f : V → V} (h0 : f 0 = 0) (i j : Nat) :
    ({ a with data := a.data.map f } : Coo V).val i j = f (a.val i j) := by
  unfold Coo.val
  rw [Coo.triples_mapData]
  exact keyed_sum_map h h0 (fun k : Int × Int => k.1 == (i : Int) && k.2 == (j : Int))
    (fun x y hx hy => by simp only [Bool.and_eq_true, beq_iff_eq] at hx hy; ext <;> omega)

/-- C47 (COO), without repeated coordinates: coordinates kept, floor division and remainder by a
nonzero scalar are the dense ones and satisfy the division identity. -/
theorem scalar_floordiv_rem_coo_correct [Field V] [LinearOrder V] [IsStrictOrderedRing V] [FloorRing V]
    [HasFloor V] (hfl : ∀ v : V, HasFloor.floor v = (⌊v⌋ : V)) {a : Coo V} (hd : a.NoDup)
    {alpha : V} (_h0 : alpha ≠ 0) :
    (floordivScalarCoo a alpha).row = a.row ∧ (floordivScalarCoo a alpha).col = a.col ∧
    (remScalarCoo a alpha).row = a.row ∧ (remScalarCoo a alpha).col = a.col ∧ ∀ i j,
      (floordivScalarCoo a alpha).val i j = (⌊a.val i j / alpha⌋ : V) ∧
      a.val i j = alpha * (floordivScalarCoo a alpha).val i j + (remScalarCoo a alpha).val i j := by
  refine ⟨rfl, rfl, rfl, rfl, fun i j => ?_⟩
  have z1 : floordivBy alpha (0 : V) = 0 := by simp [floordivBy, hfl]
  have z2 : remBy alpha (0 : V) = 0 := by simp [remBy, hfl]
  unfold floordivScalarCoo remScalarCoo
  rw [chunkMapData_eq, chunkMapData_eq, hd.val_mapData z1, hd.val_mapData z2]
  simp [floordivBy, remBy, hfl]

/-- C47 (COO), without repeated coordinates: power by a scalar is the dense power when
`0 ^ alpha = 0`. -/
theorem scalar_pow_coo_correct [AddZeroClass V] [HasPowf V] {a : Coo V} (hd : a.NoDup)
    {alpha : V} (h0 : HasPowf.powf 0 alpha = 0) :
    (powScalarCoo a alpha).row = a.row ∧ (powScalarCoo a alpha).col = a.col ∧ ∀ i j,
      (powScalarCoo a alpha).val i j = HasPowf.powf (a.val i j) alpha := by
  refine ⟨rfl, rfl, fun i j => ?_⟩
  unfold powScalarCoo
  rw [chunkMapData_eq, hd.val_mapData (f := powBy alpha) h0]
  rfl

/-- C47 (COO), negative part: two stored values at one coordinate are each rounded down, so whenever
`⌊v / alpha⌋ + ⌊w / alpha⌋` is not `⌊(v + w) / alpha⌋` the quotient is wrong. -/
theorem scalar_floordiv_coo_duplicates_wrong [Field V] [LinearOrder V] [IsStrictOrderedRing V] [FloorRing V]
    [HasFloor V] (hfl : ∀ v : V, HasFloor.floor v = (⌊v⌋ : V)) (v w alpha : V)
    (hne : ⌊v / alpha⌋ + ⌊w / alpha⌋ ≠ ⌊(v + w) / alpha⌋) :
    (⟨1, 1, [0, 0], [0, 0], [v, w]⟩ : Coo V).WF ∧
    (floordivScalarCoo (⟨1, 1, [0, 0], [0, 0], [v, w]⟩ : Coo V) alpha).val 0 0 ≠
      (⌊(⟨1, 1, [0, 0], [0, 0], [v, w]⟩ : Coo V).val 0 0 / alpha⌋ : V) := by
  refine ⟨⟨rfl, rfl, by simp, by simp⟩, fun h => hne ?_⟩
  unfold floordivScalarCoo at h
  rw [chunkMapData_eq] at h
  simp only [Coo.val, Coo.triples, List.map_cons, List.map_nil, List.zip_cons_cons, List.zip_nil_right,
    List.filter_cons, List.filter_nil, floordivBy, hfl] at h
  simp at h
  exact_mod_cast h

/-! ### When the N-D kernels return -/

/-- The number of cells is computed from the left; the computation panics if a product of leading
extents exceeds `usize::MAX`, also if a later extent is 0. -/
theorem productChecked_iff (l : List Nat) :
    productChecked l = some l.prod ↔ ∀ t, t <+: l → t.prod ≤ usizeMax := by
  have key : ∀ (l : List Nat) (p : Nat), p ≤ usizeMax →
      (l.foldl (fun acc x => acc.bind fun p => checkedMul p x) (some p) = some (p * l.prod) ↔
        ∀ t, t <+: l → p * t.prod ≤ usizeMax) := by
    intro l
    induction l with
    | nil => intro p hp; simp [hp]
    | cons x l ih =>
      intro p hp
      rw [List.foldl_cons, Option.bind_some]
      by_cases hx : p * x ≤ usizeMax
      · rw [checkedMul_eq hx, List.prod_cons, ← Nat.mul_assoc, ih _ hx]
        constructor
        · intro h t ht
          cases t with
          | nil => simpa using hp
          | cons y t =>
            obtain ⟨rfl, ht'⟩ := List.cons_prefix_cons.1 ht
            rw [List.prod_cons, ← Nat.mul_assoc]
            exact h t ht'
        · intro h t ht
          have := h (x :: t) (List.cons_prefix_cons.2 ⟨rfl, ht⟩)
          rwa [List.prod_cons, ← Nat.mul_assoc] at this
      · constructor
        · intro h
          exfalso
          rw [show checkedMul p x = none from if_neg hx] at h
          have hn : ∀ l : List Nat, l.foldl (fun acc x => acc.bind fun p => checkedMul p x) none = none := by
            intro l; induction l with
            | nil => rfl
            | cons _ _ ih => rw [List.foldl_cons]; exact ih
          rw [hn] at h; cases h
        · intro h
          exact absurd (by simpa using h [x] (List.cons_prefix_cons.2 ⟨rfl, List.nil_prefix⟩)) hx
  have := key l 1 (by decide)
  simp only [Nat.one_mul] at this
  exact this

/-- C39: `all` and `any` of an N-D array without repeated coordinates return if and only if no
product of leading extents exceeds `usize::MAX`, and then they are the truth values of the dense
array. -/
theorem all_any_coond_runs [AddZeroClass V] [BEq V] (h0 : ((0 : V) == 0) = true) {a : CooNd V} (ha : a.WF)
    (hd : a.NoDup) :
    ((∀ t, t <+: a.shape → t.prod ≤ usizeMax) →
      (∃ b, allNd a = some b ∧ (b = true ↔ AllNonzero a.cells)) ∧
      (∃ b, anyNd a = some b ∧ (b = true ↔ AnyNonzero a.cells))) ∧
    ((∃ t, t <+: a.shape ∧ usizeMax < t.prod) → allNd a = none ∧ anyNd a = none) := by
  refine ⟨fun h => ?_, fun ⟨t, ht, hlt⟩ => ?_⟩
  · have hp := (productChecked_iff a.shape).2 h
    have hc := all_any_coond_correct h0 ha hd
    have e1 : allNd a = some (allKernel a.shape.prod a.data) := by unfold allNd; rw [hp]; rfl
    have e2 : anyNd a = some (anyKernel a.shape.prod a.data) := by unfold anyNd; rw [hp]; rfl
    exact ⟨⟨_, e1, hc.1 _ e1⟩, ⟨_, e2, hc.2 _ e2⟩⟩
  · have hp : productChecked a.shape = none := by
      cases hq : productChecked a.shape with
      | none => rfl
      | some n =>
        obtain ⟨rfl, _⟩ := productChecked_some hq
        exact absurd ((productChecked_iff a.shape).1 hq t ht) (by omega)
    exact ⟨by unfold allNd; rw [hp]; rfl, by unfold anyNd; rw [hp]; rfl⟩

/-- C48: the global mean of an N-D array returns, in every schedule, if and only if no product of
leading extents exceeds `usize::MAX`. -/
theorem mean_coond_runs [Field V] [BEq V] {a : CooNd V} (ha : a.WF) :
    (∃ r, MeanNdRun a r) ↔ ∀ t, t <+: a.shape → t.prod ≤ usizeMax := by
  unfold MeanNdRun
  simp only [if_neg ha.rank]
  constructor
  · rintro ⟨_, p, hp, -⟩
    obtain ⟨rfl, _⟩ := productChecked_some hp
    exact (productChecked_iff a.shape).1 hp
  · intro h
    by_cases hz : (((a.shape.prod : Nat) : V) == 0) = true
    · exact ⟨0, _, (productChecked_iff a.shape).2 h, by rw [if_pos hz]⟩
    · obtain ⟨s, hs⟩ := sum_runs a.data
      exact ⟨_, _, (productChecked_iff a.shape).2 h, by rw [if_neg hz]; exact ⟨s, hs, rfl⟩⟩

/-! ### Witnesses -/

section
local instance : HasFloor ℚ := ⟨fun v => (⌊v⌋ : ℚ)⟩
local instance : HasPowf ℚ := ⟨fun x y => if y = 0 then 1 else x ^ ⌊y⌋.toNat⟩

/-- `[[0, 7], [-3, 0]]` by columns, divided by 2. -/
example : (floordivScalarCsc (⟨2, 2, [0, 1, 2], [1, 0], [-3, 7]⟩ : Csc ℚ) 2).val 1 0 = -2 ∧
    (remScalarCsc (⟨2, 2, [0, 1, 2], [1, 0], [-3, 7]⟩ : Csc ℚ) 2).val 1 0 = 1 := by
  have hw : (⟨2, 2, [0, 1, 2], [1, 0], [-3, 7]⟩ : Csc ℚ).WF :=
    ((csc_fromParts_iff 2 2 [0, 1, 2] [1, 0] [(-3 : ℚ), 7] (by decide) _).1 rfl).2.2
  have h := (scalar_floordiv_rem_csc_correct (fun _ => rfl) hw (alpha := 2) (by norm_num)).2.2 1 0
  have hv : (⟨2, 2, [0, 1, 2], [1, 0], [-3, 7]⟩ : Csc ℚ).val 1 0 = -3 := by decide +kernel
  have hf : (⌊(-3 : ℚ) / 2⌋ : ℚ) = -2 := by norm_num [Int.floor_eq_iff]
  rw [hv] at h
  rw [hf] at h
  exact ⟨h.1, by rw [h.1] at h; linarith [h.2]⟩
example : (powScalarCoo (⟨2, 2, [1, 0], [0, 1], [-3, 7]⟩ : Coo ℚ) 2).val 1 0 = 9 := by
  have h := (scalar_pow_coo_correct (a := (⟨2, 2, [1, 0], [0, 1], [-3, 7]⟩ : Coo ℚ)) (by unfold Coo.NoDup; decide)
    (alpha := 2) (by norm_num [HasPowf.powf])).2.2 1 0
  rw [h]
  have hv : (⟨2, 2, [1, 0], [0, 1], [-3, 7]⟩ : Coo ℚ).val 1 0 = -3 := by decide +kernel
  rw [hv]; decide +kernel
/-- 1 + 1 stored at one cell, divided by 2: 0 instead of 1. -/
example : (floordivScalarCoo (⟨1, 1, [0, 0], [0, 0], [1, 1]⟩ : Coo ℚ) 2).val 0 0 ≠
    (⌊(⟨1, 1, [0, 0], [0, 0], [1, 1]⟩ : Coo ℚ).val 0 0 / 2⌋ : ℚ) :=
  (scalar_floordiv_coo_duplicates_wrong (fun _ => rfl) 1 1 2 (by
    have h1 : ⌊(1 : ℚ) / 2⌋ = 0 := by norm_num [Int.floor_eq_iff]
    have h2 : ⌊((1 : ℚ) + 1) / 2⌋ = 1 := by norm_num [Int.floor_eq_iff]
    rw [h1, h2]; decide)).2
end

/-- A 2×2 array and an empty array whose leading extents overflow. -/
example : (∃ b, allNd (⟨[2, 2], [0, 0, 1, 1], [3, 5]⟩ : CooNd Int) = some b ∧ b = false) ∧
    allNd (⟨[2 ^ 40, 2 ^ 40, 0], [], []⟩ : CooNd Int) = none := by
  constructor
  · exact ⟨false, by decide, rfl⟩
  · refine ((all_any_coond_runs (V := Int) rfl (a := ⟨[2 ^ 40, 2 ^ 40, 0], [], []⟩)
      ⟨by simp, rfl, fun k hk => by simp at hk⟩ (by unfold CooNd.NoDup; decide)).2
      ⟨[2 ^ 40, 2 ^ 40], ⟨[0], rfl⟩, by decide⟩).1
example : ∃ r, MeanNdRun (⟨[2, 2], [0, 0, 1, 1], [3, 5]⟩ : CooNd ℚ) r :=
  (mean_coond_runs ⟨by simp, rfl, by decide⟩).2 (by
    intro t ht
    have : t.prod ≤ 4 := by
      rcases List.prefix_iff_eq_take.1 ht with h
      have hl := ht.length_le
      simp only [List.length_cons, List.length_nil] at hl
      rw [h]
      generalize t.length = n at hl
      have : n = 0 ∨ n = 1 ∨ n = 2 := by omega
      rcases this with rfl | rfl | rfl <;> decide
    exact Nat.le_trans this (by decide))
end Lacuna
