import Verif.Model.Unfold
import Verif.Spec.Unfold
import Verif.Props.NdShape
import Verif.Props.Convert
/-
C29: unfolding an N-D array into a matrix.
-/
namespace Lacuna
universe u
variable {V : Type u}

theorem restAxes_lt {n : Nat} {axes : List Nat} : ∀ d ∈ restAxes n axes, d < n := by
  intro d hd
  have := (List.mem_filter.1 hd).1
  simpa using this

theorem axesToCoo_valid {a : CooNd V} {rowAxes : List Nat} {r : Coo V} (h : axesToCoo a rowAxes = some r) :
    (∀ p ∈ rowAxes, p < a.shape.length) ∧ rowAxes.Nodup := by
  unfold axesToCoo at h
  simp only at h
  cases hc : checkAxes a.shape.length rowAxes (List.replicate a.shape.length false) with
  | none => rw [hc] at h; cases h
  | some s =>
    obtain ⟨h1, h2, -⟩ := (checkAxes_iff a.shape.length rowAxes).1 s hc
    exact ⟨h1, h2⟩

/-- C29: an axis list with a repeated or out-of-range axis is rejected. -/
theorem unfold_rejects (a : CooNd V) (rowAxes : List Nat)
    (h : (∃ p ∈ rowAxes, ¬ p < a.shape.length) ∨ ¬ rowAxes.Nodup) : axesToCoo a rowAxes = none := by
  cases hr : axesToCoo a rowAxes with
  | none => rfl
  | some r =>
    obtain ⟨h1, h2⟩ := axesToCoo_valid hr
    rcases h with ⟨p, hp, hn⟩ | h
    · exact absurd (h1 p hp) hn
    · exact absurd h2 h

/-- C29, exact form: the shape is the product of the extents on both sides, and the triples
are the entries in order, with the coordinates linearised; dimensions must fit `i64`. -/
theorem unfold_coo_spec {a : CooNd V} (ha : a.WF) (hai : a.I64) {rowAxes : List Nat} {r : Coo V}
    (h : axesToCoo a rowAxes = some r) (hrow : (r.nrows : Int) ≤ 2 ^ 63) (hcol : (r.ncols : Int) ≤ 2 ^ 63) :
    r.nrows = (extents a.shape rowAxes).prod ∧
    r.ncols = (extents a.shape (restAxes a.shape.length rowAxes)).prod ∧
    r.data = a.data ∧ r.WF ∧ r.I64 ∧
    r.triples = a.entries.map fun e =>
      (((unfoldRow a.shape rowAxes e.1 : Int), (unfoldCol a.shape rowAxes e.1 : Int)), e.2) := by
  obtain ⟨hlt, hn⟩ := axesToCoo_valid h
  unfold axesToCoo at h
  simp only at h
  obtain ⟨s', hs', hs''⟩ := (checkAxes_iff a.shape.length rowAxes).2 hlt hn
  rw [hs'] at h
  simp only [Option.bind_some] at h
  have hrem : (List.range a.shape.length).filter (fun d => !(s'.getD d false)) = restAxes a.shape.length rowAxes := by
    unfold restAxes
    apply List.filter_congr
    intro d _
    rw [hs'']
  rw [hrem] at h
  change (productChecked (extents a.shape rowAxes)).bind (fun nrows =>
    (productChecked (extents a.shape (restAxes a.shape.length rowAxes))).bind fun ncols => _) = _ at h
  cases h1 : productChecked (extents a.shape rowAxes) with
  | none => rw [h1] at h; cases h
  | some nr =>
  cases h2 : productChecked (extents a.shape (restAxes a.shape.length rowAxes)) with
  | none => rw [h1, h2] at h; cases h
  | some nc =>
  obtain ⟨rfl, g1⟩ := productChecked_some h1
  obtain ⟨rfl, g2⟩ := productChecked_some h2
  rw [h1, h2] at h
  simp only [Option.bind_some] at h
  by_cases h0 : a.data.length = 0
  · have hE : a.entries = [] := by rw [← List.length_eq_zero_iff, CooNd.entries_length, h0]
    have hd : a.data = [] := List.length_eq_zero_iff.1 h0
    cases h3 : strides? (rowAxes.map fun d => a.shape.getD d 0) with
    | none => rw [h3] at h; cases h
    | some rst =>
    cases h4 : strides? ((restAxes a.shape.length rowAxes).map fun d => a.shape.getD d 0) with
    | none => rw [h3, h4] at h; cases h
    | some cst =>
    rw [h3, h4] at h
    simp only [Option.bind_some] at h
    rw [if_pos h0] at h
    cases h
    refine ⟨rfl, rfl, hd.symm, ⟨rfl, rfl, by simp, by simp⟩, ⟨by simp, by simp⟩, ?_⟩
    rw [hE]; rfl
  · have hb : ∀ axes : List Nat, (∀ p ∈ axes, p < a.shape.length) → ∀ e ∈ a.entries,
        rowMajor (extents a.shape axes) (select axes e.1) < (extents a.shape axes).prod := fun axes hax e he =>
      rowMajor_lt (select_inBounds ha hax e he)
    obtain ⟨e0, he0⟩ : ∃ e, e ∈ a.entries := by
      have : a.entries.length ≠ 0 := by rw [CooNd.entries_length]; exact h0
      exact List.exists_mem_of_length_pos (by omega)
    have p1 := hb rowAxes hlt e0 he0
    have p2 := hb (restAxes a.shape.length rowAxes) restAxes_lt e0 he0
    have n1 : NoOverflow (extents a.shape rowAxes) := noOverflow_of_pos (by omega) g1
    have n2 : NoOverflow (extents a.shape (restAxes a.shape.length rowAxes)) := noOverflow_of_pos (by omega) g2
    have q1 : strides? (rowAxes.map fun d => a.shape.getD d 0) = some (sufProds (rowAxes.map fun d => a.shape.getD d 0)) :=
      strides?_eq n1
    have q2 : strides? ((restAxes a.shape.length rowAxes).map fun d => a.shape.getD d 0) =
        some (sufProds ((restAxes a.shape.length rowAxes).map fun d => a.shape.getD d 0)) := strides?_eq n2
    rw [q1, q2] at h
    simp only [Option.bind_some] at h
    rw [if_neg h0, ndOps_eq ha hai hlt n1, ndOps_eq ha hai restAxes_lt n2] at h
    simp only [Option.bind_some, List.map_map, Option.some.injEq] at h
    subst h
    simp only at hrow hcol
    have er : (a.entries.map ((fun e : Nat × V => usizeToI64 e.1) ∘ fun e =>
        (rowMajor (rowAxes.map fun d => a.shape.getD d 0) (rowAxes.map fun d => e.1.getD d 0), id e.2))) =
        a.entries.map fun e => (unfoldRow a.shape rowAxes e.1 : Int) := by
      apply List.map_congr_left
      intro e he
      have := hb rowAxes hlt e he
      exact usizeToI64_of_le (n := rowMajor (extents a.shape rowAxes) (select rowAxes e.1)) (by simp only [i64Max]; omega)
    have ec : (a.entries.map ((fun e : Nat × V => usizeToI64 e.1) ∘ fun e =>
        (rowMajor ((restAxes a.shape.length rowAxes).map fun d => a.shape.getD d 0)
          ((restAxes a.shape.length rowAxes).map fun d => e.1.getD d 0), id e.2))) =
        a.entries.map fun e => (unfoldCol a.shape rowAxes e.1 : Int) := by
      apply List.map_congr_left
      intro e he
      have := hb (restAxes a.shape.length rowAxes) restAxes_lt e he
      exact usizeToI64_of_le (n := rowMajor (extents a.shape (restAxes a.shape.length rowAxes))
        (select (restAxes a.shape.length rowAxes) e.1)) (by simp only [i64Max]; omega)
    rw [er, ec]
    refine ⟨rfl, rfl, rfl, ⟨?_, ?_, ?_, ?_⟩, ⟨?_, ?_⟩, ?_⟩
    · simp [CooNd.entries_length]
    · simp [CooNd.entries_length]
    · intro i hi
      obtain ⟨e, he, rfl⟩ := List.mem_map.1 hi
      have := hb rowAxes hlt e he
      exact ⟨by omega, by show (unfoldRow a.shape rowAxes e.1 : Int) < _; unfold unfoldRow; simp only; omega⟩
    · intro i hi
      obtain ⟨e, he, rfl⟩ := List.mem_map.1 hi
      have := hb (restAxes a.shape.length rowAxes) restAxes_lt e he
      exact ⟨by omega, by show (unfoldCol a.shape rowAxes e.1 : Int) < _; unfold unfoldCol; simp only; omega⟩
    · intro i hi
      obtain ⟨e, he, rfl⟩ := List.mem_map.1 hi
      have := hb rowAxes hlt e he
      unfold unfoldRow; simp only [i64Max]; omega
    · intro i hi
      obtain ⟨e, he, rfl⟩ := List.mem_map.1 hi
      have := hb (restAxes a.shape.length rowAxes) restAxes_lt e he
      unfold unfoldCol; simp only [i64Max]; omega
    · show ((a.entries.map _).zip (a.entries.map _)).zip a.data = _
      rw [← CooNd.entries_snd a, List.zip_map', List.zip_map']

/-- Row and column of a cell determine the cell. -/
theorem unfold_inj {shape rowAxes : List Nat} (hlt : ∀ p ∈ rowAxes, p < shape.length) {x y : List Int}
    (hx : InBounds shape x) (hy : InBounds shape y) (h1 : unfoldRow shape rowAxes x = unfoldRow shape rowAxes y)
    (h2 : unfoldCol shape rowAxes x = unfoldCol shape rowAxes y) : x = y := by
  have hib : ∀ (axes : List Nat) (z : List Int), InBounds shape z → (∀ p ∈ axes, p < shape.length) →
      InBounds (extents shape axes) (select axes z) := by
    intro axes z hz hax
    induction axes with
    | nil => exact .nil
    | cons d axes ih =>
      refine inBounds_cons.2 ⟨?_, ih (fun p hp => hax p (by simp [hp]))⟩
      have hd := hax d (by simp)
      have hd' : d < z.length := by rw [hz.length]; exact hd
      have := List.Forall₂.get hz hd' hd
      simpa [List.getD_eq_getElem?_getD, hd, hd'] using this
  have e1 := rowMajor_inj (hib rowAxes x hx hlt) (hib rowAxes y hy hlt) h1
  have e2 := rowMajor_inj (hib _ x hx restAxes_lt) (hib _ y hy restAxes_lt) h2
  have hget : ∀ d, d < shape.length → x.getD d 0 = y.getD d 0 := by
    intro d hd
    by_cases hm : d ∈ rowAxes
    · exact List.map_inj_left.1 e1 d hm
    · exact List.map_inj_left.1 e2 d (List.mem_filter.2 ⟨by simpa using hd, by simpa using hm⟩)
  apply List.ext_getElem (by rw [hx.length, hy.length])
  intro d h3 h4
  have := hget d (by rw [← hx.length]; exact h3)
  simpa [List.getD_eq_getElem?_getD, h3, h4] using this

/-- C29: the value at (i, j) is the sum of the stored entries whose row axes linearise to `i`
and whose remaining axes linearise to `j`. -/
theorem unfold_coo_sum [Add V] [Zero V] {a : CooNd V} (ha : a.WF) (hai : a.I64) {rowAxes : List Nat} {r : Coo V}
    (h : axesToCoo a rowAxes = some r) (hrow : (r.nrows : Int) ≤ 2 ^ 63) (hcol : (r.ncols : Int) ≤ 2 ^ 63)
    (i j : Nat) :
    r.val i j = ((a.entries.filter fun e => unfoldRow a.shape rowAxes e.1 == i && unfoldCol a.shape rowAxes e.1 == j).map
      Prod.snd).sum := by
  obtain ⟨-, -, -, -, -, ht⟩ := unfold_coo_spec ha hai h hrow hcol
  unfold Coo.val
  rw [ht, List.filter_map, List.map_map]
  congr 1
  have : (fun t : (Int × Int) × V => t.1.1 == (i : Int) && t.1.2 == (j : Int)) ∘ (fun e : List Int × V =>
      (((unfoldRow a.shape rowAxes e.1 : Int), (unfoldCol a.shape rowAxes e.1 : Int)), e.2)) =
      fun e => unfoldRow a.shape rowAxes e.1 == i && unfoldCol a.shape rowAxes e.1 == j := by
    funext e
    simp only [Function.comp]
    rw [Bool.eq_iff_iff]
    simp
  rw [this]
  rfl

/-- C29: every cell of the array is found at its row and column. -/
theorem unfold_coo_correct [Add V] [Zero V] {a : CooNd V} (ha : a.WF) (hai : a.I64) {rowAxes : List Nat} {r : Coo V}
    (h : axesToCoo a rowAxes = some r) (hrow : (r.nrows : Int) ≤ 2 ^ 63) (hcol : (r.ncols : Int) ≤ 2 ^ 63)
    {x : List Int} (hx : InBounds a.shape x) :
    r.val (unfoldRow a.shape rowAxes x) (unfoldCol a.shape rowAxes x) = a.val x := by
  obtain ⟨hlt, -⟩ := axesToCoo_valid h
  rw [unfold_coo_sum ha hai h hrow hcol]
  unfold CooNd.val
  congr 2
  apply List.filter_congr
  intro e he
  rw [Bool.eq_iff_iff]
  simp only [Bool.and_eq_true, beq_iff_eq]
  exact ⟨fun hh => unfold_inj hlt (ha.entries_inBounds e he) hx hh.1 hh.2, fun hh => by rw [hh]; exact ⟨rfl, rfl⟩⟩

/-- The call succeeds whenever both products are positive and fit `usize`. -/
theorem unfold_coo_runs {a : CooNd V} (ha : a.WF) (hai : a.I64) {rowAxes : List Nat}
    (hlt : ∀ p ∈ rowAxes, p < a.shape.length) (hn : rowAxes.Nodup)
    (p1 : 0 < (extents a.shape rowAxes).prod) (g1 : (extents a.shape rowAxes).prod ≤ usizeMax)
    (p2 : 0 < (extents a.shape (restAxes a.shape.length rowAxes)).prod)
    (g2 : (extents a.shape (restAxes a.shape.length rowAxes)).prod ≤ usizeMax) :
    ∃ r, axesToCoo a rowAxes = some r ∧ r.nrows = (extents a.shape rowAxes).prod ∧
      r.ncols = (extents a.shape (restAxes a.shape.length rowAxes)).prod := by
  unfold axesToCoo
  simp only
  obtain ⟨s', hs', hs''⟩ := (checkAxes_iff a.shape.length rowAxes).2 hlt hn
  rw [hs']
  simp only [Option.bind_some]
  have hrem : (List.range a.shape.length).filter (fun d => !(s'.getD d false)) = restAxes a.shape.length rowAxes := by
    unfold restAxes
    apply List.filter_congr
    intro d _
    rw [hs'']
  rw [hrem]
  have e1 : productChecked (rowAxes.map fun d => a.shape.getD d 0) = some (extents a.shape rowAxes).prod := by
    have := productChecked_of_pos (extents a.shape rowAxes) 1 p1 (by omega)
    rwa [Nat.one_mul] at this
  have e2 : productChecked ((restAxes a.shape.length rowAxes).map fun d => a.shape.getD d 0) =
      some (extents a.shape (restAxes a.shape.length rowAxes)).prod := by
    have := productChecked_of_pos (extents a.shape (restAxes a.shape.length rowAxes)) 1 p2 (by omega)
    rwa [Nat.one_mul] at this
  have n1 : NoOverflow (extents a.shape rowAxes) := noOverflow_of_pos p1 g1
  have n2 : NoOverflow (extents a.shape (restAxes a.shape.length rowAxes)) := noOverflow_of_pos p2 g2
  have q1 : strides? (rowAxes.map fun d => a.shape.getD d 0) = some (sufProds (rowAxes.map fun d => a.shape.getD d 0)) :=
    strides?_eq n1
  have q2 : strides? ((restAxes a.shape.length rowAxes).map fun d => a.shape.getD d 0) =
      some (sufProds ((restAxes a.shape.length rowAxes).map fun d => a.shape.getD d 0)) := strides?_eq n2
  rw [e1, e2, q1, q2]
  simp only [Option.bind_some]
  split
  · exact ⟨_, rfl, rfl, rfl⟩
  · rw [ndOps_eq ha hai hlt n1, ndOps_eq ha hai restAxes_lt n2]
    exact ⟨_, rfl, rfl, rfl⟩

section matrix
variable [AddCommMonoid V] {sort : List ((Int × Int) × V) → List ((Int × Int) × V)}

/-- C29 (CSR): well formed, shape as above, every cell at its place. -/
theorem unfold_csr_correct (hsort : IsTripleSort sort) {a : CooNd V} (ha : a.WF) (hai : a.I64) {rowAxes : List Nat}
    {r : Csr V} (h : axesToCsr sort a rowAxes = some r) (hrow : (r.nrows : Int) ≤ i64Max)
    (hcol : (r.ncols : Int) ≤ 2 ^ 63) (hl : (a.data.length : Int) ≤ i64Max) :
    r.WF ∧ r.nrows = (extents a.shape rowAxes).prod ∧
    r.ncols = (extents a.shape (restAxes a.shape.length rowAxes)).prod ∧
    (∀ x, InBounds a.shape x → r.val (unfoldRow a.shape rowAxes x) (unfoldCol a.shape rowAxes x) = a.val x) ∧
    ∀ i j, r.val i j = ((a.entries.filter fun e =>
      unfoldRow a.shape rowAxes e.1 == i && unfoldCol a.shape rowAxes e.1 == j).map Prod.snd).sum := by
  unfold axesToCsr at h
  cases hc : axesToCoo a rowAxes with
  | none => rw [hc] at h; cases h
  | some c =>
    rw [hc] at h
    cases h
    have e1 : (cooToCsr sort c).nrows = c.nrows := rfl
    have e2 : (cooToCsr sort c).ncols = c.ncols := rfl
    rw [e1] at hrow
    rw [e2] at hcol
    have hrow' : (c.nrows : Int) ≤ 2 ^ 63 := by simp only [i64Max] at hrow; omega
    obtain ⟨h1, h2, h3, h4, h5, -⟩ := unfold_coo_spec ha hai hc hrow' hcol
    obtain ⟨g1, g2, g3, g4⟩ := coo_to_csr_correct hsort h4 h5 hrow (by rw [h3]; exact hl)
    refine ⟨g3, g1.trans h1, g2.trans h2, fun x hx => ?_, fun i j => ?_⟩
    · rw [g4]; exact unfold_coo_correct ha hai hc hrow' hcol hx
    · rw [g4]; exact unfold_coo_sum ha hai hc hrow' hcol i j

/-- C29 (CSC). -/
theorem unfold_csc_correct (hsort : IsTripleSort sort) {a : CooNd V} (ha : a.WF) (hai : a.I64) {rowAxes : List Nat}
    {r : Csc V} (h : axesToCsc sort a rowAxes = some r) (hrow : (r.nrows : Int) ≤ 2 ^ 63)
    (hcol : (r.ncols : Int) ≤ i64Max) (hl : (a.data.length : Int) ≤ i64Max) :
    r.WF ∧ r.nrows = (extents a.shape rowAxes).prod ∧
    r.ncols = (extents a.shape (restAxes a.shape.length rowAxes)).prod ∧
    (∀ x, InBounds a.shape x → r.val (unfoldRow a.shape rowAxes x) (unfoldCol a.shape rowAxes x) = a.val x) ∧
    ∀ i j, r.val i j = ((a.entries.filter fun e =>
      unfoldRow a.shape rowAxes e.1 == i && unfoldCol a.shape rowAxes e.1 == j).map Prod.snd).sum := by
  unfold axesToCsc at h
  cases hc : axesToCoo a rowAxes with
  | none => rw [hc] at h; cases h
  | some c =>
    rw [hc] at h
    cases h
    have e1 : (cooToCsc sort c).nrows = c.nrows := rfl
    have e2 : (cooToCsc sort c).ncols = c.ncols := rfl
    rw [e1] at hrow
    rw [e2] at hcol
    have hcol' : (c.ncols : Int) ≤ 2 ^ 63 := by simp only [i64Max] at hcol; omega
    obtain ⟨h1, h2, h3, h4, h5, -⟩ := unfold_coo_spec ha hai hc hrow hcol'
    obtain ⟨g1, g2, g3, g4⟩ := coo_to_csc_correct hsort h4 h5 hcol (by rw [h3]; exact hl)
    refine ⟨g3, g1.trans h1, g2.trans h2, fun x hx => ?_, fun i j => ?_⟩
    · rw [g4]; exact unfold_coo_correct ha hai hc hrow hcol' hx
    · rw [g4]; exact unfold_coo_sum ha hai hc hrow hcol' i j

end matrix

/-- The mode unfolding is the unfolding by one axis; other axes are rejected. -/
theorem unfold_mode [Zero V] [Add V] (sort : List ((Int × Int) × V) → List ((Int × Int) × V)) (a : CooNd V) (axis : Nat) :
    (axis < a.shape.length → modeToCsr sort a axis = axesToCsr sort a [axis] ∧
      modeToCsc sort a axis = axesToCsc sort a [axis]) ∧
    (¬ axis < a.shape.length → modeToCsr sort a axis = none ∧ modeToCsc sort a axis = none) :=
  ⟨fun h => ⟨if_pos h, if_pos h⟩, fun h => ⟨if_neg h, if_neg h⟩⟩

example : axesToCoo (⟨[2, 3, 2], [1, 2, 0, 0, 1, 1, 1, 2, 0], [4, 5, 3]⟩ : CooNd Int) [2, 0] =
    some ⟨4, 3, [1, 2, 1], [2, 1, 2], [4, 5, 3]⟩ := by decide
example : axesToCsr (List.insertionSort tripleLe) (⟨[2, 3, 2], [1, 2, 0, 0, 1, 1, 1, 2, 0], [4, 5, 3]⟩ : CooNd Int) [2, 0] =
    some ⟨4, 3, [0, 0, 1, 2, 2], [2, 1], [7, 5]⟩ := by decide
example : axesToCoo (⟨[2, 3], [1, 2], [4]⟩ : CooNd Int) [] = some ⟨1, 6, [0], [5], [4]⟩ := by decide
example : axesToCoo (⟨[2, 3], [1, 2], [4]⟩ : CooNd Int) [1, 1] = none := by decide

/-- Without the size condition the column index wraps to a negative number: an array of shape
(2, 2^33, 2^31 - 1) unfolded along axis 0 has more than 2^63 columns. -/
theorem unfold_index_wraps : ∃ (a : CooNd Int) (r : Coo Int), a.WF ∧ a.I64 ∧ axesToCoo a [0] = some r ∧
    r.nrows = 2 ∧ r.col = [-(2 ^ 33) - 1] := by
  refine ⟨⟨[2, 2 ^ 33, 2 ^ 31 - 1], [1, 2 ^ 33 - 1, 2 ^ 31 - 2], [5]⟩,
    ⟨2, 2 ^ 33 * (2 ^ 31 - 1), [1], [-(2 ^ 33) - 1], [5]⟩, ?_, ?_, by decide +kernel, rfl, rfl⟩
  · exact ((coond_fromParts_iff _ _ _ _).1 (show CooNd.fromParts [2, 2 ^ 33, 2 ^ 31 - 1]
      [1, 2 ^ 33 - 1, 2 ^ 31 - 2] [(5 : Int)] true = .ok _ by decide +kernel)).2.2
  · unfold CooNd.I64; decide +kernel

end Lacuna
