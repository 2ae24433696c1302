import Verif.Lemmas.NdShape
import Verif.Model.NdMean
import Verif.Props.Scalar
import Mathlib.Algebra.Field.Defs
import Mathlib.Data.List.Perm.Basic
import Mathlib.Data.List.Perm.Subperm
import Mathlib.Data.List.Range
/-
C22 (reshape), C23 (permute_dims), C24 (axis reduction).
-/
namespace Lacuna
universe u
variable {V : Type u}

/-! ### C22 -/

theorem productChecked_foldl (l : List Nat) (p n : Nat)
    (h : l.foldl (fun acc x => acc.bind fun p => checkedMul p x) (some p) = some n) :
    n = p * l.prod ∧ (p ≤ usizeMax → n ≤ usizeMax) := by
  induction l generalizing p with
  | nil => simp only [List.foldl_nil, Option.some.injEq] at h; subst h; simp
  | cons x l ih =>
    rw [List.foldl_cons, Option.bind_some] at h
    by_cases hx : p * x ≤ usizeMax
    · rw [checkedMul_eq hx] at h
      obtain ⟨h1, h2⟩ := ih _ h
      exact ⟨by rw [h1, List.prod_cons, Nat.mul_assoc], fun _ => h2 hx⟩
    · exfalso
      rw [show checkedMul p x = none from if_neg hx] at h
      have : ∀ l : List Nat, l.foldl (fun acc x => acc.bind fun p => checkedMul p x) none = none := by
        intro l; induction l with
        | nil => rfl
        | cons _ _ ih => rw [List.foldl_cons]; exact ih
      rw [this] at h; cases h

theorem productChecked_some {l : List Nat} {n : Nat} (h : productChecked l = some n) :
    n = l.prod ∧ l.prod ≤ usizeMax := by
  obtain ⟨h1, h2⟩ := productChecked_foldl l 1 n h
  rw [Nat.one_mul] at h1
  exact ⟨h1, h1 ▸ h2 (by decide)⟩

theorem pos_of_prod_pos {l : List Nat} (h : 0 < l.prod) : ∀ s ∈ l, 0 < s := by
  induction l with
  | nil => simp
  | cons x l ih =>
    rw [List.prod_cons] at h
    intro s hs
    rcases List.mem_cons.1 hs with rfl | hs
    · exact Nat.pos_of_mul_pos_right h
    · exact ih (Nat.pos_of_mul_pos_left h) s hs

theorem productChecked_of_pos (l : List Nat) (p : Nat) (hpos : 0 < l.prod) (hle : p * l.prod ≤ usizeMax) :
    l.foldl (fun acc x => acc.bind fun p => checkedMul p x) (some p) = some (p * l.prod) := by
  induction l generalizing p with
  | nil => simp
  | cons x l ih =>
    rw [List.prod_cons] at hpos hle ⊢
    have h1 : 0 < l.prod := Nat.pos_of_mul_pos_left hpos
    rw [← Nat.mul_assoc] at hle ⊢
    rw [List.foldl_cons, Option.bind_some,
      checkedMul_eq (Nat.le_trans (Nat.le_mul_of_pos_right _ h1) hle), ih _ h1 hle]

theorem WF_data_empty {a : CooNd V} (h : a.WF) (h0 : a.data.length = 0) : a = ⟨a.shape, [], []⟩ := by
  have h1 := h.length
  rw [h0, Nat.zero_mul] at h1
  obtain ⟨s, i, d⟩ := a
  simp only [List.length_eq_zero_iff] at h0 h1
  simp [h0, h1]

/-- Reshape stores, for every entry, the coordinate of the new shape at the same row-major
position. -/
theorem reshape_unique {a : CooNd V} (ha : a.WF) (hai : a.I64) {newShape : List Nat}
    (hp : newShape.prod = a.shape.prod) (hpos : 0 < a.shape.prod) (hle : a.shape.prod ≤ usizeMax)
    {L : List (List Int × V)} (hLb : ∀ e ∈ L, InBounds newShape e.1) (hLi : ∀ e ∈ L, ∀ i ∈ e.1, i ≤ i64Max)
    (hL : L.map (fun e => (rowMajor newShape e.1, e.2)) = a.entries.map fun e => (rowMajor a.shape e.1, e.2)) :
    reshapeNd a newShape = some (CooNd.ofEntries newShape L) := by
  have hd : L.map Prod.snd = a.data := by
    have := congrArg (List.map Prod.snd) hL
    rw [List.map_map, List.map_map] at this
    rw [← CooNd.entries_snd]; exact this
  unfold reshapeNd
  have e1 : productChecked a.shape = some a.shape.prod := by
    have := productChecked_of_pos a.shape 1 hpos (by omega)
    rwa [Nat.one_mul] at this
  have e2 : productChecked newShape = some newShape.prod := by
    have := productChecked_of_pos newShape 1 (by omega) (by omega)
    rwa [Nat.one_mul] at this
  rw [e1, e2]
  simp only [Option.bind_some]
  rw [if_neg (by simp [hp])]
  split
  · rename_i h0
    have : L = [] := by
      have := congrArg List.length hd
      rw [List.length_map, h0] at this
      exact List.length_eq_zero_iff.1 this
    subst this; rfl
  · rw [strides?_eq (noOverflow_of_pos hpos hle), strides?_eq (noOverflow_of_pos (by omega) (by omega))]
    simp only [Option.bind_some]
    rw [ndOps_full ha hai (noOverflow_of_pos hpos hle)]
    simp only [Option.bind_some, id]
    rw [← hL, List.flatMap_map, ← hd]
    unfold CooNd.ofEntries
    rw [List.flatMap_def, List.flatMap_def]
    congr 3
    apply List.map_congr_left
    intro e he
    simp only
    rw [delin_rowMajor (hLb e he), map_usizeToI64 (hLb e he).nonneg (hLi e he)]

theorem prod_pos_of_entry {a : CooNd V} (ha : a.WF) (h : a.data.length ≠ 0) : 0 < a.shape.prod := by
  have := rowMajor_lt (ha.inBounds (k := 0) (by omega))
  omega

theorem InBounds.le_i64 {shape : List Nat} {x : List Int} (h : InBounds shape x)
    (hfit : ∀ s ∈ shape, (s : Int) ≤ 2 ^ 63) : ∀ i ∈ x, i ≤ i64Max := by
  induction shape generalizing x with
  | nil => cases h; simp
  | cons s ss ih =>
    cases x with
    | nil => cases h
    | cons i is =>
      rw [inBounds_cons] at h
      intro k hk
      rcases List.mem_cons.1 hk with rfl | hk
      · have := hfit s (by simp); unfold i64Max; omega
      · exact ih h.2 (fun t ht => hfit t (by simp [ht])) k hk

/-- C22: a reshape that returns keeps every stored value, in order, at the same row-major
position.  The new dimensions must fit `i64` (they are stored as `i64` indices). -/
theorem reshape_correct {a r : CooNd V} (ha : a.WF) (hai : a.I64) {newShape : List Nat}
    (hs : newShape ≠ []) (hfit : ∀ s ∈ newShape, (s : Int) ≤ 2 ^ 63)
    (hr : reshapeNd a newShape = some r) :
    r.shape = newShape ∧ r.WF ∧ r.I64 ∧ newShape.prod = a.shape.prod ∧
    r.entries.map (fun e => (rowMajor newShape e.1, e.2)) =
      a.entries.map (fun e => (rowMajor a.shape e.1, e.2)) := by
  have hpr : newShape.prod = a.shape.prod ∧ a.shape.prod ≤ usizeMax := by
    unfold reshapeNd at hr
    cases h1 : productChecked a.shape with
    | none => rw [h1] at hr; cases hr
    | some p =>
      cases h2 : productChecked newShape with
      | none => rw [h1, h2] at hr; cases hr
      | some q =>
        rw [h1, h2] at hr
        simp only [Option.bind_some] at hr
        by_cases hpq : p = q
        · have := productChecked_some h1
          have := productChecked_some h2
          omega
        · rw [if_pos hpq] at hr; cases hr
  obtain ⟨hp, hle⟩ := hpr
  let L := a.entries.map fun e => ((delin (sufProds newShape) (rowMajor a.shape e.1)).map Int.ofNat, e.2)
  have hin : ∀ e ∈ a.entries, rowMajor a.shape e.1 < newShape.prod := by
    intro e he; rw [hp]; exact rowMajor_lt (ha.entries_inBounds e he)
  have hLb : ∀ e ∈ L, InBounds newShape e.1 := by
    intro e he
    obtain ⟨e', he', rfl⟩ := List.mem_map.1 he
    exact (delin_inBounds (hin e' he')).1
  have hLi : ∀ e ∈ L, ∀ i ∈ e.1, i ≤ i64Max := fun e he => (hLb e he).le_i64 hfit
  have hL : L.map (fun e => (rowMajor newShape e.1, e.2)) =
      a.entries.map fun e => (rowMajor a.shape e.1, e.2) := by
    simp only [L, List.map_map]
    apply List.map_congr_left
    intro e he
    simp only [Function.comp]
    rw [(delin_inBounds (hin e he)).2]
  have hrL : r = CooNd.ofEntries newShape L := by
    by_cases h0 : a.data.length = 0
    · have hL0 : L = [] := by
        rw [← List.length_eq_zero_iff]; simp [L, CooNd.entries_length, h0]
      unfold reshapeNd at hr
      cases h1 : productChecked a.shape with
      | none => rw [h1] at hr; cases hr
      | some p =>
        cases h2 : productChecked newShape with
        | none => rw [h1, h2] at hr; cases hr
        | some q =>
          rw [h1, h2] at hr
          simp only [Option.bind_some] at hr
          by_cases hpq : p = q
          · rw [if_neg (by simp [hpq]), if_pos h0] at hr
            cases hr; rw [hL0]; rfl
          · rw [if_pos hpq] at hr; cases hr
    · have := reshape_unique ha hai hp (prod_pos_of_entry ha h0) hle hLb hLi hL
      rw [this] at hr; cases hr; rfl
  subst hrL
  refine ⟨rfl, CooNd.wf_of_inBounds hs hLb, CooNd.i64_ofEntries hLi, hp, ?_⟩
  rw [CooNd.entries_ofEntries _ _ (fun e he => (hLb e he).length), hL]

/-- C22, values: indices at the same row-major position carry the same value. -/
theorem reshape_val [Add V] [Zero V] {a r : CooNd V} (ha : a.WF) (hai : a.I64) {newShape : List Nat}
    (hs : newShape ≠ []) (hfit : ∀ s ∈ newShape, (s : Int) ≤ 2 ^ 63)
    (hr : reshapeNd a newShape = some r) {x y : List Int} (hx : InBounds a.shape x)
    (hy : InBounds newShape y) (hxy : rowMajor a.shape x = rowMajor newShape y) :
    r.val y = a.val x := by
  obtain ⟨h1, h2, h3, h4, h5⟩ := reshape_correct ha hai hs hfit hr
  have hcongr := congrArg (fun l : List (Nat × V) =>
    ((l.filter fun e => e.1 == rowMajor a.shape x).map Prod.snd).sum) h5
  simp only [List.filter_map, List.map_map] at hcongr
  unfold CooNd.val
  have hf1 : r.entries.filter (fun e => e.1 == y) =
      r.entries.filter ((fun e : Nat × V => e.1 == rowMajor a.shape x) ∘ fun e => (rowMajor newShape e.1, e.2)) := by
    apply List.filter_congr
    intro e he
    have hb := h2.entries_inBounds e he
    rw [h1] at hb
    simp only [Function.comp]
    rw [Bool.eq_iff_iff, beq_iff_eq, beq_iff_eq, hxy]
    exact ⟨fun h => by rw [h], fun h => rowMajor_inj hb hy h⟩
  have hf2 : a.entries.filter (fun e => e.1 == x) =
      a.entries.filter ((fun e : Nat × V => e.1 == rowMajor a.shape x) ∘ fun e => (rowMajor a.shape e.1, e.2)) := by
    apply List.filter_congr
    intro e he
    have hb := ha.entries_inBounds e he
    simp only [Function.comp]
    rw [Bool.eq_iff_iff, beq_iff_eq, beq_iff_eq]
    exact ⟨fun h => by rw [h], fun h => rowMajor_inj hb hx h⟩
  rw [hf1, hf2]
  exact hcongr

/-- C22: reshaping back returns the identical array. -/
theorem reshape_round_trip {a r : CooNd V} (ha : a.WF) (hai : a.I64) {newShape : List Nat}
    (hs : newShape ≠ []) (hfit : ∀ s ∈ newShape, (s : Int) ≤ 2 ^ 63)
    (hr : reshapeNd a newShape = some r) : reshapeNd r a.shape = some a := by
  obtain ⟨h1, h2, h3, h4, h5⟩ := reshape_correct ha hai hs hfit hr
  have hlen : r.data.length = a.data.length := by
    have := congrArg List.length h5
    simpa [CooNd.entries_length] using this
  by_cases h0 : a.data.length = 0
  · have hprod : ∃ p, productChecked a.shape = some p ∧ productChecked r.shape = some p := by
      unfold reshapeNd at hr
      rw [h1]
      cases e1 : productChecked a.shape with
      | none => rw [e1] at hr; cases hr
      | some p =>
        cases e2 : productChecked newShape with
        | none => rw [e1, e2] at hr; cases hr
        | some q =>
          have := productChecked_some e1
          have := productChecked_some e2
          refine ⟨p, rfl, ?_⟩
          congr 1; omega
    obtain ⟨p, p1, p2⟩ := hprod
    unfold reshapeNd
    rw [p1, p2]
    simp only [Option.bind_some]
    rw [if_neg (by simp), if_pos (by omega), ← WF_data_empty ha h0]
  · have hpos := prod_pos_of_entry ha h0
    have hle : a.shape.prod ≤ usizeMax := by
      unfold reshapeNd at hr
      cases e1 : productChecked a.shape with
      | none => rw [e1] at hr; cases hr
      | some p => exact (productChecked_some e1).2
    have := reshape_unique h2 h3 (newShape := a.shape) (by rw [h1]; exact h4.symm) (by rw [h1]; omega)
      (by rw [h1]; omega) (L := a.entries) ha.entries_inBounds (CooNd.WF.entries_i64 hai)
      (by rw [h1]; exact h5.symm)
    rw [this, ← CooNd.eq_ofEntries a ha.length]

/-- C22: a reshape to a shape with a different number of elements is rejected. -/
theorem reshape_rejects (a : CooNd V) (newShape : List Nat) (h : newShape.prod ≠ a.shape.prod) :
    reshapeNd a newShape = none := by
  unfold reshapeNd
  cases h1 : productChecked a.shape with
  | none => rfl
  | some p =>
    cases h2 : productChecked newShape with
    | none => rfl
    | some q =>
      have := productChecked_some h1
      have := productChecked_some h2
      simp only [Option.bind_some]
      rw [if_pos (by omega)]

/-- C22: with positive dimensions whose product fits `usize` the call returns. -/
theorem reshape_runs {a : CooNd V} (ha : a.WF) (hai : a.I64) {newShape : List Nat}
    (hp : newShape.prod = a.shape.prod) (hpos : 0 < a.shape.prod) (hle : a.shape.prod ≤ usizeMax) :
    (reshapeNd a newShape).isSome := by
  unfold reshapeNd
  have e1 : productChecked a.shape = some a.shape.prod := by
    have := productChecked_of_pos a.shape 1 hpos (by omega)
    rwa [Nat.one_mul] at this
  have e2 : productChecked newShape = some newShape.prod := by
    have := productChecked_of_pos newShape 1 (by omega) (by omega)
    rwa [Nat.one_mul] at this
  rw [e1, e2]
  simp only [Option.bind_some]
  rw [if_neg (by simp [hp])]
  split
  · rfl
  · rw [strides?_eq (noOverflow_of_pos hpos hle), strides?_eq (noOverflow_of_pos (by omega) (by omega))]
    simp only [Option.bind_some]
    rw [ndOps_full ha hai (noOverflow_of_pos hpos hle)]
    rfl

example : reshapeNd exN [3, 2] = some ⟨[3, 2], [2, 1, 0, 1, 2, 1], [4, 5, 3]⟩ := by decide
example : reshapeNd exN [6] = some ⟨[6], [5, 1, 5], [4, 5, 3]⟩ := by decide
example : reshapeNd exN [4, 2] = none := by decide

/-- Without the condition that the new dimensions fit `i64` the stored index wraps to a
negative number (release build). -/
theorem reshape_index_wraps : ∃ (a r : CooNd Int), a.WF ∧ a.I64 ∧
    reshapeNd a [2 ^ 64 - 2 ^ 33] = some r ∧ r.indices = [-(2 ^ 33) - 1] := by
  refine ⟨⟨[2 ^ 33, 2 ^ 31 - 1], [2 ^ 33 - 1, 2 ^ 31 - 2], [5]⟩, _, ?_, ?_, rfl, ?_⟩
  · exact ((coond_fromParts_iff _ _ _ _).1 (show CooNd.fromParts [2 ^ 33, 2 ^ 31 - 1]
      [2 ^ 33 - 1, 2 ^ 31 - 2] [(5 : Int)] true = .ok _ by decide +kernel)).2.2
  · unfold CooNd.I64; decide +kernel
  · decide +kernel

/-! ### C23 -/

theorem mapM_none_of {α β : Type u} {f : α → Option β} {l : List α} {x : α} (hx : x ∈ l)
    (h : f x = none) : l.mapM f = none := by
  induction l with
  | nil => cases hx
  | cons y l ih =>
    rw [List.mapM_cons]
    rcases List.mem_cons.1 hx with rfl | hx
    · rw [h]; rfl
    · rw [ih hx]
      cases f y <;> rfl

theorem perm_range_of {perm : List Nat} {n : Nat} (hl : perm.length = n) (hlt : ∀ p ∈ perm, p < n)
    (hn : perm.Nodup) : perm.Perm (List.range n) := by
  have hsub : perm.Subperm (List.range n) :=
    List.subperm_of_subset hn (fun p hp => by simpa using hlt p hp)
  exact hsub.perm_of_length_le (by simp [hl])

/-- C23: the call returns exactly for permutations of the axes. -/
theorem permute_returns_iff (a : CooNd V) (ha : a.WF) (perm : List Nat) :
    (permuteNd a perm).isSome ↔ perm.Perm (List.range a.shape.length) := by
  constructor
  · intro h
    unfold permuteNd at h
    simp only at h
    by_cases hl : perm.length = a.shape.length
    · rw [if_neg (by simp [hl])] at h
      cases hc : checkAxes a.shape.length perm (List.replicate a.shape.length false) with
      | none => rw [hc] at h; cases h
      | some s' =>
        obtain ⟨h1, h2, -⟩ := (checkAxes_iff a.shape.length perm).1 s' hc
        exact perm_range_of hl h1 h2
    · rw [if_pos hl] at h; cases h
  · intro hp
    unfold permuteNd
    simp only
    have hlt : ∀ p ∈ perm, p < a.shape.length := fun p h => by simpa using hp.mem_iff.1 h
    have hn : perm.Nodup := hp.nodup_iff.2 List.nodup_range
    rw [if_neg (by simpa using hp.length_eq)]
    obtain ⟨s', hs', -⟩ := (checkAxes_iff a.shape.length perm).2 hlt hn
    rw [hs']
    simp only [Option.bind_some]
    rw [mapM_some (g := fun p => a.shape.getD p 0) (fun p hp => by simp [List.getD_eq_getElem?_getD, hlt p hp])]
    simp only [Option.bind_some]
    split
    · rfl
    · rw [mapM_some (g := fun k => perm.map (a.coord k)) (fun k hk =>
        mapM_some (g := a.coord k) (fun p hp => ha.getElem? (by simpa using hk) (hlt p hp)))]
      rfl

theorem permute_eq {a : CooNd V} (ha : a.WF) {perm : List Nat}
    (hp : perm.Perm (List.range a.shape.length)) :
    permuteNd a perm = some (CooNd.ofEntries (perm.map fun p => a.shape.getD p 0)
      (a.entries.map fun e => (select perm e.1, e.2))) := by
  have hlt : ∀ p ∈ perm, p < a.shape.length := fun p h => by simpa using hp.mem_iff.1 h
  have hn : perm.Nodup := hp.nodup_iff.2 List.nodup_range
  unfold permuteNd
  simp only
  rw [if_neg (by simpa using hp.length_eq)]
  obtain ⟨s', hs', -⟩ := (checkAxes_iff a.shape.length perm).2 hlt hn
  rw [hs']
  simp only [Option.bind_some]
  rw [mapM_some (g := fun p => a.shape.getD p 0) (fun p hp => by simp [List.getD_eq_getElem?_getD, hlt p hp])]
  simp only [Option.bind_some]
  have hsel : ∀ k, select perm (a.coords k) = perm.map (a.coord k) := fun k =>
    List.map_congr_left fun p hp => a.coords_getD k p (hlt p hp)
  split
  · rename_i h0
    have : a.entries = [] := by rw [← List.length_eq_zero_iff, CooNd.entries_length, h0]
    rw [this]; rfl
  · rw [mapM_some (g := fun k => perm.map (a.coord k)) (fun k hk =>
      mapM_some (g := a.coord k) (fun p hp => ha.getElem? (by simpa using hk) (hlt p hp)))]
    simp only [Option.bind_some]
    unfold CooNd.ofEntries
    rw [List.map_map, List.flatMap_map, List.flatMap_def]
    have h2 : a.entries.map (Prod.snd ∘ fun e => (select perm e.1, e.2)) = a.data := by
      rw [← CooNd.entries_snd]; rfl
    have h1 : (a.entries.map fun e => select perm e.1) =
        (List.range a.data.length).map fun k => perm.map (a.coord k) := by
      have := congrArg (List.map (select perm)) (CooNd.entries_fst a)
      rw [List.map_map, List.map_map] at this
      rw [show (a.entries.map fun e => select perm e.1) = a.entries.map (select perm ∘ Prod.fst) from rfl, this]
      exact List.map_congr_left fun k _ => hsel k
    rw [h2, h1]

theorem select_inBounds {a : CooNd V} (ha : a.WF) {axes : List Nat} (hlt : ∀ p ∈ axes, p < a.shape.length) :
    ∀ e ∈ a.entries, InBounds (axes.map fun p => a.shape.getD p 0) (select axes e.1) := by
  intro e he
  have hb := ha.entry_bounds e he
  induction axes with
  | nil => exact .nil
  | cons p ps ih =>
    unfold select
    rw [List.map_cons, List.map_cons, inBounds_cons]
    refine ⟨?_, ih (fun q hq => hlt q (by simp [hq]))⟩
    have hp := hlt p (by simp)
    have := hb p hp
    rw [show a.shape.getD p 0 = a.shape[p] by simp [List.getD_eq_getElem?_getD, hp]]
    exact this

theorem select_i64 {a : CooNd V} (hai : a.I64) (axes : List Nat) :
    ∀ e ∈ a.entries, ∀ i ∈ select axes e.1, i ≤ i64Max := by
  intro e he i hi
  obtain ⟨d, _, rfl⟩ := List.mem_map.1 hi
  by_cases hd : d < e.1.length
  · rw [List.getD_eq_getElem?_getD, List.getElem?_eq_getElem hd]
    exact CooNd.WF.entries_i64 hai e he _ (List.getElem_mem hd)
  · rw [List.getD_eq_getElem?_getD, List.getElem?_eq_none (by omega)]
    simp [i64Max]

theorem select_inj {perm : List Nat} {n : Nat} (hp : perm.Perm (List.range n)) {x y : List Int}
    (hx : x.length = n) (hy : y.length = n) (h : select perm x = select perm y) : x = y := by
  have hpt : ∀ d ∈ perm, x.getD d 0 = y.getD d 0 := by
    unfold select at h
    exact List.map_inj_left.1 h
  apply List.ext_getElem (by omega)
  intro i h1 h2
  have := hpt i (hp.mem_iff.2 (by simp; omega))
  simpa [List.getD_eq_getElem?_getD, h1, h2] using this

/-- C23: for a permutation of the axes the call returns the array whose entries are the old
ones in the same order with relabelled coordinates; the value at `x` moves to the index with
components `x[perm[d]]`. -/
theorem permute_correct [Add V] [Zero V] {a : CooNd V} (ha : a.WF) (hai : a.I64) {perm : List Nat}
    (hp : perm.Perm (List.range a.shape.length)) :
    ∃ r, permuteNd a perm = some r ∧ r.shape = perm.map (fun p => a.shape.getD p 0) ∧ r.WF ∧ r.I64 ∧
      r.entries = a.entries.map (fun e => (select perm e.1, e.2)) ∧
      ∀ x, x.length = a.shape.length → r.val (select perm x) = a.val x := by
  have hlt : ∀ p ∈ perm, p < a.shape.length := fun p h => by simpa using hp.mem_iff.1 h
  have hent : (CooNd.ofEntries (perm.map fun p => a.shape.getD p 0)
      (a.entries.map fun e => (select perm e.1, e.2))).entries = a.entries.map fun e => (select perm e.1, e.2) := by
    apply CooNd.entries_ofEntries
    intro e he
    obtain ⟨e', _, rfl⟩ := List.mem_map.1 he
    simp [select]
  refine ⟨_, permute_eq ha hp, rfl, ?_, ?_, hent, ?_⟩
  · apply CooNd.wf_of_inBounds
    · intro h
      have h0 : perm = [] := by simpa using h
      have := hp.length_eq
      rw [h0] at this
      exact ha.rank (List.length_eq_zero_iff.1 (by simpa using this.symm))
    · intro e he
      obtain ⟨e', he', rfl⟩ := List.mem_map.1 he
      exact select_inBounds ha hlt e' he'
  · apply CooNd.i64_ofEntries
    intro e he
    obtain ⟨e', he', rfl⟩ := List.mem_map.1 he
    exact select_i64 hai perm e' he'
  · intro x hx
    unfold CooNd.val
    rw [hent, List.filter_map, List.map_map]
    congr 2
    apply List.filter_congr
    intro e he
    simp only [Function.comp]
    rw [Bool.eq_iff_iff, beq_iff_eq, beq_iff_eq]
    exact ⟨fun h => select_inj hp (CooNd.entries_fst_length a e he) hx h, fun h => by rw [h]⟩

/-- C23: permuting with an inverse permutation restores the identical array. -/
theorem permute_inverse {a r : CooNd V} (ha : a.WF) {perm inv : List Nat}
    (hp : perm.Perm (List.range a.shape.length)) (hi : inv.Perm (List.range a.shape.length))
    (hinv : ∀ d, d < a.shape.length → perm.getD (inv.getD d 0) 0 = d)
    (hr : permuteNd a perm = some r) : permuteNd r inv = some a := by
  have hlen : perm.length = a.shape.length := by simpa using hp.length_eq
  have hilen : inv.length = a.shape.length := by simpa using hi.length_eq
  have hlt : ∀ p ∈ perm, p < a.shape.length := fun p h => by simpa using hp.mem_iff.1 h
  rw [permute_eq ha hp] at hr
  cases hr
  have hrs : (CooNd.ofEntries (perm.map fun p => a.shape.getD p 0)
    (a.entries.map fun e => (select perm e.1, e.2))).shape = perm.map fun p => a.shape.getD p 0 := rfl
  have hent : (CooNd.ofEntries (perm.map fun p => a.shape.getD p 0)
      (a.entries.map fun e => (select perm e.1, e.2))).entries = a.entries.map fun e => (select perm e.1, e.2) := by
    apply CooNd.entries_ofEntries
    intro e he
    obtain ⟨e', _, rfl⟩ := List.mem_map.1 he
    simp [select]
  have hwf : (CooNd.ofEntries (perm.map fun p => a.shape.getD p 0)
      (a.entries.map fun e => (select perm e.1, e.2))).WF := by
    apply CooNd.wf_of_inBounds
    · intro h
      have h0 : perm = [] := by simpa using h
      rw [h0] at hlen
      exact ha.rank (List.length_eq_zero_iff.1 hlen.symm)
    · intro e he
      obtain ⟨e', he', rfl⟩ := List.mem_map.1 he
      exact select_inBounds ha hlt e' he'
  rw [permute_eq hwf (by rw [hrs, List.length_map, hlen]; exact hi), hent, hrs]
  have hcomp : ∀ (β : Type) (l : List β) (dflt : β), l.length = a.shape.length →
      inv.map (fun p => (perm.map fun q => l.getD q dflt).getD p dflt) = l := by
    intro β l dflt hl
    apply List.ext_getElem (by simp [hilen, hl])
    intro d h1 h2
    have hd : d < inv.length := by simpa using h1
    have hin : inv[d] < perm.length := by
      rw [hlen]
      have := hi.mem_iff.1 (List.getElem_mem hd)
      simpa using this
    have hc := hinv d (by omega)
    rw [show inv.getD d 0 = inv[d] by simp [List.getD_eq_getElem?_getD, hd],
      show perm.getD inv[d] 0 = perm[inv[d]] by simp [List.getD_eq_getElem?_getD, hin]] at hc
    simp only [List.getElem_map, List.getD_eq_getElem?_getD, List.getElem?_map,
      List.getElem?_eq_getElem hin, Option.map_some, Option.getD_some, hc,
      List.getElem?_eq_getElem h2]
  rw [hcomp Nat a.shape 0 rfl, List.map_map]
  have : a.entries.map ((fun e : List Int × V => (select inv e.1, e.2)) ∘ fun e => (select perm e.1, e.2))
      = a.entries := by
    conv_rhs => rw [← List.map_id a.entries]
    apply List.map_congr_left
    intro e he
    simp only [Function.comp, id]
    have hl := CooNd.entries_fst_length a e he
    rw [show select inv (select perm e.1) = e.1 from hcomp Int e.1 0 hl]
  rw [this, ← CooNd.eq_ofEntries a ha.length]

example : permuteNd exN [1, 0] = some ⟨[3, 2], [2, 1, 1, 0, 2, 1], [4, 5, 3]⟩ := by decide
example : permuteNd exN [1, 1] = none ∧ permuteNd exN [0] = none ∧ permuteNd exN [0, 2] = none := by decide
example : permuteNd (⟨[2, 3, 4], [1, 2, 3], [7]⟩ : CooNd Int) [2, 0, 1] = some ⟨[4, 2, 3], [3, 1, 2], [7]⟩ ∧
    ∀ d, d < 3 → [2, 0, 1].getD ([1, 2, 0].getD d 0) 0 = d := by decide

/-! ### C24 -/

/-- C24: reducing over a valid set of axes that leaves at least one axis.  The first part is
literal (no algebraic laws): at each remaining index the entries with that remaining index
are added from left to right; entries may sum to zero and are then stored as explicit zeros. -/
theorem reduce_sum_spec [Zero V] [Add V] {sort : List (Nat × V) → List (Nat × V)} (hsort : IsSort sort)
    {a : CooNd V} (ha : a.WF) (hai : a.I64) {axes : List Nat} (hne : axes ≠ [])
    (hlt : ∀ p ∈ axes, p < a.shape.length) (hn : axes.Nodup)
    (hrest : restAxes a.shape.length axes ≠ [])
    (hno : NoOverflow ((restAxes a.shape.length axes).map fun d => a.shape.getD d 0)) :
    ∃ r, reduceSumNd sort a axes = some r ∧
      r.shape = (restAxes a.shape.length axes).map (fun d => a.shape.getD d 0) ∧
      r.WF ∧ r.I64 ∧ r.Sorted ∧
      ∀ y v, (y, v) ∈ r.entries ↔
        total (a.entries.map fun e => (select (restAxes a.shape.length axes) e.1, e.2)) y = some v := by
  have hrlt : ∀ d ∈ restAxes a.shape.length axes, d < a.shape.length := by
    intro d hd
    have := (List.mem_filter.1 hd).1
    simpa using this
  let E := a.entries.map fun e => (select (restAxes a.shape.length axes) e.1, e.2)
  have hEb : ∀ e ∈ E, InBounds ((restAxes a.shape.length axes).map fun d => a.shape.getD d 0) e.1 := by
    intro e he
    obtain ⟨e', he', rfl⟩ := List.mem_map.1 he
    exact select_inBounds ha hrlt e' he'
  have hEi : ∀ e ∈ E, ∀ i ∈ e.1, i ≤ i64Max := by
    intro e he
    obtain ⟨e', he', rfl⟩ := List.mem_map.1 he
    exact select_i64 hai _ e' he'
  obtain ⟨m, hm, L, l1, l2, l3, l4⟩ := collect_spec hsort hno hEb a.data.length
  have hLi := i64_of_total hEi l4
  have hshape : (restAxes a.shape.length axes).map (fun d => a.shape.getD d 0) ≠ [] := by simpa using hrest
  have hrun : reduceSumNd sort a axes =
      some (CooNd.ofEntries ((restAxes a.shape.length axes).map fun d => a.shape.getD d 0) L) := by
    unfold reduceSumNd
    simp only
    rw [if_neg (by simpa using hne)]
    obtain ⟨s', hs', hs''⟩ := (checkAxes_iff a.shape.length axes).2 hlt hn
    rw [hs']
    simp only [Option.bind_some]
    have hrem : (List.range a.shape.length).filter (fun d => !(s'.getD d false)) = restAxes a.shape.length axes := by
      unfold restAxes
      apply List.filter_congr
      intro d _
      rw [hs'']
    rw [hrem, if_neg (by simpa using hrest), stridesPos?_eq hshape hno]
    simp only [Option.bind_some]
    split
    · rename_i h0
      have hE0 : a.entries = [] := by rw [← List.length_eq_zero_iff, CooNd.entries_length, h0]
      have hL0 : L = [] := by
        rw [List.eq_nil_iff_forall_not_mem]
        intro e he
        obtain ⟨v', hv'⟩ := exists_of_total ((l4 e.1 e.2).1 he)
        simp [E, hE0] at hv'
      rw [hL0]; rfl
    · rw [ndOps_eq ha hai hrlt hno]
      simp only [Option.bind_some, id]
      have he : a.entries.map (fun e => (rowMajor ((restAxes a.shape.length axes).map fun d => a.shape.getD d 0)
          ((restAxes a.shape.length axes).map fun d => e.1.getD d 0), e.2)) =
          E.map fun e => (rowMajor ((restAxes a.shape.length axes).map fun d => a.shape.getD d 0) e.1, e.2) := by
        simp only [E, List.map_map]; rfl
      rw [he, hm]
      simp only [Option.bind_some]
      rw [l1, ndBuild_eq l3 hLi]
  have hent : (CooNd.ofEntries ((restAxes a.shape.length axes).map fun d => a.shape.getD d 0) L).entries = L :=
    CooNd.entries_ofEntries _ _ (fun e he => (l3 e he).length)
  refine ⟨_, hrun, rfl, CooNd.wf_of_inBounds hshape l3, CooNd.i64_ofEntries hLi, ?_, ?_⟩
  · unfold CooNd.Sorted; rw [hent]; exact l2
  · intro y v; rw [hent, l4]

/-- Entries projected along axes: the sum at `y` is the dense sum over the fibre of `y`. -/
theorem sum_select [AddCommMonoid V] {a : CooNd V} (ha : a.WF) (axes : List Nat) (y : List Int) :
    (((a.entries.map fun e => (select axes e.1, e.2)).filter fun e => e.1 == y).map Prod.snd).sum =
      (((indicesOf a.shape).filter fun x => select axes x == y).map a.val).sum := by
  rw [List.filter_map, List.map_map]
  have := sum_over_keys_filter (indicesOf a.shape) (indicesOf_nodup _) a.entries
    (fun e he => mem_indicesOf.2 (ha.entries_inBounds e he)) (fun x => select axes x == y)
  exact this.symm

/-- C24: the value at a remaining index is the sum over all inputs that project to it. -/
theorem reduce_sum_correct [AddCommMonoid V] {sort : List (Nat × V) → List (Nat × V)} (hsort : IsSort sort)
    {a : CooNd V} (ha : a.WF) (hai : a.I64) {axes : List Nat} (hne : axes ≠ [])
    (hlt : ∀ p ∈ axes, p < a.shape.length) (hn : axes.Nodup)
    (hrest : restAxes a.shape.length axes ≠ [])
    (hno : NoOverflow ((restAxes a.shape.length axes).map fun d => a.shape.getD d 0)) :
    ∃ r, reduceSumNd sort a axes = some r ∧
      r.shape = (restAxes a.shape.length axes).map (fun d => a.shape.getD d 0) ∧
      r.WF ∧ r.I64 ∧ r.Sorted ∧
      ∀ y, r.val y =
        (((indicesOf a.shape).filter fun x => select (restAxes a.shape.length axes) x == y).map a.val).sum := by
  obtain ⟨r, h1, h2, h3, h4, h5, h6⟩ := reduce_sum_spec hsort ha hai hne hlt hn hrest hno
  refine ⟨r, h1, h2, h3, h4, h5, fun y => ?_⟩
  rw [mem_entries_nodup_val h5 (h6 y), total_getD, sum_select ha]

/-- C24: invalid axis lists are rejected. -/
theorem reduce_sum_rejects [Zero V] [Add V] (sort : List (Nat × V) → List (Nat × V)) (a : CooNd V)
    (axes : List Nat) (h : axes = [] ∨ (∃ p ∈ axes, ¬ p < a.shape.length) ∨ ¬ axes.Nodup ∨
      restAxes a.shape.length axes = []) : reduceSumNd sort a axes = none := by
  unfold reduceSumNd
  simp only
  by_cases hne : axes = []
  · rw [if_pos (by simpa using hne)]
  rw [if_neg (by simpa using hne)]
  cases hc : checkAxes a.shape.length axes (List.replicate a.shape.length false) with
  | none => rfl
  | some s' =>
    obtain ⟨h1, h2, h3⟩ := (checkAxes_iff a.shape.length axes).1 s' hc
    have hrem : (List.range a.shape.length).filter (fun d => !(s'.getD d false)) = restAxes a.shape.length axes := by
      unfold restAxes
      exact List.filter_congr fun d _ => by rw [h3]
    simp only [Option.bind_some]
    rw [hrem]
    rcases h with h | ⟨p, hp, hp'⟩ | h | h
    · exact absurd h hne
    · exact absurd (h1 p hp) hp'
    · exact absurd h2 h
    · rw [if_pos (by simpa using h)]

/-- C24: the mean divides the sum by the number of reduced cells. -/
theorem reduce_mean_correct [Field V] [BEq V] [LawfulBEq V] {sort : List (Nat × V) → List (Nat × V)}
    (hsort : IsSort sort) {a : CooNd V} (ha : a.WF) (hai : a.I64) {axes : List Nat} (hne : axes ≠ [])
    (hlt : ∀ p ∈ axes, p < a.shape.length) (hn : axes.Nodup)
    (hrest : restAxes a.shape.length axes ≠ [])
    (hno : NoOverflow ((restAxes a.shape.length axes).map fun d => a.shape.getD d 0))
    (hpos : 0 < a.shape.prod)
    (hcount : (((List.range a.shape.length).filter fun d => axes.contains d).map fun d => a.shape.getD d 0).prod ≤ usizeMax) :
    ∃ r, reduceMeanNd sort a axes = some r ∧
      r.shape = (restAxes a.shape.length axes).map (fun d => a.shape.getD d 0) ∧
      ∀ y, r.val y =
        (((indicesOf a.shape).filter fun x => select (restAxes a.shape.length axes) x == y).map a.val).sum /
          ((((List.range a.shape.length).filter fun d => axes.contains d).map fun d => a.shape.getD d 0).prod : Nat) := by
  obtain ⟨r, h1, h2, h3, h4, h5, h6⟩ := reduce_sum_correct hsort ha hai hne hlt hn hrest hno
  generalize hden : ((List.range a.shape.length).filter fun d => axes.contains d).map (fun d => a.shape.getD d 0) = den at hcount
  have hdpos : 0 < den.prod := by
    have hall : ∀ s ∈ a.shape, 0 < s := pos_of_prod_pos hpos
    have : ∀ s ∈ den, 0 < s := by
      intro s hs
      rw [← hden] at hs
      obtain ⟨d, hd, rfl⟩ := List.mem_map.1 hs
      have hd' : d < a.shape.length := by simpa using (List.mem_filter.1 hd).1
      rw [List.getD_eq_getElem?_getD, List.getElem?_eq_getElem hd']
      exact hall _ (List.getElem_mem hd')
    clear hcount hden
    induction den with
    | nil => simp
    | cons s den ih =>
      rw [List.prod_cons]
      exact Nat.mul_pos (this s (by simp)) (ih (fun t ht => this t (by simp [ht])))
  have hpc : productChecked den = some den.prod := by
    have := productChecked_of_pos den 1 hdpos (by omega)
    rwa [Nat.one_mul] at this
  unfold reduceMeanNd
  rw [h1]
  simp only [Option.bind_some]
  rw [hden, hpc]
  simp only [Option.bind_some]
  by_cases h1' : den.prod = 1
  · rw [if_pos h1']
    refine ⟨r, rfl, h2, fun y => ?_⟩
    rw [h6 y, h1']; simp
  · rw [if_neg h1']
    refine ⟨_, rfl, h2, fun y => ?_⟩
    rw [(mulScalar_coond_correct r _).2.2 y, h6 y, mul_one_div]

example : restAxes 2 [0] = [1] ∧ [0] ≠ [] ∧ NoOverflow ([1].map fun d => exN.shape.getD d 0) :=
  ⟨rfl, by decide, noOverflow_of_pos (by decide) (by decide)⟩
example : ((indicesOf [2, 3]).filter fun x => select [1] x == [2]) = [[0, 2], [1, 2]] := by decide

end Lacuna
