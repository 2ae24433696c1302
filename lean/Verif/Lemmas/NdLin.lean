import Verif.Spec.Nd
import Verif.Model.Nd
import Verif.Lemmas.Nd
import Mathlib.Data.List.Forall2
namespace Lacuna
universe u w
variable {V : Type u}

/-! ### Row-major linearisation -/

/-- Products of the trailing dimensions. -/
def sufProds : List Nat → List Nat
  | [] => []
  | _ :: ss => ss.prod :: sufProds ss

theorem sufProds_length (shape : List Nat) : (sufProds shape).length = shape.length := by
  induction shape with
  | nil => rfl
  | cons s ss ih => simp [sufProds, ih]

theorem NoOverflow.tail {s : Nat} {ss : List Nat} (h : NoOverflow (s :: ss)) : NoOverflow ss :=
  fun t ht => h t (ht.trans (List.suffix_cons s ss))

theorem checkedMul_eq {a b : Nat} (h : a * b ≤ usizeMax) : checkedMul a b = some (a * b) := if_pos h
theorem checkedAdd_eq {a b : Nat} (h : a + b ≤ usizeMax) : checkedAdd a b = some (a + b) := if_pos h

theorem strides?_eq {shape : List Nat} (h : NoOverflow shape) :
    strides? shape = some (sufProds shape) := by
  match shape, h with
  | [], _ => rfl
  | [_], _ => rfl
  | s :: d :: rest, h =>
    rw [strides?, strides?_eq h.tail]
    have := h.tail (d :: rest) (List.suffix_refl _)
    rw [List.prod_cons] at this
    simp only [Option.bind_some, sufProds, List.headD_cons]
    rw [checkedMul_eq (by rw [Nat.mul_comm]; exact this)]
    simp [List.prod_cons, Nat.mul_comm]

theorem InBounds.length {shape : List Nat} {x : List Int} (h : InBounds shape x) :
    x.length = shape.length := List.Forall₂.length_eq h

theorem inBounds_cons {s : Nat} {ss : List Nat} {i : Int} {is : List Int} :
    InBounds (s :: ss) (i :: is) ↔ (0 ≤ i ∧ i < s) ∧ InBounds ss is := by
  unfold InBounds; exact List.forall₂_cons

theorem rowMajor_lt {shape : List Nat} {x : List Int} (h : InBounds shape x) :
    rowMajor shape x < shape.prod := by
  induction shape generalizing x with
  | nil => cases h; simp [rowMajor]
  | cons s ss ih =>
    cases x with
    | nil => cases h
    | cons i is =>
      rw [inBounds_cons] at h
      have := ih h.2
      rw [rowMajor, List.prod_cons]
      have h1 : i.toNat + 1 ≤ s := by omega
      calc i.toNat * ss.prod + rowMajor ss is < i.toNat * ss.prod + ss.prod := by omega
        _ = (i.toNat + 1) * ss.prod := by rw [Nat.add_mul, Nat.one_mul]
        _ ≤ s * ss.prod := Nat.mul_le_mul_right _ h1

theorem delin_rowMajor {shape : List Nat} {x : List Int} (h : InBounds shape x) :
    delin (sufProds shape) (rowMajor shape x) = x.map Int.toNat := by
  induction shape generalizing x with
  | nil => cases h; rfl
  | cons s ss ih =>
    cases x with
    | nil => cases h
    | cons i is =>
      rw [inBounds_cons] at h
      have hlt := rowMajor_lt h.2
      have hd : (i.toNat * ss.prod + rowMajor ss is) / ss.prod = i.toNat := by
        rw [Nat.mul_comm, Nat.mul_add_div (by omega), Nat.div_eq_of_lt hlt, Nat.add_zero]
      simp only [rowMajor, sufProds, delin, hd, List.map_cons]
      rw [Nat.add_sub_cancel_left, ih h.2]

theorem rowMajor_lt_iff {shape : List Nat} {x y : List Int} (hx : InBounds shape x)
    (hy : InBounds shape y) : rowMajor shape x < rowMajor shape y ↔ x < y := by
  induction shape generalizing x y with
  | nil => cases hx; cases hy; simp [rowMajor]
  | cons s ss ih =>
    cases x with
    | nil => cases hx
    | cons i is =>
      cases y with
      | nil => cases hy
      | cons j js =>
        rw [inBounds_cons] at hx hy
        have h1 := rowMajor_lt hx.2
        have h2 := rowMajor_lt hy.2
        rw [List.cons_lt_cons_iff, ← ih hx.2 hy.2, rowMajor, rowMajor]
        rcases Int.lt_trichotomy i j with h | h | h
        · have : i.toNat + 1 ≤ j.toNat := by omega
          have := Nat.mul_le_mul_right ss.prod this
          rw [Nat.add_mul, Nat.one_mul] at this
          constructor
          · intro _; exact .inl h
          · intro _; omega
        · subst h
          constructor
          · intro h'; exact .inr ⟨rfl, by omega⟩
          · rintro (h' | ⟨_, h'⟩) <;> omega
        · have : j.toNat + 1 ≤ i.toNat := by omega
          have := Nat.mul_le_mul_right ss.prod this
          rw [Nat.add_mul, Nat.one_mul] at this
          constructor
          · intro _; omega
          · rintro (h' | ⟨h', _⟩) <;> omega

theorem InBounds.nonneg {shape : List Nat} {x : List Int} (h : InBounds shape x) : ∀ i ∈ x, 0 ≤ i := by
  induction shape generalizing x with
  | nil => cases h; simp
  | cons s ss ih =>
    cases x with
    | nil => cases h
    | cons i is =>
      rw [inBounds_cons] at h
      intro k hk
      rcases List.mem_cons.1 hk with rfl | hk
      · exact h.1.1
      · exact ih h.2 k hk

theorem map_toNat_inj {x y : List Int} (hx : ∀ i ∈ x, 0 ≤ i) (hy : ∀ i ∈ y, 0 ≤ i)
    (h : x.map Int.toNat = y.map Int.toNat) : x = y := by
  induction x generalizing y with
  | nil => cases y with
    | nil => rfl
    | cons _ _ => cases h
  | cons i is ih => cases y with
    | nil => cases h
    | cons j js =>
      simp only [List.map_cons, List.cons.injEq] at h
      have := hx i (by simp); have := hy j (by simp)
      rw [ih (fun k hk => hx k (by simp [hk])) (fun k hk => hy k (by simp [hk])) h.2]
      congr 1; omega

theorem rowMajor_inj {shape : List Nat} {x y : List Int} (hx : InBounds shape x)
    (hy : InBounds shape y) (h : rowMajor shape x = rowMajor shape y) : x = y := by
  apply map_toNat_inj hx.nonneg hy.nonneg
  rw [← delin_rowMajor hx, ← delin_rowMajor hy, h]

theorem map_usizeToI64 {x : List Int} (h0 : ∀ i ∈ x, 0 ≤ i) (h1 : ∀ i ∈ x, i ≤ i64Max) :
    (x.map Int.toNat).map usizeToI64 = x := by
  induction x with
  | nil => rfl
  | cons i is ih =>
    simp only [List.map_cons]
    rw [ih (fun k hk => h0 k (by simp [hk])) (fun k hk => h1 k (by simp [hk]))]
    have := h0 i (by simp); have := h1 i (by simp)
    congr 1
    unfold usizeToI64
    rw [if_pos (by omega)]; omega

/-- The linearisation loop over the given axes computes the row-major position of the
selected coordinates and never overflows. -/
theorem linAxes_eq {indices : List Int} {base : Nat} {axes shape : List Nat} {x : List Int}
    (hx : InBounds shape x) (hno : NoOverflow shape)
    (hr : axes.map (fun d => indices[base + d]?) = x.map some) (lin : Nat)
    (hlin : lin + shape.prod ≤ usizeMax + 1) (hfit : ∀ i ∈ x, i < 2 ^ 64) :
    linAxes indices base (axes.zip (sufProds shape)) lin = some (lin + rowMajor shape x) := by
  induction shape generalizing x axes lin with
  | nil =>
    cases hx
    cases axes with
    | nil => simp [sufProds, linAxes, rowMajor]
    | cons _ _ => cases hr
  | cons s ss ih =>
    cases x with
    | nil => cases hx
    | cons i is =>
      cases axes with
      | nil => cases hr
      | cons d ds =>
        rw [inBounds_cons] at hx
        simp only [List.map_cons, List.cons.injEq] at hr
        have hlt := rowMajor_lt hx.2
        have hc : i64ToUsize i = i.toNat := by
          unfold i64ToUsize
          rw [Int.emod_eq_of_lt hx.1.1 (by have := hfit i (by simp); omega)]
        have h1 : i.toNat + 1 ≤ s := by omega
        have h2 := Nat.mul_le_mul_right ss.prod h1
        rw [Nat.add_mul, Nat.one_mul] at h2
        rw [List.prod_cons] at hlin
        have hpos : 0 < ss.prod := by omega
        simp only [sufProds, List.zip_cons_cons, linAxes, hr.1, Option.bind_some, hc]
        rw [checkedMul_eq (by omega)]
        simp only [Option.bind_some]
        rw [checkedAdd_eq (by omega)]
        simp only [Option.bind_some]
        rw [ih hx.2 hno.tail hr.2 (lin + i.toNat * ss.prod) (by omega)
          (fun k hk => hfit k (by simp [hk])), rowMajor]
        congr 1; omega

theorem mapM_some {α : Type w} {β : Type u} {f : α → Option β} {g : α → β} {l : List α}
    (h : ∀ x ∈ l, f x = some (g x)) : l.mapM f = some (l.map g) := by
  induction l with
  | nil => rfl
  | cons x l ih =>
    rw [List.mapM_cons, h x (by simp), ih (fun y hy => h y (by simp [hy]))]
    rfl

/-- The stored entries, by position. -/
theorem CooNd.entries_zipIdx (a : CooNd V) :
    a.entries = a.data.zipIdx.map fun e => (a.coords e.2, e.1) := by
  unfold CooNd.entries
  apply List.ext_getElem
  · simp
  · intro k h1 h2
    simp

theorem CooNd.entries_mem_idx {a : CooNd V} {v : V} {k : Nat} (h : (v, k) ∈ a.data.zipIdx) :
    k < a.data.length ∧ (a.coords k, v) ∈ a.entries := by
  refine ⟨by have := List.snd_lt_of_mem_zipIdx h; simpa using this, ?_⟩
  rw [CooNd.entries_zipIdx]
  exact List.mem_map.2 ⟨(v, k), h, rfl⟩

theorem CooNd.WF.getElem? {a : CooNd V} (h : a.WF) {k d : Nat} (hk : k < a.data.length)
    (hd : d < a.shape.length) : a.indices[k * a.shape.length + d]? = some (a.coord k d) := by
  have hlt : k * a.shape.length + d < a.indices.length := by
    rw [h.length]
    have := Nat.mul_le_mul_right a.shape.length (show k + 1 ≤ a.data.length from hk)
    rw [Nat.add_mul, Nat.one_mul] at this
    omega
  unfold CooNd.coord
  simp [List.getD_eq_getElem?_getD, List.getElem?_eq_getElem hlt]

theorem CooNd.coords_getD (a : CooNd V) (k d : Nat) (hd : d < a.shape.length) :
    (a.coords k).getD d 0 = a.coord k d := by
  simp [CooNd.coords, List.getD_eq_getElem?_getD, hd]

theorem CooNd.I64.coord {a : CooNd V} (h : a.I64) (k d : Nat) : a.coord k d ≤ i64Max := by
  unfold CooNd.coord
  by_cases hlt : k * a.shape.length + d < a.indices.length
  · rw [List.getD_eq_getElem?_getD, List.getElem?_eq_getElem hlt]
    exact h _ (List.getElem_mem hlt)
  · rw [List.getD_eq_getElem?_getD, List.getElem?_eq_none (by omega)]
    simp [i64Max]

/-- In-boundedness of a selection of axes. -/
theorem CooNd.WF.inBounds_axes {a : CooNd V} (h : a.WF) {k : Nat} (hk : k < a.data.length)
    {axes : List Nat} (hax : ∀ d ∈ axes, d < a.shape.length) :
    InBounds (axes.map fun d => a.shape.getD d 0) (axes.map (a.coord k)) := by
  induction axes with
  | nil => exact .nil
  | cons d ds ih =>
    rw [List.map_cons, List.map_cons, inBounds_cons]
    refine ⟨?_, ih (fun d' hd' => hax d' (by simp [hd']))⟩
    have hd := hax d (by simp)
    have := h.bounds k hk d hd
    rw [List.getD_eq_getElem?_getD, List.getElem?_eq_getElem hd]
    exact this

theorem range_map_getD {α : Type w} (l : List α) (x : α) : (List.range l.length).map (fun d => l.getD d x) = l := by
  apply List.ext_getElem
  · simp
  · intro i h1 h2
    simp [List.getD_eq_getElem?_getD, h2]

theorem CooNd.WF.inBounds {a : CooNd V} (h : a.WF) {k : Nat} (hk : k < a.data.length) :
    InBounds a.shape (a.coords k) := by
  have := h.inBounds_axes hk (axes := List.range a.shape.length) (by simp)
  rwa [range_map_getD] at this

theorem CooNd.WF.entries_inBounds {a : CooNd V} (h : a.WF) : ∀ e ∈ a.entries, InBounds a.shape e.1 := by
  intro e he
  rw [CooNd.entries_zipIdx] at he
  obtain ⟨p, hp, rfl⟩ := List.mem_map.1 he
  exact h.inBounds (CooNd.entries_mem_idx (v := p.1) (k := p.2) hp).1

theorem CooNd.WF.entries_i64 {a : CooNd V} (h : a.I64) : ∀ e ∈ a.entries, ∀ i ∈ e.1, i ≤ i64Max := by
  intro e he i hi
  rw [CooNd.entries_zipIdx] at he
  obtain ⟨p, _, rfl⟩ := List.mem_map.1 he
  obtain ⟨d, _, rfl⟩ := List.mem_map.1 hi
  exact h.coord _ _

/-- The accumulation loop linearises the selected coordinates of every entry. -/
theorem ndOps_eq {a : CooNd V} (h : a.WF) (hi : a.I64) {axes : List Nat}
    (hax : ∀ d ∈ axes, d < a.shape.length)
    (hno : NoOverflow (axes.map fun d => a.shape.getD d 0)) (f : V → V) :
    ndOps a (axes.zip (sufProds (axes.map fun d => a.shape.getD d 0))) f =
      some (a.entries.map fun e => (rowMajor (axes.map fun d => a.shape.getD d 0)
        (axes.map fun d => e.1.getD d 0), f e.2)) := by
  unfold ndOps
  rw [CooNd.entries_zipIdx, List.map_map]
  apply mapM_some
  rintro ⟨v, k⟩ he
  have hk := (CooNd.entries_mem_idx he).1
  have hm : axes.map (fun d => (a.coords k).getD d 0) = axes.map (a.coord k) :=
    List.map_congr_left fun d hd => a.coords_getD k d (hax d hd)
  simp only [Function.comp]
  rw [hm, linAxes_eq (x := axes.map (a.coord k)) (h.inBounds_axes hk hax) hno (by
      rw [List.map_map]
      exact List.map_congr_left fun d hd => h.getElem? hk (hax d hd)) 0 (by
      have := hno _ (List.suffix_refl _); omega) (by
      intro i hi'
      obtain ⟨d, _, rfl⟩ := List.mem_map.1 hi'
      have := hi.coord k d
      unfold i64Max at this; omega)]
  simp

end Lacuna
