import Verif.Spec.Dense
import Mathlib.Data.List.GetD
namespace Lacuna
universe u
variable {V : Type u}

/-- Reading a concatenation of equally long lists. -/
theorem getD_flatten_uniform {α : Type u} {n : Nat} (L : List (List α)) (hL : ∀ l ∈ L, l.length = n)
    (dflt : α) (k d : Nat) (hk : k < L.length) (hd : d < n) :
    L.flatten.getD (k * n + d) dflt = (L.getD k []).getD d dflt := by
  induction L generalizing k with
  | nil => simp at hk
  | cons l L ih =>
    have hl : l.length = n := hL l (by simp)
    rw [List.flatten_cons]
    cases k with
    | zero =>
      rw [List.getD_append _ _ _ _ (by omega)]
      simp
    | succ k =>
      have e : (k + 1) * n + d = n + (k * n + d) := by rw [Nat.add_mul]; omega
      rw [List.getD_append_right _ _ _ _ (by rw [hl, e]; omega)]
      rw [hl, e, Nat.add_sub_cancel_left, ih (fun l' h' => hL l' (by simp [h'])) k (by simpa using hk)]
      simp

theorem length_flatten_uniform {α : Type u} {n : Nat} (L : List (List α)) (hL : ∀ l ∈ L, l.length = n) :
    L.flatten.length = L.length * n := by
  induction L with
  | nil => simp
  | cons l L ih =>
    rw [List.flatten_cons, List.length_append, ih (fun l' h' => hL l' (by simp [h'])), hL l (by simp)]
    simp [Nat.add_mul, Nat.add_comm]

/-- The array storing the given entries in the given order. -/
def CooNd.ofEntries (shape : List Nat) (L : List (List Int × V)) : CooNd V :=
  ⟨shape, L.flatMap Prod.fst, L.map Prod.snd⟩

theorem map_range_getD_self {α : Type u} (l : List α) (d : α) (n : Nat) (h : l.length = n) :
    (List.range n).map (fun i => l.getD i d) = l := by
  apply List.ext_getElem
  · simp [h]
  · intro i h1 h2
    simp [List.getD_eq_getElem?_getD, h2]

theorem CooNd.entries_ofEntries (shape : List Nat) (L : List (List Int × V))
    (hL : ∀ e ∈ L, e.1.length = shape.length) : (CooNd.ofEntries shape L).entries = L := by
  unfold CooNd.entries
  have h1 : (List.range (CooNd.ofEntries shape L).data.length).map (CooNd.ofEntries shape L).coords
      = L.map Prod.fst := by
    apply List.ext_getElem
    · simp [CooNd.ofEntries]
    · intro k h1 h2
      simp only [List.getElem_map, List.getElem_range]
      unfold CooNd.coords
      have hk : k < L.length := by simpa using h2
      have hlen : (L[k].1).length = shape.length := hL _ (List.getElem_mem hk)
      have : ∀ d ∈ List.range shape.length,
          (CooNd.ofEntries shape L).coord k d = L[k].1.getD d 0 := by
        intro d hd
        unfold CooNd.coord CooNd.ofEntries
        rw [List.flatMap_def]
        rw [getD_flatten_uniform (n := shape.length) _ (by
          intro l hl
          obtain ⟨e, he, rfl⟩ := List.mem_map.1 hl
          exact hL e he) 0 k d (by simpa using hk) (by simpa using hd)]
        simp [hk]
      rw [show (CooNd.ofEntries shape L).shape = shape from rfl, List.map_congr_left this,
        map_range_getD_self _ _ _ hlen]
  rw [h1]
  show (L.map Prod.fst).zip (L.map Prod.snd) = L
  induction L with
  | nil => rfl
  | cons e L ih =>
    simp only [List.map_cons, List.zip_cons_cons]
    congr 1
    have hL' : ∀ e ∈ L, e.1.length = shape.length := fun e he => hL e (by simp [he])
    clear h1 ih hL
    induction L with
    | nil => rfl
    | cons e L ih => simp_all

theorem CooNd.coords_length (a : CooNd V) (k : Nat) : (a.coords k).length = a.shape.length := by
  simp [CooNd.coords]

theorem CooNd.entries_fst_length (a : CooNd V) : ∀ e ∈ a.entries, e.1.length = a.shape.length := by
  intro e he
  have := (List.of_mem_zip (show (e.1, e.2) ∈ _ from he)).1
  obtain ⟨k, _, hk⟩ := List.mem_map.1 this
  rw [← hk, CooNd.coords_length]

theorem CooNd.entries_length (a : CooNd V) : a.entries.length = a.data.length := by
  simp [CooNd.entries]

theorem CooNd.entries_snd (a : CooNd V) : a.entries.map Prod.snd = a.data := by
  unfold CooNd.entries
  rw [List.map_snd_zip (by simp)]

theorem CooNd.entries_fst (a : CooNd V) :
    a.entries.map Prod.fst = (List.range a.data.length).map a.coords := by
  unfold CooNd.entries
  rw [List.map_fst_zip (by simp)]

/-- An array with the right number of indices is determined by its shape and entries. -/
theorem CooNd.eq_ofEntries (a : CooNd V) (h : a.indices.length = a.data.length * a.shape.length) :
    a = CooNd.ofEntries a.shape a.entries := by
  have hi : a.entries.flatMap Prod.fst = a.indices := by
    rw [List.flatMap_def, CooNd.entries_fst]
    apply List.ext_getElem
    · rw [length_flatten_uniform (n := a.shape.length) _ (by
        intro l hl
        obtain ⟨k, _, rfl⟩ := List.mem_map.1 hl
        exact a.coords_length k)]
      simp [h]
    · intro p h1 h2
      have hs : 0 < a.shape.length := by
        rcases Nat.eq_zero_or_pos a.shape.length with h0 | h0
        · rw [h, h0] at h2; simp at h2
        · exact h0
      have hk : p / a.shape.length < a.data.length := by
        rw [Nat.div_lt_iff_lt_mul hs]; omega
      have hd : p % a.shape.length < a.shape.length := Nat.mod_lt _ hs
      have hp : p = (p / a.shape.length) * a.shape.length + p % a.shape.length := by
        rw [Nat.mul_comm]; exact (Nat.div_add_mod p _).symm
      have e := getD_flatten_uniform (n := a.shape.length)
        ((List.range a.data.length).map a.coords) (by
          intro l hl
          obtain ⟨k, _, rfl⟩ := List.mem_map.1 hl
          exact a.coords_length k) 0 (p / a.shape.length) (p % a.shape.length)
          (by simpa using hk) hd
      rw [← hp] at e
      have e1 : ((List.range a.data.length).map a.coords).flatten.getD p 0
          = ((List.range a.data.length).map a.coords).flatten[p] := by
        simp [List.getD_eq_getElem?_getD, List.getElem?_eq_getElem h1]
      rw [← e1, e]
      simp only [List.getD_eq_getElem?_getD, List.getElem?_map, List.getElem?_range hk,
        Option.map_some, Option.getD_some, CooNd.coords, List.getElem?_range hd]
      unfold CooNd.coord
      rw [← hp]
      simp [List.getD_eq_getElem?_getD, h2]
  unfold CooNd.ofEntries
  rw [hi, CooNd.entries_snd]

/-- Well-formedness of an array given by entries. -/
theorem CooNd.wf_ofEntries {shape : List Nat} {L : List (List Int × V)} (hs : shape ≠ [])
    (hL : ∀ e ∈ L, e.1.length = shape.length)
    (hb : ∀ e ∈ L, ∀ d, (h : d < shape.length) → 0 ≤ e.1.getD d 0 ∧ e.1.getD d 0 < shape[d]) :
    (CooNd.ofEntries shape L).WF where
  rank := hs
  length := by
    simp only [CooNd.ofEntries, List.flatMap_def]
    rw [length_flatten_uniform (n := shape.length) _ (by
      intro l hl
      obtain ⟨e, he, rfl⟩ := List.mem_map.1 hl
      exact hL e he)]
    simp
  bounds := by
    intro k hk d hd
    have hk' : k < L.length := by simpa [CooNd.ofEntries] using hk
    have : (CooNd.ofEntries shape L).coord k d = L[k].1.getD d 0 := by
      unfold CooNd.coord CooNd.ofEntries
      rw [List.flatMap_def]
      rw [getD_flatten_uniform (n := shape.length) _ (by
        intro l hl
        obtain ⟨e, he, rfl⟩ := List.mem_map.1 hl
        exact hL e he) 0 k d (by simpa using hk') hd]
      simp [hk']
    rw [this]
    exact hb _ (List.getElem_mem hk') d hd

/-- Entries of a well-formed array are in bounds. -/
theorem CooNd.WF.entry_bounds {a : CooNd V} (h : a.WF) : ∀ e ∈ a.entries, ∀ d,
    (hd : d < a.shape.length) → 0 ≤ e.1.getD d 0 ∧ e.1.getD d 0 < a.shape[d] := by
  intro e he d hd
  have := (List.of_mem_zip (show (e.1, e.2) ∈ _ from he)).1
  obtain ⟨k, hk, hk'⟩ := List.mem_map.1 this
  rw [← hk']
  have : (a.coords k).getD d 0 = a.coord k d := by
    simp [CooNd.coords, List.getD_eq_getElem?_getD, hd]
  rw [this]
  exact h.bounds k (by simpa using hk) d hd

end Lacuna
