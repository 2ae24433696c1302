import Verif.Model.Scalar
import Verif.Lemmas.Val
import Mathlib.Algebra.Ring.Defs
namespace Lacuna
universe u v
variable {V : Type u}

theorem map4_eq (f : V → V) (l : List V) : map4 f l = l.map f := by
  fun_induction map4 f l <;> simp_all

theorem chunksOf_flatten {α : Type u} {k : Nat} (hk : 0 < k) (l : List α) :
    (chunksOf k l).flatten = l := by
  fun_induction chunksOf k l with
  | case1 l h => rcases h with h | h <;> simp_all
  | case2 l h ih => simp [ih]

theorem flatMap_chunks {α : Type u} {β : Type v} {k : Nat} (hk : 0 < k) (f : α → β) (l : List α) :
    (chunksOf k l).flatMap (fun c => c.map f) = l.map f := by
  rw [List.flatMap_def, ← List.map_flatten, chunksOf_flatten hk]

theorem simdMapData_eq (f : V → V) (l : List V) : simdMapData f l = l.map f := by
  unfold simdMapData
  split
  · exact map4_eq f l
  · rw [show (map4 f) = (fun c => c.map f) from funext (map4_eq f), flatMap_chunks (by decide)]

theorem chunkMapData_eq (f : V → V) (l : List V) : chunkMapData f l = l.map f :=
  flatMap_chunks (by decide) f l

/-! ### Replacing the value array by its image -/

/-- The same pattern with every stored value replaced by `f v`. -/
def Comp.mapData (f : V → V) (a : Comp V) : Comp V := { a with data := a.data.map f }

theorem Comp.entries_mapData (f : V → V) (a : Comp V) :
    (a.mapData f).entries = a.entries.map (fun e => (e.1, f e.2)) := by
  simp only [Comp.entries, Comp.mapData, List.zip_map_right]
  rfl

theorem Comp.row_mapData (f : V → V) (a : Comp V) (i : Nat) :
    (a.mapData f).row i = (a.row i).map (fun e => (e.1, f e.2)) := by
  unfold Comp.row
  rw [Comp.entries_mapData, List.map_take, List.map_drop]
  rfl

theorem lk_map (f : V → V) (j : Int) (r : Row V) :
    lk j (r.map (fun e => (e.1, f e.2))) = (lk j r).map f := by
  induction r with
  | nil => rfl
  | cons e r ih =>
    obtain ⟨k, x⟩ := e
    rw [List.map_cons, lk_cons, lk_cons]
    split <;> simp_all

theorem Comp.stored_mapData (f : V → V) (a : Comp V) (i j : Nat) :
    (a.mapData f).stored i j = (a.stored i j).map f := by
  rw [Comp.stored_eq_lk, Comp.stored_eq_lk, Comp.row_mapData, lk_map]

theorem Comp.WF.mapData {a : Comp V} (h : a.WF) (f : V → V) : (a.mapData f).WF :=
  { ptr_length := h.ptr_length
    data_length := by simpa [Comp.mapData] using h.data_length
    ptr_first := h.ptr_first
    ptr_last := h.ptr_last
    ptr_mono := h.ptr_mono
    bounds := h.bounds
    sorted := h.sorted
    i64 := h.i64 }

theorem Comp.WF.val_mapData [AddZeroClass V] {a : Comp V} (h : a.WF) {f : V → V} (h0 : f 0 = 0)
    (i j : Nat) : (a.mapData f).val i j = f (a.val i j) := by
  rw [(h.mapData f).val_eq_stored, h.val_eq_stored, Comp.stored_mapData]
  cases a.stored i j <;> simp [h0]

theorem sum_map_mul_right' [NonUnitalNonAssocSemiring V] (l : List V) (c : V) :
    (l.map (fun v => v * c)).sum = l.sum * c := by
  induction l with
  | nil => simp
  | cons x l ih => simp [ih, add_mul]

theorem filter_map_pair {K : Type v} (p : K → Bool) (f : V → V) (l : List (K × V)) :
    ((l.map (fun e => (e.1, f e.2))).filter (fun e => p e.1)).map Prod.snd
      = ((l.filter (fun e => p e.1)).map Prod.snd).map f := by
  induction l with
  | nil => rfl
  | cons e l ih =>
    simp only [List.map_cons, List.filter_cons]
    split <;> simp_all

theorem Comp.val_mapData_mul [NonUnitalNonAssocSemiring V] (a : Comp V) (c : V) (i j : Nat) :
    (a.mapData (fun v => v * c)).val i j = a.val i j * c := by
  unfold Comp.val
  rw [Comp.row_mapData, filter_map_pair (fun k => k == (j : Int)) (fun v => v * c), sum_map_mul_right']

theorem Coo.triples_mapData (a : Coo V) (f : V → V) :
    ({ a with data := a.data.map f } : Coo V).triples
      = a.triples.map (fun e => (e.1, f e.2)) := by
  simp only [Coo.triples, List.zip_map_right]
  rfl

theorem CooNd.entries_mapData (a : CooNd V) (f : V → V) :
    ({ a with data := a.data.map f } : CooNd V).entries
      = a.entries.map (fun e => (e.1, f e.2)) := by
  simp only [CooNd.entries, List.length_map]
  rw [show ((List.range a.data.length).map ({ a with data := a.data.map f } : CooNd V).coords)
    = (List.range a.data.length).map a.coords from rfl, List.zip_map_right]
  rfl

/-- With distinct keys at most one entry is summed. -/
theorem keyed_sum_map [AddZeroClass V] {K : Type v} [BEq K] [LawfulBEq K] {l : List (K × V)}
    (hn : (l.map Prod.fst).Nodup) {f : V → V} (h0 : f 0 = 0) (p : K → Bool)
    (hp : ∀ x y, p x = true → p y = true → x = y) :
    (((l.map (fun e => (e.1, f e.2))).filter (fun e => p e.1)).map Prod.snd).sum
      = f (((l.filter (fun e => p e.1)).map Prod.snd).sum) := by
  induction l with
  | nil => simp [h0]
  | cons e l ih =>
    rw [List.map_cons, List.nodup_cons] at hn
    simp only [List.map_cons, List.filter_cons]
    by_cases he : p e.1
    · rw [if_pos he, if_pos he]
      have hnil : l.filter (fun e => p e.1) = [] := by
        rw [List.filter_eq_nil_iff]
        intro e' he' hp'
        exact hn.1 (by rw [hp _ _ he hp']; exact List.mem_map_of_mem he')
      rw [List.map_cons, filter_map_pair p, List.map_cons, hnil]
      simp
    · rw [if_neg he, if_neg he]; exact ih hn.2

end Lacuna
