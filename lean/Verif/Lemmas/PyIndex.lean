import Verif.Model.PyIndex
import Verif.Spec.PyIndex
import Verif.Lemmas.Accum
import Verif.Lemmas.Val
import Verif.Lemmas.Scatter
import Verif.Lemmas.Convert
import Verif.Lemmas.NdLin
import Mathlib.Data.List.Induction
import Mathlib.Data.List.Nodup
/-
Facts about Python subscripts and in-order assignment.
-/
namespace Lacuna
universe u
variable {V : Type u}

theorem pyPos_nat {len i : Nat} (h : i < len) : pyPos len (i : Int) = some i := by
  unfold pyPos; rw [if_pos (by omega), if_pos (by omega)]; simp

theorem pyPos_int {len : Nat} {i : Int} (h : 0 ≤ i ∧ i < len) : pyPos len i = some i.toNat := by
  unfold pyPos; rw [if_pos h.1, if_pos h.2]

theorem pyPos_neg {len k : Nat} (h0 : 1 ≤ k) (h : k ≤ len) : pyPos len (-(k : Int)) = some (len - k) := by
  unfold pyPos; rw [if_neg (by omega), if_pos (by omega)]; congr 1; omega

theorem pyPos_out {len : Nat} {i : Int} (h : (len : Int) ≤ i ∨ i < -(len : Int)) : pyPos len i = none := by
  unfold pyPos
  rcases h with h | h
  · rw [if_pos (by omega), if_neg (by omega)]
  · rw [if_neg (by omega), if_neg (by omega)]

theorem pyGet_of_pos {α : Type u} {l : List α} {i : Int} {p : Nat} (hp : pyPos l.length i = some p) {x : α}
    (hx : l[p]? = some x) : pyGet l i = .ok x := by
  unfold pyGet; rw [hp, Option.bind_some, hx]

theorem pyGet_nat {α : Type u} {l : List α} {i : Nat} {x : α} (hx : l[i]? = some x) : pyGet l (i : Int) = .ok x :=
  pyGet_of_pos (pyPos_nat (List.getElem?_eq_some_iff.1 hx).1) hx

theorem pyGet_out {α : Type u} {l : List α} {i : Int} (h : (l.length : Int) ≤ i ∨ i < -(l.length : Int)) :
    pyGet l i = .error .indexError := by
  unfold pyGet; rw [pyPos_out h]; rfl

theorem pySlice_nat {α : Type u} (l : List α) {s e : Nat} (hs : s ≤ e) (he : e ≤ l.length) :
    pySlice l (s : Int) (e : Int) = (l.drop s).take (e - s) := by
  unfold pySlice pyClamp
  rw [if_neg (by omega), if_neg (by omega), Int.toNat_natCast, Int.toNat_natCast, Nat.min_eq_left he,
    Nat.min_eq_left (by omega)]

theorem pySlice_empty {α : Type u} (l : List α) {s e : Nat} (hs : e ≤ s) :
    pySlice l (s : Int) (e : Int) = [] := by
  unfold pySlice pyClamp
  rw [if_neg (by omega), if_neg (by omega), Int.toNat_natCast, Int.toNat_natCast]
  rw [show min e l.length - min s l.length = 0 by omega, List.take_zero]

/-! ### The rows of a compressed matrix -/

theorem ptr_getElem? {a : Comp V} (h : a.WFU) {i : Nat} (hi : i ≤ a.n) : a.indptr[i]? = some (a.ptr i : Int) := by
  rw [h.ptr_cast hi, List.getD_eq_getElem?_getD, List.getElem?_eq_getElem (by rw [h.ptr_length]; omega)]; rfl

theorem pyGet_ptr {a : Comp V} (h : a.WFU) {i : Nat} (hi : i ≤ a.n) : pyGet a.indptr (i : Int) = .ok (a.ptr i : Int) :=
  pyGet_nat (ptr_getElem? h hi)

theorem pyGet_ptr_succ {a : Comp V} (h : a.WFU) {i : Nat} (hi : i < a.n) :
    pyGet a.indptr ((i : Int) + 1) = .ok (a.ptr (i + 1) : Int) := by
  have := pyGet_ptr h (i := i + 1) hi
  rwa [Int.natCast_add, Int.natCast_one] at this

theorem slice_indices {a : Comp V} (h : a.WFU) {i : Nat} (hi : i < a.n) :
    pySlice a.indices (a.ptr i : Int) (a.ptr (i + 1) : Int) = (a.row i).map Prod.fst := by
  rw [pySlice_nat _ (h.ptr_mono' (Nat.le_succ i) hi) (h.ptr_le hi)]
  unfold Comp.row Comp.entries
  rw [List.map_take, List.map_drop, List.map_fst_zip (Nat.le_of_eq h.data_length.symm)]

theorem slice_data {a : Comp V} (h : a.WFU) {i : Nat} (hi : i < a.n) :
    pySlice a.data (a.ptr i : Int) (a.ptr (i + 1) : Int) = (a.row i).map Prod.snd := by
  rw [pySlice_nat _ (h.ptr_mono' (Nat.le_succ i) hi) (by rw [h.data_length]; exact h.ptr_le hi)]
  unfold Comp.row Comp.entries
  rw [List.map_take, List.map_drop, List.map_snd_zip (Nat.le_of_eq h.data_length)]

theorem row_length_ptr {a : Comp V} (h : a.WFU) {i : Nat} (hi : i < a.n) :
    (a.row i).length = a.ptr (i + 1) - a.ptr i := by
  have h1 := h.ptr_le (i := i + 1) hi
  have h2 := h.data_length
  unfold Comp.row Comp.entries
  rw [List.length_take, List.length_drop, List.length_zip]
  omega

theorem row_getElem?_data {a : Comp V} (h : a.WFU) {i p : Nat} (hi : i < a.n) (hp : p < (a.row i).length) :
    a.data[a.ptr i + p]? = some (a.row i)[p].2 := by
  have hl := row_length_ptr h hi
  have h1 := h.ptr_le (i := i + 1) hi
  have e : ((a.row i).map Prod.snd)[p]? = some (a.row i)[p].2 := by simp [hp]
  rw [← slice_data h hi, pySlice_nat _ (h.ptr_mono' (Nat.le_succ i) hi) (by rw [h.data_length]; exact h1),
    List.getElem?_take_of_lt (hl ▸ hp), List.getElem?_drop] at e
  exact e

/-! ### Assignment in order -/

/-- The last write to a cell wins. -/
theorem applyWrites_getD [Zero V] (ws : List (Nat × V)) (buf : List V) (p : Nat) (hp : p < buf.length) :
    (applyWrites buf ws).getD p 0 = ((ws.filter fun w => w.1 == p).getLast?.map Prod.snd).getD (buf.getD p 0) := by
  induction ws using List.reverseRecOn with
  | nil => rfl
  | append_singleton ws w ih =>
    unfold applyWrites at ih ⊢
    have hl : (ws.foldl (fun b w => b.set w.1 w.2) buf).length = buf.length := applyWrites_length buf ws
    rw [List.foldl_append, List.foldl_cons, List.foldl_nil, List.filter_append]
    by_cases hw : w.1 = p
    · rw [List.filter_cons_of_pos (by simpa using hw), List.filter_nil, List.getLast?_concat]
      rw [hw, List.getD_eq_getElem?_getD, List.getElem?_set_self (by rw [hl]; exact hp)]; rfl
    · rw [List.filter_cons_of_neg (by simpa using hw), List.filter_nil, List.append_nil, ← ih,
        List.getD_eq_getElem?_getD, List.getElem?_set_ne hw, List.getD_eq_getElem?_getD]

theorem applyWrites_append {α : Type u} (buf : List α) (a b : List (Nat × α)) :
    applyWrites buf (a ++ b) = applyWrites (applyWrites buf a) b := List.foldl_append

theorem mapM_id_some {α β : Type*} {l : List α} {f : α → Option β} {g : α → β} (h : ∀ x ∈ l, f x = some (g x)) :
    (l.map f).mapM id = some (l.map g) := by
  induction l with
  | nil => rfl
  | cons x l ih =>
    rw [List.map_cons, List.mapM_cons, id_eq, h x List.mem_cons_self,
      ih (fun y hy => h y (List.mem_cons_of_mem _ hy))]
    rfl

/-- Assigning a line of stored pairs. -/
theorem assignAt_row {out : List V} {r : List (Int × V)} {f : Int → Option Nat} {g : Int → Nat}
    (h : ∀ e ∈ r, f e.1 = some (g e.1)) :
    assignAt out ((r.map Prod.fst).map f) (r.map Prod.snd) = .ok (applyWrites out (r.map fun e => (g e.1, e.2))) := by
  unfold assignAt
  rw [mapM_id_some (g := g) (by intro x hx; obtain ⟨e, he, rfl⟩ := List.mem_map.1 hx; exact h e he)]
  simp only [List.length_map]
  rw [if_pos trivial, List.map_map]
  congr 2
  rw [List.zip_map', ]
  rfl

theorem foldlM_writes {α : Type*} {f : List V → α → Except PyErr (List V)} {w : α → List (Nat × V)} (l : List α)
    (h : ∀ x ∈ l, ∀ out, f out x = .ok (applyWrites out (w x))) (out : List V) :
    l.foldlM f out = .ok (applyWrites out (l.flatMap w)) := by
  induction l generalizing out with
  | nil => rfl
  | cons x l ih =>
    rw [List.foldlM_cons, h x List.mem_cons_self, List.flatMap_cons, applyWrites_append]
    exact ih (fun y hy => h y (List.mem_cons_of_mem _ hy)) _

theorem flatMap_range_single {β : Type*} {n i : Nat} (hi : i < n) {g : Nat → List β}
    (h : ∀ k, k < n → k ≠ i → g k = []) : (List.range n).flatMap g = g i := by
  have key : ∀ m, m ≤ n → (List.range m).flatMap g = if i < m then g i else [] := by
    intro m
    induction m with
    | zero => intro _; simp
    | succ m ih =>
      intro hm
      rw [List.range_succ, List.flatMap_append, ih (by omega)]
      simp only [List.flatMap_cons, List.flatMap_nil, List.append_nil]
      by_cases h1 : i < m
      · rw [if_pos h1, if_pos (by omega), h m (by omega) (by omega), List.append_nil]
      · rw [if_neg h1, List.nil_append]
        by_cases h2 : i = m
        · rw [if_pos (by omega), h2]
        · rw [if_neg (by omega), h m (by omega) (by omega)]
  rw [key n (Nat.le_refl n), if_pos hi]

/-- The entry of a line that an in-order assignment leaves behind: the last one stored. -/
def lastIn (j : Int) (r : List (Int × V)) : Option V :=
  (r.filter fun e => e.1 == j).getLast?.map Prod.snd

theorem lastIn_eq_lk {r : List (Int × V)} (h : (r.map Prod.fst).Nodup) (j : Int) : lastIn j r = lk j r := by
  unfold lastIn lk
  rw [← List.head?_filter]
  congr 1
  have hl : (r.filter fun e => e.1 == j).length ≤ 1 := by
    rw [← List.countP_eq_length_filter]
    have := List.nodup_iff_count_le_one.1 h j
    unfold List.count at this
    rw [List.countP_map] at this
    exact this
  generalize r.filter (fun e => e.1 == j) = t at hl
  match t, hl with
  | [], _ => rfl
  | [x], _ => rfl
  | x :: y :: t, hl => simp at hl

theorem cell_inj {m i j i' j' : Nat} (hj : j < m) (hj' : j' < m) (h : i * m + j = i' * m + j') : i = i' ∧ j = j' := by
  have h1 : (i * m + j) / m = (i' * m + j') / m := by rw [h]
  have h2 : (i * m + j) % m = (i' * m + j') % m := by rw [h]
  rw [Nat.mul_comm i, Nat.mul_comm i', Nat.mul_add_div (by omega), Nat.mul_add_div (by omega),
    Nat.div_eq_of_lt hj, Nat.div_eq_of_lt hj'] at h1
  rw [Nat.mul_comm i, Nat.mul_comm i', Nat.mul_add_mod, Nat.mul_add_mod, Nat.mod_eq_of_lt hj, Nat.mod_eq_of_lt hj'] at h2
  exact ⟨by omega, h2⟩

theorem cell_lt {n m i j : Nat} (hi : i < n) (hj : j < m) : i * m + j < n * m := by
  calc i * m + j < i * m + m := by omega
    _ = (i + 1) * m := by rw [Nat.add_mul]; omega
    _ ≤ n * m := Nat.mul_le_mul_right m hi

theorem cellPos_int {n m : Nat} {i j : Int} (hi : 0 ≤ i ∧ i < n) (hj : 0 ≤ j ∧ j < m) :
    cellPos n m i j = some (i.toNat * m + j.toNat) := by
  unfold cellPos; rw [pyPos_int hi, pyPos_int hj]; rfl

theorem cellPosNd_int {shape : List Nat} {x : List Int} (h : InBounds shape x) :
    cellPosNd shape x = some (rowMajor shape x) := by
  unfold InBounds at h
  induction h with
  | nil => rfl
  | cons hd _ ih => unfold cellPosNd rowMajor; rw [pyPos_int hd, ih]; rfl

/-! ### Search -/

theorem lookup_eq {search : List Int → Int → Nat} (hs : IsSearchSorted search) {a : Csr V} (h : a.WF) {i : Nat}
    (hi : i < a.nrows) (j : Int) :
    lookupCsr search a (a.comp.ptr i : Int) (a.comp.ptr (i + 1) : Int) j = .ok (lk j (a.comp.row i)) := by
  have hu := Comp.WF.wfu h
  have e1 : pySlice a.indices (a.comp.ptr i : Int) (a.comp.ptr (i + 1) : Int) = (a.comp.row i).map Prod.fst :=
    slice_indices hu hi
  unfold lookupCsr
  simp only [e1, List.length_map]
  have hsrt : ((a.comp.row i).map Prod.fst).Pairwise (· < ·) := srt_row h i
  have hsp := hs _ j (hsrt.imp (fun h => Int.le_of_lt h))
  obtain ⟨p, hp⟩ : ∃ p, search ((a.comp.row i).map Prod.fst) j = p := ⟨_, rfl⟩
  rw [hp] at hsp ⊢
  obtain ⟨hlen, hlo, hhi⟩ := hsp
  rw [List.length_map] at hlen hhi
  have hg : ∀ q (hq : q < (a.comp.row i).length), ((a.comp.row i).map Prod.fst).getD q 0 = (a.comp.row i)[q].1 := by
    intro q hq; simp [hq]
  by_cases hc : p < (a.comp.row i).length ∧ ((a.comp.row i).map Prod.fst).getD p 0 = j
  · rw [if_pos hc]
    obtain ⟨hc1, hc2⟩ := hc
    have hd : pyGet a.data ((a.comp.ptr i : Int) + (p : Int)) = .ok (a.comp.row i)[p].2 := by
      rw [← Int.natCast_add]
      exact pyGet_nat (row_getElem?_data hu hi hc1)
    rw [hd]
    simp only []
    congr 1
    symm
    rw [hg p hc1] at hc2
    refine mem_lk (srt_row h i) ?_
    rw [← hc2]
    exact List.getElem_mem hc1
  · rw [if_neg hc]
    congr 1
    symm
    rw [lk_eq_none_iff]
    intro e he hej
    obtain ⟨q, hq, rfl⟩ := List.getElem_of_mem he
    rcases Nat.lt_or_ge q p with hqp | hqp
    · have := hlo q hqp; rw [hg q hq] at this; omega
    · apply hc
      refine ⟨by omega, ?_⟩
      have h1 := hhi p (Nat.le_refl _) (by omega)
      rcases Nat.eq_or_lt_of_le hqp with h2 | h2
      · rw [hg p (by omega)]; simp only [h2]; exact hej
      · have := List.pairwise_iff_getElem.1 (List.pairwise_map.1 hsrt) p q (by omega) hq h2
        rw [hg p (by omega)] at h1
        omega

end Lacuna
