import Verif.Model.Convert
import Verif.Lemmas.Val
import Mathlib.Data.List.Perm.Basic
import Mathlib.Data.List.GetD
import Mathlib.Algebra.BigOperators.Group.List.Basic
/-
Counting sort: buckets, slot claims, unsorted compressed matrices.
-/
namespace Lacuna
universe u w
variable {V : Type u}

/-! ### Unsorted compressed matrices -/

theorem Comp.WF.wfu {a : Comp V} (h : a.WF) : a.WFU :=
  ⟨h.ptr_length, h.data_length, h.ptr_first, h.ptr_last, h.ptr_mono, h.bounds, h.i64⟩

theorem Comp.WFU.ptr_le {a : Comp V} (h : a.WFU) {i : Nat} (hi : i ≤ a.n) : a.ptr i ≤ a.indices.length := by
  have := mono_of_step h.ptr_mono hi (Nat.le_refl _)
  rw [h.ptr_last] at this
  unfold Comp.ptr; omega

theorem Comp.WFU.ptr_mono' {a : Comp V} (h : a.WFU) {i j : Nat} (hij : i ≤ j) (hj : j ≤ a.n) :
    a.ptr i ≤ a.ptr j := by
  have := mono_of_step h.ptr_mono hij hj
  unfold Comp.ptr; omega

theorem Comp.WFU.ptr_zero {a : Comp V} (h : a.WFU) : a.ptr 0 = 0 := by
  unfold Comp.ptr; rw [h.ptr_first]; rfl

theorem Comp.WFU.ptr_n {a : Comp V} (h : a.WFU) : a.ptr a.n = a.indices.length := by
  unfold Comp.ptr; rw [h.ptr_last]; simp

theorem Comp.WFU.ptr_cast {a : Comp V} (h : a.WFU) {i : Nat} (hi : i ≤ a.n) :
    (a.ptr i : Int) = a.indptr.getD i 0 := by
  have := mono_of_step h.ptr_mono (Nat.zero_le i) hi
  rw [h.ptr_first] at this
  unfold Comp.ptr; omega

theorem Comp.WFU.entries_length {a : Comp V} (h : a.WFU) : a.entries.length = a.indices.length := by
  simp [Comp.entries, h.data_length]

theorem Comp.WFU.row_length {a : Comp V} (h : a.WFU) {i : Nat} (hi : i < a.n) :
    (a.row i).length = a.ptr (i + 1) - a.ptr i := by
  have h1 := h.ptr_le (i := i + 1) (by omega)
  have h2 := h.ptr_mono' (i := i) (j := i + 1) (by omega) (by omega)
  unfold Comp.row
  rw [List.length_take, List.length_drop, h.entries_length]
  omega

theorem Comp.WFU.flatten_rows {a : Comp V} (h : a.WFU) : a.rows.flatten = a.entries := by
  have := flatten_slices a.entries a.ptr a.n h.ptr_zero
    (fun i hi => h.ptr_mono' (by omega) (by omega))
  unfold Comp.rows
  show ((List.range a.n).map fun i => a.row i).flatten = _
  unfold Comp.row
  rw [this, h.ptr_n, ← h.entries_length, List.take_length]

theorem Comp.WFU.sum_take {a : Comp V} (h : a.WFU) {i : Nat} (hi : i ≤ a.n) :
    ((a.rows.map List.length).take i).sum = a.ptr i := by
  induction i with
  | zero => simp [h.ptr_zero]
  | succ i ih =>
    have hl : i < (a.rows.map List.length).length := by simp; omega
    rw [List.take_succ_eq_append_getElem hl, List.sum_append, ih (by omega)]
    simp only [List.getElem_map, Comp.rows_getElem, List.sum_cons, List.sum_nil]
    rw [h.row_length (by omega)]
    have := h.ptr_mono' (i := i) (j := i + 1) (by omega) (by omega)
    omega

theorem Comp.WFU.indices_eq {a : Comp V} (h : a.WFU) : a.indices = a.rows.flatten.map Prod.fst := by
  rw [h.flatten_rows, Comp.entries, List.map_fst_zip (by rw [h.data_length]; exact Nat.le_refl _)]

theorem Comp.WFU.data_eq {a : Comp V} (h : a.WFU) : a.data = a.rows.flatten.map Prod.snd := by
  rw [h.flatten_rows, Comp.entries, List.map_snd_zip (by rw [h.data_length]; exact Nat.le_refl _)]

/-- An unsorted matrix is determined by its lines. -/
theorem Comp.WFU.eq_ofRows {a : Comp V} (h : a.WFU) : a = Comp.ofRows a.m a.rows := by
  have hptr : a.indptr = prefixPtr (a.rows.map List.length) := by
    apply List.ext_getElem
    · simp [h.ptr_length]
    · intro i h1 h2
      rw [h.ptr_length] at h1
      have e1 := prefixPtr_getD (a.rows.map List.length) i (by simp; omega)
      rw [h.sum_take (by omega), h.ptr_cast (by omega)] at e1
      rw [List.getD_eq_getElem?_getD, List.getD_eq_getElem?_getD,
        List.getElem?_eq_getElem h2, List.getElem?_eq_getElem (by rw [h.ptr_length]; omega)] at e1
      exact e1.symm
  unfold Comp.ofRows
  rw [← h.indices_eq, ← h.data_eq, ← hptr, Comp.rows_length]

theorem Comp.row_mem_indices {a : Comp V} {i : Nat} {e : Int × V} (he : e ∈ a.row i) : e.1 ∈ a.indices := by
  have := List.mem_of_mem_drop (List.mem_of_mem_take he)
  exact (List.of_mem_zip (show (e.1, e.2) ∈ a.indices.zip a.data from this)).1

theorem Comp.WFU.row_bounds {a : Comp V} (h : a.WFU) (i : Nat) : ∀ e ∈ a.row i, 0 ≤ e.1 ∧ e.1 < a.m :=
  fun _ he => h.bounds _ (Comp.row_mem_indices he)

theorem Comp.WFU.row_i64 {a : Comp V} (h : a.WFU) (i : Nat) : ∀ e ∈ a.row i, e.1 ≤ i64Max :=
  fun _ he => h.i64 _ (Comp.row_mem_indices he)

/-- In-bounds lines give an unsorted matrix. -/
theorem Comp.wfu_ofRows {m : Nat} {rows : List (List (Int × V))}
    (h : ∀ r ∈ rows, ∀ e ∈ r, 0 ≤ e.1 ∧ e.1 < m ∧ e.1 ≤ i64Max) : (Comp.ofRows m rows).WFU := by
  have hsumle : ∀ i, ((rows.map List.length).take i).sum ≤ ((rows.map List.length).take (i+1)).sum := by
    intro i
    by_cases hi : i < (rows.map List.length).length
    · rw [List.take_succ_eq_append_getElem hi, List.sum_append]; omega
    · rw [List.take_of_length_le (by omega), List.take_of_length_le (by omega)]; omega
  have hmem : ∀ j ∈ (Comp.ofRows m rows).indices, ∃ r ∈ rows, ∃ e ∈ r, e.1 = j := by
    intro j hj
    simp only [Comp.ofRows, List.mem_map, List.mem_flatten] at hj
    obtain ⟨e, ⟨r, hr, he⟩, rfl⟩ := hj
    exact ⟨r, hr, e, he, rfl⟩
  refine ⟨by simp [Comp.ofRows], by simp only [Comp.ofRows, List.length_map], ?_, ?_, ?_, ?_, ?_⟩
  · show (prefixPtr _).getD 0 0 = 0
    rw [prefixPtr_getD _ _ (by simp)]; simp
  · show (prefixPtr _).getD rows.length 0 = _
    rw [prefixPtr_getD _ _ (by simp)]
    rw [List.take_of_length_le (by simp)]
    simp only [Comp.ofRows, List.length_map, List.length_flatten]
  · intro i hi
    replace hi : i < rows.length := hi
    show (prefixPtr _).getD i 0 ≤ (prefixPtr _).getD (i+1) 0
    rw [prefixPtr_getD _ _ (by simp; omega), prefixPtr_getD _ _ (by simp; omega)]
    exact_mod_cast hsumle i
  · intro j hj
    obtain ⟨r, hr, e, he, rfl⟩ := hmem j hj
    exact ⟨(h r hr e he).1, (h r hr e he).2.1⟩
  · intro j hj
    obtain ⟨r, hr, e, he, rfl⟩ := hmem j hj
    exact (h r hr e he).2.2

/-! ### Buckets -/

theorem bucket_filter_perm {α : Type w} (l : List α) (key : α → Nat) (m : Nat) :
    (l.filter fun x => decide (key x < m)).Perm
      ((List.range m).flatMap fun j => l.filter (fun x => key x == j)) := by
  induction m with
  | zero => simp
  | succ m ih =>
    rw [List.range_succ, List.flatMap_append]
    simp only [List.flatMap_cons, List.flatMap_nil, List.append_nil]
    refine List.Perm.trans ?_ (ih.append_right _)
    clear ih
    induction l with
    | nil => simp
    | cons x l ih =>
      by_cases h1 : key x < m
      · rw [List.filter_cons_of_pos (by simp; omega), List.filter_cons_of_pos (by simpa using h1),
          List.filter_cons_of_neg (by simp; omega)]
        exact ih.cons _
      · by_cases h2 : key x = m
        · rw [List.filter_cons_of_pos (by simp; omega), List.filter_cons_of_neg (by simpa using h1),
            List.filter_cons_of_pos (by simpa using h2)]
          exact (ih.cons _).trans List.perm_middle.symm
        · rw [List.filter_cons_of_neg (by simp; omega), List.filter_cons_of_neg (by simpa using h1),
            List.filter_cons_of_neg (by simpa using h2)]
          exact ih

/-- Distributing a list over the buckets `0..m` permutes it. -/
theorem bucket_perm {α : Type w} (l : List α) (key : α → Nat) (m : Nat) (h : ∀ x ∈ l, key x < m) :
    l.Perm ((List.range m).flatMap fun j => l.filter (fun x => key x == j)) := by
  have := bucket_filter_perm l key m
  rwa [List.filter_eq_self.2 (fun x hx => by simpa using h x hx)] at this

/-- Slot claims with the counters as a function; every write is tagged with its bucket. -/
def claimsF {α : Type w} (nx : Nat → Nat) : List (Nat × α) → List (Nat × (Nat × α))
  | [] => []
  | e :: es => (e.1, (nx e.1, e.2)) :: claimsF (fun k => if k = e.1 then nx k + 1 else nx k) es

theorem claimsF_keys {α : Type w} (nx : Nat → Nat) (es : List (Nat × α)) :
    (claimsF nx es).map Prod.fst = es.map Prod.fst := by
  induction es generalizing nx with
  | nil => rfl
  | cons e es ih => simp [claimsF, ih]

theorem claimsF_filter {α : Type w} (nx : Nat → Nat) (es : List (Nat × α)) (j : Nat) :
    ((claimsF nx es).filter fun e => e.1 == j).map Prod.snd =
      lineWrites (nx j) ((es.filter fun e => e.1 == j).map Prod.snd) := by
  induction es generalizing nx with
  | nil => rfl
  | cons e es ih =>
    rw [claimsF]
    by_cases h : e.1 = j
    · rw [List.filter_cons_of_pos (by simpa using h), List.filter_cons_of_pos (by simpa using h)]
      simp only [List.map_cons, lineWrites, ih]
      rw [if_pos h.symm, h]
    · rw [List.filter_cons_of_neg (by simpa using h), List.filter_cons_of_neg (by simpa using h), ih,
        if_neg (Ne.symm h)]

theorem claimsF_append {α : Type w} (nx : Nat → Nat) (es es' : List (Nat × α)) :
    claimsF nx (es ++ es') = claimsF nx es ++
      claimsF (fun k => nx k + (es.filter fun e => e.1 == k).length) es' := by
  induction es generalizing nx with
  | nil => simp [claimsF]
  | cons e es ih =>
    simp only [List.cons_append, claimsF, ih]
    congr 2
    congr 1
    funext k
    by_cases h : k = e.1
    · subst h; simp; omega
    · rw [List.filter_cons_of_neg (by simpa using Ne.symm h), if_neg h]

/-- The buckets of a list of keyed items. -/
def buckets {α : Type w} (m : Nat) (es : List (Nat × α)) : List (List α) :=
  (List.range m).map fun j => (es.filter fun e => e.1 == j).map Prod.snd

theorem buckets_length {α : Type w} (m : Nat) (es : List (Nat × α)) : (buckets m es).length = m := by
  simp [buckets]

theorem lineWrites_map {α β : Type u} (s : Nat) (l : List α) (f : α → β) :
    (lineWrites s l).map (fun w => (w.1, f w.2)) = lineWrites s (l.map f) := by
  induction l generalizing s with
  | nil => rfl
  | cons x l ih => simp [lineWrites, ih]

theorem lineWrites_append {α : Type u} (l l' : List α) (s : Nat) :
    lineWrites s (l ++ l') = lineWrites s l ++ lineWrites (s + l.length) l' := by
  induction l generalizing s with
  | nil => simp [lineWrites]
  | cons x xs ih => simp [lineWrites, ih]; congr 1; omega

/-- Writes whose bucket-`j` part fills the segment of bucket `j` in order, for all `j`,
together fill the whole buffer. -/
theorem scatter_perm {α : Type w} (m : Nat) (W : List (Nat × (Nat × α))) (cols : List (List α))
    (hl : cols.length = m) (hk : ∀ e ∈ W, e.1 < m)
    (h : ∀ j, j < m → (W.filter fun e => e.1 == j).map Prod.snd =
      lineWrites ((cols.map List.length).take j).sum (cols.getD j [])) :
    (W.map Prod.snd).Perm (lineWrites 0 cols.flatten) := by
  refine ((bucket_perm W Prod.fst m hk).map Prod.snd).trans ?_
  rw [List.map_flatMap]
  have e1 : ((List.range m).flatMap fun j => (W.filter fun e => e.1 == j).map Prod.snd) =
      (List.range m).flatMap fun j => lineWrites ((cols.map List.length).take j).sum (cols.getD j []) := by
    rw [List.flatMap_def, List.flatMap_def]
    congr 1
    apply List.map_congr_left
    intro j hj
    exact h j (by simpa using hj)
  rw [e1, ← fillWrites_eq_zip]
  refine List.Perm.of_eq ?_
  unfold fillWrites
  subst hl
  rw [List.flatMap_def, List.flatMap_def]
  congr 1
  apply List.ext_getElem
  · simp
  · intro i h1 h2
    simp only [List.length_map, List.length_range] at h1
    have h3 := ptrFrom_getD 0 (cols.map List.length) i (by simp; omega)
    rw [List.getD_eq_getElem _ _ (by simp; omega)] at h3
    simp [h3, List.getD_eq_getElem?_getD, h1]

/-- Applying such writes to a buffer of the right length, in any order. -/
theorem applyWrites_scatter {α : Type u} {ws : List (Nat × α)} {flat buf : List α}
    (hp : ws.Perm (lineWrites 0 flat)) (hl : buf.length = flat.length) :
    applyWrites buf ws = flat := by
  rw [applyWrites_perm buf hp]
  · have := applyWrites_lineWrites flat [] buf hl
    simpa using this
  · rw [(hp.map _).nodup_iff, lineWrites_fst]
    exact List.nodup_range'

theorem claimsF_scatter {α : Type w} (m : Nat) (es : List (Nat × α)) (hk : ∀ e ∈ es, e.1 < m) :
    ((claimsF (fun j => (((buckets m es).map List.length).take j).sum) es).map Prod.snd).Perm
      (lineWrites 0 (buckets m es).flatten) := by
  apply scatter_perm m _ _ (buckets_length m es)
  · intro e he
    have : e.1 ∈ es.map Prod.fst := by rw [← claimsF_keys]; exact List.mem_map_of_mem he
    obtain ⟨e', he', h⟩ := List.mem_map.1 this
    rw [← h]; exact hk e' he'
  · intro j hj
    rw [claimsF_filter]
    congr 1
    simp [buckets, List.getD_eq_getElem?_getD, hj]

/-! ### The counting loop -/

theorem i64ToUsize_of_nonneg {j : Int} (h0 : 0 ≤ j) (h1 : j ≤ i64Max) : i64ToUsize j = j.toNat := by
  unfold i64ToUsize
  rw [Int.emod_eq_of_lt h0 (by unfold i64Max at h1; omega)]

theorem usizeToI64_of_le {n : Nat} (h : (n : Int) ≤ i64Max) : usizeToI64 n = n := if_pos h

/-- Pointer array under construction: entry `j + 1` holds `c j`. -/
def cntList (m : Nat) (c : Nat → Nat) : List Int := 0 :: (List.range m).map fun j => (c j : Int)

theorem bumpCount_eq {m : Nat} {c : Nat → Nat} {j : Int} (h0 : 0 ≤ j) (h1 : j ≤ i64Max) (hj : j < m) :
    bumpCount (cntList m c) j = some (cntList m fun k => if k = j.toNat then c k + 1 else c k) := by
  have hlt : j.toNat < m := by omega
  unfold bumpCount
  simp only [i64ToUsize_of_nonneg h0 h1]
  rw [if_pos (by simp [cntList]; omega)]
  congr 1
  unfold cntList
  rw [List.set_cons_succ]
  congr 1
  rw [List.getD_cons_succ]
  apply List.ext_getElem
  · simp
  · intro k h2 h3
    simp only [List.length_map, List.length_range] at h3
    rw [List.getElem_set]
    by_cases hk : j.toNat = k
    · subst hk
      simp [List.getD_eq_getElem?_getD, hlt]
    · rw [if_neg hk]
      simp [Ne.symm hk]

theorem foldlM_bump {m : Nat} (c : Nat → Nat) (idx : List Int)
    (h : ∀ j ∈ idx, 0 ≤ j ∧ j ≤ i64Max ∧ j < m) :
    idx.foldlM bumpCount (cntList m c) =
      some (cntList m fun k => c k + (idx.filter fun j => j == (k : Int)).length) := by
  induction idx generalizing c with
  | nil => simp
  | cons j idx ih =>
    obtain ⟨h0, h1, h2⟩ := h j (by simp)
    rw [List.foldlM_cons, bumpCount_eq h0 h1 h2]
    show idx.foldlM bumpCount (cntList m _) = _
    rw [ih _ (fun k hk => h k (by simp [hk]))]
    congr 2
    funext k
    by_cases hk : k = j.toNat
    · rw [if_pos hk, List.filter_cons_of_pos (by simp; omega)]
      simp; omega
    · rw [if_neg hk, List.filter_cons_of_neg (by simp; omega)]

theorem cntList_zero (m : Nat) : List.replicate (m + 1) 0 = cntList m (fun _ => 0) := by
  unfold cntList
  rw [List.replicate_succ]
  congr 1
  apply List.ext_getElem
  · simp
  · intro i h1 h2; simp

theorem runSum_eq (s : Nat) (cs : List Nat) :
    (s : Int) :: runSum s (cs.map fun (c : Nat) => (c : Int)) = (ptrFrom s cs).map Int.ofNat := by
  induction cs generalizing s with
  | nil => rfl
  | cons c cs ih =>
    rw [List.map_cons, runSum, ptrFrom, List.map_cons]
    have := ih (s + c)
    rw [← this]
    simp

/-- The counting loop and the prefix sums yield the offsets of the buckets. -/
theorem countPtr_eq {m : Nat} {idx : List Int} (h : ∀ j ∈ idx, 0 ≤ j ∧ j ≤ i64Max ∧ j < m) :
    countPtr m idx = some (prefixPtr ((List.range m).map fun (k : Nat) => (idx.filter fun j => j == (k : Int)).length)) := by
  unfold countPtr
  rw [cntList_zero, foldlM_bump _ _ h]
  simp only [Option.map_some, Nat.zero_add]
  congr 1
  have := runSum_eq 0 ((List.range m).map fun (k : Nat) => (idx.filter fun j => j == (k : Int)).length)
  unfold prefixPtr
  rw [← this]
  unfold cntList
  simp [runSum, Function.comp_def]

/-! ### Claims on the array of counters -/

theorem claimAll_eq {m : Nat} (next : List Int) (nx : Nat → Nat) (es : List (Nat × (Int × V)))
    (hn : ∀ k, k < m → next[k]? = some (nx k : Int))
    (hes : ∀ e ∈ es, 0 ≤ e.2.1 ∧ e.2.1 ≤ i64Max ∧ e.2.1 < m)
    (hfit : ∀ k, k < m → (nx k + (es.filter fun e => e.2.1.toNat == k).length : Nat) ≤ i64Max) :
    claimAll next es = some ((claimsF nx (es.map fun e => (e.2.1.toNat, (usizeToI64 e.1, e.2.2)))).map Prod.snd) := by
  induction es generalizing next nx with
  | nil => rfl
  | cons e es ih =>
    obtain ⟨h0, h1, h2⟩ := hes e (by simp)
    have hlt : e.2.1.toNat < m := by omega
    have hnx := hfit _ hlt
    rw [List.filter_cons_of_pos (by simp), List.length_cons] at hnx
    have hc : claim next e = some (next.set e.2.1.toNat (nx e.2.1.toNat + 1), (nx e.2.1.toNat, (usizeToI64 e.1, e.2.2))) := by
      unfold claim
      simp only [i64ToUsize_of_nonneg h0 h1]
      rw [hn _ hlt, Option.map_some, i64ToUsize_of_nonneg (by omega) (by omega)]
      simp
    rw [claimAll, hc, Option.bind_some, ih _ (fun k => if k = e.2.1.toNat then nx k + 1 else nx k)]
    · simp only [Option.map_some, List.map_cons, claimsF]
    · intro k hk
      have hlen : e.2.1.toNat < next.length := by
        have := hn _ hlt
        exact (List.getElem?_eq_some_iff.1 this).1
      rw [List.getElem?_set]
      by_cases h : e.2.1.toNat = k
      · rw [if_pos h, if_pos hlen, if_pos h.symm, h]; simp
      · rw [if_neg h, if_neg (Ne.symm h), hn k hk]
    · exact fun e' he' => hes e' (by simp [he'])
    · intro k hk
      have := hfit k hk
      by_cases h : k = e.2.1.toNat
      · rw [List.filter_cons_of_pos (by simpa using h.symm), List.length_cons] at this
        rw [if_pos h]; omega
      · rw [List.filter_cons_of_neg (by simpa using Ne.symm h)] at this
        rw [if_neg h]; exact this

end Lacuna
