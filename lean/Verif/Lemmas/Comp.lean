import Verif.Model.TwoPass
import Verif.Lemmas.Construct
namespace Lacuna
universe u
variable {V : Type u}

/-! ### prefix sums -/

@[simp] theorem ptrFrom_length (s : Nat) (cs : List Nat) : (ptrFrom s cs).length = cs.length + 1 := by
  induction cs generalizing s with
  | nil => rfl
  | cons c cs ih => simp [ptrFrom, ih]

theorem ptrFrom_getD (s : Nat) (cs : List Nat) (i : Nat) (hi : i ≤ cs.length) :
    (ptrFrom s cs).getD i 0 = s + (cs.take i).sum := by
  induction cs generalizing s i with
  | nil => have : i = 0 := by simpa using hi
           subst this; simp [ptrFrom]
  | cons c cs ih =>
    cases i with
    | zero => simp [ptrFrom]
    | succ i =>
      have := ih (s + c) i (by simpa using hi)
      simp only [ptrFrom, List.getD_cons_succ, this, List.take_succ_cons, List.sum_cons]
      omega

@[simp] theorem prefixPtr_length (cs : List Nat) : (prefixPtr cs).length = cs.length + 1 := by
  simp [prefixPtr]

theorem prefixPtr_getD (cs : List Nat) (i : Nat) (hi : i ≤ cs.length) :
    (prefixPtr cs).getD i 0 = (((cs.take i).sum : Nat) : Int) := by
  have h := ptrFrom_getD 0 cs i hi
  have hl : i < (ptrFrom 0 cs).length := by simp; omega
  simp only [prefixPtr, List.getD_eq_getElem?_getD, List.getElem?_map,
    List.getElem?_eq_getElem hl, Option.map_some, Option.getD_some] at h ⊢
  rw [h]; simp

/-! ### Compressed matrices given by their lines -/

/-- The compressed matrix with the given lines. -/
def Comp.ofRows (m : Nat) (rows : List (List (Int × V))) : Comp V :=
  { n := rows.length, m := m, indptr := prefixPtr (rows.map List.length)
    indices := rows.flatten.map Prod.fst, data := rows.flatten.map Prod.snd }

/-- All lines of a compressed matrix. -/
def Comp.rows (a : Comp V) : List (List (Int × V)) := (List.range a.n).map a.row

@[simp] theorem Comp.rows_length (a : Comp V) : a.rows.length = a.n := by simp [Comp.rows]

theorem Comp.rows_getD (a : Comp V) (i : Nat) (h : i < a.n) : a.rows.getD i [] = a.row i := by
  simp [Comp.rows, List.getD_eq_getElem?_getD, h]

theorem Comp.rows_getElem (a : Comp V) (i : Nat) (h : i < a.rows.length) :
    a.rows[i] = a.row i := by
  simp [Comp.rows]

theorem flatten_slice {α : Type u} (rows : List (List α)) (i : Nat) :
    (rows.flatten.drop ((rows.map List.length).take i).sum).take
      (((rows.map List.length).take (i + 1)).sum - ((rows.map List.length).take i).sum)
      = rows.getD i [] := by
  induction rows generalizing i with
  | nil => simp
  | cons r rs ih =>
    cases i with
    | zero => simp
    | succ i =>
      have := ih i
      simp only [List.map_cons, List.take_succ_cons, List.sum_cons, List.flatten_cons,
        List.getD_cons_succ]
      rw [← List.drop_drop, List.drop_left, ← this]
      congr 1; omega

theorem zip_map_fst_snd {α β : Type u} (l : List (α × β)) :
    (l.map Prod.fst).zip (l.map Prod.snd) = l := by
  induction l with
  | nil => rfl
  | cons x xs ih => simp [ih]

theorem zip_fst_snd' {α : Type} {β : Type u} (l : List (α × β)) :
    (l.map Prod.fst).zip (l.map Prod.snd) = l := by
  induction l with
  | nil => rfl
  | cons x xs ih => simp [ih]

theorem Comp.entries_ofRows (m : Nat) (rows : List (List (Int × V))) :
    (Comp.ofRows m rows).entries = rows.flatten := zip_fst_snd' _

theorem Comp.ptr_ofRows (m : Nat) (rows : List (List (Int × V))) (i : Nat) (hi : i ≤ rows.length) :
    (Comp.ofRows m rows).ptr i = ((rows.map List.length).take i).sum := by
  unfold Comp.ptr Comp.ofRows
  simp only
  rw [prefixPtr_getD _ _ (by simpa using hi)]
  simp

theorem Comp.row_ofRows (m : Nat) (rows : List (List (Int × V))) (i : Nat) (hi : i < rows.length) :
    (Comp.ofRows m rows).row i = rows.getD i [] := by
  unfold Comp.row
  rw [entries_ofRows, ptr_ofRows _ _ _ (by omega), ptr_ofRows _ _ _ (by omega), flatten_slice]

theorem Comp.rows_ofRows (m : Nat) (rows : List (List (Int × V))) :
    (Comp.ofRows m rows).rows = rows := by
  apply List.ext_getElem
  · simp [Comp.ofRows]
  · intro i h1 h2
    rw [rows_getElem, row_ofRows _ _ _ h2]
    simp [List.getD_eq_getElem?_getD, h2]

/-- Strictly increasing, in-bounds line. -/
structure RowOk (m : Nat) (r : List (Int × V)) : Prop where
  sorted : (r.map Prod.fst).Pairwise (· < ·)
  bounds : ∀ e ∈ r, 0 ≤ e.1 ∧ e.1 < m
  i64 : ∀ e ∈ r, e.1 ≤ i64Max

theorem row_map_fst (a : Comp V) (h : a.data.length = a.indices.length) (i : Nat) :
    (a.row i).map Prod.fst = (a.indices.drop (a.ptr i)).take (a.ptr (i + 1) - a.ptr i) := by
  unfold Comp.row Comp.entries
  rw [List.map_take, List.map_drop, List.map_fst_zip (by omega)]

theorem Comp.WF.ptr_le {a : Comp V} (h : a.WF) {i : Nat} (hi : i ≤ a.n) : a.ptr i ≤ a.indices.length := by
  have := mono_of_step h.ptr_mono hi (Nat.le_refl _)
  rw [h.ptr_last] at this
  unfold Comp.ptr; omega

theorem Comp.WF.ptr_mono' {a : Comp V} (h : a.WF) {i j : Nat} (hij : i ≤ j) (hj : j ≤ a.n) :
    a.ptr i ≤ a.ptr j := by
  have := mono_of_step h.ptr_mono hij hj
  unfold Comp.ptr; omega

theorem Comp.WF.ptr_zero {a : Comp V} (h : a.WF) : a.ptr 0 = 0 := by
  unfold Comp.ptr; rw [h.ptr_first]; rfl

theorem Comp.WF.ptr_n {a : Comp V} (h : a.WF) : a.ptr a.n = a.indices.length := by
  unfold Comp.ptr; rw [h.ptr_last]; simp

theorem Comp.WF.ptr_cast {a : Comp V} (h : a.WF) {i : Nat} (hi : i ≤ a.n) :
    (a.ptr i : Int) = a.indptr.getD i 0 := by
  have := mono_of_step h.ptr_mono (Nat.zero_le i) hi
  rw [h.ptr_first] at this
  unfold Comp.ptr; omega

theorem Comp.WF.entries_length {a : Comp V} (h : a.WF) : a.entries.length = a.indices.length := by
  simp [Comp.entries, h.data_length]

theorem Comp.WF.row_length {a : Comp V} (h : a.WF) {i : Nat} (hi : i < a.n) :
    (a.row i).length = a.ptr (i + 1) - a.ptr i := by
  have h1 := h.ptr_le (i := i + 1) (by omega)
  have h2 := h.ptr_mono' (i := i) (j := i + 1) (by omega) (by omega)
  unfold Comp.row
  rw [List.length_take, List.length_drop, h.entries_length]
  omega

theorem Comp.WF.rowOk {a : Comp V} (h : a.WF) (i : Nat) (hi : i < a.n) : RowOk a.m (a.row i) := by
  have hmem : ∀ e ∈ a.row i, e.1 ∈ a.indices := fun e he => by
    have := List.mem_of_mem_drop (List.mem_of_mem_take he)
    exact (List.of_mem_zip (show (e.1, e.2) ∈ a.indices.zip a.data from this)).1
  refine ⟨?_, fun e he => h.bounds _ (hmem e he), fun e he => h.i64 _ (hmem e he)⟩
  rw [row_map_fst _ h.data_length, pairwise_take_drop_iff _ _ _ (h.ptr_le (by omega))]
  exact h.sorted i hi

theorem flatten_slices {α : Type u} (l : List α) (f : Nat → Nat) (n : Nat) (h0 : f 0 = 0)
    (hm : ∀ i, i < n → f i ≤ f (i + 1)) :
    ((List.range n).map fun i => (l.drop (f i)).take (f (i + 1) - f i)).flatten = l.take (f n) := by
  induction n with
  | zero => simp [h0]
  | succ k ih =>
    rw [List.range_succ, List.map_append, List.flatten_append, ih (fun i hi => hm i (by omega))]
    have := hm k (by omega)
    simp only [List.map_cons, List.map_nil, List.flatten_cons, List.flatten_nil, List.append_nil]
    conv => rhs; rw [show f (k + 1) = f k + (f (k + 1) - f k) by omega, List.take_add]

theorem Comp.WF.flatten_rows {a : Comp V} (h : a.WF) : a.rows.flatten = a.entries := by
  have := flatten_slices a.entries a.ptr a.n h.ptr_zero
    (fun i hi => h.ptr_mono' (by omega) (by omega))
  unfold Comp.rows
  show ((List.range a.n).map fun i => a.row i).flatten = _
  unfold Comp.row
  rw [this, h.ptr_n, ← h.entries_length, List.take_length]

theorem sum_take_row_lengths {a : Comp V} (h : a.WF) {i : Nat} (hi : i ≤ a.n) :
    ((a.rows.map List.length).take i).sum = a.ptr i := by
  induction i with
  | zero => simp [h.ptr_zero]
  | succ i ih =>
    have hl : i < (a.rows.map List.length).length := by simp; omega
    rw [List.take_succ_eq_append_getElem hl, List.sum_append, ih (by omega)]
    simp only [List.getElem_map, Comp.rows_getElem, List.sum_cons, List.sum_nil]
    rw [h.row_length (by omega)]
    have := h.ptr_mono' (i := i) (j := i + 1) (by omega) (by omega)
    omega

/-- A well-formed matrix is determined by its lines. -/
theorem Comp.WF.eq_ofRows {a : Comp V} (h : a.WF) : a = Comp.ofRows a.m a.rows := by
  have hind : a.indices = a.rows.flatten.map Prod.fst := by
    rw [h.flatten_rows, Comp.entries, List.map_fst_zip (by rw [h.data_length]; exact Nat.le_refl _)]
  have hdat : a.data = a.rows.flatten.map Prod.snd := by
    rw [h.flatten_rows, Comp.entries, List.map_snd_zip (by rw [h.data_length]; exact Nat.le_refl _)]
  have hptr : a.indptr = prefixPtr (a.rows.map List.length) := by
    apply List.ext_getElem
    · simp [h.ptr_length]
    · intro i h1 h2
      rw [h.ptr_length] at h1
      have e1 := prefixPtr_getD (a.rows.map List.length) i (by simp; omega)
      rw [sum_take_row_lengths h (by omega), h.ptr_cast (by omega)] at e1
      rw [List.getD_eq_getElem?_getD, List.getD_eq_getElem?_getD,
        List.getElem?_eq_getElem h2, List.getElem?_eq_getElem (by rw [h.ptr_length]; omega)] at e1
      exact e1.symm
  unfold Comp.ofRows
  rw [← hind, ← hdat, ← hptr, Comp.rows_length]

/-- Lines that are strictly increasing and in bounds give a well-formed matrix. -/
theorem Comp.wf_ofRows {m : Nat} {rows : List (List (Int × V))} (h : ∀ r ∈ rows, RowOk m r) :
    (Comp.ofRows m rows).WF := by
  have hsumle : ∀ i, ((rows.map List.length).take i).sum ≤ ((rows.map List.length).take (i+1)).sum := by
    intro i
    by_cases hi : i < (rows.map List.length).length
    · rw [List.take_succ_eq_append_getElem hi, List.sum_append]; omega
    · rw [List.take_of_length_le (by omega), List.take_of_length_le (by omega)]; omega
  have hdl : (Comp.ofRows m rows).data.length = (Comp.ofRows m rows).indices.length := by
    simp only [Comp.ofRows, List.length_map]
  have hmem : ∀ j ∈ (Comp.ofRows m rows).indices, ∃ r ∈ rows, ∃ e ∈ r, e.1 = j := by
    intro j hj
    simp only [Comp.ofRows, List.mem_map, List.mem_flatten] at hj
    obtain ⟨e, ⟨r, hr, he⟩, rfl⟩ := hj
    exact ⟨r, hr, e, he, rfl⟩
  have hlast : (Comp.ofRows m rows).indptr.getD rows.length 0 = (Comp.ofRows m rows).indices.length := by
    show (prefixPtr _).getD rows.length 0 = _
    rw [prefixPtr_getD _ _ (by simp)]
    rw [List.take_of_length_le (by simp)]
    simp only [Comp.ofRows, List.length_map, List.length_flatten]
  refine ⟨by simp [Comp.ofRows], hdl, ?_, hlast, ?_, ?_, ?_, ?_⟩
  · show (prefixPtr _).getD 0 0 = 0
    rw [prefixPtr_getD _ _ (by simp)]; simp
  · intro i hi
    replace hi : i < rows.length := hi
    show (prefixPtr _).getD i 0 ≤ (prefixPtr _).getD (i+1) 0
    rw [prefixPtr_getD _ _ (by simp; omega), prefixPtr_getD _ _ (by simp; omega)]
    exact_mod_cast hsumle i
  · intro j hj
    obtain ⟨r, hr, e, he, rfl⟩ := hmem j hj
    exact (h r hr).bounds e he
  · intro i hi
    replace hi : i < rows.length := hi
    rw [← pairwise_take_drop_iff, ← row_map_fst _ hdl, row_ofRows _ _ _ hi]
    · have : rows.getD i [] ∈ rows := by
        rw [List.getD_eq_getElem?_getD, List.getElem?_eq_getElem hi]; exact List.getElem_mem hi
      exact (h _ this).sorted
    · rw [ptr_ofRows _ _ _ (by omega)]
      simp only [Comp.ofRows, List.length_map, List.length_flatten]
      have : ∀ (l : List Nat) k, (l.take k).sum ≤ l.sum := by
        intro l
        induction l with
        | nil => simp
        | cons x xs ih => intro k; cases k with
          | zero => simp
          | succ k => simp; exact ih k
      exact this _ _
  · intro j hj
    obtain ⟨r, hr, e, he, rfl⟩ := hmem j hj
    exact (h r hr).i64 e he

theorem Comp.wf_ofRows_iff {m : Nat} {rows : List (List (Int × V))} :
    (Comp.ofRows m rows).WF ↔ ∀ r ∈ rows, RowOk m r := by
  refine ⟨fun h r hr => ?_, Comp.wf_ofRows⟩
  obtain ⟨i, hi, rfl⟩ := List.getElem_of_mem hr
  have := h.rowOk i hi
  rw [row_ofRows _ _ _ hi] at this
  rw [List.getD_eq_getElem?_getD, List.getElem?_eq_getElem hi] at this
  exact this

theorem Comp.WF.rowOk_mem {a : Comp V} (h : a.WF) : ∀ r ∈ a.rows, RowOk a.m r := by
  intro r hr
  simp only [Comp.rows, List.mem_map, List.mem_range] at hr
  obtain ⟨i, hi, rfl⟩ := hr
  exact h.rowOk i hi

/-- Two well-formed matrices with the same shape and lines are equal. -/
theorem Comp.WF.ext_rows {a b : Comp V} (ha : a.WF) (hb : b.WF) (hm : a.m = b.m) (hn : a.n = b.n)
    (h : ∀ i, i < a.n → a.row i = b.row i) : a = b := by
  rw [ha.eq_ofRows, hb.eq_ofRows, hm]
  congr 1
  unfold Comp.rows
  rw [← hn]
  apply List.map_congr_left
  intro i hi
  exact h i (by simpa using hi)

/-! ### Buffers and schedules -/

@[simp] theorem applyWrites_length {α : Type u} (buf : List α) (ws : List (Nat × α)) :
    (applyWrites buf ws).length = buf.length := by
  induction ws generalizing buf with
  | nil => rfl
  | cons w ws ih => simp [applyWrites, List.foldl_cons] at ih ⊢; rw [ih]; simp

/-- With pairwise distinct positions the order of the writes does not matter. -/
theorem applyWrites_perm {α : Type u} (buf : List α) {ws ws' : List (Nat × α)}
    (hp : ws.Perm ws') (hd : (ws.map Prod.fst).Nodup) :
    applyWrites buf ws = applyWrites buf ws' := by
  unfold applyWrites
  induction hp generalizing buf with
  | nil => rfl
  | cons x h ih => exact ih _ (List.nodup_cons.1 hd).2
  | swap x y l =>
    simp only [List.foldl_cons]
    congr 1
    simp only [List.map_cons, List.nodup_cons, List.mem_cons, not_or] at hd
    exact List.set_comm _ _ hd.1.1
  | trans h1 h2 ih1 ih2 =>
    exact (ih1 _ hd).trans (ih2 _ ((h1.map _).nodup_iff.1 hd))

theorem lineWrites_fst {α : Type u} (s : Nat) (l : List α) :
    (lineWrites s l).map Prod.fst = List.range' s l.length := by
  induction l generalizing s with
  | nil => rfl
  | cons x xs ih => simp [lineWrites, ih, List.range'_succ]

/-- The positions written by the fill pass, in program order, are `s, s+1, ...`. -/
theorem fillWrites_fst {α : Type u} (s : Nat) (outs : List (List α)) :
    (fillWrites (ptrFrom s (outs.map List.length)) outs).map Prod.fst
      = List.range' s outs.flatten.length := by
  induction outs generalizing s with
  | nil => simp [fillWrites, ptrFrom]
  | cons o os ih =>
    have : fillWrites (ptrFrom s ((o :: os).map List.length)) (o :: os)
        = lineWrites s o ++ fillWrites (ptrFrom (s + o.length) (os.map List.length)) os := by
      simp [fillWrites, ptrFrom]
    rw [this, List.map_append, ih, lineWrites_fst]
    simp only [List.flatten_cons, List.length_append]
    rw [← List.range'_append_1]

theorem fillWrites_eq_zip {α : Type u} (s : Nat) (outs : List (List α)) :
    fillWrites (ptrFrom s (outs.map List.length)) outs = lineWrites s outs.flatten := by
  induction outs generalizing s with
  | nil => simp [fillWrites, ptrFrom, lineWrites]
  | cons o os ih =>
    have h1 : fillWrites (ptrFrom s ((o :: os).map List.length)) (o :: os)
        = lineWrites s o ++ fillWrites (ptrFrom (s + o.length) (os.map List.length)) os := by
      simp [fillWrites, ptrFrom]
    have h2 : ∀ (l l' : List α) s, lineWrites s (l ++ l') = lineWrites s l ++ lineWrites (s + l.length) l' := by
      intro l l'
      induction l with
      | nil => simp [lineWrites]
      | cons x xs ih => intro s; simp [lineWrites, ih]; congr 1; omega
    rw [h1, ih, List.flatten_cons, h2]

theorem applyWrites_lineWrites {α : Type u} (l : List α) (pre buf : List α)
    (h : buf.length = l.length) :
    applyWrites (pre ++ buf) (lineWrites pre.length l) = pre ++ l := by
  induction l generalizing pre buf with
  | nil => simp [applyWrites, lineWrites]; simpa using h
  | cons x xs ih =>
    cases buf with
    | nil => simp at h
    | cons b bs =>
      have := ih (pre ++ [x]) bs (by simpa using h)
      simp only [applyWrites, lineWrites, List.foldl_cons] at this ⊢
      rw [List.set_append_right _ _ (Nat.le_refl _)]
      simpa using this

/-- Filling in program order, with counts equal to the numbers of results, yields
exactly the concatenated results. -/
theorem twoPass_eq [Zero V] (m : Nat) (outs : List (List (Int × V))) :
    twoPass m (outs.map List.length) outs = Comp.ofRows m outs := by
  have hnnz : ((prefixPtr (outs.map List.length)).getD (outs.map List.length).length 0).toNat
      = outs.flatten.length := by
    rw [prefixPtr_getD _ _ (Nat.le_refl _), List.take_length, List.length_flatten]; simp
  have h1 : outs.map List.length = (outs.map (·.map Prod.fst)).map List.length := by simp
  have h2 : outs.map List.length = (outs.map (·.map Prod.snd)).map List.length := by simp
  unfold twoPass twoPassOut Comp.ofRows
  simp only [hnnz]
  congr 1
  · simp
  · conv => lhs; rw [h1]
    rw [fillWrites_eq_zip]
    have := applyWrites_lineWrites (outs.map (·.map Prod.fst)).flatten []
      (List.replicate outs.flatten.length 0) (by simp [List.length_flatten, Function.comp_def])
    simpa using this
  · conv => lhs; rw [h2]
    rw [fillWrites_eq_zip]
    have := applyWrites_lineWrites (outs.map (·.map Prod.snd)).flatten []
      (List.replicate outs.flatten.length 0) (by simp [List.length_flatten, Function.comp_def])
    simpa using this

/-- Every schedule of the writes gives the program-order result. -/
theorem twoPassRun_eq [Zero V] (m : Nat) (outs : List (List (Int × V))) (r : Comp V)
    (h : TwoPassRun m (outs.map List.length) outs r) : r = Comp.ofRows m outs := by
  obtain ⟨wi, wv, hi, hv, rfl⟩ := h
  rw [← twoPass_eq]
  unfold twoPass twoPassOut
  have h1 : outs.map List.length = (outs.map (·.map Prod.fst)).map List.length := by simp
  have h2 : outs.map List.length = (outs.map (·.map Prod.snd)).map List.length := by simp
  simp only
  congr 1
  · apply applyWrites_perm _ hi
    rw [(hi.map _).nodup_iff]
    conv => rw [h1]
    rw [fillWrites_fst]; exact List.nodup_range'
  · apply applyWrites_perm _ hv
    rw [(hv.map _).nodup_iff]
    conv => rw [h2]
    rw [fillWrites_fst]; exact List.nodup_range'

theorem Csr.comp_inj {a b : Csr V} (h : a.comp = b.comp) : a = b := by
  cases a; cases b; simpa [Csr.comp] using h

theorem Csc.comp_inj {a b : Csc V} (h : a.comp = b.comp) : a = b := by
  cases a; cases b; simp only [Csc.comp, Comp.mk.injEq] at h; simp [h]

end Lacuna
