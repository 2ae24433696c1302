import Verif.Lemmas.Scatter
import Verif.Lemmas.NdAcc
namespace Lacuna
universe u w
variable {V : Type u}

/-! ### Interleavings -/

/-- All entries with their line number, in storage order. -/
def Comp.events (a : Comp V) : List (Nat × (Int × V)) :=
  (List.range a.n).flatMap fun i => (a.row i).map fun e => (i, e)

theorem filter_events_line {n : Nat} {f : Nat → List (Int × V)} (i : Nat) (hi : i < n) :
    ((List.range n).flatMap fun i => (f i).map fun e => (i, e)).filter (fun e => e.1 == i) =
      (f i).map fun e => (i, e) := by
  induction n with
  | zero => omega
  | succ n ih =>
    rw [List.range_succ, List.flatMap_append, List.filter_append]
    simp only [List.flatMap_cons, List.flatMap_nil, List.append_nil]
    by_cases h : i = n
    · subst h
      have h1 : (List.flatMap (fun i => (f i).map fun e => (i, e)) (List.range i)).filter (fun e => e.1 == i) = [] := by
        rw [List.filter_eq_nil_iff]
        intro e he
        obtain ⟨k, hk, he⟩ := List.mem_flatMap.1 he
        obtain ⟨e', -, rfl⟩ := List.mem_map.1 he
        simp at hk; simp; omega
      rw [h1, List.nil_append, List.filter_eq_self]
      intro e he
      obtain ⟨e', -, rfl⟩ := List.mem_map.1 he
      simp
    · rw [ih (by omega)]
      have h1 : ((f n).map fun e => (n, e)).filter (fun e => e.1 == i) = [] := by
        rw [List.filter_eq_nil_iff]
        intro e he
        obtain ⟨e', -, rfl⟩ := List.mem_map.1 he
        simp; omega
      rw [h1, List.append_nil]

/-- Program order is an interleaving. -/
theorem interleaving_events (a : Comp V) : Interleaving a a.events := by
  refine ⟨?_, fun i hi => filter_events_line i hi⟩
  intro e he
  obtain ⟨k, hk, he⟩ := List.mem_flatMap.1 he
  obtain ⟨e', -, rfl⟩ := List.mem_map.1 he
  simpa using hk

theorem Interleaving.perm {a : Comp V} {sched : List (Nat × (Int × V))} (h : Interleaving a sched) :
    sched.Perm a.events := by
  refine (bucket_perm sched Prod.fst a.n h.1).trans (List.Perm.of_eq ?_)
  unfold Comp.events
  rw [List.flatMap_def, List.flatMap_def]
  congr 1
  apply List.map_congr_left
  intro i hi
  exact h.2 i (by simpa using hi)

theorem Interleaving.mem {a : Comp V} {sched : List (Nat × (Int × V))} (h : Interleaving a sched)
    {e : Nat × (Int × V)} (he : e ∈ sched) : e.1 < a.n ∧ e.2 ∈ a.row e.1 := by
  refine ⟨h.1 e he, ?_⟩
  have : e ∈ sched.filter (fun e' => e'.1 == e.1) := List.mem_filter.2 ⟨he, by simp⟩
  rw [h.2 _ (h.1 e he)] at this
  obtain ⟨e', he', h'⟩ := List.mem_map.1 this
  rw [← h']; exact he'

theorem Interleaving.snds {a : Comp V} {sched : List (Nat × (Int × V))} (h : Interleaving a sched)
    (hw : a.WFU) : (sched.map fun e => e.2.1).Perm a.indices := by
  refine (h.perm.map _).trans (List.Perm.of_eq ?_)
  rw [hw.indices_eq, Comp.rows, Comp.events, List.map_flatMap, List.map_flatten, List.map_map, ← List.flatMap_def]
  congr 1
  funext i
  simp [Function.comp_def]

/-- The lines of the transposed storage for a given order of the claims. -/
def tline (sched : List (Nat × (Int × V))) (j : Nat) : List (Int × V) :=
  (sched.filter fun e => e.2.1 == (j : Int)).map fun e => ((e.1 : Int), e.2.2)

theorem toNat_eq_iff {j : Int} (h : 0 ≤ j) (k : Nat) : (j.toNat == k) = (j == (k : Int)) := by
  rw [Bool.eq_iff_iff]; simp only [beq_iff_eq]; omega

theorem sum_take_le (l : List Nat) (k : Nat) : (l.take k).sum ≤ l.sum := by
  induction l generalizing k with
  | nil => simp
  | cons x xs ih => cases k with
    | zero => simp
    | succ k => simp; exact ih k

/-- The buckets of the schedule are the transposed lines. -/
theorem buckets_sched {a : Comp V} (hw : a.WFU) (hf : a.Fits) {sched : List (Nat × (Int × V))}
    (hs : Interleaving a sched) :
    buckets a.m (sched.map fun e => (e.2.1.toNat, (usizeToI64 e.1, e.2.2))) = (List.range a.m).map (tline sched) := by
  unfold buckets
  apply List.map_congr_left
  intro j _
  rw [List.filter_map, List.map_map]
  unfold tline
  rw [List.filter_congr (q := fun e => e.2.1 == (j : Int))]
  · apply List.map_congr_left
    intro e he
    have := (hs.mem (List.mem_filter.1 he).1).1
    simp only [Function.comp]
    rw [usizeToI64_of_le (by have := hf.1; omega)]
  · intro e he
    exact toNat_eq_iff (hw.row_bounds _ _ (hs.mem he).2).1 j

theorem ptr_of_buckets {a : Comp V} (hw : a.WFU) {sched : List (Nat × (Int × V))} (hs : Interleaving a sched) :
    countPtr a.m a.indices = some (prefixPtr (((List.range a.m).map (tline sched)).map List.length)) := by
  rw [countPtr_eq (fun j hj => ⟨(hw.bounds j hj).1, hw.i64 j hj, (hw.bounds j hj).2⟩), List.map_map]
  congr 2
  apply List.map_congr_left
  intro j _
  rw [((hs.snds hw).filter fun k => k == (j : Int)).length_eq.symm, List.filter_map, List.length_map]
  simp only [Function.comp, tline, List.length_map]
  rfl

/-- The claims of any interleaving succeed; the slots are the positions `0..nnz`, each once;
the writes fill the buffer with the transposed lines. -/
theorem claimAll_run {a : Comp V} (hw : a.WFU) (hf : a.Fits) {sched : List (Nat × (Int × V))}
    (hs : Interleaving a sched) :
    ∃ ptr ws, countPtr a.m a.indices = some ptr ∧ claimAll ptr sched = some ws ∧
      ptr = prefixPtr (((List.range a.m).map (tline sched)).map List.length) ∧
      ws.Perm (lineWrites 0 ((List.range a.m).map (tline sched)).flatten) ∧
      a.data.length = ((List.range a.m).map (tline sched)).flatten.length := by
  have hb := buckets_sched hw hf hs
  have hlen : a.data.length = sched.length := by
    rw [hw.data_length, ← (hs.snds hw).length_eq, List.length_map]
  have hkeys : ∀ e ∈ sched.map (fun e => (e.2.1.toNat, (usizeToI64 e.1, e.2.2))), e.1 < a.m := by
    intro e he
    obtain ⟨e', he', rfl⟩ := List.mem_map.1 he
    have := hw.row_bounds _ _ (hs.mem he').2
    simp only; omega
  have hperm := claimsF_scatter a.m _ hkeys
  rw [hb] at hperm
  have hflat : ((List.range a.m).map (tline sched)).flatten.length = sched.length := by
    have := hperm.length_eq
    have h2 : (lineWrites 0 ((List.range a.m).map (tline sched)).flatten).length =
        ((List.range a.m).map (tline sched)).flatten.length := by
      have := congrArg List.length (lineWrites_fst 0 ((List.range a.m).map (tline sched)).flatten)
      simpa using this
    rw [← h2, ← this, List.length_map]
    have h3 := congrArg List.length (claimsF_keys (fun j => ((((List.range a.m).map (tline sched)).map List.length).take j).sum)
      (sched.map fun e => (e.2.1.toNat, (usizeToI64 e.1, e.2.2))))
    simpa using h3
  refine ⟨_, _, ptr_of_buckets hw hs, ?_, rfl, hperm, by rw [hlen, hflat]⟩
  apply claimAll_eq (m := a.m)
  · intro k hk
    have := prefixPtr_getD (((List.range a.m).map (tline sched)).map List.length) k (by simp; omega)
    rw [List.getElem?_eq_getElem (by simp; omega)]
    rw [List.getD_eq_getElem _ _ (by simp; omega)] at this
    rw [this]
  · intro e he
    have h1 := hw.row_bounds _ _ (hs.mem he).2
    have h2 := hw.row_i64 _ _ (hs.mem he).2
    exact ⟨h1.1, h2, h1.2⟩
  · intro k hk
    have h1 : (sched.filter fun e => e.2.1.toNat == k).length = (tline sched k).length := by
      unfold tline
      rw [List.length_map, List.filter_congr (q := fun e => e.2.1 == (k : Int))]
      intro e he
      exact toNat_eq_iff (hw.row_bounds _ _ (hs.mem he).2).1 k
    have h2 := sum_take_le (((List.range a.m).map (tline sched)).map List.length) (k + 1)
    rw [List.take_succ_eq_append_getElem (by simpa using hk), List.sum_append, ← List.length_flatten, hflat, ← hlen] at h2
    simp only [List.getElem_map, List.getElem_range, List.sum_cons, List.sum_nil] at h2
    rw [h1]
    have := hf.2
    omega

theorem lineWrites_map' {α β : Type _} (s : Nat) (l : List α) (f : α → β) :
    (lineWrites s l).map (fun w => (w.1, f w.2)) = lineWrites s (l.map f) := by
  induction l generalizing s with
  | nil => rfl
  | cons x l ih => simp [lineWrites, ih]

theorem applyWrites_scatter' {α : Type _} {ws : List (Nat × α)} {flat buf : List α}
    (hp : ws.Perm (lineWrites 0 flat)) (hl : buf.length = flat.length) :
    applyWrites buf ws = flat := applyWrites_scatter hp hl

/-- The transposed storage for a given order of the claims. -/
def tcomp (a : Comp V) (sched : List (Nat × (Int × V))) : Comp V :=
  Comp.ofRows a.n ((List.range a.m).map (tline sched))

theorem applyWrites_scatter_map {α β : Type _} {ws : List (Nat × β)} {wi : List (Nat × α)} {flat : List β}
    {buf : List α} (f : β → α)
    (hp : ws.Perm (lineWrites 0 flat)) (hi : wi.Perm (ws.map fun w => (w.1, f w.2)))
    (hl : buf.length = flat.length) : applyWrites buf wi = flat.map f := by
  apply applyWrites_scatter'
  · refine hi.trans ((hp.map _).trans (List.Perm.of_eq ?_))
    exact lineWrites_map' 0 flat f
  · simpa using hl

theorem atomicFill_eq [Zero V] {a r : Comp V} (hw : a.WFU) (hf : a.Fits) (h : AtomicFillRun a r) :
    ∃ sched, Interleaving a sched ∧ r = tcomp a sched := by
  obtain ⟨ptr, h1, sched, ws, wi, wv, hs, h2, h3, h4, rfl⟩ := h
  obtain ⟨ptr', ws', g1, g2, g3, g4, g5⟩ := claimAll_run hw hf hs
  rw [h1] at g1; cases g1
  rw [h2] at g2; cases g2
  refine ⟨sched, hs, ?_⟩
  unfold tcomp Comp.ofRows
  congr 1
  · simp
  · exact applyWrites_scatter_map Prod.fst g4 h3 (by simp [g5])
  · exact applyWrites_scatter_map Prod.snd g4 h4 (by simp [g5])

theorem atomicFill_of [Zero V] {a : Comp V} (hw : a.WFU) (hf : a.Fits) {sched : List (Nat × (Int × V))}
    (hs : Interleaving a sched) : AtomicFillRun a (tcomp a sched) := by
  obtain ⟨ptr, ws, g1, g2, g3, g4, g5⟩ := claimAll_run hw hf hs
  refine ⟨ptr, g1, sched, ws, _, _, hs, g2, List.Perm.refl _, List.Perm.refl _, ?_⟩
  unfold tcomp Comp.ofRows
  have k1 := applyWrites_scatter_map (buf := List.replicate a.data.length (0 : Int)) Prod.fst g4
    (List.Perm.refl _) (by rw [List.length_replicate, g5])
  have k2 := applyWrites_scatter_map (buf := List.replicate a.data.length (0 : V)) Prod.snd g4
    (List.Perm.refl _) (by rw [List.length_replicate, g5])
  rw [k1, k2, g3]
  congr 1
  simp

/-- The entries with index `i` of transposed line `j` are the entries with index `j` of
line `i`, in the same order. -/
theorem tline_filter {a : Comp V} {sched : List (Nat × (Int × V))} (hs : Interleaving a sched)
    (i j : Nat) (hi : i < a.n) :
    ((tline sched j).filter fun e => e.1 == (i : Int)).map Prod.snd =
      ((a.row i).filter fun e => e.1 == (j : Int)).map Prod.snd := by
  unfold tline
  rw [List.filter_map, List.map_map, List.filter_filter]
  have e1 : (sched.filter fun e => ((fun e : Int × V => e.1 == (i : Int)) ∘ fun e : Nat × (Int × V) => ((e.1 : Int), e.2.2)) e &&
      (e.2.1 == (j : Int))) = (sched.filter fun e => e.1 == i).filter fun e => e.2.1 == (j : Int) := by
    rw [List.filter_filter]
    apply List.filter_congr
    intro e _
    simp only [Function.comp]
    rw [Bool.eq_iff_iff]
    simp only [Bool.and_eq_true, beq_iff_eq]
    omega
  rw [e1, hs.2 i hi, List.filter_map, List.map_map]
  rfl

theorem tline_bounds {a : Comp V} {sched : List (Nat × (Int × V))} (hs : Interleaving a sched) (hf : a.Fits)
    (j : Nat) : ∀ e ∈ tline sched j, 0 ≤ e.1 ∧ e.1 < a.n ∧ e.1 ≤ i64Max := by
  intro e he
  obtain ⟨e', he', rfl⟩ := List.mem_map.1 he
  have := hs.1 e' (List.mem_filter.1 he').1
  have := hf.1
  simp only; omega

theorem tcomp_wfu {a : Comp V} {sched : List (Nat × (Int × V))} (hs : Interleaving a sched) (hf : a.Fits) :
    (tcomp a sched).WFU := by
  apply Comp.wfu_ofRows
  intro r hr e he
  obtain ⟨j, -, rfl⟩ := List.mem_map.1 hr
  exact tline_bounds hs hf j e he

theorem lk_eq_head (j : Int) (r : Row V) : lk j r = ((r.filter fun e => e.1 == j).map Prod.snd).head? := by
  unfold lk
  rw [List.head?_map, List.head?_filter]

theorem Comp.WFU.row_of_ge {a : Comp V} (h : a.WFU) {i : Nat} (hi : a.n ≤ i) : a.row i = [] :=
  Comp.row_of_ge h.ptr_length hi

theorem Comp.WFU.filter_col_ge {a : Comp V} (h : a.WFU) (i : Nat) {j : Nat} (hj : a.m ≤ j) :
    (a.row i).filter (fun e => e.1 == (j : Int)) = [] := by
  rw [List.filter_eq_nil_iff]
  intro e he
  have := h.row_bounds i e he
  simp; omega

/-- Filtered lines of the transposed storage, for all indices. -/
theorem tcomp_filter {a : Comp V} (hw : a.WFU) {sched : List (Nat × (Int × V))} (hs : Interleaving a sched)
    (hf : a.Fits) (i j : Nat) :
    (((tcomp a sched).row j).filter fun e => e.1 == (i : Int)).map Prod.snd =
      ((a.row i).filter fun e => e.1 == (j : Int)).map Prod.snd := by
  have hw' := tcomp_wfu hs hf
  by_cases hi : i < a.n
  · unfold tcomp
    rw [Comp.row_ofRows']
    split
    · exact tline_filter hs i j hi
    · rename_i h
      rw [hw.filter_col_ge i (by omega)]; rfl
  · rw [hw.row_of_ge (by omega), hw'.filter_col_ge j (show a.n ≤ i by omega)]; rfl

theorem tcomp_val [Add V] [Zero V] {a : Comp V} (hw : a.WFU) {sched : List (Nat × (Int × V))}
    (hs : Interleaving a sched) (hf : a.Fits) (i j : Nat) : (tcomp a sched).val j i = a.val i j := by
  unfold Comp.val
  rw [tcomp_filter hw hs hf]

theorem tcomp_stored {a : Comp V} (hw : a.WFU) {sched : List (Nat × (Int × V))}
    (hs : Interleaving a sched) (hf : a.Fits) (i j : Nat) : (tcomp a sched).stored j i = a.stored i j := by
  rw [Comp.stored_eq_lk, Comp.stored_eq_lk, lk_eq_head, lk_eq_head, tcomp_filter hw hs hf]

/-- In program order the transposed lines of a sorted matrix are sorted. -/
theorem Comp.WF.noRep {a : Comp V} (h : a.WF) : a.NoRep := by
  intro i
  have hs := srt_row h i
  unfold Srt at hs
  exact hs.imp (fun h => by omega)

theorem tline_events_sorted {a : Comp V} (hd : a.NoRep) (j : Nat) :
    ((tline a.events j).map Prod.fst).Pairwise (· < ·) := by
  unfold tline Comp.events
  rw [List.map_map]
  have : ∀ n, (((List.range n).flatMap fun i => (a.row i).map fun e => (i, e)).filter
      (fun e => e.2.1 == (j : Int))).Pairwise (fun x y => x.1 < y.1) := by
    intro n
    induction n with
    | zero => simp
    | succ n ih =>
      rw [List.range_succ, List.flatMap_append, List.filter_append, List.pairwise_append]
      refine ⟨ih, ?_, ?_⟩
      · simp only [List.flatMap_cons, List.flatMap_nil, List.append_nil]
        rw [List.filter_map]
        have hlen : ((a.row n).filter fun e => e.1 == (j : Int)).length ≤ 1 := by
          have hs := hd n
          rw [List.Nodup, List.pairwise_map] at hs
          match hl : (a.row n).filter (fun e => e.1 == (j : Int)) with
          | [] => rw [hl]; simp
          | [_] => rw [hl]; simp
          | x :: y :: l =>
            have h1 : ((a.row n).filter (fun e => e.1 == (j : Int))).Pairwise (fun x y => x.1 ≠ y.1) := hs.filter _
            have h2 : ∀ e ∈ (a.row n).filter (fun e => e.1 == (j : Int)), e.1 = j := fun e he => by
              simpa using (List.mem_filter.1 he).2
            rw [hl] at h1 h2
            have := (List.pairwise_cons.1 h1).1 y (by simp)
            have a1 := h2 x (by simp)
            have a2 := h2 y (by simp)
            omega
        have : (((a.row n).filter ((fun e : Nat × (Int × V) => e.2.1 == (j : Int)) ∘ fun e => (n, e))).map
            (fun e => (n, e))).length ≤ 1 := by
          rw [List.length_map]; exact hlen
        match hl : (((a.row n).filter ((fun e : Nat × (Int × V) => e.2.1 == (j : Int)) ∘ fun e => (n, e))).map
            (fun e => (n, e))) with
        | [] => simp
        | [_] => simp
        | x :: y :: l => rw [hl] at this; simp at this
      · intro x hx y hy
        obtain ⟨k, hk, hx⟩ := List.mem_flatMap.1 (List.mem_filter.1 hx).1
        obtain ⟨e, -, rfl⟩ := List.mem_map.1 hx
        obtain ⟨k', hk', hy⟩ := List.mem_flatMap.1 (List.mem_filter.1 hy).1
        obtain ⟨e', -, rfl⟩ := List.mem_map.1 hy
        simp at hk hk'
        simp only; omega
  rw [List.pairwise_map]
  exact (this a.n).imp (fun {x y} h => by simp only [Function.comp]; omega)

theorem tcomp_events_wf {a : Comp V} (hd : a.NoRep) (hf : a.Fits) : (tcomp a a.events).WF := by
  apply Comp.wf_ofRows
  intro r hr
  obtain ⟨j, -, rfl⟩ := List.mem_map.1 hr
  have hb := tline_bounds (interleaving_events a) hf j
  exact ⟨tline_events_sorted hd j, fun e he => ⟨(hb e he).1, (hb e he).2.1⟩, fun e he => (hb e he).2.2⟩

/-- Well-formed matrices with the same shape and stored entries are equal. -/
theorem Comp.WF.ext_stored {a b : Comp V} (ha : a.WF) (hb : b.WF) (hn : a.n = b.n) (hm : a.m = b.m)
    (h : ∀ i j, a.stored i j = b.stored i j) : a = b := by
  apply ha.ext_rows hb hm hn
  intro i _
  apply srt_ext (srt_row ha i) (srt_row hb i)
  intro j
  by_cases hj : 0 ≤ j
  · have := h i j.toNat
    rw [Comp.stored_eq_lk, Comp.stored_eq_lk, Int.toNat_of_nonneg hj] at this
    exact this
  · rw [lk_none (fun e he => by have := bounds_row ha i e he; omega),
      lk_none (fun e he => by have := bounds_row hb i e he; omega)]

/-! ### Expansion to coordinates -/

theorem cooWrites_eq {a : Comp V} (hw : a.WFU) (hf : a.Fits) :
    cooWrites a = lineWrites 0 (a.events.map fun e => ((e.1 : Int), e.2)) := by
  have hrows : a.events.map (fun e => ((e.1 : Int), e.2)) =
      ((List.range a.n).map fun i => (a.row i).map fun e => (usizeToI64 i, e)).flatten := by
    unfold Comp.events
    rw [List.map_flatMap, List.flatMap_def]
    congr 1
    apply List.map_congr_left
    intro i hi
    rw [List.map_map]
    apply List.map_congr_left
    intro e _
    simp only [Function.comp]
    rw [usizeToI64_of_le (by have := hf.1; simp at hi; omega)]
  rw [hrows, ← fillWrites_eq_zip]
  unfold cooWrites fillWrites
  rw [List.flatMap_def, List.flatMap_def]
  congr 1
  apply List.ext_getElem
  · simp
  · intro i h1 h2
    simp only [List.length_map, List.length_range] at h1
    have h4 : ((List.range a.n).map fun i => (a.row i).map fun e => (usizeToI64 i, e)).map List.length =
        a.rows.map List.length := by
      simp [Comp.rows, Function.comp_def]
    have h3 := ptrFrom_getD 0 (a.rows.map List.length) i (by simp; omega)
    rw [hw.sum_take (by omega), List.getD_eq_getElem _ _ (by simp; omega)] at h3
    simp only [h4]
    simp [h3]

theorem events_length {a : Comp V} (hw : a.WFU) : a.events.length = a.data.length := by
  rw [hw.data_length, ← ((interleaving_events a).snds hw).length_eq, List.length_map]

theorem cooFill_eq [Zero V] {a : Comp V} (hw : a.WFU) (hf : a.Fits) {line idx : List Int} {data : List V}
    (h : CooFillRun a line idx data) :
    line = a.events.map (fun e => (e.1 : Int)) ∧ idx = a.events.map (fun e => e.2.1) ∧
      data = a.events.map fun e => e.2.2 := by
  obtain ⟨w1, w2, w3, h1, h2, h3, rfl, rfl, rfl⟩ := h
  rw [cooWrites_eq hw hf] at h1 h2 h3
  have hl := events_length hw
  refine ⟨?_, ?_, ?_⟩
  · rw [applyWrites_scatter_map (fun e : Int × (Int × V) => e.1) (List.Perm.refl _) h1 (by simp [hl]), List.map_map]; rfl
  · rw [applyWrites_scatter_map (fun e : Int × (Int × V) => e.2.1) (List.Perm.refl _) h2 (by simp [hl]), List.map_map]; rfl
  · rw [applyWrites_scatter_map (fun e : Int × (Int × V) => e.2.2) (List.Perm.refl _) h3 (by simp [hl]), List.map_map]; rfl

theorem cooFill_exists [Zero V] (a : Comp V) : ∃ line idx data, CooFillRun a line idx data :=
  ⟨_, _, _, _, _, _, List.Perm.refl _, List.Perm.refl _, List.Perm.refl _, rfl, rfl, rfl⟩

end Lacuna
