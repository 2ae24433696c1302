import Verif.Lemmas.CooSort
import Verif.Props.Elementwise
import Verif.Props.Construct
import Mathlib.Algebra.Ring.Int.Defs
import Mathlib.Data.List.Sort
import Mathlib.Data.List.Nodup
/-
C25 COO → CSR/CSC, C26 CSR/CSC → COO and back, C27 CSR ↔ CSC.
-/
namespace Lacuna
universe u
variable {V : Type u}

/-! ### C27: CSR ↔ CSC under every interleaving of the slot claims -/

/-- The counting pass and the claims never panic and the claimed slots are exactly the
positions `0 … nnz-1`, each once, whatever the interleaving. -/
theorem atomicFill_slots {a : Comp V} (hw : a.WFU) (hf : a.Fits) {sched : List (Nat × (Int × V))}
    (hs : Interleaving a sched) :
    ∃ ptr ws, countPtr a.m a.indices = some ptr ∧ claimAll ptr sched = some ws ∧
      (ws.map Prod.fst).Perm (List.range a.data.length) := by
  obtain ⟨ptr, ws, h1, h2, -, h4, h5⟩ := claimAll_run hw hf hs
  refine ⟨ptr, ws, h1, h2, (h4.map _).trans (List.Perm.of_eq ?_)⟩
  rw [lineWrites_fst, h5]
  exact List.range_eq_range'.symm

theorem csr_to_csc_slots {a : Csr V} (hw : a.WFU) (hf : a.comp.Fits) {sched : List (Nat × (Int × V))}
    (hs : Interleaving a.comp sched) :
    ∃ ptr ws, countPtr a.ncols a.indices = some ptr ∧ claimAll ptr sched = some ws ∧
      (ws.map Prod.fst).Perm (List.range a.data.length) := atomicFill_slots hw hf hs

theorem csc_to_csr_slots {a : Csc V} (hw : a.WFU) (hf : a.comp.Fits) {sched : List (Nat × (Int × V))}
    (hs : Interleaving a.comp sched) :
    ∃ ptr ws, countPtr a.nrows a.indices = some ptr ∧ claimAll ptr sched = some ws ∧
      (ws.map Prod.fst).Perm (List.range a.data.length) := atomicFill_slots hw hf hs

/-- C27: every possible result of CSR → CSC has the same shape and the same elements, is
well-formed except possibly for the order of the row indices inside a column, and holds the
same entry at every position.  Input need not be sorted. -/
theorem csr_to_csc_correct [Zero V] [Add V] {a : Csr V} {r : Csc V} (hw : a.WFU) (hf : a.comp.Fits)
    (h : CsrToCscRun a r) :
    r.nrows = a.nrows ∧ r.ncols = a.ncols ∧ r.data.length = a.data.length ∧ r.WFU ∧
      (∀ i j, r.stored i j = a.stored i j) ∧ ∀ i j, r.val i j = a.val i j := by
  obtain ⟨sched, hs, e⟩ := atomicFill_eq hw hf h
  refine ⟨congrArg Comp.m e, (congrArg Comp.n e).trans ?_, ?_, ?_, fun i j => ?_, fun i j => ?_⟩
  · simp [tcomp, Comp.ofRows, Csr.comp]
  · obtain ⟨_, _, _, _, _, _, g⟩ := claimAll_run hw hf hs
    have := congrArg (fun c => c.data.length) e
    simp only [tcomp, Comp.ofRows, List.length_map] at this
    exact this.trans g.symm
  · unfold Csc.WFU; rw [e]; exact tcomp_wfu hs hf
  · unfold Csc.stored; rw [e]; exact tcomp_stored hw hs hf i j
  · unfold Csc.val; rw [e]; exact tcomp_val hw hs hf i j

/-- C27 for CSC → CSR. -/
theorem csc_to_csr_correct [Zero V] [Add V] {a : Csc V} {r : Csr V} (hw : a.WFU) (hf : a.comp.Fits)
    (h : CscToCsrRun a r) :
    r.nrows = a.nrows ∧ r.ncols = a.ncols ∧ r.data.length = a.data.length ∧ r.WFU ∧
      (∀ i j, r.stored i j = a.stored i j) ∧ ∀ i j, r.val i j = a.val i j := by
  obtain ⟨sched, hs, e⟩ := atomicFill_eq hw hf h
  refine ⟨(congrArg Comp.n e).trans ?_, congrArg Comp.m e, ?_, ?_, fun i j => ?_, fun i j => ?_⟩
  · simp [tcomp, Comp.ofRows, Csc.comp]
  · obtain ⟨_, _, _, _, _, _, g⟩ := claimAll_run hw hf hs
    have := congrArg (fun c => c.data.length) e
    simp only [tcomp, Comp.ofRows, List.length_map] at this
    exact this.trans g.symm
  · unfold Csr.WFU; rw [e]; exact tcomp_wfu hs hf
  · unfold Csr.stored; rw [e]; exact tcomp_stored hw hs hf j i
  · unfold Csr.val; rw [e]; exact tcomp_val hw hs hf j i

/-- Some schedule (the rows one after the other) gives a fully well-formed result. -/
theorem csr_to_csc_sequential_wf [Zero V] {a : Csr V} (hw : a.WF) (hf : a.comp.Fits) :
    ∃ r, CsrToCscRun a r ∧ r.WF :=
  ⟨(tcomp a.comp a.comp.events).toCsc, atomicFill_of (Comp.WF.wfu hw) hf (interleaving_events _),
    tcomp_events_wf hw.noRep hf⟩

theorem csc_to_csr_sequential_wf [Zero V] {a : Csc V} (hw : a.WF) (hf : a.comp.Fits) :
    ∃ r, CscToCsrRun a r ∧ r.WF :=
  ⟨(tcomp a.comp a.comp.events).toCsr, atomicFill_of (Comp.WF.wfu hw) hf (interleaving_events _),
    tcomp_events_wf hw.noRep hf⟩

/-- Whenever the result happens to be sorted it is the unique well-formed CSC form, so all
sorted outcomes coincide. -/
theorem csr_to_csc_sorted_unique [Zero V] [Add V] {a : Csr V} {r s : Csc V} (hw : a.WFU) (hf : a.comp.Fits)
    (hr : CsrToCscRun a r) (hs : CsrToCscRun a s) (wr : r.WF) (ws : s.WF) : r = s := by
  obtain ⟨r1, r2, -, -, r3, -⟩ := csr_to_csc_correct hw hf hr
  obtain ⟨s1, s2, -, -, s3, -⟩ := csr_to_csc_correct hw hf hs
  apply Csc.comp_inj
  exact wr.ext_stored ws (r2.trans s2.symm) (r1.trans s1.symm) (fun j i => (r3 i j).trans (s3 i j).symm)

/-- The sortedness clause of C27 is false: a well-formed CSR matrix and a schedule whose CSC
result is not well-formed (row 1 claims its slot before row 0). -/
theorem csr_to_csc_unsorted :
    ∃ (a : Csr Int) (r : Csc Int), a.WF ∧ a.comp.Fits ∧ CsrToCscRun a r ∧ ¬ r.WF := by
  have hw : (⟨2, 1, [0, 1, 2], [0, 0], [5, 7]⟩ : Csr Int).WF :=
    ((csr_fromParts_iff 2 1 [0, 1, 2] [0, 0] [(5 : Int), 7] (by decide) _).1 rfl).2.2
  refine ⟨⟨2, 1, [0, 1, 2], [0, 0], [5, 7]⟩, ⟨2, 1, [0, 2], [1, 0], [7, 5]⟩, hw, ⟨by decide, by decide⟩,
    ?_, fun h => ?_⟩
  · have hs : Interleaving (⟨2, 1, [0, 1, 2], [0, 0], [5, 7]⟩ : Csr Int).comp [(1, (0, 7)), (0, (0, 5))] :=
      ⟨by decide, by decide⟩
    exact atomicFill_of (Comp.WF.wfu hw) ⟨by decide, by decide⟩ hs
  · exact absurd (h.sorted 0 (by decide) 0 1 (by decide) (by decide) (by decide)) (by decide)

/-- … and such a result then silently loses data: multiplying it with the (well-formed)
CSC form of the same matrix drops the entry 25 at position (0, 0). -/
theorem csr_to_csc_then_multiply_wrong :
    ∃ (a : Csr Int) (r b c : Csc Int), a.WF ∧ a.comp.Fits ∧ CsrToCscRun a r ∧ CsrToCscRun a b ∧ b.WF ∧
      hadamardCsc r b = some c ∧ c.val 0 0 = 0 ∧ a.val 0 0 * a.val 0 0 = 25 := by
  have hw : (⟨2, 1, [0, 1, 2], [0, 0], [5, 7]⟩ : Csr Int).WF :=
    ((csr_fromParts_iff 2 1 [0, 1, 2] [0, 0] [(5 : Int), 7] (by decide) _).1 rfl).2.2
  have hf : (⟨2, 1, [0, 1, 2], [0, 0], [5, 7]⟩ : Csr Int).comp.Fits := ⟨by decide, by decide⟩
  refine ⟨⟨2, 1, [0, 1, 2], [0, 0], [5, 7]⟩, ⟨2, 1, [0, 2], [1, 0], [7, 5]⟩, ⟨2, 1, [0, 2], [0, 1], [5, 7]⟩,
    ⟨2, 1, [0, 1], [1], [49]⟩, hw, hf, ?_, ?_, ?_, by decide, by decide, by decide⟩
  · exact atomicFill_of (Comp.WF.wfu hw) hf
      (show Interleaving _ [(1, (0, 7)), (0, (0, 5))] from ⟨by decide, by decide⟩)
  · exact atomicFill_of (Comp.WF.wfu hw) hf
      (show Interleaving _ [(0, (0, 5)), (1, (0, 7))] from ⟨by decide, by decide⟩)
  · exact ((csc_fromParts_iff 2 1 [0, 2] [0, 1] [(5 : Int), 7] (by decide) _).1 rfl).2.2

/-- CSR → CSC → CSR keeps every element, whatever both schedules were. -/
theorem csr_csc_csr_stored [Zero V] [Add V] {a r : Csr V} {b : Csc V} (hw : a.WFU) (hf : a.comp.Fits)
    (hm : (a.ncols : Int) ≤ i64Max) (h1 : CsrToCscRun a b) (h2 : CscToCsrRun b r) :
    r.nrows = a.nrows ∧ r.ncols = a.ncols ∧ (∀ i j, r.stored i j = a.stored i j) ∧
      ∀ i j, r.val i j = a.val i j := by
  obtain ⟨g1, g2, g3, g4, g5, g6⟩ := csr_to_csc_correct hw hf h1
  obtain ⟨k1, k2, -, -, k5, k6⟩ := csc_to_csr_correct (a := b) g4
    ⟨by show (b.ncols : Int) ≤ _; rw [g2]; exact hm, by show (b.data.length : Int) ≤ _; rw [g3]; exact hf.2⟩ h2
  exact ⟨k1.trans g1, k2.trans g2, fun i j => (k5 i j).trans (g5 i j), fun i j => (k6 i j).trans (g6 i j)⟩

example : exA.WFU ∧ exA.comp.Fits ∧ CsrToCscRun exA ⟨2, 3, [0, 1, 2, 3], [0, 1, 0], [5, 7, 6]⟩ :=
  ⟨Comp.WF.wfu exA_wf, ⟨by decide, by decide⟩,
    atomicFill_of (Comp.WF.wfu exA_wf) ⟨by decide, by decide⟩
      (show Interleaving _ [(0, (0, 5)), (1, (1, 7)), (0, (2, 6))] from ⟨by decide, by decide⟩)⟩

/-! ### C26: expansion to coordinates -/

theorem cooFill_spec [Zero V] {a : Comp V} {line idx : List Int} {data : List V} (hw : a.WFU) (hf : a.Fits)
    (h : CooFillRun a line idx data) :
    (line.zip idx).zip data = a.coords ∧ data = a.data ∧ idx = a.indices ∧ line.length = a.data.length ∧
      ∀ i ∈ line, 0 ≤ i ∧ i < a.n := by
  obtain ⟨e1, e2, e3⟩ := cooFill_eq hw hf h
  have hev : ∀ e ∈ a.events, e.1 < a.n ∧ e.2 ∈ a.row e.1 := fun e he => (interleaving_events a).mem he
  refine ⟨?_, ?_, ?_, ?_, ?_⟩
  · subst e1 e2 e3
    rw [List.zip_map', List.zip_map']
    unfold Comp.coords Comp.events
    rw [List.map_flatMap]
    congr 1
    funext i
    rw [List.map_map]; rfl
  · rw [e3, hw.data_eq]
    unfold Comp.events Comp.rows
    rw [List.map_flatMap, List.map_flatten, List.map_map, List.flatMap_def]
    congr 1
    apply List.map_congr_left
    intro i _
    simp [Function.comp_def]
  · rw [e2, hw.indices_eq]
    unfold Comp.events Comp.rows
    rw [List.map_flatMap, List.map_flatten, List.map_map, List.flatMap_def]
    congr 1
    apply List.map_congr_left
    intro i _
    simp [Function.comp_def]
  · rw [e1, List.length_map, events_length hw]
  · intro i hi
    rw [e1] at hi
    obtain ⟨e, he, rfl⟩ := List.mem_map.1 hi
    have := (hev e he).1
    omega

/-- C26: CSR → COO lists exactly the stored entries, row by row in storage order, for every
schedule of the writes (the input need not be sorted). -/
theorem csr_to_coo_correct [Zero V] [Add V] {a : Csr V} {r : Coo V} (hw : a.WFU) (hf : a.comp.Fits)
    (h : CsrToCooRun a r) :
    r.nrows = a.nrows ∧ r.ncols = a.ncols ∧ r.WF ∧ r.I64 ∧ r.data = a.data ∧ r.col = a.indices ∧
      (r.triples = (List.range a.nrows).flatMap fun (i : Nat) =>
        (a.comp.row i).map fun e => (((i : Int), e.1), e.2)) ∧
      (∀ i j, r.val i j = a.val i j) ∧ (a.WF → r.NoDup) := by
  obtain ⟨h1, h2, h3⟩ := h
  obtain ⟨e1, e2, e3, e4, e5⟩ := cooFill_spec hw hf h3
  have hn : (a.comp.n : Int) = a.nrows := rfl
  refine ⟨h1, h2, ⟨?_, ?_, ?_, ?_⟩, ⟨?_, ?_⟩, e2, e3, e1, fun i j => ?_, fun hw' => ?_⟩
  · rw [e4, e2]
  · rw [e3, e2]; exact (Comp.WFU.data_length hw).symm
  · intro i hi; have := e5 i hi; omega
  · rw [e3, h2]; exact hw.bounds
  · intro i hi; have := e5 i hi; have := hf.1; omega
  · rw [e3]; exact hw.i64
  · unfold Coo.val Csr.val Comp.val
    rw [show r.triples = a.comp.coords from e1, coords_filter hw]
  · unfold Coo.NoDup
    rw [show r.triples = a.comp.coords from e1]; exact coords_nodup hw'

/-- C26: CSC → COO lists exactly the stored entries, column by column in storage order. -/
theorem csc_to_coo_correct [Zero V] [Add V] {a : Csc V} {r : Coo V} (hw : a.WFU) (hf : a.comp.Fits)
    (h : CscToCooRun a r) :
    r.nrows = a.nrows ∧ r.ncols = a.ncols ∧ r.WF ∧ r.I64 ∧ r.data = a.data ∧ r.row = a.indices ∧
      (r.triples = (List.range a.ncols).flatMap fun (j : Nat) =>
        (a.comp.row j).map fun e => ((e.1, (j : Int)), e.2)) ∧
      (∀ i j, r.val i j = a.val i j) ∧ (a.WF → r.NoDup) := by
  obtain ⟨h1, h2, h3⟩ := h
  obtain ⟨e1, e2, e3, e4, e5⟩ := cooFill_spec hw hf h3
  have hn : (a.comp.n : Int) = a.ncols := rfl
  have ht : r.tr.triples = a.comp.coords := e1
  have ht2 : r.triples = a.comp.coords.map fun t => ((t.1.2, t.1.1), t.2) := by
    rw [← ht, ← Coo.tr_triples]; rfl
  refine ⟨h1, h2, ⟨?_, ?_, ?_, ?_⟩, ⟨?_, ?_⟩, e2, e3, ?_, fun i j => ?_, fun hw' => ?_⟩
  · rw [e3, e2]; exact (Comp.WFU.data_length hw).symm
  · rw [e4, e2]
  · rw [e3, h1]; exact hw.bounds
  · intro i hi; have := e5 i hi; omega
  · rw [e3]; exact hw.i64
  · intro i hi; have := e5 i hi; have := hf.1; omega
  · rw [ht2]; unfold Comp.coords
    rw [List.map_flatMap]
    simp only [List.map_map]
    rfl
  · rw [← Coo.tr_val]
    unfold Coo.val Csc.val Comp.val
    rw [ht, coords_filter hw]
  · unfold Coo.NoDup
    rw [ht2, List.map_map]
    have := coords_nodup hw'
    have e : a.comp.coords.map (Prod.fst ∘ fun t : (Int × Int) × V => ((t.1.2, t.1.1), t.2)) =
        (a.comp.coords.map Prod.fst).map Prod.swap := by rw [List.map_map]; rfl
    rw [e]
    exact List.Nodup.map Prod.swap_injective this

/-- The expansion always produces a result. -/
theorem csr_to_coo_exists [Zero V] (a : Csr V) : ∃ r, CsrToCooRun a r := by
  obtain ⟨l, i, d, h⟩ := cooFill_exists a.comp
  exact ⟨⟨a.nrows, a.ncols, l, i, d⟩, rfl, rfl, h⟩
theorem csc_to_coo_exists [Zero V] (a : Csc V) : ∃ r, CscToCooRun a r := by
  obtain ⟨l, i, d, h⟩ := cooFill_exists a.comp
  exact ⟨⟨a.nrows, a.ncols, i, l, d⟩, rfl, rfl, h⟩

/-! ### C25: COO → CSR / CSC -/

/-- The merged sort is well-formed and holds, at `(i, j)`, the left-to-right sum of the triples
at `(i, j)` in the order the sort left them. -/
theorem coo_to_csr_exact [Zero V] [Add V] {sort : List ((Int × Int) × V) → List ((Int × Int) × V)}
    (hsort : IsTripleSort sort) {a : Coo V} (hw : a.WF) (hi : a.I64) (hn : (a.nrows : Int) ≤ i64Max)
    (hl : (a.data.length : Int) ≤ i64Max) :
    (cooToCsr sort a).nrows = a.nrows ∧ (cooToCsr sort a).ncols = a.ncols ∧ (cooToCsr sort a).WF ∧
      ∀ i j : Nat, (cooToCsr sort a).stored i j = total (sort a.triples) ((i : Int), (j : Int)) := by
  have hc := cooToCsr_closed hsort hw hn hl
  obtain ⟨hp, hs⟩ := hsort a.triples
  have hs' : ((sort a.triples).map Prod.fst).Pairwise KLe := by
    rw [List.pairwise_map]; exact hs
  have hmem : ∀ e ∈ groups (sort a.triples), (0 ≤ e.1.1 ∧ e.1.1 < a.nrows) ∧ (0 ≤ e.1.2 ∧ e.1.2 < a.ncols) ∧
      e.1.2 ≤ i64Max := by
    intro e he
    obtain ⟨t, ht, ht'⟩ := groups_keys _ e he
    have h1 := List.of_mem_zip (a := t.1) (b := t.2) (hp.mem_iff.1 ht)
    have h2 := List.of_mem_zip (a := t.1.1) (b := t.1.2) h1.1
    rw [← ht']
    exact ⟨hw.row_bounds _ h2.1, hw.col_bounds _ h2.2, hi.2 _ h2.2⟩
  refine ⟨rfl, rfl, ?_, fun i j => ?_⟩
  · unfold Csr.WF
    rw [hc]
    apply Comp.wf_ofRows
    intro r hr
    obtain ⟨i, -, rfl⟩ := List.mem_map.1 hr
    refine ⟨?_, fun e he => ?_, fun e he => ?_⟩
    · have := groups_sorted hs'
      rw [List.pairwise_map] at this
      unfold gRow
      rw [List.map_map, List.pairwise_map, List.pairwise_filter]
      refine this.imp ?_
      intro x y h hx hy
      simp only [beq_iff_eq] at hx hy
      unfold KLt at h
      simp only [Function.comp]
      omega
    · obtain ⟨e', he', rfl⟩ := List.mem_map.1 he
      exact (hmem e' (List.mem_filter.1 he').1).2.1
    · obtain ⟨e', he', rfl⟩ := List.mem_map.1 he
      exact (hmem e' (List.mem_filter.1 he').1).2.2
  · unfold Csr.stored
    rw [hc, Comp.stored_eq_lk, Comp.row_ofRows', ← groups_find hs']
    split
    · unfold lk gRow
      rw [List.find?_map, Option.map_map, List.find?_filter]
      congr 1
      congr 1
      funext e
      rw [Bool.eq_iff_iff]
      simp [Prod.ext_iff]
    · rename_i h
      rw [List.find?_eq_none.2]
      · rfl
      · intro e he hk
        have := (hmem e he).1
        simp at hk
        rw [hk] at this
        simp only at this
        omega

/-- Over a commutative monoid the total does not depend on the order. -/
theorem total_perm {K : Type _} [BEq K] [LawfulBEq K] [AddCommMonoid V] {E F : List (K × V)} (hp : F.Perm E) (k : K) :
    total F k = total E k := by
  have h := (hp.filter (fun e => e.1 == k)).map Prod.snd
  unfold total
  cases hE : (E.filter fun e => e.1 == k).map Prod.snd with
  | nil =>
    rw [hE] at h
    rw [h.eq_nil]
  | cons v vs =>
    rw [hE] at h
    cases hF : (F.filter fun e => e.1 == k).map Prod.snd with
    | nil => rw [hF] at h; exact absurd h.length_eq (by simp)
    | cons w ws =>
      rw [hF] at h
      simp only [foldl_add_sum, ← List.sum_cons]
      rw [h.sum_eq]

/-- C25: the converted matrix is well-formed and its element `(i, j)` is the sum of all triples
at `(i, j)`, whichever order the unstable sort leaves equal keys in. -/
theorem coo_to_csr_correct [AddCommMonoid V] {sort : List ((Int × Int) × V) → List ((Int × Int) × V)}
    (hsort : IsTripleSort sort) {a : Coo V} (hw : a.WF) (hi : a.I64) (hn : (a.nrows : Int) ≤ i64Max)
    (hl : (a.data.length : Int) ≤ i64Max) :
    (cooToCsr sort a).nrows = a.nrows ∧ (cooToCsr sort a).ncols = a.ncols ∧ (cooToCsr sort a).WF ∧
      ∀ i j : Nat, (cooToCsr sort a).val i j = a.val i j := by
  obtain ⟨h1, h2, h3, h4⟩ := coo_to_csr_exact hsort hw hi hn hl
  refine ⟨h1, h2, h3, fun i j => ?_⟩
  unfold Csr.val
  rw [Comp.WF.val_eq_stored h3]
  show ((cooToCsr sort a).stored i j).getD 0 = _
  rw [h4, total_perm (hsort a.triples).1, total_getD]
  rfl

/-- C25: the result does not depend on the tie order of the sort at all … -/
theorem coo_to_csr_sort_indep [AddCommMonoid V] {s1 s2 : List ((Int × Int) × V) → List ((Int × Int) × V)}
    (h1 : IsTripleSort s1) (h2 : IsTripleSort s2) {a : Coo V} (hw : a.WF) (hi : a.I64)
    (hn : (a.nrows : Int) ≤ i64Max) (hl : (a.data.length : Int) ≤ i64Max) :
    cooToCsr s1 a = cooToCsr s2 a := by
  obtain ⟨-, -, w1, g1⟩ := coo_to_csr_exact h1 hw hi hn hl
  obtain ⟨-, -, w2, g2⟩ := coo_to_csr_exact h2 hw hi hn hl
  apply Csr.comp_inj
  refine Comp.WF.ext_stored w1 w2 rfl rfl (fun i j => ?_)
  have e1 := g1 i j
  have e2 := g2 i j
  rw [total_perm (h1 _).1] at e1
  rw [total_perm (h2 _).1] at e2
  exact e1.trans e2.symm

/-- … and, without duplicates, not even for machine arithmetic: every triple is stored as it is. -/
theorem coo_to_csr_nodup [Zero V] [Add V] {sort : List ((Int × Int) × V) → List ((Int × Int) × V)}
    (hsort : IsTripleSort sort) {a : Coo V} (hw : a.WF) (hi : a.I64) (hd : a.NoDup)
    (hn : (a.nrows : Int) ≤ i64Max) (hl : (a.data.length : Int) ≤ i64Max) (i j : Nat) (v : V) :
    (cooToCsr sort a).stored i j = some v ↔ (((i : Int), (j : Int)), v) ∈ a.triples := by
  obtain ⟨-, -, -, h4⟩ := coo_to_csr_exact hsort hw hi hn hl
  rw [h4, total_perm_nodup (hsort _).1 hd, total_nodup hd]

/-- C25 for CSC: exact form. -/
theorem coo_to_csc_exact [Zero V] [Add V] {sort : List ((Int × Int) × V) → List ((Int × Int) × V)}
    (hsort : IsTripleSort sort) {a : Coo V} (hw : a.WF) (hi : a.I64) (hn : (a.ncols : Int) ≤ i64Max)
    (hl : (a.data.length : Int) ≤ i64Max) :
    (cooToCsc sort a).nrows = a.nrows ∧ (cooToCsc sort a).ncols = a.ncols ∧ (cooToCsc sort a).WF ∧
      ∀ i j : Nat, (cooToCsc sort a).stored i j =
        total (sort (a.triples.map fun t => ((t.1.2, t.1.1), t.2))) ((j : Int), (i : Int)) := by
  obtain ⟨-, -, h3, h4⟩ := coo_to_csr_exact hsort hw.tr (show a.tr.I64 from ⟨hi.2, hi.1⟩) hn hl
  refine ⟨rfl, rfl, h3, fun i j => ?_⟩
  rw [← Coo.tr_triples]
  exact h4 j i

theorem coo_to_csc_sort_indep [AddCommMonoid V] {s1 s2 : List ((Int × Int) × V) → List ((Int × Int) × V)}
    (h1 : IsTripleSort s1) (h2 : IsTripleSort s2) {a : Coo V} (hw : a.WF) (hi : a.I64)
    (hn : (a.ncols : Int) ≤ i64Max) (hl : (a.data.length : Int) ≤ i64Max) :
    cooToCsc s1 a = cooToCsc s2 a := by
  have h := coo_to_csr_sort_indep h1 h2 hw.tr (show a.tr.I64 from ⟨hi.2, hi.1⟩) hn hl
  unfold cooToCsc
  unfold Coo.tr at h
  rw [h]

theorem coo_to_csc_nodup [Zero V] [Add V] {sort : List ((Int × Int) × V) → List ((Int × Int) × V)}
    (hsort : IsTripleSort sort) {a : Coo V} (hw : a.WF) (hi : a.I64) (hd : a.NoDup)
    (hn : (a.ncols : Int) ≤ i64Max) (hl : (a.data.length : Int) ≤ i64Max) (i j : Nat) (v : V) :
    (cooToCsc sort a).stored i j = some v ↔ (((i : Int), (j : Int)), v) ∈ a.triples := by
  have hd' : a.tr.NoDup := by
    unfold Coo.NoDup at hd ⊢
    rw [Coo.tr_triples, List.map_map]
    have : (Prod.fst ∘ fun t : (Int × Int) × V => ((t.1.2, t.1.1), t.2)) = Prod.swap ∘ Prod.fst := rfl
    rw [this, ← List.map_map]
    exact hd.map Prod.swap_injective
  have h := coo_to_csr_nodup hsort hw.tr (show a.tr.I64 from ⟨hi.2, hi.1⟩) hd' hn hl j i v
  have e : (cooToCsc sort a).stored i j = (cooToCsr sort a.tr).stored j i := rfl
  rw [e, h, Coo.tr_triples]
  constructor
  · intro hm
    obtain ⟨t, ht, he⟩ := List.mem_map.1 hm
    obtain ⟨⟨p, q⟩, w⟩ := t
    simp only [Prod.mk.injEq] at he
    obtain ⟨⟨e1, e2⟩, e3⟩ := he
    subst e1 e2 e3
    exact ht
  · intro hm
    exact List.mem_map.2 ⟨_, hm, rfl⟩

/-- C25 for CSC. -/
theorem coo_to_csc_correct [AddCommMonoid V] {sort : List ((Int × Int) × V) → List ((Int × Int) × V)}
    (hsort : IsTripleSort sort) {a : Coo V} (hw : a.WF) (hi : a.I64) (hn : (a.ncols : Int) ≤ i64Max)
    (hl : (a.data.length : Int) ≤ i64Max) :
    (cooToCsc sort a).nrows = a.nrows ∧ (cooToCsc sort a).ncols = a.ncols ∧ (cooToCsc sort a).WF ∧
      ∀ i j : Nat, (cooToCsc sort a).val i j = a.val i j := by
  obtain ⟨-, -, h3, h4⟩ := coo_to_csr_correct hsort hw.tr (show a.tr.I64 from ⟨hi.2, hi.1⟩) hn hl
  refine ⟨rfl, rfl, h3, fun i j => ?_⟩
  rw [← Coo.tr_val]
  exact h4 j i

/-! ### C26: round trips -/

/-- C26: CSR → COO → CSR is the identity on well-formed matrices, bit for bit, for every
schedule and every correct sort. -/
theorem csr_coo_csr [Zero V] [Add V] {sort : List ((Int × Int) × V) → List ((Int × Int) × V)}
    (hsort : IsTripleSort sort) {a : Csr V} {r : Coo V} (hw : a.WF) (hf : a.comp.Fits) (h : CsrToCooRun a r) :
    cooToCsr sort r = a := by
  obtain ⟨h1, h2, h3, h4, h5, -, h6, -, h7⟩ := csr_to_coo_correct (Comp.WF.wfu hw) hf h
  obtain ⟨g1, g2, g3, g4⟩ := coo_to_csr_exact hsort h3 h4 (by rw [h1]; exact hf.1) (by rw [h5]; exact hf.2)
  apply Csr.comp_inj
  refine Comp.WF.ext_stored g3 hw (g1.trans h1) (g2.trans h2) (fun i j => ?_)
  refine (g4 i j).trans ?_
  rw [total_perm_nodup (hsort _).1 (h7 hw), show r.triples = a.comp.coords from h6, coords_total hw]

/-- C26 for CSC. -/
theorem csc_coo_csc [Zero V] [Add V] {sort : List ((Int × Int) × V) → List ((Int × Int) × V)}
    (hsort : IsTripleSort sort) {a : Csc V} {r : Coo V} (hw : a.WF) (hf : a.comp.Fits) (h : CscToCooRun a r) :
    cooToCsc sort r = a := by
  have h' : CsrToCooRun (⟨a.ncols, a.nrows, a.indptr, a.indices, a.data⟩ : Csr V) r.tr := ⟨h.2.1, h.1, h.2.2⟩
  have := csr_coo_csr hsort (a := ⟨a.ncols, a.nrows, a.indptr, a.indices, a.data⟩) hw hf h'
  apply Csc.comp_inj
  rw [cooToCsc_eq, this]
  rfl

/-- Order of the triples by `(row, col)`. -/
def tripleLe (x y : (Int × Int) × V) : Prop := x.1.1 < y.1.1 ∨ (x.1.1 = y.1.1 ∧ x.1.2 ≤ y.1.2)
instance : DecidableRel (tripleLe (V := V)) := fun _ _ => by unfold tripleLe; infer_instance
instance : Std.Total (tripleLe (V := V)) := ⟨fun _ _ => by unfold tripleLe; omega⟩
instance : IsTrans _ (tripleLe (V := V)) := ⟨fun _ _ _ h1 h2 => by unfold tripleLe at *; omega⟩

/-- Sorts as required exist. -/
theorem isTripleSort_insertionSort : IsTripleSort (List.insertionSort (tripleLe (V := V))) :=
  fun l => ⟨List.perm_insertionSort _ l, List.pairwise_insertionSort (tripleLe (V := V)) l⟩

/-- A COO matrix with a duplicate at (0, 1) and an empty row. -/
def exDup : Coo Int := ⟨3, 2, [2, 0, 0], [0, 1, 1], [7, 4, 5]⟩
theorem exDup_wf : exDup.WF := ⟨rfl, rfl, by decide, by decide⟩
example : exDup.WF ∧ exDup.I64 ∧ (exDup.nrows : Int) ≤ i64Max ∧ (exDup.data.length : Int) ≤ i64Max ∧
    ¬ exDup.NoDup ∧
    cooToCsr (List.insertionSort tripleLe) exDup =
      ⟨3, 2, [0, 1, 1, 2], [1, 0], [9, 7]⟩ :=
  ⟨exDup_wf, ⟨by decide, by decide⟩, by decide, by decide, by unfold Coo.NoDup; decide, by decide⟩
example : ∃ r, exA.WF ∧ exA.comp.Fits ∧ CsrToCooRun exA r :=
  let ⟨r, h⟩ := csr_to_coo_exists exA
  ⟨r, exA_wf, ⟨by decide, by decide⟩, h⟩

end Lacuna
