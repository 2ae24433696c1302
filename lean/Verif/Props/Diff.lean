import Verif.Lemmas.Diff
import Verif.Props.Cumulative
import Verif.Props.Nd
/-
C41: n-th forward differences.  Exact arithmetic (`AddCommGroup`), every correct sort, every
schedule of every parallel step, every order `n`.
-/
namespace Lacuna
universe u
variable {V : Type u}

/-- The rows computed by the kernel. -/
theorem diff_rows [BEq V] [LawfulBEq V] [AddCommGroup V] {sort : List (Nat × V) → List (Nat × V)} (hsort : IsSort sort)
    {a : Csr V} (ha : a.WFU) {n : Nat} (hn : n < a.ncols) :
    ∃ f : Nat → List (Nat × V), ((List.range a.nrows).mapM fun i =>
        diffRowPairs sort ((a.comp.row i).map fun e => (i64ToUsize e.1, e.2)) a.ncols n) =
        some ((List.range a.nrows).map f) ∧
      (∀ i, ∀ e ∈ f i, e.1 < a.ncols - n ∧ (e.1 : Int) ≤ i64Max) ∧ (∀ i, ∀ e ∈ f i, e.2 ≠ 0) ∧
      (0 < n ∨ a.WF → ∀ i, ((f i).map Prod.fst).Pairwise (· < ·)) ∧
      (∀ i j, j < a.ncols - n → ksum (f i) j = diffN n (a.val i) j) := by
  have hb : ∀ i, ∀ e ∈ (a.comp.row i).map fun e => (i64ToUsize e.1, e.2), e.1 < a.ncols ∧ e.1 ≤ i64Max.toNat := by
    intro i e he
    obtain ⟨x, hx, rfl⟩ := List.mem_map.1 he
    have h1 := Comp.WFU.row_bounds ha i x hx
    have h2 := Comp.WFU.row_i64 ha i x hx
    have h3 : x.1 < (a.ncols : Int) := h1.2
    simp only
    rw [i64ToUsize_of_nonneg h1.1 h2]
    omega
  have key := fun i => diffRowPairs_spec hsort hn (fun e he => (hb i e he).1)
  choose f f1 f2 f3 f4 f5 f6 using key
  refine ⟨f, ?_, fun i e he => ⟨f2 i e he, ?_⟩, f3, fun h i => f4 i ?_, fun i j hj => ?_⟩
  · exact mapM_option_map (fun i _ => f1 i)
  · have := f6 i i64Max.toNat (fun e he => (hb i e he).2) e he
    have h0 : (0 : Int) ≤ i64Max := by decide
    omega
  · rcases h with h | h
    · exact .inl h
    · right
      have hs := srt_row h i
      unfold Srt at hs
      rw [List.map_map]
      rw [List.pairwise_map] at hs ⊢
      refine hs.imp_of_mem ?_
      intro x y hx hy hxy
      show i64ToUsize x.1 < i64ToUsize y.1
      have hx1 := Comp.WFU.row_bounds ha i x hx
      have hy1 := Comp.WFU.row_bounds ha i y hy
      rw [i64ToUsize_of_nonneg hx1.1 (Comp.WFU.row_i64 ha i x hx), i64ToUsize_of_nonneg hy1.1 (Comp.WFU.row_i64 ha i y hy)]
      omega
  · rw [f5 i j hj]
    exact diffN_congr n (fun k _ _ => ksum_row ha i k)

/-- C41, along the rows: shape `nrows × (ncols - n)`, element `(i, j)` is the `n`-fold forward
difference of row `i` at `j`, no stored zeros, sorted rows for every order `n ≥ 1` (even when
the input rows are unsorted). -/
theorem diff_csr_axis1_correct [BEq V] [LawfulBEq V] [AddCommGroup V] {sort : List (Nat × V) → List (Nat × V)}
    (hsort : IsSort sort) {a r : Csr V} (ha : a.WFU) {n : Nat} (h : DiffCsrAxis1Run sort n a r) :
    r.nrows = a.nrows ∧ r.ncols = a.ncols - n ∧ r.WFU ∧ (0 < n ∨ a.WF → r.WF) ∧ r.comp.NoZeros ∧
      (8 * r.data.length : Int) ≤ i64Max ∧
      ∀ i j, i < a.nrows → j < a.ncols - n → r.val i j = diffN n (a.val i) j := by
  unfold DiffCsrAxis1Run at h
  dsimp only at h
  split at h
  · rename_i h0
    subst h
    have hw : (Comp.ofRows (a.ncols - n) (List.replicate a.nrows ([] : List (Int × V)))).WF :=
      Comp.wf_ofRows (fun r hr => by
        obtain rfl := List.eq_of_mem_replicate hr
        exact ⟨by simp, by simp, by simp⟩)
    have he : Csr.comp (⟨a.nrows, a.ncols - n, List.replicate (a.nrows + 1) 0, [], []⟩ : Csr V) =
        Comp.ofRows (a.ncols - n) (List.replicate a.nrows ([] : List (Int × V))) := by
      unfold Comp.ofRows Csr.comp
      congr 1
      · simp
      · apply List.ext_getElem
        · simp
        · intro i h1 h2
          have := prefixPtr_getD ((List.replicate a.nrows ([] : List (Int × V))).map List.length) i (by simp at h1 ⊢; omega)
          rw [List.getD_eq_getElem?_getD, List.getElem?_eq_getElem h2, Option.getD_some] at this
          rw [this]
          simp
      · simp
      · simp
    refine ⟨rfl, rfl, ?_, fun _ => ?_, by simp [Comp.NoZeros, Csr.comp], ?_, fun i j hi hj => by omega⟩
    · unfold Csr.WFU; rw [he]; exact hw.wfu
    · unfold Csr.WF; rw [he]; exact hw
    · show (8 * ((0 : Nat) : Int)) ≤ i64Max
      decide
  · rename_i h0
    obtain ⟨outs, h1, hl, outs', h2, h3⟩ := h
    obtain ⟨f, f1, f2, f3, f4, f5⟩ := diff_rows hsort ha (n := n) (by omega)
    rw [f1] at h1
    obtain rfl := Option.some.inj h1
    rw [mapM_colToI64 (fun l hl e he => by
      obtain ⟨i, -, rfl⟩ := List.mem_map.1 hl
      exact (f2 i e he).2)] at h2
    obtain rfl := Option.some.inj h2
    have hlen : ((List.range a.nrows).map f).map List.length =
        (((List.range a.nrows).map f).map fun l => l.map fun e => ((e.1 : Int), e.2)).map List.length := by
      simp [Function.comp_def]
    rw [hlen] at h3
    have hr := twoPassRun_eq _ _ _ h3
    have hr' : r.comp = Comp.ofRows (a.ncols - n)
        ((List.range a.nrows).map fun i => (f i).map fun e => ((e.1 : Int), e.2)) := by
      rw [hr, List.map_map]; rfl
    have hwfu : r.WFU := by
      unfold Csr.WFU
      rw [hr']
      apply Comp.wfu_ofRows
      intro l hl e he
      obtain ⟨i, -, rfl⟩ := List.mem_map.1 hl
      obtain ⟨x, hx, rfl⟩ := List.mem_map.1 he
      have := f2 i x hx
      exact ⟨by simp, by simp only; omega, this.2⟩
    refine ⟨(congrArg Comp.n hr').trans (by simp [Comp.ofRows]), congrArg Comp.m hr', hwfu, fun hs => ?_, ?_, ?_,
      fun i j hi hj => ?_⟩
    · unfold Csr.WF
      rw [hr']
      apply Comp.wf_ofRows
      intro l hl
      obtain ⟨i, -, rfl⟩ := List.mem_map.1 hl
      refine ⟨?_, fun e he => ?_, fun e he => ?_⟩
      · have := f4 hs i
        rw [List.map_map]
        rw [List.pairwise_map] at this ⊢
        exact this.imp (fun {x y} h => by show (x.1 : Int) < y.1; omega)
      · obtain ⟨x, hx, rfl⟩ := List.mem_map.1 he
        have := f2 i x hx
        exact ⟨by simp, by simp only; omega⟩
      · obtain ⟨x, hx, rfl⟩ := List.mem_map.1 he
        exact (f2 i x hx).2
    · intro v hv
      rw [hr'] at hv
      simp only [Comp.ofRows, List.mem_map, List.mem_flatten] at hv
      obtain ⟨e, ⟨l, ⟨i, -, rfl⟩, he⟩, rfl⟩ := hv
      obtain ⟨x, hx, rfl⟩ := List.mem_map.1 he
      simpa using f3 i x hx
    · have e1 : r.data.length = (((List.range a.nrows).map f).map List.length).sum := by
        have := congrArg (fun c => c.data.length) hr'
        simp only [Comp.ofRows, List.length_map, List.length_flatten] at this
        rw [show r.data.length = r.comp.data.length from rfl, this]
        simp [Function.comp_def]
      rw [e1]; exact_mod_cast hl
    · unfold Csr.val
      unfold Comp.val
      rw [hr', Comp.row_ofRows', if_pos hi, rval_cast, f5 i j hj]
      rfl

/-- A result exists whenever a dense result of that shape would fit into memory; nothing else
can make the kernel fail. -/
theorem diff_csr_axis1_exists [BEq V] [LawfulBEq V] [AddCommGroup V] {sort : List (Nat × V) → List (Nat × V)}
    (hsort : IsSort sort) {a : Csr V} (ha : a.WFU) {n : Nat} (hs : 0 < n ∨ a.WF)
    (hm : (8 * (a.nrows * (a.ncols - n) : Nat) : Int) ≤ i64Max) :
    ∃ r, DiffCsrAxis1Run sort n a r := by
  unfold DiffCsrAxis1Run
  dsimp only
  split
  · exact ⟨_, rfl⟩
  · obtain ⟨f, f1, f2, f3, f4, f5⟩ := diff_rows hsort ha (n := n) (by omega)
    have hlen : ((List.range a.nrows).map f).map List.length =
        (((List.range a.nrows).map f).map fun l => l.map fun e => ((e.1 : Int), e.2)).map List.length := by
      simp [Function.comp_def]
    refine ⟨(Comp.ofRows (a.ncols - n) (((List.range a.nrows).map f).map fun l => l.map fun e => ((e.1 : Int), e.2))).toCsr,
      _, f1, ?_, _, mapM_colToI64 (fun l hl e he => by
      obtain ⟨i, -, rfl⟩ := List.mem_map.1 hl
      exact (f2 i e he).2), ?_⟩
    · have : (((List.range a.nrows).map f).map List.length).sum ≤ a.nrows * (a.ncols - n) := by
        have := List.sum_le_card_nsmul (((List.range a.nrows).map f).map List.length) (a.ncols - n) (fun x hx => by
          obtain ⟨l, hl, rfl⟩ := List.mem_map.1 hx
          obtain ⟨i, -, rfl⟩ := List.mem_map.1 hl
          exact noRep_of_sorted (f4 hs i) (fun e he => (f2 i e he).1))
        simpa using this
      omega
    · rw [hlen]
      exact ⟨_, _, .refl _, .refl _, (twoPass_eq _ _).symm⟩

theorem Comp.mem_of_stored {a : Comp V} {i j : Nat} {v : V} (h : a.stored i j = some v) : v ∈ a.data := by
  unfold Comp.stored at h
  obtain ⟨e, he, rfl⟩ := Option.map_eq_some_iff.1 h
  have := List.mem_of_mem_drop (List.mem_of_mem_take (List.mem_of_find?_eq_some he))
  exact (List.of_mem_zip (show (e.1, e.2) ∈ a.indices.zip a.data from this)).2

/-- C41, along the columns: shape `(nrows - n) × ncols`, element `(i, j)` is the `n`-fold forward
difference of column `j` at `i`; order 0 returns the matrix itself. -/
theorem diff_csr_axis0_correct [BEq V] [LawfulBEq V] [AddCommGroup V] {sort : List (Nat × V) → List (Nat × V)}
    (hsort : IsSort sort) {tsort : List (Int × V) → List (Int × V)} (ht : IsPairSort tsort) {threads : Nat}
    {a r : Csr V} (ha : a.WFU) (hd : a.comp.NoRep) (hf : a.comp.Fits) (hc : (a.ncols : Int) ≤ i64Max) {n : Nat}
    (h : DiffCsrAxis0Run sort tsort threads n a r) :
    r.nrows = a.nrows - n ∧ r.ncols = a.ncols ∧ (n = 0 → r = a) ∧ (0 < n → r.WF ∧ r.comp.NoZeros) ∧
      (r.data.length : Int) ≤ i64Max ∧
      ∀ i j, i < a.nrows - n → j < a.ncols → r.val i j = diffN n (fun k => a.val k j) i := by
  unfold DiffCsrAxis0Run at h
  split at h
  · rename_i h0
    subst h0 h
    exact ⟨rfl, rfl, fun _ => rfl, fun h => absurd h (by omega), hf.2, fun i j _ _ => rfl⟩
  · rename_i h0
    obtain ⟨t, td, h1, h2, h3⟩ := h
    obtain ⟨t1, t2, t3, -, -, t6⟩ := transpose_csr_sorts ha hd hf ht h1
    obtain ⟨d1, d2, -, d4, d5, d6, d7⟩ := diff_csr_axis1_correct hsort (Comp.WF.wfu t1) h2
    have dw := d4 (.inl (by omega))
    obtain ⟨r1, r2, r3, r4, r5, r6⟩ := transpose_csr_correct dw
      ⟨by show (td.nrows : Int) ≤ _; rw [d1, t2]; exact hc, by show (td.data.length : Int) ≤ _; omega⟩ ht h3
    refine ⟨by rw [r2, d2, t3], by rw [r3, d1, t2], fun h => absurd h h0, fun _ => ⟨r1, ?_⟩, by rw [r4]; omega,
      fun i j hi hj => ?_⟩
    · intro v hv
      obtain ⟨i, j, -, -, hs⟩ := Comp.WF.mem_data r1 hv
      have e : td.comp.stored j i = some v := by
        have := r5 j i
        rw [show r.stored i j = some v from hs] at this
        exact this.symm
      exact d5 v (Comp.mem_of_stored e)
    · rw [r6 j i, d7 j i (by omega) (by omega)]
      exact diffN_congr n (fun k _ _ => t6 k j)

theorem diff_csr_axis0_exists [BEq V] [LawfulBEq V] [AddCommGroup V] {sort : List (Nat × V) → List (Nat × V)}
    (hsort : IsSort sort) {tsort : List (Int × V) → List (Int × V)} (ht : IsPairSort tsort) (threads : Nat)
    {a : Csr V} (ha : a.WFU) (hd : a.comp.NoRep) (hf : a.comp.Fits) (hc : (a.ncols : Int) ≤ i64Max) {n : Nat}
    (hm : (8 * ((a.nrows - n) * a.ncols : Nat) : Int) ≤ i64Max) :
    ∃ r, DiffCsrAxis0Run sort tsort threads n a r := by
  unfold DiffCsrAxis0Run
  split
  · exact ⟨a, rfl⟩
  · obtain ⟨t, h1⟩ := transpose_csr_unsorted_exists ha hd hf ht threads
    obtain ⟨t1, t2, t3, -, -, t6⟩ := transpose_csr_sorts ha hd hf ht h1
    obtain ⟨td, h2⟩ := diff_csr_axis1_exists hsort (Comp.WF.wfu t1) (n := n) (.inr t1)
      (by rw [t2, t3, Nat.mul_comm]; exact hm)
    obtain ⟨d1, d2, -, d4, d5, d6, d7⟩ := diff_csr_axis1_correct hsort (Comp.WF.wfu t1) h2
    obtain ⟨r, hr⟩ := transpose_csr_exists (d4 (.inr t1))
      ⟨by show (td.nrows : Int) ≤ _; rw [d1, t2]; exact hc, by show (td.data.length : Int) ≤ _; omega⟩ ht threads
    exact ⟨r, t, td, h1, h2, hr⟩

/-- The conversion of a well-formed CSC matrix stores nothing twice. -/
theorem csc_to_csr_noRep [Zero V] {a : Csc V} {c : Csr V} (ha : a.WF) (hf : a.comp.Fits) (h : CscToCsrRun a c) :
    c.comp.NoRep := by
  obtain ⟨sched, hs, e⟩ := atomicFill_eq (Comp.WF.wfu ha) hf h
  rw [e]; exact tcomp_noRep ha hs hf

/-- C41, CSC along the rows.  The values are right for every schedule of both conversions; the
order within a column of the result is that of the second conversion. -/
theorem diff_csc_axis1_correct [BEq V] [LawfulBEq V] [AddCommGroup V] {sort : List (Nat × V) → List (Nat × V)}
    (hsort : IsSort sort) {a : Csc V} (ha : a.WF) (hf : a.comp.Fits) (hr : (a.nrows : Int) ≤ i64Max) {n : Nat}
    {r : Csc V} (h : DiffCscAxis1Run sort n a r) :
    r.nrows = a.nrows ∧ r.ncols = a.ncols - n ∧ r.WFU ∧
      ∀ i j, i < a.nrows → j < a.ncols - n → r.val i j = diffN n (a.val i) j := by
  obtain ⟨c, b, h1, h2, h3⟩ := h
  obtain ⟨c1, c2, c3, c4, -, c6⟩ := csc_to_csr_correct (Comp.WF.wfu ha) hf h1
  obtain ⟨d1, d2, d3, -, -, d6, d7⟩ := diff_csr_axis1_correct hsort c4 h2
  obtain ⟨r1, r2, r3, r4, -, r6⟩ := csr_to_csc_correct d3
    ⟨by show (b.nrows : Int) ≤ _; rw [d1, c1]; exact hr, by show (b.data.length : Int) ≤ _; omega⟩ h3
  refine ⟨by rw [r1, d1, c1], by rw [r2, d2, c2], r4, fun i j hi hj => ?_⟩
  rw [r6, d7 i j (by omega) (by omega)]
  exact diffN_congr n (fun k _ _ => c6 i k)

/-- C41, CSC along the columns. -/
theorem diff_csc_axis0_correct [BEq V] [LawfulBEq V] [AddCommGroup V] {sort : List (Nat × V) → List (Nat × V)}
    (hsort : IsSort sort) {tsort : List (Int × V) → List (Int × V)} (ht : IsPairSort tsort) {threads : Nat}
    {a : Csc V} (ha : a.WF) (hf : a.comp.Fits) (hr : (a.nrows : Int) ≤ i64Max) {n : Nat}
    {r : Csc V} (h : DiffCscAxis0Run sort tsort threads n a r) :
    r.nrows = a.nrows - n ∧ r.ncols = a.ncols ∧ r.WFU ∧
      ∀ i j, i < a.nrows - n → j < a.ncols → r.val i j = diffN n (fun k => a.val k j) i := by
  obtain ⟨c, b, h1, h2, h3⟩ := h
  obtain ⟨c1, c2, c3, c4, -, c6⟩ := csc_to_csr_correct (Comp.WF.wfu ha) hf h1
  obtain ⟨d1, d2, d3, d4, d5, d7⟩ := diff_csr_axis0_correct hsort ht c4 (csc_to_csr_noRep ha hf h1)
    ⟨by show (c.nrows : Int) ≤ _; rw [c1]; exact hr, by show (c.data.length : Int) ≤ _; rw [c3]; exact hf.2⟩
    (by rw [c2]; exact hf.1) h2
  have hw : b.WFU := by
    by_cases h0 : n = 0
    · rw [d3 h0]; exact c4
    · exact Comp.WF.wfu (d4 (by omega)).1
  obtain ⟨r1, r2, r3, r4, -, r6⟩ := csr_to_csc_correct hw
    ⟨by show (b.nrows : Int) ≤ _; rw [d1, c1]; omega, d5⟩ h3
  refine ⟨by rw [r1, d1, c1], by rw [r2, d2, c2], r4, fun i j hi hj => ?_⟩
  rw [r6, d7 i j (by omega) (by omega)]
  exact diffN_congr n (fun k _ _ => c6 k j)

/-- Results exist for CSC input, and (for `n ≥ 1`) the sequential schedule of the last
conversion leaves them well-formed. -/
theorem diff_csc_exists [BEq V] [LawfulBEq V] [AddCommGroup V] {sort : List (Nat × V) → List (Nat × V)}
    (hsort : IsSort sort) {tsort : List (Int × V) → List (Int × V)} (ht : IsPairSort tsort) (threads : Nat)
    {a : Csc V} (ha : a.WF) (hf : a.comp.Fits) (hr : (a.nrows : Int) ≤ i64Max) {n : Nat} :
    ((8 * (a.nrows * (a.ncols - n) : Nat) : Int) ≤ i64Max → ∃ r, DiffCscAxis1Run sort n a r ∧ r.WF) ∧
    ((8 * ((a.nrows - n) * a.ncols : Nat) : Int) ≤ i64Max → ∃ r, DiffCscAxis0Run sort tsort threads n a r ∧ r.WF) := by
  obtain ⟨c, hc, hcw⟩ := csc_to_csr_sequential_wf ha hf
  obtain ⟨c1, c2, c3, c4, -, c6⟩ := csc_to_csr_correct (Comp.WF.wfu ha) hf hc
  have hfc : c.comp.Fits :=
    ⟨by show (c.nrows : Int) ≤ _; rw [c1]; exact hr, by show (c.data.length : Int) ≤ _; rw [c3]; exact hf.2⟩
  have hcc : (c.ncols : Int) ≤ i64Max := by rw [c2]; exact hf.1
  constructor
  · intro hm
    obtain ⟨b, hb⟩ := diff_csr_axis1_exists hsort c4 (n := n) (.inr hcw) (by rw [c1, c2]; exact hm)
    obtain ⟨d1, d2, d3, d4, -, d6, d7⟩ := diff_csr_axis1_correct hsort c4 hb
    obtain ⟨r, h1, h2⟩ := csr_to_csc_sequential_wf (d4 (.inr hcw))
      ⟨by show (b.nrows : Int) ≤ _; rw [d1, c1]; exact hr, by show (b.data.length : Int) ≤ _; omega⟩
    exact ⟨r, ⟨c, b, hc, hb, h1⟩, h2⟩
  · intro hm
    obtain ⟨b, hb⟩ := diff_csr_axis0_exists hsort ht threads c4 (Comp.WF.noRep hcw) hfc hcc (n := n)
      (by rw [c1, c2]; exact hm)
    obtain ⟨d1, d2, d3, d4, d5, d7⟩ := diff_csr_axis0_correct hsort ht c4 (Comp.WF.noRep hcw) hfc hcc hb
    have hw : b.WF := by
      by_cases h0 : n = 0
      · rw [d3 h0]; exact hcw
      · exact (d4 (by omega)).1
    obtain ⟨r, h1, h2⟩ := csr_to_csc_sequential_wf hw
      ⟨by show (b.nrows : Int) ≤ _; rw [d1, c1]; omega, d5⟩
    exact ⟨r, ⟨c, b, hc, hb, h1⟩, h2⟩

/-- C41, COO, both axes; repeated coordinates add up and the result repeats none. -/
theorem diff_coo_correct [BEq V] [LawfulBEq V] [AddCommGroup V] {sort : List (Nat × V) → List (Nat × V)}
    (hsort : IsSort sort) {tsort : List (Int × V) → List (Int × V)} (ht : IsPairSort tsort) {threads : Nat}
    {csort : List ((Int × Int) × V) → List ((Int × Int) × V)} (hcs : IsTripleSort csort)
    {a : Coo V} (ha : a.WF) (hi : a.I64) (hn : (a.nrows : Int) ≤ i64Max) (hc : (a.ncols : Int) ≤ i64Max)
    (hl : (a.data.length : Int) ≤ i64Max) {n : Nat} :
    (∀ r, DiffCooAxis1Run sort csort n a r → r.nrows = a.nrows ∧ r.ncols = a.ncols - n ∧ r.WF ∧ r.NoDup ∧
      ∀ i j, i < a.nrows → j < a.ncols - n → r.val i j = diffN n (a.val i) j) ∧
    (∀ r, DiffCooAxis0Run sort tsort csort threads n a r → r.nrows = a.nrows - n ∧ r.ncols = a.ncols ∧ r.WF ∧ r.NoDup ∧
      ∀ i j, i < a.nrows - n → j < a.ncols → r.val i j = diffN n (fun k => a.val k j) i) := by
  obtain ⟨c1, c2, c3, c4⟩ := coo_to_csr_correct hcs ha hi hn hl
  have hff : (cooToCsr csort a).comp.Fits := ⟨by show ((cooToCsr csort a).nrows : Int) ≤ _; rw [c1]; exact hn,
    by have := cooToCsr_data_length_le hcs ha; show ((cooToCsr csort a).data.length : Int) ≤ _; omega⟩
  constructor
  · rintro r ⟨b, h1, h2⟩
    obtain ⟨d1, d2, d3, d4, -, d6, d7⟩ := diff_csr_axis1_correct hsort (Comp.WF.wfu c3) h1
    obtain ⟨r1, r2, r3, -, -, -, -, r8, r9⟩ := csr_to_coo_correct d3
      ⟨by show (b.nrows : Int) ≤ _; rw [d1, c1]; exact hn, by show (b.data.length : Int) ≤ _; omega⟩ h2
    refine ⟨by rw [r1, d1, c1], by rw [r2, d2, c2], r3, r9 (d4 (.inr c3)), fun i j hi hj => ?_⟩
    rw [r8, d7 i j (by omega) (by omega)]
    exact diffN_congr n (fun k _ _ => c4 i k)
  · rintro r ⟨b, h1, h2⟩
    obtain ⟨d1, d2, d3, d4, d5, d7⟩ := diff_csr_axis0_correct hsort ht (Comp.WF.wfu c3) (Comp.WF.noRep c3) hff
      (by rw [c2]; exact hc) h1
    have hw : b.WF := by
      by_cases h0 : n = 0
      · rw [d3 h0]; exact c3
      · exact (d4 (by omega)).1
    obtain ⟨r1, r2, r3, -, -, -, -, r8, r9⟩ := csr_to_coo_correct (Comp.WF.wfu hw)
      ⟨by show (b.nrows : Int) ≤ _; rw [d1, c1]; omega, d5⟩ h2
    refine ⟨by rw [r1, d1, c1], by rw [r2, d2, c2], r3, r9 hw, fun i j hi hj => ?_⟩
    rw [r8, d7 i j (by omega) (by omega)]
    exact diffN_congr n (fun k _ _ => c4 k j)

/-! ### Witnesses -/

-- [[5,0,6],[0,7,0]]: first differences [[-5,6],[7,-7]], second differences [[11],[-14]]
example : ∃ r, DiffCsrAxis1Run (fun l => l.mergeSort fun x y => decide (x.1 ≤ y.1)) 2 exA r :=
  diff_csr_axis1_exists isSort_mergeSort (Comp.WF.wfu exA_wf) (.inr exA_wf) (by decide)
example : diffN 2 (exA.val 0) 0 = 11 := by decide
example : ∀ r, DiffCsrAxis1Run (fun l => l.mergeSort fun x y => decide (x.1 ≤ y.1)) 2 exA r → r.val 0 0 = 11 ∧ r.val 1 0 = -14 := by
  intro r h
  have := (diff_csr_axis1_correct isSort_mergeSort (Comp.WF.wfu exA_wf) h).2.2.2.2.2.2
  exact ⟨(this 0 0 (by decide) (by decide)).trans (by decide), (this 1 0 (by decide) (by decide)).trans (by decide)⟩
example : ∃ r, DiffCsrAxis0Run (fun l => l.mergeSort fun x y => decide (x.1 ≤ y.1)) (List.insertionSort pairLe) 3 1 exA r :=
  diff_csr_axis0_exists isSort_mergeSort isPairSort_insertionSort 3 (Comp.WF.wfu exA_wf) (Comp.WF.noRep exA_wf)
    ⟨by decide, by decide⟩ (by decide) (by decide)
example : ∃ r, DiffCscAxis1Run (fun l => l.mergeSort fun x y => decide (x.1 ≤ y.1)) 1 exC r ∧ r.WF :=
  (diff_csc_exists isSort_mergeSort isPairSort_insertionSort 3 exC_wf ⟨by decide, by decide⟩ (by decide)).1
    (by decide)

end Lacuna
