import Verif.Lemmas.PtrDiff
import Verif.Lemmas.DiffAny
import Verif.Props.PtrTranspose
import Verif.Props.PtrConvert
import Verif.Props.PtrCumulative
/-
C64: n-th forward differences at pointer level: in bounds and exact.
-/
namespace Lacuna
variable {V : Type}

theorem Comp.WFU.machine {a : Comp V} (h : a.WFU) (h1 : 8 * ((a.n : Int) + 1) ≤ i64Max)
    (h2 : 8 * (a.data.length : Int) ≤ i64Max) : a.Machine := by
  have e1 := h.ptr_length
  have e2 := h.data_length
  exact ⟨by omega, by omega, h2, fun j hj => h.i64 j hj⟩

/-! ### along the rows -/

section
variable [BEq V] [Zero V] [Add V] [Neg V]

theorem diff_run_of_rows {sort : List (Nat × V) → List (Nat × V)} {n : Nat} {a : Csr V}
    (h0 : ¬ (a.nrows = 0 ∨ a.ncols - n = 0)) {g : Nat → List (Nat × V)}
    (hg : ∀ i, i < a.nrows → diffRowPairs sort (castPairs (a.comp.row i)) a.ncols n = some (g i))
    (hs : 8 * ((((List.range a.nrows).map fun i => (g i).length).sum : Nat) : Int) ≤ i64Max)
    (hcol : ∀ i, i < a.nrows → (g i).mapM colToI64? = some (castBack (g i))) (r : Csr V) :
    DiffCsrAxis1Run sort n a r ↔
      r = (Comp.ofRows (a.ncols - n) ((List.range a.nrows).map fun i => castBack (g i))).toCsr := by
  have e1 : ((List.range a.nrows).mapM fun i =>
      diffRowPairs sort ((a.comp.row i).map fun e => (i64ToUsize e.1, e.2)) a.ncols n) =
        some ((List.range a.nrows).map g) :=
    mapM_option_map (fun i hi => hg i (List.mem_range.1 hi))
  have e2 : ((List.range a.nrows).map g).mapM (fun o => o.mapM colToI64?) =
      some (((List.range a.nrows).map g).map castBack) :=
    mapM_option_map (fun o ho => by
      obtain ⟨i, hi, rfl⟩ := List.mem_map.1 ho
      exact hcol i (List.mem_range.1 hi))
  have e3 : ((List.range a.nrows).map g).map List.length =
      (((List.range a.nrows).map g).map castBack).map List.length := by
    simp [castBack, Function.comp_def]
  have e4 : ((List.range a.nrows).map g).map List.length = (List.range a.nrows).map fun i => (g i).length := by
    rw [List.map_map]; rfl
  have e5 : ((List.range a.nrows).map g).map castBack = (List.range a.nrows).map fun i => castBack (g i) := by
    rw [List.map_map]; rfl
  unfold DiffCsrAxis1Run
  simp only []
  rw [if_neg h0]
  constructor
  · rintro ⟨outs, h1, -, outs', h2, h3⟩
    rw [e1] at h1
    cases h1
    rw [e2] at h2
    cases h2
    rw [e3] at h3
    have := twoPassRun_eq _ _ _ h3
    rw [e5] at this
    rw [← this]
    rfl
  · rintro rfl
    refine ⟨_, e1, ?_, _, e2, ?_⟩
    · rw [e4]; exact_mod_cast hs
    · rw [e3]
      refine ⟨_, _, .refl _, .refl _, ?_⟩
      have := (twoPass_eq (V := V) (a.ncols - n) (((List.range a.nrows).map g).map castBack)).symm
      rw [e5] at this ⊢
      exact this

omit [BEq V] [Zero V] [Add V] [Neg V] in
theorem diff_early {dbg : Bool} {a : Csr V} (h : a.comp.PtrOk) (hm : a.comp.Machine) (c : Nat) :
    (do
      let ptr ← zerosP (← addUsize dbg a.nrows 1)
      pure (⟨a.nrows, c, ptr, [], []⟩ : Csr V)) = Except.ok ⟨a.nrows, c, List.replicate (a.nrows + 1) 0, [], []⟩ := by
  have h1 : a.nrows < a.comp.indptr.length := h.ptr_length
  have h2 := hm.indptr
  have h3 : a.nrows + 1 ≤ usizeMax := by unfold i64Max at h2; unfold usizeMax; omega
  rw [addUsize_eq h3, ok_bind, zerosP_ok (by push_cast; omega), ok_bind]
  rfl

/-- C64: for every matrix with valid pointers - whatever the indices - the kernel never has
undefined behaviour: a panic or the list-level result, for every schedule and every deterministic
sort.  In a release build the number of entries of the result must fit into `i64`. -/
theorem diff_csr_axis1_ptr_any {sort : List (Nat × V) → List (Nat × V)} {n : Nat} {a : Csr V} (h : a.comp.PtrOk)
    (hm : a.comp.Machine) {F : Nat} (hF : a.data.length < F) {dbg : Bool}
    (hT : dbg = true ∨ ∀ outs, ((List.range a.nrows).mapM fun i =>
      diffRowPairs sort ((a.comp.row i).map fun e => (i64ToUsize e.1, e.2)) a.ncols n) = some outs →
        (((outs.map List.length).sum : Nat) : Int) ≤ i64Max)
    {out : Except Fault (Csr V)} (hrun : DiffCsrAxis1Ptr dbg F sort n a out) :
    out = .error .panic ∨ ∃ r, DiffCsrAxis1Run sort n a r ∧ out = .ok r := by
  unfold DiffCsrAxis1Ptr at hrun
  simp only [] at hrun
  by_cases h0 : a.nrows = 0 ∨ a.ncols - n = 0
  · rw [if_pos h0, diff_early h hm] at hrun
    right
    refine ⟨_, ?_, hrun⟩
    unfold DiffCsrAxis1Run
    simp only []
    rw [if_pos h0]
    trivial
  · rw [if_neg h0] at hrun
    obtain ⟨o, ho, rfl⟩ := hrun
    have hl : 8 * ((a.nrows : Int) + 1) ≤ i64Max := by
      have h1 : a.nrows < a.comp.indptr.length := h.ptr_length
      have h2 := hm.indptr
      omega
    have hcases : ∀ i, i < a.nrows → diffRowP dbg F sort n a.comp i = .error .panic ∨
        ∃ o, diffRowP dbg F sort n a.comp i = .ok o ∧
          diffRowPairs sort (castPairs (a.comp.row i)) a.ncols n = some o :=
      fun i hi => diffRowP_cases h hm (i := i) hi hF
    have hlist : ∀ g : Nat → List (Nat × V), (∀ i, i < a.nrows → diffRowP dbg F sort n a.comp i = .ok (g i)) →
        ∀ i, i < a.nrows → diffRowPairs sort (castPairs (a.comp.row i)) a.ncols n = some (g i) := by
      intro g hg i hi
      rcases hcases i hi with h | ⟨o, h1, h2⟩
      · rw [hg i hi] at h; cases h
      · rw [hg i hi] at h1; cases h1; exact h2
    rcases diffPasses_cases (fun i hi => (hcases i hi).imp id fun ⟨o, h, _⟩ => ⟨o, h⟩) hl
      (hT.imp id fun hT g hg => by
        have := hT ((List.range a.nrows).map g) (mapM_option_map (fun i hi => hlist g hg i (List.mem_range.1 hi)))
        rw [List.map_map] at this
        exact this) ho with rfl | ⟨g, g1, g2, g3, rfl⟩
    · exact .inl rfl
    · exact .inr ⟨_, (diff_run_of_rows h0 (hlist g g1) g2 g3 _).2 rfl, rfl⟩

omit [BEq V] [Zero V] [Add V] [Neg V] in
theorem rows_sum_le {a : Comp V} (h : a.PtrOk) {m : Nat} {g : Nat → List (Nat × V)}
    (hg : ∀ i, i < a.n → (g i).length ≤ max m (a.row i).length) :
    ((List.range a.n).map fun i => (g i).length).sum ≤ a.n * m + a.data.length := by
  have key : ∀ k, k ≤ a.n → ((List.range k).map fun i => (g i).length).sum ≤ k * m + a.ptr k := by
    intro k
    induction k with
    | zero => intro _; simp
    | succ k ih =>
      intro hk
      have e1 := ih (by omega)
      have e2 := hg k (by omega)
      have e3 := h.row_length (i := k) (by omega)
      have e4 := h.ptr_mono' (i := k) (j := k + 1) (by omega) (by omega)
      rw [List.range_succ, List.map_append, List.sum_append, Nat.succ_mul]
      simp only [List.map_cons, List.map_nil, List.sum_cons, List.sum_nil]
      omega
  have := key a.n (Nat.le_refl _)
  have := h.ptr_le_data (i := a.n) (Nat.le_refl _)
  omega

/-- C64: with columns in range (unsorted and repeated allowed), a correct sort and sizes that fit
into memory the kernel has exactly the list-level outcome. -/
theorem diff_csr_axis1_ptr {sort : List (Nat × V) → List (Nat × V)} (hsort : IsSort sort) {n : Nat} {a : Csr V}
    (h : a.comp.PtrOk) (hm : a.comp.Machine) (hr : a.InRange)
    (hd : 32 * ((a.nrows * a.ncols : Nat) : Int) ≤ i64Max) (hz : 32 * (a.data.length : Int) ≤ i64Max)
    {F : Nat} (hF : a.data.length < F) (dbg : Bool) (out : Except Fault (Csr V)) :
    DiffCsrAxis1Ptr dbg F sort n a out ↔ ∃ r, DiffCsrAxis1Run sort n a r ∧ out = .ok r := by
  by_cases h0 : a.nrows = 0 ∨ a.ncols - n = 0
  · unfold DiffCsrAxis1Ptr DiffCsrAxis1Run
    simp only []
    rw [if_pos h0, diff_early h hm]
    constructor
    · rintro rfl
      exact ⟨_, by rw [if_pos h0], rfl⟩
    · rintro ⟨r, hr, rfl⟩
      rw [if_pos h0] at hr
      rw [hr]
  · have hl : 8 * ((a.nrows : Int) + 1) ≤ i64Max := by
      have h1 : a.nrows < a.comp.indptr.length := h.ptr_length
      have h2 := hm.indptr
      omega
    have hc : 32 * (a.ncols : Int) ≤ i64Max := by
      have : 1 * a.ncols ≤ a.nrows * a.ncols := Nat.mul_le_mul_right _ (by omega)
      omega
    have hrows : ∀ i, i < a.nrows → ∃ o, diffRowP dbg F sort n a.comp i = .ok o ∧
        o.length ≤ max a.ncols (a.comp.row i).length ∧ (∀ e ∈ o, e.1 < a.ncols) := by
      intro i hi
      have hrl := h.row_length (i := i) hi
      have hle := h.ptr_le_data (i := i + 1) (show i + 1 ≤ a.comp.n from hi)
      have e : a.comp.data.length = a.data.length := rfl
      exact diffRowP_ok hsort h hm (i := i) hi hF (hr i hi) (by omega) hc
    have hg : ∃ g : Nat → List (Nat × V), ∀ i, i < a.nrows → diffRowP dbg F sort n a.comp i = .ok (g i) ∧
        (g i).length ≤ max a.ncols (a.comp.row i).length ∧ (∀ e ∈ g i, e.1 < a.ncols) := by
      refine ⟨fun i => if hi : i < a.nrows then (hrows i hi).choose else [], fun i hi => ?_⟩
      simp only [dif_pos hi]
      exact (hrows i hi).choose_spec
    obtain ⟨g, hg⟩ := hg
    have hlist : ∀ i, i < a.nrows → diffRowPairs sort (castPairs (a.comp.row i)) a.ncols n = some (g i) := by
      intro i hi
      rcases diffRowP_cases (dbg := dbg) (sort := sort) (n := n) h hm (i := i) hi hF with h | ⟨o, h1, h2⟩
      · rw [(hg i hi).1] at h; cases h
      · rw [(hg i hi).1] at h1; cases h1; exact h2
    have hsum : 8 * ((((List.range a.nrows).map fun i => (g i).length).sum : Nat) : Int) ≤ i64Max := by
      have := rows_sum_le h (m := a.ncols) (g := g) (fun i hi => (hg i hi).2.1)
      have e : a.comp.data.length = a.data.length := rfl
      have e' : a.comp.n = a.nrows := rfl
      rw [e, e'] at this
      omega
    have hcol : ∀ i, i < a.nrows → (g i).mapM colToI64? = some (castBack (g i)) := by
      intro i hi
      exact colToI64_all (fun e he => by have := (hg i hi).2.2 e he; omega)
    unfold DiffCsrAxis1Ptr
    simp only []
    rw [if_neg h0]
    have key := diffPasses_ok (dbg := dbg) (m := a.ncols - n) (fun i hi => (hg i hi).1) hl hsum hcol
    constructor
    · rintro ⟨o, ho, rfl⟩
      rw [(key o).1 ho]
      exact ⟨_, (diff_run_of_rows h0 hlist hsum hcol _).2 rfl, rfl⟩
    · rintro ⟨r, hr, rfl⟩
      rw [(diff_run_of_rows h0 hlist hsum hcol r).1 hr]
      exact ⟨_, (key _).2 rfl, rfl⟩

end

/-- End to end: on a well-formed matrix every run returns a well-formed matrix of the differences;
a run exists. -/
theorem diff_csr_axis1_ptr_correct [BEq V] [LawfulBEq V] [AddCommGroup V] {sort : List (Nat × V) → List (Nat × V)}
    (hsort : IsSort sort) {n : Nat} {a : Csr V} (ha : a.WF) (hm : a.comp.Machine)
    (hd : 32 * ((a.nrows * a.ncols : Nat) : Int) ≤ i64Max) {F : Nat} (hF : a.data.length < F) (dbg : Bool) :
    (∃ r, DiffCsrAxis1Ptr dbg F sort n a (.ok r)) ∧
    ∀ out, DiffCsrAxis1Ptr dbg F sort n a out → ∃ r, out = .ok r ∧ r.nrows = a.nrows ∧ r.ncols = a.ncols - n ∧
      r.WF ∧ r.comp.NoZeros ∧ ∀ i j, i < a.nrows → j < a.ncols - n → r.val i j = diffN n (a.val i) j := by
  have hw : a.WFU := Comp.WF.wfu ha
  have hle : a.data.length ≤ a.nrows * a.ncols := Comp.WF.data_length_le ha
  have key := diff_csr_axis1_ptr hsort (n := n) (Comp.WFU.ptrOk hw) hm hw.inRange hd (by omega) hF dbg
  constructor
  · have : a.nrows * (a.ncols - n) ≤ a.nrows * a.ncols := Nat.mul_le_mul_left _ (by omega)
    obtain ⟨r, hr⟩ := diff_csr_axis1_exists hsort hw (n := n) (.inr ha) (by omega)
    exact ⟨r, (key _).2 ⟨r, hr, rfl⟩⟩
  · intro out h
    obtain ⟨r, hr, rfl⟩ := (key out).1 h
    obtain ⟨d1, d2, -, d4, d5, -, d7⟩ := diff_csr_axis1_correct hsort hw hr
    exact ⟨r, rfl, d1, d2, d4 (.inr ha), d5, d7⟩

/-! ### along the columns -/

/-- C64, axis 0: transposition, difference, transposition have exactly the list-level outcomes. -/
theorem diff_csr_axis0_ptr [BEq V] [Zero V] [Add V] [Neg V] {sort : List (Nat × V) → List (Nat × V)}
    (hsort : IsSort sort) {tsort : List (Int × V) → List (Int × V)} (hts : IsPairSort tsort) {threads : Nat}
    (ht : threads < 2 ^ 62) {n : Nat} {a : Csr V} (hw : a.WFU) (hn : a.comp.NoRep) (hm : a.comp.Machine)
    (hl : 8 * ((a.ncols : Int) + 1) ≤ i64Max) (hd : 32 * ((a.nrows * a.ncols : Nat) : Int) ≤ i64Max)
    (hz : a.data.length ≤ a.nrows * a.ncols) {F : Nat} (hF : a.nrows * a.ncols < F) (dbg : Bool)
    (out : Except Fault (Csr V)) :
    DiffCsrAxis0Ptr dbg F sort tsort threads n a out ↔
      ∃ r, DiffCsrAxis0Run sort tsort threads n a r ∧ out = .ok r := by
  unfold DiffCsrAxis0Ptr DiffCsrAxis0Run
  by_cases h0 : n = 0
  · simp only [if_pos h0]
    exact ⟨fun h => ⟨a, rfl, h⟩, fun ⟨r, h1, h2⟩ => by rw [h2, h1]⟩
  · simp only [if_neg h0]
    have htr := transpose_csr_ptr hw hm hl (by omega) hts ht (F := F) (by omega) dbg
    have hf : a.comp.Fits := Comp.WFU.fits_of_machine hw hm
    have hnr : 8 * ((a.nrows : Int) + 1) ≤ i64Max := by
      have e1 := hm.indptr
      have e2 : a.comp.indptr.length = a.nrows + 1 := hw.ptr_length
      omega
    have key : ∀ t, TransposeCsrRun tsort threads a t →
        (∀ o, DiffCsrAxis1Ptr dbg F sort n t o ↔ ∃ d, DiffCsrAxis1Run sort n t d ∧ o = .ok d) ∧
        ∀ d, DiffCsrAxis1Run sort n t d → ∀ o, TransposeCsrPtr dbg F tsort threads d o ↔
          ∃ r, TransposeCsrRun tsort threads d r ∧ o = .ok r := by
      intro t hrun
      obtain ⟨t1, t2, t3, t4, -, -⟩ := transpose_csr_sorts hw hn hf hts hrun
      have tu : t.WFU := Comp.WF.wfu t1
      have tm : t.comp.Machine := Comp.WFU.machine tu
        (by show 8 * ((t.nrows : Int) + 1) ≤ _; rw [t2]; exact hl)
        (by show 8 * (t.data.length : Int) ≤ _; rw [t4]; omega)
      have tdim : t.nrows * t.ncols = a.nrows * a.ncols := by rw [t2, t3, Nat.mul_comm]
      refine ⟨diff_csr_axis1_ptr hsort (Comp.WFU.ptrOk tu) tm tu.inRange (by rw [tdim]; exact hd)
        (by rw [t4]; omega) (by rw [t4]; omega) dbg, fun d hrd => ?_⟩
      obtain ⟨d1, d2, d3, d4, -, d6, -⟩ := diff_csr_axis1_any hsort tu hrd
      have dw : d.WF := d4 (.inr t1)
      have dle : d.data.length ≤ d.nrows * d.ncols := Comp.WF.data_length_le dw
      have dle2 : d.nrows * d.ncols ≤ a.nrows * a.ncols := by
        rw [d1, d2, ← tdim]
        exact Nat.mul_le_mul_left _ (by omega)
      have dm : d.comp.Machine := Comp.WFU.machine d3
        (by show 8 * ((d.nrows : Int) + 1) ≤ _; rw [d1, t2]; exact hl)
        (by show 8 * (d.data.length : Int) ≤ _; exact d6)
      exact transpose_csr_ptr d3 dm (by rw [d2, t3]; omega) (by omega) hts ht (F := F) (by omega) dbg
    constructor
    · rintro ⟨ot, hot, h⟩
      obtain ⟨t, hrun, rfl⟩ := (htr ot).1 hot
      obtain ⟨od, hod, h⟩ := h
      obtain ⟨k1, k2⟩ := key t hrun
      obtain ⟨d, hrd, rfl⟩ := (k1 od).1 hod
      obtain ⟨r, hr, rfl⟩ := (k2 d hrd out).1 h
      exact ⟨r, ⟨t, d, hrun, hrd, hr⟩, rfl⟩
    · rintro ⟨r, ⟨t, d, hrun, hrd, hr⟩, rfl⟩
      obtain ⟨k1, k2⟩ := key t hrun
      exact ⟨.ok t, (htr _).2 ⟨t, hrun, rfl⟩, .ok d, (k1 _).2 ⟨d, hrd, rfl⟩, (k2 d hrd _).2 ⟨r, hr, rfl⟩⟩

theorem diff_csr_axis0_ptr_correct [BEq V] [LawfulBEq V] [AddCommGroup V] {sort : List (Nat × V) → List (Nat × V)}
    (hsort : IsSort sort) {tsort : List (Int × V) → List (Int × V)} (hts : IsPairSort tsort) {threads : Nat}
    (ht : threads < 2 ^ 62) {n : Nat} {a : Csr V} (ha : a.WF) (hm : a.comp.Machine)
    (hl : 8 * ((a.ncols : Int) + 1) ≤ i64Max) (hd : 32 * ((a.nrows * a.ncols : Nat) : Int) ≤ i64Max)
    {F : Nat} (hF : a.nrows * a.ncols < F) (dbg : Bool) :
    (∃ r, DiffCsrAxis0Ptr dbg F sort tsort threads n a (.ok r)) ∧
    ∀ out, DiffCsrAxis0Ptr dbg F sort tsort threads n a out → ∃ r, out = .ok r ∧ r.nrows = a.nrows - n ∧
      r.ncols = a.ncols ∧ r.WF ∧
      ∀ i j, i < a.nrows - n → j < a.ncols → r.val i j = diffN n (fun k => a.val k j) i := by
  have hw : a.WFU := Comp.WF.wfu ha
  have hf : a.comp.Fits := Comp.WFU.fits_of_machine hw hm
  have hle : a.data.length ≤ a.nrows * a.ncols := Comp.WF.data_length_le ha
  have key := diff_csr_axis0_ptr hsort hts ht (n := n) hw (Comp.WF.noRep ha) hm hl hd hle hF dbg
  constructor
  · have : (a.nrows - n) * a.ncols ≤ a.nrows * a.ncols := Nat.mul_le_mul_right _ (by omega)
    obtain ⟨r, hr⟩ := diff_csr_axis0_exists hsort hts threads hw (Comp.WF.noRep ha) hf (by omega) (n := n) (by omega)
    exact ⟨r, (key _).2 ⟨r, hr, rfl⟩⟩
  · intro out h
    obtain ⟨r, hr, rfl⟩ := (key out).1 h
    obtain ⟨d1, d2, d3, d4, -, d6⟩ := diff_csr_axis0_correct hsort hts hw (Comp.WF.noRep ha) hf (by omega) hr
    refine ⟨r, rfl, d1, d2, ?_, d6⟩
    by_cases h0 : n = 0
    · rw [d3 h0]; exact ha
    · exact (d4 (by omega)).1

/-! ### CSC -/

section
variable [BEq V] [Zero V] [Add V] [Neg V]

omit [BEq V] [Neg V] in
theorem csc_to_csr_machine {a : Csc V} (ha : a.WF) (hm : a.comp.Machine) (hl : 8 * ((a.nrows : Int) + 1) ≤ i64Max)
    {c : Csr V} (h : CscToCsrRun a c) :
    c.nrows = a.nrows ∧ c.ncols = a.ncols ∧ c.data.length = a.data.length ∧ c.WFU ∧ c.comp.Machine := by
  obtain ⟨c1, c2, c3, c4, -, -⟩ := csc_to_csr_correct (Comp.WF.wfu ha) (Comp.WFU.fits_of_machine (Comp.WF.wfu ha) hm) h
  refine ⟨c1, c2, c3, c4, Comp.WFU.machine c4 ?_ ?_⟩
  · show 8 * ((c.nrows : Int) + 1) ≤ _
    rw [c1]; exact hl
  · show 8 * (c.data.length : Int) ≤ _
    rw [c3]; exact hm.data

omit [BEq V] [Neg V] [Add V] in
/-- The conversions around a CSR routine `f` whose outcomes are those of `R`. -/
theorem diffCscPtr_iff {a : Csc V} (ha : a.WF) (hm : a.comp.Machine) (hl : 8 * ((a.nrows : Int) + 1) ≤ i64Max)
    {f : Csr V → Except Fault (Csr V) → Prop} {R : Csr V → Csr V → Prop} {dbg : Bool}
    (hf : ∀ c, CscToCsrRun a c → ∀ o, f c o ↔ ∃ b, R c b ∧ o = .ok b)
    (hR : ∀ c, CscToCsrRun a c → ∀ b, R c b → b.WFU ∧ b.comp.Machine ∧ 8 * ((b.ncols : Int) + 1) ≤ i64Max)
    (out : Except Fault (Csc V)) :
    DiffCscPtr dbg f a out ↔ ∃ r, (∃ c b, CscToCsrRun a c ∧ R c b ∧ CsrToCscRun b r) ∧ out = .ok r := by
  have key := csc_to_csr_ptr (Comp.WF.wfu ha) hm hl dbg
  unfold DiffCscPtr
  constructor
  · rintro ⟨oc, hoc, h⟩
    obtain ⟨c, hc, rfl⟩ := (key oc).1 hoc
    obtain ⟨ob, hob, h⟩ := h
    obtain ⟨b, hb, rfl⟩ := (hf c hc ob).1 hob
    obtain ⟨b1, b2, b3⟩ := hR c hc b hb
    obtain ⟨r, hr, rfl⟩ := (csr_to_csc_ptr b1 b2 b3 dbg out).1 h
    exact ⟨r, ⟨c, b, hc, hb, hr⟩, rfl⟩
  · rintro ⟨r, ⟨c, b, hc, hb, hr⟩, rfl⟩
    obtain ⟨b1, b2, b3⟩ := hR c hc b hb
    exact ⟨.ok c, (key _).2 ⟨c, hc, rfl⟩, .ok b, (hf c hc _).2 ⟨b, hb, rfl⟩,
      (csr_to_csc_ptr b1 b2 b3 dbg _).2 ⟨r, hr, rfl⟩⟩

/-- C64, CSC along the rows. -/
theorem diff_csc_axis1_ptr {sort : List (Nat × V) → List (Nat × V)} (hsort : IsSort sort) {n : Nat} {a : Csc V}
    (ha : a.WF) (hm : a.comp.Machine) (hl : 8 * ((a.nrows : Int) + 1) ≤ i64Max)
    (hd : 32 * ((a.nrows * a.ncols : Nat) : Int) ≤ i64Max) {F : Nat} (hF : a.data.length < F) (dbg : Bool)
    (out : Except Fault (Csc V)) :
    DiffCscPtr dbg (DiffCsrAxis1Ptr dbg F sort n) a out ↔ ∃ r, DiffCscAxis1Run sort n a r ∧ out = .ok r := by
  have hle : a.data.length ≤ a.ncols * a.nrows := Comp.WF.data_length_le ha
  have hnc : 8 * ((a.ncols : Int) + 1) ≤ i64Max := by
    have e1 := hm.indptr
    have e2 : a.comp.indptr.length = a.ncols + 1 := (Comp.WF.wfu ha).ptr_length
    omega
  refine diffCscPtr_iff ha hm hl (R := DiffCsrAxis1Run sort n) (fun c hc => ?_) (fun c hc b hb => ?_) out
  · obtain ⟨c1, c2, c3, c4, c5⟩ := csc_to_csr_machine ha hm hl hc
    rw [Nat.mul_comm] at hle
    exact diff_csr_axis1_ptr hsort (Comp.WFU.ptrOk c4) c5 c4.inRange (by rw [c1, c2]; exact hd)
      (by rw [c3]; omega) (by rw [c3]; exact hF) dbg
  · obtain ⟨c1, c2, c3, c4, c5⟩ := csc_to_csr_machine ha hm hl hc
    obtain ⟨d1, d2, d3, -, -, d6, -⟩ := diff_csr_axis1_any hsort c4 hb
    exact ⟨d3, Comp.WFU.machine d3 (by show 8 * ((b.nrows : Int) + 1) ≤ _; rw [d1, c1]; exact hl) d6,
      by rw [d2, c2]; omega⟩

/-- C64, CSC along the columns. -/
theorem diff_csc_axis0_ptr {sort : List (Nat × V) → List (Nat × V)} (hsort : IsSort sort)
    {tsort : List (Int × V) → List (Int × V)} (hts : IsPairSort tsort) {threads : Nat} (ht : threads < 2 ^ 62)
    {n : Nat} {a : Csc V} (ha : a.WF) (hm : a.comp.Machine) (hl : 8 * ((a.nrows : Int) + 1) ≤ i64Max)
    (hd : 32 * ((a.nrows * a.ncols : Nat) : Int) ≤ i64Max) {F : Nat} (hF : a.nrows * a.ncols < F) (dbg : Bool)
    (out : Except Fault (Csc V)) :
    DiffCscPtr dbg (DiffCsrAxis0Ptr dbg F sort tsort threads n) a out ↔
      ∃ r, DiffCscAxis0Run sort tsort threads n a r ∧ out = .ok r := by
  have hle : a.data.length ≤ a.ncols * a.nrows := Comp.WF.data_length_le ha
  rw [Nat.mul_comm] at hle
  have hnc : 8 * ((a.ncols : Int) + 1) ≤ i64Max := by
    have e1 := hm.indptr
    have e2 : a.comp.indptr.length = a.ncols + 1 := (Comp.WF.wfu ha).ptr_length
    omega
  have hfa : a.comp.Fits := Comp.WFU.fits_of_machine (Comp.WF.wfu ha) hm
  refine diffCscPtr_iff ha hm hl (R := DiffCsrAxis0Run sort tsort threads n) (fun c hc => ?_) (fun c hc b hb => ?_) out
  · obtain ⟨c1, c2, c3, c4, c5⟩ := csc_to_csr_machine ha hm hl hc
    exact diff_csr_axis0_ptr hsort hts ht c4 (csc_to_csr_noRep ha hfa hc) c5 (by rw [c2]; exact hnc)
      (by rw [c1, c2]; exact hd) (by rw [c1, c2, c3]; exact hle) (by rw [c1, c2]; exact hF) dbg
  · obtain ⟨c1, c2, c3, c4, c5⟩ := csc_to_csr_machine ha hm hl hc
    have hfc : c.comp.Fits := Comp.WFU.fits_of_machine c4 c5
    obtain ⟨d1, d2, d3, d4, -, -⟩ := diff_csr_axis0_any hsort hts c4 (csc_to_csr_noRep ha hfa hc) hfc
      (by rw [c2]; omega) hb
    refine (?_ : b.WFU ∧ _).imp id fun h => ⟨h, by rw [d2, c2]; exact hnc⟩
    by_cases h0 : n = 0
    · rw [d3 h0]; exact ⟨c4, c5⟩
    · have bw := (d4 (by omega)).1
      have ble : b.data.length ≤ b.nrows * b.ncols := Comp.WF.data_length_le bw
      have : b.nrows * b.ncols ≤ a.nrows * a.ncols := by
        rw [d1, d2, c1, c2]; exact Nat.mul_le_mul_right _ (by omega)
      exact ⟨Comp.WF.wfu bw, Comp.WFU.machine (Comp.WF.wfu bw)
        (by show 8 * ((b.nrows : Int) + 1) ≤ _; rw [d1, c1]; omega)
        (by show 8 * (b.data.length : Int) ≤ _; omega)⟩

end

section
variable [BEq V] [LawfulBEq V] [AddCommGroup V]

/-- End to end for CSC, both axes: every run returns the differences. -/
theorem diff_csc_ptr_correct {sort : List (Nat × V) → List (Nat × V)} (hsort : IsSort sort)
    {tsort : List (Int × V) → List (Int × V)} (hts : IsPairSort tsort) {threads : Nat} (ht : threads < 2 ^ 62)
    {n : Nat} {a : Csc V} (ha : a.WF) (hm : a.comp.Machine) (hl : 8 * ((a.nrows : Int) + 1) ≤ i64Max)
    (hd : 32 * ((a.nrows * a.ncols : Nat) : Int) ≤ i64Max) {F : Nat} (hF : a.nrows * a.ncols < F) (dbg : Bool)
    (out : Except Fault (Csc V)) :
    (DiffCscPtr dbg (DiffCsrAxis1Ptr dbg F sort n) a out → ∃ r, out = .ok r ∧ r.nrows = a.nrows ∧
      r.ncols = a.ncols - n ∧ r.WFU ∧ ∀ i j, i < a.nrows → j < a.ncols - n → r.val i j = diffN n (a.val i) j) ∧
    (DiffCscPtr dbg (DiffCsrAxis0Ptr dbg F sort tsort threads n) a out → ∃ r, out = .ok r ∧ r.nrows = a.nrows - n ∧
      r.ncols = a.ncols ∧ r.WFU ∧
      ∀ i j, i < a.nrows - n → j < a.ncols → r.val i j = diffN n (fun k => a.val k j) i) := by
  have hle : a.data.length ≤ a.ncols * a.nrows := Comp.WF.data_length_le ha
  rw [Nat.mul_comm] at hle
  have hf : a.comp.Fits := Comp.WFU.fits_of_machine (Comp.WF.wfu ha) hm
  constructor
  · intro h
    obtain ⟨r, hr, rfl⟩ := (diff_csc_axis1_ptr hsort ha hm hl hd (F := F) (by omega) dbg out).1 h
    exact ⟨r, rfl, diff_csc_axis1_correct hsort ha hf (by omega) hr⟩
  · intro h
    obtain ⟨r, hr, rfl⟩ := (diff_csc_axis0_ptr hsort hts ht ha hm hl hd hF dbg out).1 h
    exact ⟨r, rfl, diff_csc_axis0_correct hsort hts ha hf (by omega) hr⟩

end

/-! ### Pointers behind the end -/

/-- C64, negative part: a non-empty row that starts at or behind the end of the index array
(`check=False`) is read outside it, in both builds, already by the counting pass. -/
theorem diff_past_end_ub [BEq V] [Zero V] [Add V] [Neg V] {sort : List (Nat × V) → List (Nat × V)} {n : Nat}
    {a : Csr V} {i : Nat} {s e : Int} (hi : i < a.nrows) (hn : n < a.ncols) (hs : a.indptr[i]? = some s)
    (he : a.indptr[i + 1]? = some e) (h0 : (a.indices.length : Int) ≤ s) (h1 : s < e) (h2 : 16 * (e - s) ≤ i64Max)
    (h3 : e ≤ i64Max) {F : Nat} (hF : 0 < F) (dbg : Bool) :
    DiffCsrAxis1Ptr dbg F sort n a (.error .ub) := by
  have hs' : a.comp.indptr[i]? = some s := hs
  have he' : a.comp.indptr[i + 1]? = some e := he
  have l1 : index a.comp.indptr i = .ok s := by unfold index; rw [hs']
  have l2 : index a.comp.indptr (i + 1) = .ok e := by unfold index; rw [he']
  have hrow : diffRowP dbg F sort n a.comp i = .error .ub := by
    unfold diffRowP rowPairsP
    rw [l1, ok_bind, i64ToUsizeP_eq (by omega) (by omega), ok_bind, l2, ok_bind,
      i64ToUsizeP_eq (by omega) h3, ok_bind, subUsize_eq (by omega), ok_bind]
    unfold withCapP
    rw [if_pos (by omega), ok_bind]
    obtain ⟨G, rfl⟩ : ∃ G, F = G + 1 := ⟨F - 1, by omega⟩
    have hg : getUnchecked a.comp.indices s.toNat = .error .ub := by
      unfold getUnchecked
      rw [List.getElem?_eq_none (by show a.indices.length ≤ _; omega)]
    unfold untilP whileM
    have hc : decide (s.toNat < e.toNat) = true := by simpa using by omega
    simp only [hc, pushPairP, hg]
    rfl
  unfold DiffCsrAxis1Ptr
  simp only []
  rw [if_neg (by omega)]
  refine ⟨.error .ub, ⟨.error .ub, ⟨i, hi, ?_⟩, rfl⟩, rfl⟩
  show (diffRowP dbg F sort n a.comp i).map List.length = _
  rw [hrow]
  rfl

/-! ### Witnesses -/

example (dbg : Bool) : (∃ r, DiffCsrAxis1Ptr dbg 4 (fun l => l.mergeSort fun x y => decide (x.1 ≤ y.1)) 2 exA (.ok r)) ∧
    ∀ out, DiffCsrAxis1Ptr dbg 4 (fun l => l.mergeSort fun x y => decide (x.1 ≤ y.1)) 2 exA out →
      ∃ r, out = .ok r ∧ r.val 0 0 = 11 ∧ r.val 1 0 = -14 := by
  obtain ⟨h1, h2⟩ := diff_csr_axis1_ptr_correct isSort_mergeSort (n := 2) exA_wf exA_machine (by decide) (F := 4)
    (by decide) dbg
  refine ⟨h1, fun out h => ?_⟩
  obtain ⟨r, hr, -, -, -, -, hv⟩ := h2 out h
  exact ⟨r, hr, (hv 0 0 (by decide) (by decide)).trans (by decide), (hv 1 0 (by decide) (by decide)).trans (by decide)⟩
example (dbg : Bool) : ∃ r, DiffCsrAxis0Ptr dbg 7 (fun l => l.mergeSort fun x y => decide (x.1 ≤ y.1))
    (List.insertionSort pairLe) 3 1 exA (.ok r) :=
  (diff_csr_axis0_ptr_correct isSort_mergeSort isPairSort_insertionSort (by decide) exA_wf exA_machine (by decide)
    (by decide) (by decide) dbg).1
/-- Unsorted rows with a repeated column are differenced without any fault. -/
example (dbg : Bool) (out : Except Fault (Csr Int)) :
    DiffCsrAxis1Ptr dbg 5 (fun l => l.mergeSort fun x y => decide (x.1 ≤ y.1)) 1 exLoose out ↔
      ∃ r, DiffCsrAxis1Run (fun l => l.mergeSort fun x y => decide (x.1 ≤ y.1)) 1 exLoose r ∧ out = .ok r :=
  diff_csr_axis1_ptr isSort_mergeSort (Comp.WFU.ptrOk exLoose_wfu) exLoose_machine (Csr.WFU.inRange exLoose_wfu)
    (by decide) (by decide) (by decide) dbg out
/-- Columns outside the matrix, any order, no sort at all: no undefined behaviour. -/
example (out : Except Fault (Csr Int)) (h : DiffCsrAxis1Ptr true 5 id 1 ⟨2, 3, [0, 2, 4], [-7, 9, 2, 2], [5, 3, 7, 9]⟩ out) :
    out ≠ .error .ub := by
  rcases diff_csr_axis1_ptr_any (a := ⟨2, 3, [0, 2, 4], [-7, 9, 2, 2], [5, 3, 7, 9]⟩)
    ⟨by decide, by decide, by decide, by decide, by decide⟩ ⟨by decide, by decide, by decide, by decide⟩
    (by decide) (.inl rfl) h with rfl | ⟨r, -, rfl⟩ <;> simp
example (dbg : Bool) (sort : List (Nat × Int) → List (Nat × Int)) :
    DiffCsrAxis1Ptr dbg 9 sort 1 ⟨1, 4, [2, 4], [0, 1], [5, 6]⟩ (.error .ub) :=
  diff_past_end_ub (i := 0) (s := 2) (e := 4) (by decide) (by decide) rfl rfl (by decide) (by decide) (by decide)
    (by decide) (by decide) dbg

end Lacuna
