import Verif.Lemmas.PtrTransposeUb
import Verif.Props.Transpose
/-
C60: transposition at pointer level.  For every matrix with the documented invariants (lines in
any order, repeated indices allowed), every number of threads and every interleaving, neither
strategy leaves a buffer or races, and the possible results are exactly those of the
list-level model.  For arrays whose indices are not inside the matrix the two strategies differ:
strategy A is undefined behaviour, strategy B panics.
-/
namespace Lacuna
variable {V : Type}

theorem IsPairSort.length_eq {sort : List (Int × V) → List (Int × V)} (h : IsPairSort sort) (l : List (Int × V)) :
    (sort l).length = l.length := (h l).1.length_eq

theorem transposePtr_iff [Zero V] {a : Comp V} (hw : a.WFU) (hm : a.Machine) (hl : 8 * ((a.m : Int) + 1) ≤ i64Max)
    (h16 : 16 * (a.data.length : Int) ≤ i64Max) {sort : List (Int × V) → List (Int × V)} (hs : IsPairSort sort)
    {threads : Nat} (ht : threads < 2 ^ 62) {F : Nat} (hF : a.data.length < F) (dbg csr : Bool)
    (out : Except Fault (Comp V)) :
    TransposePtr dbg csr F sort threads a out ↔ ∃ r, TransposeRun sort threads a r ∧ out = .ok r := by
  have h1 := hm.indptr
  have h2 := hw.ptr_length
  unfold TransposePtr TransposeRun
  simp only
  split
  · exact transposeAPtr_iff hw hm (hw.fits_of_machine hm) (by omega) (by unfold i64Max at *; omega) hl hF out
  · exact transposeBPtr_iff hs.length_eq hw hm (hw.fits_of_machine hm) hl h16 hF out

/-- `transpose_f64_i64`: in bounds and free of races for every schedule, debug and release;
exactly the list-level results. -/
theorem transpose_csr_ptr [Zero V] {a : Csr V} (hw : a.comp.WFU) (hm : a.comp.Machine)
    (hl : 8 * ((a.ncols : Int) + 1) ≤ i64Max) (h16 : 16 * (a.data.length : Int) ≤ i64Max)
    {sort : List (Int × V) → List (Int × V)} (hs : IsPairSort sort) {threads : Nat} (ht : threads < 2 ^ 62)
    {F : Nat} (hF : a.data.length < F) (dbg : Bool) (out : Except Fault (Csr V)) :
    TransposeCsrPtr dbg F sort threads a out ↔ ∃ r, TransposeCsrRun sort threads a r ∧ out = .ok r := by
  have key := transposePtr_iff hw hm hl h16 hs ht hF dbg true
  constructor
  · rintro ⟨o, h, rfl⟩
    obtain ⟨r, hr, rfl⟩ := (key o).1 h
    exact ⟨r.toCsr, hr, rfl⟩
  · rintro ⟨r, hr, rfl⟩
    exact ⟨.ok r.comp, (key _).2 ⟨r.comp, hr, rfl⟩, rfl⟩

/-- `transpose_csc_f64_i64`. -/
theorem transpose_csc_ptr [Zero V] {a : Csc V} (hw : a.comp.WFU) (hm : a.comp.Machine)
    (hl : 8 * ((a.nrows : Int) + 1) ≤ i64Max) (h16 : 16 * (a.data.length : Int) ≤ i64Max)
    {sort : List (Int × V) → List (Int × V)} (hs : IsPairSort sort) {threads : Nat} (ht : threads < 2 ^ 62)
    {F : Nat} (hF : a.data.length < F) (dbg : Bool) (out : Except Fault (Csc V)) :
    TransposeCscPtr dbg F sort threads a out ↔ ∃ r, TransposeCscRun sort threads a r ∧ out = .ok r := by
  have key := transposePtr_iff hw hm hl h16 hs ht hF dbg false
  constructor
  · rintro ⟨o, h, rfl⟩
    obtain ⟨r, hr, rfl⟩ := (key o).1 h
    exact ⟨r.toCsc, hr, rfl⟩
  · rintro ⟨r, hr, rfl⟩
    exact ⟨.ok r.comp, (key _).2 ⟨r.comp, hr, rfl⟩, rfl⟩

/-- Without repeated indices every run of the pointer program returns, and returns the
well-formed transpose. -/
theorem transpose_csr_ptr_correct [Zero V] [Add V] {a : Csr V} (hw : a.WFU) (hd : a.comp.NoRep)
    (hm : a.comp.Machine) (hl : 8 * ((a.ncols : Int) + 1) ≤ i64Max) (h16 : 16 * (a.data.length : Int) ≤ i64Max)
    {sort : List (Int × V) → List (Int × V)} (hs : IsPairSort sort) {threads : Nat} (ht : threads < 2 ^ 62)
    {F : Nat} (hF : a.data.length < F) {dbg : Bool} {out : Except Fault (Csr V)}
    (h : TransposeCsrPtr dbg F sort threads a out) :
    ∃ r, out = .ok r ∧ r.WF ∧ r.nrows = a.ncols ∧ r.ncols = a.nrows ∧ r.data.length = a.data.length ∧
      (∀ i j, r.stored j i = a.stored i j) ∧ ∀ i j, r.val j i = a.val i j := by
  obtain ⟨r, hr, rfl⟩ := (transpose_csr_ptr hw hm hl h16 hs ht hF dbg out).1 h
  exact ⟨r, rfl, transpose_csr_sorts hw hd (Comp.WFU.fits_of_machine hw hm) hs hr⟩

theorem transpose_csc_ptr_correct [Zero V] [Add V] {a : Csc V} (hw : a.WFU) (hd : a.comp.NoRep)
    (hm : a.comp.Machine) (hl : 8 * ((a.nrows : Int) + 1) ≤ i64Max) (h16 : 16 * (a.data.length : Int) ≤ i64Max)
    {sort : List (Int × V) → List (Int × V)} (hs : IsPairSort sort) {threads : Nat} (ht : threads < 2 ^ 62)
    {F : Nat} (hF : a.data.length < F) {dbg : Bool} {out : Except Fault (Csc V)}
    (h : TransposeCscPtr dbg F sort threads a out) :
    ∃ r, out = .ok r ∧ r.WF ∧ r.nrows = a.ncols ∧ r.ncols = a.nrows ∧ r.data.length = a.data.length ∧
      (∀ i j, r.stored j i = a.stored i j) ∧ ∀ i j, r.val j i = a.val i j := by
  obtain ⟨r, hr, rfl⟩ := (transpose_csc_ptr hw hm hl h16 hs ht hF dbg out).1 h
  exact ⟨r, rfl, transpose_csc_sorts hw hd (Comp.WFU.fits_of_machine hw hm) hs hr⟩

/-- The program has a run. -/
theorem transpose_csr_ptr_exists [Zero V] {a : Csr V} (hw : a.WFU) (hd : a.comp.NoRep)
    (hm : a.comp.Machine) (hl : 8 * ((a.ncols : Int) + 1) ≤ i64Max) (h16 : 16 * (a.data.length : Int) ≤ i64Max)
    {sort : List (Int × V) → List (Int × V)} (hs : IsPairSort sort) {threads : Nat} (ht : threads < 2 ^ 62)
    {F : Nat} (hF : a.data.length < F) (dbg : Bool) :
    ∃ r, TransposeCsrPtr dbg F sort threads a (.ok r) := by
  obtain ⟨r, hr⟩ := transpose_csr_unsorted_exists hw hd (Comp.WFU.fits_of_machine hw hm) hs threads
  exact ⟨r, (transpose_csr_ptr hw hm hl h16 hs ht hF dbg _).2 ⟨r, hr, rfl⟩⟩

theorem transpose_csc_ptr_exists [Zero V] {a : Csc V} (hw : a.WFU) (hd : a.comp.NoRep)
    (hm : a.comp.Machine) (hl : 8 * ((a.nrows : Int) + 1) ≤ i64Max) (h16 : 16 * (a.data.length : Int) ≤ i64Max)
    {sort : List (Int × V) → List (Int × V)} (hs : IsPairSort sort) {threads : Nat} (ht : threads < 2 ^ 62)
    {F : Nat} (hF : a.data.length < F) (dbg : Bool) :
    ∃ r, TransposeCscPtr dbg F sort threads a (.ok r) := by
  have hr := transposeRun_of' hw hd (Comp.WFU.fits_of_machine hw hm) hs threads
  exact ⟨_, (transpose_csc_ptr hw hm hl h16 hs ht hF dbg _).2
    ⟨(tcomp a.comp a.comp.events).toCsc, hr, rfl⟩⟩

/-- A matrix with too many target lines for a pointer array always panics: strategy A is not
chosen, strategy B cannot allocate. -/
theorem transpose_csr_ptr_wide [Zero V] {a : Csr V} (hw : a.comp.WFU) (hu : a.ncols ≤ usizeMax)
    (hl : i64Max < 8 * ((a.ncols : Int) + 1)) (F : Nat) (sort : List (Int × V) → List (Int × V)) (threads : Nat)
    (dbg : Bool) (out : Except Fault (Csr V)) :
    TransposeCsrPtr dbg F sort threads a out ↔ out = .error .panic := by
  have key := atomicFillPtr_big (dbg := dbg) (line := claimLine dbg F a.comp) (a := a.comp) hu hl
    fun j hj => ⟨(hw.bounds j hj).1, hw.i64 j hj⟩
  have hbig : ¬ max threads 1 * a.ncols * 8 * 3 ≤ 512 * 1024 * 1024 := by
    have : 1 * a.ncols ≤ max threads 1 * a.ncols := Nat.mul_le_mul_right _ (by omega)
    generalize max threads 1 * a.ncols = q at *
    unfold i64Max at hl
    omega
  have hB : ∀ o, TransposePtr dbg true F sort threads a.comp o ↔ o = .error .panic := by
    intro o
    unfold TransposePtr
    simp only
    rw [if_neg (c := max threads 1 * a.comp.m * 8 * 3 ≤ 512 * 1024 * 1024) hbig]
    constructor
    · rintro ⟨o', h, h2⟩
      rw [(key o').1 h] at h2
      exact h2
    · rintro rfl
      exact ⟨.error .panic, (key _).2 rfl, rfl⟩
  constructor
  · rintro ⟨o, h, rfl⟩
    rw [(hB o).1 h]; rfl
  · rintro rfl
    exact ⟨.error .panic, (hB _).2 rfl, rfl⟩

/-! ### arrays with an index outside the matrix (`check=False`) -/

/-- Strategy A: the histogram pass writes `*c.as_mut_ptr().add(j)` without a check.  On any
arrays with valid pointers and a stored column index `≥ ncols` every run is undefined
behaviour, in debug builds too. -/
theorem transpose_csr_outside_ub [Zero V] {a : Csr V} (h : a.comp.PtrOk) (hm : a.comp.Machine)
    (h0 : ∀ j ∈ a.indices, 0 ≤ j) {threads : Nat} (ht : threads < 2 ^ 62)
    (hA : max threads 1 * a.ncols * 8 * 3 ≤ 512 * 1024 * 1024) {i : Nat} (hi : i < a.nrows) {e : Int × V}
    (he : e ∈ a.comp.row i) (hbad : (a.ncols : Int) ≤ e.1) (sort : List (Int × V) → List (Int × V))
    {F : Nat} (hF : a.data.length < F) (dbg : Bool) (out : Except Fault (Csr V)) :
    TransposeCsrPtr dbg F sort threads a out ↔ out = .error .ub := by
  have h1 := hm.indptr
  have h2 := h.ptr_length
  have hm8 : 8 * (a.ncols : Int) ≤ i64Max := by
    have : 1 * a.ncols ≤ max threads 1 * a.ncols := Nat.mul_le_mul_right _ (by omega)
    generalize max threads 1 * a.ncols = q at *
    unfold i64Max
    omega
  have key := transposeAPtr_ub (dbg := dbg) (csr := true) (T := max threads 1) h hm h0 (by omega)
    (by unfold i64Max at *; omega) hm8 hF hi he hbad
  have hE : ∀ o, TransposePtr dbg true F sort threads a.comp o ↔ o = .error .ub := by
    intro o
    unfold TransposePtr
    simp only
    rw [if_pos (c := max threads 1 * a.comp.m * 8 * 3 ≤ 512 * 1024 * 1024) hA]
    exact key o
  constructor
  · rintro ⟨o, h, rfl⟩
    rw [(hE o).1 h]; rfl
  · rintro rfl
    exact ⟨.error .ub, (hE _).2 rfl, rfl⟩

theorem transpose_csc_outside_ub [Zero V] {a : Csc V} (h : a.comp.PtrOk) (hm : a.comp.Machine)
    (h0 : ∀ i ∈ a.indices, 0 ≤ i) {threads : Nat} (ht : threads < 2 ^ 62)
    (hA : max threads 1 * a.nrows * 8 * 3 ≤ 512 * 1024 * 1024) {j : Nat} (hj : j < a.ncols) {e : Int × V}
    (he : e ∈ a.comp.row j) (hbad : (a.nrows : Int) ≤ e.1) (sort : List (Int × V) → List (Int × V))
    {F : Nat} (hF : a.data.length < F) (dbg : Bool) (out : Except Fault (Csc V)) :
    TransposeCscPtr dbg F sort threads a out ↔ out = .error .ub := by
  have h1 := hm.indptr
  have h2 := h.ptr_length
  have hm8 : 8 * (a.nrows : Int) ≤ i64Max := by
    have : 1 * a.nrows ≤ max threads 1 * a.nrows := Nat.mul_le_mul_right _ (by omega)
    generalize max threads 1 * a.nrows = q at *
    unfold i64Max
    omega
  have key := transposeAPtr_ub (dbg := dbg) (csr := false) (T := max threads 1) h hm h0 (by omega)
    (by unfold i64Max at *; omega) hm8 hF hj he hbad
  have hE : ∀ o, TransposePtr dbg false F sort threads a.comp o ↔ o = .error .ub := by
    intro o
    unfold TransposePtr
    simp only
    rw [if_pos (c := max threads 1 * a.comp.m * 8 * 3 ≤ 512 * 1024 * 1024) hA]
    exact key o
  constructor
  · rintro ⟨o, h, rfl⟩
    rw [(hE o).1 h]; rfl
  · rintro rfl
    exact ⟨.error .ub, (hE _).2 rfl, rfl⟩

theorem countPtrP_outside {dbg : Bool} {m : Nat} {idx : List Int} (hl : 8 * ((m : Int) + 1) ≤ i64Max)
    (hn : (idx.length : Int) ≤ i64Max) (h0 : ∀ j ∈ idx, 0 ≤ j ∧ j ≤ i64Max) (hbad : ∃ j ∈ idx, (m : Int) ≤ j) :
    countPtrP dbg m idx = .error .panic := by
  have hz : List.replicate (m + 1) (0 : Int) = cntList m fun _ => 0 := by
    simp [cntList, List.replicate_succ, List.map_const']
  have hfold : ∀ (idx : List Int) (c : Nat → Nat), (∀ k, ((c k + idx.length : Nat) : Int) ≤ i64Max) →
      (∀ j ∈ idx, 0 ≤ j ∧ j ≤ i64Max) → (∃ j ∈ idx, (m : Int) ≤ j) →
      idx.foldlM (bumpCountP dbg) (cntList m c) = .error .panic := by
    intro idx
    induction idx with
    | nil => rintro _ _ _ ⟨j, hj, _⟩; simp at hj
    | cons j idx ih =>
      intro c hc h0 hbad
      obtain ⟨j0, j1⟩ := h0 j (by simp)
      rw [List.foldlM_cons]
      by_cases hj : (m : Int) ≤ j
      · have : bumpCountP dbg (cntList m c) j = .error .panic := by
          unfold bumpCountP
          rw [i64ToUsizeP_eq j0 j1, ok_bind]
          unfold addUsize
          rw [if_pos (by unfold i64Max at j1; unfold usizeMax; omega), ok_bind]
          unfold index
          rw [List.getElem?_eq_none (by simp [cntList]; omega)]
          rfl
        rw [this]
        rfl
      · have hcj := hc j.toNat
        simp only [List.length_cons] at hc hcj
        rw [bumpCountP_eq j0 (by omega) (by omega) (by omega), ok_bind]
        refine ih _ (fun k => ?_) (fun x hx => h0 x (by simp [hx])) ?_
        · have := hc k
          split <;> omega
        · obtain ⟨x, hx, hm⟩ := hbad
          rcases List.mem_cons.1 hx with rfl | hx
          · exact absurd hm hj
          · exact ⟨x, hx, hm⟩
  unfold countPtrP
  rw [addUsize_eq' (by omega), ok_bind]
  unfold zerosP
  rw [if_pos (by push_cast; omega), ok_bind, hz, hfold idx _ (fun k => by omega) h0 hbad]
  rfl

/-- Strategy B on the same arrays: the counts are indexed with a check, so the only outcome is
a panic. -/
theorem transpose_csr_outside_panics [Zero V] {a : Csr V} (hm : a.comp.Machine)
    (hl : 8 * ((a.ncols : Int) + 1) ≤ i64Max) (h0 : ∀ j ∈ a.indices, 0 ≤ j) {threads : Nat}
    (hB : ¬ max threads 1 * a.ncols * 8 * 3 ≤ 512 * 1024 * 1024) (hbad : ∃ j ∈ a.indices, (a.ncols : Int) ≤ j)
    (sort : List (Int × V) → List (Int × V)) (F : Nat) (dbg : Bool) (out : Except Fault (Csr V)) :
    TransposeCsrPtr dbg F sort threads a out ↔ out = .error .panic := by
  have hi := hm.indices
  have hc := countPtrP_outside (dbg := dbg) (m := a.ncols) (idx := a.indices) hl
    (by unfold i64Max at *; have : 8 * (a.indices.length : Int) ≤ 2 ^ 63 - 1 := hi; omega)
    (fun j hj => ⟨h0 j hj, hm.i64 j hj⟩) hbad
  have hfill : ∀ o, AtomicFillPtr dbg (claimLine dbg F a.comp) a.comp o ↔ o = .error .panic := by
    intro o
    unfold AtomicFillPtr
    rw [show countPtrP dbg a.comp.m a.comp.indices = .error .panic from hc]
  have hE : ∀ o, TransposePtr dbg true F sort threads a.comp o ↔ o = .error .panic := by
    intro o
    unfold TransposePtr
    simp only
    rw [if_neg (c := max threads 1 * a.comp.m * 8 * 3 ≤ 512 * 1024 * 1024) hB]
    constructor
    · rintro ⟨o', h, h2⟩
      rw [(hfill o').1 h] at h2
      exact h2
    · rintro rfl
      exact ⟨.error .panic, (hfill _).2 rfl, rfl⟩
  constructor
  · rintro ⟨o, h, rfl⟩
    rw [(hE o).1 h]; rfl
  · rintro rfl
    exact ⟨.error .panic, (hE _).2 rfl, rfl⟩

/-! ### examples -/

example (dbg : Bool) (out : Except Fault (Csr Int)) :
    TransposeCsrPtr dbg 5 (List.insertionSort pairLe) 4 exLoose out ↔
      ∃ r, TransposeCsrRun (List.insertionSort pairLe) 4 exLoose r ∧ out = .ok r :=
  transpose_csr_ptr exLoose_wfu exLoose_machine (by unfold i64Max; decide) (by unfold i64Max; decide)
    isPairSort_insertionSort (by decide) (by decide) dbg out

/-- Strategy B is chosen here: 2^28 columns and 8 threads need more than 512 MiB. -/
def exSpread : Csr Int := ⟨2, 2 ^ 28, [0, 2, 3], [7, 3, 2 ^ 28 - 1], [5, 3, 7]⟩
theorem exSpread_wfu : exSpread.comp.WFU :=
  ⟨rfl, rfl, rfl, rfl, by decide, by decide, by unfold i64Max; decide⟩
theorem exSpread_machine : exSpread.comp.Machine :=
  ⟨by unfold i64Max; decide, by unfold i64Max; decide, by unfold i64Max; decide, by unfold i64Max; decide⟩
example (dbg : Bool) (out : Except Fault (Csr Int)) :
    TransposeCsrPtr dbg 5 (List.insertionSort pairLe) 8 exSpread out ↔
      ∃ r, TransposeCsrRun (List.insertionSort pairLe) 8 exSpread r ∧ out = .ok r :=
  transpose_csr_ptr exSpread_wfu exSpread_machine (by unfold i64Max exSpread; decide)
    (by unfold i64Max exSpread; decide) isPairSort_insertionSort (by decide) (by decide) dbg out

/-- A 1 × 1 matrix with an entry in column 5. -/
def exFarCol : Csr Int := ⟨1, 1, [0, 1], [5], [9]⟩
example (dbg : Bool) (threads : Nat) (ht : threads ≤ 1000) (out : Except Fault (Csr Int)) :
    TransposeCsrPtr dbg 2 id threads exFarCol out ↔ out = .error .ub :=
  transpose_csr_outside_ub (i := 0) (e := (5, 9))
    ⟨by decide, by decide, by decide, by decide, by decide⟩
    ⟨by unfold i64Max; decide, by unfold i64Max; decide, by unfold i64Max; decide, by unfold i64Max; decide⟩
    (by decide) (by omega) (by show max threads 1 * 1 * 8 * 3 ≤ _; omega) (by decide) (by decide) (by decide)
    id (by decide) dbg out

/-- The same entry just outside a matrix of 2^28 columns: strategy B panics. -/
example (dbg : Bool) (out : Except Fault (Csr Int)) :
    TransposeCsrPtr dbg 2 id 8 ⟨1, 2 ^ 28, [0, 1], [2 ^ 28], [9]⟩ out ↔ out = .error .panic :=
  transpose_csr_outside_panics
    ⟨by unfold i64Max; decide, by unfold i64Max; decide, by unfold i64Max; decide, by unfold i64Max; decide⟩
    (by unfold i64Max; decide) (by decide) (by decide) (by decide) id 2 dbg out

end Lacuna
