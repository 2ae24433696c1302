import Verif.Lemmas.PtrConvert
import Verif.Props.PtrElementwise
import Verif.Props.Convert
/-
C59: the format conversions at pointer level.  The fills claim positions from atomic counters
in parallel; for every matrix with the documented invariants (lines in any order, repeated
indices allowed) no run leaves a buffer or races, and the possible results are exactly those
of the list-level model.
-/
namespace Lacuna
variable {V : Type}

theorem Comp.WFU.fits_of_machine {a : Comp V} (hw : a.WFU) (hm : a.Machine) : a.Fits := by
  have h1 := hm.indptr
  have h2 := hm.data
  have h3 := hw.ptr_length
  exact ⟨by omega, by omega⟩

/-- `csr_to_csc_f64_i64`, all interleavings: exactly the list-level results. -/
theorem csr_to_csc_ptr [Zero V] {a : Csr V} (hw : a.comp.WFU) (hm : a.comp.Machine)
    (hl : 8 * ((a.ncols : Int) + 1) ≤ i64Max) (dbg : Bool) (out : Except Fault (Csc V)) :
    CsrToCscPtr dbg a out ↔ ∃ r, CsrToCscRun a r ∧ out = .ok r := by
  have key := atomicFillPtr_iff (dbg := dbg) hw hm (hw.fits_of_machine hm) hl
    fun i hi => convLine_plan (dbg := dbg) hw.ptrOk hm (fun j hj => (hw.bounds j hj).1) hi
  constructor
  · rintro ⟨o, h, rfl⟩
    obtain ⟨r, hr, rfl⟩ := (key o).1 h
    exact ⟨r.toCsc, hr, rfl⟩
  · rintro ⟨r, hr, rfl⟩
    exact ⟨.ok r.comp, (key _).2 ⟨r.comp, hr, rfl⟩, rfl⟩

/-- `csc_to_csr_f64_i64`, all interleavings: exactly the list-level results. -/
theorem csc_to_csr_ptr [Zero V] {a : Csc V} (hw : a.comp.WFU) (hm : a.comp.Machine)
    (hl : 8 * ((a.nrows : Int) + 1) ≤ i64Max) (dbg : Bool) (out : Except Fault (Csr V)) :
    CscToCsrPtr dbg a out ↔ ∃ r, CscToCsrRun a r ∧ out = .ok r := by
  have key := atomicFillPtr_iff (dbg := dbg) hw hm (hw.fits_of_machine hm) hl
    fun i hi => convLine_plan (dbg := dbg) hw.ptrOk hm (fun j hj => (hw.bounds j hj).1) hi
  constructor
  · rintro ⟨o, h, rfl⟩
    obtain ⟨r, hr, rfl⟩ := (key o).1 h
    exact ⟨r.toCsr, hr, rfl⟩
  · rintro ⟨r, hr, rfl⟩
    exact ⟨.ok r.comp, (key _).2 ⟨r.comp, hr, rfl⟩, rfl⟩

/-- A matrix with too many columns for a pointer array: the only outcome is a panic. -/
theorem csr_to_csc_ptr_wide [Zero V] {a : Csr V} (hw : a.comp.WFU) (hu : a.ncols ≤ usizeMax)
    (hl : i64Max < 8 * ((a.ncols : Int) + 1)) (dbg : Bool) (out : Except Fault (Csc V)) :
    CsrToCscPtr dbg a out ↔ out = .error .panic := by
  have key := atomicFillPtr_big (dbg := dbg) (line := convLine dbg a.comp) (a := a.comp) hu hl
    fun j hj => ⟨(hw.bounds j hj).1, hw.i64 j hj⟩
  constructor
  · rintro ⟨o, h, rfl⟩
    rw [(key o).1 h]; rfl
  · rintro rfl
    exact ⟨_, (key _).2 rfl, rfl⟩

theorem csc_to_csr_ptr_tall [Zero V] {a : Csc V} (hw : a.comp.WFU) (hu : a.nrows ≤ usizeMax)
    (hl : i64Max < 8 * ((a.nrows : Int) + 1)) (dbg : Bool) (out : Except Fault (Csr V)) :
    CscToCsrPtr dbg a out ↔ out = .error .panic := by
  have key := atomicFillPtr_big (dbg := dbg) (line := convLine dbg a.comp) (a := a.comp) hu hl
    fun j hj => ⟨(hw.bounds j hj).1, hw.i64 j hj⟩
  constructor
  · rintro ⟨o, h, rfl⟩
    rw [(key o).1 h]; rfl
  · rintro rfl
    exact ⟨_, (key _).2 rfl, rfl⟩

/-- `csr_to_coo_f64_i64`: good pointers suffice, whatever the stored indices are. -/
theorem csr_to_coo_ptr [Zero V] {a : Csr V} (h : a.comp.PtrOk) (hm : a.comp.Machine) (dbg : Bool)
    (out : Except Fault (Coo V)) : CsrToCooPtr dbg a out ↔ ∃ r, CsrToCooRun a r ∧ out = .ok r := by
  have key := cooFillPtr_iff (line := csrCooLine dbg a.comp) h fun i hi => (cooLine_eq h hm hi).1
  constructor
  · rintro ⟨o, ho, rfl⟩
    obtain ⟨l, x, d, hr, rfl⟩ := (key o).1 ho
    exact ⟨⟨a.nrows, a.ncols, l, x, d⟩, ⟨rfl, rfl, hr⟩, rfl⟩
  · rintro ⟨⟨nr, nc, l, x, d⟩, ⟨h1, h2, hr⟩, rfl⟩
    obtain rfl : nr = a.nrows := h1
    obtain rfl : nc = a.ncols := h2
    exact ⟨_, (key _).2 ⟨l, x, d, hr, rfl⟩, rfl⟩

/-- `csc_to_coo_f64_i64`. -/
theorem csc_to_coo_ptr [Zero V] {a : Csc V} (h : a.comp.PtrOk) (hm : a.comp.Machine) (dbg : Bool)
    (out : Except Fault (Coo V)) : CscToCooPtr dbg a out ↔ ∃ r, CscToCooRun a r ∧ out = .ok r := by
  have key := cooFillPtr_iff (line := cscCooLine dbg a.comp) h fun i hi => (cooLine_eq h hm hi).2
  constructor
  · rintro ⟨o, ho, rfl⟩
    obtain ⟨l, x, d, hr, rfl⟩ := (key o).1 ho
    exact ⟨⟨a.nrows, a.ncols, x, l, d⟩, ⟨rfl, rfl, hr⟩, rfl⟩
  · rintro ⟨⟨nr, nc, x, l, d⟩, ⟨h1, h2, hr⟩, rfl⟩
    obtain rfl : nr = a.nrows := h1
    obtain rfl : nc = a.ncols := h2
    exact ⟨_, (key _).2 ⟨l, x, d, hr, rfl⟩, rfl⟩

/-- End to end: whatever the interleaving, the pointer-level CSR → CSC conversion returns a
matrix with the same shape, stored entries and elements. -/
theorem csr_to_csc_ptr_correct [Zero V] [Add V] {a : Csr V} (hw : a.WFU) (hm : a.comp.Machine)
    (hl : 8 * ((a.ncols : Int) + 1) ≤ i64Max) {dbg : Bool} {out : Except Fault (Csc V)}
    (h : CsrToCscPtr dbg a out) :
    ∃ r, out = .ok r ∧ r.nrows = a.nrows ∧ r.ncols = a.ncols ∧ r.WFU ∧
      (∀ i j, r.stored i j = a.stored i j) ∧ ∀ i j, r.val i j = a.val i j := by
  obtain ⟨r, hr, ho⟩ := (csr_to_csc_ptr hw hm hl dbg out).1 h
  obtain ⟨g1, g2, -, g4, g5, g6⟩ := csr_to_csc_correct hw (Comp.WFU.fits_of_machine hw hm) hr
  exact ⟨r, ho, g1, g2, g4, g5, g6⟩

/-- End to end for CSC → CSR. -/
theorem csc_to_csr_ptr_correct [Zero V] [Add V] {a : Csc V} (hw : a.WFU) (hm : a.comp.Machine)
    (hl : 8 * ((a.nrows : Int) + 1) ≤ i64Max) {dbg : Bool} {out : Except Fault (Csr V)}
    (h : CscToCsrPtr dbg a out) :
    ∃ r, out = .ok r ∧ r.nrows = a.nrows ∧ r.ncols = a.ncols ∧ r.WFU ∧
      (∀ i j, r.stored i j = a.stored i j) ∧ ∀ i j, r.val i j = a.val i j := by
  obtain ⟨r, hr, ho⟩ := (csc_to_csr_ptr hw hm hl dbg out).1 h
  obtain ⟨g1, g2, -, g4, g5, g6⟩ := csc_to_csr_correct hw (Comp.WFU.fits_of_machine hw hm) hr
  exact ⟨r, ho, g1, g2, g4, g5, g6⟩

/-- A run exists (the statements above are not about an empty set of runs). -/
theorem csr_to_csc_ptr_exists [Zero V] {a : Csr V} (hw : a.WFU) (hm : a.comp.Machine)
    (hl : 8 * ((a.ncols : Int) + 1) ≤ i64Max) (dbg : Bool) : ∃ r, CsrToCscPtr dbg a (.ok r) :=
  ⟨_, (csr_to_csc_ptr hw hm hl dbg _).2 ⟨(tcomp a.comp a.comp.events).toCsc,
    atomicFill_of hw (Comp.WFU.fits_of_machine hw hm) (interleaving_events _), rfl⟩⟩

/-! ### what goes wrong without the invariants -/

/-- A line that starts at or behind the end of the arrays and is not empty: the CSR expansion
stores the line number before any check, so it writes outside its buffer. -/
theorem csr_to_coo_ub [Zero V] {a : Csr V} {i : Nat} {s e : Int} (hi : i < a.nrows)
    (hs : a.indptr[i]? = some s) (he : a.indptr[i + 1]? = some e) (h0 : (a.data.length : Int) ≤ s)
    (h1 : s < e) (h2 : e ≤ i64Max) (hn : (i : Int) ≤ i64Max) (dbg : Bool) :
    CsrToCooPtr dbg a (.error .ub) := by
  have hs' : a.comp.indptr[i]? = some s := hs
  have he' : a.comp.indptr[i + 1]? = some e := he
  have l1 : index a.comp.indptr i = .ok s := by unfold index; rw [hs']
  have l2 : index a.comp.indptr (i + 1) = .ok e := by unfold index; rw [he']
  have hline : csrCooLine dbg a.comp i = .error .ub := by
    unfold csrCooLine
    rw [l1, ok_bind, i64ToUsizeP_eq (by omega) (by omega), ok_bind, l2, ok_bind,
      i64ToUsizeP_eq (by omega) h2, ok_bind]
    obtain ⟨k, hk⟩ : ∃ k, e.toNat - s.toNat = k + 1 := ⟨e.toNat - s.toNat - 1, by omega⟩
    simp only [hk, collectUp]
    have hd : a.comp.data.length = a.data.length := rfl
    by_cases hq : s.toNat ≤ a.data.length
    · rw [MutPtr.add_zero_eq (by rw [hd]; exact hq), ok_bind, usizeToI64P_eq hn, ok_bind]
      unfold MutPtr.write
      rw [if_neg (by rw [hd]; show ¬ s.toNat < a.data.length; omega)]
      rfl
    · unfold MutPtr.add
      rw [if_neg (by rw [hd]; show ¬ 0 + s.toNat ≤ a.data.length; omega)]
      rfl
  exact ⟨.error .ub, ⟨.error .ub, ⟨i, hi, hline⟩, rfl⟩, rfl⟩

/-- Three lines whose pointers go up, down and up again (`check=False` accepts them). -/
def exOverlap (x : V) : Comp V := ⟨3, 1, [0, 1, 0, 1], [0], [x]⟩

/-- Lines 0 and 2 both claim a position for the only entry; the second claim is behind the end. -/
theorem overlap_fill_ub [Zero V] (x : V) (dbg : Bool) :
    AtomicFillPtr dbg (convLine dbg (exOverlap x)) (exOverlap x) (.error .ub) := by
  have hc : countPtrP dbg 1 [0] = .ok [0, 1] := by cases dbg <;> decide +kernel
  unfold AtomicFillPtr
  rw [show countPtrP dbg (exOverlap x).m (exOverlap x).indices = .ok [0, 1] from hc]
  refine ⟨.error .ub, ?_, rfl⟩
  cases dbg
  · exact .claim 0 rfl rfl (.claim 2 rfl rfl (.fault 2 rfl))
  · exact .claim 0 rfl rfl (.claim 2 rfl rfl (.fault 2 rfl))

attribute [local irreducible] AtomicFillPtr in
theorem csr_to_csc_overlap_ub [Zero V] (x : V) (dbg : Bool) :
    CsrToCscPtr dbg (exOverlap x).toCsr (.error .ub) := by
  have e : (exOverlap x).toCsr.comp = exOverlap x := rfl
  unfold CsrToCscPtr
  rw [e]
  have h := overlap_fill_ub x dbg
  generalize exOverlap x = c at h ⊢
  exact ⟨.error .ub, h, rfl⟩

attribute [local irreducible] AtomicFillPtr in
theorem csc_to_csr_overlap_ub [Zero V] (x : V) (dbg : Bool) :
    CscToCsrPtr dbg (exOverlap x).toCsc (.error .ub) := by
  have e : (exOverlap x).toCsc.comp = exOverlap x := rfl
  unfold CscToCsrPtr
  rw [e]
  have h := overlap_fill_ub x dbg
  generalize exOverlap x = c at h ⊢
  exact ⟨.error .ub, h, rfl⟩

/-- One line that claims an entry the arrays do not have. -/
def exPastEnd (V : Type) : Csc V := ⟨1, 1, [0, 1], [], []⟩

/-- The CSC expansion evaluates `a.indices[p]` first and panics where the CSR one writes. -/
theorem csc_to_coo_past_end [Zero V] (dbg : Bool) (out : Except Fault (Coo V)) :
    CscToCooPtr dbg (exPastEnd V) out ↔ out = .error .panic := by
  have hl : cscCooLine dbg (exPastEnd V).comp 0 = .error .panic := by cases dbg <;> rfl
  constructor
  · rintro ⟨o, ⟨oe, hp, ho⟩, rfl⟩
    cases oe with
    | error x =>
      obtain ⟨i, hi, h⟩ := hp
      obtain rfl : i = 0 := by have : i < 1 := hi; omega
      rw [hl] at h
      cases h
      rw [show o = .error .panic from ho]; rfl
    | ok l =>
      have h : [cscCooLine dbg (exPastEnd V).comp 0] = l.map .ok := hp
      rw [hl] at h
      cases l with
      | nil => cases h
      | cons y l => cases h
  · rintro rfl
    exact ⟨.error .panic, ⟨.error .panic, ⟨0, Nat.zero_lt_one, hl⟩, rfl⟩, rfl⟩

example (dbg : Bool) : CsrToCooPtr dbg (⟨1, 1, [0, 1], [], []⟩ : Csr Int) (.error .ub) :=
  csr_to_coo_ub (i := 0) (s := 0) (e := 1) (by decide) rfl rfl (by decide) (by decide)
    (by unfold i64Max; decide) (by unfold i64Max; decide) dbg

/-! ### examples: unsorted and repeated entries are allowed -/

/-- Row 0 is `(2, 5), (0, 3)` (not sorted), row 1 is `(2, 7), (2, 9)` (repeated). -/
def exLoose : Csr Int := ⟨2, 3, [0, 2, 4], [2, 0, 2, 2], [5, 3, 7, 9]⟩

theorem exLoose_wfu : exLoose.comp.WFU :=
  ⟨rfl, rfl, rfl, rfl, by decide, by decide, by unfold i64Max; decide⟩

theorem exLoose_machine : exLoose.comp.Machine :=
  ⟨by unfold i64Max; decide, by unfold i64Max; decide, by unfold i64Max; decide, by unfold i64Max; decide⟩

example (dbg : Bool) (out : Except Fault (Csc Int)) :
    CsrToCscPtr dbg exLoose out ↔ ∃ r, CsrToCscRun exLoose r ∧ out = .ok r :=
  csr_to_csc_ptr exLoose_wfu exLoose_machine (by unfold i64Max; decide) dbg out

example (dbg : Bool) (out : Except Fault (Coo Int)) :
    CsrToCooPtr dbg exLoose out ↔ ∃ r, CsrToCooRun exLoose r ∧ out = .ok r :=
  csr_to_coo_ptr exLoose_wfu.ptrOk exLoose_machine dbg out

end Lacuna
