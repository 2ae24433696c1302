import Verif.Lemmas.PtrLines
import Verif.Props.Prod
import Verif.Props.MinMax
import Verif.Props.Var
import Verif.Props.Logic
/-
C75: the per-line products, minima, maxima, variances, `all` and `any` at pointer level.
Along the stored lines (rows of CSR, columns of CSC) the kernels return or panic whatever the
three arrays are, and compute the list-level results for good pointers.  Across them they go
through a transposition, so a stored index outside the shape is undefined behaviour.
-/
namespace Lacuna
variable {V : Type}

/-! ### Along the lines -/

/-- C75 (rows of CSR, columns of CSC): pointers in order and within the arrays suffice for
exactly one outcome, in debug and release builds; the stored indices are not read. -/
theorem line_reductions_ptr [Zero V] {a : Comp V} (ha : a.PtrOk) (hm : a.Machine) (dbg : Bool)
    {F : Nat} (hF : a.data.length < F) :
    (∀ [One V] [Mul V] (out : Except Fault (List V)), LineProdsPtr dbg F a out ↔ out = .ok (lineProds a)) ∧
    (∀ (o : ExtOps V) (out : Except Fault (List V)), LineExtsPtr dbg F o a out ↔ out = .ok (lineExts o a)) ∧
    (∀ [Add V] [Sub V] [Mul V] [Div V] [NatCast V] [HasLt V] [BEq V] (c : V) (out : Except Fault (List V)),
      LineVarsPtr dbg F c a out ↔ out = .ok (lineVars a c)) ∧
    (∀ [BEq V] (out : Except Fault (List Bool)), LineAllsPtr dbg a out ↔ out = .ok (lineAlls a)) ∧
    (∀ [BEq V] (out : Except Fault (List Bool)), LineAnysPtr dbg a out ↔ out = .ok (lineAnys a)) :=
  ⟨fun out => lineProds_ptr' ha hm dbg hF out, fun o out => lineExts_ptr' o ha hm dbg hF out,
    fun c out => lineVars_ptr' c ha hm dbg hF out, fun out => lineAlls_ptr' ha hm dbg out,
    fun out => lineAnys_ptr' ha hm dbg out⟩

/-- C75 (corrupt input): whatever the arrays and the shape, the kernels along the lines return
or panic; no read leaves a slice and no loop runs on. -/
theorem line_reductions_no_ub [Zero V] (a : Comp V) (hlen : a.data.length ≤ usizeMax) (dbg : Bool)
    {F : Nat} (hF : a.data.length < F) :
    (∀ [One V] [Mul V] (e : Fault), LineProdsPtr dbg F a (.error e) → e = .panic) ∧
    (∀ (o : ExtOps V) (e : Fault), LineExtsPtr dbg F o a (.error e) → e = .panic) ∧
    (∀ [Add V] [Sub V] [Mul V] [Div V] [NatCast V] [HasLt V] [BEq V] (c : V) (e : Fault),
      LineVarsPtr dbg F c a (.error e) → e = .panic) ∧
    (∀ [BEq V] (e : Fault), LineAllsPtr dbg a (.error e) → e = .panic) ∧
    (∀ [BEq V] (e : Fault), LineAnysPtr dbg a (.error e) → e = .panic) :=
  ⟨fun e h => lineProds_clean a hlen dbg hF h e rfl, fun o e h => lineExts_clean a hlen dbg hF o h e rfl,
    fun c e h => lineVars_clean a hlen dbg hF c h e rfl, fun e h => lineAlls_clean a dbg h e rfl,
    fun e h => lineAnys_clean a dbg h e rfl⟩

/-! ### Across the lines -/

section
variable [Zero V] {a : Csr V} (hw : a.WFU) (hd : a.comp.NoRep) (hm : a.comp.Machine)
  (hl : 8 * ((a.ncols : Int) + 1) ≤ i64Max) (h16 : 16 * (a.data.length : Int) ≤ i64Max)
  {sort : List (Int × V) → List (Int × V)} (hs : IsPairSort sort) {threads : Nat} (ht : threads < 2 ^ 62)
  {F : Nat} (hF : a.data.length < F) (dbg : Bool)
include hw hd hm hl h16 hs ht hF

/-- C75 (columns of CSR): a valid matrix that stores no position twice (in any order); the
outcomes are exactly the list-level results, for every schedule of the transposition. -/
theorem col_reductions_csr_ptr :
    (∀ [One V] [Mul V] (out : Except Fault (List V)),
      ColProdsPtr dbg F sort threads a out ↔ ∃ r, ColProdsRun sort threads a r ∧ out = .ok r) ∧
    (∀ (o : ExtOps V) (out : Except Fault (List V)),
      ColExtsPtr dbg F sort threads o a out ↔ ∃ r, ColExtsRun o sort threads a r ∧ out = .ok r) ∧
    (∀ [Add V] [Sub V] [Mul V] [Div V] [NatCast V] [HasLt V] [BEq V] (c : V) (out : Except Fault (List V)),
      ColVarsPtr dbg F sort threads c a out ↔ ∃ r, ColVarsRun sort threads a c r ∧ out = .ok r) ∧
    (∀ [BEq V] (out : Except Fault (List Bool)),
      ColAllsPtr dbg F sort threads a out ↔ ∃ r, ColAllsRun sort threads a r ∧ out = .ok r) ∧
    (∀ [BEq V] (out : Except Fault (List Bool)),
      ColAnysPtr dbg F sort threads a out ↔ ∃ r, ColAnysRun sort threads a r ∧ out = .ok r) := by
  have key := transpose_csr_ptr hw hm hl h16 hs ht hF dbg
  have hr : ∀ r, TransposeCsrRun sort threads a r → r.comp.PtrOk ∧ r.comp.Machine ∧ r.comp.data.length < F :=
    fun r h => by
      obtain ⟨h1, h2, h3⟩ := transpose_csr_machine hw hd hm hl hs h
      exact ⟨h1, h2, by show r.data.length < F; omega⟩
  refine ⟨fun out => ?_, fun o out => ?_, fun c out => ?_, fun out => ?_, fun out => ?_⟩
  · exact afterPtr_iff key (fun r h => lineProds_ptr' (hr r h).1 (hr r h).2.1 dbg (hr r h).2.2) out
  · exact afterPtr_iff key (fun r h => lineExts_ptr' o (hr r h).1 (hr r h).2.1 dbg (hr r h).2.2) out
  · exact afterPtr_iff key (fun r h => lineVars_ptr' c (hr r h).1 (hr r h).2.1 dbg (hr r h).2.2) out
  · exact afterPtr_iff key (fun r h => lineAlls_ptr' (hr r h).1 (hr r h).2.1 dbg) out
  · exact afterPtr_iff key (fun r h => lineAnys_ptr' (hr r h).1 (hr r h).2.1 dbg) out

end

section
variable [Zero V] {a : Csc V} (hw : a.WFU) (hm : a.comp.Machine) (hl : 8 * ((a.nrows : Int) + 1) ≤ i64Max)
include hw hm hl

/-- C75 (rows of CSC, by transposition). -/
theorem row_reductions_csc_ptr (hd : a.comp.NoRep) (h16 : 16 * (a.data.length : Int) ≤ i64Max)
    {sort : List (Int × V) → List (Int × V)} (hs : IsPairSort sort) {threads : Nat} (ht : threads < 2 ^ 62)
    {F : Nat} (hF : a.data.length < F) (dbg : Bool) :
    (∀ [One V] [Mul V] (out : Except Fault (List V)),
      RowProdsCscPtr dbg F sort threads a out ↔ ∃ r, RowProdsCscRun sort threads a r ∧ out = .ok r) ∧
    (∀ (o : ExtOps V) (out : Except Fault (List V)),
      RowExtsCscPtr dbg F sort threads o a out ↔ ∃ r, RowExtsCscRun o sort threads a r ∧ out = .ok r) ∧
    (∀ [Add V] [Sub V] [Mul V] [Div V] [NatCast V] [HasLt V] [BEq V] (c : V) (out : Except Fault (List V)),
      RowVarsCscPtr dbg F sort threads c a out ↔ ∃ r, RowVarsCscRun sort threads a c r ∧ out = .ok r) := by
  have key := transpose_csc_ptr hw hm hl h16 hs ht hF dbg
  have hr : ∀ r, TransposeCscRun sort threads a r → r.comp.PtrOk ∧ r.comp.Machine ∧ r.comp.data.length < F :=
    fun r h => by
      obtain ⟨h1, h2, h3⟩ := transpose_csc_machine hw hd hm hl hs h
      exact ⟨h1, h2, by show r.data.length < F; omega⟩
  refine ⟨fun out => ?_, fun o out => ?_, fun c out => ?_⟩
  · exact afterPtr_iff key (fun r h => lineProds_ptr' (hr r h).1 (hr r h).2.1 dbg (hr r h).2.2) out
  · exact afterPtr_iff key (fun r h => lineExts_ptr' o (hr r h).1 (hr r h).2.1 dbg (hr r h).2.2) out
  · exact afterPtr_iff key (fun r h => lineVars_ptr' c (hr r h).1 (hr r h).2.1 dbg (hr r h).2.2) out

/-- C75 (`all` and `any` of CSC rows, by conversion to CSR): repeated positions are fine. -/
theorem row_logic_csc_ptr [BEq V] (dbg : Bool) :
    (∀ out : Except Fault (List Bool), RowAllsCscPtr dbg a out ↔ ∃ r, RowAllsCscRun a r ∧ out = .ok r) ∧
    (∀ out : Except Fault (List Bool), RowAnysCscPtr dbg a out ↔ ∃ r, RowAnysCscRun a r ∧ out = .ok r) := by
  have key := csc_to_csr_ptr hw hm hl dbg
  have hr : ∀ r, CscToCsrRun a r → r.comp.PtrOk ∧ r.comp.Machine := fun r h => by
    let _ : Add V := ⟨fun x _ => x⟩
    obtain ⟨c1, c2, c3, c4, -, -⟩ := csc_to_csr_correct hw (Comp.WFU.fits_of_machine hw hm) h
    refine ⟨Comp.WFU.ptrOk c4, Comp.WFU.machine c4 ?_ ?_⟩
    · show 8 * ((r.nrows : Int) + 1) ≤ _
      rw [c1]; exact hl
    · show 8 * (r.data.length : Int) ≤ _
      rw [c3]; exact hm.data
  exact ⟨afterPtr_iff key (fun r h => lineAlls_ptr' (hr r h).1 (hr r h).2 dbg),
    afterPtr_iff key (fun r h => lineAnys_ptr' (hr r h).1 (hr r h).2 dbg)⟩

end

/-! ### Against the dense matrix -/

/-- C75, C37: rows and columns of a well-formed CSR matrix; exactly one outcome. -/
theorem prods_csr_ptr_correct [CommSemiring V] {a : Csr V} (ha : a.WF) (hm : a.comp.Machine)
    (hl : 8 * ((a.ncols : Int) + 1) ≤ i64Max) (h16 : 16 * (a.data.length : Int) ≤ i64Max)
    {sort : List (Int × V) → List (Int × V)} (hs : IsPairSort sort) {threads : Nat} (ht : threads < 2 ^ 62)
    {F : Nat} (hF : a.data.length < F) (dbg : Bool) (out : Except Fault (List V)) :
    (LineProdsPtr dbg F a.comp out ↔ out = .ok ((List.range a.nrows).map fun i => (a.rowCells i).prod)) ∧
    (ColProdsPtr dbg F sort threads a out ↔ out = .ok ((List.range a.ncols).map fun j => (a.colCells j).prod)) := by
  have hw := Comp.WF.wfu ha
  constructor
  · rw [lineProds_ptr' hw.ptrOk hm dbg hF, row_prods_csr_correct ha]
  · rw [(col_reductions_csr_ptr hw (Comp.WF.noRep ha) hm hl h16 hs ht hF dbg).1]
    obtain ⟨⟨y, hy⟩, hall⟩ := col_prods_csr_correct ha (Comp.WFU.fits_of_machine hw hm) hs threads
    constructor
    · rintro ⟨r, hr, rfl⟩; rw [hall r hr]
    · rintro rfl; exact ⟨y, hy, by rw [hall y hy]⟩

/-- C75, C37: columns and rows of a well-formed CSC matrix. -/
theorem prods_csc_ptr_correct [CommSemiring V] {a : Csc V} (ha : a.WF) (hm : a.comp.Machine)
    (hl : 8 * ((a.nrows : Int) + 1) ≤ i64Max) (h16 : 16 * (a.data.length : Int) ≤ i64Max)
    {sort : List (Int × V) → List (Int × V)} (hs : IsPairSort sort) {threads : Nat} (ht : threads < 2 ^ 62)
    {F : Nat} (hF : a.data.length < F) (dbg : Bool) (out : Except Fault (List V)) :
    (LineProdsPtr dbg F a.comp out ↔ out = .ok ((List.range a.ncols).map fun j => (a.colCells j).prod)) ∧
    (RowProdsCscPtr dbg F sort threads a out ↔
      out = .ok ((List.range a.nrows).map fun i => (a.rowCells i).prod)) := by
  have hw := Comp.WF.wfu ha
  constructor
  · rw [lineProds_ptr' hw.ptrOk hm dbg hF, col_prods_csc_correct ha]
  · rw [(row_reductions_csc_ptr hw hm hl (Comp.WF.noRep ha) h16 hs ht hF dbg).1]
    obtain ⟨⟨y, hy⟩, hall⟩ := row_prods_csc_correct ha (Comp.WFU.fits_of_machine hw hm) hs threads
    constructor
    · rintro ⟨r, hr, rfl⟩; rw [hall r hr]
    · rintro rfl; exact ⟨y, hy, by rw [hall y hy]⟩

/-- C75, C38: variances of the rows and columns of a well-formed CSR matrix. -/
theorem vars_csr_ptr_correct [Field V] [LinearOrder V] [IsStrictOrderedRing V] [HasLt V] [BEq V] [LawfulBEq V]
    (hlt : ∀ x y : V, flt x y = true ↔ x < y) {a : Csr V} (ha : a.WF) (hm : a.comp.Machine)
    (hl : 8 * ((a.ncols : Int) + 1) ≤ i64Max) (h16 : 16 * (a.data.length : Int) ≤ i64Max)
    {sort : List (Int × V) → List (Int × V)} (hs : IsPairSort sort) {threads : Nat} (ht : threads < 2 ^ 62)
    {F : Nat} (hF : a.data.length < F) (dbg : Bool) (c : V) (out : Except Fault (List V)) :
    (LineVarsPtr dbg F c a.comp out ↔ out = .ok ((List.range a.nrows).map fun i => specVar c (a.rowCells i))) ∧
    (ColVarsPtr dbg F sort threads c a out ↔
      out = .ok ((List.range a.ncols).map fun j => specVar c (a.colCells j))) := by
  have hw := Comp.WF.wfu ha
  constructor
  · rw [lineVars_ptr' c hw.ptrOk hm dbg hF, row_vars_csr_correct hlt ha]
  · rw [(col_reductions_csr_ptr hw (Comp.WF.noRep ha) hm hl h16 hs ht hF dbg).2.2.1]
    obtain ⟨⟨y, hy⟩, hall⟩ := col_vars_csr_correct hlt ha (Comp.WFU.fits_of_machine hw hm) c hs threads
    constructor
    · rintro ⟨r, hr, rfl⟩; rw [hall r hr]
    · rintro rfl; exact ⟨y, hy, by rw [hall y hy]⟩

/-- C75, C38: CSC. -/
theorem vars_csc_ptr_correct [Field V] [LinearOrder V] [IsStrictOrderedRing V] [HasLt V] [BEq V] [LawfulBEq V]
    (hlt : ∀ x y : V, flt x y = true ↔ x < y) {a : Csc V} (ha : a.WF) (hm : a.comp.Machine)
    (hl : 8 * ((a.nrows : Int) + 1) ≤ i64Max) (h16 : 16 * (a.data.length : Int) ≤ i64Max)
    {sort : List (Int × V) → List (Int × V)} (hs : IsPairSort sort) {threads : Nat} (ht : threads < 2 ^ 62)
    {F : Nat} (hF : a.data.length < F) (dbg : Bool) (c : V) (out : Except Fault (List V)) :
    (LineVarsPtr dbg F c a.comp out ↔ out = .ok ((List.range a.ncols).map fun j => specVar c (a.colCells j))) ∧
    (RowVarsCscPtr dbg F sort threads c a out ↔
      out = .ok ((List.range a.nrows).map fun i => specVar c (a.rowCells i))) := by
  have hw := Comp.WF.wfu ha
  constructor
  · rw [lineVars_ptr' c hw.ptrOk hm dbg hF, col_vars_csc_correct hlt ha]
  · rw [(row_reductions_csc_ptr hw hm hl (Comp.WF.noRep ha) h16 hs ht hF dbg).2.2]
    obtain ⟨⟨y, hy⟩, hall⟩ := row_vars_csc_correct hlt ha (Comp.WFU.fits_of_machine hw hm) c hs threads
    constructor
    · rintro ⟨r, hr, rfl⟩; rw [hall r hr]
    · rintro rfl; exact ⟨y, hy, by rw [hall y hy]⟩

/-- The minima of the same lists are the same. -/
theorem AreMins.unique [LinearOrder V] {n : Nat} {cells : Nat → List V} {y z : List V}
    (hy : AreMins n cells y) (hz : AreMins n cells z) : y = z := by
  refine List.ext_getElem (hy.1.trans hz.1.symm) fun i h1 h2 => ?_
  obtain ⟨a1, a2⟩ := hy.2 i _ (List.getElem?_eq_getElem h1)
  obtain ⟨b1, b2⟩ := hz.2 i _ (List.getElem?_eq_getElem h2)
  exact le_antisymm (a2 _ b1) (b2 _ a1)

/-- The maxima of the same lists are the same. -/
theorem AreMaxs.unique [LinearOrder V] {n : Nat} {cells : Nat → List V} {y z : List V}
    (hy : AreMaxs n cells y) (hz : AreMaxs n cells z) : y = z := by
  refine List.ext_getElem (hy.1.trans hz.1.symm) fun i h1 h2 => ?_
  obtain ⟨a1, a2⟩ := hy.2 i _ (List.getElem?_eq_getElem h1)
  obtain ⟨b1, b2⟩ := hz.2 i _ (List.getElem?_eq_getElem h2)
  exact le_antisymm (b2 _ a1) (a2 _ b1)

/-- The truth values of the same propositions are the same. -/
theorem AreTruths.unique {n : Nat} {p : Nat → Prop} {y z : List Bool}
    (hy : AreTruths n p y) (hz : AreTruths n p z) : y = z := by
  refine List.ext_getElem (hy.1.trans hz.1.symm) fun i h1 h2 => ?_
  have a := hy.2 i _ (List.getElem?_eq_getElem h1)
  have b := hz.2 i _ (List.getElem?_eq_getElem h2)
  exact Bool.eq_iff_iff.2 (a.trans b.symm)

/-- Runs that exist and all meet a specification with one solution have that solution as their
only outcome. -/
theorem outcome_iff_spec {α : Type} {R P : α → Prop} (hex : ∃ y, R y) (hall : ∀ y, R y → P y)
    (huniq : ∀ y z, P y → P z → y = z) (out : Except Fault α) :
    (∃ r, R r ∧ out = .ok r) ↔ ∃ y, out = .ok y ∧ P y := by
  constructor
  · rintro ⟨r, hr, rfl⟩; exact ⟨r, rfl, hall r hr⟩
  · rintro ⟨y, rfl, hy⟩
    obtain ⟨r, hr⟩ := hex
    exact ⟨r, hr, by rw [huniq _ _ hy (hall r hr)]⟩

/-- The same for a function. -/
theorem outcome_iff_spec_fn {α : Type} {x : α} {P : α → Prop} (hx : P x)
    (huniq : ∀ y z, P y → P z → y = z) (out : Except Fault α) :
    out = .ok x ↔ ∃ y, out = .ok y ∧ P y := by
  constructor
  · rintro rfl; exact ⟨x, rfl, hx⟩
  · rintro ⟨y, rfl, hy⟩; rw [huniq _ _ hy hx]

/-- C75, C36: minima and maxima of the rows and columns of a well-formed CSR matrix that has
cells; exactly one outcome. -/
theorem exts_csr_ptr_correct [LinearOrder V] [AddZeroClass V] [HasMinMax V] [HasLt V] (hI : IdealMinMax V)
    {a : Csr V} (ha : a.WF) (hn : 0 < a.nrows) (hc : 0 < a.ncols) (hm : a.comp.Machine)
    (hl : 8 * ((a.ncols : Int) + 1) ≤ i64Max) (h16 : 16 * (a.data.length : Int) ≤ i64Max)
    {sort : List (Int × V) → List (Int × V)} (hs : IsPairSort sort) {threads : Nat} (ht : threads < 2 ^ 62)
    {F : Nat} (hF : a.data.length < F) (dbg : Bool) (out : Except Fault (List V)) :
    (LineExtsPtr dbg F (minOps V) a.comp out ↔ ∃ y, out = .ok y ∧ AreMins a.nrows a.rowCells y) ∧
    (LineExtsPtr dbg F (maxOps V) a.comp out ↔ ∃ y, out = .ok y ∧ AreMaxs a.nrows a.rowCells y) ∧
    (ColExtsPtr dbg F sort threads (minOps V) a out ↔ ∃ y, out = .ok y ∧ AreMins a.ncols a.colCells y) ∧
    (ColExtsPtr dbg F sort threads (maxOps V) a out ↔ ∃ y, out = .ok y ∧ AreMaxs a.ncols a.colCells y) := by
  have hw := Comp.WF.wfu ha
  have key := (col_reductions_csr_ptr hw (Comp.WF.noRep ha) hm hl h16 hs ht hF dbg).2.1
  obtain ⟨h1, h2, h3⟩ := col_minmax_csr_correct hI ha (Comp.WFU.fits_of_machine hw hm) hn hs threads
  refine ⟨?_, ?_, ?_, ?_⟩
  · rw [lineExts_ptr' _ hw.ptrOk hm dbg hF]
    exact outcome_iff_spec_fn (row_minmax_csr_correct hI ha hc).1 (fun _ _ => AreMins.unique) out
  · rw [lineExts_ptr' _ hw.ptrOk hm dbg hF]
    exact outcome_iff_spec_fn (row_minmax_csr_correct hI ha hc).2 (fun _ _ => AreMaxs.unique) out
  · rw [key]; exact outcome_iff_spec (h1 _) h2 (fun _ _ => AreMins.unique) out
  · rw [key]; exact outcome_iff_spec (h1 _) h3 (fun _ _ => AreMaxs.unique) out

/-- C75, C36: minima and maxima of the columns and rows of a well-formed CSC matrix. -/
theorem exts_csc_ptr_correct [LinearOrder V] [AddZeroClass V] [HasMinMax V] [HasLt V] (hI : IdealMinMax V)
    {a : Csc V} (ha : a.WF) (hn : 0 < a.nrows) (hc : 0 < a.ncols) (hm : a.comp.Machine)
    (hl : 8 * ((a.nrows : Int) + 1) ≤ i64Max) (h16 : 16 * (a.data.length : Int) ≤ i64Max)
    {sort : List (Int × V) → List (Int × V)} (hs : IsPairSort sort) {threads : Nat} (ht : threads < 2 ^ 62)
    {F : Nat} (hF : a.data.length < F) (dbg : Bool) (out : Except Fault (List V)) :
    (LineExtsPtr dbg F (minOps V) a.comp out ↔ ∃ y, out = .ok y ∧ AreMins a.ncols a.colCells y) ∧
    (LineExtsPtr dbg F (maxOps V) a.comp out ↔ ∃ y, out = .ok y ∧ AreMaxs a.ncols a.colCells y) ∧
    (RowExtsCscPtr dbg F sort threads (minOps V) a out ↔ ∃ y, out = .ok y ∧ AreMins a.nrows a.rowCells y) ∧
    (RowExtsCscPtr dbg F sort threads (maxOps V) a out ↔ ∃ y, out = .ok y ∧ AreMaxs a.nrows a.rowCells y) := by
  have hw := Comp.WF.wfu ha
  have key := (row_reductions_csc_ptr hw hm hl (Comp.WF.noRep ha) h16 hs ht hF dbg).2.1
  obtain ⟨h1, h2, h3⟩ := row_minmax_csc_correct hI ha (Comp.WFU.fits_of_machine hw hm) hc hs threads
  refine ⟨?_, ?_, ?_, ?_⟩
  · rw [lineExts_ptr' _ hw.ptrOk hm dbg hF]
    exact outcome_iff_spec_fn (col_minmax_csc_correct hI ha hn).1 (fun _ _ => AreMins.unique) out
  · rw [lineExts_ptr' _ hw.ptrOk hm dbg hF]
    exact outcome_iff_spec_fn (col_minmax_csc_correct hI ha hn).2 (fun _ _ => AreMaxs.unique) out
  · rw [key]; exact outcome_iff_spec (h1 _) h2 (fun _ _ => AreMins.unique) out
  · rw [key]; exact outcome_iff_spec (h1 _) h3 (fun _ _ => AreMaxs.unique) out

/-- C75, C39: `all` and `any` of the rows and columns of a well-formed CSR matrix. -/
theorem logic_csr_ptr_correct [AddZeroClass V] [BEq V] (h0 : ((0 : V) == 0) = true)
    {a : Csr V} (ha : a.WF) (hm : a.comp.Machine)
    (hl : 8 * ((a.ncols : Int) + 1) ≤ i64Max) (h16 : 16 * (a.data.length : Int) ≤ i64Max)
    {sort : List (Int × V) → List (Int × V)} (hs : IsPairSort sort) {threads : Nat} (ht : threads < 2 ^ 62)
    {F : Nat} (hF : a.data.length < F) (dbg : Bool) (out : Except Fault (List Bool)) :
    (LineAllsPtr dbg a.comp out ↔
      ∃ y, out = .ok y ∧ AreTruths a.nrows (fun i => AllNonzero (a.rowCells i)) y) ∧
    (LineAnysPtr dbg a.comp out ↔
      ∃ y, out = .ok y ∧ AreTruths a.nrows (fun i => AnyNonzero (a.rowCells i)) y) ∧
    (ColAllsPtr dbg F sort threads a out ↔
      ∃ y, out = .ok y ∧ AreTruths a.ncols (fun j => AllNonzero (a.colCells j)) y) ∧
    (ColAnysPtr dbg F sort threads a out ↔
      ∃ y, out = .ok y ∧ AreTruths a.ncols (fun j => AnyNonzero (a.colCells j)) y) := by
  have hw := Comp.WF.wfu ha
  have key := (col_reductions_csr_ptr hw (Comp.WF.noRep ha) hm hl h16 hs ht hF dbg).2.2.2
  obtain ⟨⟨h1, h2⟩, h3, h4⟩ := col_all_any_csr_correct h0 ha (Comp.WFU.fits_of_machine hw hm) hs threads
  refine ⟨?_, ?_, ?_, ?_⟩
  · rw [lineAlls_ptr' hw.ptrOk hm dbg]
    exact outcome_iff_spec_fn (row_all_any_csr_correct h0 ha).1 (fun _ _ => AreTruths.unique) out
  · rw [lineAnys_ptr' hw.ptrOk hm dbg]
    exact outcome_iff_spec_fn (row_all_any_csr_correct h0 ha).2 (fun _ _ => AreTruths.unique) out
  · rw [key.1]; exact outcome_iff_spec h1 h2 (fun _ _ => AreTruths.unique) out
  · rw [key.2]; exact outcome_iff_spec h3 h4 (fun _ _ => AreTruths.unique) out

/-- C75, C39: `all` and `any` of the columns and rows of a well-formed CSC matrix, the rows for
every interleaving of the conversion to CSR. -/
theorem logic_csc_ptr_correct [AddZeroClass V] [BEq V] (h0 : ((0 : V) == 0) = true)
    {a : Csc V} (ha : a.WF) (hm : a.comp.Machine) (hl : 8 * ((a.nrows : Int) + 1) ≤ i64Max)
    (dbg : Bool) (out : Except Fault (List Bool)) :
    (LineAllsPtr dbg a.comp out ↔
      ∃ y, out = .ok y ∧ AreTruths a.ncols (fun j => AllNonzero (a.colCells j)) y) ∧
    (LineAnysPtr dbg a.comp out ↔
      ∃ y, out = .ok y ∧ AreTruths a.ncols (fun j => AnyNonzero (a.colCells j)) y) ∧
    (RowAllsCscPtr dbg a out ↔
      ∃ y, out = .ok y ∧ AreTruths a.nrows (fun i => AllNonzero (a.rowCells i)) y) ∧
    (RowAnysCscPtr dbg a out ↔
      ∃ y, out = .ok y ∧ AreTruths a.nrows (fun i => AnyNonzero (a.rowCells i)) y) := by
  have hw := Comp.WF.wfu ha
  have key := row_logic_csc_ptr hw hm hl dbg
  obtain ⟨⟨h1, h2⟩, h3, h4⟩ := row_all_any_csc_correct h0 ha (Comp.WFU.fits_of_machine hw hm)
  refine ⟨?_, ?_, ?_, ?_⟩
  · rw [lineAlls_ptr' hw.ptrOk hm dbg]
    exact outcome_iff_spec_fn (col_all_any_csc_correct h0 ha).1 (fun _ _ => AreTruths.unique) out
  · rw [lineAnys_ptr' hw.ptrOk hm dbg]
    exact outcome_iff_spec_fn (col_all_any_csc_correct h0 ha).2 (fun _ _ => AreTruths.unique) out
  · rw [key.1]; exact outcome_iff_spec h1 h2 (fun _ _ => AreTruths.unique) out
  · rw [key.2]; exact outcome_iff_spec h3 h4 (fun _ _ => AreTruths.unique) out

/-! ### Unvalidated input -/

/-- C75 (disagreement): pointers in order, but one stored column index outside the shape; every
column reduction of the CSR matrix has undefined behaviour in every run, because the
transposition does not look at the indices it stores through. -/
theorem col_reductions_outside_ub [Zero V] {a : Csr V} (h : a.comp.PtrOk) (hm : a.comp.Machine)
    (h0 : ∀ j ∈ a.indices, 0 ≤ j) {threads : Nat} (ht : threads < 2 ^ 62)
    (hA : max threads 1 * a.ncols * 8 * 3 ≤ 512 * 1024 * 1024) {i : Nat} (hi : i < a.nrows) {e : Int × V}
    (he : e ∈ a.comp.row i) (hbad : (a.ncols : Int) ≤ e.1) (sort : List (Int × V) → List (Int × V))
    {F : Nat} (hF : a.data.length < F) (dbg : Bool) :
    (∀ [One V] [Mul V] (out : Except Fault (List V)), ColProdsPtr dbg F sort threads a out ↔ out = .error .ub) ∧
    (∀ (o : ExtOps V) (out : Except Fault (List V)), ColExtsPtr dbg F sort threads o a out ↔ out = .error .ub) ∧
    (∀ [Add V] [Sub V] [Mul V] [Div V] [NatCast V] [HasLt V] [BEq V] (c : V) (out : Except Fault (List V)),
      ColVarsPtr dbg F sort threads c a out ↔ out = .error .ub) ∧
    (∀ [BEq V] (out : Except Fault (List Bool)), ColAllsPtr dbg F sort threads a out ↔ out = .error .ub) ∧
    (∀ [BEq V] (out : Except Fault (List Bool)), ColAnysPtr dbg F sort threads a out ↔ out = .error .ub) := by
  have key := transpose_csr_outside_ub h hm h0 ht hA hi he hbad sort hF dbg
  exact ⟨afterPtr_fault key, fun _ => afterPtr_fault key, fun _ => afterPtr_fault key, afterPtr_fault key,
    afterPtr_fault key⟩

/-- C75 (disagreement): the same for the rows of a CSC matrix. -/
theorem row_reductions_outside_ub [Zero V] {a : Csc V} (h : a.comp.PtrOk) (hm : a.comp.Machine)
    (h0 : ∀ i ∈ a.indices, 0 ≤ i) {threads : Nat} (ht : threads < 2 ^ 62)
    (hA : max threads 1 * a.nrows * 8 * 3 ≤ 512 * 1024 * 1024) {j : Nat} (hj : j < a.ncols) {e : Int × V}
    (he : e ∈ a.comp.row j) (hbad : (a.nrows : Int) ≤ e.1) (sort : List (Int × V) → List (Int × V))
    {F : Nat} (hF : a.data.length < F) (dbg : Bool) :
    (∀ [One V] [Mul V] (out : Except Fault (List V)),
      RowProdsCscPtr dbg F sort threads a out ↔ out = .error .ub) ∧
    (∀ (o : ExtOps V) (out : Except Fault (List V)),
      RowExtsCscPtr dbg F sort threads o a out ↔ out = .error .ub) ∧
    (∀ [Add V] [Sub V] [Mul V] [Div V] [NatCast V] [HasLt V] [BEq V] (c : V) (out : Except Fault (List V)),
      RowVarsCscPtr dbg F sort threads c a out ↔ out = .error .ub) := by
  have key := transpose_csc_outside_ub h hm h0 ht hA hj he hbad sort hF dbg
  exact ⟨afterPtr_fault key, fun _ => afterPtr_fault key, fun _ => afterPtr_fault key⟩

/-- C75 (disagreement): `all` and `any` of CSC rows, pointers that go back. -/
theorem row_logic_overlap_ub [Zero V] [BEq V] (x : V) (dbg : Bool) :
    RowAllsCscPtr dbg (exOverlap x).toCsc (.error .ub) ∧ RowAnysCscPtr dbg (exOverlap x).toCsc (.error .ub) :=
  ⟨⟨_, csc_to_csr_overlap_ub x dbg, rfl⟩, ⟨_, csc_to_csr_overlap_ub x dbg, rfl⟩⟩

/-! ### Examples -/

/-- Rows of different lengths, the second one full. -/
def exLines : Csr Int := ⟨3, 3, [0, 1, 4, 4], [2, 0, 1, 2], [5, 2, 3, 7]⟩
theorem exLines_wf : exLines.WF :=
  ((csr_fromParts_iff 3 3 [0, 1, 4, 4] [2, 0, 1, 2] [(5 : Int), 2, 3, 7] (by decide) exLines).1 rfl).2.2
theorem exLines_machine : exLines.comp.Machine := by
  constructor <;> decide

/-- The row products: 0 for a row with implicit zeros. -/
example : LineProdsPtr true 5 exLines.comp (.ok [0, 42, 0]) :=
  ((line_reductions_ptr (Comp.WFU.ptrOk (Comp.WF.wfu exLines_wf)) exLines_machine true (F := 5)
    (by decide)).1 _).2 (by decide)

example (sort : List (Int × Int) → List (Int × Int)) (hs : IsPairSort sort) (dbg : Bool)
    (out : Except Fault (List Int)) : ColProdsPtr dbg 5 sort 4 exLines out ↔ out = .ok [0, 0, 0] :=
  (prods_csr_ptr_correct exLines_wf exLines_machine (by decide) (by decide) hs (by decide) (by decide) dbg out).2

/-- `any` by columns: the second column stores one entry. -/
example (sort : List (Int × Int) → List (Int × Int)) (hs : IsPairSort sort) (dbg : Bool) :
    ∃ y, ColAnysPtr dbg 5 sort 4 exLines (.ok y) ∧ y[1]? = some true := by
  have key := fun out => (logic_csr_ptr_correct (V := Int) rfl exLines_wf exLines_machine (by decide) (by decide)
    hs (threads := 4) (by decide) (F := 5) (by decide) dbg out).2.2.2
  refine ⟨[true, true, true], (key _).2 ⟨_, rfl, rfl, ?_⟩, rfl⟩
  rintro (_ | _ | _ | i) b h
  · obtain rfl : true = b := by simpa using h
    exact ⟨fun _ => by unfold AnyNonzero; decide, fun _ => rfl⟩
  · obtain rfl : true = b := by simpa using h
    exact ⟨fun _ => by unfold AnyNonzero; decide, fun _ => rfl⟩
  · obtain rfl : true = b := by simpa using h
    exact ⟨fun _ => by unfold AnyNonzero; decide, fun _ => rfl⟩
  · simp at h

/-- A decreasing pointer array: the second line panics in both builds. -/
example (dbg : Bool) : lineProdP (V := Int) dbg 9 ⟨2, 1, [0, 2, 1], [0, 0], [1, 2]⟩ 1 = .error .panic := by
  cases dbg <;> decide

/-- One column index outside the shape: column products have undefined behaviour. -/
example (sort : List (Int × Int) → List (Int × Int)) (dbg : Bool) (out : Except Fault (List Int)) :
    ColProdsPtr dbg 9 sort 4 exFarCol out ↔ out = .error .ub := by
  refine (col_reductions_outside_ub (a := exFarCol) (i := 0) (e := (5, 9)) ?_ ?_ ?_ (by decide) (by decide)
    (by decide) (by decide) (by decide) sort (by decide) dbg).1 out
  · constructor <;> decide
  · constructor <;> decide
  · decide

end Lacuna
