import Verif.Lemmas.PtrCumulative
import Verif.Props.Cumulative
import Verif.Props.PtrTranspose
/-
C63: cumulative sums and products at pointer level: in bounds and exact when the dense result fits
into memory; the unchecked size `nrows * ncols` as the way out of bounds for valid matrices.
-/
namespace Lacuna
variable {V : Type}

/-! ### Along the rows -/

/-- The stored indices of every row are columns of the matrix; they may be unsorted and repeated. -/
def Csr.InRange (a : Csr V) : Prop := ∀ i, i < a.nrows → ∀ e ∈ a.comp.row i, 0 ≤ e.1 ∧ e.1 < a.ncols

theorem Csr.WFU.inRange {a : Csr V} (h : a.WFU) : a.InRange := by
  intro i hi e he
  obtain ⟨q, hq, rfl⟩ := List.getElem_of_mem he
  have hp : a.comp.PtrOk := Comp.WFU.ptrOk h
  have hl := hp.row_length (i := i) hi
  have hle := hp.ptr_le_indices (i := i + 1) (show i + 1 ≤ a.comp.n from hi)
  have hd : a.comp.data.length = a.comp.indices.length := h.data_length
  have hb : a.comp.ptr i + q < a.comp.indices.length := by omega
  have e : ((a.comp.row i)[q]).1 = a.comp.indices[a.comp.ptr i + q] := by simp [Comp.row, Comp.entries]
  rw [e]
  exact h.bounds _ (List.getElem_mem hb)

/-- C63: the row-wise cumulative sum is in bounds and returns exactly the list-level result, for
every schedule and in both builds. -/
theorem cumsum_axis1_ptr [Zero V] [Add V] {a : Csr V} (h : a.comp.PtrOk) (hm : a.comp.Machine) (hr : a.InRange)
    (hs : 8 * ((a.nrows * a.ncols : Nat) : Int) ≤ i64Max) {F : Nat} (hF : a.data.length < F) (dbg : Bool)
    (out : Except Fault (List V)) :
    CumsumAxis1Ptr dbg F a out ↔ ∃ y, cumsumAxis1 a = some y ∧ out = .ok y := by
  refine cumRowsPtr_iff hs (fun i hi => ?_) out
  have hc : (a.ncols : Int) ≤ i64Max := by
    have : 1 * a.ncols ≤ a.nrows * a.ncols := Nat.mul_le_mul_right _ (by omega)
    omega
  obtain ⟨y, y1, y2, -⟩ := cumsumRowE_ok (dbg := dbg) (m := a.ncols) (out := List.replicate a.ncols (0 : V))
    (by simp) hc (hr i hi)
  exact ⟨y, by rw [cumsumRowP_eq h hm (i := i) hi hF]; exact y1, y2⟩

/-- The same for the cumulative product. -/
theorem cumprod_axis1_ptr [Zero V] [One V] [Mul V] {a : Csr V} (h : a.comp.PtrOk) (hm : a.comp.Machine)
    (hr : a.InRange) (hs : 8 * ((a.nrows * a.ncols : Nat) : Int) ≤ i64Max) {F : Nat} (hF : a.data.length + 1 < F)
    (dbg : Bool) (out : Except Fault (List V)) :
    CumprodAxis1Ptr dbg F a out ↔ ∃ y, cumprodAxis1 a = some y ∧ out = .ok y := by
  refine cumRowsPtr_iff hs (fun i hi => ?_) out
  have hc : (a.ncols : Int) ≤ i64Max := by
    have : 1 * a.ncols ≤ a.nrows * a.ncols := Nat.mul_le_mul_right _ (by omega)
    omega
  obtain ⟨y, y1, y2, -⟩ := cumprodRowE_ok (dbg := dbg) (L := a.ncols) hc (a.comp.row i)
    ⟨List.replicate a.ncols (0 : V), 0, 1⟩ (by simp) (hr i hi)
  exact ⟨y, by rw [cumprodRowP_eq h hm (i := i) hi hF]; exact y1, y2⟩

theorem usize_of_bytes {n : Nat} (h : 8 * (n : Int) ≤ i64Max) : n ≤ usizeMax := by
  unfold i64Max at h; unfold usizeMax; omega

/-- On a well-formed matrix whose dense form fits into memory every run returns the row-wise
cumulative sums. -/
theorem cumsum_axis1_ptr_correct [AddCommMonoid V] {a : Csr V} (ha : a.WF) (hm : a.comp.Machine)
    (hs : 8 * ((a.nrows * a.ncols : Nat) : Int) ≤ i64Max) {F : Nat} (hF : a.data.length < F) {dbg : Bool}
    {out : Except Fault (List V)} (h : CumsumAxis1Ptr dbg F a out) :
    ∃ y, out = .ok y ∧ IsScanRows List.sum a.nrows a.ncols a.val y := by
  have hu : a.WFU := Comp.WF.wfu ha
  obtain ⟨y, y1, rfl⟩ := (cumsum_axis1_ptr (Comp.WFU.ptrOk hu) hm hu.inRange hs hF dbg out).1 h
  obtain ⟨y', h1, h2⟩ := cumsum_axis1_correct ha (usize_of_bytes hs)
  rw [h1] at y1
  cases y1
  exact ⟨_, rfl, h2⟩

/-- The same for the cumulative product. -/
theorem cumprod_axis1_ptr_correct [Semiring V] {a : Csr V} (ha : a.WF) (hm : a.comp.Machine)
    (hs : 8 * ((a.nrows * a.ncols : Nat) : Int) ≤ i64Max) {F : Nat} (hF : a.data.length + 1 < F) {dbg : Bool}
    {out : Except Fault (List V)} (h : CumprodAxis1Ptr dbg F a out) :
    ∃ y, out = .ok y ∧ IsScanRows List.prod a.nrows a.ncols a.val y := by
  have hu : a.WFU := Comp.WF.wfu ha
  obtain ⟨y, y1, rfl⟩ := (cumprod_axis1_ptr (Comp.WFU.ptrOk hu) hm hu.inRange hs hF dbg out).1 h
  obtain ⟨y', h1, h2⟩ := cumprod_axis1_correct ha (usize_of_bytes hs)
  rw [h1] at y1
  cases y1
  exact ⟨_, rfl, h2⟩

/-! ### Along the columns -/

theorem cumAxis0Ptr_iff [Zero V] [Add V] {a : Csr V} (hw : a.WFU) (hd : a.comp.NoRep) (hm : a.comp.Machine)
    (hl : 8 * ((a.ncols : Int) + 1) ≤ i64Max) (h16 : 16 * (a.data.length : Int) ≤ i64Max)
    (hs : 8 * ((a.nrows * a.ncols : Nat) : Int) ≤ i64Max)
    {sort : List (Int × V) → List (Int × V)} (hsort : IsPairSort sort) {threads : Nat} (ht : threads < 2 ^ 62)
    {F : Nat} (hF : a.data.length < F) (dbg : Bool) {axis1 : Csr V → Except Fault (List V) → Prop}
    {axis1L : Csr V → Option (List V)}
    (h1 : ∀ t : Csr V, t.WF → t.comp.Machine → t.data.length = a.data.length →
      8 * ((t.nrows * t.ncols : Nat) : Int) ≤ i64Max →
      (∀ o, axis1 t o ↔ ∃ y, axis1L t = some y ∧ o = .ok y) ∧ ∀ y, axis1L t = some y → y.length = t.nrows * t.ncols)
    (out : Except Fault (List V)) :
    CumAxis0Ptr dbg F sort threads axis1 a out ↔ ∃ y, CumAxis0Run sort threads axis1L a y ∧ out = .ok y := by
  have htr := transpose_csr_ptr hw hm hl h16 hsort ht hF dbg
  have hf : a.comp.Fits := Comp.WFU.fits_of_machine hw hm
  have hdl : a.data.length = a.indices.length := hw.data_length
  have hmd : 8 * (a.data.length : Int) ≤ i64Max := hm.data
  have hnr : 8 * ((a.nrows : Int) + 1) ≤ i64Max := by
    have e1 := hm.indptr
    have e2 : a.comp.indptr.length = a.nrows + 1 := hw.ptr_length
    omega
  have key : ∀ t, TransposeCsrRun sort threads a t → (∀ o, axis1 t o ↔ ∃ y, axis1L t = some y ∧ o = .ok y) ∧
      ∀ y, axis1L t = some y → ∃ z, transposeDenseP dbg y t.nrows t.ncols = .ok z ∧
        transposeDense y t.nrows t.ncols = some z := by
    intro t hrun
    obtain ⟨t1, t2, t3, t4, -, -⟩ := transpose_csr_sorts hw hd hf hsort hrun
    have hsz : 8 * ((t.nrows * t.ncols : Nat) : Int) ≤ i64Max := by rw [t2, t3, Nat.mul_comm a.ncols]; exact hs
    have tdl : t.data.length = t.indices.length := t1.data_length
    have tpl : t.indptr.length = t.nrows + 1 := t1.ptr_length
    have tm : t.comp.Machine := by
      refine ⟨?_, ?_, ?_, ?_⟩
      · show 8 * (t.indptr.length : Int) ≤ i64Max
        rw [tpl, t2]; exact hl
      · show 8 * (t.indices.length : Int) ≤ i64Max
        rw [← tdl, t4]; exact hmd
      · show 8 * (t.data.length : Int) ≤ i64Max
        rw [t4]; exact hmd
      · intro j hj
        have := (t1.bounds j hj).2
        have e : (t.comp.m : Int) = t.ncols := rfl
        omega
    obtain ⟨g1, g2⟩ := h1 t t1 tm t4 hsz
    exact ⟨g1, fun y hy => transposeDenseP_eq (g2 y hy) hsz⟩
  unfold CumAxis0Ptr CumAxis0Run
  split
  · exact ⟨fun h => ⟨[], rfl, h⟩, fun ⟨y, h, h'⟩ => by rw [h', h]⟩
  · constructor
    · rintro ⟨ot, hot, hm⟩
      obtain ⟨t, hrun, rfl⟩ := (htr ot).1 hot
      simp only [] at hm
      obtain ⟨oy, hy, rfl⟩ := hm
      obtain ⟨k1, k2⟩ := key t hrun
      obtain ⟨y, y1, rfl⟩ := (k1 oy).1 hy
      obtain ⟨z, z1, z2⟩ := k2 y y1
      exact ⟨z, ⟨t, hrun, by rw [y1]; exact z2⟩, z1⟩
    · rintro ⟨z, ⟨t, hrun, hz⟩, rfl⟩
      obtain ⟨k1, k2⟩ := key t hrun
      cases hy : axis1L t with
      | none => rw [hy] at hz; cases hz
      | some y =>
        rw [hy] at hz
        obtain ⟨z', z1, z2⟩ := k2 y hy
        refine ⟨.ok t, (htr _).2 ⟨t, hrun, rfl⟩, .ok y, (k1 _).2 ⟨y, hy, rfl⟩, ?_⟩
        have : z' = z := Option.some.inj (z2.symm.trans hz)
        rw [← this]
        exact z1.symm

/-- C63: the column-wise cumulative sum - transposition with raw pointers, row-wise pass, dense
transposition with unchecked reads and writes - has exactly the list-level outcomes. -/
theorem cumsum_axis0_ptr [Zero V] [Add V] {a : Csr V} (hw : a.WFU) (hd : a.comp.NoRep) (hm : a.comp.Machine)
    (hl : 8 * ((a.ncols : Int) + 1) ≤ i64Max) (h16 : 16 * (a.data.length : Int) ≤ i64Max)
    (hs : 8 * ((a.nrows * a.ncols : Nat) : Int) ≤ i64Max)
    {sort : List (Int × V) → List (Int × V)} (hsort : IsPairSort sort) {threads : Nat} (ht : threads < 2 ^ 62)
    {F : Nat} (hF : a.data.length < F) (dbg : Bool) (out : Except Fault (List V)) :
    CumsumAxis0Ptr dbg F sort threads a out ↔ ∃ y, CumsumAxis0Run sort threads a y ∧ out = .ok y := by
  refine cumAxis0Ptr_iff hw hd hm hl h16 hs hsort ht hF dbg (fun t tw tm tl ts => ?_) out
  have tu : t.WFU := Comp.WF.wfu tw
  refine ⟨fun o => cumsum_axis1_ptr (Comp.WFU.ptrOk tu) tm tu.inRange ts (by omega) dbg o, fun y hy => ?_⟩
  obtain ⟨y', e1, e2⟩ := cumsum_axis1_exact tw (usize_of_bytes ts)
  rw [e1] at hy
  cases hy
  exact e2.1

/-- The same for the cumulative product. -/
theorem cumprod_axis0_ptr [Zero V] [One V] [Add V] [Mul V] {a : Csr V} (hw : a.WFU) (hd : a.comp.NoRep) (hm : a.comp.Machine)
    (hl : 8 * ((a.ncols : Int) + 1) ≤ i64Max) (h16 : 16 * (a.data.length : Int) ≤ i64Max)
    (hs : 8 * ((a.nrows * a.ncols : Nat) : Int) ≤ i64Max)
    {sort : List (Int × V) → List (Int × V)} (hsort : IsPairSort sort) {threads : Nat} (ht : threads < 2 ^ 62)
    {F : Nat} (hF : a.data.length + 1 < F) (dbg : Bool) (out : Except Fault (List V)) :
    CumprodAxis0Ptr dbg F sort threads a out ↔ ∃ y, CumprodAxis0Run sort threads a y ∧ out = .ok y := by
  refine cumAxis0Ptr_iff hw hd hm hl h16 hs hsort ht (by omega) dbg (fun t tw tm tl ts => ?_) out
  have tu : t.WFU := Comp.WF.wfu tw
  refine ⟨fun o => cumprod_axis1_ptr (Comp.WFU.ptrOk tu) tm tu.inRange ts (by omega) dbg o, fun y hy => ?_⟩
  obtain ⟨y', e1, e2⟩ := cumprod_axis1_exact tw (usize_of_bytes ts)
  rw [e1] at hy
  cases hy
  exact e2.1

/-- Every run of the column-wise kernels returns the column-wise cumulative sums (products). -/
theorem cumsum_axis0_ptr_correct [AddCommMonoid V] {a : Csr V} (ha : a.WF) (hm : a.comp.Machine)
    (hl : 8 * ((a.ncols : Int) + 1) ≤ i64Max) (h16 : 16 * (a.data.length : Int) ≤ i64Max)
    (hs : 8 * ((a.nrows * a.ncols : Nat) : Int) ≤ i64Max)
    {sort : List (Int × V) → List (Int × V)} (hsort : IsPairSort sort) {threads : Nat} (ht : threads < 2 ^ 62)
    {F : Nat} (hF : a.data.length < F) {dbg : Bool} :
    (∃ y, CumsumAxis0Ptr dbg F sort threads a (.ok y)) ∧
    ∀ out, CumsumAxis0Ptr dbg F sort threads a out →
      ∃ y, out = .ok y ∧ IsScanCols List.sum a.nrows a.ncols a.val y := by
  have hw : a.WFU := Comp.WF.wfu ha
  have key := cumsum_axis0_ptr hw (Comp.WF.noRep ha) hm hl h16 hs hsort ht hF dbg
  obtain ⟨⟨y, hy⟩, hall⟩ := cumsum_axis0_correct hsort threads ha (Comp.WFU.fits_of_machine hw hm) (usize_of_bytes hs)
  refine ⟨⟨y, (key _).2 ⟨y, hy, rfl⟩⟩, fun out h => ?_⟩
  obtain ⟨y, h1, rfl⟩ := (key out).1 h
  exact ⟨y, rfl, hall y h1⟩

theorem cumprod_axis0_ptr_correct [Semiring V] {a : Csr V} (ha : a.WF) (hm : a.comp.Machine)
    (hl : 8 * ((a.ncols : Int) + 1) ≤ i64Max) (h16 : 16 * (a.data.length : Int) ≤ i64Max)
    (hs : 8 * ((a.nrows * a.ncols : Nat) : Int) ≤ i64Max)
    {sort : List (Int × V) → List (Int × V)} (hsort : IsPairSort sort) {threads : Nat} (ht : threads < 2 ^ 62)
    {F : Nat} (hF : a.data.length + 1 < F) {dbg : Bool} :
    (∃ y, CumprodAxis0Ptr dbg F sort threads a (.ok y)) ∧
    ∀ out, CumprodAxis0Ptr dbg F sort threads a out →
      ∃ y, out = .ok y ∧ IsScanCols List.prod a.nrows a.ncols a.val y := by
  have hw : a.WFU := Comp.WF.wfu ha
  have key := cumprod_axis0_ptr hw (Comp.WF.noRep ha) hm hl h16 hs hsort ht hF dbg
  obtain ⟨⟨y, hy⟩, hall⟩ := cumprod_axis0_correct hsort threads ha (Comp.WFU.fits_of_machine hw hm) (usize_of_bytes hs)
  refine ⟨⟨y, (key _).2 ⟨y, hy, rfl⟩⟩, fun out h => ?_⟩
  obtain ⟨y, h1, rfl⟩ := (key out).1 h
  exact ⟨y, rfl, hall y h1⟩

/-! ### Dense results that do not fit -/

/-- A result of more than `isize::MAX` bytes that can still be counted is refused. -/
theorem cum_axis1_big [Zero V] {a : Csr V} (h0 : a.nrows ≠ 0 ∧ a.ncols ≠ 0)
    (hu : a.nrows * a.ncols ≤ usizeMax) (hs : i64Max < 8 * ((a.nrows * a.ncols : Nat) : Int)) (dbg : Bool)
    (row : List V × Nat → Except Fault (List V)) (out : Except Fault (List V)) :
    CumRowsPtr dbg a row out ↔ out = .error .panic := by
  unfold CumRowsPtr
  rw [if_neg (by omega), mulUsize_eq hu, ok_bind]
  unfold zeroVecP
  rw [if_neg (by omega)]

/-- Beyond `usize` a build with overflow checks panics. -/
theorem cum_size_debug [Zero V] {a : Csr V} (hu : usizeMax < a.nrows * a.ncols)
    (row : List V × Nat → Except Fault (List V)) (out : Except Fault (List V)) :
    CumRowsPtr true a row out ↔ out = .error .panic := by
  have h0 : ¬ (a.nrows = 0 ∨ a.ncols = 0) := by
    rintro (h | h) <;> rw [h] at hu <;> simp at hu
  have e : mulUsize true a.nrows a.ncols = .error .panic := by
    unfold mulUsize
    rw [if_neg (by omega)]
    rfl
  unfold CumRowsPtr
  rw [if_neg h0, e, err_bind]

theorem chunksOf_short {α : Type} {k : Nat} {l : List α} (h0 : l ≠ []) (hk : l.length ≤ k) :
    chunksOf k l = [l] := by
  have hk0 : k ≠ 0 := by
    intro e
    have : l.length ≠ 0 := fun e => h0 (List.length_eq_zero_iff.1 e)
    omega
  rw [chunksOf, dif_neg (by simp [h0, hk0]), List.take_of_length_le hk, List.drop_eq_nil_of_le hk, chunksOf,
    dif_pos (.inl rfl)]

/-- In a release build the size wraps: only the first row has a chunk, and it is too short. -/
theorem cum_size_wraps [Zero V] {a : Csr V} {L : Nat} (hL : a.nrows * a.ncols % 2 ^ 64 = L) (hL0 : 0 < L)
    (hLc : L < a.ncols) (hL8 : 8 * (L : Int) ≤ i64Max) (hu : usizeMax < a.nrows * a.ncols)
    {row : List V × Nat → Except Fault (List V)} (hub : row (List.replicate L 0, 0) = .error .ub)
    (out : Except Fault (List V)) :
    CumRowsPtr false a row out ↔ out = .error .ub := by
  have h0 : ¬ (a.nrows = 0 ∨ a.ncols = 0) := by
    rintro (h | h) <;> rw [h] at hu <;> simp at hu
  have e : mulUsize false a.nrows a.ncols = .ok L := by
    unfold mulUsize
    rw [if_neg (by omega), if_neg (by simp), hL]
  unfold CumRowsPtr
  rw [if_neg h0, e, ok_bind, zeroVecP_ok hL8]
  simp only []
  rw [chunksOf_short (by intro e; have := congrArg List.length e; simp at this; omega) (by simp; omega)]
  constructor
  · rintro ⟨oe, hoe, rfl⟩
    cases oe with
    | ok l =>
      have hoe : [row (List.replicate L 0, 0)] = l.map .ok := hoe
      rw [hub] at hoe
      cases l with
      | nil => cases hoe
      | cons x l => cases hoe
    | error x =>
      obtain ⟨i, hi, hx⟩ := hoe
      have hi : i = (List.replicate L 0, 0) := by simpa using hi
      rw [hi, hub] at hx
      cases hx
      rfl
  · rintro rfl
    exact ⟨.error .ub, ⟨_, List.mem_singleton.2 rfl, hub⟩, rfl⟩

/-- Neighbouring columns are neighbours in a sorted row. -/
theorem sorted_adjacent {r : Row V} (h : Srt r) {x y : Int × V} (hx : x ∈ r) (hy : y ∈ r) (hxy : y.1 = x.1 + 1) :
    ∃ pre post, r = pre ++ x :: y :: post ∧ ∀ e ∈ pre, e.1 < x.1 := by
  obtain ⟨pre, rest, rfl⟩ := List.append_of_mem hx
  unfold Srt at h
  rw [List.map_append, List.pairwise_append, List.map_cons, List.pairwise_cons] at h
  obtain ⟨-, ⟨h2, h3⟩, h4⟩ := h
  have hpre : ∀ e ∈ pre, e.1 < x.1 := fun e he => h4 _ (List.mem_map_of_mem he) _ (by simp)
  have hyr : y ∈ rest := by
    rcases List.mem_append.1 hy with h | h
    · have := hpre y h; omega
    · rcases List.mem_cons.1 h with rfl | h
      · omega
      · exact h
  cases rest with
  | nil => simp at hyr
  | cons z rest =>
    rcases List.mem_cons.1 hyr with rfl | hy'
    · exact ⟨pre, rest, rfl, hpre⟩
    · have g1 : x.1 < z.1 := h2 _ (by simp)
      rw [List.map_cons, List.pairwise_cons] at h3
      have g2 : z.1 < y.1 := h3.1 _ (List.mem_map_of_mem hy')
      omega

theorem Comp.mem_row_of_stored {a : Comp V} {i j : Nat} (h : a.stored i j ≠ none) :
    ∃ e ∈ a.row i, e.1 = (j : Int) := by
  unfold Comp.stored at h
  cases hf : (a.row i).find? fun e => e.1 == (j : Int) with
  | none => rw [hf] at h; simp at h
  | some e =>
    refine ⟨e, List.mem_of_find?_eq_some hf, ?_⟩
    have := List.find?_some hf
    simpa using this

/-- C63, negative part: a valid matrix with more than `usize::MAX` cells whose first row stores two
neighbouring columns at the wrapped size: every run of the row-wise cumulative sum in a release
build writes behind the end of its buffer. -/
theorem cumsum_size_wraps [Zero V] [Add V] {a : Csr V} (ha : a.WF) (hm : a.comp.Machine) {L : Nat}
    (hL : a.nrows * a.ncols % 2 ^ 64 = L) (hL0 : 0 < L) (hLc : L < a.ncols) (hL8 : 8 * (L : Int) ≤ i64Max)
    (hu : usizeMax < a.nrows * a.ncols) (h1 : a.comp.stored 0 (L - 1) ≠ none) (h2 : a.comp.stored 0 L ≠ none)
    {F : Nat} (hF : a.data.length < F) (out : Except Fault (List V)) :
    CumsumAxis1Ptr false F a out ↔ out = .error .ub := by
  have hn : 0 < a.nrows := by
    rcases Nat.eq_zero_or_pos a.nrows with h | h
    · rw [h] at hu; simp at hu
    · exact h
  refine cum_size_wraps hL hL0 hLc hL8 hu ?_ out
  obtain ⟨x, x1, x2⟩ := Comp.mem_row_of_stored h1
  obtain ⟨y, y1, y2⟩ := Comp.mem_row_of_stored h2
  obtain ⟨pre, post, hrow, hpre⟩ := sorted_adjacent (srt_row ha 0) x1 y1 (by omega)
  rw [cumsumRowP_eq (Comp.WFU.ptrOk (Comp.WF.wfu ha)) hm (i := 0) hn hF, hrow]
  refine cumsumRowE_ub (L := L) (by omega) (fun e he => ?_) (by omega) (by omega) y2 (by simp)
  have hmem : e ∈ a.comp.row 0 := by rw [hrow]; simp [he]
  have := (bounds_row ha 0 e hmem).1
  have := hpre e he
  omega

/-- A sorted row that stores every column up to `L` stores column `q` at position `q`. -/
theorem sorted_initial {r : Row V} (h : Srt r) (h0 : ∀ e ∈ r, 0 ≤ e.1) {L : Nat}
    (hall : ∀ j, j ≤ L → ∃ e ∈ r, e.1 = (j : Int)) :
    ∀ q, q ≤ L → ∃ hq : q < r.length, (r[q].1 : Int) = q := by
  have hlt : ∀ (p q : Nat) (hp : p < r.length) (hq : q < r.length), p < q → r[p].1 < r[q].1 := by
    intro p q hp hq hpq
    have := List.pairwise_iff_getElem.1 h p q (by simpa using hp) (by simpa using hq) hpq
    simpa using this
  have hge : ∀ (q : Nat) (hq : q < r.length), (q : Int) ≤ r[q].1 := by
    intro q
    induction q with
    | zero => intro hq; exact h0 _ (List.getElem_mem hq)
    | succ q ih =>
      intro hq
      have g1 := ih (by omega)
      have g2 := hlt q (q + 1) (by omega) hq (by omega)
      push_cast
      omega
  intro q
  induction q using Nat.strongRecOn with
  | _ q ih =>
    intro hqL
    obtain ⟨e, he, heq⟩ := hall q hqL
    obtain ⟨p, hp, rfl⟩ := List.getElem_of_mem he
    have hpq : p ≤ q := by have := hge p hp; omega
    rcases Nat.lt_or_ge p q with hlt' | hge'
    · obtain ⟨_, g⟩ := ih p hlt' (by omega)
      omega
    · have : p = q := by omega
      subst this
      exact ⟨hp, heq⟩

/-- The same for the cumulative product, where the row must be full up to the wrapped size. -/
theorem cumprod_size_wraps [Zero V] [One V] [Mul V] {a : Csr V} (ha : a.WF) (hm : a.comp.Machine) {L : Nat}
    (hL : a.nrows * a.ncols % 2 ^ 64 = L) (hL0 : 0 < L) (hLc : L < a.ncols) (hL8 : 8 * (L : Int) ≤ i64Max)
    (hu : usizeMax < a.nrows * a.ncols) (hall : ∀ j, j ≤ L → a.comp.stored 0 j ≠ none)
    {F : Nat} (hF : a.data.length + 1 < F) (out : Except Fault (List V)) :
    CumprodAxis1Ptr false F a out ↔ out = .error .ub := by
  have hn : 0 < a.nrows := by
    rcases Nat.eq_zero_or_pos a.nrows with h | h
    · rw [h] at hu; simp at hu
    · exact h
  refine cum_size_wraps hL hL0 hLc hL8 hu ?_ out
  have key := sorted_initial (srt_row ha 0) (fun e he => (bounds_row ha 0 e he).1)
    (fun j hj => Comp.mem_row_of_stored (hall j hj))
  rw [cumprodRowP_eq (Comp.WFU.ptrOk (Comp.WF.wfu ha)) hm (i := 0) hn hF]
  obtain ⟨hlen, -⟩ := key L (Nat.le_refl _)
  refine cumprodRowE_ub (L := L) (by omega) _ _ (by simp) (by simp) (by simpa using hlen) ?_
  intro q hq hle
  obtain ⟨_, g⟩ := key q (by simpa using hle)
  simpa using g

/-! ### Indices outside the matrix -/

/-- C63, negative part: with `check=False` a row may store the column `ncols` right behind the last
one; then the kernel writes behind its chunk (some schedules end that way; if no other row panics,
all do). -/
theorem cumsum_outside_ub [Zero V] [Add V] {a : Csr V} (h : a.comp.PtrOk) (hm : a.comp.Machine)
    (hs : 8 * ((a.nrows * a.ncols : Nat) : Int) ≤ i64Max) (hc : 0 < a.ncols) {i : Nat} (hi : i < a.nrows)
    {pre post : List (Int × V)} {x y : Int × V} (hrow : a.comp.row i = pre ++ x :: y :: post)
    (hpre : ∀ e ∈ pre, 0 ≤ e.1 ∧ e.1 < a.ncols) (hx : x.1 + 1 = a.ncols) (hy : y.1 = a.ncols)
    {F : Nat} (hF : a.data.length < F) (dbg : Bool) :
    CumsumAxis1Ptr dbg F a (.error .ub) := by
  have hcm : (a.ncols : Int) ≤ i64Max := by
    have : 1 * a.ncols ≤ a.nrows * a.ncols := Nat.mul_le_mul_right _ (by omega)
    omega
  unfold CumsumAxis1Ptr CumRowsPtr
  rw [if_neg (by omega), mulUsize_eq (usize_of_bytes hs), ok_bind, zeroVecP_ok hs]
  simp only []
  rw [chunksOf_replicate _ _ hc]
  refine ⟨.error .ub, ⟨(List.replicate a.ncols 0, i), ?_, ?_⟩, rfl⟩
  · rw [List.mem_zipIdx_iff_getElem?]
    simp [hi]
  · rw [cumsumRowP_eq h hm (i := i) hi hF, hrow]
    exact cumsumRowE_ub hcm hpre hx (by omega) hy (by simp)

/-! ### Witnesses -/

example (dbg : Bool) (out : Except Fault (List Int)) (h : CumsumAxis1Ptr dbg 4 exA out) :
    ∃ y, out = .ok y ∧ IsScanRows List.sum 2 3 exA.val y :=
  cumsum_axis1_ptr_correct exA_wf exA_machine (by decide) (by decide) h
example (dbg : Bool) (out : Except Fault (List Int)) (h : CumprodAxis1Ptr dbg 5 exA out) :
    ∃ y, out = .ok y ∧ IsScanRows List.prod 2 3 exA.val y :=
  cumprod_axis1_ptr_correct exA_wf exA_machine (by decide) (by decide) h
example (dbg : Bool) : (∃ y, CumsumAxis0Ptr dbg 4 (List.insertionSort pairLe) 3 exA (.ok y)) ∧
    ∀ out, CumsumAxis0Ptr dbg 4 (List.insertionSort pairLe) 3 exA out →
      ∃ y, out = .ok y ∧ IsScanCols List.sum 2 3 exA.val y :=
  cumsum_axis0_ptr_correct exA_wf exA_machine (by decide) (by decide) (by decide) isPairSort_insertionSort
    (by decide) (by decide)
example (dbg : Bool) : (∃ y, CumprodAxis0Ptr dbg 5 (List.insertionSort pairLe) 3 exA (.ok y)) ∧
    ∀ out, CumprodAxis0Ptr dbg 5 (List.insertionSort pairLe) 3 exA out →
      ∃ y, out = .ok y ∧ IsScanCols List.prod 2 3 exA.val y :=
  cumprod_axis0_ptr_correct exA_wf exA_machine (by decide) (by decide) (by decide) isPairSort_insertionSort
    (by decide) (by decide)

/-- 5 rows and `(2^64 + 4) / 5` columns, five entries in the first row: valid, and 4 cells modulo
`2^64`. -/
def exWrap : Csr Int := ⟨5, 3689348814741910324, [0, 5, 5, 5, 5, 5], [0, 1, 2, 3, 4], [1, 2, 3, 4, 5]⟩

theorem exWrap_wf : exWrap.WF :=
  ((csr_fromParts_iff 5 3689348814741910324 [0, 5, 5, 5, 5, 5] [0, 1, 2, 3, 4] [(1 : Int), 2, 3, 4, 5]
    (by decide) exWrap).1 rfl).2.2

example (out : Except Fault (List Int)) : CumsumAxis1Ptr false 6 exWrap out ↔ out = .error .ub :=
  cumsum_size_wraps exWrap_wf ⟨by decide, by decide, by decide, by decide⟩ (L := 4) (by decide) (by decide)
    (by decide) (by decide) (by decide) (by decide) (by decide) (by decide) out
example (out : Except Fault (List Int)) : CumprodAxis1Ptr false 7 exWrap out ↔ out = .error .ub :=
  cumprod_size_wraps exWrap_wf ⟨by decide, by decide, by decide, by decide⟩ (L := 4) (by decide) (by decide)
    (by decide) (by decide) (by decide) (by decide) (by decide) out
example (out : Except Fault (List Int)) : CumsumAxis1Ptr true 6 exWrap out ↔ out = .error .panic :=
  cum_size_debug (by decide) _ out

/-- One row of two columns that stores column 2, accepted with `check=False`. -/
example : CumsumAxis1Ptr false 3 (⟨1, 2, [0, 2], [1, 2], [5, 7]⟩ : Csr Int) (.error .ub) :=
  cumsum_outside_ub ⟨by decide, by decide, by decide, by decide, by decide⟩
    ⟨by decide, by decide, by decide, by decide⟩ (by decide) (by decide) (i := 0) (by decide) (pre := [])
    (post := []) (x := (1, 5)) (y := (2, 7)) (by decide) (by simp) (by decide) (by decide) (by decide) false

end Lacuna
