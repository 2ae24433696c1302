import Verif.Model.PtrLines
import Verif.Props.PtrSimd
import Verif.Props.PtrTranspose
import Verif.Props.PtrConvert
import Verif.Props.PtrDiff
/-
The per-line reductions at pointer level.
-/
namespace Lacuna
variable {V W : Type}

/-- The computation returns or panics. -/
def Clean {α : Type} (m : Except Fault α) : Prop := ∀ e, m = .error e → e = .panic

theorem Clean.ok {α : Type} (x : α) : Clean (.ok x : Except Fault α) := by intro e h; cases h
theorem Clean.panic {α : Type} : Clean (.error .panic : Except Fault α) := by intro e h; cases h; rfl
theorem Clean.bind {α β : Type} {m : Except Fault α} {f : α → Except Fault β} (h : Clean m)
    (hf : ∀ x, m = .ok x → Clean (f x)) : Clean (m >>= f) := by
  cases m with
  | ok x => exact hf x rfl
  | error e => intro e' h'; exact h e' (by cases h'; rfl)
theorem Clean.index {α : Type} (v : List α) (i : Nat) : Clean (index v i) := by
  unfold Lacuna.index
  split
  · exact .ok _
  · exact .panic
theorem Clean.i64ToUsizeP (dbg : Bool) (x : Int) : Clean (i64ToUsizeP dbg x) := by
  unfold Lacuna.i64ToUsizeP
  split
  · exact .panic
  · exact .ok _
theorem Clean.subUsize (dbg : Bool) (x y : Nat) : Clean (subUsize dbg x y) := by
  unfold Lacuna.subUsize
  split
  · exact .ok _
  split
  · exact .panic
  · exact .ok _
theorem Clean.vecP {α : Type} (w n : Nat) (x : α) : Clean (vecP w n x) := by
  unfold Lacuna.vecP
  split
  · exact .ok _
  · exact .panic
theorem Clean.lineSpanP (dbg : Bool) (a : Comp V) (i : Nat) : Clean (lineSpanP dbg a i) := by
  unfold Lacuna.lineSpanP
  exact (Clean.index _ _).bind fun _ _ => (Clean.i64ToUsizeP _ _).bind fun _ _ =>
    (Clean.index _ _).bind fun _ _ => (Clean.i64ToUsizeP _ _).bind fun _ _ => .ok _

/-- A slice, then something that is fine on every representable slice. -/
theorem Clean.slice {α β : Type} (v : List α) (s e : Nat) {f : List α → Except Fault β}
    (hf : ∀ l, l.length ≤ v.length → Clean (f l)) : Clean (sliceP v s e >>= f) := by
  unfold sliceP
  split
  · exact hf _ (by simp)
  · exact .panic

theorem FillLines.clean {w n : Nat} {x : W} {f : Nat → Except Fault W} (hf : ∀ i, Clean (f i))
    {out : Except Fault (List W)} (h : FillLines w n x f out) : Clean out := by
  unfold FillLines at h
  have hv := Clean.vecP w n x
  cases hx : vecP w n x with
  | error e => rw [hx] at h hv; rw [h]; rw [hv e rfl]; exact .panic
  | ok l =>
    rw [hx] at h
    cases out with
    | ok => exact .ok _
    | error e =>
      obtain ⟨i, _, hi⟩ := h
      have := hf i e hi
      rw [this]; exact .panic

theorem fillLines_ok {w n : Nat} {x : W} {f : Nat → Except Fault W} {g : Nat → W}
    (hn : ((w * n : Nat) : Int) ≤ i64Max) (hf : ∀ i, i < n → f i = .ok (g i)) (out : Except Fault (List W)) :
    FillLines w n x f out ↔ out = .ok ((List.range n).map g) := by
  unfold FillLines vecP
  rw [if_pos hn]
  exact parCollect_ok hf out

theorem vecP_eq {α : Type} {w n : Nat} (h : ((w * n : Nat) : Int) ≤ i64Max) (x : α) :
    vecP w n x = .ok (List.replicate n x) := by
  unfold vecP; rw [if_pos h]

/-! ### Lines of good pointers -/

theorem Comp.PtrOk.span {a : Comp V} (ha : a.PtrOk) (hm : a.Machine) (dbg : Bool) {i : Nat} (hi : i < a.n) :
    lineSpanP dbg a i = .ok (a.ptr i, a.ptr (i + 1)) := by
  have l1 := ha.load hm dbg (i := i) (by omega)
  have l2 := ha.load hm dbg (i := i + 1) (by omega)
  have hl := ha.ptr_length
  rw [index_eq (by omega), ok_bind] at l1 l2
  unfold lineSpanP
  rw [index_eq (by omega), ok_bind, l1, ok_bind, index_eq (by omega), ok_bind, l2, ok_bind]
  rfl

theorem Comp.PtrOk.slice {a : Comp V} (ha : a.PtrOk) {i : Nat} (hi : i < a.n) :
    sliceP a.data (a.ptr i) (a.ptr (i + 1)) = .ok ((a.row i).map Prod.snd) := by
  have hle := ha.ptr_le_data (i := i + 1) (by omega)
  have hmo := ha.ptr_mono' (i := i) (j := i + 1) (by omega) (by omega)
  have hle' := ha.ptr_le_indices (i := i + 1) (by omega)
  rw [sliceP_eq hmo hle]
  congr 1
  have hrl := ha.row_length hi
  refine List.ext_getElem (by simp [hrl]; omega) fun k h1 h2 => ?_
  simp [Comp.row, Comp.entries]

theorem Comp.PtrOk.sub {a : Comp V} (ha : a.PtrOk) (dbg : Bool) {i : Nat} (hi : i < a.n) :
    subUsize dbg (a.ptr (i + 1)) (a.ptr i) = .ok ((a.row i).map Prod.snd).length := by
  have hmo := ha.ptr_mono' (i := i) (j := i + 1) (by omega) (by omega)
  unfold subUsize
  rw [if_pos hmo, List.length_map, ha.row_length hi]

theorem Comp.PtrOk.line_fits {a : Comp V} (ha : a.PtrOk) (hm : a.Machine) {F : Nat} (hF : a.data.length < F)
    {i : Nat} (hi : i < a.n) :
    ((a.row i).map Prod.snd).length ≤ usizeMax ∧ ((a.row i).map Prod.snd).length < F := by
  have hle := ha.ptr_le_data (i := i + 1) (by omega)
  have hmd := hm.data
  have hrl := ha.row_length hi
  rw [List.length_map, hrl]
  unfold i64Max at hmd
  unfold usizeMax
  omega

theorem Comp.PtrOk.ends_eq {a : Comp V} (ha : a.PtrOk) {i : Nat} (hi : i < a.n) :
    a.ptr i = a.ptr (i + 1) ↔ ((a.row i).map Prod.snd).length = 0 := by
  have hmo := ha.ptr_mono' (i := i) (j := i + 1) (by omega) (by omega)
  rw [List.length_map, ha.row_length hi]
  omega

theorem Comp.Machine.lines {a : Comp V} (ha : a.PtrOk) (hm : a.Machine) :
    ((8 * a.n : Nat) : Int) ≤ i64Max ∧ ((1 * a.n : Nat) : Int) ≤ i64Max := by
  have h1 := hm.indptr
  have h2 := ha.ptr_length
  omega

theorem lineProds_ptr' [Zero V] [One V] [Mul V] {a : Comp V} (ha : a.PtrOk) (hm : a.Machine) (dbg : Bool)
    {F : Nat} (hF : a.data.length < F) (out : Except Fault (List V)) :
    LineProdsPtr dbg F a out ↔ out = .ok (lineProds a) := by
  unfold LineProdsPtr lineProds
  split
  · rfl
  split
  · rw [vecP_eq (hm.lines ha).1]
  · refine fillLines_ok (hm.lines ha).1 (fun i hi => ?_) out
    unfold lineProdP
    rw [ha.span hm dbg hi, ok_bind, ha.sub dbg hi, ok_bind]
    have hf := ha.line_fits hm hF hi
    simp only []
    split
    · rfl
    · rw [ha.slice hi, ok_bind]
      exact (chunk_reductions_ptr _ hf.1 hf.2).2.1

theorem lineExts_ptr' [Zero V] (o : ExtOps V) {a : Comp V} (ha : a.PtrOk) (hm : a.Machine) (dbg : Bool)
    {F : Nat} (hF : a.data.length < F) (out : Except Fault (List V)) :
    LineExtsPtr dbg F o a out ↔ out = .ok (lineExts o a) := by
  unfold LineExtsPtr lineExts
  refine fillLines_ok (hm.lines ha).1 (fun i hi => ?_) out
  unfold lineExtP
  rw [ha.span hm dbg hi, ok_bind]
  have hf := ha.line_fits hm hF hi
  have he := ha.ends_eq hi
  by_cases h0 : a.ptr i = a.ptr (i + 1)
  · simp only [h0, he.1 h0, if_true]
    rfl
  · rw [if_neg h0, ha.slice hi, ok_bind, (chunk_reductions_ptr _ hf.1 hf.2).2.2.1 o, ok_bind, ha.sub dbg hi, ok_bind]
    simp only [if_neg (fun h => h0 (he.2 h))]
    rfl

theorem lineVars_ptr' [Zero V] [Add V] [Sub V] [Mul V] [Div V] [NatCast V] [HasLt V] [BEq V] (c : V) {a : Comp V}
    (ha : a.PtrOk) (hm : a.Machine) (dbg : Bool) {F : Nat} (hF : a.data.length < F) (out : Except Fault (List V)) :
    LineVarsPtr dbg F c a out ↔ out = .ok (lineVars a c) := by
  unfold LineVarsPtr lineVars
  split
  · rfl
  · refine fillLines_ok (hm.lines ha).1 (fun i hi => ?_) out
    unfold lineVarP
    have hf := ha.line_fits hm hF hi
    split
    · rfl
    · rw [ha.span hm dbg hi, ok_bind, ha.slice hi, ok_bind, (chunk_reductions_ptr _ hf.1 hf.2).2.2.2.1, ok_bind]
      rfl

theorem lineAlls_ptr' [Zero V] [BEq V] {a : Comp V} (ha : a.PtrOk) (hm : a.Machine) (dbg : Bool)
    (out : Except Fault (List Bool)) : LineAllsPtr dbg a out ↔ out = .ok (lineAlls a) := by
  unfold LineAllsPtr lineAlls
  split
  · rfl
  split
  · rw [vecP_eq (hm.lines ha).2]
  · refine fillLines_ok (hm.lines ha).2 (fun i hi => ?_) out
    unfold lineAllP
    rw [ha.span hm dbg hi, ok_bind, ha.sub dbg hi, ok_bind]
    simp only []
    split
    · rfl
    · rw [ha.slice hi, ok_bind]; rfl

theorem lineAnys_ptr' [Zero V] [BEq V] {a : Comp V} (ha : a.PtrOk) (hm : a.Machine) (dbg : Bool)
    (out : Except Fault (List Bool)) : LineAnysPtr dbg a out ↔ out = .ok (lineAnys a) := by
  unfold LineAnysPtr lineAnys
  split
  · rfl
  split
  · rw [vecP_eq (hm.lines ha).2]
  · refine fillLines_ok (hm.lines ha).2 (fun i hi => ?_) out
    unfold lineAnyP
    rw [ha.span hm dbg hi, ok_bind, ha.slice hi, ok_bind]
    rfl

/-! ### Any arrays -/

section
variable (a : Comp V) (hlen : a.data.length ≤ usizeMax) (dbg : Bool) {F : Nat} (hF : a.data.length < F)
include hlen hF

theorem lineProds_clean [Zero V] [One V] [Mul V] {out : Except Fault (List V)} (h : LineProdsPtr dbg F a out) :
    Clean out := by
  unfold LineProdsPtr at h
  split at h
  · rw [h]; exact .ok _
  split at h
  · rw [h]; exact .vecP _ _ _
  · refine FillLines.clean (fun i => ?_) h
    unfold lineProdP
    refine (Clean.lineSpanP dbg a i).bind fun b _ => (Clean.subUsize _ _ _).bind fun len _ => ?_
    split
    · exact .ok _
    · refine Clean.slice _ _ _ fun l hl => ?_
      rw [(chunk_reductions_ptr l (by omega) (by omega)).2.1]
      exact .ok _

theorem lineExts_clean [Zero V] (o : ExtOps V) {out : Except Fault (List V)} (h : LineExtsPtr dbg F o a out) :
    Clean out := by
  refine FillLines.clean (fun i => ?_) h
  unfold lineExtP
  refine (Clean.lineSpanP dbg a i).bind fun b _ => ?_
  split
  · exact .ok _
  · refine Clean.slice _ _ _ fun l hl => ?_
    rw [(chunk_reductions_ptr l (by omega) (by omega)).2.2.1 o]
    exact (Clean.ok _).bind fun _ _ => (Clean.subUsize _ _ _).bind fun len _ => .ok _

theorem lineVars_clean [Zero V] [Add V] [Sub V] [Mul V] [Div V] [NatCast V] [HasLt V] [BEq V] (c : V)
    {out : Except Fault (List V)} (h : LineVarsPtr dbg F c a out) : Clean out := by
  unfold LineVarsPtr at h
  split at h
  · rw [h]; exact .ok _
  · refine FillLines.clean (fun i => ?_) h
    unfold lineVarP
    split
    · exact .ok _
    · refine (Clean.lineSpanP dbg a i).bind fun b _ => Clean.slice _ _ _ fun l hl => ?_
      rw [(chunk_reductions_ptr l (by omega) (by omega)).2.2.2.1]
      exact (Clean.ok _).bind fun _ _ => .ok _

end

theorem lineAlls_clean [Zero V] [BEq V] (a : Comp V) (dbg : Bool) {out : Except Fault (List Bool)}
    (h : LineAllsPtr dbg a out) : Clean out := by
  unfold LineAllsPtr at h
  split at h
  · rw [h]; exact .ok _
  split at h
  · rw [h]; exact .vecP _ _ _
  · refine FillLines.clean (fun i => ?_) h
    unfold lineAllP
    refine (Clean.lineSpanP dbg a i).bind fun b _ => (Clean.subUsize _ _ _).bind fun len _ => ?_
    split
    · exact .ok _
    · exact Clean.slice _ _ _ fun l hl => .ok _

theorem lineAnys_clean [Zero V] [BEq V] (a : Comp V) (dbg : Bool) {out : Except Fault (List Bool)}
    (h : LineAnysPtr dbg a out) : Clean out := by
  unfold LineAnysPtr at h
  split at h
  · rw [h]; exact .ok _
  split at h
  · rw [h]; exact .vecP _ _ _
  · refine FillLines.clean (fun i => ?_) h
    unfold lineAnyP
    exact (Clean.lineSpanP dbg a i).bind fun b _ => Clean.slice _ _ _ fun l hl => .ok _

/-! ### After a transposition or conversion -/

theorem afterPtr_iff {X Y : Type} {first : Except Fault X → Prop} {f : X → Except Fault Y → Prop}
    {R : X → Prop} {g : X → Y} (h1 : ∀ o, first o ↔ ∃ r, R r ∧ o = .ok r)
    (h2 : ∀ r, R r → ∀ out, f r out ↔ out = .ok (g r)) (out : Except Fault Y) :
    AfterPtr first f out ↔ ∃ y, (∃ t, R t ∧ y = g t) ∧ out = .ok y := by
  constructor
  · rintro ⟨o, ho, h⟩
    obtain ⟨r, hr, rfl⟩ := (h1 o).1 ho
    exact ⟨_, ⟨r, hr, rfl⟩, (h2 r hr out).1 h⟩
  · rintro ⟨y, ⟨t, ht, rfl⟩, rfl⟩
    exact ⟨.ok t, (h1 _).2 ⟨t, ht, rfl⟩, (h2 t ht _).2 rfl⟩

theorem afterPtr_fault {X Y : Type} {first : Except Fault X → Prop} {f : X → Except Fault Y → Prop}
    {e : Fault} (h1 : ∀ o, first o ↔ o = .error e) (out : Except Fault Y) :
    AfterPtr first f out ↔ out = .error e := by
  constructor
  · rintro ⟨o, ho, h⟩
    rw [(h1 o).1 ho] at h
    exact h
  · rintro rfl
    exact ⟨_, (h1 _).2 rfl, rfl⟩

/-- The transpose of a CSR matrix is again in order. -/
theorem transpose_csr_machine [Zero V] {a r : Csr V} (hw : a.WFU) (hd : a.comp.NoRep) (hm : a.comp.Machine)
    (hl : 8 * ((a.ncols : Int) + 1) ≤ i64Max) {sort : List (Int × V) → List (Int × V)} (hs : IsPairSort sort)
    {threads : Nat} (h : TransposeCsrRun sort threads a r) :
    r.comp.PtrOk ∧ r.comp.Machine ∧ r.data.length = a.data.length := by
  let _ : Add V := ⟨fun x _ => x⟩
  obtain ⟨h1, h2, -, h4, -, -⟩ := transpose_csr_sorts hw hd (Comp.WFU.fits_of_machine hw hm) hs h
  have hu := Comp.WF.wfu h1
  exact ⟨hu.ptrOk, hu.machine (by show 8 * ((r.nrows : Int) + 1) ≤ _; rw [h2]; exact hl)
    (by show 8 * (r.data.length : Int) ≤ _; rw [h4]; exact hm.data), h4⟩

/-- The transpose of a CSC matrix is again in order. -/
theorem transpose_csc_machine [Zero V] {a r : Csc V} (hw : a.WFU) (hd : a.comp.NoRep) (hm : a.comp.Machine)
    (hl : 8 * ((a.nrows : Int) + 1) ≤ i64Max) {sort : List (Int × V) → List (Int × V)} (hs : IsPairSort sort)
    {threads : Nat} (h : TransposeCscRun sort threads a r) :
    r.comp.PtrOk ∧ r.comp.Machine ∧ r.data.length = a.data.length := by
  let _ : Add V := ⟨fun x _ => x⟩
  obtain ⟨h1, h2, h3, h4, -, -⟩ := transpose_csc_sorts hw hd (Comp.WFU.fits_of_machine hw hm) hs h
  have hu := Comp.WF.wfu h1
  exact ⟨hu.ptrOk, hu.machine (by show 8 * ((r.ncols : Int) + 1) ≤ _; rw [h3]; exact hl)
    (by show 8 * (r.data.length : Int) ≤ _; rw [h4]; exact hm.data), h4⟩

end Lacuna
