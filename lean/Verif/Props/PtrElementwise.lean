import Verif.Lemmas.PtrDriver
import Verif.Props.Elementwise
/-
C55: the unsafe element-wise kernels never leave their buffers, never race, terminate, and
compute exactly what the list-level model computes.
-/
namespace Lacuna
variable {V : Type}

/-- The outcome of a function that panics (`none`) or returns. -/
def outcome {α : Type} : Option α → Except Fault α
  | some x => .ok x
  | none => .error .panic

/-- A matrix that satisfies the documented invariants has good pointers. -/
theorem Comp.WFU.ptrOk {a : Comp V} (h : a.WFU) : a.PtrOk :=
  ⟨by have := h.ptr_length; omega, by rw [h.ptr_first], h.ptr_mono,
    by rw [h.ptr_last], by rw [h.ptr_last, h.data_length]⟩

theorem Comp.WF.ptrOk {a : Comp V} (h : a.WF) : a.PtrOk :=
  ⟨by have := h.ptr_length; omega, by rw [h.ptr_first], h.ptr_mono,
    by rw [h.ptr_last], by rw [h.ptr_last, h.data_length]⟩

/-! ### lengths -/

section
variable [Zero V] [Add V]

theorem addFillLoop_length [BEq V] (n : Nat) (a b res : Row V) (h : addFillLoop n a b = some res) :
    res.length ≤ n := by
  induction n generalizing a b res with
  | zero =>
    by_cases hn : a = [] ∧ b = []
    · rw [hn.1, hn.2, addFillLoop_nil] at h; cases h; simp
    · rw [addFillLoop_zero hn] at h; cases h
  | succ n ih =>
    by_cases hn : a = [] ∧ b = []
    · rw [hn.1, hn.2, addFillLoop_nil] at h; cases h; simp
    · rw [addFillLoop_succ _ hn, Option.map_eq_some_iff] at h
      obtain ⟨res', h', rfl⟩ := h
      have := ih _ _ _ h'
      split <;> simp <;> omega

theorem subFillLoop_length [BEq V] [Sub V] (n : Nat) (a b res : Row V)
    (h : subFillLoop n a b = some res) : res.length ≤ n := by
  induction n generalizing a b res with
  | zero =>
    by_cases hn : a = [] ∧ b = []
    · rw [hn.1, hn.2, subFillLoop_nil] at h; cases h; simp
    · rw [subFillLoop_zero hn] at h; cases h
  | succ n ih =>
    by_cases hn : a = [] ∧ b = []
    · rw [hn.1, hn.2, subFillLoop_nil] at h; cases h; simp
    · by_cases hle : headIdx a ≤ headIdx b
      · rw [subFillLoop_succ_le _ hn hle, Option.map_eq_some_iff] at h
        obtain ⟨res', h', rfl⟩ := h
        have := ih _ _ _ h'
        generalize (if headIdx b = headIdx a then
          runAcc (· - ·) (headIdx a) (runAcc (· + ·) (headIdx a) 0 a).1 b
          else ((runAcc (· + ·) (headIdx a) 0 a).1, b)).1 = v
        split
        · omega
        · rw [List.length_cons]; omega
      · rw [subFillLoop_succ_gt _ hn hle, Option.map_eq_some_iff] at h
        obtain ⟨res', h', rfl⟩ := h
        have := ih _ _ _ h'
        split
        · omega
        · rw [List.length_cons]; omega

theorem interFill_length (cell : V → V → Option V) (n : Nat) (a b res : Row V)
    (h : interFill cell n a b = some res) : res.length ≤ n := by
  induction n generalizing a b res with
  | zero =>
    cases a <;> cases b <;> simp only [interFill, Option.some.injEq, reduceCtorEq] at h <;> simp [← h]
  | succ n ih =>
    rcases a with _ | ⟨⟨ja, xa⟩, a⟩
    · simp only [interFill, Option.some.injEq] at h; simp [← h]
    rcases b with _ | ⟨⟨jb, xb⟩, b⟩
    · simp only [interFill, Option.some.injEq] at h; simp [← h]
    rw [interFill] at h
    split at h
    · rw [Option.map_eq_some_iff] at h
      obtain ⟨res', h', rfl⟩ := h
      have := ih _ _ _ h'
      split
      · rw [List.length_cons]; omega
      · omega
    · split at h
      · have := ih _ _ _ h; omega
      · have := ih _ _ _ h; omega

end

/-! ### the row routines as needed by the driver -/

theorem row_i64 {a : Comp V} (hm : a.Machine) (i : Nat) : ∀ e ∈ a.row i, e.1 ≤ i64Max := by
  intro e he
  have := List.mem_of_mem_drop (List.mem_of_mem_take he)
  exact hm.i64 _ (List.of_mem_zip (show (e.1, e.2) ∈ a.indices.zip a.data from this)).1

section
variable [Zero V] {countP : RowArgs V → Except Fault Nat}
    {fillP : RowArgs V → MutPtr → MutPtr → Except Fault (Nat × Stores V)}
    {count : Row V → Row V → Nat} {fill : Row V → Row V → Row V}

/-- What is needed of the two row routines on rows whose indices are machine integers. -/
structure RowRefines (N : Nat) (countP : RowArgs V → Except Fault Nat)
    (fillP : RowArgs V → MutPtr → MutPtr → Except Fault (Nat × Stores V))
    (count : Row V → Row V → Nat) (fill : Row V → Row V → Row V) : Prop where
  count_ok : ∀ r ra rb, ArgsOk r ra rb → (∀ e ∈ ra, e.1 ≤ i64Max) → (∀ e ∈ rb, e.1 ≤ i64Max) →
    ra.length + rb.length ≤ N → countP r = .ok (count ra rb)
  fill_ok : ∀ r ra rb, ArgsOk r ra rb → (∀ e ∈ ra, e.1 ≤ i64Max) → (∀ e ∈ rb, e.1 ≤ i64Max) →
    ra.length + rb.length ≤ N → ∀ (oi ov : MutPtr) (st : Nat), oi.off = st → ov.off = st →
    st + (fill ra rb).length ≤ oi.cap → st + (fill ra rb).length ≤ ov.cap →
    fillP r oi ov = .ok ((fill ra rb).length, storesAt st (fill ra rb))
  eq : ∀ ra rb, (∀ e ∈ ra, e.1 ≤ i64Max) → (∀ e ∈ rb, e.1 ≤ i64Max) →
    count ra rb = (fill ra rb).length
  le : ∀ ra rb, (fill ra rb).length ≤ ra.length + rb.length

theorem RowRefines.run {N : Nat} (h : RowRefines N countP fillP count fill) {a b : Comp V}
    (ha : a.PtrOk) (hb : b.PtrOk) (ma : a.Machine) (mb : b.Machine) (hn : a.n = b.n)
    (hm : a.m = b.m) (hN : a.indices.length + b.indices.length ≤ N) (dbg : Bool)
    (out : Except Fault (Comp V)) :
    BinPtrRun dbg countP fillP a b out ↔ out = .ok (binComp count fill a b) := by
  have hlen : ∀ i, i < a.n → (a.row i).length + (b.row i).length ≤ N := by
    intro i hi
    rw [ha.row_length hi, hb.row_length (by omega)]
    have := ha.ptr_le_indices (i := i + 1) (by omega)
    have := hb.ptr_le_indices (i := i + 1) (by omega)
    omega
  exact binPtrRun_iff ha hb ma mb hn hm dbg
    (fun i hi r hr => h.count_ok r _ _ hr (row_i64 ma i) (row_i64 mb i) (hlen i hi))
    (fun i hi r hr => h.fill_ok r _ _ hr (row_i64 ma i) (row_i64 mb i) (hlen i hi))
    (fun i _ => h.eq _ _ (row_i64 ma i) (row_i64 mb i)) (fun i _ => h.le _ _) out

theorem RowRefines.csr {N : Nat} (h : RowRefines N countP fillP count fill) {a b : Csr V}
    (ha : a.comp.PtrOk) (hb : b.comp.PtrOk) (ma : a.comp.Machine) (mb : b.comp.Machine)
    (hN : a.indices.length + b.indices.length ≤ N) (dbg : Bool) (out : Except Fault (Csr V)) :
    BinCsrPtr dbg countP fillP a b out ↔ out = outcome (binCsr count fill a b) := by
  unfold BinCsrPtr binCsr
  by_cases hs : a.nrows = b.nrows ∧ a.ncols = b.ncols
  · rw [if_pos hs]
    constructor
    · rintro ⟨o, ho, rfl⟩
      rw [h.run ha hb ma mb hs.1 hs.2 hN] at ho
      rw [ho]; rfl
    · rintro rfl
      exact ⟨_, (h.run ha hb ma mb hs.1 hs.2 hN dbg _).2 rfl, rfl⟩
  · rw [if_neg hs]
    have e : ∀ o, BinPtrRun dbg countP fillP a.comp b.comp o ↔ o = .error .panic := by
      intro o; unfold BinPtrRun; rw [if_neg (show ¬ (a.comp.n = b.comp.n ∧ a.comp.m = b.comp.m) from hs)]
    constructor
    · rintro ⟨o, ho, rfl⟩
      rw [(e o).1 ho]; rfl
    · rintro rfl
      exact ⟨_, (e _).2 rfl, rfl⟩

theorem RowRefines.csc {N : Nat} (h : RowRefines N countP fillP count fill) {a b : Csc V}
    (ha : a.comp.PtrOk) (hb : b.comp.PtrOk) (ma : a.comp.Machine) (mb : b.comp.Machine)
    (hN : a.indices.length + b.indices.length ≤ N) (dbg : Bool) (out : Except Fault (Csc V)) :
    BinCscPtr dbg countP fillP a b out ↔ out = outcome (binCsc count fill a b) := by
  unfold BinCscPtr binCsc
  by_cases hs : a.nrows = b.nrows ∧ a.ncols = b.ncols
  · rw [if_pos hs]
    constructor
    · rintro ⟨o, ho, rfl⟩
      rw [h.run ha hb ma mb hs.2 hs.1 hN] at ho
      rw [ho]; rfl
    · rintro rfl
      exact ⟨_, (h.run ha hb ma mb hs.2 hs.1 hN dbg _).2 rfl, rfl⟩
  · rw [if_neg hs]
    have e : ∀ o, BinPtrRun dbg countP fillP a.comp b.comp o ↔ o = .error .panic := by
      intro o; unfold BinPtrRun; rw [if_neg (fun hc => hs ⟨hc.2, hc.1⟩)]
    constructor
    · rintro ⟨o, ho, rfl⟩
      rw [(e o).1 ho]; rfl
    · rintro rfl
      exact ⟨_, (e _).2 rfl, rfl⟩

end

theorem getD_of_isSome {α : Type} {o : Option α} (h : o.isSome) (d : α) : o = some (o.getD d) := by
  cases o <;> simp_all

section
variable [Zero V] [Add V] [BEq V]

theorem add_refines (N : Nat) : RowRefines (V := V) N (addRowCountP (N + 1)) (addRowFillP (N + 1))
    addRowCount addRowFill := by
  have hs : ∀ ra rb : Row V, (∀ e ∈ ra, e.1 ≤ i64Max) → (∀ e ∈ rb, e.1 ≤ i64Max) →
      addFillLoop (ra.length + rb.length) ra rb = some (addRowFill ra rb) :=
    fun ra rb h1 h2 => getD_of_isSome (add_fill_terminates ra rb h1 h2) []
  refine ⟨fun r ra rb h h1 h2 hN => ?_, fun r ra rb h h1 h2 hN oi ov st hi hv ci cv => ?_,
    fun ra rb _ _ => add_count_eq_fill ra rb, fun ra rb => ?_⟩
  · refine unionCountP_eq h _ (n := ra.length + rb.length) ?_ (by omega)
      (by have := h.a.length; omega) (by have := h.b.length; omega)
    rw [show (unionCount (· + ·) (ra.length + rb.length) ra rb : Option Nat)
      = (addFillLoop (ra.length + rb.length) ra rb).map List.length from unionCount_add _ ra rb,
      hs ra rb h1 h2, add_count_eq_fill]
    rfl
  · exact addRowFillP_eq h (hs ra rb h1 h2) (by omega) (by have := h.a.length; omega)
      (by have := h.b.length; omega) hi hv ci cv
  · unfold addRowFill
    cases ho : addFillLoop (ra.length + rb.length) ra rb with
    | none => simp
    | some res => exact addFillLoop_length _ _ _ _ ho

theorem sub_refines [Sub V] (N : Nat) : RowRefines (V := V) N (subRowCountP (N + 1))
    (subRowFillP (N + 1)) subRowCount subRowFill := by
  have hs : ∀ ra rb : Row V, (∀ e ∈ ra, e.1 ≤ i64Max) → (∀ e ∈ rb, e.1 ≤ i64Max) →
      subFillLoop (ra.length + rb.length) ra rb = some (subRowFill ra rb) :=
    fun ra rb h1 h2 => getD_of_isSome (sub_fill_terminates ra rb h1 h2) []
  refine ⟨fun r ra rb h h1 h2 hN => ?_, fun r ra rb h h1 h2 hN oi ov st hi hv ci cv => ?_,
    fun ra rb h1 h2 => sub_count_eq_fill ra rb h1 h2, fun ra rb => ?_⟩
  · refine unionCountP_eq h _ (n := ra.length + rb.length) ?_ (by omega)
      (by have := h.a.length; omega) (by have := h.b.length; omega)
    rw [show (unionCount (· - ·) (ra.length + rb.length) ra rb : Option Nat)
      = (subFillLoop (ra.length + rb.length) ra rb).map List.length from unionCount_sub _ ra rb h1 h2,
      hs ra rb h1 h2, sub_count_eq_fill _ _ h1 h2]
    rfl
  · exact subRowFillP_eq h (hs ra rb h1 h2) (by omega) (by have := h.a.length; omega)
      (by have := h.b.length; omega) hi hv ci cv
  · unfold subRowFill
    cases ho : subFillLoop (ra.length + rb.length) ra rb with
    | none => simp
    | some res => exact subFillLoop_length _ _ _ _ ho

omit [BEq V] in
theorem inter_refines {keep : V → V → Bool} {cell : V → V → Option V}
    (hk : ∀ x y, keep x y = (cell x y).isSome) (N : Nat) :
    RowRefines (V := V) N (interCountP keep (N + 1)) (interFillP cell (N + 1))
      (interRowCount keep) (interRowFill cell) := by
  have hs : ∀ ra rb : Row V,
      interFill cell (ra.length + rb.length) ra rb = some (interRowFill cell ra rb) :=
    fun ra rb => getD_of_isSome (inter_fill_terminates cell ra rb) []
  refine ⟨fun r ra rb h h1 h2 hN => ?_, fun r ra rb h h1 h2 hN oi ov st hi hv ci cv => ?_,
    fun ra rb h1 h2 => interRow_count_eq_fill hk ra rb, fun ra rb => ?_⟩
  · refine interCountP_eq h _ (n := ra.length + rb.length) ?_ (by omega)
      (by have := h.a.length; omega) (by have := h.b.length; omega)
    rw [interCount_eq hk, hs ra rb, interRow_count_eq_fill hk]
    rfl
  · exact interFillP_eq h _ (hs ra rb) (by omega) (by have := h.a.length; omega)
      (by have := h.b.length; omega) hi hv ci cv
  · exact interFill_length cell _ _ _ _ (hs ra rb)

/-! ### C55: the kernels

`N` is any number not smaller than the number of stored entries; the loops get `N + 1`
iterations, so the theorems say that the kernels terminate.  `dbg` selects the build.  The
conclusion fixes the set of possible outcomes: there is exactly one, it is never `ub`, never
`fuel`, and `panic` only for different shapes. -/

/-- C55 (addition, CSR). -/
theorem add_csr_ptr {a b : Csr V} (ha : a.comp.PtrOk) (hb : b.comp.PtrOk) (ma : a.comp.Machine)
    (mb : b.comp.Machine) {N : Nat} (hN : a.indices.length + b.indices.length ≤ N) (dbg : Bool)
    (out : Except Fault (Csr V)) :
    BinCsrPtr dbg (addRowCountP (N + 1)) (addRowFillP (N + 1)) a b out ↔ out = outcome (addCsr a b) :=
  (add_refines N).csr ha hb ma mb hN dbg out

/-- C55 (addition, CSC). -/
theorem add_csc_ptr {a b : Csc V} (ha : a.comp.PtrOk) (hb : b.comp.PtrOk) (ma : a.comp.Machine)
    (mb : b.comp.Machine) {N : Nat} (hN : a.indices.length + b.indices.length ≤ N) (dbg : Bool)
    (out : Except Fault (Csc V)) :
    BinCscPtr dbg (addRowCountP (N + 1)) (addRowFillP (N + 1)) a b out ↔ out = outcome (addCsc a b) :=
  (add_refines N).csc ha hb ma mb hN dbg out

/-- C55 (subtraction, CSR). -/
theorem sub_csr_ptr [Sub V] {a b : Csr V} (ha : a.comp.PtrOk) (hb : b.comp.PtrOk)
    (ma : a.comp.Machine) (mb : b.comp.Machine) {N : Nat}
    (hN : a.indices.length + b.indices.length ≤ N) (dbg : Bool) (out : Except Fault (Csr V)) :
    BinCsrPtr dbg (subRowCountP (N + 1)) (subRowFillP (N + 1)) a b out ↔ out = outcome (subCsr a b) :=
  (sub_refines N).csr ha hb ma mb hN dbg out

/-- C55 (subtraction, CSC). -/
theorem sub_csc_ptr [Sub V] {a b : Csc V} (ha : a.comp.PtrOk) (hb : b.comp.PtrOk)
    (ma : a.comp.Machine) (mb : b.comp.Machine) {N : Nat}
    (hN : a.indices.length + b.indices.length ≤ N) (dbg : Bool) (out : Except Fault (Csc V)) :
    BinCscPtr dbg (subRowCountP (N + 1)) (subRowFillP (N + 1)) a b out ↔ out = outcome (subCsc a b) :=
  (sub_refines N).csc ha hb ma mb hN dbg out

/-- C55 (element-wise product, CSR). -/
theorem hadamard_csr_ptr [Mul V] {a b : Csr V} (ha : a.comp.PtrOk) (hb : b.comp.PtrOk)
    (ma : a.comp.Machine) (mb : b.comp.Machine) {N : Nat}
    (hN : a.indices.length + b.indices.length ≤ N) (dbg : Bool) (out : Except Fault (Csr V)) :
    BinCsrPtr dbg (interCountP hadamardKeep (N + 1)) (interFillP hadamardCell (N + 1)) a b out ↔
      out = outcome (hadamardCsr a b) :=
  (inter_refines hadamardKeep_isSome N).csr ha hb ma mb hN dbg out

/-- C55 (element-wise product, CSC). -/
theorem hadamard_csc_ptr [Mul V] {a b : Csc V} (ha : a.comp.PtrOk) (hb : b.comp.PtrOk)
    (ma : a.comp.Machine) (mb : b.comp.Machine) {N : Nat}
    (hN : a.indices.length + b.indices.length ≤ N) (dbg : Bool) (out : Except Fault (Csc V)) :
    BinCscPtr dbg (interCountP hadamardKeep (N + 1)) (interFillP hadamardCell (N + 1)) a b out ↔
      out = outcome (hadamardCsc a b) :=
  (inter_refines hadamardKeep_isSome N).csc ha hb ma mb hN dbg out

variable [HasFinite V]

/-- C55 (division, CSR). -/
theorem div_csr_ptr [Div V] {a b : Csr V} (ha : a.comp.PtrOk) (hb : b.comp.PtrOk)
    (ma : a.comp.Machine) (mb : b.comp.Machine) {N : Nat}
    (hN : a.indices.length + b.indices.length ≤ N) (dbg : Bool) (out : Except Fault (Csr V)) :
    BinCsrPtr dbg (interCountP divKeep (N + 1)) (interFillP divCell (N + 1)) a b out ↔
      out = outcome (divCsr a b) :=
  (inter_refines divKeep_isSome N).csr ha hb ma mb hN dbg out

/-- C55 (division, CSC). -/
theorem div_csc_ptr [Div V] {a b : Csc V} (ha : a.comp.PtrOk) (hb : b.comp.PtrOk)
    (ma : a.comp.Machine) (mb : b.comp.Machine) {N : Nat}
    (hN : a.indices.length + b.indices.length ≤ N) (dbg : Bool) (out : Except Fault (Csc V)) :
    BinCscPtr dbg (interCountP divKeep (N + 1)) (interFillP divCell (N + 1)) a b out ↔
      out = outcome (divCsc a b) :=
  (inter_refines divKeep_isSome N).csc ha hb ma mb hN dbg out

/-- C55 (floor division, CSR). -/
theorem floordiv_csr_ptr [Div V] [HasFloor V] {a b : Csr V} (ha : a.comp.PtrOk) (hb : b.comp.PtrOk)
    (ma : a.comp.Machine) (mb : b.comp.Machine) {N : Nat}
    (hN : a.indices.length + b.indices.length ≤ N) (dbg : Bool) (out : Except Fault (Csr V)) :
    BinCsrPtr dbg (interCountP floordivKeep (N + 1)) (interFillP floordivCell (N + 1)) a b out ↔
      out = outcome (floordivCsr a b) :=
  (inter_refines floordivKeep_isSome N).csr ha hb ma mb hN dbg out

/-- C55 (floor division, CSC). -/
theorem floordiv_csc_ptr [Div V] [HasFloor V] {a b : Csc V} (ha : a.comp.PtrOk) (hb : b.comp.PtrOk)
    (ma : a.comp.Machine) (mb : b.comp.Machine) {N : Nat}
    (hN : a.indices.length + b.indices.length ≤ N) (dbg : Bool) (out : Except Fault (Csc V)) :
    BinCscPtr dbg (interCountP floordivKeep (N + 1)) (interFillP floordivCell (N + 1)) a b out ↔
      out = outcome (floordivCsc a b) :=
  (inter_refines floordivKeep_isSome N).csc ha hb ma mb hN dbg out

/-- C55 (remainder, CSR). -/
theorem rem_csr_ptr [Div V] [Mul V] [Sub V] [HasFloor V] {a b : Csr V} (ha : a.comp.PtrOk)
    (hb : b.comp.PtrOk) (ma : a.comp.Machine) (mb : b.comp.Machine) {N : Nat}
    (hN : a.indices.length + b.indices.length ≤ N) (dbg : Bool) (out : Except Fault (Csr V)) :
    BinCsrPtr dbg (interCountP remKeep (N + 1)) (interFillP remCell (N + 1)) a b out ↔
      out = outcome (remCsr a b) :=
  (inter_refines remKeep_isSome N).csr ha hb ma mb hN dbg out

/-- C55 (remainder, CSC). -/
theorem rem_csc_ptr [Div V] [Mul V] [Sub V] [HasFloor V] {a b : Csc V} (ha : a.comp.PtrOk)
    (hb : b.comp.PtrOk) (ma : a.comp.Machine) (mb : b.comp.Machine) {N : Nat}
    (hN : a.indices.length + b.indices.length ≤ N) (dbg : Bool) (out : Except Fault (Csc V)) :
    BinCscPtr dbg (interCountP remKeep (N + 1)) (interFillP remCell (N + 1)) a b out ↔
      out = outcome (remCsc a b) :=
  (inter_refines remKeep_isSome N).csc ha hb ma mb hN dbg out

/-- C55 (power, CSR). -/
theorem pow_csr_ptr [HasPowf V] {a b : Csr V} (ha : a.comp.PtrOk) (hb : b.comp.PtrOk)
    (ma : a.comp.Machine) (mb : b.comp.Machine) {N : Nat}
    (hN : a.indices.length + b.indices.length ≤ N) (dbg : Bool) (out : Except Fault (Csr V)) :
    BinCsrPtr dbg (interCountP powKeep (N + 1)) (interFillP powCell (N + 1)) a b out ↔
      out = outcome (powCsr a b) :=
  (inter_refines powKeep_isSome N).csr ha hb ma mb hN dbg out

/-- C55 (power, CSC). -/
theorem pow_csc_ptr [HasPowf V] {a b : Csc V} (ha : a.comp.PtrOk) (hb : b.comp.PtrOk)
    (ma : a.comp.Machine) (mb : b.comp.Machine) {N : Nat}
    (hN : a.indices.length + b.indices.length ≤ N) (dbg : Bool) (out : Except Fault (Csc V)) :
    BinCscPtr dbg (interCountP powKeep (N + 1)) (interFillP powCell (N + 1)) a b out ↔
      out = outcome (powCsc a b) :=
  (inter_refines powKeep_isSome N).csc ha hb ma mb hN dbg out

end

/-- End to end: for well-formed matrices of equal shape every run of the pointer-level
addition returns, and the returned matrix is well-formed and is the sum. -/
theorem add_csr_ptr_correct [AddZeroClass V] [BEq V] [LawfulBEq V] {a b : Csr V} (ha : a.WF)
    (hb : b.WF) (ma : a.comp.Machine) (mb : b.comp.Machine) (hr : a.nrows = b.nrows)
    (hc : a.ncols = b.ncols) (dbg : Bool) :
    ∃ c, c.WF ∧ (∀ i j, c.val i j = a.val i j + b.val i j) ∧
      ∀ N, a.indices.length + b.indices.length ≤ N → ∀ out,
        BinCsrPtr dbg (addRowCountP (N + 1)) (addRowFillP (N + 1)) a b out ↔ out = .ok c := by
  obtain ⟨c, h1, h2, _, _, h3, _⟩ := add_csr_correct ha hb hr hc
  refine ⟨c, h2, h3, fun N hN out => ?_⟩
  rw [add_csr_ptr (Comp.WF.ptrOk ha) (Comp.WF.ptrOk hb) ma mb hN, h1]; rfl

/-! ### What happens without the pointer condition -/

/-- Row pointers that jump past the end of the arrays and come back. -/
def exJump : Csr Int := ⟨2, 3, [0, 5, 1], [0], [7]⟩

/-- `exJump` is accepted by the constructor with `check=False`, but adding it to itself reads
outside its buffers in every run. -/
theorem add_csr_unchecked_ub (F : Nat) :
    Csr.fromParts 2 3 [0, 5, 1] [0] [(7 : Int)] false = .ok exJump ∧
    ∀ out, BinCsrPtr false (addRowCountP (F + 2)) (addRowFillP (F + 2)) exJump exJump out →
      out = .error .ub := by
  refine ⟨by rfl, ?_⟩
  rintro out ⟨o, ho, rfl⟩
  unfold BinPtrRun at ho
  rw [if_pos ⟨rfl, rfl⟩] at ho
  have h0 : countIter false (addRowCountP (F + 2)) exJump.comp exJump.comp 0 = .error .ub := by rfl
  have h1 : countIter false (addRowCountP (F + 2)) exJump.comp exJump.comp 1 = .error .ub := by rfl
  obtain ⟨oc, hoc, h⟩ := ho
  cases oc with
  | error e =>
    obtain ⟨i, hi, he⟩ := hoc
    replace hi : i < 2 := hi
    have : e = .ub := by
      rcases i with _ | _ | i
      · rw [h0] at he; cases he; rfl
      · rw [h1] at he; cases he; rfl
      · omega
    subst this
    replace h : o = .error .ub := h
    rw [h]; rfl
  | ok l =>
    exfalso
    have h2 : (List.range 2).map (countIter false (addRowCountP (F + 2)) exJump.comp exJump.comp)
        = l.map .ok := hoc
    cases l with
    | nil => cases h2
    | cons x xs =>
      simp only [List.range_succ, List.range_zero, List.nil_append, List.cons_append, List.map_cons,
        List.cons.injEq] at h2
      rw [h0] at h2
      exact absurd h2.1 (by simp)

/-! ### Examples -/

theorem exA_machine : exA.comp.Machine := ⟨by decide, by decide, by decide, by decide⟩
theorem exB_machine : exB.comp.Machine := ⟨by decide, by decide, by decide, by decide⟩

example (dbg : Bool) (out : Except Fault (Csr Int)) :
    BinCsrPtr dbg (addRowCountP 10) (addRowFillP 10) exA exB out ↔
      out = .ok ⟨2, 3, [0, 2, 3], [1, 2, 1], [4, 6, 7]⟩ := by
  rw [add_csr_ptr (Comp.WF.ptrOk exA_wf) (Comp.WF.ptrOk exB_wf) exA_machine exB_machine (N := 9)
    (by decide) dbg out]
  rw [show outcome (addCsr exA exB) = .ok ⟨2, 3, [0, 2, 3], [1, 2, 1], [4, 6, 7]⟩ by decide]

/-- The pointer condition holds for unsorted rows with repeated and out-of-range indices. -/
example : (Csr.comp ⟨1, 2, [0, 3], [9, 1, 1], [(1 : Int), 2, 3]⟩ : Comp Int).PtrOk :=
  ⟨by decide, by decide, by decide, by decide, by decide⟩

end Lacuna
