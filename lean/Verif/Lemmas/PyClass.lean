import Verif.Spec.PyClass
import Verif.Lemmas.Scalar
import Verif.Props.Construct
import Verif.Props.PtrElementwise
import Verif.Props.PtrSpmv
import Verif.Props.PtrSimd
/-
Lemmas about the Python class model.
-/
namespace Lacuna
variable {V : Type}

/-! ### construction -/

theorem checkParts_false_of_true {major minor : Nat} {indptr indices : List Int} {data : List V}
    (h : checkParts major minor indptr indices data true = .ok ()) :
    checkParts major minor indptr indices data false = .ok () := by
  unfold checkParts at h ⊢
  split at h
  · cases h
  rename_i h1
  split at h
  · cases h
  rename_i h2
  split at h
  · cases h
  rename_i h3
  rw [if_neg h1, if_neg h2, if_neg h3]
  dsimp only at h ⊢
  split at h
  · cases h
  rename_i h4
  split at h
  · cases h
  rename_i h5
  rw [if_neg h4, if_neg h5]
  rfl

theorem nativeNew_csr {r c : Int} {r' c' : Nat} {indptr indices : List Int} {data : List V}
    {check : Bool} (hr : pyUsize r = .ok r') (hc : pyUsize c = .ok c') :
    nativeNew .csr r c indptr indices data check =
      ((Csr.fromParts r' c' indptr indices data check).mapError fun _ => PyErr.valueError).map Csr.comp := by
  unfold nativeNew; rw [hr, hc]; rfl

theorem nativeNew_csc {r c : Int} {r' c' : Nat} {indptr indices : List Int} {data : List V}
    {check : Bool} (hr : pyUsize r = .ok r') (hc : pyUsize c = .ok c') :
    nativeNew .csc r c indptr indices data check =
      ((Csc.fromParts r' c' indptr indices data check).mapError fun _ => PyErr.valueError).map Csc.comp := by
  unfold nativeNew; rw [hr, hc]; rfl

theorem nativeNew_shape {f : Fmt} {r c : Int} {indptr indices : List Int} {data : List V}
    {check : Bool} {a : Comp V} (h : nativeNew f r c indptr indices data check = .ok a) :
    ∃ r' c', pyUsize r = .ok r' ∧ pyUsize c = .ok c' := by
  unfold nativeNew at h
  cases hr : pyUsize r with
  | error e => rw [hr] at h; cases h
  | ok r' =>
  cases hc : pyUsize c with
  | error e => rw [hr, hc] at h; cases h
  | ok c' => exact ⟨r', c', rfl, rfl⟩

theorem nativeNew_false_of_true {f : Fmt} {r c : Int} {indptr indices : List Int} {data : List V}
    {a : Comp V} (h : nativeNew f r c indptr indices data true = .ok a) :
    nativeNew f r c indptr indices data false = .ok a := by
  obtain ⟨r', c', hr, hc⟩ := nativeNew_shape h
  cases f with
  | csr =>
    rw [nativeNew_csr hr hc] at h ⊢
    unfold Csr.fromParts at h ⊢
    cases hp : checkParts r' c' indptr indices data true with
    | error m => rw [hp] at h; cases h
    | ok u => rw [hp] at h; rw [checkParts_false_of_true hp]; exact h
  | csc =>
    rw [nativeNew_csc hr hc] at h ⊢
    unfold Csc.fromParts at h ⊢
    cases hp : checkParts c' r' indptr indices data true with
    | error m => rw [hp] at h; cases h
    | ok u => rw [hp] at h; rw [checkParts_false_of_true hp]; exact h

/-- A matrix that a validated object can hold. -/
structure Held (c : Comp V) : Prop where
  wf : c.WF
  mach : c.Machine
  n_le : c.n + 1 ≤ usizeMax
  m_le : c.m ≤ usizeMax

theorem pyUsize_ok {x : Int} {n : Nat} (h : pyUsize x = .ok n) : x = n ∧ n ≤ usizeMax := by
  unfold pyUsize at h
  split at h
  · rename_i hx
    cases h
    omega
  · cases h

theorem pyUsize_nat {n : Nat} (h : n ≤ usizeMax) : pyUsize n = .ok n := by
  unfold pyUsize
  rw [if_pos ⟨by omega, by omega⟩]; simp

/-- The arrays are those given, the shape is the one given, and the matrix is well-formed. -/
theorem nativeNew_true_ok {f : Fmt} {r c : Int} {indptr indices : List Int} {data : List V}
    {a : Comp V} (hi : ∀ j ∈ indices, j ≤ i64Max) (h : nativeNew f r c indptr indices data true = .ok a) :
    a.WF ∧ a.n + 1 ≤ usizeMax ∧ a.m ≤ usizeMax ∧ r = f.rows a ∧ c = f.cols a ∧
      a.indptr = indptr ∧ a.indices = indices ∧ a.data = data := by
  obtain ⟨r', c', hr, hc⟩ := nativeNew_shape h
  cases f with
  | csr =>
    rw [nativeNew_csr hr hc] at h
    obtain ⟨rfl, hr'⟩ := pyUsize_ok hr
    obtain ⟨rfl, hc'⟩ := pyUsize_ok hc
    cases hp : Csr.fromParts r' c' indptr indices data true with
    | error m => rw [hp] at h; cases h
    | ok m =>
      rw [hp] at h
      obtain ⟨h1, rfl, h2⟩ := (csr_fromParts_iff r' c' indptr indices data hi m).1 hp
      cases h
      exact ⟨h2, h1, hc', rfl, rfl, rfl, rfl, rfl⟩
  | csc =>
    rw [nativeNew_csc hr hc] at h
    obtain ⟨rfl, hr'⟩ := pyUsize_ok hr
    obtain ⟨rfl, hc'⟩ := pyUsize_ok hc
    cases hp : Csc.fromParts r' c' indptr indices data true with
    | error m => rw [hp] at h; cases h
    | ok m =>
      rw [hp] at h
      obtain ⟨h1, rfl, h2⟩ := (csc_fromParts_iff r' c' indptr indices data hi m).1 hp
      cases h
      exact ⟨h2, h1, hr', rfl, rfl, rfl, rfl, rfl⟩

theorem Held.nativeNew_true {c : Comp V} (h : Held c) (f : Fmt) :
    nativeNew f (f.rows c) (f.cols c) c.indptr c.indices c.data true = .ok c := by
  have h1 : c.n ≤ usizeMax := by have := h.n_le; omega
  cases f with
  | csr =>
    show nativeNew .csr (c.n : Int) (c.m : Int) c.indptr c.indices c.data true = .ok c
    rw [nativeNew_csr (r' := c.n) (c' := c.m) (pyUsize_nat h1) (pyUsize_nat h.m_le),
      (csr_fromParts_iff c.n c.m c.indptr c.indices c.data h.wf.i64 c.toCsr).2 ⟨h.n_le, rfl, h.wf⟩]
    rfl
  | csc =>
    show nativeNew .csc (c.m : Int) (c.n : Int) c.indptr c.indices c.data true = .ok c
    rw [nativeNew_csc (r' := c.m) (c' := c.n) (pyUsize_nat h.m_le) (pyUsize_nat h1),
      (csc_fromParts_iff c.m c.n c.indptr c.indices c.data h.wf.i64 c.toCsc).2 ⟨h.n_le, rfl, h.wf⟩]
    rfl

theorem Held.nativeNew_false {c : Comp V} (h : Held c) (f : Fmt) :
    nativeNew f (f.rows c) (f.cols c) c.indptr c.indices c.data false = .ok c :=
  nativeNew_false_of_true (h.nativeNew_true f)

theorem Held.wrap {c : Comp V} (h : Held c) (f : Fmt) : PyMat.wrap f c = .ret (PyMat.of f c) := by
  unfold PyMat.wrap
  rw [if_pos ⟨h.mach.indices, h.mach.data⟩]
  unfold PyMat.new
  cases f with
  | csr =>
    show PyRes.ret (PyMat.mk (c.n : Int) c.m c.indptr c.indices c.data
      (nativeNew .csr (Fmt.rows .csr c) (Fmt.cols .csr c) c.indptr c.indices c.data false).toOption) = _
    rw [h.nativeNew_false .csr]; rfl
  | csc =>
    show PyRes.ret (PyMat.mk (c.m : Int) c.n c.indptr c.indices c.data
      (nativeNew .csc (Fmt.rows .csc c) (Fmt.cols .csc c) c.indptr c.indices c.data false).toOption) = _
    rw [h.nativeNew_false .csc]; rfl

theorem Held.operand {c : Comp V} (h : Held c) (f : Fmt) (p : Path) :
    operand f p (PyMat.of f c) = .ok c := by
  cases p
  · rfl
  · rfl
  · exact h.nativeNew_false f

theorem Held.operands {a b : Comp V} (ha : Held a) (hb : Held b) (f : Fmt) (p : Path) :
    operands f p (PyMat.of f a) (PyMat.of f b) = .ok (a, b) := by
  cases p
  · rfl
  · rfl
  · show (do let x ← (PyMat.of f a).parts f; let y ← (PyMat.of f b).parts f; pure (x, y)) = _
    rw [show (PyMat.of f a).parts f = .ok a from ha.nativeNew_false f,
      show (PyMat.of f b).parts f = .ok b from hb.nativeNew_false f]
    rfl

theorem settles_iff {α : Type} {run : Nat → α → Prop} {x out : α} (N₀ : Nat)
    (h : ∀ N, N₀ ≤ N → ∀ o, run N o ↔ o = x) : Settles run out ↔ out = x := by
  constructor
  · rintro ⟨M, hM⟩
    exact (h (max M N₀) (by omega) out).1 (hM _ (by omega))
  · rintro rfl
    exact ⟨N₀, fun N hN => (h N hN _).2 rfl⟩

section
variable [Zero V] [One V] [Add V] [Sub V] [Mul V] [Div V] [BEq V] [HasFinite V] [HasFloor V]
  [HasPowf V] [HasAbs V]

/-- List-level passes of each operator. -/
def BinOp.count (op : BinOp) : Row V → Row V → Nat :=
  match op with
  | .add => addRowCount
  | .sub => subRowCount
  | .mul => interRowCount hadamardKeep
  | .div => interRowCount divKeep
  | .floordiv => interRowCount floordivKeep
  | .rem => interRowCount remKeep
  | .pow => interRowCount powKeep

def BinOp.fill (op : BinOp) : Row V → Row V → Row V :=
  match op with
  | .add => addRowFill
  | .sub => subRowFill
  | .mul => interRowFill hadamardCell
  | .div => interRowFill divCell
  | .floordiv => interRowFill floordivCell
  | .rem => interRowFill remCell
  | .pow => interRowFill powCell

omit [One V] [HasAbs V] in
theorem BinOp.kernel_eq (f : Fmt) (op : BinOp) (a b : Comp V) :
    op.kernel f a b = if a.n = b.n ∧ a.m = b.m then some (binComp op.count op.fill a b) else none := by
  cases f with
  | csr =>
    have key : ∀ (count : Row V → Row V → Nat) (fill : Row V → Row V → Row V),
        (binCsr count fill a.toCsr b.toCsr).map Csr.comp
          = if a.n = b.n ∧ a.m = b.m then some (binComp count fill a b) else none := by
      intro count fill
      unfold binCsr
      by_cases h : a.n = b.n ∧ a.m = b.m
      · rw [if_pos h, if_pos (show a.toCsr.nrows = b.toCsr.nrows ∧ a.toCsr.ncols = b.toCsr.ncols from h)]; rfl
      · rw [if_neg h, if_neg (show ¬ (a.toCsr.nrows = b.toCsr.nrows ∧ a.toCsr.ncols = b.toCsr.ncols) from h)]; rfl
    cases op <;> exact key _ _
  | csc =>
    have key : ∀ (count : Row V → Row V → Nat) (fill : Row V → Row V → Row V),
        (binCsc count fill a.toCsc b.toCsc).map Csc.comp
          = if a.n = b.n ∧ a.m = b.m then some (binComp count fill a b) else none := by
      intro count fill
      unfold binCsc
      by_cases h : a.n = b.n ∧ a.m = b.m
      · rw [if_pos h, if_pos (show a.toCsc.nrows = b.toCsc.nrows ∧ a.toCsc.ncols = b.toCsc.ncols from ⟨h.2, h.1⟩)]; rfl
      · rw [if_neg h, if_neg (show ¬ (a.toCsc.nrows = b.toCsc.nrows ∧ a.toCsc.ncols = b.toCsc.ncols) from fun k => h ⟨k.2, k.1⟩)]; rfl
    cases op <;> exact key _ _

omit [One V] [HasAbs V] in
theorem BinOp.refines (op : BinOp) (N : Nat) :
    RowRefines (V := V) N (op.countP (N + 1)) (op.fillP (N + 1)) op.count op.fill := by
  cases op
  · exact add_refines N
  · exact sub_refines N
  · exact inter_refines hadamardKeep_isSome N
  · exact inter_refines divKeep_isSome N
  · exact inter_refines floordivKeep_isSome N
  · exact inter_refines remKeep_isSome N
  · exact inter_refines powKeep_isSome N

omit [One V] [HasAbs V] in
theorem BinOp.comp_wf (op : BinOp) {a b : Comp V} (ha : a.WF) (hb : b.WF) (hn : a.n = b.n)
    (hm : a.m = b.m) : (binComp op.count op.fill a b).WF ∧ (binComp op.count op.fill a b).n = a.n ∧
    (binComp op.count op.fill a b).m = a.m := by
  have fst3 : ∀ {p q r s : Prop}, p ∧ q ∧ r ∧ s → p ∧ q ∧ r := fun h => ⟨h.1, h.2.1, h.2.2.1⟩
  have inter : ∀ {keep : V → V → Bool} {cell : V → V → Option V},
      (∀ x y, keep x y = (cell x y).isSome) →
      (binComp (interRowCount keep) (interRowFill cell) a b).WF ∧
      (binComp (interRowCount keep) (interRowFill cell) a b).n = a.n ∧
      (binComp (interRowCount keep) (interRowFill cell) a b).m = a.m := fun hk =>
    fst3 (binComp_inter ha hb hn (fun i => (inter_refines hk 0).eq _ _ (i64_row ha i) (i64_row hb i))
      (fun i => interRowFill_spec (srt_row ha i) (srt_row hb i)))
  cases op
  · exact fst3 (binComp_union (fb := fun x y : V => x + y) ha hb hn hm (fun i => add_count_eq_fill _ _)
      (fun i => addRowFill_spec (srt_row ha i) (srt_row hb i) (i64_row ha i) (i64_row hb i)))
  · exact fst3 (binComp_union (fb := fun x y : V => x - y) ha hb hn hm
      (fun i => sub_count_eq_fill _ _ (i64_row ha i) (i64_row hb i))
      (fun i => subRowFill_spec (srt_row ha i) (srt_row hb i) (i64_row ha i) (i64_row hb i)))
  · exact inter hadamardKeep_isSome
  · exact inter divKeep_isSome
  · exact inter floordivKeep_isSome
  · exact inter remKeep_isSome
  · exact inter powKeep_isSome

omit [One V] [HasAbs V] in
/-- Results of operators on held matrices are held again, if they fit into memory. -/
theorem BinOp.held (op : BinOp) {a b : Comp V} (ha : Held a) (hb : Held b) (hn : a.n = b.n)
    (hm : a.m = b.m) (hal : (binComp op.count op.fill a b).Alloc) :
    Held (binComp op.count op.fill a b) := by
  obtain ⟨hw, hnn, hmm⟩ := op.comp_wf ha.wf hb.wf hn hm
  refine ⟨hw, ⟨?_, hal.1, hal.2, hw.i64⟩, ?_, ?_⟩
  · have := ha.mach.indptr
    rw [ha.wf.ptr_length] at this
    rw [hw.ptr_length, hnn]; exact this
  · rw [hnn]; exact ha.n_le
  · rw [hmm]; exact ha.m_le

end

/-- Replacing the values by equally many others. -/
theorem Held.withData {c : Comp V} (h : Held c) {d : List V} (hd : d.length = c.data.length) :
    Held { c with data := d } := by
  refine ⟨⟨h.wf.ptr_length, ?_, h.wf.ptr_first, h.wf.ptr_last, h.wf.ptr_mono, h.wf.bounds,
    h.wf.sorted, h.wf.i64⟩, ⟨h.mach.indptr, h.mach.indices, ?_, h.mach.i64⟩, h.n_le, h.m_le⟩
  · show d.length = _; rw [hd]; exact h.wf.data_length
  · show 8 * (d.length : Int) ≤ i64Max; rw [hd]; exact h.mach.data

theorem Held.data_le {c : Comp V} (h : Held c) : c.data.length ≤ usizeMax := by
  have := h.mach.data
  have h1 : (i64Max : Int) ≤ usizeMax := by decide
  omega

end Lacuna
