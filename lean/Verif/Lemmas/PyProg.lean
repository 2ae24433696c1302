import Verif.Spec.PyProg
import Verif.Lemmas.PyClass
import Verif.Props.PyClass
import Verif.Props.PyLinalg
import Verif.Props.PtrTranspose
import Verif.Props.PtrPrune
import Verif.Props.Prune
/-
Lemmas for the programs of Model/PyProg: every method on a valid object has exactly one outcome,
given by the list-level kernel.
-/
set_option linter.unusedSectionVars false

namespace Lacuna
variable {V : Type}

/-! ### objects -/

/-- Valid and fits into memory. -/
def SpVal.Good (v : SpVal V) : Prop := v.Valid ∧ v.ty.SizeOk v.nnz

theorem Ty.SizeOk.mono {b c : Nat} {τ : Ty} (h : τ.SizeOk b) (hc : c ≤ b) : τ.SizeOk c := by
  have hi : (c : Int) ≤ b := by omega
  cases τ with
  | mat f r k => exact ⟨h.1, h.2.1, by have := h.2.2; omega⟩
  | coo r k => exact ⟨h.1, h.2.1, by have := h.2.2; omega⟩
  | nd s =>
    have h1 : c * s.length ≤ b * s.length := Nat.mul_le_mul_right _ hc
    exact ⟨h.1, h.2.1, by have := h.2.2.1; omega, by have := h.2.2.2; omega⟩

theorem SpVal.Good.held {f : Fmt} {a : Comp V} (h : (SpVal.mat f a).Good) : Held a := by
  have hw : a.WF := h.1
  have h1 : 8 * ((a.n : Int) + 1) ≤ i64Max := by cases f; exact h.2.1; exact h.2.2.1
  have h2 : 8 * ((a.m : Int) + 1) ≤ i64Max := by cases f; exact h.2.2.1; exact h.2.1
  have h3 : 24 * (a.data.length : Int) ≤ i64Max := h.2.2.2
  have h4 := hw.ptr_length
  have h5 := hw.data_length
  refine ⟨hw, ⟨?_, ?_, ?_, hw.i64⟩, ?_, ?_⟩ <;> unfold i64Max at * <;> first | omega | (unfold usizeMax; omega)

theorem SpVal.Good.dims {f : Fmt} {a : Comp V} (h : (SpVal.mat f a).Good) :
    8 * ((a.n : Int) + 1) ≤ i64Max ∧ 8 * ((a.m : Int) + 1) ≤ i64Max ∧ 24 * (a.data.length : Int) ≤ i64Max := by
  cases f
  · exact h.2
  · exact ⟨h.2.2.1, h.2.1, h.2.2.2⟩

theorem wrapMat_of {f : Fmt} {a : Comp V} (h : (SpVal.mat f a).Good) : wrapMat f a = .ret (SpVal.mat f a).obj := by
  unfold wrapMat; rw [h.held.wrap f]; rfl

theorem nativeCoo_of {a : Coo V} (h : (SpVal.coo a).Good) :
    nativeCoo a.nrows a.ncols a.row a.col a.data false = .ok a := by
  obtain ⟨⟨hw, -⟩, h1, h2, -⟩ := h
  have e1 : a.nrows ≤ usizeMax := by unfold i64Max at h1; unfold usizeMax; omega
  have e2 : a.ncols ≤ usizeMax := by unfold i64Max at h2; unfold usizeMax; omega
  unfold nativeCoo
  rw [pyUsize_nat e1, pyUsize_nat e2]
  show (Coo.fromParts a.nrows a.ncols a.row a.col a.data false).mapError _ = _
  unfold Coo.fromParts
  rw [if_neg (by rw [hw.row_length, hw.col_length]; simp)]
  rfl

theorem SpVal.Good.cooOperand {a : Coo V} (h : (SpVal.coo a).Good) (p : Path) : (PyCoo.of a).operand p = .ok a := by
  cases p
  · rfl
  · rfl
  · exact nativeCoo_of h

theorem wrapCoo_of {a : Coo V} (h : (SpVal.coo a).Good) : wrapCoo a = .ret (SpVal.coo a).obj := by
  unfold wrapCoo PyCoo.new
  rw [nativeCoo_of h]; rfl

theorem le_prod_of_mem {s : List Nat} (h : 0 < s.prod) {d : Nat} (hd : d ∈ s) : d ≤ s.prod :=
  Nat.le_of_dvd h (List.dvd_prod hd)

theorem SpVal.Good.ndParts {a : CooNd V} (h : (SpVal.nd a).Good) : (PyNd.of a).parts = .ok a := by
  obtain ⟨⟨hw, -⟩, -, -, -, h4⟩ := h
  have h4 : 8 * ((a.data.length * a.shape.length : Nat) : Int) ≤ i64Max := h4
  refine pyNd_parts hw.rank hw.length ?_
  unfold i64Max at h4; unfold usizeMax; omega

theorem wrapNd_of {a : CooNd V} (h : (SpVal.nd a).Good) : wrapNd a = .ret (SpVal.nd a).obj := by
  obtain ⟨⟨hw, -⟩, h1, h2, -, -⟩ := h
  have h1 : 0 < a.shape.prod := h1
  have h2 : (a.shape.prod : Int) ≤ i64Max := h2
  unfold wrapNd
  rw [pyNd_wrap hw.rank hw.length fun d hd => by have := le_prod_of_mem h1 hd; omega]
  rfl

/-! ### how many entries -/

theorem sum_row_length {a : Comp V} (h : a.WF) :
    ((List.range a.n).map fun i => (a.row i).length).sum = a.data.length := by
  have := congrArg List.length h.flatten_rows
  rw [List.length_flatten] at this
  rw [show ((List.range a.n).map fun i => (a.row i).length) = a.rows.map List.length by
    unfold Comp.rows; rw [List.map_map]; rfl, this, h.entries_length, h.data_length]

theorem ofRows_data_length (m : Nat) (rows : List (Row V)) :
    (Comp.ofRows m rows).data.length = (rows.map List.length).sum := by
  simp only [Comp.ofRows, List.length_map, List.length_flatten]

theorem sum_map_le {α : Type} (l : List α) (f g : α → Nat) (h : ∀ x ∈ l, f x ≤ g x) : (l.map f).sum ≤ (l.map g).sum := by
  induction l with
  | nil => simp
  | cons x l ih =>
    have h1 := h x (by simp)
    have h2 := ih fun y hy => h y (by simp [hy])
    simp only [List.map_cons, List.sum_cons]; omega

theorem sum_map_add_nat {α : Type} (l : List α) (f g : α → Nat) :
    (l.map fun x => f x + g x).sum = (l.map f).sum + (l.map g).sum := by
  induction l with
  | nil => simp
  | cons x l ih => simp only [List.map_cons, List.sum_cons, ih]; omega

section
variable [Zero V] [One V] [Add V] [Sub V] [Mul V] [Div V] [Neg V] [BEq V] [NatCast V] [HasFinite V]
  [HasFloor V] [HasPowf V] [HasAbs V] [HasLt V] [HasNan V]

theorem BinOp.fill_length (op : BinOp) (x y : Row V) : (op.fill x y).length ≤ x.length + y.length := by
  have key : ∀ (o : Option (Row V)) (n : Nat), (∀ r, o = some r → r.length ≤ n) → (o.getD []).length ≤ n := by
    intro o n h
    cases o with
    | none => simp
    | some r => exact h r rfl
  cases op
  · exact key _ _ fun r h => addFillLoop_length _ _ _ _ h
  · exact key _ _ fun r h => subFillLoop_length _ _ _ _ h
  all_goals exact key _ _ fun r h => interFill_length _ _ _ _ _ h

theorem BinOp.comp_length (op : BinOp) {a b : Comp V} (ha : a.WF) (hb : b.WF) (hn : a.n = b.n) :
    (binComp op.count op.fill a b).data.length ≤ a.data.length + b.data.length := by
  rw [binComp_eq fun i _ => (op.refines 0).eq _ _ (i64_row ha i) (i64_row hb i), ofRows_data_length, lineFills,
    List.map_map, ← sum_row_length ha, ← sum_row_length hb, ← hn, ← sum_map_add_nat]
  exact sum_map_le _ _ _ fun i _ => op.fill_length _ _

/-! ### operations on the values -/

/-- The list-level loop. -/
def DataOp.fn (op : DataOp V) (d : List V) : List V :=
  match op with
  | .mul alpha => if alpha == 1 then d else if alpha == 0 then d.map fun _ => 0 else d.map (· * alpha)
  | .abs => d.map fabs
  | .sign => d.map signF
  | .floordiv alpha => d.map (floordivBy alpha)
  | .rem alpha => d.map (remBy alpha)
  | .pow alpha => d.map (powBy alpha)

theorem DataOp.fn_length (op : DataOp V) (d : List V) : (op.fn d).length = d.length := by
  cases op <;> simp only [DataOp.fn, List.length_map]
  split_ifs <;> simp

theorem DataOp.settles (op : DataOp V) (d : List V) (hl : d.length ≤ usizeMax) (o : Except Fault (List V)) :
    Settles (fun N => op.Run N d) o ↔ o = .ok (op.fn d) := by
  refine settles_iff (d.length + 1) fun N hN o => ?_
  cases op with
  | mul alpha => exact (mul_scalar_ptr alpha d hl (by omega) o)
  | abs => exact abs_ptr d hl (by omega) o
  | sign => show o = _ ↔ _; rw [chunkMapData_eq]; rfl
  | floordiv alpha => show o = _ ↔ _; rw [chunkMapData_eq]; rfl
  | rem alpha => show o = _ ↔ _; rw [chunkMapData_eq]; rfl
  | pow alpha => show o = _ ↔ _; rw [chunkMapData_eq]; rfl

/-- The same on an array. -/
def SpVal.mapData (op : DataOp V) : SpVal V → SpVal V
  | .mat f a => .mat f { a with data := op.fn a.data }
  | .coo a => .coo { a with data := op.fn a.data }
  | .nd a => .nd { a with data := op.fn a.data }

theorem SpVal.mapData_ty (op : DataOp V) (v : SpVal V) : (v.mapData op).ty = v.ty := by
  cases v with
  | mat f a => cases f <;> rfl
  | coo a => rfl
  | nd a => rfl

theorem SpVal.mapData_nnz (op : DataOp V) (v : SpVal V) : (v.mapData op).nnz = v.nnz := by
  cases v <;> exact op.fn_length _

theorem SpVal.mapData_valid (op : DataOp V) {v : SpVal V} (h : v.Valid) : (v.mapData op).Valid := by
  cases v with
  | mat f a =>
    have hw : a.WF := h
    exact ⟨hw.ptr_length, (op.fn_length _).trans hw.data_length, hw.ptr_first, hw.ptr_last, hw.ptr_mono, hw.bounds,
      hw.sorted, hw.i64⟩
  | coo a =>
    obtain ⟨hw, hi⟩ := h
    exact ⟨⟨hw.row_length.trans (op.fn_length _).symm, hw.col_length.trans (op.fn_length _).symm, hw.row_bounds,
      hw.col_bounds⟩, hi⟩
  | nd a =>
    obtain ⟨hw, hi⟩ := h
    have e := op.fn_length a.data
    refine ⟨⟨hw.rank, ?_, ?_⟩, hi⟩
    · show a.indices.length = (op.fn a.data).length * a.shape.length
      rw [e]; exact hw.length
    · intro k hk d hd
      exact hw.bounds k (by simpa only [e] using hk) d hd

theorem SpVal.Good.mapData (op : DataOp V) {v : SpVal V} (h : v.Good) : (v.mapData op).Good :=
  ⟨v.mapData_valid op h.1, by rw [v.mapData_ty, v.mapData_nnz]; exact h.2⟩

theorem SpVal.Good.nnz_le {v : SpVal V} (h : v.Good) : 24 * (v.nnz : Int) ≤ i64Max := by
  cases v with
  | mat f a => exact h.2.2.2
  | coo a => exact h.2.2.2
  | nd a => exact h.2.2.2.1

theorem dataMethod_iff (op : DataOp V) {v : SpVal V} (h : v.Good) (out : PyRes (PyObj V)) :
    DataMethod op v.obj out ↔ out = .ret (v.mapData op).obj := by
  have hg := h.mapData op
  have hn : v.nnz ≤ usizeMax := by have := h.nnz_le; unfold i64Max at this; unfold usizeMax; omega
  cases v with
  | mat f a =>
    have hs := op.settles a.data hn
    show (match operand f _ (PyMat.of f a) with | .error e => _ | .ok a => _) ↔ _
    rw [h.held.operand]
    have hw := wrapMat_of hg
    constructor
    · rintro ⟨o, ho, rfl⟩; rw [(hs o).1 ho]; exact hw
    · rintro rfl; exact ⟨_, (hs _).2 rfl, hw.symm⟩
  | coo a =>
    have hs := op.settles a.data hn
    show (match (PyCoo.of a).operand _ with | .error e => _ | .ok a => _) ↔ _
    rw [h.cooOperand]
    have hw := wrapCoo_of hg
    constructor
    · rintro ⟨o, ho, rfl⟩; rw [(hs o).1 ho]; exact hw
    · rintro rfl; exact ⟨_, (hs _).2 rfl, hw.symm⟩
  | nd a =>
    have hs := op.settles a.data hn
    show (match (PyNd.of a).parts with | .error e => _ | .ok a => _) ↔ _
    rw [h.ndParts]
    have hw := wrapNd_of hg
    constructor
    · rintro ⟨o, ho, rfl⟩; rw [(hs o).1 ho]; exact hw
    · rintro rfl; exact ⟨_, (hs _).2 rfl, hw.symm⟩

/-! ### binary operators on matrices -/

theorem binObj_mat_iff (env : PyEnv V) (f : Fmt) (op : BinOp) {a b : Comp V} (ha : (SpVal.mat f a).Good)
    (hb : (SpVal.mat f b).Good) (hnm : a.n = b.n ∧ a.m = b.m)
    (hg : (SpVal.mat f (binComp op.count op.fill a b)).Good) (out : PyRes (PyObj V)) :
    BinObj env op (SpVal.mat f a).obj (SpVal.mat f b).obj out ↔
      out = .ret (SpVal.mat f (binComp op.count op.fill a b)).obj := by
  show (if f = f then ∃ o, BinMethod env.dbg f op (PyMat.of f a) (PyMat.of f b) o ∧ _ else _) ↔ _
  rw [if_pos rfl]
  have key := binMethod_iff env.dbg f op ha.held hb.held
  rw [op.kernel_eq, if_pos hnm] at key
  have hm := hg.held.mach
  simp only [if_pos (show (binComp op.count op.fill a b).Alloc from ⟨hm.indices, hm.data⟩)] at key
  constructor
  · rintro ⟨o, ho, rfl⟩; rw [(key o).1 ho]; rfl
  · rintro rfl; exact ⟨_, (key _).2 rfl, rfl⟩

theorem binObj_mat_panic (env : PyEnv V) (f : Fmt) (op : BinOp) {a b : Comp V} (ha : (SpVal.mat f a).Good)
    (hb : (SpVal.mat f b).Good) (hnm : ¬ (a.n = b.n ∧ a.m = b.m)) (out : PyRes (PyObj V)) :
    BinObj env op (SpVal.mat f a).obj (SpVal.mat f b).obj out ↔ out = .raises .panic := by
  show (if f = f then ∃ o, BinMethod env.dbg f op (PyMat.of f a) (PyMat.of f b) o ∧ _ else _) ↔ _
  rw [if_pos rfl]
  have key := binMethod_iff env.dbg f op ha.held hb.held
  rw [op.kernel_eq, if_neg hnm] at key
  constructor
  · rintro ⟨o, ho, rfl⟩; rw [(key o).1 ho]; rfl
  · rintro rfl; exact ⟨_, (key _).2 rfl, rfl⟩

/-! ### transpose and prune -/

/-- `T` at list level (not for N-D arrays). -/
def SpVal.T : SpVal V → SpVal V
  | .mat f a => .mat f (tcomp a a.events)
  | .coo a => .coo (transposeCoo a)
  | .nd a => .nd a

/-- `prune` at list level (not for N-D arrays). -/
def SpVal.prune (eps : V) : SpVal V → SpVal V
  | .mat f a => .mat f (if pruneSkips eps a.data then a else Comp.ofRows a.m (pruneOuts eps a))
  | .coo a => .coo (pruneCoo a eps)
  | .nd a => .nd a

theorem SpVal.Good.T {v : SpVal V} (h : v.Good) {τ : Ty} (ht : v.ty.T = .ok τ) :
    v.T.Good ∧ v.T.ty = τ ∧ v.T.nnz ≤ v.nnz := by
  cases v with
  | mat f a =>
    have hw : a.WF := h.1
    have hf := Comp.WFU.fits_of_machine hw.wfu h.held.mach
    have hl := tcomp_length hw.wfu hf (interleaving_events a)
    have e : (SpVal.mat f a).T.ty = τ := by
      cases ht
      cases f
      · show Ty.mat .csr (tcomp a a.events).n (tcomp a a.events).m = _; rw [tcomp_n, tcomp_m]; rfl
      · show Ty.mat .csc (tcomp a a.events).m (tcomp a a.events).n = _; rw [tcomp_n, tcomp_m]; rfl
    refine ⟨⟨tcomp_events_wf hw.noRep hf, ?_⟩, e, Nat.le_of_eq hl⟩
    rw [e]; cases ht
    have h2 := h.2
    exact ⟨h2.2.1, h2.1, by show 24 * ((tcomp a a.events).data.length : Int) ≤ _; rw [hl]; exact h2.2.2⟩
  | coo a =>
    cases ht
    obtain ⟨⟨hw, hi⟩, h2⟩ := h
    exact ⟨⟨⟨hw.tr, hi.2, hi.1⟩, h2.2.1, h2.1, h2.2.2⟩, rfl, Nat.le_refl _⟩
  | nd a => cases ht

theorem tMethod_iff {env : PyEnv V} (he : env.Ok) {v : SpVal V} (h : v.Good) {τ : Ty} (ht : v.ty.T = .ok τ)
    (out : PyRes (PyObj V)) : TMethod env v.obj out ↔ out = .ret v.T.obj := by
  have hg := (h.T ht).1
  cases v with
  | mat f a =>
    have hw : a.WF := h.1
    have hm := h.held.mach
    have hf := Comp.WFU.fits_of_machine hw.wfu hm
    obtain ⟨d1, d2, d3⟩ := h.dims
    have hs : ∀ o, Settles (fun N => TransposePtr env.dbg (f = .csr) N env.pairSort env.threads a) o ↔
        o = .ok (tcomp a a.events) := fun o => settles_iff (a.data.length + 1) fun N hN o => by
      rw [transposePtr_iff hw.wfu hm d2 (by omega) he.pair (by have := he.threads; omega) (by omega)]
      constructor
      · rintro ⟨r, hr, rfl⟩; rw [transposeRun_eq' hw.wfu hw.noRep hf he.pair hr]
      · rintro rfl; exact ⟨_, transposeRun_of' hw.wfu hw.noRep hf he.pair _, rfl⟩
    simp only [TMethod, SpVal.obj, h.held.operand]
    have hw := wrapMat_of hg
    constructor
    · rintro ⟨o, ho, rfl⟩; rw [(hs o).1 ho]; exact hw
    · rintro rfl; exact ⟨_, (hs _).2 rfl, hw.symm⟩
  | coo a =>
    simp only [TMethod, SpVal.obj, h.cooOperand]
    rw [wrapCoo_of hg]; rfl
  | nd a => cases ht

theorem SpVal.prune_ty (eps : V) (v : SpVal V) : (v.prune eps).ty = v.ty := by
  cases v with
  | mat f a =>
    show SpVal.ty (.mat f (if pruneSkips eps a.data then a else Comp.ofRows a.m (pruneOuts eps a))) = _
    split_ifs
    · rfl
    · cases f <;> simp [SpVal.ty, Fmt.rows, Fmt.cols, Comp.ofRows, pruneOuts]
  | coo a =>
    show SpVal.ty (.coo (pruneCoo a eps)) = _
    unfold pruneCoo; split_ifs <;> rfl
  | nd a => rfl

theorem SpVal.prune_nnz (eps : V) {v : SpVal V} (h : v.Valid) : (v.prune eps).nnz ≤ v.nnz := by
  cases v with
  | mat f a =>
    show (if pruneSkips eps a.data then a else Comp.ofRows a.m (pruneOuts eps a)).data.length ≤ a.data.length
    split_ifs
    · exact Nat.le_refl _
    · rw [ofRows_data_length, pruneOuts, List.map_map, ← sum_row_length h]
      exact sum_map_le _ _ _ fun i _ => List.length_filter_le _ _
  | coo a =>
    show (pruneCoo a eps).data.length ≤ a.data.length
    unfold pruneCoo; split_ifs
    · exact Nat.le_refl _
    · simp only [List.length_map]
      refine (List.length_filter_le _ _).trans ?_
      simp [Coo.triples]
  | nd a => exact Nat.le_refl _

theorem SpVal.prune_valid (eps : V) {v : SpVal V} (h : v.Valid) : (v.prune eps).Valid := by
  cases v with
  | mat f a =>
    show (if pruneSkips eps a.data then a else Comp.ofRows a.m (pruneOuts eps a)).WF
    split_ifs
    · exact h
    · apply Comp.wf_ofRows
      intro r hr
      simp only [pruneOuts, List.mem_map, List.mem_range] at hr
      obtain ⟨i, hi, rfl⟩ := hr
      exact rowOk_filter (Comp.WF.rowOk h i hi) _
  | coo a =>
    show (pruneCoo a eps).WF ∧ (pruneCoo a eps).I64
    cases he : flt eps 0 with
    | true => unfold pruneCoo; rw [he]; exact h
    | false =>
      refine ⟨(prune_coo_correct h.1 he).1, ?_⟩
      unfold pruneCoo; rw [he]
      constructor
      · intro i hi
        obtain ⟨t, ht, rfl⟩ := List.mem_map.1 hi
        have := (List.mem_filter.1 ht).1
        exact h.2.1 _ (List.of_mem_zip (List.of_mem_zip this).1).1
      · intro i hi
        obtain ⟨t, ht, rfl⟩ := List.mem_map.1 hi
        have := (List.mem_filter.1 ht).1
        exact h.2.2 _ (List.of_mem_zip (List.of_mem_zip this).1).2
  | nd a => exact h

theorem SpVal.Good.prune (eps : V) {v : SpVal V} (h : v.Good) : (v.prune eps).Good :=
  ⟨v.prune_valid eps h.1, by rw [v.prune_ty]; exact h.2.mono (v.prune_nnz eps h.1)⟩

theorem pruneMethod_iff (env : PyEnv V) (eps : V) {v : SpVal V} (h : v.Good) {τ : Ty} (ht : v.ty.prune = .ok τ)
    (out : PyRes (PyObj V)) : PruneMethod env eps v.obj out ↔ out = .ret (v.prune eps).obj := by
  have hg := h.prune eps
  cases v with
  | mat f a =>
    have hw : a.WF := h.1
    have hm := h.held.mach
    have hs : ∀ o, Settles (fun N => PrunePtr env.dbg N eps a) o ↔
        o = .ok (if pruneSkips eps a.data then a else Comp.ofRows a.m (pruneOuts eps a)) := fun o =>
      settles_iff (a.data.length + 1) fun N hN o => by
      rw [prunePtr_iff hw.ptr_length hw.ptrOk hm (by omega)]
      cases hsk : pruneSkips eps a.data with
      | true =>
        constructor
        · rintro ⟨r, hr, rfl⟩
          rcases pruneRun_cases hr with ⟨-, rfl⟩ | ⟨h1, -⟩
          · rfl
          · rw [hsk] at h1; cases h1
        · rintro rfl; exact ⟨_, .inl ⟨hsk, rfl⟩, rfl⟩
      | false =>
        constructor
        · rintro ⟨r, hr, rfl⟩; rw [(pruneRun_iff hsk).1 hr]; rfl
        · rintro rfl; exact ⟨_, (pruneRun_iff hsk).2 rfl, rfl⟩
    simp only [PruneMethod, SpVal.obj, h.held.operand]
    have hw := wrapMat_of hg
    constructor
    · rintro ⟨o, ho, rfl⟩; rw [(hs o).1 ho]; exact hw
    · rintro rfl; exact ⟨_, (hs _).2 rfl, hw.symm⟩
  | coo a =>
    simp only [PruneMethod, SpVal.obj, h.cooOperand]
    rw [wrapCoo_of hg]; rfl
  | nd a => cases ht

end

end Lacuna
