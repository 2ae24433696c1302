import Verif.Lemmas.PyRead
import Verif.Props.PyBits
import Verif.Props.PyStat
/-
C80: reading the results of Python programs: `toarray`, `nnz`, subscripts and comparisons.
-/
set_option linter.unusedSectionVars false

namespace Lacuna
variable {V : Type}

section
variable [Zero V] [One V] [Add V] [Sub V] [Mul V] [Div V] [Neg V] [BEq V] [NatCast V] [HasFinite V]
  [HasFloor V] [HasPowf V] [HasAbs V] [HasLt V] [HasNan V]

/-- The value of a program, with its stored entries. -/
theorem prog_stored {env : PyEnv V} (he : env.Ok) {e : Prog V} (hl : e.LitsOk) (hs : e.Small) (hd : e.Determined) {τ : Ty}
    (hc : e.check = .ok τ) : ∃ w : SpVal V, w.Valid ∧ w.ty = τ ∧ w.stores = e.stores ∧ ∀ o, e.Eval env o ↔ o = .ret w.obj := by
  obtain ⟨h1, h2⟩ := Prog.step he hl hs
  rw [hc] at h1
  obtain ⟨w, e1, hv, ht, -⟩ := h1
  rw [e1] at h2
  exact ⟨w, hv, ht, (Prog.value_stores he hl hs hd e1).1, h2⟩

theorem prog_fails {env : PyEnv V} (he : env.Ok) {e : Prog V} (hl : e.LitsOk) (hs : e.Small) {x : PyErr}
    (hc : e.check = .error x) : ∀ o, e.Eval env o ↔ o = .raises x := by
  obtain ⟨h1, h2⟩ := Prog.step he hl hs
  rw [hc] at h1
  have h1 : e.value env = .error x := h1
  rw [h1] at h2
  exact h2

/-- C80: `e.toarray()`.  Whatever the arithmetic and the machine, there is one outcome: the exception of
the program, `AttributeError` for an N-D array, otherwise the dense array whose cells are the stored
entries (in `COO` the entries of a cell are added to a zero in storage order). -/
theorem prog_toarray {env : PyEnv V} (he : env.Ok) {e : Prog V} (hl : e.LitsOk) (hs : e.Small) (hd : e.Determined)
    (out : PyRes (DenseNd V)) :
    e.Toarray env out ↔ out = match e.check with
      | .error x => .raises x
      | .ok (.nd _) => .raises .attributeError
      | .ok τ => .ret (denseOf τ.shape e.denseCell) := by
  unfold Prog.Toarray
  cases hc : e.check with
  | error x => simp only [prog_fails he hl hs hc, exists_eq_left, PyRes.bind]
  | ok τ =>
    obtain ⟨w, hv, rfl, hst, hev⟩ := prog_stored he hl hs hd hc
    simp only [hev, exists_eq_left, PyRes.bind, toarray_obj hv, hst]
    unfold Prog.denseCell
    rw [Prog.compressed_ok hc]
    cases w <;> rfl

/-- C80: `e.nnz` is the number of stored entries. -/
theorem prog_nnz {env : PyEnv V} (he : env.Ok) {e : Prog V} (hl : e.LitsOk) (hs : e.Small) (hd : e.Determined)
    (out : PyRes Nat) :
    e.Nnz env out ↔ out = match e.check with
      | .error x => .raises x
      | .ok _ => .ret e.stores.length := by
  unfold Prog.Nnz
  cases hc : e.check with
  | error x => simp only [prog_fails he hl hs hc, exists_eq_left, PyRes.bind]
  | ok τ =>
    obtain ⟨w, hv, rfl, hst, hev⟩ := prog_stored he hl hs hd hc
    simp only [hev, exists_eq_left, PyRes.bind, nnz_obj hv, hst]

/-- C80: `e[key]`: only `CSR` objects are subscriptable, and they give what `readCsr` says. -/
theorem prog_getitem {env : PyEnv V} (he : env.Ok) {search : List Int → Int → Nat} (hsearch : IsSearchSorted search) (key : Key)
    {e : Prog V} (hl : e.LitsOk) (hs : e.Small) (hd : e.Determined) (out : PyRes (ReadRes V)) :
    e.GetItem env search key out ↔ out = match e.check with
      | .error x => .raises x
      | .ok (.mat .csr r c) => .ofExcept (readCsr r c e.denseCell key)
      | .ok _ => .raises .typeError := by
  unfold Prog.GetItem
  cases hc : e.check with
  | error x => simp only [prog_fails he hl hs hc, exists_eq_left, PyRes.bind]
  | ok τ =>
    obtain ⟨w, hv, rfl, hst, hev⟩ := prog_stored he hl hs hd hc
    simp only [hev, exists_eq_left, PyRes.bind, getItem_obj hsearch hv, hst]
    unfold Prog.denseCell
    rw [Prog.compressed_ok hc]
    cases w with
    | mat f a => cases f <;> rfl
    | coo a => rfl
    | nd a => rfl

/-! ### comparisons -/

theorem npCompare_denseOf (op : CmpOp) (s t : List Nat) (f g : List Int → V) :
    npCompare op (denseOf s f) (denseOf t g) = match bcastTo s t with
      | none => .error .valueError
      | some u => .ok (denseOf u fun i => op.run (f (bcastIndex s i)) (g (bcastIndex t i))) := by
  unfold npCompare
  show (match npBroadcast s t with | none => _ | some s => _) = _
  rw [npBroadcast_eq]
  cases h : bcastTo s t with
  | none => rfl
  | some u =>
    show Except.ok (denseOf u fun i => op.run ((denseOf s f).data.getD (npOffset s i) 0) ((denseOf t g).data.getD (npOffset t i) 0)) = _
    congr 1
    refine denseOf_congr fun x hx => ?_
    obtain ⟨h1, h2, h3, h4⟩ := bcast_cells h hx
    rw [npOffset_eq h1, npOffset_eq h2]
    show op.run ((denseOf s f).elem _) ((denseOf t g).elem _) = _
    rw [denseOf_elem h3, denseOf_elem h4]

/-- An operand evaluates, in every run, to something with the given dense form. -/
def CmpArg.Gives (env : PyEnv V) (x : CmpArg V) (s : List Nat) (f : List Int → V) : Prop :=
  ∃ v, (∀ o, x.Eval env o ↔ o = .ret v) ∧ CmpCall.dens v = .ok (denseOf s f) ∧ (x.IsProg → ∃ u, v = .sparse u)

theorem compare_gives {env : PyEnv V} (numpy : CmpOp → DenseNd V → DenseNd V → PyRes (DenseNd Bool)) (op : CmpOp) {x y : CmpArg V}
    {s t : List Nat} {f g : List Int → V} (hx : x.Gives env s f) (hy : y.Gives env t g) (hp : x.IsProg ∨ y.IsProg)
    (out : PyRes (DenseNd Bool)) :
    Compare env numpy op x y out ↔ out = match bcastTo s t with
      | none => .raises .valueError
      | some u => .ret (denseOf u fun i => op.run (f (bcastIndex s i)) (g (bcastIndex t i))) := by
  obtain ⟨v, h1, h2, h3⟩ := hx
  obtain ⟨w, k1, k2, k3⟩ := hy
  have hcall : CmpCall numpy op v w = .ofExcept ((CmpCall.dens v).bind fun xd => (CmpCall.dens w).bind fun yd => npCompare op xd yd) := by
    rcases hp with hp | hp
    · obtain ⟨u, rfl⟩ := h3 hp; rfl
    · obtain ⟨u, rfl⟩ := k3 hp; cases v <;> rfl
  unfold Compare
  simp only [h1, k1, exists_eq_left, PyRes.Then, hcall, h2, k2, Except.bind, npCompare_denseOf]
  cases bcastTo s t <;> rfl

theorem gives_prog {env : PyEnv V} (he : env.Ok) {e : Prog V} (hl : e.LitsOk) (hs : e.Small) (hd : e.Determined) {τ : Ty}
    (hc : e.check = .ok τ) : (CmpArg.prog e).Gives env τ.shape e.denseCell := by
  obtain ⟨w, hv, rfl, hst, hev⟩ := prog_stored he hl hs hd hc
  refine ⟨.sparse w.obj, fun o => ?_, ?_, fun _ => ⟨_, rfl⟩⟩
  · show (∃ o', e.Eval env o' ∧ _) ↔ _
    simp only [hev, exists_eq_left, PyRes.bind]
  · show w.obj.dense = _
    rw [dense_obj hv, hst]
    unfold Prog.denseCell
    rw [Prog.compressed_ok hc]

theorem gives_array (env : PyEnv V) {y : DenseNd V} (h : y.data.length = y.shape.prod) :
    (CmpArg.array y).Gives env y.shape y.elem := by
  refine ⟨.dense y, fun o => Iff.rfl, ?_, fun h => h.elim⟩
  have := isDenseNd_eq (s := y.shape) (f := y.elem) (out := y.data) ⟨h, fun x _ => rfl⟩
  show Except.ok y = Except.ok (⟨y.shape, (indicesOf y.shape).map y.elem⟩ : DenseNd V)
  rw [← this]

theorem cmpArg_fails {env : PyEnv V} (he : env.Ok) {x : CmpArg V} (hx : x.Ok) {err : PyErr} (h : x.check = .error err) :
    ∀ o, x.Eval env o ↔ o = .raises err := by
  cases x with
  | array y => cases h
  | prog e =>
    intro o
    obtain ⟨hl, hs, hd⟩ : e.LitsOk ∧ e.Small ∧ e.Determined := hx
    have hc : e.check = .error err := by
      have h : e.check.map Ty.shape = .error err := h
      cases hc : e.check with
      | ok τ => rw [hc] at h; cases h
      | error x => rw [hc] at h; cases h; rfl
    show (∃ o', e.Eval env o' ∧ _) ↔ _
    simp only [prog_fails he hl hs hc, exists_eq_left, PyRes.bind]

theorem cmpArg_gives {env : PyEnv V} (he : env.Ok) {x : CmpArg V} (hx : x.Ok) {s : List Nat} (h : x.check = .ok s) :
    x.Gives env s x.cell := by
  cases x with
  | array y => cases h; exact gives_array env hx
  | prog e =>
    obtain ⟨hl, hs, hd⟩ : e.LitsOk ∧ e.Small ∧ e.Determined := hx
    have h : e.check.map Ty.shape = .ok s := h
    cases hc : e.check with
    | error x => rw [hc] at h; cases h
    | ok τ => rw [hc] at h; cases h; exact gives_prog he hl hs hd hc

/-- C80: `equal(x, y)` and its siblings, where at least one operand is a program.  Whatever the arithmetic
and the machine, there is one outcome: the exception of the left operand, else that of the right one,
`ValueError` if the shapes do not broadcast, else the array of the comparisons of the cells. -/
theorem prog_compare {env : PyEnv V} (he : env.Ok) (numpy : CmpOp → DenseNd V → DenseNd V → PyRes (DenseNd Bool)) (op : CmpOp)
    {x y : CmpArg V} (hx : x.Ok) (hy : y.Ok) (hp : x.IsProg ∨ y.IsProg) (out : PyRes (DenseNd Bool)) :
    Compare env numpy op x y out ↔ out = match x.check, y.check with
      | .error err, _ => .raises err
      | .ok _, .error err => .raises err
      | .ok s, .ok t => (match bcastTo s t with
        | none => .raises .valueError
        | some u => .ret (denseOf u fun i => op.run (x.cell (bcastIndex s i)) (y.cell (bcastIndex t i)))) := by
  cases hcx : x.check with
  | error err =>
    have := cmpArg_fails he hx hcx
    unfold Compare
    simp only [this, exists_eq_left, PyRes.Then]
  | ok s =>
    have gx := cmpArg_gives he hx hcx
    cases hcy : y.check with
    | error err =>
      have := cmpArg_fails he hy hcy
      obtain ⟨v, h1, -, -⟩ := gx
      unfold Compare
      simp only [this, h1, exists_eq_left, PyRes.Then]
    | ok t => exact compare_gives numpy op gx (cmpArg_gives he hy hcy) hp out

/-! ### consequences -/

/-- Reading does not depend on the machine: threads, build profile, unstable sorts, hash maps. -/
theorem read_reproducible {env env' : PyEnv V} (he : env.Ok) (he' : env'.Ok) {e : Prog V} (hl : e.LitsOk) (hs : e.Small)
    (hd : e.Determined) {search : List Int → Int → Nat} (hsearch : IsSearchSorted search) (key : Key) :
    (∀ out, e.Toarray env out ↔ e.Toarray env' out) ∧ (∀ out, e.GetItem env search key out ↔ e.GetItem env' search key out) :=
  ⟨fun out => by rw [prog_toarray he hl hs hd, prog_toarray he' hl hs hd],
    fun out => by rw [prog_getitem he hsearch key hl hs hd, prog_getitem he' hsearch key hl hs hd]⟩

/-- `e[i, j]` is cell `(i, j)` of `e.toarray()`. -/
theorem getitem_toarray {env : PyEnv V} (he : env.Ok) {search : List Int → Int → Nat} (hsearch : IsSearchSorted search)
    {e : Prog V} (hl : e.LitsOk) (hs : e.Small) (hd : e.Determined) {r c : Nat} (hc : e.check = .ok (.mat .csr r c)) {i j : Nat}
    (hi : i < r) (hj : j < c) {d : DenseNd V} (h : e.Toarray env (.ret d)) (out : PyRes (ReadRes V)) :
    e.GetItem env search (.cell i j) out ↔ out = .ret (.cell (d.elem [(i : Int), (j : Int)])) := by
  rw [prog_toarray he hl hs hd, hc] at h
  rw [prog_getitem he hsearch _ hl hs hd, hc]
  have h : PyRes.ret d = .ret (denseOf [r, c] e.denseCell) := h
  cases h
  have hin : InBounds [r, c] [(i : Int), (j : Int)] := .cons (by omega) (.cons (by omega) .nil)
  rw [denseOf_elem hin]
  show out = PyRes.ofExcept (if _ then _ else _) ↔ _
  rw [if_pos (by omega)]
  rfl

theorem valuesAt_reverse (l : List (List Int × V)) (x : List Int) :
    valuesAt (l.map fun e => (e.1.reverse, e.2)) x.reverse = valuesAt l x := by
  unfold valuesAt
  rw [List.filter_map, List.map_map]
  congr 1
  apply List.filter_congr
  intro e _
  simp [Function.comp]

theorem head_sumAll (l : List V) : l.head? = @sumAll V ⟨fun x _ => x⟩ l := by
  cases l with
  | nil => rfl
  | cons v vs =>
    show some v = some (vs.foldl (fun s _ => s) v)
    congr 1
    induction vs with
    | nil => rfl
    | cons w vs ih => exact ih

theorem head_total {l : List (List Int × V)} (h : (l.map Prod.fst).Nodup) (x : List Int) : (valuesAt l x).head? = total l x := by
  apply option_eq_of_iff
  intro v
  rw [total_nodup h, head_sumAll]
  let _ : Add V := ⟨fun x _ => x⟩
  exact total_nodup h x v

/-- The dense form of `e.T` is the transpose of that of `e`, bit by bit. -/
theorem transpose_dense {env : PyEnv V} (he : env.Ok) {e : Prog V} (hl : e.LitsOk) (hs : e.Small)
    (hd : e.Determined) {τ : Ty} (hc : e.check = .ok τ) (h2 : ∀ s, τ ≠ .nd s) {i j : Nat} (hi : [(i : Int), (j : Int)] ∈ indicesOf τ.shape) :
    (Prog.T e).denseCell [(j : Int), (i : Int)] = e.denseCell [(i : Int), (j : Int)] := by
  have hin := mem_indicesOf.1 hi
  cases τ with
  | nd s => exact absurd rfl (h2 s)
  | coo r c =>
    have ht : (Prog.T e).check = .ok (.coo c r) := by
      show (e.check.bind _ : Except PyErr Ty) = _
      rw [hc]; rfl
    unfold Prog.denseCell
    rw [Prog.compressed_ok hc, Prog.compressed_ok ht]
    have hst : (Prog.T e).stores = e.stores.map fun p => (p.1.reverse, p.2) := by
      show (if e.compressed then _ else _) = _
      rw [Prog.compressed_ok hc]; rfl
    rw [hst]
    show List.foldl _ _ (valuesAt _ [(i : Int), (j : Int)].reverse) = _
    rw [valuesAt_reverse]
    rfl
  | mat f r c =>
    unfold Prog.denseCell
    rw [Prog.compressed_ok hc, Prog.compressed_ok (check_T hc)]
    show (valuesAt _ _).headD 0 = (valuesAt _ _).headD 0
    obtain ⟨w, hv, ht, hst, -⟩ := prog_stored he hl hs hd hc
    have hn : (e.stores.map Prod.fst).Nodup := by
      cases w with
      | mat f a => rw [← hst]; exact stores_nodup_mat hv
      | coo a => cases ht
      | nd a => cases ht
    have hn' : ((Prog.T e).stores.map Prod.fst).Nodup := by
      rw [stores_of_T hc]; exact (order_nodup f c r).sublist (tabulate_keys _ _)
    rw [List.headD_eq_head?_getD, List.headD_eq_head?_getD, head_total hn, head_total hn',
      total_of_T hc (x := [(j : Int), (i : Int)]) (inBounds_reverse hin)]
    rfl

end

section
variable [Field V] [LinearOrder V] [IsStrictOrderedRing V] [FloorRing V] [BEq V] [LawfulBEq V] [HasFinite V]
  [HasFloor V] [HasPowf V] [HasAbs V] [HasLt V] [HasNan V] [IdealOrd V]

theorem CmpOp.run_iff (op : CmpOp) (x y : V) : op.run x y = true ↔ op.Holds x y := by
  cases op with
  | eq => exact beq_iff_eq
  | ne => simp [CmpOp.run, CmpOp.Holds]
  | lt => exact IdealOrd.flt_iff x y
  | gt => exact IdealOrd.flt_iff y x
  | le => rw [CmpOp.run, Bool.or_eq_true_iff, IdealOrd.flt_iff, beq_iff_eq]; exact le_iff_lt_or_eq.symm
  | ge => rw [CmpOp.run, Bool.or_eq_true_iff, IdealOrd.flt_iff, beq_iff_eq]; exact (le_iff_lt_or_eq.trans (or_congr Iff.rfl eq_comm)).symm

theorem foldl_sum (l : List V) (z : V) : l.foldl (fun s v => s + v) z = z + l.sum := by
  induction l generalizing z with
  | nil => simp
  | cons v l ih => rw [List.foldl_cons, ih, List.sum_cons, add_assoc]

/-- In exact arithmetic the cells of the dense array are the sums of what is stored under them. -/
theorem denseCell_cell {w : SpVal V} (h : w.Valid) {x : List Int} (hx : InBounds w.ty.shape x) :
    denseCell w.ty.compressed w.stores x = w.cell x := by
  cases w with
  | mat f a =>
    have hw : a.WF := h
    cases f with
    | csr =>
      obtain ⟨i, j, rfl, -, -⟩ := inBounds_pair hx
      exact (denseCell_mat (f := .csr) hw i j).trans (hw.val_eq_stored i j).symm
    | csc =>
      obtain ⟨i, j, rfl, -, -⟩ := inBounds_pair hx
      exact (denseCell_mat (f := .csc) hw j i).trans (hw.val_eq_stored j i).symm
  | coo a =>
    obtain ⟨i, j, rfl, -, -⟩ := inBounds_pair hx
    show (valuesAt (a.triples.map _) _).foldl _ 0 = a.val i j
    rw [foldl_sum, zero_add]
    unfold valuesAt Coo.val
    rw [List.filter_map, List.map_map]
    congr 2
    apply List.filter_congr
    intro t _
    simp [Function.comp]
  | nd a =>
    show (valuesAt a.entries x).foldl _ 0 = a.val x
    rw [foldl_sum, zero_add]
    rfl

/-- C80: in exact arithmetic `e.toarray()` is the array the program denotes. -/
theorem prog_toarray_exact (hfin : ∀ v : V, isFinite v = true) (hfl : ∀ v : V, HasFloor.floor v = (⌊v⌋ : V)) {env : PyEnv V}
    (he : env.Ok) {e : Prog V} (hl : e.LitsOk) (hs : e.Small) (hx : e.Exact) {τ : Ty} (hc : e.check = .ok τ) (h2 : τ.Is2d)
    (out : PyRes (DenseNd V)) : e.Toarray env out ↔ out = .ret (denseOf τ.shape e.cells) := by
  let _ : HasMinMax V := ⟨min, max, min, max, 0, 0⟩
  let _ : HasSqrt V := ⟨id⟩
  obtain ⟨w, hv, -, rfl, -, hcell, hev⟩ := prog_value hfin hfl he hl hs hx hc
  unfold Prog.Toarray
  simp only [hev, exists_eq_left, PyRes.bind, toarray_obj hv]
  have : denseOf w.ty.shape (denseCell w.ty.compressed w.stores) = denseOf w.ty.shape e.cells :=
    denseOf_congr fun x hx => (denseCell_cell hv hx).trans (hcell x hx)
  cases w with
  | mat f a => exact this ▸ Iff.rfl
  | coo a => exact this ▸ Iff.rfl
  | nd a => exact h2.elim

/-- C80: in exact arithmetic `e[i, j]` is the cell of the array the program denotes. -/
theorem prog_getitem_exact (hfin : ∀ v : V, isFinite v = true) (hfl : ∀ v : V, HasFloor.floor v = (⌊v⌋ : V)) {env : PyEnv V}
    (he : env.Ok) {search : List Int → Int → Nat} (hsearch : IsSearchSorted search) {e : Prog V} (hl : e.LitsOk) (hs : e.Small)
    (hx : e.Exact) {r c : Nat} (hc : e.check = .ok (.mat .csr r c)) {i j : Nat} (hi : i < r) (hj : j < c) (out : PyRes (ReadRes V)) :
    (e.GetItem env search (.cell i j) out ↔ out = .ret (.cell (e.cells [(i : Int), (j : Int)]))) ∧
    (e.GetItem env search (.row i) out ↔ out = .ret (.line ((List.range c).map fun (k : Nat) => e.cells [(i : Int), (k : Int)]))) ∧
    (e.GetItem env search (.col j) out ↔ out = .ret (.line ((List.range r).map fun (k : Nat) => e.cells [(k : Int), (j : Int)]))) := by
  let _ : HasMinMax V := ⟨min, max, min, max, 0, 0⟩
  let _ : HasSqrt V := ⟨id⟩
  obtain ⟨w, hv, -, ht, -, hcell, hev⟩ := prog_value hfin hfl he hl hs hx hc
  have hd : ∀ i j : Nat, i < r → j < c → denseCell true w.stores [(i : Int), (j : Int)] = e.cells [(i : Int), (j : Int)] := by
    intro i j hi hj
    have hin : InBounds [r, c] [(i : Int), (j : Int)] := .cons (by omega) (.cons (by omega) .nil)
    rw [← hcell _ hin, ← denseCell_cell hv (by rw [ht]; exact hin), ht]
    rfl
  unfold Prog.GetItem
  simp only [hev, exists_eq_left, PyRes.bind, getItem_obj hsearch hv, ht]
  refine ⟨?_, ?_, ?_⟩
  · unfold readCsr
    simp only []
    rw [if_pos (by omega), hd i j hi hj]
    rfl
  · unfold readCsr
    simp only []
    rw [if_neg (by omega), if_pos (by omega), if_neg (by omega),
      List.map_congr_left fun k hk => hd i k hi (List.mem_range.1 hk)]
    rfl
  · unfold readCsr
    simp only []
    rw [List.map_congr_left (g := fun (k : Nat) => e.cells [(k : Int), (j : Int)]) fun k hk => by
      rw [if_pos (by omega), hd k j (List.mem_range.1 hk) hj]]
    rfl

/-- C80: comparisons in exact arithmetic: cell by cell the relation between the arrays the operands
denote. -/
theorem prog_compare_exact (hfin : ∀ v : V, isFinite v = true) (hfl : ∀ v : V, HasFloor.floor v = (⌊v⌋ : V)) {env : PyEnv V}
    (he : env.Ok) (numpy : CmpOp → DenseNd V → DenseNd V → PyRes (DenseNd Bool)) (op : CmpOp) {x y : CmpArg V} (hx : x.ExactOk)
    (hy : y.ExactOk) (hp : x.IsProg ∨ y.IsProg) {s t u : List Nat} (hs : x.check = .ok s) (ht : y.check = .ok t)
    (hu : bcastTo s t = some u) :
    ∃ d : DenseNd Bool, d.shape = u ∧ d.data.length = u.prod ∧ (∀ out, Compare env numpy op x y out ↔ out = .ret d) ∧
      ∀ z, InBounds u z → (d.data.getD (rowMajor u z) false = true ↔ op.Holds (x.exact (bcastIndex s z)) (y.exact (bcastIndex t z))) := by
  let _ : HasMinMax V := ⟨min, max, min, max, 0, 0⟩
  let _ : HasSqrt V := ⟨id⟩
  have gives : ∀ {x : CmpArg V} {s : List Nat}, x.ExactOk → x.check = .ok s → x.Gives env s x.exact := by
    intro x s hx hs
    cases x with
    | array y => cases hs; exact gives_array env hx
    | prog e =>
      obtain ⟨hl, hsm, hex⟩ : e.LitsOk ∧ e.Small ∧ e.Exact := hx
      have hs : e.check.map Ty.shape = .ok s := hs
      cases hc : e.check with
      | error x => rw [hc] at hs; cases hs
      | ok τ =>
        rw [hc] at hs; cases hs
        obtain ⟨w, hv, -, rfl, -, hcell, hev⟩ := prog_value hfin hfl he hl hsm hex hc
        refine ⟨.sparse w.obj, fun o => ?_, ?_, fun _ => ⟨_, rfl⟩⟩
        · show (∃ o', e.Eval env o' ∧ _) ↔ _
          simp only [hev, exists_eq_left, PyRes.bind]
        · show w.obj.dense = _
          rw [dense_obj hv]
          congr 1
          exact denseOf_congr fun x hx => (denseCell_cell hv hx).trans (hcell x hx)
  refine ⟨denseOf u fun i => op.run (x.exact (bcastIndex s i)) (y.exact (bcastIndex t i)), rfl, ?_, fun out => ?_, fun z hz => ?_⟩
  · show ((indicesOf u).map _).length = _
    rw [List.length_map, indicesOf_length]
  · rw [compare_gives numpy op (gives hx hs) (gives hy ht) hp, hu]
  · rw [← CmpOp.run_iff]
    let _ : Zero Bool := ⟨false⟩
    have : (denseOf u fun i => op.run (x.exact (bcastIndex s i)) (y.exact (bcastIndex t i))).elem z = _ := denseOf_elem hz
    exact (congrArg (· = true) this).to_iff

/-- Two programs of the same shape: `equal` is true everywhere exactly if they denote the same array. -/
theorem prog_equal_iff (hfin : ∀ v : V, isFinite v = true) (hfl : ∀ v : V, HasFloor.floor v = (⌊v⌋ : V)) {env : PyEnv V}
    (he : env.Ok) (numpy : CmpOp → DenseNd V → DenseNd V → PyRes (DenseNd Bool)) {a b : Prog V} (ha : (CmpArg.prog a).ExactOk)
    (hb : (CmpArg.prog b).ExactOk) {s : List Nat} (hs : (CmpArg.prog a).check = .ok s) (ht : (CmpArg.prog b).check = .ok s)
    {d : DenseNd Bool} (h : Compare env numpy .eq (.prog a) (.prog b) (.ret d)) :
    (∀ v ∈ d.data, v = true) ↔ ∀ x, InBounds s x → a.cells x = b.cells x := by
  have hbc : bcastTo s s = some s := by
    have : ∀ l : List Nat, bcastRev l l = some l := by
      intro l
      induction l with
      | nil => rfl
      | cons x l ih => rw [bcastRev, if_pos (.inl rfl), ih]; rfl
    unfold bcastTo; rw [this]; simp
  obtain ⟨d', h1, h2, h3, h4⟩ := prog_compare_exact hfin hfl he numpy .eq ha hb (.inl trivial) hs ht hbc
  cases (h3 _).1 h
  constructor
  · intro hall x hx
    have := (h4 x hx).1 (by
      have hl : rowMajor s x < d.data.length := by rw [h2]; exact rowMajor_lt hx
      rw [List.getD_eq_getElem _ _ hl]
      exact hall _ (List.getElem_mem hl))
    rw [bcastIndex_self hx] at this
    exact this
  · intro hcell v hv
    obtain ⟨k, hk, rfl⟩ := List.mem_iff_getElem.1 hv
    obtain ⟨hin, hrm⟩ := unravel_spec (s := s) (k := k) (by omega)
    have := (h4 _ hin).2 (by rw [bcastIndex_self hin]; exact hcell _ hin)
    rw [hrm, List.getD_eq_getElem _ _ hk] at this
    exact this

end

/-! ### examples -/

/-- A `COO` object with one cell stored three times, transposed: `5 + 7` is cut off at `8`. -/
def exSatCoo : Prog Sat := .T (.coo 1 2 [0, 0, 0] [1, 1, 1] [⟨5⟩, ⟨7⟩, ⟨-6⟩])
theorem exSatCoo_lits : exSatCoo.LitsOk := by
  refine ⟨by decide, by decide, ⟨rfl, rfl, ?_, ?_⟩, ?_, ?_⟩
  · show ∀ i ∈ ([0, 0, 0] : List Int), 0 ≤ i ∧ i < ((1 : Nat) : Int); decide
  · show ∀ i ∈ ([1, 1, 1] : List Int), 0 ≤ i ∧ i < ((2 : Nat) : Int); decide
  · show ∀ i ∈ ([0, 0, 0] : List Int), i ≤ i64Max; decide
  · show ∀ i ∈ ([1, 1, 1] : List Int), i ≤ i64Max; decide

example (dbg : Bool) (out : PyRes (DenseNd Sat)) :
    exSatCoo.Toarray (exEnvSat dbg 4) out ↔ out = .ret ⟨[2, 1], [⟨0⟩, ⟨2⟩]⟩ := by
  rw [prog_toarray (exEnvSat_ok dbg (by decide)) exSatCoo_lits (by decide +kernel) trivial,
    show exSatCoo.check = .ok (.coo 2 1) by decide +kernel]
  exact (show denseOf [2, 1] exSatCoo.denseCell = ⟨[2, 1], [⟨0⟩, ⟨2⟩]⟩ by decide +kernel) ▸ Iff.rfl
example (dbg : Bool) (out : PyRes (DenseNd Sat)) : exSat.Toarray (exEnvSat dbg 4) out ↔ out = .raises .attributeError := by
  rw [prog_toarray (exEnvSat_ok dbg (by decide)) exSat_lits (by decide +kernel) ⟨⟨trivial, trivial⟩, trivial⟩,
    show exSat.check = .ok (.nd [2]) by decide +kernel]
example (dbg : Bool) (out : PyRes Nat) : exSatCoo.Nnz (exEnvSat dbg 4) out ↔ out = .ret 3 := by
  rw [prog_nnz (exEnvSat_ok dbg (by decide)) exSatCoo_lits (by decide +kernel) trivial,
    show exSatCoo.check = .ok (.coo 2 1) by decide +kernel]
  exact (show exSatCoo.stores.length = 3 by decide +kernel) ▸ Iff.rfl
example : (Prog.T exSatA).denseCell [((2 : Nat) : Int), ((1 : Nat) : Int)] = exSatA.denseCell [((1 : Nat) : Int), ((2 : Nat) : Int)] ∧
    exSatA.denseCell [1, 2] = ⟨4⟩ :=
  ⟨transpose_dense (exEnvSat_ok true (threads := 1) (by decide)) exSatA_lits (by decide +kernel) trivial (τ := .mat .csc 2 3)
    (by decide +kernel) (by simp) (by decide +kernel), by decide +kernel⟩

/-- A `CSR` object; `x[-1, :]` is a row of zeros, `x[-2, :]` the last row. -/
def exSatC : Prog Sat := .un .neg (.mat .csr 2 3 [0, 1, 3] [1, 0, 2] [⟨4⟩, ⟨-3⟩, ⟨5⟩])
theorem exSatC_lits : exSatC.LitsOk := ⟨by show ∀ i ∈ ([1, 0, 2] : List Int), i ≤ i64Max; decide, by simp⟩

example (dbg : Bool) (out : PyRes (ReadRes Sat)) :
    (exSatC.GetItem (exEnvSat dbg 4) bisectLeft (.cell 1 2) out ↔ out = .ret (.cell ⟨-5⟩)) ∧
    (exSatC.GetItem (exEnvSat dbg 4) bisectLeft (.row (-1)) out ↔ out = .ret (.line [⟨0⟩, ⟨0⟩, ⟨0⟩])) ∧
    (exSatC.GetItem (exEnvSat dbg 4) bisectLeft (.row (-2)) out ↔ out = .ret (.line [⟨3⟩, ⟨0⟩, ⟨-5⟩])) ∧
    (exSatC.GetItem (exEnvSat dbg 4) bisectLeft (.col 0) out ↔ out = .ret (.line [⟨0⟩, ⟨3⟩])) ∧
    (exSatC.GetItem (exEnvSat dbg 4) bisectLeft (.row 2) out ↔ out = .raises .indexError) ∧
    (exSatA.GetItem (exEnvSat dbg 4) bisectLeft (.cell 0 0) out ↔ out = .raises .typeError) := by
  have h := fun key => prog_getitem (exEnvSat_ok dbg (threads := 4) (by decide)) isSearchSorted_bisectLeft key exSatC_lits (by decide +kernel) trivial out
  rw [show exSatC.check = .ok (.mat .csr 2 3) by decide +kernel] at h
  refine ⟨(h _).trans ?_, (h _).trans ?_, (h _).trans ?_, (h _).trans ?_, (h _).trans ?_, ?_⟩
  · show out = PyRes.ofExcept (.ok (.cell (exSatC.denseCell [1, 2]))) ↔ _
    rw [show exSatC.denseCell [1, 2] = ⟨-5⟩ by decide +kernel]; rfl
  · exact Iff.rfl
  · show out = PyRes.ret (.line ((List.range 3).map fun (j : Nat) => exSatC.denseCell [1, (j : Int)])) ↔ _
    rw [show (List.range 3).map (fun (j : Nat) => exSatC.denseCell [1, (j : Int)]) = [⟨3⟩, ⟨0⟩, ⟨-5⟩] by decide +kernel]
  · show out = PyRes.ret (.line ((List.range 2).map fun (i : Nat) => exSatC.denseCell [(i : Int), 0])) ↔ _
    rw [show (List.range 2).map (fun (i : Nat) => exSatC.denseCell [(i : Int), 0]) = [⟨0⟩, ⟨3⟩] by decide +kernel]
  · exact Iff.rfl
  · rw [prog_getitem (exEnvSat_ok dbg (threads := 4) (by decide)) isSearchSorted_bisectLeft _ exSatA_lits (by decide +kernel) trivial,
      show exSatA.check = .ok (.mat .csc 2 3) by decide +kernel]

/-- `less(A, [1, 0, 5])` broadcasts the array over the rows; `less(A, [1, 0])` does not broadcast. -/
example (dbg : Bool) (numpy : CmpOp → DenseNd Sat → DenseNd Sat → PyRes (DenseNd Bool)) (out : PyRes (DenseNd Bool)) :
    (Compare (exEnvSat dbg 4) numpy .lt (.prog exSatA) (.array ⟨[3], [⟨1⟩, ⟨0⟩, ⟨5⟩]⟩) out ↔
      out = .ret ⟨[2, 3], [false, false, true, true, false, true]⟩) ∧
    (Compare (exEnvSat dbg 4) numpy .lt (.prog exSatA) (.array ⟨[2], [⟨1⟩, ⟨0⟩]⟩) out ↔ out = .raises .valueError) ∧
    (Compare (exEnvSat dbg 4) numpy .ge (.prog exSatCoo) (.prog exSatC) out ↔
      out = .ret ⟨[2, 3], [true, true, true, false, true, true]⟩) := by
  have okA : (CmpArg.prog exSatA).Ok := ⟨exSatA_lits, by decide +kernel, trivial⟩
  have okC : (CmpArg.prog exSatC).Ok := ⟨exSatC_lits, by decide +kernel, trivial⟩
  have okCoo : (CmpArg.prog exSatCoo).Ok := ⟨exSatCoo_lits, by decide +kernel, trivial⟩
  have cA : (CmpArg.prog exSatA).check = .ok [2, 3] := by decide +kernel
  have cC : (CmpArg.prog exSatC).check = .ok [2, 3] := by decide +kernel
  have cCoo : (CmpArg.prog exSatCoo).check = .ok [2, 1] := by decide +kernel
  refine ⟨?_, ?_, ?_⟩
  · rw [prog_compare (exEnvSat_ok dbg (by decide)) numpy .lt okA (y := .array ⟨[3], [⟨1⟩, ⟨0⟩, ⟨5⟩]⟩) rfl (.inl trivial), cA]
    show out = PyRes.ret (denseOf [2, 3] _) ↔ _
    exact (show denseOf [2, 3] (fun i => CmpOp.lt.run ((CmpArg.prog exSatA).cell (bcastIndex [2, 3] i))
      ((CmpArg.array ⟨[3], [⟨1⟩, ⟨0⟩, ⟨5⟩]⟩).cell (bcastIndex [3] i))) = ⟨[2, 3], [false, false, true, true, false, true]⟩ by decide +kernel) ▸ Iff.rfl
  · rw [prog_compare (exEnvSat_ok dbg (by decide)) numpy .lt okA (y := .array ⟨[2], [⟨1⟩, ⟨0⟩]⟩) rfl (.inl trivial), cA]
    exact Iff.rfl
  · rw [prog_compare (exEnvSat_ok dbg (by decide)) numpy .ge okCoo okC (.inl trivial), cC, cCoo]
    show out = PyRes.ret (denseOf [2, 3] _) ↔ _
    exact (show denseOf [2, 3] (fun i => CmpOp.ge.run ((CmpArg.prog exSatCoo).cell (bcastIndex [2, 1] i))
      ((CmpArg.prog exSatC).cell (bcastIndex [2, 3] i))) = ⟨[2, 3], [true, true, true, false, true, true]⟩ by decide +kernel) ▸ Iff.rfl

section
attribute [local instance] meaningHasFinite meaningHasFloor meaningHasPowf meaningHasLt meaningHasAbs meaningHasNan meaningIdealOrd

/-- The program of C74, read as a dense array, by subscripts, and compared with a scalar. -/
example (dbg : Bool) : (∀ out, exCalc.Toarray (exEnvQ dbg) out ↔ out = .ret (denseOf [2, 3] exCalc.cells)) ∧
    (∀ out, exCalc.GetItem (exEnvQ dbg) bisectLeft (.cell (0 : Nat) (2 : Nat)) out ↔ out = .ret (.cell (-21))) := by
  refine ⟨prog_toarray_exact (fun _ => rfl) (fun _ => rfl) (exEnvQ_ok dbg) exCalc_lits exCalc_small exCalc_exact exCalc_type trivial,
    fun out => ?_⟩
  rw [(prog_getitem_exact (fun _ => rfl) (fun _ => rfl) (exEnvQ_ok dbg) isSearchSorted_bisectLeft exCalc_lits exCalc_small
    exCalc_exact exCalc_type (i := 0) (j := 2) (by omega) (by omega) out).1]
  rw [show exCalc.cells [((0 : Nat) : Int), ((2 : Nat) : Int)] = -21 by decide +kernel]

example (dbg : Bool) (numpy : CmpOp → DenseNd ℚ → DenseNd ℚ → PyRes (DenseNd Bool)) :
    ∃ d : DenseNd Bool, d.shape = [2, 3] ∧ (∀ out, Compare (exEnvQ dbg) numpy .le (.prog exCalc) (.array ⟨[], [-2]⟩) out ↔ out = .ret d) ∧
      d.data.getD 1 false = true ∧ ¬ d.data.getD 0 false = true := by
  have ok : (CmpArg.prog exCalc).ExactOk := ⟨exCalc_lits, exCalc_small, exCalc_exact⟩
  obtain ⟨d, h1, h2, h3, h4⟩ := prog_compare_exact (fun _ => rfl) (fun _ => rfl) (exEnvQ_ok dbg) numpy .le (x := .prog exCalc)
    (y := .array ⟨[], [-2]⟩) ok rfl (.inl trivial) (s := [2, 3]) (t := []) (u := [2, 3]) (by decide +kernel) rfl rfl
  refine ⟨d, h1, h3, (h4 [0, 1] (by exact mem_indicesOf.1 (by decide))).2 ?_, fun h => ?_⟩
  · show exCalc.cells [0, 1] ≤ -2
    decide +kernel
  · have : exCalc.cells [0, 0] ≤ -2 := (h4 [0, 0] (by exact mem_indicesOf.1 (by decide))).1 h
    exact absurd this (by decide +kernel)
end

end Lacuna
