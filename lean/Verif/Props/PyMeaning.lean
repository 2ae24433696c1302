import Verif.Lemmas.PyMeaningNd
import Verif.Props.PyProg
import Mathlib.Data.Rat.Floor
/-
C74: in exact arithmetic, Python programs over the four sparse classes compute the arrays that the
same programs over dense arrays compute.
-/
set_option linter.unusedSectionVars false

namespace Lacuna
variable {V : Type}
variable [Field V] [LinearOrder V] [IsStrictOrderedRing V] [FloorRing V] [BEq V] [LawfulBEq V] [HasFinite V]
  [HasFloor V] [HasPowf V] [HasAbs V] [HasLt V] [HasNan V] [IdealOrd V]

/-- C74: let the arithmetic be exact.  Whatever the schedule and the build profile, a program over
`CSR`, `CSC`, `COO` and `COOND` objects with valid literals and results that fit into memory either
raises the exception its type predicts, or returns a valid object of the predicted class and shape
whose cells are those of the dense array the program denotes. -/
theorem prog_correct (hfin : ∀ v : V, isFinite v = true) (hfl : ∀ v : V, HasFloor.floor v = (⌊v⌋ : V)) {env : PyEnv V}
    (he : env.Ok) {e : Prog V} (hl : e.LitsOk) (hs : e.Small) (hx : e.Exact) {out : PyRes (PyObj V)} (h : e.Eval env out) :
    match e.check with
    | .ok τ => ∃ v : SpVal V, out = .ret v.obj ∧ v.Valid ∧ v.ty = τ ∧ ∀ x, InBounds τ.shape x → v.cell x = e.cells x
    | .error x => out = .raises x := by
  obtain ⟨h1, h2⟩ := Prog.step he hl hs
  have := (h2 out).1 h
  subst this
  cases hc : e.check with
  | error x => rw [hc] at h1; rw [show e.value env = .error x from h1]; rfl
  | ok τ =>
    rw [hc] at h1
    obtain ⟨w, e1, hv, ht, hn⟩ := h1
    rw [e1]
    refine ⟨w, rfl, hv, ht, ?_⟩
    rw [← ht]
    exact (Prog.value_cells hfin hfl he hl hs e1).2 hx

/-- Entries are stored once whenever the program text says so: matrices, reductions, broadcasting
products, and whatever is made of such arrays entry by entry. -/
theorem prog_distinct (hfin : ∀ v : V, isFinite v = true) (hfl : ∀ v : V, HasFloor.floor v = (⌊v⌋ : V)) {env : PyEnv V}
    (he : env.Ok) {e : Prog V} (hl : e.LitsOk) (hs : e.Small) (hd : e.Distinct) {τ : Ty} (hc : e.check = .ok τ)
    {out : PyRes (PyObj V)} (h : e.Eval env out) :
    ∃ v : SpVal V, out = .ret v.obj ∧ v.ty = τ ∧ v.Once := by
  obtain ⟨h1, h2⟩ := Prog.step he hl hs
  have := (h2 out).1 h
  subst this
  rw [hc] at h1
  obtain ⟨w, e1, hv, ht, hn⟩ := h1
  rw [e1]
  refine ⟨w, rfl, ht, ?_⟩
  have hd := (Prog.value_cells hfin hfl he hl hs e1).1 hd
  cases w with
  | mat f a => exact fun i => (show a.WF from hv).noRep i
  | coo a => exact hd
  | nd a => exact hd

/-- Programs that denote the same array return the same array, whatever they do on the way. -/
theorem prog_equiv (hfin : ∀ v : V, isFinite v = true) (hfl : ∀ v : V, HasFloor.floor v = (⌊v⌋ : V)) {env env' : PyEnv V}
    (he : env.Ok) (he' : env'.Ok) {e e' : Prog V} (hl : e.LitsOk) (hl' : e'.LitsOk) (hs : e.Small) (hs' : e'.Small)
    (hx : e.Exact) (hx' : e'.Exact) {τ τ' : Ty} (ht : e.check = .ok τ) (ht' : e'.check = .ok τ') (hsh : τ.shape = τ'.shape)
    (hc : ∀ x, InBounds τ.shape x → e.cells x = e'.cells x)
    {out out' : PyRes (PyObj V)} (h : e.Eval env out) (h' : e'.Eval env' out') :
    ∃ v v' : SpVal V, out = .ret v.obj ∧ out' = .ret v'.obj ∧ v.ty.shape = v'.ty.shape ∧
      ∀ x, InBounds v.ty.shape x → v.cell x = v'.cell x := by
  have h1 := prog_correct hfin hfl he hl hs hx h
  have h2 := prog_correct hfin hfl he' hl' hs' hx' h'
  rw [ht] at h1
  rw [ht'] at h2
  obtain ⟨v, rfl, -, e1, c1⟩ := h1
  obtain ⟨v', rfl, -, e2, c2⟩ := h2
  refine ⟨v, v', rfl, rfl, by rw [e1, e2, hsh], fun x hxb => ?_⟩
  rw [e1] at hxb
  rw [c1 x hxb, hc x hxb, c2 x (hsh ▸ hxb)]

/-! ### what is left out -/

/-- `abs(COO(1, 1, [0, 0], [0, 0], [x, -x]))`: the two entries of the cell cancel, so the array is
zero, but every execution returns an array that is not. -/
theorem abs_duplicates (hfl : ∀ v : V, HasFloor.floor v = (⌊v⌋ : V)) {env : PyEnv V} (he : env.Ok) {x : V} (hx : x ≠ 0) :
    ∃ v : SpVal V, (∀ out, (Prog.un .abs (.coo 1 1 [0, 0] [0, 0] [x, -x])).Eval env out ↔ out = .ret v.obj) ∧
      (Prog.coo 1 1 [0, 0] [0, 0] [x, -x]).cells [0, 0] = 0 ∧ v.cell [0, 0] ≠ 0 := by
  have hl : (Prog.un .abs (.coo 1 1 [0, 0] [0, 0] [x, -x])).LitsOk := by
    refine ⟨by decide, by decide, ⟨rfl, rfl, ?_, ?_⟩, ?_, ?_⟩
    · show ∀ i ∈ [(0 : Int), 0], 0 ≤ i ∧ i < ((1 : Nat) : Int); decide
    · show ∀ i ∈ [(0 : Int), 0], 0 ≤ i ∧ i < ((1 : Nat) : Int); decide
    · show ∀ i ∈ [(0 : Int), 0], i ≤ i64Max; decide
    · show ∀ i ∈ [(0 : Int), 0], i ≤ i64Max; decide
  have hsz : Ty.SizeOk 2 (.coo 1 1) := by decide
  have hs : (Prog.un .abs (.coo 1 1 [0, 0] [0, 0] [x, -x])).Small := ⟨hsz, hsz⟩
  obtain ⟨-, h2⟩ := Prog.step he hl hs
  refine ⟨_, h2, ?_, ?_⟩
  · show ([x, -x] : List V).sum = 0
    simp
  · show (SpVal.coo (⟨1, 1, [0, 0], [0, 0], DataOp.abs.fn [x, -x]⟩ : Coo V)).cell [0, 0] ≠ 0
    rw [DataOp.fn_eq hfl]
    show ([|x|, |-x|] : List V).sum ≠ 0
    have := abs_pos.2 hx
    simp only [List.sum_cons, List.sum_nil, abs_neg, add_zero]
    exact ne_of_gt (by linarith)

theorem pow_val {a b : Comp V} (ha : a.WF) (hb : b.WF) (hn : a.n = b.n) (hm : a.m = b.m) (i j : Nat) :
    (binComp BinOp.pow.count BinOp.pow.fill a b).val i j = (interCell powCell (a.stored i j) (b.stored i j)).getD 0 := by
  rw [(BinOp.pow.comp_wf ha hb hn hm).1.val_eq_stored]
  exact congrArg (·.getD 0) ((binComp_inter ha hb hn
    (fun i => (inter_refines powKeep_isSome 0).eq _ _ (i64_row ha i) (i64_row hb i))
    (fun i => interRowFill_spec (srt_row ha i) (srt_row hb i))).2.2.2.1 i j)

/-- `A ** B` for sparse operands depends on which zeros are stored: `B = CSR(1, 1, [0, 1], [0], [0])` and
`B = CSR(1, 1, [0, 0], [], [])` are the same matrix, but with `A = CSR(1, 1, [0, 1], [0], [x])` one power
is 1 and the other 0. -/
theorem sparse_pow_storage (hfin : ∀ v : V, isFinite v = true) {env : PyEnv V} (he : env.Ok) {x : V}
    (hp : HasPowf.powf x (0 : V) = 1) :
    (∀ y, InBounds [1, 1] y → (Prog.mat .csr 1 1 [0, 1] [0] [(0 : V)]).cells y = (Prog.mat .csr 1 1 [0, 0] [] []).cells y) ∧
    ∃ v w : SpVal V,
      (∀ out, (Prog.bin .pow (.mat .csr 1 1 [0, 1] [0] [x]) (.mat .csr 1 1 [0, 1] [0] [0])).Eval env out ↔ out = .ret v.obj) ∧
      (∀ out, (Prog.bin .pow (.mat .csr 1 1 [0, 1] [0] [x]) (.mat .csr 1 1 [0, 0] [] [])).Eval env out ↔ out = .ret w.obj) ∧
      v.cell [0, 0] = 1 ∧ w.cell [0, 0] = 0 := by
  have new1 : ∀ d : V, nativeNew .csr 1 1 [0, 1] [0] [d] true = .ok ⟨1, 1, [0, 1], [0], [d]⟩ := fun d => rfl
  have new2 : nativeNew .csr 1 1 [0, 0] [] ([] : List V) true = .ok ⟨1, 1, [0, 0], [], []⟩ := rfl
  have lit1 : ∀ d : V, (Prog.mat .csr 1 1 [0, 1] [0] [d]).LitsOk := fun d =>
    ⟨by show ∀ j ∈ [(0 : Int)], j ≤ i64Max; decide, by simp⟩
  have lit2 : (Prog.mat .csr 1 1 [0, 0] [] ([] : List V)).LitsOk := ⟨by simp, by simp⟩
  have w1 : ∀ d : V, (⟨1, 1, [0, 1], [0], [d]⟩ : Comp V).WF := fun d => (nativeNew_true_ok (lit1 d).1 (new1 d)).1
  have w2 : (⟨1, 1, [0, 0], [], []⟩ : Comp V).WF := (nativeNew_true_ok lit2.1 new2).1
  have hsz : ∀ b ≤ 2, Ty.SizeOk b (.mat .csr 1 1) := by decide
  refine ⟨fun y hy => ?_, ?_⟩
  · obtain ⟨i, j, rfl, hi, hj⟩ := inBounds_pair hy
    obtain rfl : i = 0 := by omega
    obtain rfl : j = 0 := by omega
    show ([0] : List V).sum = ([] : List V).sum
    simp
  · have s1 : (Prog.bin .pow (.mat .csr 1 1 [0, 1] [0] [x]) (.mat .csr 1 1 [0, 1] [0] [0])).Small :=
      ⟨hsz 1 (by omega), hsz 1 (by omega), hsz 2 (by omega)⟩
    have s2 : (Prog.bin .pow (.mat .csr 1 1 [0, 1] [0] [x]) (.mat .csr 1 1 [0, 0] [] [])).Small :=
      ⟨hsz 1 (by omega), hsz 0 (by omega), hsz 1 (by omega)⟩
    refine ⟨_, _, (Prog.step he (e := .bin .pow (.mat .csr 1 1 [0, 1] [0] [x]) (.mat .csr 1 1 [0, 1] [0] [0])) ⟨lit1 x, lit1 0⟩ s1).2,
      (Prog.step he (e := .bin .pow (.mat .csr 1 1 [0, 1] [0] [x]) (.mat .csr 1 1 [0, 0] [] [])) ⟨lit1 x, lit2⟩ s2).2, ?_, ?_⟩
    · refine (pow_val (w1 x) (w1 0) rfl rfl 0 0).trans ?_
      have st : ∀ d : V, (⟨1, 1, [0, 1], [0], [d]⟩ : Comp V).stored 0 0 = some d := fun d => by
        simp [Comp.stored, Comp.row, Comp.entries, Comp.ptr]
      rw [st, st]
      simp [interCell, powCell, hp, hfin]
    · exact pow_val (w1 x) w2 rfl rfl 0 0

/-! ### laws of programs -/

/-- `(A + B).T` and `A.T + B.T` return the same matrix. -/
theorem transpose_add_equiv (hfin : ∀ v : V, isFinite v = true) (hfl : ∀ v : V, HasFloor.floor v = (⌊v⌋ : V))
    {env env' : PyEnv V} (he : env.Ok) (he' : env'.Ok) {a b : Prog V} (hl : a.LitsOk) (hl' : b.LitsOk)
    (hs : (Prog.T (.bin .add a b)).Small) (hs' : (Prog.bin .add (.T a) (.T b)).Small) (hx : a.Exact) (hx' : b.Exact)
    {f : Fmt} {r c : Nat} (ha : a.check = .ok (.mat f r c)) (hb : b.check = .ok (.mat f r c))
    {out out' : PyRes (PyObj V)} (h : (Prog.T (.bin .add a b)).Eval env out)
    (h' : (Prog.bin .add (.T a) (.T b)).Eval env' out') :
    ∃ v v' : SpVal V, out = .ret v.obj ∧ out' = .ret v'.obj ∧ v.ty.shape = v'.ty.shape ∧
      ∀ x, InBounds v.ty.shape x → v.cell x = v'.cell x := by
  have e1 : (Prog.bin .add a b).check = .ok (.mat f r c) := by
    show (a.check.bind fun x => b.check.bind fun y => Ty.bin .add x y) = _
    rw [ha, hb]
    show (if f ≠ f then _ else if _ then _ else _) = _
    rw [if_neg (by simp), if_pos ⟨rfl, rfl⟩]
  have t1 : (Prog.T a).check = .ok (.mat f c r) := by show a.check.bind _ = _; rw [ha]; rfl
  have t2 : (Prog.T b).check = .ok (.mat f c r) := by show b.check.bind _ = _; rw [hb]; rfl
  have e2 : (Prog.T (.bin .add a b)).check = .ok (.mat f c r) := by show (Prog.bin .add a b).check.bind _ = _; rw [e1]; rfl
  have e3 : (Prog.bin .add (.T a) (.T b)).check = .ok (.mat f c r) := by
    show ((Prog.T a).check.bind fun x => (Prog.T b).check.bind fun y => Ty.bin .add x y) = _
    rw [t1, t2]
    show (if f ≠ f then _ else if _ then _ else _) = _
    rw [if_neg (by simp), if_pos ⟨rfl, rfl⟩]
  refine prog_equiv hfin hfl he he' (e := .T (.bin .add a b)) (e' := .bin .add (.T a) (.T b)) ⟨hl, hl'⟩ ⟨hl, hl'⟩ hs hs'
    ⟨hx, hx', by simp⟩ ⟨hx, hx', by simp⟩ e2 e3 rfl (fun x hxb => ?_) h h'
  have hxb : InBounds [c, r] x := hxb
  have hrev : InBounds [r, c] x.reverse := by
    obtain ⟨i, j, rfl, hi, hj⟩ := inBounds_pair hxb
    exact .cons ⟨by omega, by omega⟩ (.cons ⟨by omega, by omega⟩ .nil)
  show a.cells (bcastIndex a.shape x.reverse) + b.cells (bcastIndex b.shape x.reverse) =
    a.cells (bcastIndex (Prog.T a).shape x).reverse + b.cells (bcastIndex (Prog.T b).shape x).reverse
  rw [Prog.shape_of ha, Prog.shape_of hb, Prog.shape_of t1, Prog.shape_of t2]
  show a.cells (bcastIndex [r, c] x.reverse) + b.cells (bcastIndex [r, c] x.reverse) =
    a.cells (bcastIndex [c, r] x).reverse + b.cells (bcastIndex [c, r] x).reverse
  rw [bcastIndex_self hrev, bcastIndex_self hxb]

/-! ### a program -/

section
local instance meaningHasFinite : HasFinite ℚ := ⟨fun _ => true⟩
local instance meaningHasFloor : HasFloor ℚ := ⟨fun x => (⌊x⌋ : ℚ)⟩
local instance meaningHasPowf : HasPowf ℚ := ⟨fun x y => x ^ y.num⟩
local instance meaningHasLt : HasLt ℚ := ⟨fun x y => decide (x < y)⟩
local instance meaningHasAbs : HasAbs ℚ := ⟨fun x => |x|⟩
local instance meaningHasNan : HasNan ℚ := ⟨fun _ => false, 0⟩
local instance meaningIdealOrd : IdealOrd ℚ := ⟨fun x y => by simp [flt], fun _ => rfl, fun _ => rfl⟩

/-- An environment over the rationals. -/
def exEnvQ (dbg : Bool) : PyEnv ℚ :=
  ⟨dbg, 4, List.insertionSort pairLe, List.insertionSort tripleLe, fun l => l.mergeSort (fun a b => decide (a.1 ≤ b.1)),
    fun la lb => (la.filter fun k => lb.contains k).dedup⟩

theorem exEnvQ_ok (dbg : Bool) : (exEnvQ dbg).Ok :=
  ⟨isPairSort_insertionSort, isTripleSort_insertionSort, isSort_mergeSort, isCommonKeys_filter, by show 4 < 2 ^ 60; decide⟩

/-- `x = permute_dims(reshape(COOND((2, 3), …), (3, 2)), (1, 0)) * COOND((3,), …)`, then
`x.axes_unfold_to_csr([1]).T.prune(1) - CSR(…) / 2`. -/
def exCalc : Prog ℚ :=
  .bin .sub
    (.prune 1 (.T (.ndop (.unfold .csr) [1] (.bin .mul
      (.ndop .permute [1, 0] (.ndop .reshape [3, 2] (.nd [2, 3] [0, 0, 0, 2, 1, 1] [5, 6, 7])))
      (.nd [3] [0, 2] [2, -3])))))
    (.scalar .div (.mat .csr 2 3 [0, 1, 2] [1, 0] [4, 9]) 2)

theorem exCalc_type : exCalc.check = .ok (.mat .csr 2 3) := by decide +kernel
theorem exCalc_lits : exCalc.LitsOk := by
  have h1 : ∀ k < 3, ∀ d (h : d < [2, 3].length), 0 ≤ ([0, 0, 0, 2, 1, 1] : List Int).getD (k * 2 + d) 0 ∧
      ([0, 0, 0, 2, 1, 1] : List Int).getD (k * 2 + d) 0 < (([2, 3] : List Nat)[d] : Nat) := by decide
  have h2 : ∀ k < 2, ∀ d (h : d < [3].length), 0 ≤ ([0, 2] : List Int).getD (k * 1 + d) 0 ∧
      ([0, 2] : List Int).getD (k * 1 + d) 0 < (([3] : List Nat)[d] : Nat) := by decide
  refine ⟨⟨⟨by decide, ⟨by decide, rfl, h1⟩, ?_⟩, by decide, ⟨by decide, rfl, h2⟩, ?_⟩, ?_, by simp⟩
  · show ∀ i ∈ ([0, 0, 0, 2, 1, 1] : List Int), i ≤ i64Max; decide
  · show ∀ i ∈ ([0, 2] : List Int), i ≤ i64Max; decide
  · show ∀ i ∈ ([1, 0] : List Int), i ≤ i64Max; decide

theorem exCalc_small : exCalc.Small := by decide +kernel
theorem exCalc_exact : exCalc.Exact := by
  simp [exCalc, Prog.Exact, Prog.Distinct]

example (dbg : Bool) {out : PyRes (PyObj ℚ)} (h : exCalc.Eval (exEnvQ dbg) out) :
    ∃ v : SpVal ℚ, out = .ret v.obj ∧ v.Valid ∧ v.ty = .mat .csr 2 3 ∧
      v.cell [0, 0] = 10 ∧ v.cell [0, 1] = -2 ∧ v.cell [0, 2] = -21 ∧ v.cell [1, 0] = -9 / 2 := by
  have := prog_correct (fun _ => rfl) (fun _ => rfl) (exEnvQ_ok dbg) exCalc_lits exCalc_small exCalc_exact h
  rw [exCalc_type] at this
  obtain ⟨v, h1, h2, h3, h4⟩ := this
  have b : ∀ i j : Nat, i < 2 → j < 3 → InBounds (Ty.mat .csr 2 3).shape [(i : Int), (j : Int)] := fun i j hi hj =>
    .cons ⟨by omega, by omega⟩ (.cons ⟨by omega, by omega⟩ .nil)
  refine ⟨v, h1, h2, h3, ?_, ?_, ?_, ?_⟩
  · rw [show ([0, 0] : List Int) = [((0 : Nat) : Int), ((0 : Nat) : Int)] from rfl, h4 _ (b 0 0 (by omega) (by omega))]
    decide +kernel
  · rw [show ([0, 1] : List Int) = [((0 : Nat) : Int), ((1 : Nat) : Int)] from rfl, h4 _ (b 0 1 (by omega) (by omega))]
    decide +kernel
  · rw [show ([0, 2] : List Int) = [((0 : Nat) : Int), ((2 : Nat) : Int)] from rfl, h4 _ (b 0 2 (by omega) (by omega))]
    decide +kernel
  · rw [show ([1, 0] : List Int) = [((1 : Nat) : Int), ((0 : Nat) : Int)] from rfl, h4 _ (b 1 0 (by omega) (by omega))]
    decide +kernel

example (dbg : Bool) {out : PyRes (PyObj ℚ)} (h : exCalc.Eval (exEnvQ dbg) out) :
    ∃ v : SpVal ℚ, out = .ret v.obj ∧ v.ty = .mat .csr 2 3 ∧ v.Once :=
  prog_distinct (fun _ => rfl) (fun _ => rfl) (exEnvQ_ok dbg) exCalc_lits exCalc_small (show exCalc.Distinct from trivial)
    exCalc_type h

/-- `(A + B).T` in the debug build against `A.T + B.T` in the release build. -/
example {out out' : PyRes (PyObj ℚ)}
    (h : (Prog.T (.bin .add (.mat .csr 2 3 [0, 1, 2] [1, 0] [4, 9]) (.mat .csr 2 3 [0, 1, 1] [1] [-4]))).Eval (exEnvQ true) out)
    (h' : (Prog.bin .add (.T (.mat .csr 2 3 [0, 1, 2] [1, 0] [4, 9])) (.T (.mat .csr 2 3 [0, 1, 1] [1] [-4]))).Eval
      (exEnvQ false) out') :
    ∃ v v' : SpVal ℚ, out = .ret v.obj ∧ out' = .ret v'.obj ∧ v.ty.shape = v'.ty.shape ∧
      ∀ x, InBounds v.ty.shape x → v.cell x = v'.cell x :=
  transpose_add_equiv (fun _ => rfl) (fun _ => rfl) (exEnvQ_ok true) (exEnvQ_ok false)
    (a := .mat .csr 2 3 [0, 1, 2] [1, 0] [4, 9]) (b := .mat .csr 2 3 [0, 1, 1] [1] [-4])
    ⟨by show ∀ i ∈ ([1, 0] : List Int), i ≤ i64Max; decide, by simp⟩ ⟨by show ∀ i ∈ ([1] : List Int), i ≤ i64Max; decide, by simp⟩
    (by decide +kernel) (by decide +kernel) trivial trivial (f := .csr) (r := 2) (c := 3) (by decide +kernel) (by decide +kernel) h h'

example (dbg : Bool) : ∃ v : SpVal ℚ,
    (∀ out, (Prog.un .abs (.coo 1 1 [0, 0] [0, 0] [3, -3])).Eval (exEnvQ dbg) out ↔ out = .ret v.obj) ∧
      (Prog.coo 1 1 [0, 0] [0, 0] [3, -3]).cells [0, 0] = (0 : ℚ) ∧ v.cell [0, 0] ≠ 0 :=
  abs_duplicates (fun _ => rfl) (exEnvQ_ok dbg) (by norm_num)

example : HasPowf.powf (5 : ℚ) 0 = 1 := by decide +kernel

end

end Lacuna
