import Verif.Lemmas.PyBitsProg
import Verif.Props.PyProg
/-
C79: the stored entries of Python programs, bit by bit, in any arithmetic.
-/
set_option linter.unusedSectionVars false

namespace Lacuna
variable {V : Type}
variable [Zero V] [One V] [Add V] [Sub V] [Mul V] [Div V] [Neg V] [BEq V] [NatCast V] [HasFinite V]
  [HasFloor V] [HasPowf V] [HasAbs V] [HasLt V] [HasNan V]

/-- C79: whatever the arithmetic, every execution of a program whose literals are valid, whose
intermediate results fit into memory and which unfolds no array with a coordinate stored twice returns
an object of the computed type that stores exactly the entries `e.stores`, in that order; or it raises
the computed exception.  No law of arithmetic is used: with `+`, `*`, `/`, … read as the IEEE
operations the statement is about the bits. -/
theorem prog_bits {env : PyEnv V} (he : env.Ok) {e : Prog V} (hl : e.LitsOk) (hs : e.Small) (hd : e.Determined)
    {out : PyRes (PyObj V)} (h : e.Eval env out) :
    match e.check with
    | .ok τ => ∃ v : SpVal V, out = .ret v.obj ∧ v.Valid ∧ v.ty = τ ∧ v.stores = e.stores
    | .error x => out = .raises x := by
  have hstep := Prog.step he hl hs
  obtain ⟨h1, h2⟩ := hstep
  have := (h2 out).1 h
  subst this
  cases hc : e.check with
  | error x => rw [hc] at h1; rw [show e.value env = .error x from h1]; rfl
  | ok τ =>
    rw [hc] at h1
    obtain ⟨w, e1, hv, ht, -⟩ := h1
    rw [e1]
    exact ⟨w, rfl, hv, ht, (Prog.value_stores he hl hs hd e1).1⟩

/-- Type and stored entries determine an object: nothing else of it can be observed. -/
theorem stores_determine {v w : SpVal V} (hv : v.Valid) (hw : w.Valid) (ht : v.ty = w.ty) (h : v.stores = w.stores) :
    v = w := SpVal.ext_stores hv hw ht h

/-- Programs with the same type and the same stored entries have the same outcome, also on different
machines. -/
theorem prog_bits_equiv {env env' : PyEnv V} (he : env.Ok) (he' : env'.Ok) {e e' : Prog V} (hl : e.LitsOk)
    (hl' : e'.LitsOk) (hs : e.Small) (hs' : e'.Small) (hd : e.Determined) (hd' : e'.Determined)
    (ht : e.check = e'.check) (hv : e.stores = e'.stores) (out : PyRes (PyObj V)) :
    e.Eval env out ↔ e'.Eval env' out := by
  have main : ∀ {env env' : PyEnv V}, env.Ok → env'.Ok → ∀ {e e' : Prog V}, e.LitsOk → e'.LitsOk → e.Small → e'.Small →
      e.Determined → e'.Determined → e.check = e'.check → e.stores = e'.stores → e.Eval env out → e'.Eval env' out := by
    intro env env' he he' e e' hl hl' hs hs' hd hd' ht hv h
    obtain ⟨o, ho⟩ := prog_unique he' hl' hs'
    have h1 := prog_bits he hl hs hd h
    have h2 := prog_bits he' hl' hs' hd' ((ho o).2 rfl)
    rw [ht] at h1
    refine (ho out).2 ?_
    cases hc : e'.check with
    | error x =>
      rw [hc] at h1 h2
      exact h1.trans h2.symm
    | ok τ =>
      rw [hc] at h1 h2
      obtain ⟨v, rfl, v2, v3, v4⟩ := h1
      obtain ⟨w, rfl, w2, w3, w4⟩ := h2
      rw [stores_determine v2 w2 (v3.trans w3.symm) (by rw [v4, w4, hv])]
  exact ⟨main he he' hl hl' hs hs' hd hd' ht hv, main he' he hl' hl hs' hs hd' hd ht.symm hv.symm⟩

/-- The outcome does not depend on the machine: number of threads, schedule, unstable sorts, hash
order and build profile do not show, down to the last bit. -/
theorem prog_reproducible {env env' : PyEnv V} (he : env.Ok) (he' : env'.Ok) {e : Prog V} (hl : e.LitsOk) (hs : e.Small)
    (hd : e.Determined) (out : PyRes (PyObj V)) : e.Eval env out ↔ e.Eval env' out :=
  prog_bits_equiv he he' hl hl hs hs hd hd rfl rfl out

/-! ### laws that hold in any arithmetic -/

theorem stores_canonical {env : PyEnv V} (he : env.Ok) {a : Prog V} (hl : a.LitsOk) (hs : a.Small) (hd : a.Determined)
    {f : Fmt} {r c : Nat} (ha : a.check = .ok (.mat f r c)) :
    a.stores = tabulate (Ty.mat f r c).order (total a.stores) := by
  obtain ⟨out, ho⟩ := prog_unique he hl hs
  have h := prog_bits he hl hs hd ((ho out).2 rfl)
  rw [ha] at h
  obtain ⟨v, -, hv, ht, h⟩ := h
  rw [← h, ← ht]
  cases v with
  | coo _ => cases ht
  | nd _ => cases ht
  | mat g w =>
    have hw : w.WF := hv
    exact stores_tabulate hw fun i j _ _ => (total_stores hw i j).symm

theorem mem_order {f : Fmt} {r c : Nat} {x : List Int} : x ∈ (Ty.mat f r c).order ↔ InBounds [r, c] x := by
  cases f with
  | csr => exact mem_indicesOf
  | csc =>
    show x ∈ (indicesOf [c, r]).map List.reverse ↔ _
    rw [List.mem_map]
    constructor
    · rintro ⟨y, hy, rfl⟩
      obtain ⟨i, j, rfl, hi, hj⟩ := inBounds_pair (mem_indicesOf.1 hy)
      exact .cons ⟨by omega, by omega⟩ (.cons ⟨by omega, by omega⟩ .nil)
    · intro h
      obtain ⟨i, j, rfl, hi, hj⟩ := inBounds_pair h
      exact ⟨[(j : Int), (i : Int)], mem_indicesOf.2 (.cons ⟨by omega, by omega⟩ (.cons ⟨by omega, by omega⟩ .nil)), rfl⟩

theorem order_nodup (f : Fmt) (r c : Nat) : (Ty.mat f r c).order.Nodup := by
  cases f with
  | csr => exact indicesOf_nodup _
  | csc => exact List.Nodup.map List.reverse_injective (indicesOf_nodup _)

theorem inBounds_reverse {r c : Nat} {x : List Int} (h : InBounds [r, c] x) : InBounds [c, r] x.reverse := by
  obtain ⟨i, j, rfl, hi, hj⟩ := inBounds_pair h
  exact .cons ⟨by omega, by omega⟩ (.cons ⟨by omega, by omega⟩ .nil)

theorem check_T {a : Prog V} {f : Fmt} {r c : Nat} (ha : a.check = .ok (.mat f r c)) : (Prog.T a).check = .ok (.mat f c r) := by
  show a.check.bind _ = _; rw [ha]; rfl

theorem check_bin {a b : Prog V} (op : BinOp) {f : Fmt} {r c : Nat} (ha : a.check = .ok (.mat f r c))
    (hb : b.check = .ok (.mat f r c)) : (Prog.bin op a b).check = .ok (.mat f r c) := by
  show (a.check.bind fun x => b.check.bind fun y => Ty.bin op x y) = _
  rw [ha, hb]
  show (if f ≠ f then _ else if _ then _ else _) = _
  rw [if_neg (by simp), if_pos ⟨rfl, rfl⟩]

theorem stores_of_T {a : Prog V} {f : Fmt} {r c : Nat} (ha : a.check = .ok (.mat f r c)) :
    (Prog.T a).stores = tabulate (Ty.mat f c r).order fun x => total a.stores x.reverse := by
  show (if a.compressed then tabulate (Prog.T a).order _ else _) = _
  rw [if_pos (show a.compressed = true by rw [Prog.compressed_ok ha]; rfl), Prog.order_ok (check_T ha)]
  refine tabulate_congr fun x _ => ?_
  conv_lhs => rw [← List.reverse_reverse x]
  rw [total_reverse]

theorem total_of_T {a : Prog V} {f : Fmt} {r c : Nat} (ha : a.check = .ok (.mat f r c)) {x : List Int}
    (hx : InBounds [c, r] x) : total (Prog.T a).stores x = total a.stores x.reverse := by
  rw [stores_of_T ha, total_tabulate (order_nodup _ _ _) (mem_order.2 hx)]

theorem stores_of_bin {a b : Prog V} (op : BinOp) {f : Fmt} {r c : Nat} (ha : a.check = .ok (.mat f r c))
    (hb : b.check = .ok (.mat f r c)) :
    (Prog.bin op a b).stores = tabulate (Ty.mat f r c).order fun x => op.bits (total a.stores x) (total b.stores x) := by
  show tabulate (Prog.bin op a b).order _ = _
  rw [Prog.order_ok (check_bin op ha hb)]
  refine tabulate_congr fun x hx => ?_
  have hx := mem_order.1 hx
  simp only [Prog.compressed_ok ha, Prog.shape_ok ha, Prog.shape_ok hb]
  show op.bits (sumAll (valuesAt a.stores (bcastIndex [r, c] x))) (sumAll (valuesAt b.stores (bcastIndex [r, c] x))) = _
  rw [bcastIndex_self hx]
  rfl

/-- `A.T.T` and `A` are the same matrix, bit by bit. -/
theorem transpose_twice_bits {env env' : PyEnv V} (he : env.Ok) (he' : env'.Ok) {a : Prog V} (hl : a.LitsOk)
    (hs : (Prog.T (.T a)).Small) (hd : a.Determined) {f : Fmt} {r c : Nat} (ha : a.check = .ok (.mat f r c))
    (out : PyRes (PyObj V)) : (Prog.T (.T a)).Eval env out ↔ a.Eval env' out := by
  refine prog_bits_equiv he he' (e := .T (.T a)) hl hl hs hs.1.1 hd hd ?_ ?_ out
  · rw [check_T (check_T ha), ha]
  · rw [stores_of_T (check_T ha), stores_canonical he hl hs.1.1 hd ha]
    refine tabulate_congr fun x hx => ?_
    rw [total_of_T ha (inBounds_reverse (mem_order.1 hx)), List.reverse_reverse]

/-- `(A op B).T` and `A.T op B.T` are the same matrix, bit by bit, for every operator. -/
theorem transpose_bin_bits {env env' : PyEnv V} (he : env.Ok) (he' : env'.Ok) (op : BinOp) {a b : Prog V} (hl : a.LitsOk)
    (hl' : b.LitsOk) (hs : (Prog.T (.bin op a b)).Small) (hs' : (Prog.bin op (.T a) (.T b)).Small) (hd : a.Determined)
    (hd' : b.Determined) {f : Fmt} {r c : Nat} (ha : a.check = .ok (.mat f r c)) (hb : b.check = .ok (.mat f r c))
    (out : PyRes (PyObj V)) : (Prog.T (.bin op a b)).Eval env out ↔ (Prog.bin op (.T a) (.T b)).Eval env' out := by
  refine prog_bits_equiv he he' (e := .T (.bin op a b)) (e' := .bin op (.T a) (.T b)) ⟨hl, hl'⟩ ⟨hl, hl'⟩ hs hs'
    ⟨hd, hd'⟩ ⟨hd, hd'⟩ ?_ ?_ out
  · rw [check_T (check_bin op ha hb), check_bin op (check_T ha) (check_T hb)]
  · rw [stores_of_T (check_bin op ha hb), stores_of_bin op (check_T ha) (check_T hb)]
    refine tabulate_congr fun x hx => ?_
    have hx := mem_order.1 hx
    rw [total_of_T ha hx, total_of_T hb hx, stores_of_bin op ha hb,
      total_tabulate (order_nodup _ _ _) (mem_order.2 (inBounds_reverse hx))]

/-- `A.prune(eps).prune(eps)` and `A.prune(eps)` are the same, bit by bit. -/
theorem prune_twice_bits {env env' : PyEnv V} (he : env.Ok) (he' : env'.Ok) (eps : V) {a : Prog V} (hl : a.LitsOk)
    (hs : (Prog.prune eps (.prune eps a)).Small) (hd : a.Determined) (out : PyRes (PyObj V)) :
    (Prog.prune eps (.prune eps a)).Eval env out ↔ (Prog.prune eps a).Eval env' out := by
  have hc : (Prog.prune eps (.prune eps a)).check = (Prog.prune eps a).check := by
    show (a.check.bind Ty.prune).bind Ty.prune = a.check.bind Ty.prune
    cases a.check with
    | error x => rfl
    | ok τ => cases τ <;> rfl
  cases hk : (Prog.prune eps a).check with
  | error x =>
    obtain ⟨o, ho⟩ := prog_unique he (e := .prune eps (.prune eps a)) hl hs
    obtain ⟨o', ho'⟩ := prog_unique he' (e := .prune eps a) hl hs.1
    have h1 := prog_sound he (e := .prune eps (.prune eps a)) hl hs ((ho o).2 rfl)
    have h2 := prog_sound he' (e := .prune eps a) hl hs.1 ((ho' o').2 rfl)
    rw [hc, hk] at h1
    rw [hk] at h2
    rw [ho, ho', h1, h2]
  | ok τ =>
    have hcomp : (Prog.prune eps a).compressed = a.compressed := by
      have : a.check.bind Ty.prune = .ok τ := hk
      rw [Prog.compressed_ok hk]
      cases hac : a.check with
      | error x => rw [hac] at this; cases this
      | ok σ =>
        rw [hac] at this
        rw [Prog.compressed_ok hac]
        cases σ <;> cases this <;> rfl
    refine prog_bits_equiv he he' (e := .prune eps (.prune eps a)) (e' := .prune eps a) hl hl hs hs.1 hd hd hc ?_ out
    show pruneBits (Prog.prune eps a).compressed eps (pruneBits a.compressed eps a.stores) = pruneBits a.compressed eps a.stores
    rw [hcomp]
    generalize a.stores = l
    generalize a.compressed = k
    by_cases h1 : flt eps 0 = true
    · simp only [pruneBits, h1, if_true]
    · by_cases h2 : (k && eps == 0 && !(l.any fun e => e.2 == 0)) = true
      · have : pruneBits k eps l = l := by simp only [pruneBits, h1, h2, if_true, Bool.false_eq_true, if_false]
        rw [this, this]
      · have : pruneBits k eps l = l.filter fun e => flt eps (fabs e.2) := by
          simp only [pruneBits, h1, h2, Bool.false_eq_true, if_false]
        rw [this]
        unfold pruneBits
        rw [if_neg h1]
        split_ifs
        · rfl
        · rw [List.filter_filter]; simp

/-- `a.reshape(s).reshape(t)` and `a.reshape(t)` are the same array, bit by bit. -/
theorem reshape_twice_bits {env env' : PyEnv V} (he : env.Ok) (he' : env'.Ok) {a : Prog V} (hl : a.LitsOk) {s t : List Int}
    (hs : (Prog.ndop .reshape t (.ndop .reshape s a)).Small) (hs' : (Prog.ndop .reshape t a).Small) (hd : a.Determined)
    {u v w : List Nat} (ha : a.check = .ok (.nd u)) (h1 : (Prog.ndop .reshape s a).check = .ok (.nd v))
    (h2 : (Prog.ndop .reshape t (.ndop .reshape s a)).check = .ok (.nd w)) (out : PyRes (PyObj V)) :
    (Prog.ndop .reshape t (.ndop .reshape s a)).Eval env out ↔ (Prog.ndop .reshape t a).Eval env' out := by
  have key : ∀ {b : Prog V} {arg : List Int} {p q : List Nat}, b.check = .ok (.nd p) → (Prog.ndop .reshape arg b).check = .ok (.nd q) →
      argDims arg = .ok q ∧ q ≠ [] ∧ p.prod = q.prod := by
    intro b arg p q hb h
    have h : b.check.bind _ = .ok (Ty.nd q) := h
    rw [hb] at h
    obtain ⟨xs, hxs, h⟩ := bind_ok (show (argDims arg).bind _ = .ok (Ty.nd q) from h)
    have h : NdOp.reshape.ty p xs = .ok (.nd q) := h
    simp only [NdOp.ty] at h
    split_ifs at h with g1 g2
    cases h
    exact ⟨hxs, g2, (not_not.1 g1).symm⟩
  obtain ⟨a1, a2, a3⟩ := key ha h1
  obtain ⟨b1, b2, b3⟩ := key h1 h2
  have hc : (Prog.ndop .reshape t a).check = .ok (.nd w) := by
    show a.check.bind _ = _
    rw [ha]
    show (argDims t).bind _ = _
    rw [b1]
    show NdOp.reshape.ty u w = _
    simp only [NdOp.ty]
    rw [if_neg (by rw [not_not, a3, b3]), if_neg b2]
  have hin : ∀ e ∈ a.stores, InBounds u e.1 := by
    obtain ⟨o, ho⟩ := prog_unique he hl hs.1.1
    have h := prog_bits he hl hs.1.1 hd ((ho o).2 rfl)
    rw [ha] at h
    obtain ⟨x, -, hv, ht, h⟩ := h
    rw [← h]
    have := stores_inBounds hv
    rw [ht] at this
    exact this
  refine prog_bits_equiv he he' (e := .ndop .reshape t (.ndop .reshape s a)) (e' := .ndop .reshape t a) hl hl hs hs'
    ⟨⟨hd, trivial⟩, trivial⟩ ⟨hd, trivial⟩ (h2.trans hc.symm) ?_ out
  show ((a.stores.map fun e => (unravel (s.map Int.toNat) (rowMajor a.shape e.1), e.2)).map fun e =>
    (unravel (t.map Int.toNat) (rowMajor (Prog.ndop .reshape s a).shape e.1), e.2)) =
    a.stores.map fun e => (unravel (t.map Int.toNat) (rowMajor a.shape e.1), e.2)
  rw [List.map_map, Prog.shape_ok ha, Prog.shape_ok h1, ← argDims_ok a1]
  refine List.map_congr_left fun e hm => ?_
  have := rowMajor_lt (hin e hm)
  show (unravel _ (rowMajor v (unravel v (rowMajor u e.1))), e.2) = _
  rw [(unravel_spec (by omega)).2]
  rfl

/-! ### what does depend on the machine -/

/-- Unfolding an array with a coordinate stored three times adds the values in the order in which
`sort_unstable_by` leaves equal keys (astype.rs 230–232): whenever `(x + y) + z ≠ (z + y) + x`, two
machines that differ in nothing but this order, both as the documentation of the sort allows, return
different matrices. -/
theorem unfold_duplicates_machine {env : PyEnv V} (he : env.Ok) (f : Fmt) {x y z : V} (h : x + y + z ≠ z + y + x) :
    ∃ (sort sort' : List ((Int × Int) × V) → List ((Int × Int) × V)),
      ({ env with tripleSort := sort } : PyEnv V).Ok ∧ ({ env with tripleSort := sort' } : PyEnv V).Ok ∧
      ∃ out out' : PyRes (PyObj V), out ≠ out' ∧
        (∀ o, (Prog.mode f 0 (.nd [1, 1] [0, 0, 0, 0, 0, 0] [x, y, z])).Eval { env with tripleSort := sort } o ↔ o = out) ∧
        (∀ o, (Prog.mode f 0 (.nd [1, 1] [0, 0, 0, 0, 0, 0] [x, y, z])).Eval { env with tripleSort := sort' } o ↔ o = out') := by
  have hrev : IsTripleSort fun l : List ((Int × Int) × V) => List.insertionSort tripleLe l.reverse := fun l => by
    obtain ⟨h1, h2⟩ := isTripleSort_insertionSort (V := V) l.reverse
    exact ⟨h1.trans (List.reverse_perm l), h2⟩
  have hl : (Prog.mode f 0 (.nd [1, 1] [0, 0, 0, 0, 0, 0] [x, y, z]) : Prog V).LitsOk := by
    refine ⟨by decide, ⟨by simp, rfl, ?_⟩, by show ∀ i ∈ ([0, 0, 0, 0, 0, 0] : List Int), i ≤ i64Max; decide⟩
    show ∀ k < 3, ∀ d (h : d < [1, 1].length), 0 ≤ ([0, 0, 0, 0, 0, 0] : List Int).getD (k * 2 + d) 0 ∧
      ([0, 0, 0, 0, 0, 0] : List Int).getD (k * 2 + d) 0 < (([1, 1] : List Nat)[d] : Nat)
    decide
  have hs : (Prog.mode f 0 (.nd [1, 1] [0, 0, 0, 0, 0, 0] [x, y, z]) : Prog V).Small := by
    have h1 : Ty.SizeOk 3 (.nd [1, 1]) := by decide
    have h2 : Ty.SizeOk 3 (.mat f 1 1) := by cases f <;> decide
    exact ⟨h1, h2⟩
  have o1 : ({ env with tripleSort := List.insertionSort tripleLe } : PyEnv V).Ok :=
    ⟨he.pair, isTripleSort_insertionSort, he.nd, he.keys, he.threads⟩
  have o2 : ({ env with tripleSort := fun l => List.insertionSort tripleLe l.reverse } : PyEnv V).Ok :=
    ⟨he.pair, hrev, he.nd, he.keys, he.threads⟩
  refine ⟨_, _, o1, o2, _, _, ?_, (Prog.step o1 hl hs).2, (Prog.step o2 hl hs).2⟩
  have v1 : (Prog.mode f 0 (.nd [1, 1] [0, 0, 0, 0, 0, 0] [x, y, z])).value
      { env with tripleSort := List.insertionSort tripleLe } = .ok (.mat f ⟨1, 1, [0, 1], [0], [x + y + z]⟩) := by
    cases f <;> rfl
  have v2 : (Prog.mode f 0 (.nd [1, 1] [0, 0, 0, 0, 0, 0] [x, y, z])).value
      { env with tripleSort := fun l => List.insertionSort tripleLe l.reverse } =
      .ok (.mat f ⟨1, 1, [0, 1], [0], [z + y + x]⟩) := by
    cases f <;> rfl
  rw [v1, v2]
  intro hh
  injection hh with hh
  injection hh with _ hh
  injection hh with _ _ _ _ h5
  simp only [List.cons.injEq, and_true] at h5
  exact h h5

/-- `eliminate_zeros` of a `CSR` matrix keeps a stored `NaN` if no entry is zero (prune.rs 239–245
returns the matrix as it is) and drops it together with the zero otherwise (`|NaN| > 0` is false). -/
theorem eliminate_zeros_nan {env : PyEnv V} (he : env.Ok) {n : V} (h1 : (n == 0) = false)
    (h2 : flt 0 (fabs n) = false) (h3 : ((0 : V) == 0) = true) (h4 : flt (0 : V) 0 = false)
    (h5 : flt 0 (fabs (0 : V)) = false) {out out' : PyRes (PyObj V)}
    (h : (Prog.elimZeros (.mat .csr 1 2 [0, 1] [0] [n])).Eval env out)
    (h' : (Prog.elimZeros (.mat .csr 1 2 [0, 2] [0, 1] [n, 0])).Eval env out') :
    (∃ v : SpVal V, out = .ret v.obj ∧ v.stores = [([0, 0], n)]) ∧ ∃ v : SpVal V, out' = .ret v.obj ∧ v.stores = [] := by
  have l1 : (Prog.elimZeros (.mat .csr 1 2 [0, 1] [0] [n])).LitsOk :=
    ⟨by show ∀ i ∈ ([0] : List Int), i ≤ i64Max; decide, by simp⟩
  have l2 : (Prog.elimZeros (.mat .csr 1 2 [0, 2] [0, 1] [n, 0])).LitsOk :=
    ⟨by show ∀ i ∈ ([0, 1] : List Int), i ≤ i64Max; decide, by simp⟩
  have c1 : (Prog.mat .csr 1 2 [0, 1] [0] [n] : Prog V).check = .ok (.mat .csr 1 2) := by rfl
  have c2 : (Prog.mat .csr 1 2 [0, 2] [0, 1] [n, 0] : Prog V).check = .ok (.mat .csr 1 2) := by rfl
  have s1 : (Prog.elimZeros (.mat .csr 1 2 [0, 1] [0] [n])).Small := by
    have : Ty.SizeOk 1 (.mat .csr 1 2) := by decide
    exact ⟨this, this⟩
  have s2 : (Prog.elimZeros (.mat .csr 1 2 [0, 2] [0, 1] [n, 0])).Small := by
    have : Ty.SizeOk 2 (.mat .csr 1 2) := by decide
    exact ⟨this, this⟩
  have b1 := prog_bits he l1 s1 trivial h
  have b2 := prog_bits he l2 s2 trivial h'
  rw [show (Prog.elimZeros (.mat .csr 1 2 [0, 1] [0] [n])).check = .ok (.mat .csr 1 2) from rfl] at b1
  rw [show (Prog.elimZeros (.mat .csr 1 2 [0, 2] [0, 1] [n, 0])).check = .ok (.mat .csr 1 2) from rfl] at b2
  obtain ⟨v, v1, -, -, v4⟩ := b1
  obtain ⟨w, w1, -, -, w4⟩ := b2
  refine ⟨⟨v, v1, v4.trans ?_⟩, w, w1, w4.trans ?_⟩
  · show pruneBits (Prog.mat .csr 1 2 [0, 1] [0] [n]).compressed 0 [([0, 0], n)] = _
    rw [Prog.compressed_ok c1]
    simp [pruneBits, Ty.compressed, h1, h3, h4]
  · show pruneBits (Prog.mat .csr 1 2 [0, 2] [0, 1] [n, 0]).compressed 0 [([0, 0], n), ([0, 1], 0)] = _
    rw [Prog.compressed_ok c2]
    simp [pruneBits, Ty.compressed, h1, h2, h3, h4, h5]

/-! ### a machine with rounding -/

/-- Numbers between -8 and 8; larger results are cut off, so that addition is not associative. -/
structure Sat where
  n : Int
deriving DecidableEq

namespace Sat
def cut (i : Int) : Sat := ⟨max (-8) (min 8 i)⟩
instance : Zero Sat := ⟨⟨0⟩⟩
instance : One Sat := ⟨⟨1⟩⟩
instance : Add Sat := ⟨fun a b => cut (a.n + b.n)⟩
instance : Sub Sat := ⟨fun a b => cut (a.n - b.n)⟩
instance : Mul Sat := ⟨fun a b => cut (a.n * b.n)⟩
instance : Div Sat := ⟨fun a b => cut (a.n / b.n)⟩
instance : Neg Sat := ⟨fun a => ⟨-a.n⟩⟩
instance : NatCast Sat := ⟨fun k => cut k⟩
instance : HasFinite Sat := ⟨fun a => -8 < a.n && a.n < 8⟩
instance : HasFloor Sat := ⟨id⟩
instance : HasPowf Sat := ⟨fun a b => cut (a.n ^ b.n.toNat)⟩
instance : HasAbs Sat := ⟨fun a => cut a.n.natAbs⟩
instance : HasLt Sat := ⟨fun a b => a.n < b.n⟩
instance : HasNan Sat := ⟨fun _ => false, ⟨0⟩⟩
end Sat

/-- The machine of C73, with `threads` threads. -/
def exEnvSat (dbg : Bool) (threads : Nat) : PyEnv Sat :=
  ⟨dbg, threads, List.insertionSort pairLe, List.insertionSort tripleLe, fun l => l.mergeSort (fun a b => decide (a.1 ≤ b.1)),
    fun la lb => (la.filter fun k => lb.contains k).dedup⟩

theorem exEnvSat_ok (dbg : Bool) {threads : Nat} (h : threads < 2 ^ 60) : (exEnvSat dbg threads).Ok :=
  ⟨isPairSort_insertionSort, isTripleSort_insertionSort, isSort_mergeSort, isCommonKeys_filter, h⟩

/-- `COOND((2, 2), …) * COOND((2,), …)` with coordinates stored several times, reduced over an axis. -/
def exSat : Prog Sat :=
  .ndop .reduceSum [0] (.bin .mul (.nd [2, 2] [0, 1, 1, 0, 0, 1, 0, 1] [⟨5⟩, ⟨-2⟩, ⟨7⟩, ⟨-6⟩]) (.nd [2] [0, 1, 1] [⟨3⟩, ⟨1⟩, ⟨2⟩]))

theorem exSat_lits : exSat.LitsOk := by
  have h1 : ∀ k < 4, ∀ d (h : d < [2, 2].length), 0 ≤ ([0, 1, 1, 0, 0, 1, 0, 1] : List Int).getD (k * 2 + d) 0 ∧
      ([0, 1, 1, 0, 0, 1, 0, 1] : List Int).getD (k * 2 + d) 0 < (([2, 2] : List Nat)[d] : Nat) := by decide
  have h2 : ∀ k < 3, ∀ d (h : d < [2].length), 0 ≤ ([0, 1, 1] : List Int).getD (k * 1 + d) 0 ∧
      ([0, 1, 1] : List Int).getD (k * 1 + d) 0 < (([2] : List Nat)[d] : Nat) := by decide
  refine ⟨⟨by decide, ⟨by decide, rfl, h1⟩, ?_⟩, by decide, ⟨by decide, rfl, h2⟩, ?_⟩
  · show ∀ i ∈ ([0, 1, 1, 0, 0, 1, 0, 1] : List Int), i ≤ i64Max; decide
  · show ∀ i ∈ ([0, 1, 1] : List Int), i ≤ i64Max; decide

/-- The products at (0, 1) are 5, 8, 7, 8, -6, -8, added in this order with the cut-off: 8 at the end
of the positive ones, then 2, then -6. -/
example (dbg : Bool) {out : PyRes (PyObj Sat)} (h : exSat.Eval (exEnvSat dbg 4) out) :
    ∃ v : SpVal Sat, out = .ret v.obj ∧ v.Valid ∧ v.ty = .nd [2] ∧ v.stores = [([0], ⟨-6⟩), ([1], ⟨-6⟩)] := by
  have := prog_bits (exEnvSat_ok dbg (by decide)) exSat_lits (by decide +kernel) ⟨⟨trivial, trivial⟩, trivial⟩ h
  rw [show exSat.check = .ok (.nd [2]) by decide +kernel] at this
  rw [show exSat.stores = [([0], ⟨-6⟩), ([1], ⟨-6⟩)] by decide +kernel] at this
  exact this

example (out : PyRes (PyObj Sat)) : exSat.Eval (exEnvSat true 1) out ↔ exSat.Eval (exEnvSat false 64) out :=
  prog_reproducible (exEnvSat_ok _ (by decide)) (exEnvSat_ok _ (by decide)) exSat_lits (by decide +kernel)
    ⟨⟨trivial, trivial⟩, trivial⟩ out

/-- Two matrices. -/
def exSatA : Prog Sat := .mat .csc 2 3 [0, 2, 2, 3] [0, 1, 1] [⟨7⟩, ⟨-3⟩, ⟨4⟩]
def exSatB : Prog Sat := .mat .csc 2 3 [0, 1, 1, 3] [0, 0, 1] [⟨6⟩, ⟨2⟩, ⟨-4⟩]
theorem exSatA_lits : exSatA.LitsOk := ⟨by show ∀ i ∈ ([0, 1, 1] : List Int), i ≤ i64Max; decide, fun _ => ⟨_, rfl⟩⟩
theorem exSatB_lits : exSatB.LitsOk := ⟨by show ∀ i ∈ ([0, 0, 1] : List Int), i ≤ i64Max; decide, fun _ => ⟨_, rfl⟩⟩

example (out : PyRes (PyObj Sat)) :
    (Prog.T (.bin .add exSatA exSatB)).Eval (exEnvSat true 1) out ↔
      (Prog.bin .add (.T exSatA) (.T exSatB)).Eval (exEnvSat false 8) out :=
  transpose_bin_bits (exEnvSat_ok _ (by decide)) (exEnvSat_ok _ (by decide)) .add exSatA_lits exSatB_lits
    (by decide +kernel) (by decide +kernel) trivial trivial (f := .csc) (r := 2) (c := 3) (by decide +kernel) (by decide +kernel) out
example (out : PyRes (PyObj Sat)) : (Prog.T (.T exSatA)).Eval (exEnvSat true 1) out ↔ exSatA.Eval (exEnvSat false 8) out :=
  transpose_twice_bits (exEnvSat_ok _ (by decide)) (exEnvSat_ok _ (by decide)) exSatA_lits
    (by decide +kernel) trivial (f := .csc) (r := 2) (c := 3) (by decide +kernel) out
example (out : PyRes (PyObj Sat)) : (Prog.prune ⟨3⟩ (.prune ⟨3⟩ exSatA)).Eval (exEnvSat true 1) out ↔
    (Prog.prune ⟨3⟩ exSatA).Eval (exEnvSat false 8) out :=
  prune_twice_bits (exEnvSat_ok _ (by decide)) (exEnvSat_ok _ (by decide)) _ exSatA_lits (by decide +kernel) trivial out
example (out : PyRes (PyObj Sat)) : (Prog.ndop .reshape [2] (.ndop .reshape [1, 2] exSat)).Eval (exEnvSat true 1) out ↔
    (Prog.ndop .reshape [2] exSat).Eval (exEnvSat false 8) out :=
  reshape_twice_bits (exEnvSat_ok _ (by decide)) (exEnvSat_ok _ (by decide)) exSat_lits (by decide +kernel) (by decide +kernel)
    ⟨⟨trivial, trivial⟩, trivial⟩ (u := [2]) (v := [1, 2]) (w := [2]) (by decide +kernel) (by decide +kernel) (by decide +kernel) out
example : (SpVal.mat .csr (⟨1, 2, [0, 1], [1], [⟨3⟩]⟩ : Comp Sat)).stores = [([0, 1], ⟨3⟩)] := by decide +kernel
example : (⟨5⟩ : Sat) + ⟨5⟩ + ⟨-5⟩ ≠ ⟨-5⟩ + ⟨5⟩ + ⟨5⟩ := by decide +kernel

section
/-- `none` is `NaN`. -/
local instance : Zero (Option Sat) := ⟨some 0⟩
local instance : HasAbs (Option Sat) := ⟨Option.map fabs⟩
local instance : HasLt (Option Sat) := ⟨fun a b => match a, b with | some x, some y => flt x y | _, _ => false⟩
example : ((none : Option Sat) == 0) = false ∧ flt 0 (fabs (none : Option Sat)) = false ∧ ((0 : Option Sat) == 0) = true ∧
    flt (0 : Option Sat) 0 = false ∧ flt 0 (fabs (0 : Option Sat)) = false := by decide +kernel
end

end Lacuna
