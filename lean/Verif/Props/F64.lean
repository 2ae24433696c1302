import Verif.Lemmas.F64
import Verif.Props.PyAny
import Verif.Props.PyRead
import Verif.Props.PyDot
import Verif.Props.PyScanAny
/-
C88: the arithmetic of the kernels is IEEE 754 binary64.  `F64` satisfies the laws assumed by the
theorems about rounding, `NaN` and signed zeros, so these hold for it; and programs over compressed
matrices compute what NumPy computes with dense arrays, element by element.
-/
set_option linter.unusedSectionVars false

namespace Lacuna

/-! ### the operations return a nearest number -/

/-- C88: unless they overflow, sum, difference, product, quotient and fused product of finite numbers are
finite, and no binary64 number is closer to the exact result. -/
theorem f64_nearest {a b c : F64} (ha : a.IsFin) (hb : b.IsFin) (hc : c.IsFin) :
    (|a.val + b.val| ≤ max64 → (a + b).IsFin ∧ ∀ q, B64.Rep q → |(a + b).val - (a.val + b.val)| ≤ |q - (a.val + b.val)|) ∧
    (|a.val - b.val| ≤ max64 → (a - b).IsFin ∧ ∀ q, B64.Rep q → |(a - b).val - (a.val - b.val)| ≤ |q - (a.val - b.val)|) ∧
    (|a.val * b.val| ≤ max64 → (a * b).IsFin ∧ ∀ q, B64.Rep q → |(a * b).val - a.val * b.val| ≤ |q - a.val * b.val|) ∧
    (b.val ≠ 0 → |a.val / b.val| ≤ max64 →
      (a / b).IsFin ∧ ∀ q, B64.Rep q → |(a / b).val - a.val / b.val| ≤ |q - a.val / b.val|) ∧
    (|a.val * b.val + c.val| ≤ max64 → (mulAdd a b c).IsFin ∧
      ∀ q, B64.Rep q → |(mulAdd a b c).val - (a.val * b.val + c.val)| ≤ |q - (a.val * b.val + c.val)|) := by
  refine ⟨fun h => ?_, fun h => ?_, fun h => ?_, fun h0 h => ?_, fun h => ?_⟩
  · obtain ⟨h1, h2⟩ := F64.add_rnd ha hb h
    exact ⟨h1, fun q hq => by rw [h2]; exact B64.rnd64_nearest _ hq⟩
  · obtain ⟨h1, h2⟩ := F64.sub_rnd ha hb h
    exact ⟨h1, fun q hq => by rw [h2]; exact B64.rnd64_nearest _ hq⟩
  · obtain ⟨h1, h2⟩ := F64.mul_rnd ha hb h
    exact ⟨h1, fun q hq => by rw [h2]; exact B64.rnd64_nearest _ hq⟩
  · obtain ⟨h1, h2⟩ := F64.div_rnd ha hb h0 h
    exact ⟨h1, fun q hq => by rw [h2]; exact B64.rnd64_nearest _ hq⟩
  · obtain ⟨h1, h2⟩ := F64.fma_rnd ha hb hc h
    exact ⟨h1, fun q hq => by rw [h2]; exact B64.rnd64_nearest _ hq⟩

/-! ### programs -/

section
variable [HasPowf F64]

theorem f64_keep (v : F64) : SameNum ((if v == 0 then none else some v).getD 0) v := by
  by_cases h : (v == 0) = true
  · rw [if_pos h]; exact .inr ⟨rfl, h⟩
  · rw [if_neg h]; exact .inl rfl

theorem f64_union {fb : F64 → F64 → F64} (hfb : ∀ {a b c : F64}, SameNum a b → SameNum (fb a c) (fb b c))
    (h0 : ∀ x : F64, SameNum (fb x 0) x) (p q : Option F64) :
    SameNum ((unionCell fb p q).getD 0) (fb (p.getD 0) (q.getD 0)) := by
  cases p with
  | none =>
    cases q with
    | none => exact F64.same_symm (h0 0)
    | some y => exact f64_keep _
  | some x =>
    have hx : SameNum (0 + x) x := F64.same_zero_add false x
    cases q with
    | none =>
      refine F64.same_trans (f64_keep (0 + x)) (F64.same_trans hx (F64.same_symm (h0 x)))
    | some y => exact F64.same_trans (f64_keep _) (hfb hx)

theorem f64_inter {cell : F64 → F64 → Option F64} {g : F64 → F64 → F64} {p q : Option F64}
    (h1 : ∀ x y, p = some x → q = some y → SameNum ((cell (0 + x) (0 + y)).getD 0) (g x y))
    (h2 : p = none ∨ q = none → SameNum (g (p.getD 0) (q.getD 0)) 0) :
    SameNum ((interCell cell p q).getD 0) (g (p.getD 0) (q.getD 0)) := by
  cases p with
  | none => exact F64.same_symm (h2 (.inl rfl))
  | some x =>
    cases q with
    | none => exact F64.same_symm (h2 (.inr rfl))
    | some y => exact h1 x y rfl rfl

/-- One operator on two cells. -/
theorem f64_bits_add (p q : Option F64) : SameNum ((BinOp.add.bits p q).getD 0) (p.getD 0 + q.getD 0) :=
  f64_union (fb := fun x y => x + y) (fun h => F64.same_add_left h _)
    (fun x => by rw [F64.add_comm]; exact F64.same_zero_add false x) p q

theorem f64_bits_sub (p q : Option F64) : SameNum ((BinOp.sub.bits p q).getD 0) (p.getD 0 - q.getD 0) :=
  f64_union (fb := fun x y => x - y) (fun h => F64.same_sub h (F64.same_refl _)) (fun x => F64.subLaws.sub_zero 0 x rfl) p q

theorem f64_bits_mul {p q : Option F64} (hp : (p.getD 0).IsFin) (hq : (q.getD 0).IsFin) :
    SameNum ((BinOp.mul.bits p q).getD 0) (p.getD 0 * q.getD 0) := by
  refine f64_inter (cell := fun x y => if x * y == 0 then none else some (x * y)) (g := fun x y => x * y) (fun x y _ _ => ?_) ?_
  · exact F64.same_trans (f64_keep _) (F64.same_mul (F64.same_zero_add false x) (F64.same_zero_add false y))
  · rintro (rfl | rfl)
    · exact F64.zero_mul_same hq false
    · exact F64.mul_zero_same hp false

theorem f64_finite {v : F64} : isFinite v = true ↔ v.IsFin := by
  cases v <;> first | exact ⟨fun h => (by cases h), fun h => h.elim⟩ | exact ⟨fun _ => trivial, fun _ => rfl⟩

theorem f64_orZero {v : F64} (h : v.IsFin) : v.orZero = v := by
  cases v <;> first | exact h.elim | rfl

theorem f64_orZero_not {v : F64} (h : ¬ v.IsFin) : v.orZero = 0 := by
  cases v <;> first | rfl | exact (h trivial).elim

theorem f64_same_orZero {a b : F64} (h : SameNum a b) : SameNum a.orZero b.orZero := by
  rcases F64.same_iff.1 h with rfl | ⟨⟨s, rfl⟩, t, rfl⟩
  · exact F64.same_refl _
  · exact F64.zero_same _ _

theorem f64_keepFinite (v : F64) : SameNum ((keepFinite isFinite v).getD 0) v.orZero := by
  unfold keepFinite
  by_cases h : v.IsFin
  · rw [f64_finite.2 h, f64_orZero h]
    exact f64_keep v
  · rw [f64_orZero_not h, Bool.eq_false_iff.2 fun e => h (f64_finite.1 e)]
    cases (v == 0) <;> exact F64.same_refl _

/-- What the three operators with quotients compute from two numbers. -/
structure QuotLike (g : F64 → F64 → F64) : Prop where
  zero_right : ∀ x s, ¬ (g x (.zero s)).IsFin
  same : ∀ {x x' : F64} (y : F64), SameNum x x' → SameNum (g x y) (g x' y)
  zero_left : ∀ s y, SameNum (g (.zero s) y).orZero 0

theorem QuotLike.congr {g : F64 → F64 → F64} (hg : QuotLike g) {x x' y y' : F64} (hx : SameNum x x') (hy : SameNum y y') :
    SameNum (g x y).orZero (g x' y').orZero := by
  rcases F64.same_iff.1 hy with rfl | ⟨⟨s, rfl⟩, t, rfl⟩
  · exact f64_same_orZero (hg.same _ hx)
  · rw [f64_orZero_not (hg.zero_right _ _), f64_orZero_not (hg.zero_right _ _)]
    exact F64.same_refl _

theorem QuotLike.bits {g : F64 → F64 → F64} (hg : QuotLike g) (p q : Option F64) :
    SameNum ((interCell (fun x y => if y == 0 then none else keepFinite isFinite (g x y)) p q).getD 0) (g (p.getD 0) (q.getD 0)).orZero := by
  refine f64_inter (cell := fun x y => if y == 0 then none else keepFinite isFinite (g x y)) (g := fun x y => (g x y).orZero)
    (fun x y _ _ => ?_) ?_
  · refine F64.same_trans ?_ (hg.congr (F64.same_zero_add false x) (F64.same_zero_add false y))
    show SameNum (Option.getD (if (0 + y == 0) = true then none else keepFinite isFinite (g (0 + x) (0 + y))) 0) (g (0 + x) (0 + y)).orZero
    by_cases h0 : (0 + y == 0) = true
    · rw [if_pos h0]
      obtain ⟨s, hs⟩ := F64.eq_zero_iff.1 h0
      rw [hs, f64_orZero_not (hg.zero_right _ _)]
      exact F64.same_refl _
    · rw [if_neg h0]
      exact f64_keepFinite _
  · rintro (rfl | rfl)
    · exact hg.zero_left false _
    · show SameNum (g _ (.zero false)).orZero 0
      rw [f64_orZero_not (hg.zero_right _ _)]
      exact F64.same_refl _

theorem F64.same_flr {a b : F64} (h : SameNum a b) : SameNum a.flr b.flr := by
  rcases F64.same_iff.1 h with rfl | ⟨⟨s, rfl⟩, t, rfl⟩
  · exact F64.same_refl _
  · exact F64.zero_same _ _

theorem quotLike_div : QuotLike fun x y => x / y where
  zero_right x s := by cases x <;> exact id
  same y h := F64.same_div h y
  zero_left s y := by cases y <;> first | exact F64.same_refl _ | exact F64.zero_same _ _

theorem quotLike_floordiv : QuotLike fun x y => (x / y).flr where
  zero_right x s := by cases x <;> exact id
  same y h := F64.same_flr (F64.same_div h y)
  zero_left s y := by cases y <;> first | exact F64.same_refl _ | exact F64.zero_same _ _

theorem quotLike_rem : QuotLike fun x y => x - y * (x / y).flr where
  zero_right x s := by cases x <;> exact id
  same y h := F64.same_sub h (F64.same_mul (F64.same_refl y) (F64.same_flr (F64.same_div h y)))
  zero_left s y := by cases y <;> first | exact F64.same_refl _ | exact F64.zero_same _ _

theorem f64_bits_div (p q : Option F64) : SameNum ((BinOp.div.bits p q).getD 0) (p.getD 0 / q.getD 0).orZero := quotLike_div.bits p q
theorem f64_bits_floordiv (p q : Option F64) : SameNum ((BinOp.floordiv.bits p q).getD 0) (p.getD 0 / q.getD 0).flr.orZero :=
  quotLike_floordiv.bits p q
theorem f64_bits_rem (p q : Option F64) :
    SameNum ((BinOp.rem.bits p q).getD 0) (p.getD 0 - q.getD 0 * (p.getD 0 / q.getD 0).flr).orZero := quotLike_rem.bits p q

theorem f64_scale {alpha v : F64} (ha : alpha.IsFin) (h : (alpha == 0) = true → v.IsFin) : SameNum (scaleBits alpha v) (v * alpha) := by
  unfold scaleBits
  by_cases h1 : (alpha == 1) = true
  · rw [if_pos h1]
    have : alpha = 1 := by
      rw [F64.one_eq] at h1 ⊢
      cases alpha with
      | num x => rw [F64.num.injEq]; exact Subtype.ext (of_decide_eq_true h1)
      | _ => cases h1
    rw [this, F64.mul_one]
    exact F64.same_refl _
  · rw [if_neg h1]
    by_cases h0 : (alpha == 0) = true
    · rw [if_pos h0]
      obtain ⟨s, rfl⟩ := F64.eq_zero_iff.1 h0
      exact F64.same_symm (F64.mul_zero_same (h h0) s)
    · rw [if_neg h0]
      exact F64.same_refl _

theorem f64_scale_ne {alpha : F64} (h0 : (alpha == 0) = false) (v : F64) : scaleBits alpha v = v * alpha := by
  unfold scaleBits
  by_cases h1 : (alpha == 1) = true
  · rw [if_pos h1]
    have : alpha = 1 := by
      rw [F64.one_eq] at h1 ⊢
      cases alpha with
      | num x => rw [F64.num.injEq]; exact Subtype.ext (of_decide_eq_true h1)
      | _ => cases h1
    rw [this, F64.mul_one]
  · rw [if_neg h1, h0]
    rfl

/-- C88: `negative(x)` flips the sign of every stored number (zeros and infinities too), and nothing else. -/
theorem f64_negative (v : F64) : UnOp.neg.bits v = -v := by
  show scaleBits (-1) v = -v
  rw [f64_scale_ne F64.neg_one_ne.2, F64.mul_neg_one]

theorem f64_sign (v : F64) : UnOp.sign.bits v = v.signum := by
  show (if isNan v then nan else if flt 0 v then 1 else if flt v 0 then -1 else 0) = _
  cases v with
  | nan => rfl
  | inf s => cases s <;> rfl
  | zero s => rfl
  | num x =>
    show (if decide (0 < x.1) = true then (1 : F64) else if decide (x.1 < 0) = true then -1 else 0) =
      if decide (x.1 < 0) = true then -1 else 1
    rcases lt_trichotomy x.1 0 with h | h | h
    · simp [h, le_of_lt h]
    · exact absurd h x.2.2
    · simp [h, le_of_lt h]

/-- The cells of a program of a compressed class after an operation on every stored entry. -/
theorem total_mapped {env : PyEnv F64} (he : env.Ok) {a : Prog F64} (hl : a.LitsOk) (hs : a.Small) (hd : a.Determined)
    {f : Fmt} {r c : Nat} (ha : a.check = .ok (.mat f r c)) (g : F64 → F64) {x : List Int} (hx : InBounds [r, c] x) :
    total (a.stores.map fun e => (e.1, g e.2)) x = (total a.stores x).map g := by
  have h := stores_canonical he hl hs hd ha
  have e : (a.stores.map fun e => (e.1, g e.2)) = tabulate (Ty.mat f r c).order fun y => (total a.stores y).map g := by
    conv_lhs => rw [h]
    unfold tabulate
    rw [List.map_filterMap]
    apply List.filterMap_congr
    intro y _
    show _ = Option.map _ (Option.map g (total a.stores y))
    cases total a.stores y <;> rfl
  rw [e, total_tabulate (order_nodup _ _ _) (mem_order.2 hx)]

theorem Prog.AsDense.determined : ∀ {e : Prog F64}, e.AsDense → e.Determined
  | .mat .., _ => trivial
  | .coo .., h => h.elim
  | .nd .., h => h.elim
  | .un op a, h => Prog.AsDense.determined (e := a) h
  | .bin op a b, h => by cases op with
    | add => exact ⟨Prog.AsDense.determined h.1, Prog.AsDense.determined h.2⟩
    | sub => exact ⟨Prog.AsDense.determined h.1, Prog.AsDense.determined h.2⟩
    | mul => exact ⟨Prog.AsDense.determined h.1, Prog.AsDense.determined h.2.1⟩
    | div => exact ⟨Prog.AsDense.determined h.1, Prog.AsDense.determined h.2⟩
    | floordiv => exact ⟨Prog.AsDense.determined h.1, Prog.AsDense.determined h.2⟩
    | rem => exact ⟨Prog.AsDense.determined h.1, Prog.AsDense.determined h.2⟩
    | _ => exact h.elim
  | .scalar op a _, h => by cases op with
    | mul => exact Prog.AsDense.determined (e := a) h.1
    | div => exact Prog.AsDense.determined (e := a) h.1
    | floordiv => exact Prog.AsDense.determined (e := a) h.1
    | rem => exact Prog.AsDense.determined (e := a) h.1
    | _ => exact h.elim
  | .left op _ a, h => by cases op with
    | mul => exact Prog.AsDense.determined (e := a) h.1
    | _ => exact h.elim
  | .T a, h => Prog.AsDense.determined (e := a) h
  | .prune _ a, h => Prog.AsDense.determined (e := a) h.1
  | .elimZeros a, h => Prog.AsDense.determined (e := a) h.1
  | .ndop .., h => h.elim
  | .mode .., h => h.elim

/-- The cells of a program of a compressed class some of whose stored entries are removed. -/
theorem total_filtered {env : PyEnv F64} (he : env.Ok) {a : Prog F64} (hl : a.LitsOk) (hs : a.Small) (hd : a.Determined)
    {f : Fmt} {r c : Nat} (ha : a.check = .ok (.mat f r c)) (g : F64 → Bool) {x : List Int} (hx : InBounds [r, c] x) :
    total (a.stores.filter fun e => g e.2) x = (total a.stores x).filter g := by
  have h := stores_canonical he hl hs hd ha
  have e : (a.stores.filter fun e => g e.2) = tabulate (Ty.mat f r c).order fun y => (total a.stores y).filter g := by
    conv_lhs => rw [h]
    unfold tabulate
    rw [List.filter_filterMap]
    apply List.filterMap_congr
    intro y _
    show Option.filter _ (Option.map _ (total a.stores y)) = Option.map _ (Option.filter g (total a.stores y))
    cases total a.stores y with
    | none => rfl
    | some v => cases h2 : g v <;> simp [Option.filter, h2]
  rw [e, total_tabulate (order_nodup _ _ _) (mem_order.2 hx)]

theorem f64_abs_pos {v : F64} (hn : isNan v = false) (h0 : (v == 0) = false) : flt 0 (fabs v) = true := by
  cases v with
  | nan => cases hn
  | inf s => cases s <;> rfl
  | zero s => cases h0
  | num x =>
    show F64.lt (.zero false) (F64.abs (.num x)) = true
    unfold F64.abs
    by_cases hx : x.1 < 0
    · rw [if_pos (by simpa [F64.sign] using hx)]
      show decide (0 < -x.1) = true
      simpa using hx
    · rw [if_neg (by simpa [F64.sign] using hx)]
      show decide (0 < x.1) = true
      have := x.2.2
      simp only [decide_eq_true_eq]
      exact lt_of_le_of_ne (not_lt.1 hx) (Ne.symm this)

theorem f64_abs_zero_lt {v : F64} (h0 : (v == 0) = true) : flt 0 (fabs v) = false := by
  obtain ⟨s, rfl⟩ := F64.eq_zero_iff.1 h0
  cases s <;> rfl

theorem same_nan {a b : F64} (h : SameNum a b) : isNan a = isNan b := by
  rcases F64.same_iff.1 h with rfl | ⟨⟨s, rfl⟩, t, rfl⟩ <;> rfl

theorem same_lt_abs {a b eps : F64} (h : SameNum a b) : flt eps (fabs a) = flt eps (fabs b) := by
  rcases F64.same_iff.1 h with rfl | ⟨⟨s, rfl⟩, t, rfl⟩
  · rfl
  · cases s <;> cases t <;> rfl

/-- The cells of a pruned program without `NaN`. -/
theorem f64_pruned {env : PyEnv F64} (he : env.Ok) {a : Prog F64} (hl : a.LitsOk) (hs : a.Small) (hd : a.Determined)
    {f : Fmt} {r c : Nat} (ha : a.check = .ok (.mat f r c)) (eps : F64)
    (h : ∀ x, InBounds [r, c] x → SameNum ((total a.stores x).getD 0) (a.dense x))
    (hn : ∀ x, InBounds [r, c] x → isNan (a.dense x) = false) {x : List Int} (hx : InBounds [r, c] x) :
    SameNum ((total (pruneBits a.compressed eps a.stores) x).getD 0)
      (if flt eps 0 || flt eps (fabs (a.dense x)) then a.dense x else 0) := by
  have h1 := h x hx
  have hn := hn x hx
  unfold pruneBits
  by_cases h0 : flt eps 0 = true
  · rw [if_pos h0, h0]
    exact h1
  rw [if_neg h0, Bool.eq_false_iff.2 h0, Bool.false_or]
  by_cases hz : (a.compressed && eps == 0 && !(a.stores.any fun e => e.2 == 0)) = true
  · rw [if_pos hz]
    refine F64.same_trans h1 ?_
    have he0 : (eps == 0) = true := by
      simp only [Bool.and_eq_true] at hz
      exact hz.1.2
    obtain ⟨s, rfl⟩ := F64.eq_zero_iff.1 he0
    have e0 : flt (F64.zero s) (fabs (a.dense x)) = flt 0 (fabs (a.dense x)) := by
      generalize fabs (a.dense x) = w
      cases w <;> rfl
    rw [e0]
    cases hv : (a.dense x == 0) with
    | true => rw [f64_abs_zero_lt hv]; exact .inr ⟨hv, rfl⟩
    | false => rw [f64_abs_pos hn hv]; exact F64.same_refl _
  · rw [if_neg hz, total_filtered he hl hs hd ha (fun v => flt eps (fabs v)) hx]
    generalize total a.stores x = p at h1 ⊢
    cases p with
    | none =>
      split
      · exact h1
      · exact F64.same_refl _
    | some v =>
      have h1 : SameNum v (a.dense x) := h1
      rw [← same_lt_abs (eps := eps) h1]
      cases hv : flt eps (fabs v) with
      | true => simp only [Option.filter, hv, if_true]; exact h1
      | false => simp only [Option.filter, hv]; exact F64.same_refl _

theorem check_pruned {a : Prog F64} {τ : Ty} (hc : (a.check.bind fun t => Ty.prune t) = .ok τ) : a.check = .ok τ := by
  cases ha : a.check with
  | error x => rw [ha] at hc; cases hc
  | ok t =>
    rw [ha] at hc
    cases t with
    | nd s => cases hc
    | _ => exact hc

theorem f64_cells {env : PyEnv F64} (he : env.Ok) : ∀ {e : Prog F64}, e.LitsOk → e.Small → e.AsDense → ∀ {τ : Ty}, e.check = .ok τ →
    ∃ f r c, τ = .mat f r c ∧ ∀ x, InBounds [r, c] x → SameNum ((total e.stores x).getD 0) (e.dense x) := by
  intro e
  induction e with
  | mat f nrows ncols indptr indices data =>
    intro hl hs hd τ hc
    unfold Prog.check at hc
    split at hc
    · cases hc
      exact ⟨f, _, _, rfl, fun x _ => F64.same_refl _⟩
    · cases hc
  | coo => intro _ _ hd; exact hd.elim
  | nd => intro _ _ hd; exact hd.elim
  | un op a ih =>
    intro hl hs hd τ hc
    obtain ⟨f, r, c, rfl, h⟩ := ih hl hs.1 hd (τ := τ) hc
    refine ⟨f, r, c, rfl, fun x hx => ?_⟩
    show SameNum ((total (a.stores.map fun e => (e.1, op.bits e.2)) x).getD 0) _
    rw [total_mapped he (a := a) hl hs.1 (Prog.AsDense.determined (e := a) hd) hc op.bits hx]
    have hx := h x hx
    have h0 : ((total a.stores x).map op.bits).getD 0 = op.bits ((total a.stores x).getD 0) ∨
        SameNum (((total a.stores x).map op.bits).getD 0) (op.bits ((total a.stores x).getD 0)) := by
      cases total a.stores x with
      | some v => exact .inl rfl
      | none =>
        right
        cases op with
        | abs => exact F64.same_refl _
        | neg => rw [f64_negative]; exact F64.zero_same _ _
        | sign => rw [f64_sign]; exact F64.same_refl _
    have h0 : SameNum (((total a.stores x).map op.bits).getD 0) (op.bits ((total a.stores x).getD 0)) :=
      h0.elim (fun h => .inl h) id
    refine F64.same_trans h0 ?_
    cases op with
    | abs => exact F64.same_abs hx
    | neg => rw [f64_negative]; exact F64.same_neg hx
    | sign => rw [f64_sign]; exact F64.same_signum hx
  | bin op a b iha ihb =>
    intro hl hs hd τ hc
    have had : a.AsDense ∧ b.AsDense := by
      cases op with
      | add => exact hd
      | sub => exact hd
      | mul => exact ⟨hd.1, hd.2.1⟩
      | div => exact hd
      | floordiv => exact hd
      | rem => exact hd
      | _ => exact hd.elim
    have hc : (a.check.bind fun t => b.check.bind fun u => Ty.bin op t u) = .ok τ := hc
    cases ha : a.check with
    | error x => rw [ha] at hc; cases hc
    | ok t =>
      cases hb : b.check with
      | error x => rw [ha, hb] at hc; cases hc
      | ok u =>
        rw [ha, hb] at hc
        obtain ⟨f, r, c, rfl, h1⟩ := iha hl.1 hs.1 had.1 ha
        obtain ⟨g, r', c', rfl, h2⟩ := ihb hl.2 hs.2.1 had.2 hb
        have hc : (if f ≠ g then Except.error PyErr.notImplemented
          else if r = r' ∧ c = c' then .ok (.mat f r c) else .error .panic) = .ok τ := hc
        by_cases hfg : f ≠ g
        · rw [if_pos hfg] at hc; cases hc
        rw [if_neg hfg] at hc
        by_cases hrc : r = r' ∧ c = c'
        · rw [if_pos hrc] at hc
          have hτ : Ty.mat f r c = τ := Except.ok.inj hc
          subst hτ
          obtain ⟨rfl, rfl⟩ := hrc
          have hfg : f = g := not_not.1 hfg
          subst hfg
          refine ⟨f, r, c, rfl, fun x hx => ?_⟩
          rw [stores_of_bin op ha hb, total_tabulate (order_nodup _ _ _) (mem_order.2 hx)]
          have h1 := h1 x hx
          have h2 := h2 x hx
          have hsx : InBounds a.shape x := by rw [Prog.shape_ok ha]; exact hx
          generalize total a.stores x = p at h1 ⊢
          generalize total b.stores x = q at h2 ⊢
          cases op with
          | add => exact F64.same_trans (f64_bits_add p q) (F64.same_add h1 h2)
          | sub => exact F64.same_trans (f64_bits_sub p q) (F64.same_sub h1 h2)
          | mul =>
            obtain ⟨k1, k2⟩ := hd.2.2 x hsx
            exact F64.same_trans (f64_bits_mul (F64.same_fin h1 k1) (F64.same_fin h2 k2)) (F64.same_mul h1 h2)
          | div => exact F64.same_trans (f64_bits_div p q) (quotLike_div.congr h1 h2)
          | floordiv => exact F64.same_trans (f64_bits_floordiv p q) (quotLike_floordiv.congr h1 h2)
          | rem => exact F64.same_trans (f64_bits_rem p q) (quotLike_rem.congr h1 h2)
          | _ => exact hd.elim
        · rw [if_neg hrc] at hc; cases hc
  | scalar op a alpha ih =>
    intro hl hs hd τ hc
    have had : a.AsDense := by
      cases op with
      | mul => exact hd.1
      | div => exact hd.1
      | floordiv => exact hd.1
      | rem => exact hd.1
      | _ => exact hd.elim
    have hc : (a.check.bind fun t => Ty.scalar op (alpha == 0) t) = .ok τ := hc
    cases ha : a.check with
    | error x => rw [ha] at hc; cases hc
    | ok t =>
      rw [ha] at hc
      have hc : Ty.scalar op (alpha == 0) t = .ok τ := hc
      obtain ⟨f, r, c, rfl, h⟩ := ih hl hs.1 had ha
      have hdv : (if (alpha == 0) = true then Except.error PyErr.zeroDivision else .ok (Ty.mat f r c)) = .ok τ →
          τ = .mat f r c ∧ (alpha == 0) = false := by
        intro hc
        cases h0 : (alpha == 0) <;> rw [h0] at hc <;> cases hc
        exact ⟨rfl, rfl⟩
      have hτ : τ = .mat f r c := by
        cases op with
        | mul => cases hc; rfl
        | div => exact (hdv hc).1
        | floordiv => exact (hdv hc).1
        | rem => exact (hdv hc).1
        | _ => exact hd.elim
      refine ⟨f, r, c, hτ, fun x hx => ?_⟩
      show SameNum ((total (a.stores.map fun e => (e.1, op.scalarBits alpha e.2)) x).getD 0) _
      rw [total_mapped he (a := a) hl hs.1 (Prog.AsDense.determined had) ha (op.scalarBits alpha) hx]
      have hsx : InBounds a.shape x := by rw [Prog.shape_ok ha]; exact hx
      have hx := h x hx
      generalize total a.stores x = p at hx ⊢
      cases op with
      | mul =>
        show SameNum _ (a.dense x * alpha)
        refine F64.same_trans ?_ (F64.same_mul_left hx alpha)
        cases p with
        | none => exact F64.same_symm (F64.zero_mul_same hd.2.1 false)
        | some v => exact f64_scale hd.2.1 fun h0 => F64.same_fin hx (hd.2.2 h0 x hsx)
      | div =>
        show SameNum _ (a.dense x / alpha)
        refine F64.same_trans ?_ (F64.same_div hx alpha)
        obtain ⟨hf, k, k1, k2, hk⟩ := hd.2
        have hn : (alpha == 0) = false := by
          rw [Bool.eq_false_iff]
          intro h
          rw [F64.val_of_eq_zero _ h, abs_zero] at hk
          exact absurd hk (ne_of_gt (two_zpow_pos k)).symm
        cases p with
        | none =>
          refine F64.same_symm (F64.zero_div_same hn ?_ false)
          cases alpha <;> first | exact hf.elim | rfl
        | some v =>
          show SameNum (scaleBits (1 / alpha) v) (v / alpha)
          rw [f64_scale_ne (F64.recip_ne hd.2), F64.mul_recip hd.2]
          exact F64.same_refl _
      | floordiv =>
        show SameNum _ (a.dense x / alpha).flr
        refine F64.same_trans ?_ (F64.same_flr (F64.same_div hx alpha))
        cases p with
        | none => exact F64.same_symm (F64.same_flr (F64.zero_div_same (hdv hc).2 hd.2 false))
        | some v => exact F64.same_refl _
      | rem =>
        show SameNum _ (a.dense x - alpha * (a.dense x / alpha).flr)
        refine F64.same_trans ?_ (quotLike_rem.same alpha hx)
        cases p with
        | none =>
          have h0 := (hdv hc).2
          have hf : alpha.IsFin := hd.2
          cases alpha with
          | num y => exact F64.zero_same _ _
          | zero s => cases h0
          | _ => exact hf.elim
        | some v => exact F64.same_refl _
      | _ => exact hd.elim
  | left op alpha a ih =>
    intro hl hs hd τ hc
    have had : a.AsDense := by
      cases op with
      | mul => exact hd.1
      | _ => exact hd.elim
    have hc : (a.check.bind fun t => Ty.left op t) = .ok τ := hc
    cases ha : a.check with
    | error x => rw [ha] at hc; cases hc
    | ok t =>
      rw [ha] at hc
      have hc : Ty.left op t = .ok τ := hc
      obtain ⟨f, r, c, rfl, h⟩ := ih hl hs.1 had ha
      cases op with
      | mul =>
        cases hc
        refine ⟨f, r, c, rfl, fun x hx => ?_⟩
        show SameNum ((total (a.stores.map fun e => (e.1, scaleBits alpha e.2)) x).getD 0) (alpha * a.dense x)
        rw [total_mapped he (a := a) hl hs.1 (Prog.AsDense.determined had) ha (scaleBits alpha) hx, F64.mul_comm]
        have hsx : InBounds a.shape x := by rw [Prog.shape_ok ha]; exact hx
        have hx := h x hx
        generalize total a.stores x = p at hx ⊢
        refine F64.same_trans ?_ (F64.same_mul_left hx alpha)
        cases p with
        | none => exact F64.same_symm (F64.zero_mul_same hd.2.1 false)
        | some v => exact f64_scale hd.2.1 fun h0 => F64.same_fin hx (hd.2.2 h0 x hsx)
      | _ => exact hd.elim
  | T a ih =>
    intro hl hs hd τ hc
    have hc : (a.check.bind fun t => Ty.T t) = .ok τ := hc
    cases ha : a.check with
    | error x => rw [ha] at hc; cases hc
    | ok t =>
      rw [ha] at hc
      obtain ⟨f, r, c, rfl, h⟩ := ih hl hs.1 hd ha
      cases hc
      refine ⟨f, c, r, rfl, fun x hx => ?_⟩
      rw [total_of_T ha hx]
      exact h _ (inBounds_reverse hx)
  | prune eps a ih =>
    intro hl hs hd τ hc
    have hc : a.check = .ok τ := check_pruned hc
    obtain ⟨f, r, c, rfl, h⟩ := ih hl hs.1 hd.1 hc
    refine ⟨f, r, c, rfl, fun x hx => ?_⟩
    have hsh : a.shape = [r, c] := Prog.shape_ok hc
    exact f64_pruned he (a := a) hl hs.1 hd.1.determined hc eps h (fun y hy => hd.2 y (by rw [hsh]; exact hy)) hx
  | elimZeros a ih =>
    intro hl hs hd τ hc
    have hc : a.check = .ok τ := check_pruned hc
    obtain ⟨f, r, c, rfl, h⟩ := ih hl hs.1 hd.1 hc
    refine ⟨f, r, c, rfl, fun x hx => ?_⟩
    have hsh : a.shape = [r, c] := Prog.shape_ok hc
    refine F64.same_trans (f64_pruned he (a := a) hl hs.1 hd.1.determined hc 0 h (fun y hy => hd.2 y (by rw [hsh]; exact hy)) hx) ?_
    have hn := hd.2 x (by rw [hsh]; exact hx)
    show SameNum (if flt 0 0 || flt 0 (fabs (a.dense x)) then a.dense x else 0) (a.dense x)
    split
    · exact F64.same_refl _
    · rename_i h0
      exact .inr ⟨rfl, by
        by_contra h1
        exact h0 (by rw [f64_abs_pos hn (Bool.eq_false_iff.2 h1)]; simp)⟩
  | ndop => intro _ _ hd; exact hd.elim
  | mode => intro _ _ hd; exact hd.elim

/-- What a program stores in a cell: nothing if NumPy computes a zero there, otherwise that number. -/
def HeldAs (l : List F64) (d : F64) : Prop := (l = [] ∧ (d == 0) = true) ∨ ∃ v, l = [v] ∧ SameNum v d

theorem f64_held {env : PyEnv F64} (he : env.Ok) {e : Prog F64} (hl : e.LitsOk) (hs : e.Small) (hd : e.AsDense) {τ : Ty}
    (hc : e.check = .ok τ) : ∃ f r c, τ = .mat f r c ∧ (∀ k ∈ e.stores, InBounds [r, c] k.1) ∧
      ∀ x, InBounds [r, c] x → HeldAs (valuesAt e.stores x) (e.dense x) := by
  obtain ⟨f, r, c, rfl, h⟩ := f64_cells he hl hs hd hc
  have hcan := stores_canonical he hl hs hd.determined hc
  refine ⟨f, r, c, rfl, fun k hk => ?_, fun x hx => ?_⟩
  · rw [hcan] at hk
    exact mem_order.1 (mem_tabulate.1 hk).1
  · have hn : (e.stores.map Prod.fst).Nodup := by
      rw [hcan]
      exact (order_nodup f r c).sublist (tabulate_keys _ _)
    have h1 := valuesAt_nodup hn x
    have h2 := h x hx
    rw [total_eq_sumAll] at h2
    generalize valuesAt e.stores x = l at h1 h2
    rcases l with _ | ⟨v, _ | ⟨w, l⟩⟩
    · left
      refine ⟨rfl, ?_⟩
      rcases h2 with h2 | ⟨-, h2⟩
      · rw [← h2]; rfl
      · exact h2
    · exact .inr ⟨v, rfl, h2⟩
    · exact absurd h1 (by simp)

/-- C88: in binary64, the elements of a program over compressed matrices are determined by the elements of its
operands in the cases listed at `AsDense`: `program.toarray()` has one outcome, on every machine, and its
elements are those of `Prog.dense`, rounding, overflow, infinities and `NaN` included, up to the sign of
zeros. -/
theorem f64_toarray {env : PyEnv F64} (he : env.Ok) {e : Prog F64} (hl : e.LitsOk) (hs : e.Small) (hd : e.AsDense) {τ : Ty}
    (hc : e.check = .ok τ) : ∃ f r c d, τ = .mat f r c ∧ (∀ out, e.Toarray env out ↔ out = .ret d) ∧
      d.shape = [r, c] ∧ d.data.length = r * c ∧ ∀ x, InBounds [r, c] x → SameNum (d.elem x) (e.dense x) := by
  obtain ⟨f, r, c, rfl, -, h⟩ := f64_held he hl hs hd hc
  refine ⟨f, r, c, denseOf [r, c] e.denseCell, rfl, fun out => ?_, rfl, ?_, fun x hx => ?_⟩
  · rw [prog_toarray he hl hs hd.determined out, hc]
    rfl
  · show ((indicesOf [r, c]).map e.denseCell).length = _
    rw [List.length_map, indicesOf_length]; simp
  · rw [denseOf_elem hx]
    unfold Prog.denseCell denseCell
    rw [Prog.compressed_ok hc]
    show SameNum (if true = true then _ else _) _
    rw [if_pos rfl]
    rcases h x hx with ⟨e1, e2⟩ | ⟨v, e1, e2⟩
    · rw [e1]; exact .inr ⟨rfl, e2⟩
    · rw [e1]; exact e2

/-- A program that stays clear of the cases in which the kernels leave IEEE 754 has NumPy's elements. -/
theorem asNumpy_dense : ∀ {e : Prog F64}, e.AsNumpy → ∀ {τ : Ty}, e.check = .ok τ →
    (∃ f r c, τ = .mat f r c) ∧ e.AsDense ∧ ∀ x, InBounds τ.shape x → e.dense x = e.numpy x := by
  intro e
  induction e with
  | mat f nrows ncols indptr indices data =>
    intro hd τ hc
    refine ⟨?_, trivial, fun x _ => rfl⟩
    unfold Prog.check at hc
    split at hc
    · cases hc; exact ⟨f, _, _, rfl⟩
    · cases hc
  | coo => intro hd; exact hd.elim
  | nd => intro hd; exact hd.elim
  | un op a ih =>
    intro hd τ hc
    obtain ⟨h1, h2, h3⟩ := ih hd (τ := τ) hc
    refine ⟨h1, h2, fun x hx => ?_⟩
    have h3 := h3 x hx
    cases op <;> simp only [Prog.dense, Prog.numpy, h3]
  | bin op a b iha ihb =>
    intro hd τ hc
    have had : a.AsNumpy ∧ b.AsNumpy := by
      cases op with
      | add => exact hd
      | sub => exact hd
      | mul => exact ⟨hd.1, hd.2.1⟩
      | div => exact ⟨hd.1, hd.2.1⟩
      | _ => exact hd.elim
    have hc : (a.check.bind fun t => b.check.bind fun u => Ty.bin op t u) = .ok τ := hc
    cases ha : a.check with
    | error x => rw [ha] at hc; cases hc
    | ok t =>
      cases hb : b.check with
      | error x => rw [ha, hb] at hc; cases hc
      | ok u =>
        rw [ha, hb] at hc
        obtain ⟨⟨f, r, c, rfl⟩, a2, a3⟩ := iha had.1 ha
        obtain ⟨⟨g, r', c', rfl⟩, b2, b3⟩ := ihb had.2 hb
        have hc : (if f ≠ g then Except.error PyErr.notImplemented
          else if r = r' ∧ c = c' then .ok (.mat f r c) else .error .panic) = .ok τ := hc
        by_cases hfg : f ≠ g
        · rw [if_pos hfg] at hc; cases hc
        rw [if_neg hfg] at hc
        by_cases hrc : r = r' ∧ c = c'
        · rw [if_pos hrc] at hc
          have hτ : Ty.mat f r c = τ := Except.ok.inj hc
          subst hτ
          obtain ⟨rfl, rfl⟩ := hrc
          have hsa : a.shape = [r, c] := Prog.shape_ok ha
          have a3 : ∀ x, InBounds [r, c] x → a.dense x = a.numpy x := a3
          have b3 : ∀ x, InBounds [r, c] x → b.dense x = b.numpy x := b3
          refine ⟨⟨f, r, c, rfl⟩, ?_, fun x hx => ?_⟩
          · cases op with
            | add => exact ⟨a2, b2⟩
            | sub => exact ⟨a2, b2⟩
            | mul =>
              refine ⟨a2, b2, fun x hx => ?_⟩
              have hx' := hx
              rw [hsa] at hx'
              rw [a3 x hx', b3 x hx']
              exact hd.2.2 x hx
            | div => exact ⟨a2, b2⟩
            | _ => exact hd.elim
          · have a3 := a3 x hx
            have b3 := b3 x hx
            cases op with
            | div =>
              show (a.dense x / b.dense x).orZero = a.numpy x / b.numpy x
              rw [a3, b3]
              exact f64_orZero (hd.2.2 x (by rw [hsa]; exact hx))
            | _ => first | exact hd.elim | simp only [Prog.dense, Prog.numpy, a3, b3]
        · rw [if_neg hrc] at hc; cases hc
  | scalar op a alpha ih =>
    intro hd τ hc
    have had : a.AsNumpy := by
      cases op with
      | mul => exact hd.1
      | div => exact hd.1
      | _ => exact hd.elim
    have hc : (a.check.bind fun t => Ty.scalar op (alpha == 0) t) = .ok τ := hc
    cases ha : a.check with
    | error x => rw [ha] at hc; cases hc
    | ok t =>
      rw [ha] at hc
      have hc : Ty.scalar op (alpha == 0) t = .ok τ := hc
      obtain ⟨⟨f, r, c, rfl⟩, a2, a3⟩ := ih had ha
      have a3 : ∀ x, InBounds [r, c] x → a.dense x = a.numpy x := a3
      have hsa : a.shape = [r, c] := Prog.shape_ok ha
      cases op with
      | mul =>
        cases hc
        refine ⟨⟨f, r, c, rfl⟩, ⟨a2, hd.2.1, fun h0 x hx => ?_⟩, fun x hx => ?_⟩
        · have hx' := hx
          rw [hsa] at hx'
          rw [a3 x hx']
          exact hd.2.2 h0 x hx
        · show a.dense x * alpha = a.numpy x * alpha
          rw [a3 x hx]
      | div =>
        have hc : (if (alpha == 0) = true then Except.error PyErr.zeroDivision else .ok (Ty.mat f r c)) = .ok τ := hc
        split at hc <;> cases hc
        refine ⟨⟨f, r, c, rfl⟩, ⟨a2, hd.2⟩, fun x hx => ?_⟩
        show a.dense x / alpha = a.numpy x / alpha
        rw [a3 x hx]
      | _ => exact hd.elim
  | left op alpha a ih =>
    intro hd τ hc
    cases op with
    | mul =>
      have hc : (a.check.bind fun t => Ty.left .mul t) = .ok τ := hc
      cases ha : a.check with
      | error x => rw [ha] at hc; cases hc
      | ok t =>
        rw [ha] at hc
        have hc : Ty.left .mul t = .ok τ := hc
        obtain ⟨⟨f, r, c, rfl⟩, a2, a3⟩ := ih hd.1 ha
        cases hc
        have a3 : ∀ x, InBounds [r, c] x → a.dense x = a.numpy x := a3
        have hsa : a.shape = [r, c] := Prog.shape_ok ha
        refine ⟨⟨f, r, c, rfl⟩, ⟨a2, hd.2.1, fun h0 x hx => ?_⟩, fun x hx => ?_⟩
        · have hx' := hx
          rw [hsa] at hx'
          rw [a3 x hx']
          exact hd.2.2 h0 x hx
        · show alpha * a.dense x = alpha * a.numpy x
          rw [a3 x hx]
    | _ => exact hd.elim
  | T a ih =>
    intro hd τ hc
    have hc : (a.check.bind fun t => Ty.T t) = .ok τ := hc
    cases ha : a.check with
    | error x => rw [ha] at hc; cases hc
    | ok t =>
      rw [ha] at hc
      obtain ⟨⟨f, r, c, rfl⟩, a2, a3⟩ := ih hd ha
      cases hc
      exact ⟨⟨f, c, r, rfl⟩, a2, fun x hx => a3 _ (inBounds_reverse hx)⟩
  | prune => intro hd; exact hd.elim
  | elimZeros => intro hd; exact hd.elim
  | ndop => intro hd; exact hd.elim
  | mode => intro hd; exact hd.elim

/-- C88: a program over compressed matrices that stays clear of the cases listed at `AsNumpy` computes what NumPy
computes with dense arrays: `program.toarray()` has one outcome, on every machine, and its elements are the
elements of the dense computation, rounding, overflow, infinities and `NaN` included, up to the sign of
zeros. -/
theorem f64_numpy {env : PyEnv F64} (he : env.Ok) {e : Prog F64} (hl : e.LitsOk) (hs : e.Small) (hd : e.AsNumpy) {τ : Ty}
    (hc : e.check = .ok τ) : ∃ f r c d, τ = .mat f r c ∧ (∀ out, e.Toarray env out ↔ out = .ret d) ∧
      d.shape = [r, c] ∧ d.data.length = r * c ∧ ∀ x, InBounds [r, c] x → SameNum (d.elem x) (e.numpy x) := by
  obtain ⟨-, h1, h2⟩ := asNumpy_dense hd hc
  obtain ⟨f, r, c, d, rfl, o, s, n, h⟩ := f64_toarray he hl hs h1 hc
  exact ⟨f, r, c, d, rfl, o, s, n, fun x hx => by rw [← h2 x hx]; exact h x hx⟩

/-! ### sums -/

theorem heldAs_sum {α : Type} (xs : List α) {held : α → List F64} {dense : α → F64} (h : ∀ x ∈ xs, HeldAs (held x) (dense x))
    (g : α → F64 → ℚ) (hg : ∀ x a b, SameNum a b → g x a = g x b) (h0 : ∀ x, g x 0 = 0) :
    (xs.flatMap fun x => (held x).map (g x)).sum = (xs.map fun x => g x (dense x)).sum := by
  induction xs with
  | nil => rfl
  | cons x xs ih =>
    rw [List.flatMap_cons, List.sum_append, List.map_cons, List.sum_cons, ih fun y hy => h y (List.mem_cons_of_mem _ hy)]
    congr 1
    rcases h x List.mem_cons_self with ⟨e1, e2⟩ | ⟨v, e1, e2⟩
    · rw [e1, hg x (dense x) 0 (.inr ⟨e2, rfl⟩), h0]; rfl
    · rw [e1, hg x _ _ (F64.same_symm e2)]; simp

theorem heldAs_length {α β : Type} (xs : List α) {held : α → List F64} {dense : α → F64} (h : ∀ x ∈ xs, HeldAs (held x) (dense x))
    (g : α → F64 → β) : (xs.flatMap fun x => (held x).map (g x)).length ≤ xs.length := by
  induction xs with
  | nil => exact Nat.le_refl _
  | cons x xs ih =>
    rw [List.flatMap_cons, List.length_append, List.length_cons, List.length_map]
    have := ih fun y hy => h y (List.mem_cons_of_mem _ hy)
    rcases h x List.mem_cons_self with ⟨e1, e2⟩ | ⟨v, e1, e2⟩ <;> rw [e1] <;> simp only [List.length_nil, List.length_singleton] <;> omega

theorem heldAs_fin {α : Type} {x : α} {held : α → List F64} {dense : α → F64} (h : HeldAs (held x) (dense x)) (hf : (dense x).IsFin)
    {v : F64} (hv : v ∈ held x) : v.IsFin := by
  rcases h with ⟨e1, e2⟩ | ⟨w, e1, e2⟩
  · rw [e1] at hv; cases hv
  · rw [e1, List.mem_singleton] at hv
    subst hv
    exact F64.same_fin e2 hf

/-- A sum over the stored numbers, up to rounding, is a sum over all elements. -/
theorem heldAs_rounded {α : Type} {xs : List α} {held : α → List F64} {dense : α → F64} (h : ∀ x ∈ xs, HeldAs (held x) (dense x))
    {v : F64} (hv : RoundedSum F64.fp.toFpAdd (((xs.map held).flatten : List F64) : Multiset F64) v) :
    RoundedSum F64.fp.toFpAdd ((xs.map dense : List F64) : Multiset F64) v := by
  intro hf hb
  have eflat : (xs.map held).flatten = xs.flatMap fun x => (held x).map id := by simp [List.flatMap]
  have emap : ∀ φ : F64 → ℚ, (xs.flatMap fun x => (held x).map id).map φ = xs.flatMap fun x => (held x).map φ := by
    intro φ
    rw [List.map_flatMap]
    simp
  have s1 := heldAs_sum xs h (fun _ => F64.val) (fun _ _ _ => F64.same_val) fun _ => rfl
  have s2 := heldAs_sum xs h (fun _ a => |F64.val a|) (fun _ _ _ h => by rw [F64.same_val h]) fun _ => abs_zero
  have hn := heldAs_length xs h (fun _ => id (α := F64))
  unfold RoundedSum at hv
  rw [eflat] at hv
  simp only [Multiset.coe_card, Multiset.map_coe, Multiset.sum_coe, emap] at hv
  simp only [Multiset.coe_card, Multiset.map_coe, Multiset.sum_coe, List.length_map, List.map_map] at hb ⊢
  have s1 : (xs.flatMap fun x => (held x).map F64.fp.val).sum = (xs.map (F64.fp.val ∘ dense)).sum := s1
  have s2 : (xs.flatMap fun x => (held x).map fun x => |F64.fp.val x|).sum = (xs.map ((fun x => |F64.fp.val x|) ∘ dense)).sum := s2
  rw [s1, s2] at hv
  have hS : 0 ≤ (xs.map ((fun x => |F64.fp.val x|) ∘ dense)).sum := List.sum_nonneg (by
    intro x hx
    obtain ⟨p, -, rfl⟩ := List.mem_map.1 hx
    exact abs_nonneg _)
  have h1 : 1 ≤ 1 + F64.fp.eps := by linarith [F64.fp.eps_nonneg]
  obtain ⟨f1, f2⟩ := hv (fun v hv => by
      obtain ⟨x, hx, hv⟩ := List.mem_flatMap.1 (Multiset.mem_coe.1 hv)
      rw [List.map_id] at hv
      exact heldAs_fin (h x hx) (hf _ (Multiset.mem_coe.2 (List.mem_map_of_mem hx))) hv)
    (le_trans (mul_le_mul_of_nonneg_right (pow_le_pow_right₀ h1 hn) hS) hb)
  refine ⟨f1, le_trans f2 (mul_le_mul_of_nonneg_right ?_ hS)⟩
  exact sub_le_sub_right (pow_le_pow_right₀ h1 (Nat.sub_le_sub_right hn 1)) 1

variable [HasMinMax F64]

theorem fibre_map (shape : List Nat) (S : Nat → Bool) (keep : Bool) (y : List Int) :
    ∃ xs : List (List Int), (∀ x ∈ xs, InBounds shape x) ∧ ∀ {W : Type} (f : List Int → W), fibre shape S keep f y = xs.map f :=
  ⟨_, fun _ hx => mem_indicesOf.1 (List.mem_filter.1 hx).1, fun _ => rfl⟩

/-- C88: sums.  Every cell of `sum(program, axis)` is the exact sum of NumPy's elements along the axis up to
the error bound of recursive summation of binary64 numbers, on every machine and for every schedule. -/
theorem f64_sum {env : PyEnv F64} (he : env.Ok) {e : Prog F64} (hl : e.LitsOk) (hs : e.Small) (hd : e.AsDense) {τ : Ty}
    (hc : e.check = .ok τ) {axis : AxisArg} (keep : Bool) (ha : axis.Valid 2) (hne : axis ≠ .many [])
    {out : PyRes (RedOut F64 F64)} (h : e.Reduce env .sum axis keep out) :
    ∃ r, out = .ret (.dense r) ∧ IsReduction τ.shape (axis.covers 2) keep
      (fun l v => RoundedSum F64.fp.toFpAdd (l : Multiset F64) v) e.dense r := by
  obtain ⟨f, r, c, rfl, -, hh⟩ := f64_held he hl hs hd hc
  obtain ⟨r, e1, hr⟩ := prog_sum_rounded F64.fp.toFpAdd he hl hs hd.determined hc trivial keep ha hne h
  refine ⟨r, e1, hr.shape_eq, hr.size, fun y hy => ?_⟩
  obtain ⟨v, h1, h2⟩ := hr.cell y hy
  refine ⟨v, h1, ?_⟩
  obtain ⟨xs, hxs, hfib⟩ := fibre_map (Ty.mat f _ _).shape (axis.covers 2) keep y
  rw [hfib] at h2 ⊢
  exact heldAs_rounded (fun x hx => hh x (hxs x hx)) h2

/-- C88: a `NaN` among NumPy's elements along the axis makes the sum a `NaN`. -/
theorem f64_sum_nan {env : PyEnv F64} (he : env.Ok) {e : Prog F64} (hl : e.LitsOk) (hs : e.Small) (hd : e.AsDense) {τ : Ty}
    (hc : e.check = .ok τ) {axis : AxisArg} (keep : Bool) (ha : axis.Valid 2) (hne : axis ≠ .many [])
    {out : PyRes (RedOut F64 F64)} (h : e.Reduce env .sum axis keep out) :
    ∃ r, out = .ret (.dense r) ∧ IsReduction τ.shape (axis.covers 2) keep
      (fun l v => (∃ x ∈ l, isNan x = true) → isNan v = true) e.dense r := by
  obtain ⟨f, r, c, rfl, -, hh⟩ := f64_held he hl hs hd hc
  obtain ⟨r, e1, hr⟩ := prog_sum_nan F64.isNan_add he hl hs hd.determined hc trivial keep ha hne h
  refine ⟨r, e1, hr.shape_eq, hr.size, fun y hy => ?_⟩
  obtain ⟨v, h1, h2⟩ := hr.cell y hy
  refine ⟨v, h1, ?_⟩
  obtain ⟨xs, hxs, hfib⟩ := fibre_map (Ty.mat f _ _).shape (axis.covers 2) keep y
  rw [hfib] at h2 ⊢
  rintro ⟨d, hd, hn⟩
  obtain ⟨x, hx, rfl⟩ := List.mem_map.1 hd
  refine h2 ⟨_, List.mem_map_of_mem hx, ?_⟩
  rcases hh x (hxs x hx) with ⟨-, e2⟩ | ⟨w, e1, e2⟩
  · obtain ⟨s, e3⟩ := F64.eq_zero_iff.1 e2
    rw [e3] at hn; cases hn
  · refine ⟨w, by rw [e1]; exact List.mem_singleton_self _, ?_⟩
    rcases e2 with e2 | ⟨-, e2⟩
    · rw [e2]; exact hn
    · obtain ⟨s, e3⟩ := F64.eq_zero_iff.1 e2
      rw [e3] at hn; cases hn

theorem f64_nat {k : Nat} (h : k ≤ 2 ^ 53) : (k : F64).IsFin ∧ (k : F64).val = k := by
  refine F64.ofRat_rep (q := (k : ℚ)) ?_
  have hm : |(k : ℚ)| ≤ max64 := by
    rw [abs_of_nonneg (by positivity)]
    refine le_trans (show (k : ℚ) ≤ 2 ^ 53 by exact_mod_cast h) ?_
    unfold max64
    have h2 : (2 : ℚ) ≤ 2 ^ (971 : ℤ) := by
      calc (2 : ℚ) = 2 ^ (1 : ℤ) := by norm_num
        _ ≤ _ := zpow_le_zpow_right₀ (by norm_num) (by norm_num)
    calc (2 : ℚ) ^ 53 ≤ (2 ^ 53 - 1) * 2 := by norm_num
      _ ≤ _ := mul_le_mul_of_nonneg_left h2 (by norm_num)
  rcases Nat.lt_or_ge k (2 ^ 53) with h1 | h1
  · exact ⟨⟨k, 0, by simp, by rw [abs_of_nonneg (by positivity)]; exact_mod_cast h1, by norm_num⟩, hm⟩
  · have : k = 2 ^ 53 := le_antisymm h h1
    subst this
    exact ⟨⟨1, 53, by norm_num, by norm_num, by norm_num⟩, hm⟩

theorem abs_sum_val (l : List F64) : |(l.map F64.val).sum| ≤ (l.map fun x => |x.val|).sum := by
  induction l with
  | nil => simp
  | cons a l ih =>
    simp only [List.map_cons, List.sum_cons]
    exact le_trans (abs_add_le _ _) (by linarith)

theorem f64_mean_of {l : List F64} {t v : F64} (h : RoundedSum F64.fp.toFpAdd (l : Multiset F64) t)
    (hk : l.length ≤ 2 ^ 53) (hv : v = t / (l.length : F64)) : F64.RoundedMean l v := by
  intro hne hf hb
  unfold RoundedSum at h
  simp only [Multiset.coe_card, Multiset.map_coe, Multiset.sum_coe] at h
  obtain ⟨h1, h2⟩ := h (fun x hx => hf x (Multiset.mem_coe.1 hx)) hb
  have h2 : |t.val - (l.map F64.val).sum| ≤ ((1 + 1 / 2 ^ 53) ^ (l.length - 1) - 1) * (l.map fun x => |x.val|).sum := h2
  have hA : 0 ≤ (l.map fun x => |x.val|).sum := List.sum_nonneg (by
    intro x hx
    obtain ⟨p, -, rfl⟩ := List.mem_map.1 hx
    exact abs_nonneg _)
  have hS := abs_sum_val l
  obtain ⟨k1, k2⟩ := f64_nat hk
  have hpos : 0 < l.length := List.length_pos_of_ne_nil hne
  have hq : (1 : ℚ) ≤ (l.length : ℚ) := by exact_mod_cast hpos
  generalize (l.map F64.val).sum = S at *
  generalize (l.map fun x => |x.val|).sum = A at *
  obtain ⟨m, hm⟩ : ∃ m, l.length = m + 1 := ⟨l.length - 1, by omega⟩
  rw [hm, Nat.add_sub_cancel] at h2
  have hpow : (1 : ℚ) ≤ (1 + 1 / 2 ^ 53) ^ m := one_le_pow₀ (by norm_num)
  have ht : |t.val| ≤ (1 + 1 / 2 ^ 53) ^ m * A := by
    have : |t.val| ≤ |t.val - S| + |S| := by
      have := abs_add_le (t.val - S) S
      rwa [sub_add_cancel] at this
    nlinarith
  have hb' : (1 + 1 / 2 ^ 53) ^ m * A ≤ max64 := by
    rw [hm] at hb
    refine le_trans ?_ hb
    exact mul_le_mul_of_nonneg_right (pow_le_pow_right₀ (by norm_num) (by omega)) hA
  have hdiv : |t.val / (l.length : ℚ)| ≤ |t.val| := by
    rw [abs_div, abs_of_pos (show (0 : ℚ) < l.length by linarith)]
    exact div_le_self (abs_nonneg _) hq
  have hd := F64.div_rnd h1 k1 (by rw [k2]; linarith) (by rw [k2]; exact le_trans hdiv (le_trans ht hb'))
  rw [k2] at hd
  refine ⟨by rw [hv]; exact hd.1, ?_⟩
  rw [hv, hd.2]
  have e1 := rnd64_err (t.val / (l.length : ℚ))
  have e2 : |t.val / (l.length : ℚ) - S / (l.length : ℚ)| = |t.val - S| / (l.length : ℚ) := by
    rw [← sub_div, abs_div, abs_of_pos (show (0 : ℚ) < l.length by linarith)]
  have e3 : |t.val / (l.length : ℚ)| = |t.val| / (l.length : ℚ) := by
    rw [abs_div, abs_of_pos (show (0 : ℚ) < l.length by linarith)]
  have e4 : |rnd64 (t.val / (l.length : ℚ)) - S / (l.length : ℚ)| ≤
      |rnd64 (t.val / (l.length : ℚ)) - t.val / (l.length : ℚ)| + |t.val / (l.length : ℚ) - S / (l.length : ℚ)| := by
    have := abs_add_le (rnd64 (t.val / (l.length : ℚ)) - t.val / (l.length : ℚ)) (t.val / (l.length : ℚ) - S / (l.length : ℚ))
    rwa [sub_add_sub_cancel] at this
  refine le_trans e4 ?_
  rw [e2]
  rw [e3] at e1
  have hl0 : (0 : ℚ) < (l.length : ℚ) := by linarith
  have d1 : |t.val| / (l.length : ℚ) ≤ (1 + 1 / 2 ^ 53) ^ m * A / (l.length : ℚ) := div_le_div_of_nonneg_right ht (le_of_lt hl0)
  have d2 : |t.val - S| / (l.length : ℚ) ≤ ((1 + 1 / 2 ^ 53) ^ m - 1) * A / (l.length : ℚ) :=
    div_le_div_of_nonneg_right h2 (le_of_lt hl0)
  have d3 : ((1 + 1 / 2 ^ 53) ^ l.length - 1) * (A / (l.length : ℚ)) =
      1 / 2 ^ 53 * ((1 + 1 / 2 ^ 53) ^ m * A / (l.length : ℚ)) + ((1 + 1 / 2 ^ 53) ^ m - 1) * A / (l.length : ℚ) := by
    rw [hm, pow_succ]; ring
  rw [d3]
  have d4 : (1 : ℚ) / 2 ^ 53 * (|t.val| / (l.length : ℚ)) ≤ 1 / 2 ^ 53 * ((1 + 1 / 2 ^ 53) ^ m * A / (l.length : ℚ)) :=
    mul_le_mul_of_nonneg_left d1 (by norm_num)
  linarith

/-- C88: means.  Every cell of `mean(program, axis)` is the exact mean of NumPy's elements along the axis, up to
rounding. -/
theorem f64_mean {env : PyEnv F64} (he : env.Ok) {e : Prog F64} (hl : e.LitsOk) (hs : e.Small) (hd : e.AsDense) {τ : Ty}
    (hc : e.check = .ok τ) (h0 : 0 < τ.shape.prod) (h53 : τ.shape.prod ≤ 2 ^ 53) {axis : AxisArg} (keep : Bool) (ha : axis.Valid 2)
    (hne : axis ≠ .many []) :
    (∃ out, e.Reduce env .mean axis keep out) ∧
    ∀ out, e.Reduce env .mean axis keep out →
      ∃ r, out = .ret (.dense r) ∧ IsReduction τ.shape (axis.covers 2) keep F64.RoundedMean e.dense r := by
  obtain ⟨f, r, c, rfl, -, hh⟩ := f64_held he hl hs hd hc
  obtain ⟨hex, hall⟩ := prog_reduce_any he hl hs hd.determined hc trivial (op := .mean) keep ha hne (fun _ _ => by
    rw [Bool.eq_false_iff]
    intro h
    have k := (f64_nat h53).2
    rw [F64.val_of_eq_zero _ h] at k
    have : ((Ty.mat f r c).shape.prod : ℚ) ≠ 0 := by exact_mod_cast Nat.pos_iff_ne_zero.1 h0
    exact this k.symm)
  refine ⟨hex, fun out hout => ?_⟩
  obtain ⟨r', e1, hr⟩ := hall out hout
  refine ⟨r', e1, hr.shape_eq, hr.size, fun y hy => ?_⟩
  obtain ⟨v, h1, h2⟩ := hr.cell y hy
  refine ⟨v, h1, ?_⟩
  have hlen : ∀ {W : Type} (g : List Int → W), (fibre (Ty.mat f r c).shape (axis.covers 2) keep g y).length ≤ (Ty.mat f r c).shape.prod := by
    intro W g
    unfold fibre
    rw [List.length_map]
    exact le_trans (List.length_filter_le _ _) (by rw [indicesOf_length])
  have hlen := hlen e.dense
  obtain ⟨xs, hxs, hfib⟩ := fibre_map (Ty.mat f r c).shape (axis.covers 2) keep y
  rw [hfib] at h2 hlen ⊢
  obtain ⟨t, ht, hv⟩ := h2
  refine f64_mean_of (heldAs_rounded (fun x hx => hh x (hxs x hx)) (AddTree.rounded F64.fp.toFpAdd ht)) (le_trans hlen h53) ?_
  rw [hv, List.length_map, List.length_map]

/-! ### variances -/

theorem varOf_nonneg (t q : F64) (k : Nat) (c : F64) : flt (varOf t q k c) 0 = false := by
  unfold varOf
  by_cases h : k = 0
  · rw [if_pos h]; rfl
  · rw [if_neg h]
    by_cases h1 : (flt ((k : F64) - c) 0 || (k : F64) - c == 0) = true
    · rw [if_pos h1]; rfl
    · rw [if_neg h1]
      by_cases h2 : flt ((q - t * t / (k : F64)) / ((k : F64) - c)) 0 = true
      · rw [if_pos h2]; rfl
      · rw [if_neg h2]; exact Bool.eq_false_iff.2 h2

theorem f64_sqrt {v : F64} (h : flt v 0 = false) : flt (fsqrt v) 0 = false ∧ (isNan (fsqrt v) = true → isNan v = true) := by
  cases v with
  | nan => exact ⟨rfl, fun _ => rfl⟩
  | inf s => cases s
             · exact ⟨rfl, fun h => h⟩
             · cases h
  | zero s => exact ⟨rfl, fun h => h⟩
  | num x =>
    have h : ¬ x.1 < 0 := of_decide_eq_false h
    have e : fsqrt (F64.num x) = F64.ofRat (F64.sqrtRat x.1) := if_neg h
    rw [e]
    have hs : ¬ F64.sqrtRat x.1 < 0 := by
      unfold F64.sqrtRat
      simp only
      rw [not_lt]
      have h2 : ∀ e : ℤ, (0 : ℚ) ≤ 2 ^ e := fun e => (zpow_pos (by norm_num) e).le
      split
      · exact mul_nonneg (Nat.cast_nonneg _) (h2 _)
      · exact mul_nonneg (add_nonneg (Nat.cast_nonneg _) zero_le_one) (h2 _)
    unfold F64.ofRat
    have hr : ¬ rnd64 (F64.sqrtRat x.1) < 0 := by
      have := B64.rnd64_nearest (F64.sqrtRat x.1) B64.rep_zero
      rw [zero_sub, abs_neg, abs_of_nonneg (not_lt.1 hs), abs_le] at this
      linarith
    split
    · rw [decide_eq_false hs]; exact ⟨rfl, fun h => h⟩
    · split
      · exact ⟨decide_eq_false hr, fun h => by cases h⟩
      · rw [decide_eq_false hs]; exact ⟨rfl, fun h => by cases h⟩

/-- C88: a variance is never negative, and a standard deviation is never negative and a `NaN` only if the
variance is one: the square root is not taken of the negative number that rounding may leave. -/
theorem f64_var {env : PyEnv F64} (he : env.Ok) {e : Prog F64} (hl : e.LitsOk) (hs : e.Small) (hd : e.AsDense) {τ : Ty}
    (hc : e.check = .ok τ) {axis : AxisArg} (keep : Bool) (ha : axis.Valid 2) (hne : axis ≠ .many []) (corr : F64)
    {out : PyRes (RedOut F64 F64)} :
    (e.Reduce env (.var corr) axis keep out → ∃ r, out = .ret (.dense r) ∧ IsReduction τ.shape (axis.covers 2) keep
      (fun _ v => flt v 0 = false) e.dense r) ∧
    (e.Reduce env (.std corr) axis keep out → ∃ r, out = .ret (.dense r) ∧ IsReduction τ.shape (axis.covers 2) keep
      (fun _ v => flt v 0 = false ∧ ∃ t, flt t 0 = false ∧ v = fsqrt t ∧ (isNan v = true → isNan t = true)) e.dense r) := by
  obtain ⟨f, r, c, rfl, -, hh⟩ := f64_held he hl hs hd hc
  constructor
  · intro h
    obtain ⟨r', e1, hr⟩ := (prog_reduce_any he hl hs hd.determined hc trivial (op := .var corr) keep ha hne (fun h => by cases h)).2 out h
    refine ⟨r', e1, hr.shape_eq, hr.size, fun y hy => ?_⟩
    obtain ⟨v, h1, t, q, -, -, h2⟩ := hr.cell y hy
    exact ⟨v, h1, h2 ▸ varOf_nonneg ..⟩
  · intro h
    obtain ⟨r', e1, hr⟩ := (prog_reduce_any he hl hs hd.determined hc trivial (op := .std corr) keep ha hne (fun h => by cases h)).2 out h
    refine ⟨r', e1, hr.shape_eq, hr.size, fun y hy => ?_⟩
    obtain ⟨v, h1, t, q, -, -, h2⟩ := hr.cell y hy
    have hn := varOf_nonneg t q (Nat.min (fibre (Ty.mat f r c).shape (axis.covers 2) keep (fun x => valuesAt e.stores x) y).length usizeMax) corr
    exact ⟨v, h1, h2 ▸ (f64_sqrt hn).1, _, hn, h2, h2 ▸ (f64_sqrt hn).2⟩

/-! ### cumulative sums and differences -/

/-- A cell of a partial array against an element of the dense one. -/
def CellAs (c : Option F64) (d : F64) : Prop := SameNum (c.getD 0) d

theorem cellSums_as {shape : List Nat} {held : List Int → List F64} {dense : List Int → F64}
    (hh : ∀ x, InBounds shape x → HeldAs (held x) (dense x)) {c : List Int → Option F64} (hc : CellSumsOf shape held c)
    {x : List Int} (hx : InBounds shape x) : CellAs (c x) (dense x) := by
  obtain ⟨l, hp, e⟩ := hc x hx
  unfold CellAs
  rw [e]
  rcases hh x hx with ⟨e1, e2⟩ | ⟨v, e1, e2⟩
  · rw [e1] at hp
    rw [List.perm_nil.1 hp]
    exact .inr ⟨rfl, e2⟩
  · rw [e1] at hp
    rw [List.perm_singleton.1 hp]
    exact e2

theorem cellAs_fold {α : Type} (xs : List α) {c : α → Option F64} {d : α → F64} (h : ∀ x ∈ xs, CellAs (c x) (d x)) {s t : F64}
    (hst : SameNum s t) :
    SameNum (((xs.map c).filterMap id).foldl (· + ·) s) ((xs.map d).foldl (· + ·) t) := by
  induction xs generalizing s t with
  | nil => exact hst
  | cons x xs ih =>
    have ih := fun {s t : F64} (hst : SameNum s t) => ih (fun y hy => h y (List.mem_cons_of_mem _ hy)) hst
    have hx : SameNum ((c x).getD 0) (d x) := h x List.mem_cons_self
    rw [List.map_cons, List.map_cons, List.foldl_cons]
    cases hc : c x with
    | none =>
      rw [hc] at hx
      rw [List.filterMap_cons_none (by rfl)]
      refine ih (F64.same_trans hst (F64.same_symm ?_))
      have := F64.same_add (F64.same_refl t) (F64.same_symm hx)
      refine F64.same_trans this ?_
      rw [F64.add_comm]
      exact F64.same_zero_add false t
    | some v =>
      rw [hc] at hx
      rw [List.filterMap_cons_some (b := v) (by rfl), List.foldl_cons]
      exact ih (F64.same_add hst hx)

/-- C88: `cumsum(program, axis)` is what NumPy computes, rounding included, up to the sign of zeros: every
element is the sum of the elements up to it, from the first to the last. -/
theorem f64_cumsum {env : PyEnv F64} (he : env.Ok) {e : Prog F64} (hl : e.LitsOk) (hs : e.Small) (hd : e.AsDense) {τ : Ty}
    (hc : e.check = .ok τ) {axis : AxisArg} {rowwise : Bool} (ha : axis.Single rowwise)
    (hsz : 8 * (τ.shape.prod : Int) ≤ i64Max) (hcsc : rowwise = true → ∀ r c, τ ≠ .mat .csc r c) :
    (∃ out, e.Scan env .sum axis out) ∧
    ∀ out, e.Scan env .sum axis out → ∃ r, out = .ret r ∧
      IsScanBy (fun l v => SameNum v (l.foldl (· + ·) 0)) rowwise τ.shape e.dense r := by
  obtain ⟨f, r, c, rfl, -, hh⟩ := f64_held he hl hs hd hc
  obtain ⟨hex, hall⟩ := prog_scan_any he hl hs hd.determined hc trivial .sum ha hsz hcsc
  refine ⟨hex, fun out hout => ?_⟩
  obtain ⟨r', cc, e1, hcs, n, m, hsh, r1, r2, r3⟩ := hall out hout
  have h2 : n = r ∧ m = c := by cases hsh; exact ⟨rfl, rfl⟩
  obtain ⟨rfl, rfl⟩ := h2
  refine ⟨r', e1, n, m, hsh, r1, r2, fun i j hi hj => ?_⟩
  rw [r3 i j hi hj]
  show SameNum (((upTo rowwise cc i j).filterMap id).foldl (· + ·) 0) _
  unfold upTo
  cases rowwise
  · rw [if_neg (by simp), if_neg (by simp)]
    refine cellAs_fold (List.range (i + 1)) (c := fun (k : Nat) => cc [(k : Int), (j : Int)]) (fun k hk => ?_) (F64.same_refl 0)
    have := List.mem_range.1 hk
    exact cellSums_as hh hcs (.cons ⟨by omega, by omega⟩ (.cons ⟨by omega, by omega⟩ .nil))
  · rw [if_pos rfl, if_pos rfl]
    refine cellAs_fold (List.range (j + 1)) (c := fun (k : Nat) => cc [(i : Int), (k : Int)]) (fun k hk => ?_) (F64.same_refl 0)
    have := List.mem_range.1 hk
    exact cellSums_as hh hcs (.cons ⟨by omega, by omega⟩ (.cons ⟨by omega, by omega⟩ .nil))

theorem diffN_same (n : Nat) : ∀ {f g : Nat → F64} {j : Nat}, (∀ k, k ≤ j + n → SameNum (f k) (g k)) →
    SameNum (diffN n f j) (diffN n g j) := by
  induction n with
  | zero => intro f g j h; exact h j (Nat.le_refl _)
  | succ n ih =>
    intro f g j h
    exact ih fun k hk => F64.same_sub (h (k + 1) (by omega)) (h k (by omega))

/-- C88: `diff(program, n=n, axis=axis)` is what NumPy computes, rounding included, up to the sign of zeros. -/
theorem f64_diff {env : PyEnv F64} (he : env.Ok) {e : Prog F64} (hl : e.LitsOk) (hs : e.Small) (hd : e.AsDense) {τ : Ty}
    (hc : e.check = .ok τ) {axis : Int} {rowwise : Bool} (hx : if rowwise then axis = 1 ∨ axis = -1 else axis = 0 ∨ axis = -2)
    {n : Nat} (hn : n ≤ usizeMax) (hsz : 32 * (τ.shape.prod : Int) ≤ i64Max) :
    (∃ out, e.Diff env n axis out) ∧
    ∀ out, e.Diff env n axis out → ∃ w : SpVal F64, out = .ret w.obj ∧ w.ty = τ.diff rowwise n ∧
      ∀ x, InBounds w.ty.shape x → SameNum ((w.held x).head?.getD 0) (diffCells rowwise n e.dense x) := by
  obtain ⟨f, r, c, rfl, -, hh⟩ := f64_held he hl hs hd hc
  obtain ⟨w, hv, hs', ht, hw, hev⟩ := prog_held he hl hs hd.determined hc
  have h2 : w.ty.Is2d := by rw [ht]; trivial
  obtain ⟨⟨y, -, hy⟩, -⟩ := py_diff_safe he hv hs' h2 hx hn (by rw [ht]; exact hsz)
  refine ⟨⟨_, _, (hev _).2 rfl, hy⟩, ?_⟩
  rintro out ⟨o, ho, hout⟩
  rw [(hev o).1 ho] at hout
  obtain ⟨z, cc, e1, hzt, hcs, hz⟩ := py_diff_dense F64.subLaws he hv hs' h2 hx hn (by rw [ht]; exact hsz) hout
  rw [ht] at hzt
  refine ⟨z, e1, hzt, fun x hxb => F64.same_trans (hz x hxb) ?_⟩
  have hcs : CellSumsOf [r, c] (fun x => valuesAt e.stores x) cc := by
    have : CellSumsOf w.ty.shape w.held cc := hcs
    rw [ht, hw] at this
    exact this
  rw [hzt] at hxb
  cases rowwise
  · have hxb : InBounds [r - n, c] x := hxb
    obtain ⟨i, j, hi, hj, rfl⟩ := inBounds_two hxb
    exact diffN_same n fun k hk => cellSums_as hh hcs (.cons ⟨by omega, by omega⟩ (.cons ⟨by omega, by omega⟩ .nil))
  · have hxb : InBounds [r, c - n] x := hxb
    obtain ⟨i, j, hi, hj, rfl⟩ := inBounds_two hxb
    exact diffN_same n fun k hk => cellSums_as hh hcs (.cons ⟨by omega, by omega⟩ (.cons ⟨by omega, by omega⟩ .nil))

/-! ### products with dense arrays -/

/-- A sum of products over the stored numbers, up to rounding, is one over all elements. -/
theorem heldAs_dot {α : Type} {xs : List α} {held : α → List F64} {dense w : α → F64} (h : ∀ x ∈ xs, HeldAs (held x) (dense x))
    {v : F64} (hv : RoundedDot F64.fp.toFpMul ((xs.flatMap fun x => (held x).map fun a => (a, w x) : List (F64 × F64)) :
      Multiset (F64 × F64)) v) :
    RoundedDot F64.fp.toFpMul ((xs.map fun x => (dense x, w x) : List (F64 × F64)) : Multiset (F64 × F64)) v := by
  intro hf hb
  have emap : ∀ φ : F64 × F64 → ℚ, (xs.flatMap fun x => (held x).map fun a => (a, w x)).map φ =
      xs.flatMap fun x => (held x).map fun a => φ (a, w x) := by
    intro φ
    rw [List.map_flatMap]
    simp only [List.map_map]
    rfl
  have s1 := heldAs_sum xs h (fun x a => F64.fp.val a * F64.fp.val (w x)) (fun x a b h => by
    rw [show F64.fp.val a = F64.fp.val b from F64.same_val h]) fun x => by
      rw [show F64.fp.val 0 = 0 from rfl, zero_mul]
  have s2 := heldAs_sum xs h (fun x a => |F64.fp.val a * F64.fp.val (w x)|) (fun x a b h => by
    rw [show F64.fp.val a = F64.fp.val b from F64.same_val h]) fun x => by
      rw [show F64.fp.val 0 = 0 from rfl, zero_mul, abs_zero]
  have hn := heldAs_length xs h (fun x a => (a, w x))
  unfold RoundedDot at hv
  simp only [Multiset.coe_card, Multiset.map_coe, Multiset.sum_coe, emap] at hv
  simp only [Multiset.coe_card, Multiset.map_coe, Multiset.sum_coe, List.length_map, List.map_map] at hb ⊢
  rw [s1, s2] at hv
  have hS : 0 ≤ (xs.map fun x => |F64.fp.val (dense x) * F64.fp.val (w x)|).sum := List.sum_nonneg (by
    intro x hx
    obtain ⟨p, -, rfl⟩ := List.mem_map.1 hx
    exact abs_nonneg _)
  have h1 : 1 ≤ 1 + F64.fp.eps := by linarith [F64.fp.eps_nonneg]
  have ht := F64.fp.eta_nonneg
  have hcq : ((xs.flatMap fun x => (held x).map fun a => (a, w x)).length : ℚ) ≤ (xs.length : ℚ) := by exact_mod_cast hn
  generalize (xs.flatMap fun x => (held x).map fun a => (a, w x)).length = k at hn hcq hv
  have pos : ∀ n, 0 ≤ (1 + F64.fp.eps) ^ n := fun n => by positivity
  obtain ⟨f1, f2⟩ := hv (fun q hq => by
      obtain ⟨x, hx, hq⟩ := List.mem_flatMap.1 (Multiset.mem_coe.1 hq)
      obtain ⟨a, ha, rfl⟩ := List.mem_map.1 hq
      obtain ⟨g1, g2⟩ := hf (dense x, w x) (Multiset.mem_coe.2 (List.mem_map_of_mem (f := fun x => (dense x, w x)) hx))
      exact ⟨heldAs_fin (h x hx) g1 ha, g2⟩)
    (le_trans (mul_le_mul (pow_le_pow_right₀ h1 (by omega))
      (add_le_add (le_refl _) (mul_le_mul_of_nonneg_right hcq ht)) (add_nonneg hS (mul_nonneg (by positivity) ht)) (pos _)) hb)
  refine ⟨f1, le_trans f2 (add_le_add (mul_le_mul_of_nonneg_right ?_ hS) (mul_le_mul_of_nonneg_right ?_ ht))⟩
  · exact sub_le_sub_right (pow_le_pow_right₀ h1 hn) 1
  · exact mul_le_mul hcq (pow_le_pow_right₀ h1 (by omega)) (pos _) (by positivity)

/-- The indices contracted for an element of the result. -/
def dotKey (tr : Bool) (p : Nat) (z : List Int) (j : Nat) : List Int := if tr then [(j : Int), z.getD p 0] else [z.getD p 0, (j : Int)]

theorem dotKey_bounds {tr : Bool} {p r c r0 c0 : Nat} {shape : List Nat} {z : List Int}
    (hrc : (if tr then [r0, c0].reverse else [r0, c0]) = [r, c]) (hp : p < shape.length) (hz : InBounds (shape.set p r) z) {j : Nat}
    (hj : j < c) : InBounds [r0, c0] (dotKey tr p z j) := by
  have hzp : 0 ≤ z.getD p 0 ∧ z.getD p 0 < (r : Int) := by
    have hlen : z.length = shape.length := by
      have := hz.length_eq
      rwa [List.length_set] at this
    have := List.forall₂_iff_get.1 hz
    have := this.2 p (by omega) (by rw [List.length_set]; omega)
    simp only [List.get_eq_getElem, List.getElem_set_self] at this
    rw [List.getD_eq_getElem?_getD, List.getElem?_eq_getElem (by omega)]
    exact this
  cases tr
  · have : [r0, c0] = [r, c] := hrc
    rw [this]
    exact .cons hzp (.cons ⟨by omega, by omega⟩ .nil)
  · have : [c0, r0] = [r, c] := hrc
    obtain ⟨rfl, rfl⟩ : c0 = r ∧ r0 = c := by simpa using this
    exact .cons ⟨by omega, by omega⟩ (.cons hzp .nil)

theorem dotTerms_perm {stores : List (List Int × F64)} {tr : Bool} {p r c r0 c0 : Nat} {z : List Int}
    (hrc : (if tr then [r0, c0].reverse else [r0, c0]) = [r, c]) (hin : ∀ k ∈ stores, InBounds [r0, c0] k.1) (y : DenseNd F64) :
    ((List.range c).flatMap fun j => (valuesAt stores (dotKey tr p z j)).map fun a => (a, y.elem (z.set p (j : Int)))).Perm
      (dotTerms stores tr p y z) := by
  have hnd : ((List.range c).map (dotKey tr p z)).Nodup := by
    refine List.Nodup.map (fun i j h => ?_) List.nodup_range
    cases tr
    · simpa [dotKey] using h
    · simpa [dotKey] using h
  have hperm := (perm_by_key (fun k : List Int × F64 => k.1) hnd stores).map fun k =>
    (k.2, y.elem (z.set p (k.1.getD (if tr then 0 else 1) 0)))
  have e3 : (stores.filter fun k => ((List.range c).map (dotKey tr p z)).contains k.1) =
      stores.filter fun k => k.1.getD (if tr then 1 else 0) 0 == z.getD p 0 := by
    apply List.filter_congr
    intro k hk
    obtain ⟨i, j, hi, hj, ek⟩ := inBounds_two (hin k hk)
    rw [Bool.eq_iff_iff, List.contains_iff_mem, List.mem_map, beq_iff_eq, ek]
    cases tr
    · have : r0 = r ∧ c0 = c := by
        have : [r0, c0] = [r, c] := hrc
        simpa using this
      constructor
      · rintro ⟨j', -, h⟩
        have h : [z.getD p 0, (j' : Int)] = [(i : Int), (j : Int)] := h
        show (i : Int) = _
        exact (List.cons.inj h).1.symm
      · intro h
        have h : (i : Int) = z.getD p 0 := by simpa using h
        exact ⟨j, List.mem_range.2 (by omega), by simp [dotKey, h]⟩
    · have : c0 = r ∧ r0 = c := by
        have : [c0, r0] = [r, c] := hrc
        simpa using this
      constructor
      · rintro ⟨j', -, h⟩
        have h : [(j' : Int), z.getD p 0] = [(i : Int), (j : Int)] := h
        show (j : Int) = _
        exact (List.cons.inj (List.cons.inj h).2).1.symm
      · intro h
        have h : (j : Int) = z.getD p 0 := by simpa using h
        exact ⟨i, List.mem_range.2 (by omega), by simp [dotKey, h]⟩
  rw [e3] at hperm
  have e4 : (((List.range c).map (dotKey tr p z)).flatMap fun k => stores.filter fun x => x.1 == k).map (fun k =>
      (k.2, y.elem (z.set p (k.1.getD (if tr then 0 else 1) 0)))) =
      (List.range c).flatMap fun j => (valuesAt stores (dotKey tr p z j)).map fun a => (a, y.elem (z.set p (j : Int))) := by
    rw [List.map_flatMap, List.flatMap_map]
    congr 1
    funext j
    unfold valuesAt
    rw [List.map_map]
    apply List.map_congr_left
    intro k hk
    have : k.1 = dotKey tr p z j := by simpa using (List.mem_filter.1 hk).2
    show (k.2, _) = (k.2, _)
    rw [this]
    cases tr <;> rfl
  rw [e4] at hperm
  exact hperm

/-- C88: `matmul`, `tensordot` and `vecdot` of a program and a dense array: every element of the result is the
exact sum of the products of NumPy's elements of the program (those of a row, or of a column if the rows
are contracted) with the elements of the array, up to the rounding error of binary64. -/
theorem f64_linalg {env : PyEnv F64} (he : env.Ok) {e : Prog F64} (hl : e.LitsOk) (hs : e.Small) (hd : e.AsDense) {τ : Ty}
    (hc : e.check = .ok τ) {fn : LinFn} {y : DenseNd F64} (hy : y.Ok) {tr : Bool} {p : Nat}
    (hfn : fn.Contraction y.shape.length tr p) {r c : Nat} (hrc : (if tr then τ.shape.reverse else τ.shape) = [r, c])
    (hyc : y.shape[p]? = some c) (hpos : 0 < (y.shape.eraseIdx p).prod)
    (hsz : 8 * ((max r 1 * (y.shape.eraseIdx p).prod : Nat) : Int) ≤ i64Max) :
    (∃ out, e.Linalg env fn y out) ∧
    ∀ out, e.Linalg env fn y out → ∃ d, out = .ret (.dense d) ∧ d.shape = y.shape.set p r ∧ d.data.length = d.shape.prod ∧
      ∀ z, InBounds d.shape z → RoundedDot F64.fp.toFpMul
        (((List.range c).map fun (j : Nat) => (e.dense (if tr then [(j : Int), z.getD p 0] else [z.getD p 0, (j : Int)]),
          y.elem (z.set p (j : Int))) : List (F64 × F64)) : Multiset (F64 × F64)) (d.elem z) := by
  obtain ⟨f, r0, c0, rfl, hin, hh⟩ := f64_held he hl hs hd hc
  obtain ⟨hex, hall⟩ := prog_linalg_any F64.mul_comm he hl hs hd.determined hc trivial hy hfn hrc hyc hpos hsz
  refine ⟨hex, fun out hout => ?_⟩
  obtain ⟨d, e1, hd1, hd2, hd3⟩ := hall out hout
  refine ⟨d, e1, hd1, hd2, fun z hz => ?_⟩
  have h := dotCell_rounded F64.fp F64.val_of_eq_zero (hd3 z hz)
  have hp : p < y.shape.length := by
    by_contra h
    rw [List.getElem?_eq_none (by omega)] at hyc
    cases hyc
  rw [show ((dotTerms e.stores tr p y z : List (F64 × F64)) : Multiset (F64 × F64)) = _ from
    (Multiset.coe_eq_coe.2 (dotTerms_perm (p := p) (z := z) hrc hin y)).symm] at h
  exact heldAs_dot (fun j hj => hh (dotKey tr p z j) (dotKey_bounds hrc hp (hd1 ▸ hz) (List.mem_range.1 hj))) h

/-! ### examples -/

/-- `X` is a 1 × 3 matrix `[[2 ^ 1023, NaN, 0]]` and `Y` is `[[2 ^ 1023, 1, 3]]`. -/
def exX64 : Prog F64 := .mat .csr 1 3 [0, 2] [0, 1] [F64.ofRat (2 ^ 1023), F64.nan]
def exY64 : Prog F64 := .mat .csr 1 3 [0, 3] [0, 1, 2] [F64.ofRat (2 ^ 1023), 1, F64.ofRat 3]
/-- `(X + Y) / 2 - X`. -/
def exP64 : Prog F64 := .bin .sub (.scalar .div (.bin .add exX64 exY64) (F64.ofRat 2)) exX64

theorem two_pow2 : (F64.ofRat 2).Pow2 := by
  have h : B64.Rep 2 := by simpa using F64.rep_pow2 (k := 1) (by decide) (by decide)
  have e := F64.ofRat_rep h
  exact ⟨e.1, 1, by decide, by decide, by rw [e.2]; norm_num⟩

theorem exP64_ok : exP64.LitsOk ∧ exP64.Small ∧ exP64.AsNumpy ∧ exP64.check = .ok (.mat .csr 1 3) := by
  refine ⟨⟨⟨⟨by decide, nofun⟩, ⟨by decide, nofun⟩⟩, ⟨by decide, nofun⟩⟩, by decide +kernel, ⟨⟨⟨trivial, trivial⟩, two_pow2⟩, trivial⟩, by decide +kernel⟩

theorem same_at {a b c : F64} (h : SameNum a b) (e : b = c) (hc : (c == 0) = false) : a = c := by
  subst e
  rcases h with h | ⟨-, h⟩
  · exact h
  · rw [hc] at h; cases h

/-- In every execution the elements are `[[inf, NaN, 1.5]]`: `2 ^ 1023 + 2 ^ 1023` overflows. -/
example {env : PyEnv F64} (he : env.Ok) : ∃ d, (∀ out, exP64.Toarray env out ↔ out = .ret d) ∧ d.shape = [1, 3] ∧
    d.elem [0, 0] = .inf false ∧ d.elem [0, 1] = .nan ∧ d.elem [0, 2] = F64.ofRat (3 / 2) := by
  obtain ⟨h1, h2, h3, h4⟩ := exP64_ok
  obtain ⟨f, r, c, d, e, ho, hs, -, hd⟩ := f64_numpy he h1 h2 h3 h4
  cases e
  have c0 : exP64.numpy [0, 0] = (F64.ofRat (2 ^ 1023) + F64.ofRat (2 ^ 1023)) / F64.ofRat 2 - F64.ofRat (2 ^ 1023) := rfl
  have c1 : exP64.numpy [0, 1] = (F64.nan + 1) / F64.ofRat 2 - F64.nan := rfl
  have c2 : exP64.numpy [0, 2] = (0 + F64.ofRat 3) / F64.ofRat 2 - 0 := rfl
  have d0 : (F64.ofRat (2 ^ 1023) + F64.ofRat (2 ^ 1023)) / F64.ofRat 2 - F64.ofRat (2 ^ 1023) = .inf false := by decide +kernel
  have d1 : (F64.nan + 1) / F64.ofRat 2 - F64.nan = .nan := by decide +kernel
  have d2 : (0 + F64.ofRat 3) / F64.ofRat 2 - 0 = F64.ofRat (3 / 2) := by decide +kernel
  have h (j : Nat) (hj : j < 3) : SameNum (d.elem [0, (j : Int)]) (exP64.numpy [0, (j : Int)]) :=
    hd [0, (j : Int)] (.cons ⟨by decide, by decide⟩ (.cons ⟨by omega, by omega⟩ .nil))
  refine ⟨d, ho, hs, ?_, ?_, ?_⟩
  · exact same_at (h 0 (by decide)) (c0.trans d0) rfl
  · exact same_at (h 1 (by decide)) (c1.trans d1) rfl
  · exact same_at (h 2 (by decide)) (c2.trans d2) (by decide +kernel)

/-- `Z` is the 1 × 3 matrix `[[0.5, 0, 3]]`. -/
def exZ64 : Prog F64 := .mat .csr 1 3 [0, 2] [0, 2] [F64.ofRat (1 / 2), F64.ofRat 3]

theorem exZ64_ok : exZ64.LitsOk ∧ exZ64.Small ∧ exZ64.AsDense ∧ exZ64.check = .ok (.mat .csr 1 3) :=
  ⟨⟨by decide, nofun⟩, by decide +kernel, trivial, by decide +kernel⟩
theorem exX64_ok : exX64.LitsOk ∧ exX64.Small ∧ exX64.AsDense ∧ exX64.check = .ok (.mat .csr 1 3) :=
  ⟨⟨by decide, nofun⟩, by decide +kernel, trivial, by decide +kernel⟩

theorem max64_big : 100 ≤ max64 := by
  unfold max64
  calc (100 : ℚ) ≤ 9007199254740991 * 1 := by norm_num
    _ ≤ (2 ^ 53 - 1) * 2 ^ (971 : ℤ) := by
      refine mul_le_mul (by norm_num) (one_le_zpow₀ (by norm_num) (by norm_num)) (by norm_num) (by norm_num)
theorem min64_small : (1 / 2 * 2 ^ (-1074 : ℤ) : ℚ) ≤ 1 / 2 ^ 60 := by
  calc (1 / 2 * 2 ^ (-1074 : ℤ) : ℚ) ≤ 1 * 2 ^ (-60 : ℤ) :=
        mul_le_mul (by norm_num) (zpow_le_zpow_right₀ (by norm_num) (by norm_num)) (zpow_pos (by norm_num) _).le (by norm_num)
    _ = 1 / 2 ^ 60 := by norm_num
theorem axis_one : (AxisArg.one 1).Valid 2 := by
  intro a ha
  rw [List.mem_singleton.1 ha]
  decide

theorem exNums : ((F64.ofRat (1 / 2)).IsFin ∧ (F64.ofRat (1 / 2)).val = 1 / 2) ∧ ((F64.ofRat 3).IsFin ∧ (F64.ofRat 3).val = 3) := by
  constructor
  · exact F64.ofRat_rep (by
      have := F64.rep_pow2 (k := -1) (by decide) (by decide)
      norm_num at this ⊢
      exact this)
  · exact F64.ofRat_rep ⟨⟨3, 0, by norm_num, by norm_num, by norm_num⟩, le_trans (by norm_num) max64_big⟩

theorem exZ64_fibre : fibre [1, 3] ((AxisArg.one 1).covers 2) false exZ64.dense [0] = [F64.ofRat (1 / 2), 0, F64.ofRat 3] := rfl

/-- `sum(Z, axis=1)` is next to 3.5, whatever the machine. -/
example {env : PyEnv F64} (he : env.Ok) {out : PyRes (RedOut F64 F64)} (h : exZ64.Reduce env .sum (.one 1) false out) :
    ∃ r v, out = .ret (.dense r) ∧ r.shape = [1] ∧ r.data[0]? = some v ∧ v.IsFin ∧ |v.val - 7 / 2| ≤ 1 / 2 ^ 50 := by
  obtain ⟨h1, h2, h3, h4⟩ := exZ64_ok
  obtain ⟨r, e, hr⟩ := f64_sum he h1 h2 h3 h4 (axis := .one 1) false axis_one (by simp) h
  have hsh : r.shape = [1] := hr.shape_eq
  obtain ⟨v, c, p⟩ := hr.cell [0] (by rw [hsh]; exact .cons ⟨by omega, by omega⟩ .nil)
  rw [hsh] at c
  have p : RoundedSum F64.fp.toFpAdd ((fibre [1, 3] ((AxisArg.one 1).covers 2) false exZ64.dense [0] : List F64) : Multiset F64) v := p
  rw [exZ64_fibre] at p
  obtain ⟨⟨f1, v1⟩, f2, v2⟩ := exNums
  have v0 : F64.fp.val 0 = 0 := rfl
  have v1 : F64.fp.val (F64.ofRat (1 / 2)) = 1 / 2 := v1
  have v2 : F64.fp.val (F64.ofRat 3) = 3 := v2
  have ee : F64.fp.eps = 1 / 2 ^ 53 := rfl
  have eb : F64.fp.big = max64 := rfl
  unfold RoundedSum at p
  simp only [Multiset.coe_card, Multiset.map_coe, Multiset.sum_coe, List.map_cons, List.map_nil, List.sum_cons, List.sum_nil,
    List.length_cons, List.length_nil, v1, v2, v0, ee, eb] at p
  have := p (by
    intro x hx
    have hx := Multiset.mem_coe.1 hx
    simp only [List.mem_cons, List.not_mem_nil, or_false] at hx
    rcases hx with rfl | rfl | rfl
    exacts [f1, trivial, f2]) (le_trans (by norm_num) max64_big)
  refine ⟨r, v, e, hsh, c, this.1, ?_⟩
  have h7 : v.val - 7 / 2 = F64.fp.val v - (1 / 2 + (0 + (3 + 0))) := by
    rw [show F64.fp.val v = v.val from rfl]; norm_num
  rw [h7]
  exact le_trans this.2 (by norm_num)

/-- `mean(Z, axis=1)` is next to 7/6. -/
example {env : PyEnv F64} (he : env.Ok) {out : PyRes (RedOut F64 F64)} (h : exZ64.Reduce env .mean (.one 1) false out) :
    ∃ r v, out = .ret (.dense r) ∧ r.shape = [1] ∧ r.data[0]? = some v ∧ v.IsFin ∧ |v.val - 7 / 6| ≤ 1 / 2 ^ 50 := by
  obtain ⟨h1, h2, h3, h4⟩ := exZ64_ok
  obtain ⟨r, e, hr⟩ := (f64_mean he h1 h2 h3 h4 (by decide) (by decide) (axis := .one 1) false axis_one (by simp)).2 out h
  have hsh : r.shape = [1] := hr.shape_eq
  obtain ⟨v, c, p⟩ := hr.cell [0] (by rw [hsh]; exact .cons ⟨by omega, by omega⟩ .nil)
  rw [hsh] at c
  have p : F64.RoundedMean (fibre [1, 3] ((AxisArg.one 1).covers 2) false exZ64.dense [0]) v := p
  rw [exZ64_fibre] at p
  obtain ⟨⟨f1, v1⟩, f2, v2⟩ := exNums
  have v0 : (0 : F64).val = 0 := rfl
  have := p (by simp) (by
    intro x hx
    simp only [List.mem_cons, List.not_mem_nil, or_false] at hx
    rcases hx with rfl | rfl | rfl
    exacts [f1, trivial, f2]) (by
      simp only [List.map_cons, List.map_nil, List.sum_cons, List.sum_nil, List.length_cons, List.length_nil, v1, v2, v0]
      exact le_trans (by norm_num) max64_big)
  simp only [List.map_cons, List.map_nil, List.sum_cons, List.sum_nil, List.length_cons, List.length_nil, v1, v2, v0] at this
  refine ⟨r, v, e, hsh, c, this.1, ?_⟩
  have h7 : v.val - 7 / 6 = v.val - (1 / 2 + (0 + (3 + 0))) / ((0 + 1 + 1 + 1 : Nat) : ℚ) := by norm_num
  rw [h7]
  exact le_trans this.2 (le_trans (add_le_add (le_refl _) min64_small) (by norm_num))

/-- `sum(X, axis=1)` is a `NaN`. -/
example {env : PyEnv F64} (he : env.Ok) {out : PyRes (RedOut F64 F64)} (h : exX64.Reduce env .sum (.one 1) false out) :
    ∃ r v, out = .ret (.dense r) ∧ r.shape = [1] ∧ r.data[0]? = some v ∧ isNan v = true := by
  obtain ⟨h1, h2, h3, h4⟩ := exX64_ok
  obtain ⟨r, e, hr⟩ := f64_sum_nan he h1 h2 h3 h4 (axis := .one 1) false axis_one (by simp) h
  have hsh : r.shape = [1] := hr.shape_eq
  obtain ⟨v, c, p⟩ := hr.cell [0] (by rw [hsh]; exact .cons ⟨by omega, by omega⟩ .nil)
  rw [hsh] at c
  exact ⟨r, v, e, hsh, c, p ⟨.nan, by
    rw [show fibre (Ty.mat .csr 1 3).shape ((AxisArg.one 1).covers 2) false exX64.dense [0] = [F64.ofRat (2 ^ 1023), .nan, 0] from rfl]
    simp, rfl⟩⟩

/-- `var(Z)` is not negative. -/
example {env : PyEnv F64} (he : env.Ok) {out : PyRes (RedOut F64 F64)} (h : exZ64.Reduce env (.var 0) (.one 1) false out) :
    ∃ r v, out = .ret (.dense r) ∧ r.data[0]? = some v ∧ flt v 0 = false := by
  obtain ⟨h1, h2, h3, h4⟩ := exZ64_ok
  obtain ⟨r, e, hr⟩ := (f64_var he h1 h2 h3 h4 (axis := .one 1) false axis_one (by simp) 0).1 h
  have hsh : r.shape = [1] := hr.shape_eq
  obtain ⟨v, c, p⟩ := hr.cell [0] (by rw [hsh]; exact .cons ⟨by omega, by omega⟩ .nil)
  rw [hsh] at c
  exact ⟨r, v, e, c, p⟩

/-- `cumsum(X, axis=1)` is `[[2 ^ 1023, NaN, NaN]]`. -/
example {env : PyEnv F64} (he : env.Ok) {out} (h : exX64.Scan env .sum (.one 1) out) :
    ∃ r, out = .ret r ∧ r.shape = [1, 3] ∧ r.data.getD 0 0 = F64.ofRat (2 ^ 1023) ∧ r.data.getD 2 0 = .nan := by
  obtain ⟨h1, h2, h3, h4⟩ := exX64_ok
  obtain ⟨r, e, n, m, hsh, r1, r2, r3⟩ := (f64_cumsum he h1 h2 h3 h4 (axis := .one 1) (rowwise := true) ⟨axis_one, by decide, by decide⟩
    (by decide) (fun _ _ _ => nofun)).2 out h
  cases hsh
  refine ⟨r, e, r1, same_at (r3 0 0 (by decide) (by decide)) (?_ : _ = 0 + F64.ofRat (2 ^ 1023)) ?_ |>.trans ?_,
    same_at (r3 0 2 (by decide) (by decide)) (?_ : _ = (0 + F64.ofRat (2 ^ 1023)) + .nan + 0) ?_ |>.trans ?_⟩
  · rfl
  · decide +kernel
  · decide +kernel
  · rfl
  · decide +kernel
  · decide +kernel

/-- `diff(X, axis=1)` is `[[NaN, NaN]]`. -/
example {env : PyEnv F64} (he : env.Ok) {out} (h : exX64.Diff env (1 : Nat) 1 out) :
    ∃ w : SpVal F64, out = .ret w.obj ∧ w.ty = .mat .csr 1 2 ∧ (w.held [0, 1]).head?.getD 0 = .nan := by
  obtain ⟨h1, h2, h3, h4⟩ := exX64_ok
  obtain ⟨w, e, ht, hw⟩ := (f64_diff he h1 h2 h3 h4 (axis := 1) (rowwise := true) (.inl rfl) (n := 1) (by decide) (by decide)).2 out h
  have ht : w.ty = .mat .csr 1 2 := ht
  refine ⟨w, e, ht, same_at (hw [0, 1] (by rw [ht]; exact .cons ⟨by omega, by omega⟩ (.cons ⟨by omega, by omega⟩ .nil)))
    (?_ : _ = (0 : F64) - .nan) rfl⟩
  rfl

/-- `matmul(Z, [0.5, 0, 3])` is next to 9.25. -/
example {env : PyEnv F64} (he : env.Ok) {out} (h : exZ64.Linalg env .matmul ⟨[3], [F64.ofRat (1 / 2), 0, F64.ofRat 3]⟩ out) :
    ∃ d, out = .ret (.dense d) ∧ d.shape = [1] ∧ (d.elem [0]).IsFin ∧ |(d.elem [0]).val - 37 / 4| ≤ 1 / 2 ^ 48 := by
  obtain ⟨h1, h2, h3, h4⟩ := exZ64_ok
  obtain ⟨d, e, hsh, -, hd⟩ := (f64_linalg he h1 h2 h3 h4 (fn := .matmul) (y := ⟨[3], [F64.ofRat (1 / 2), 0, F64.ofRat 3]⟩) ⟨rfl, by decide⟩
    (tr := false) (p := 0) ⟨rfl, .inl ⟨rfl, rfl⟩⟩ (r := 1) (c := 3) rfl rfl (by decide) (by decide)).2 out h
  have hsh : d.shape = [1] := hsh
  have p := hd [0] (by rw [hsh]; exact .cons ⟨by omega, by omega⟩ .nil)
  rw [show ((List.range 3).map fun (j : Nat) => (exZ64.dense (if false then [(j : Int), ([0] : List Int).getD 0 0] else [([0] : List Int).getD 0 0, (j : Int)]),
      (⟨[3], [F64.ofRat (1 / 2), 0, F64.ofRat 3]⟩ : DenseNd F64).elem (([0] : List Int).set 0 (j : Int)))) =
      [(F64.ofRat (1 / 2), F64.ofRat (1 / 2)), (0, 0), (F64.ofRat 3, F64.ofRat 3)] from rfl] at p
  obtain ⟨⟨f1, v1⟩, f2, v2⟩ := exNums
  have v0 : F64.fp.val 0 = 0 := rfl
  have v1 : F64.fp.val (F64.ofRat (1 / 2)) = 1 / 2 := v1
  have v2 : F64.fp.val (F64.ofRat 3) = 3 := v2
  have ee : F64.fp.eps = 1 / 2 ^ 53 := rfl
  have et : F64.fp.eta ≤ 1 / 2 ^ 60 := by
    show (1 / 2 * 2 ^ (-1074 : ℤ) : ℚ) ≤ _
    exact min64_small
  have et0 : 0 ≤ F64.fp.eta := F64.fp.eta_nonneg
  have eb : F64.fp.big = max64 := rfl
  unfold RoundedDot at p
  simp only [Multiset.coe_card, Multiset.map_coe, Multiset.sum_coe, List.map_cons, List.map_nil, List.sum_cons, List.sum_nil,
    List.length_cons, List.length_nil, v1, v2, v0, ee, eb] at p
  have := p (by
    intro x hx
    have hx := Multiset.mem_coe.1 hx
    simp only [List.mem_cons, List.not_mem_nil, or_false] at hx
    rcases hx with rfl | rfl | rfl
    exacts [⟨f1, f1⟩, ⟨trivial, trivial⟩, ⟨f2, f2⟩]) (le_trans (by norm_num at et ⊢; linarith) max64_big)
  refine ⟨d, e, hsh, this.1, ?_⟩
  have h7 : (d.elem [0]).val - 37 / 4 = F64.fp.val (d.elem [0]) - (1 / 2 * (1 / 2) + (0 * 0 + (3 * 3 + 0))) := by
    rw [show F64.fp.val (d.elem [0]) = (d.elem [0]).val from rfl]; norm_num
  rw [h7]
  exact le_trans this.2 (by norm_num at et ⊢; linarith)

/-- `[[1, 2, 3]]` plus `2 ^ 53`: the sum of 1 and `2 ^ 53` is rounded to `2 ^ 53`, one of the two nearest numbers. -/
example : (1 : F64) + F64.ofRat (2 ^ 53) = F64.ofRat (2 ^ 53) := by decide +kernel
end
end Lacuna
