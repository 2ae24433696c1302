import Verif.Props.Exact
/-
C90: division by numbers in binary64: how far the results are from the quotients, and where they are not what
NumPy computes.
-/
set_option linter.unusedSectionVars false
namespace Lacuna
section
variable [HasPowf F64]

/-! ### the elements of `x / alpha`, `x // alpha` and `x % alpha` -/

theorem valuesAt_map_val {K : Type} [BEq K] {V W : Type} (g : V → W) (l : List (K × V)) (x : K) :
    valuesAt (l.map fun e => (e.1, g e.2)) x = (valuesAt l x).map g := by
  unfold valuesAt
  rw [List.filter_map, List.map_map, List.map_map]
  rfl

/-- The operators by a number whose elements are computed one by one. -/
def BinOp.IsDiv : BinOp → Prop
  | .div => True
  | .floordiv => True
  | .rem => True
  | _ => False

theorem f64_scalar {env : PyEnv F64} (he : env.Ok) {a : Prog F64} {op : BinOp} (hop : op.IsDiv) {alpha : F64}
    (hl : a.LitsOk) (hs : (Prog.scalar op a alpha).Small) (hd : a.AsDense) {τ : Ty} (hc : (Prog.scalar op a alpha).check = .ok τ) :
    ∃ f r c d, τ = .mat f r c ∧ a.check = .ok τ ∧ (alpha == 0) = false ∧ (∀ out, (Prog.scalar op a alpha).Toarray env out ↔ out = .ret d) ∧
      d.shape = [r, c] ∧ d.data.length = r * c ∧ ∀ x, InBounds [r, c] x →
        ((a.dense x == 0) = true ∧ d.elem x = 0) ∨ ∃ w, SameNum w (a.dense x) ∧ d.elem x = op.scalarBits alpha w := by
  have hc' : (a.check.bind fun t => Ty.scalar op (alpha == 0) t) = .ok τ := hc
  cases ha : a.check with
  | error x => rw [ha] at hc'; cases hc'
  | ok t =>
    rw [ha] at hc'
    have hc' : Ty.scalar op (alpha == 0) t = .ok τ := hc'
    obtain ⟨f, r, c, rfl, -, h⟩ := f64_held he hl hs.1 hd ha
    have ht : τ = .mat f r c ∧ (alpha == 0) = false := by
      cases h0 : (alpha == 0) <;> rw [h0] at hc' <;> cases op <;>
        first | exact hop.elim | (simp [Ty.scalar] at hc'; first | exact ⟨hc'.symm, rfl⟩ | done)
    obtain ⟨rfl, h0⟩ := ht
    refine ⟨f, r, c, denseOf [r, c] (Prog.scalar op a alpha).denseCell, rfl, rfl, h0, fun out => ?_, rfl, ?_, fun x hx => ?_⟩
    · rw [prog_toarray he (e := .scalar op a alpha) hl hs hd.determined out, hc]
      rfl
    · show ((indicesOf [r, c]).map _).length = _
      rw [List.length_map, indicesOf_length]; simp
    · rw [denseOf_elem hx]
      unfold Prog.denseCell denseCell
      rw [Prog.compressed_ok hc, if_pos (show (Ty.mat f r c).compressed = true from rfl)]
      have e : valuesAt (Prog.scalar op a alpha).stores x = (valuesAt a.stores x).map (op.scalarBits alpha) :=
        valuesAt_map_val _ _ _
      rw [e]
      rcases h x hx with ⟨e1, e2⟩ | ⟨v, e1, e2⟩
      · exact .inl ⟨e2, by rw [e1]; rfl⟩
      · exact .inr ⟨v, e2, by rw [e1]; rfl⟩

end


section
variable [HasPowf F64]

/-- C90: `x / alpha` multiplies by the rounded reciprocal.  Its elements are the quotients up to a relative
error of `2 ^ -52 + 2 ^ -106`, twice that of a division, for divisors that are neither tiny nor huge. -/
theorem f64_div_error {env : PyEnv F64} (he : env.Ok) {a : Prog F64} {alpha : F64}
    (hl : a.LitsOk) (hs : (Prog.scalar .div a alpha).Small) (hd : a.AsDense) {τ : Ty} (hc : (Prog.scalar .div a alpha).check = .ok τ)
    (ha : alpha.IsFin) (h1 : (2 : ℚ) ^ (-1022 : ℤ) ≤ |alpha.val|) (h2 : |alpha.val| ≤ 2 ^ (1022 : ℤ)) :
    ∃ d, (∀ out, (Prog.scalar .div a alpha).Toarray env out ↔ out = .ret d) ∧ d.shape = τ.shape ∧ d.data.length = τ.shape.prod ∧
      ∀ x, InBounds τ.shape x → (a.dense x).IsFin → (1 + 1 / 2 ^ 53) * |(a.dense x).val / alpha.val| ≤ max64 →
        (d.elem x).IsFin ∧ |(d.elem x).val - (a.dense x).val / alpha.val| ≤
          (2 / 2 ^ 53 + 1 / 2 ^ 106) * |(a.dense x).val / alpha.val| + 1 / 2 * 2 ^ (-1074 : ℤ) := by
  obtain ⟨f, r, c, d, rfl, -, -, o, s, n, h⟩ := f64_scalar he (op := .div) trivial hl hs hd hc
  refine ⟨d, o, s, by rw [n]; show _ = [r, c].prod; simp, fun x hx hf hb => ?_⟩
  rcases h x hx with ⟨e1, e2⟩ | ⟨w, e1, e2⟩
  · rw [e2, F64.val_of_eq_zero _ e1]
    refine ⟨trivial, ?_⟩
    rw [show (0 : F64).val = 0 from rfl, zero_div, sub_zero, abs_zero, mul_zero, zero_add]
    exact (mul_pos (by norm_num) (zpow_pos (by norm_num) _)).le
  · have e2 : d.elem x = scaleBits (1 / alpha) w := e2
    rw [e2, f64_scale_ne (F64.recip_err ha h1 h2).2.2]
    rw [← F64.same_val e1] at hb ⊢
    exact F64.div_error (F64.same_fin e1 hf) ha h1 h2 hb

/-- C90: `x // alpha` is the floor of the quotient or, if the quotient is so close below a whole number that
it is rounded to it, that whole number. -/
theorem f64_floordiv {env : PyEnv F64} (he : env.Ok) {a : Prog F64} {alpha : F64}
    (hl : a.LitsOk) (hs : (Prog.scalar .floordiv a alpha).Small) (hd : a.AsDense) {τ : Ty}
    (hc : (Prog.scalar .floordiv a alpha).check = .ok τ) (ha : alpha.IsFin) :
    ∃ d, (∀ out, (Prog.scalar .floordiv a alpha).Toarray env out ↔ out = .ret d) ∧ d.shape = τ.shape ∧
      d.data.length = τ.shape.prod ∧
      ∀ x, InBounds τ.shape x → (a.dense x).IsFin → |(a.dense x).val / alpha.val| < 2 ^ 53 →
        (d.elem x).IsInt ∧ ((d.elem x).val = ⌊(a.dense x).val / alpha.val⌋ ∨ (d.elem x).val = ⌊(a.dense x).val / alpha.val⌋ + 1) := by
  obtain ⟨f, r, c, d, rfl, -, h0, o, s, n, h⟩ := f64_scalar he (op := .floordiv) trivial hl hs hd hc
  refine ⟨d, o, s, by rw [n]; show _ = [r, c].prod; simp, fun x hx hf hb => ?_⟩
  rcases h x hx with ⟨e1, e2⟩ | ⟨w, e1, e2⟩
  · rw [e2, F64.val_of_eq_zero _ e1]
    exact ⟨F64.int_zero, .inl (by rw [show (0 : F64).val = 0 from rfl, zero_div]; simp)⟩
  · have e2 : d.elem x = HasFloor.floor (w / alpha) := e2
    rw [e2]
    rw [← F64.same_val e1] at hb ⊢
    exact F64.floordiv_close (F64.same_fin e1 hf) ha (val_ne ha h0) hb

/-- C90: floor division of whole numbers below `2 ^ 53` by a whole number is exact. -/
theorem int_floordiv {env : PyEnv F64} (he : env.Ok) {a : Prog F64} {alpha : F64}
    (hl : a.LitsOk) (hs : (Prog.scalar .floordiv a alpha).Small) (hd : a.AsDense) {τ : Ty}
    (hc : (Prog.scalar .floordiv a alpha).check = .ok τ) (ha : alpha.IsInt) (hb : |alpha.val| ≤ 2 ^ 53) :
    ∃ d, (∀ out, (Prog.scalar .floordiv a alpha).Toarray env out ↔ out = .ret d) ∧ d.shape = τ.shape ∧
      d.data.length = τ.shape.prod ∧
      ∀ x, InBounds τ.shape x → (a.dense x).IsInt → |(a.dense x).val| < 2 ^ 53 →
        (d.elem x).IsInt ∧ (d.elem x).val = ⌊(a.dense x).val / alpha.val⌋ := by
  obtain ⟨f, r, c, d, rfl, -, h0, o, s, n, h⟩ := f64_scalar he (op := .floordiv) trivial hl hs hd hc
  refine ⟨d, o, s, by rw [n]; show _ = [r, c].prod; simp, fun x hx hf hx' => ?_⟩
  rcases h x hx with ⟨e1, e2⟩ | ⟨w, e1, e2⟩
  · rw [e2, F64.val_of_eq_zero _ e1]
    exact ⟨F64.int_zero, by rw [show (0 : F64).val = 0 from rfl, zero_div]; simp⟩
  · have e2 : d.elem x = HasFloor.floor (w / alpha) := e2
    rw [e2]
    rw [← F64.same_val e1] at hx' ⊢
    exact F64.floordiv_int (F64.int_same e1 hf) ha (val_ne ha.1 h0) hx' hb

/-- C90: the remainder of a whole number by a whole number is exact if their absolute values add up to at
most `2 ^ 53`. -/
theorem int_remainder {env : PyEnv F64} (he : env.Ok) {a : Prog F64} {alpha : F64}
    (hl : a.LitsOk) (hs : (Prog.scalar .rem a alpha).Small) (hd : a.AsDense) {τ : Ty}
    (hc : (Prog.scalar .rem a alpha).check = .ok τ) (ha : alpha.IsInt) :
    ∃ d, (∀ out, (Prog.scalar .rem a alpha).Toarray env out ↔ out = .ret d) ∧ d.shape = τ.shape ∧
      d.data.length = τ.shape.prod ∧
      ∀ x, InBounds τ.shape x → (a.dense x).IsInt → |(a.dense x).val| + |alpha.val| ≤ 2 ^ 53 →
        (d.elem x).IsInt ∧ (d.elem x).val = (a.dense x).val - alpha.val * ⌊(a.dense x).val / alpha.val⌋ := by
  obtain ⟨f, r, c, d, rfl, -, h0, o, s, n, h⟩ := f64_scalar he (op := .rem) trivial hl hs hd hc
  refine ⟨d, o, s, by rw [n]; show _ = [r, c].prod; simp, fun x hx hf hx' => ?_⟩
  rcases h x hx with ⟨e1, e2⟩ | ⟨w, e1, e2⟩
  · rw [e2, F64.val_of_eq_zero _ e1]
    exact ⟨F64.int_zero, by rw [show (0 : F64).val = 0 from rfl, zero_div]; simp⟩
  · have e2 : d.elem x = w - alpha * HasFloor.floor (w / alpha) := e2
    rw [e2]
    rw [← F64.same_val e1] at hx' ⊢
    exact F64.rem_int (F64.int_same e1 hf) ha (val_ne ha.1 h0) hx'

/-! ### disagreements

Every execution of the following programs gives the stated result; none of them is what NumPy computes
with dense arrays. -/

/-- The 1 × 1 matrix `[[v]]`, and the one without entries. -/
def exOne (v : F64) : Prog F64 := .mat .csr 1 1 [0, 1] [0] [v]
def exNone : Prog F64 := .mat .csr 1 1 [0, 0] [] []

theorem one_cell {env : PyEnv F64} (he : env.Ok) {e : Prog F64} (hl : e.LitsOk) (hs : e.Small) (hd : e.Determined)
    (hc : e.check = .ok (.mat .csr 1 1)) {v : F64} (hv : e.denseCell [0, 0] = v) (out : PyRes (DenseNd F64)) :
    e.Toarray env out ↔ out = .ret ⟨[1, 1], [v]⟩ := by
  rw [prog_toarray he hl hs hd out, hc]
  have : denseOf (Ty.mat .csr 1 1).shape e.denseCell = ⟨[1, 1], [v]⟩ := by rw [← hv]; rfl
  rw [← this]

theorem scalar_cell {env : PyEnv F64} (he : env.Ok) {op : BinOp} (v alpha : F64)
    (hs : (Prog.scalar op (exOne v) alpha).Small) (hc : (Prog.scalar op (exOne v) alpha).check = .ok (.mat .csr 1 1)) (out : PyRes (DenseNd F64)) :
    (Prog.scalar op (exOne v) alpha).Toarray env out ↔ out = .ret ⟨[1, 1], [op.scalarBits alpha v]⟩ := by
  refine one_cell he (e := .scalar op (exOne v) alpha) ⟨by decide, nofun⟩ hs trivial hc ?_ out
  unfold Prog.denseCell denseCell
  rw [Prog.compressed_ok hc, if_pos (show (Ty.mat .csr 1 1).compressed = true from rfl)]
  rfl

/-- `[[5]] / 3` is not the number next to 5/3. -/
theorem div_not_nearest {env : PyEnv F64} (he : env.Ok) : ∃ v, (∀ out, (Prog.scalar .div (exOne (F64.ofRat 5)) (F64.ofRat 3)).Toarray env out ↔
    out = .ret ⟨[1, 1], [v]⟩) ∧ flt v (F64.ofRat 5 / F64.ofRat 3) = true :=
  ⟨_, fun out => scalar_cell he _ _ (by decide +kernel) (by decide +kernel) out, by
    show flt (scaleBits (1 / F64.ofRat 3) (F64.ofRat 5)) _ = true
    decide +kernel⟩

/-- `[[5e-324]] / 5e-324` is infinite: the reciprocal overflows.  The quotient is 1. -/
theorem div_tiny {env : PyEnv F64} (he : env.Ok) (out : PyRes (DenseNd F64)) :
    ((Prog.scalar .div (exOne (F64.ofRat (1 / 2 ^ 1074))) (F64.ofRat (1 / 2 ^ 1074))).Toarray env out ↔ out = .ret ⟨[1, 1], [.inf false]⟩) ∧
    F64.ofRat (1 / 2 ^ 1074) / F64.ofRat (1 / 2 ^ 1074) = 1 := by
  refine ⟨?_, by decide +kernel⟩
  rw [scalar_cell he _ _ (by decide +kernel) (by decide +kernel)]
  rw [show BinOp.scalarBits .div (F64.ofRat (1 / 2 ^ 1074)) (F64.ofRat (1 / 2 ^ 1074)) = F64.inf false from by
    show scaleBits (1 / F64.ofRat (1 / 2 ^ 1074)) (F64.ofRat (1 / 2 ^ 1074)) = _
    decide +kernel]

/-- `[[nan]] / inf` and `[[inf]] / inf` are 0 and so is `[[nan]] * 0`: a factor 0 is not multiplied with.  In
IEEE 754 they are all `NaN`. -/
theorem nan_lost {env : PyEnv F64} (he : env.Ok) (out : PyRes (DenseNd F64)) :
    ((Prog.scalar .div (exOne .nan) (.inf false)).Toarray env out ↔ out = .ret ⟨[1, 1], [0]⟩) ∧
    ((Prog.scalar .div (exOne (.inf false)) (.inf false)).Toarray env out ↔ out = .ret ⟨[1, 1], [0]⟩) ∧
    ((Prog.scalar .mul (exOne .nan) 0).Toarray env out ↔ out = .ret ⟨[1, 1], [0]⟩) ∧
    F64.nan / .inf false = .nan ∧ F64.inf false / .inf false = .nan ∧ F64.nan * 0 = .nan := by
  refine ⟨?_, ?_, ?_, rfl, rfl, rfl⟩
  · rw [scalar_cell he _ _ (by decide +kernel) (by decide +kernel)]
    rw [show BinOp.scalarBits .div (.inf false) F64.nan = 0 from by
      show scaleBits (1 / F64.inf false) F64.nan = _
      decide +kernel]
  · rw [scalar_cell he _ _ (by decide +kernel) (by decide +kernel)]
    rw [show BinOp.scalarBits .div (.inf false) (F64.inf false) = 0 from by
      show scaleBits (1 / F64.inf false) (F64.inf false) = _
      decide +kernel]
  · rw [scalar_cell he _ _ (by decide +kernel) (by decide +kernel)]
    rw [show BinOp.scalarBits .mul 0 F64.nan = 0 from by
      show scaleBits 0 F64.nan = _
      decide +kernel]

/-- `floor_divide([[1]], 0.1)` is 10 although 10 times the divisor exceeds 1; `remainder([[1]], 0.1)` is 0
instead of about 0.1. -/
theorem floordiv_tenth {env : PyEnv F64} (he : env.Ok) (out : PyRes (DenseNd F64)) :
    ((Prog.scalar .floordiv (exOne 1) (F64.ofRat (1 / 10))).Toarray env out ↔ out = .ret ⟨[1, 1], [F64.ofRat 10]⟩) ∧
    ((Prog.scalar .rem (exOne 1) (F64.ofRat (1 / 10))).Toarray env out ↔ out = .ret ⟨[1, 1], [0]⟩) ∧
    ⌊1 / (F64.ofRat (1 / 10)).val⌋ = 9 := by
  refine ⟨?_, ?_, by decide +kernel⟩
  · rw [scalar_cell he _ _ (by decide +kernel) (by decide +kernel)]
    rw [show BinOp.scalarBits .floordiv (F64.ofRat (1 / 10)) 1 = F64.ofRat 10 from by
      show HasFloor.floor (1 / F64.ofRat (1 / 10)) = _
      decide +kernel]
  · rw [scalar_cell he _ _ (by decide +kernel) (by decide +kernel)]
    rw [show BinOp.scalarBits .rem (F64.ofRat (1 / 10)) 1 = 0 from by
      show 1 - F64.ofRat (1 / 10) * HasFloor.floor (1 / F64.ofRat (1 / 10)) = _
      decide +kernel]

/-- `remainder([[3.9]], 1.3)` is negative, although the remainder by a positive number is not. -/
theorem rem_negative {env : PyEnv F64} (he : env.Ok) : ∃ v, (∀ out, (Prog.scalar .rem (exOne (F64.ofRat (39 / 10))) (F64.ofRat (13 / 10))).Toarray env out ↔
    out = .ret ⟨[1, 1], [v]⟩) ∧ flt v 0 = true ∧ flt 0 (F64.ofRat (13 / 10)) = true :=
  ⟨_, fun out => scalar_cell he _ _ (by decide +kernel) (by decide +kernel) out, by
    show flt (F64.ofRat (39 / 10) - F64.ofRat (13 / 10) * HasFloor.floor (F64.ofRat (39 / 10) / F64.ofRat (13 / 10))) 0 = true
    decide +kernel, by decide +kernel⟩

/-- `[[inf]] * [[ ]]` and `[[1]] / [[ ]]` are 0, and so is `[[1]] / [[5e-324]]`, whose quotient overflows.  In
IEEE 754 they are a `NaN` and two infinities. -/
theorem infinity_lost {env : PyEnv F64} (he : env.Ok) (out : PyRes (DenseNd F64)) :
    ((Prog.bin .mul (exOne (.inf false)) exNone).Toarray env out ↔ out = .ret ⟨[1, 1], [0]⟩) ∧
    ((Prog.bin .div (exOne 1) exNone).Toarray env out ↔ out = .ret ⟨[1, 1], [0]⟩) ∧
    ((Prog.bin .div (exOne 1) (exOne (F64.ofRat (1 / 2 ^ 1074)))).Toarray env out ↔ out = .ret ⟨[1, 1], [0]⟩) ∧
    F64.inf false * 0 = .nan ∧ (1 : F64) / 0 = .inf false ∧ 1 / F64.ofRat (1 / 2 ^ 1074) = .inf false := by
  refine ⟨?_, ?_, ?_, rfl, by decide +kernel, by decide +kernel⟩
  · exact one_cell he (e := .bin .mul (exOne (.inf false)) exNone) ⟨⟨by decide, nofun⟩, ⟨by decide, nofun⟩⟩ (by decide +kernel) ⟨trivial, trivial⟩
      (by decide +kernel) (by rfl) out
  · exact one_cell he (e := .bin .div (exOne 1) exNone) ⟨⟨by decide, nofun⟩, ⟨by decide, nofun⟩⟩ (by decide +kernel) ⟨trivial, trivial⟩
      (by decide +kernel) (by rfl) out
  · exact one_cell he (e := .bin .div (exOne 1) (exOne (F64.ofRat (1 / 2 ^ 1074)))) ⟨⟨by decide, nofun⟩, ⟨by decide, nofun⟩⟩ (by decide +kernel) ⟨trivial, trivial⟩
      (by decide +kernel) (by
        have hk : (if 0 + F64.ofRat (1 / 2 ^ 1074) == 0 then none else keepFinite isFinite ((0 + 1) / (0 + F64.ofRat (1 / 2 ^ 1074))) : Option F64) = none := by
          decide +kernel
        have hst : (Prog.bin .div (exOne 1) (exOne (F64.ofRat (1 / 2 ^ 1074)))).stores = [] := by
          have ho : (Prog.bin .div (exOne 1) (exOne (F64.ofRat (1 / 2 ^ 1074)))).order = [[0, 0]] := rfl
          unfold Prog.stores tabulate
          rw [ho, List.filterMap_cons_none, List.filterMap_nil]
          show Option.map _ (if 0 + F64.ofRat (1 / 2 ^ 1074) == 0 then none else keepFinite isFinite ((0 + 1) / (0 + F64.ofRat (1 / 2 ^ 1074))) : Option F64) = none
          rw [hk]
          rfl
        unfold Prog.denseCell
        rw [hst]
        rfl) out

/-! ### examples -/

variable [HasMinMax F64]

/-- `[[5]] / 3` is next to 5/3. -/
example {env : PyEnv F64} (he : env.Ok) : ∃ d : DenseNd F64, (∀ out, (Prog.scalar .div (exOne (F64.ofRat 5)) (F64.ofRat 3)).Toarray env out ↔ out = .ret d) ∧
    |(d.elem [0, 0]).val - 5 / 3| ≤ 1 / 2 ^ 50 := by
  obtain ⟨f3, v3⟩ := exNums.2
  have n5 := int_lit 5 (by norm_num)
  have e5 : (exOne (F64.ofRat 5)).dense [0, 0] = F64.ofRat 5 := rfl
  have v5 : (F64.ofRat 5).val = 5 := by exact_mod_cast n5.2
  obtain ⟨d, h1, -, -, h⟩ := f64_div_error he (a := exOne (F64.ofRat 5)) (alpha := F64.ofRat 3) ⟨by decide, nofun⟩ (by decide +kernel) trivial
    (τ := .mat .csr 1 1) (by decide +kernel) f3
    (by rw [v3]; exact le_trans (zpow_le_one_of_nonpos₀ (by norm_num) (by norm_num)) (by norm_num))
    (by rw [v3]; refine le_trans ?_ (zpow_le_zpow_right₀ (by norm_num) (show (2 : ℤ) ≤ 1022 by norm_num)); norm_num)
  have := (h [0, 0] (.cons ⟨by omega, by omega⟩ (.cons ⟨by omega, by omega⟩ .nil)) (by rw [e5]; exact_mod_cast n5.1.1) (by
    rw [e5, v3, v5]; exact le_trans (by norm_num) max64_big)).2
  rw [e5, v3, v5] at this
  exact ⟨d, h1, le_trans this (le_trans (add_le_add (le_refl _) min64_small) (by norm_num))⟩

/-- `floor_divide([[-7]], 2)` is -4 and `remainder([[-7]], 2)` is 1. -/
example {env : PyEnv F64} (he : env.Ok) :
    (∃ d : DenseNd F64, (∀ out, (Prog.scalar .floordiv (exOne (F64.ofRat (-7 : ℤ))) (F64.ofRat (2 : ℤ))).Toarray env out ↔ out = .ret d) ∧
      (d.elem [0, 0]).val = -4) ∧
    ∃ d : DenseNd F64, (∀ out, (Prog.scalar .rem (exOne (F64.ofRat (-7 : ℤ))) (F64.ofRat (2 : ℤ))).Toarray env out ↔ out = .ret d) ∧
      (d.elem [0, 0]).val = 1 := by
  have n7 := int_lit (-7) (by norm_num)
  have n2 := int_lit 2 (by norm_num)
  have e7 : (exOne (F64.ofRat (-7 : ℤ))).dense [0, 0] = F64.ofRat (-7 : ℤ) := rfl
  have hfl : ⌊((-7 : ℤ) : ℚ) / ((2 : ℤ) : ℚ)⌋ = -4 := by norm_num [Int.floor_eq_iff]
  obtain ⟨d, h1, -, -, h⟩ := int_floordiv he (a := exOne (F64.ofRat (-7 : ℤ))) (alpha := F64.ofRat (2 : ℤ)) ⟨by decide, nofun⟩ (by decide +kernel) trivial
    (τ := .mat .csr 1 1) (by decide +kernel) n2.1 (by rw [n2.2]; norm_num)
  obtain ⟨d', h1', -, -, h'⟩ := int_remainder he (a := exOne (F64.ofRat (-7 : ℤ))) (alpha := F64.ofRat (2 : ℤ)) ⟨by decide, nofun⟩ (by decide +kernel) trivial
    (τ := .mat .csr 1 1) (by decide +kernel) n2.1
  have k := (h [0, 0] (.cons ⟨by omega, by omega⟩ (.cons ⟨by omega, by omega⟩ .nil)) (by rw [e7]; exact n7.1) (by rw [e7, n7.2]; norm_num)).2
  have k' := (h' [0, 0] (.cons ⟨by omega, by omega⟩ (.cons ⟨by omega, by omega⟩ .nil)) (by rw [e7]; exact n7.1) (by rw [e7, n7.2, n2.2]; norm_num)).2
  rw [e7, n7.2, n2.2, hfl] at k k'
  exact ⟨⟨d, h1, by rw [k]; norm_num⟩, d', h1', by rw [k']; norm_num⟩

/-- `floor_divide([[1]], 0.5)` is 2 or 3. -/
example {env : PyEnv F64} (he : env.Ok) : ∃ d : DenseNd F64, (∀ out, (Prog.scalar .floordiv (exOne (F64.ofRat (1 : ℤ))) (F64.ofRat (1 / 2))).Toarray env out ↔ out = .ret d) ∧
    ((d.elem [0, 0]).val = 2 ∨ (d.elem [0, 0]).val = 3) := by
  have n1 := int_lit 1 (by norm_num)
  obtain ⟨f2, v2⟩ := exNums.1
  have e1 : (exOne (F64.ofRat (1 : ℤ))).dense [0, 0] = F64.ofRat (1 : ℤ) := rfl
  obtain ⟨d, h1, -, -, h⟩ := f64_floordiv he (a := exOne (F64.ofRat (1 : ℤ))) (alpha := F64.ofRat (1 / 2)) ⟨by decide, nofun⟩ (by decide +kernel) trivial
    (τ := .mat .csr 1 1) (by decide +kernel) f2
  have k := (h [0, 0] (.cons ⟨by omega, by omega⟩ (.cons ⟨by omega, by omega⟩ .nil)) (by rw [e1]; exact n1.1.1) (by rw [e1, n1.2, v2]; norm_num)).2
  rw [e1, n1.2, v2] at k
  norm_num at k
  exact ⟨d, h1, k⟩

end
end Lacuna
