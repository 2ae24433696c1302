import Verif.Props.F64Div
/-
C94: quotients, floor divisions and remainders of two arrays in binary64.
-/
set_option linter.unusedSectionVars false
namespace Lacuna
section
variable [HasPowf F64]

/-- What IEEE 754 gives for two elements. -/
def BinOp.quotient (op : BinOp) (x y : F64) : F64 :=
  match op with
  | .div => x / y
  | .floordiv => HasFloor.floor (x / y)
  | .rem => x - y * HasFloor.floor (x / y)
  | _ => 0

theorem dense_quotient {op : BinOp} (hop : op.IsDiv) (a b : Prog F64) (x : List Int) :
    (Prog.bin op a b).dense x = (op.quotient (a.dense x) (b.dense x)).orZero := by
  cases op <;> first | exact hop.elim | rfl

theorem asDense_quotient {op : BinOp} (hop : op.IsDiv) {a b : Prog F64} (ha : a.AsDense) (hb : b.AsDense) : (Prog.bin op a b).AsDense := by
  cases op <;> first | exact hop.elim | exact ⟨ha, hb⟩

theorem quotLike_of {op : BinOp} (hop : op.IsDiv) : QuotLike op.quotient := by
  cases op with
  | div => exact quotLike_div
  | floordiv => exact quotLike_floordiv
  | rem => exact quotLike_rem
  | _ => exact hop.elim

/-- C94: `divide(x, y)`, `floor_divide(x, y)` and `remainder(x, y)` of two arrays have one outcome, on every machine.
Its elements are `x / y`, `floor(x / y)` and `x - y * floor(x / y)` wherever these are finite, up to the sign of
zeros, and zero everywhere else.  No condition on zeros, infinities and `NaN` in the operands is needed. -/
theorem f64_quotient {env : PyEnv F64} (he : env.Ok) {op : BinOp} (hop : op.IsDiv) {a b : Prog F64}
    (hl : (Prog.bin op a b).LitsOk) (hs : (Prog.bin op a b).Small) (ha : a.AsDense) (hb : b.AsDense) {τ : Ty}
    (hc : (Prog.bin op a b).check = .ok τ) :
    ∃ d, (∀ out, (Prog.bin op a b).Toarray env out ↔ out = .ret d) ∧ d.shape = τ.shape ∧ d.data.length = τ.shape.prod ∧
      ∀ x, InBounds τ.shape x →
        ((op.quotient (a.dense x) (b.dense x)).IsFin → SameNum (d.elem x) (op.quotient (a.dense x) (b.dense x))) ∧
        (¬ (op.quotient (a.dense x) (b.dense x)).IsFin → (d.elem x == 0) = true) := by
  obtain ⟨f, r, c, d, rfl, o, s, n, h⟩ := f64_toarray he hl hs (asDense_quotient hop ha hb) hc
  refine ⟨d, o, s, by rw [n]; show _ = [r, c].prod; simp, fun x hx => ?_⟩
  have h := h x hx
  rw [dense_quotient hop] at h
  refine ⟨fun hf => ?_, fun hf => ?_⟩
  · rw [f64_orZero hf] at h; exact h
  · rw [f64_orZero_not hf] at h
    rcases h with h | h
    · rw [h]; rfl
    · exact h.1

/-- C94: dividing by zero gives zero, in all three, whatever is divided; so does a `NaN` in one of the
operands, and an infinite dividend.  (NumPy has an infinity or `NaN` there.) -/
theorem f64_quotient_zero {env : PyEnv F64} (he : env.Ok) {op : BinOp} (hop : op.IsDiv) {a b : Prog F64}
    (hl : (Prog.bin op a b).LitsOk) (hs : (Prog.bin op a b).Small) (ha : a.AsDense) (hb : b.AsDense) {τ : Ty}
    (hc : (Prog.bin op a b).check = .ok τ) {out : PyRes (DenseNd F64)} (ho : (Prog.bin op a b).Toarray env out) :
    ∃ d, out = .ret d ∧ ∀ x, InBounds τ.shape x →
      ((b.dense x == 0) = true ∨ isNan (b.dense x) = true ∨ ¬ (a.dense x).IsFin) → (d.elem x == 0) = true := by
  obtain ⟨d, o, -, -, h⟩ := f64_quotient he hop hl hs ha hb hc
  refine ⟨d, (o out).1 ho, fun x hx hz => (h x hx).2 ?_⟩
  rcases hz with hz | hz | hz
  · obtain ⟨s, e⟩ := F64.eq_zero_iff.1 hz
    rw [e]
    exact (quotLike_of hop).zero_right _ s
  · have e : b.dense x = .nan := by
      generalize b.dense x = v at hz
      cases v <;> first | rfl | cases hz
    rw [e]
    generalize a.dense x = v
    cases op with
    | div => cases v <;> exact id
    | floordiv => cases v <;> exact id
    | rem => cases v <;> exact id
    | _ => exact hop.elim
  · generalize a.dense x = v at hz
    generalize b.dense x = w
    cases v with
    | zero s => exact (hz trivial).elim
    | num x => exact (hz trivial).elim
    | nan =>
      cases op with
      | div => cases w <;> exact id
      | floordiv => cases w <;> exact id
      | rem => cases w <;> exact id
      | _ => exact hop.elim
    | inf s =>
      cases op with
      | div => cases w <;> exact id
      | floordiv => cases w <;> exact id
      | rem =>
        show ¬ (F64.inf s - w * ((F64.inf s / w).flr)).IsFin
        cases w with
        | num y =>
          have e : F64.inf s - F64.num y * (F64.inf s / F64.num y).flr =
              F64.add (.inf s) (.inf (!(xor (decide (y.1 < 0)) (xor s (decide (y.1 < 0)))))) := rfl
          rw [e]
          cases s <;> cases decide (y.1 < 0) <;> exact id
        | _ => exact id
      | _ => exact hop.elim

/-- C94: the elements of `divide(x, y)` are the quotients, rounded once: no binary64 number is closer to the
exact quotient (unlike `x / alpha`, which multiplies by a reciprocal). -/
theorem f64_divide_nearest {env : PyEnv F64} (he : env.Ok) {a b : Prog F64}
    (hl : (Prog.bin .div a b).LitsOk) (hs : (Prog.bin .div a b).Small) (ha : a.AsDense) (hb : b.AsDense) {τ : Ty}
    (hc : (Prog.bin .div a b).check = .ok τ) {out : PyRes (DenseNd F64)} (ho : (Prog.bin .div a b).Toarray env out) :
    ∃ d, out = .ret d ∧ ∀ x, InBounds τ.shape x → (a.dense x).IsFin → (b.dense x).IsFin → (b.dense x).val ≠ 0 →
      |(a.dense x).val / (b.dense x).val| ≤ max64 → (d.elem x).IsFin ∧ ∀ q, B64.Rep q →
        |(d.elem x).val - (a.dense x).val / (b.dense x).val| ≤ |q - (a.dense x).val / (b.dense x).val| := by
  obtain ⟨d, o, -, -, h⟩ := f64_quotient he (op := .div) trivial hl hs ha hb hc
  refine ⟨d, (o out).1 ho, fun x hx fa fb h0 hm => ?_⟩
  obtain ⟨h1, h2⟩ := F64.div_rnd fa fb h0 hm
  have hs := (h x hx).1 h1
  have e : (d.elem x).val = (a.dense x / b.dense x).val := F64.same_val hs
  refine ⟨F64.same_fin hs h1, fun q hq => ?_⟩
  rw [e, h2]
  exact B64.rnd64_nearest _ hq

/-- C94: the elements of `floor_divide(x, y)` are the floors of the quotients or, where a quotient is so close
below a whole number that it is rounded to it, that whole number. -/
theorem f64_floor_divide {env : PyEnv F64} (he : env.Ok) {a b : Prog F64}
    (hl : (Prog.bin .floordiv a b).LitsOk) (hs : (Prog.bin .floordiv a b).Small) (ha : a.AsDense) (hb : b.AsDense) {τ : Ty}
    (hc : (Prog.bin .floordiv a b).check = .ok τ) {out : PyRes (DenseNd F64)} (ho : (Prog.bin .floordiv a b).Toarray env out) :
    ∃ d, out = .ret d ∧ ∀ x, InBounds τ.shape x → (a.dense x).IsFin → (b.dense x).IsFin → (b.dense x).val ≠ 0 →
      |(a.dense x).val / (b.dense x).val| < 2 ^ 53 → (d.elem x).IsInt ∧
        ((d.elem x).val = ⌊(a.dense x).val / (b.dense x).val⌋ ∨ (d.elem x).val = ⌊(a.dense x).val / (b.dense x).val⌋ + 1) := by
  obtain ⟨d, o, -, -, h⟩ := f64_quotient he (op := .floordiv) trivial hl hs ha hb hc
  refine ⟨d, (o out).1 ho, fun x hx fa fb h0 hm => ?_⟩
  obtain ⟨h1, h2⟩ := F64.floordiv_close fa fb h0 hm
  have hs := (h x hx).1 h1.1
  have e : (d.elem x).val = (HasFloor.floor (a.dense x / b.dense x)).val := F64.same_val hs
  exact ⟨F64.int_same hs h1, by rw [e]; exact h2⟩

end

/-! ### examples -/

section
variable [HasPowf F64] [HasMinMax F64]

/-- `[[7, -7, 1, 0, inf, NaN]]` and `[[2, 2, 0, 3, 1, 1]]`; the zeros are not stored. -/
def exN94 : Prog F64 := .mat .csr 1 6 [0, 5] [0, 1, 2, 4, 5] [F64.ofRat (7 : ℤ), F64.ofRat (-7 : ℤ), 1, .inf false, .nan]
def exD94 : Prog F64 := .mat .csr 1 6 [0, 5] [0, 1, 3, 4, 5] [F64.ofRat (2 : ℤ), F64.ofRat (2 : ℤ), F64.ofRat (3 : ℤ), 1, 1]

theorem ex94_ok (op : BinOp) : (Prog.bin op exN94 exD94).LitsOk ∧ (Prog.bin op exN94 exD94).Small ∧ exN94.AsDense ∧ exD94.AsDense ∧
    (Prog.bin op exN94 exD94).check = .ok (.mat .csr 1 6) :=
  ⟨⟨⟨by decide, nofun⟩, ⟨by decide, nofun⟩⟩, by cases op <;> decide +kernel, trivial, trivial, by cases op <;> decide +kernel⟩

/-- `floor_divide` is `[[3, -4, 0, 0, 0, 0]]`, `remainder` starts with `[[1, 1, …`. -/
example {env : PyEnv F64} (he : env.Ok) :
    (∃ d : DenseNd F64, (∀ out, (Prog.bin .floordiv exN94 exD94).Toarray env out ↔ out = .ret d) ∧ d.elem [0, 0] = F64.ofRat (3 : ℤ) ∧
      d.elem [0, 1] = F64.ofRat (-4 : ℤ) ∧ (d.elem [0, 2] == 0) = true ∧ (d.elem [0, 3] == 0) = true ∧ (d.elem [0, 4] == 0) = true ∧
      (d.elem [0, 5] == 0) = true) ∧
    ∃ d : DenseNd F64, (∀ out, (Prog.bin .rem exN94 exD94).Toarray env out ↔ out = .ret d) ∧ d.elem [0, 0] = 1 ∧ d.elem [0, 1] = 1 := by
  have hb (j : Nat) (hj : j < 6) : InBounds (Ty.mat .csr 1 6).shape [0, (j : Int)] :=
    .cons ⟨by decide, by decide⟩ (.cons ⟨by omega, by omega⟩ .nil)
  constructor
  · obtain ⟨h1, h2, h3, h4, h5⟩ := ex94_ok .floordiv
    obtain ⟨d, o, -, -, h⟩ := f64_quotient he (op := .floordiv) trivial h1 h2 h3 h4 h5
    have c0 : exN94.dense [0, 0] = F64.ofRat (7 : ℤ) ∧ exD94.dense [0, 0] = F64.ofRat (2 : ℤ) := ⟨rfl, rfl⟩
    have c1 : exN94.dense [0, 1] = F64.ofRat (-7 : ℤ) ∧ exD94.dense [0, 1] = F64.ofRat (2 : ℤ) := ⟨rfl, rfl⟩
    have c2 : exN94.dense [0, 2] = 1 ∧ exD94.dense [0, 2] = 0 := ⟨rfl, rfl⟩
    have c3 : exN94.dense [0, 3] = 0 ∧ exD94.dense [0, 3] = F64.ofRat (3 : ℤ) := ⟨rfl, rfl⟩
    have c4 : exN94.dense [0, 4] = .inf false ∧ exD94.dense [0, 4] = 1 := ⟨rfl, rfl⟩
    have c5 : exN94.dense [0, 5] = .nan ∧ exD94.dense [0, 5] = 1 := ⟨rfl, rfl⟩
    have e0 : BinOp.floordiv.quotient (F64.ofRat (7 : ℤ)) (F64.ofRat (2 : ℤ)) = F64.ofRat (3 : ℤ) := by decide +kernel
    have e1 : BinOp.floordiv.quotient (F64.ofRat (-7 : ℤ)) (F64.ofRat (2 : ℤ)) = F64.ofRat (-4 : ℤ) := by decide +kernel
    have e2 : BinOp.floordiv.quotient (1 : F64) 0 = .inf false := by decide +kernel
    have e3 : BinOp.floordiv.quotient (0 : F64) (F64.ofRat (3 : ℤ)) = 0 := by decide +kernel
    have e4 : BinOp.floordiv.quotient (F64.inf false) 1 = .inf false := by decide +kernel
    have e5 : BinOp.floordiv.quotient F64.nan 1 = .nan := by decide +kernel
    have f3 : (F64.ofRat (3 : ℤ)).IsFin ∧ (F64.ofRat (3 : ℤ) == 0) = false := ⟨f64_finite.1 (by decide +kernel), by decide +kernel⟩
    have f4 : (F64.ofRat (-4 : ℤ)).IsFin ∧ (F64.ofRat (-4 : ℤ) == 0) = false := ⟨f64_finite.1 (by decide +kernel), by decide +kernel⟩
    refine ⟨d, o, ?_, ?_, ?_, ?_, ?_, ?_⟩
    · have h := (h [0, (0 : Nat)] (hb 0 (by decide))).1
      rw [show ((0 : Nat) : Int) = 0 from rfl, c0.1, c0.2, e0] at h
      exact same_at (h f3.1) rfl f3.2
    · have h := (h [0, (1 : Nat)] (hb 1 (by decide))).1
      rw [show ((1 : Nat) : Int) = 1 from rfl, c1.1, c1.2, e1] at h
      exact same_at (h f4.1) rfl f4.2
    · have h := (h [0, (2 : Nat)] (hb 2 (by decide))).2
      rw [show ((2 : Nat) : Int) = 2 from rfl, c2.1, c2.2, e2] at h
      exact h id
    · have h := (h [0, (3 : Nat)] (hb 3 (by decide))).1
      rw [show ((3 : Nat) : Int) = 3 from rfl, c3.1, c3.2, e3] at h
      rcases h trivial with h | h
      · rw [h]; rfl
      · exact h.1
    · have h := (h [0, (4 : Nat)] (hb 4 (by decide))).2
      rw [show ((4 : Nat) : Int) = 4 from rfl, c4.1, c4.2, e4] at h
      exact h id
    · have h := (h [0, (5 : Nat)] (hb 5 (by decide))).2
      rw [show ((5 : Nat) : Int) = 5 from rfl, c5.1, c5.2, e5] at h
      exact h id
  · obtain ⟨h1, h2, h3, h4, h5⟩ := ex94_ok .rem
    obtain ⟨d, o, -, -, h⟩ := f64_quotient he (op := .rem) trivial h1 h2 h3 h4 h5
    have c0 : exN94.dense [0, 0] = F64.ofRat (7 : ℤ) ∧ exD94.dense [0, 0] = F64.ofRat (2 : ℤ) := ⟨rfl, rfl⟩
    have c1 : exN94.dense [0, 1] = F64.ofRat (-7 : ℤ) ∧ exD94.dense [0, 1] = F64.ofRat (2 : ℤ) := ⟨rfl, rfl⟩
    have e0 : BinOp.rem.quotient (F64.ofRat (7 : ℤ)) (F64.ofRat (2 : ℤ)) = 1 := by decide +kernel
    have e1 : BinOp.rem.quotient (F64.ofRat (-7 : ℤ)) (F64.ofRat (2 : ℤ)) = 1 := by decide +kernel
    have f1 : (1 : F64).IsFin ∧ ((1 : F64) == 0) = false := ⟨f64_finite.1 (by decide +kernel), by decide +kernel⟩
    refine ⟨d, o, ?_, ?_⟩
    · have h := (h [0, (0 : Nat)] (hb 0 (by decide))).1
      rw [show ((0 : Nat) : Int) = 0 from rfl, c0.1, c0.2, e0] at h
      exact same_at (h f1.1) rfl f1.2
    · have h := (h [0, (1 : Nat)] (hb 1 (by decide))).1
      rw [show ((1 : Nat) : Int) = 1 from rfl, c1.1, c1.2, e1] at h
      exact same_at (h f1.1) rfl f1.2

/-- `((B // A) + B % A).prune(2)` with `A = [[2, 0, -3]]` and `B = [[4, 1, 5]]`, see C89. -/
def exQ94 : Prog F64 := .prune (F64.ofRat (2 : ℤ)) (.bin .add (.bin .floordiv exB53 exA53) (.bin .rem exB53 exA53))

theorem exQ94_ok : exQ94.LitsOk ∧ exQ94.Small ∧ exQ94.check = .ok (.mat .csr 1 3) :=
  ⟨⟨⟨⟨by decide, nofun⟩, ⟨by decide, nofun⟩⟩, ⟨⟨by decide, nofun⟩, ⟨by decide, nofun⟩⟩⟩, by decide +kernel, by decide +kernel⟩

theorem exQ94_exact {x : List Int} (hx : InBounds [1, 3] x) :
    (Prog.bin .add (.bin .floordiv exB53 exA53) (.bin .rem exB53 exA53)).exact x = if x = [0, 0] then 2 else if x = [0, 2] then -3 else 0 := by
  have e : (Prog.bin .add (.bin .floordiv exB53 exA53) (.bin .rem exB53 exA53)).exact x =
      (if (exA53.dense x).val = 0 then 0 else ((⌊(exB53.dense x).val / (exA53.dense x).val⌋ : ℤ) : ℚ)) +
      (if (exA53.dense x).val = 0 then 0 else (exB53.dense x).val - (exA53.dense x).val * ⌊(exB53.dense x).val / (exA53.dense x).val⌋) := rfl
  rw [e, (exA53_dense hx).2, (exB53_dense hx).2]
  split_ifs <;> simp_all <;> norm_num

theorem exQ94_int : exQ94.Int53 := by
  refine ⟨⟨⟨exB53_int, exA53_int, fun x hx => ?_⟩, ⟨exB53_int, exA53_int, fun x hx => ?_⟩, fun x hx => ?_⟩, (int_lit 2 (by norm_num)).1.1⟩
  · have hx := ex53_shape exB53_ok.2.2.2 hx
    show |(exB53.dense x).val| < _
    rw [(exB53_dense hx).2]
    split_ifs <;> norm_num
  · have hx := ex53_shape exB53_ok.2.2.2 hx
    show |(exB53.dense x).val| + |(exA53.dense x).val| ≤ _
    rw [(exA53_dense hx).2, (exB53_dense hx).2]
    split_ifs <;> norm_num
  · rw [exQ94_exact (ex53_shape (by decide +kernel) hx)]
    split_ifs <;> norm_num

/-- `[[0, 0, -3]]`: the middle elements of `B // A` and `B % A` are zero because that of `A` is. -/
example {env : PyEnv F64} (he : env.Ok) : ∃ d : DenseNd F64, (∀ out, exQ94.Toarray env out ↔ out = .ret d) ∧ (d.elem [0, 0]).val = 0 ∧
    (d.elem [0, 1]).val = 0 ∧ (d.elem [0, 2]).val = -3 := by
  obtain ⟨h1, h2, h3⟩ := exQ94_ok
  obtain ⟨f, r, c, d, e, ho, -, -, hd⟩ := int_toarray he h1 h2 exQ94_int h3
  cases e
  have hb (j : Nat) (hj : j < 3) : InBounds [1, 3] [0, (j : Int)] := .cons ⟨by decide, by decide⟩ (.cons ⟨by omega, by omega⟩ .nil)
  have h (j : Nat) (hj : j < 3) : (d.elem [0, (j : Int)]).val = if 2 < |(if [0, (j : Int)] = [0, 0] then (2 : ℚ) else if [0, (j : Int)] = [0, 2] then -3 else 0)|
      then (if [0, (j : Int)] = [0, 0] then 2 else if [0, (j : Int)] = [0, 2] then -3 else 0) else 0 := by
    rw [(hd _ (hb j hj)).2, ← exQ94_exact (hb j hj)]
    have e2 : (F64.ofRat (2 : ℤ)).val = 2 := by rw [(int_lit 2 (by norm_num)).2]; norm_num
    rw [← e2]
    rfl
  refine ⟨d, ho, ?_, ?_, ?_⟩
  · have := h 0 (by decide); norm_num at this; exact this
  · have := h 1 (by decide); norm_num at this; exact this
  · have := h 2 (by decide); norm_num at this; exact this

end
end Lacuna
