import Verif.Spec.F64
/- Laws of binary64 arithmetic. -/
namespace Lacuna
namespace F64

/-! ### rounding -/

theorem ofRat_zero : ofRat 0 = zero false := by
  unfold ofRat
  rw [dif_pos B64.rnd64_zero]
  simp

theorem ofRat_fin {x : ℚ} (h : |x| ≤ max64) : (ofRat x).IsFin ∧ (ofRat x).val = rnd64 x := by
  unfold ofRat
  by_cases h0 : rnd64 x = 0
  · rw [dif_pos h0, h0]
    exact ⟨trivial, rfl⟩
  · rw [dif_neg h0, dif_pos (B64.rnd64_le h)]
    exact ⟨trivial, rfl⟩

theorem val_rep : ∀ {x : F64}, x.IsFin → B64.Rep x.val
  | zero _, _ => B64.rep_zero
  | num x, _ => x.2.1

theorem ofRat_rep {q : ℚ} (h : B64.Rep q) : (ofRat q).IsFin ∧ (ofRat q).val = q := by
  have := ofRat_fin h.2
  rwa [h.fix] at this

/-! ### the laws -/

protected theorem add_comm (a b : F64) : a + b = b + a := by
  show add a b = add b a
  cases a <;> cases b <;> simp only [add]
  · rename_i s t
    by_cases h : s = t
    · rw [if_pos h, if_pos h.symm, h]
    · rw [if_neg h, if_neg (Ne.symm h)]
  · rw [Bool.and_comm]
  · rw [_root_.add_comm]

protected theorem mul_comm (a b : F64) : a * b = b * a := by
  show mul a b = mul b a
  cases a <;> cases b <;> simp only [mul, sign] <;> first | rfl | (rw [Bool.xor_comm]) | (rw [_root_.mul_comm])

theorem isNan_add (a b : F64) (h : isNan a = true ∨ isNan b = true) : isNan (a + b) = true := by
  show isNan (add a b) = true
  cases a <;> cases b <;> simp_all [isNan, add]

theorem isNan_mul (a b : F64) (h : isNan a = true ∨ isNan b = true) : isNan (a * b) = true := by
  show isNan (mul a b) = true
  cases a <;> cases b <;> simp_all [isNan, mul]

theorem eq_zero_iff {a : F64} : (a == 0) = true ↔ ∃ s, a = zero s := by
  show eq a (zero false) = true ↔ _
  cases a <;> simp [eq]

theorem val_of_eq_zero (a : F64) (h : (a == 0) = true) : a.val = 0 := by
  obtain ⟨s, rfl⟩ := eq_zero_iff.1 h
  rfl

theorem val_eq_zero {a : F64} (h : a.IsFin) : a.val = 0 ↔ (a == 0) = true := by
  rw [eq_zero_iff]
  cases a with
  | nan => exact h.elim
  | inf s => exact h.elim
  | zero s => exact ⟨fun _ => ⟨s, rfl⟩, fun _ => rfl⟩
  | num x => exact ⟨fun h => absurd h x.2.2, fun ⟨s, h⟩ => by cases h⟩

theorem zero_same (s t : Bool) : SameNum (zero s) (zero t) := .inr ⟨rfl, rfl⟩

theorem subLaws : SubLaws F64 where
  comm := F64.add_comm
  sub a b := rfl
  zero := rfl
  neg a h := by
    obtain ⟨s, rfl⟩ := eq_zero_iff.1 h
    rfl
  sub_zero a b h := by
    obtain ⟨s, rfl⟩ := eq_zero_iff.1 h
    show SameNum (add b (neg (zero s))) b
    cases b with
    | zero t => exact zero_same _ _
    | _ => exact .inl rfl
  zero_sub a b h := by
    obtain ⟨s, rfl⟩ := eq_zero_iff.1 h
    show SameNum (add (zero s) (neg a)) (neg a)
    cases a with
    | zero t => exact zero_same _ _
    | _ => exact .inl rfl

theorem neg_val (a : F64) : (-a).val = -a.val := by
  show (neg a).val = _
  cases a <;> simp [neg, val]

theorem neg_fin {a : F64} (h : a.IsFin) : (-a).IsFin := by
  cases a <;> first | exact h.elim | trivial

/-- Sums are rounded. -/
theorem add_rnd {a b : F64} (ha : a.IsFin) (hb : b.IsFin) (h : |a.val + b.val| ≤ max64) :
    (a + b).IsFin ∧ (a + b).val = rnd64 (a.val + b.val) := by
  show (add a b).IsFin ∧ (add a b).val = _
  cases a with
  | nan => exact ha.elim
  | inf s => exact ha.elim
  | zero s =>
    cases b with
    | nan => exact hb.elim
    | inf s => exact hb.elim
    | zero t => exact ⟨trivial, by simp [val, add, B64.rnd64_zero]⟩
    | num y => exact ⟨trivial, by simp only [val, add, _root_.zero_add]; exact y.2.1.fix.symm⟩
  | num x =>
    cases b with
    | nan => exact hb.elim
    | inf s => exact hb.elim
    | zero t => exact ⟨trivial, by simp only [val, add, _root_.add_zero]; exact x.2.1.fix.symm⟩
    | num y => exact ofRat_fin h

theorem sub_rnd {a b : F64} (ha : a.IsFin) (hb : b.IsFin) (h : |a.val - b.val| ≤ max64) :
    (a - b).IsFin ∧ (a - b).val = rnd64 (a.val - b.val) := by
  have := add_rnd ha (neg_fin hb) (by rwa [neg_val, ← sub_eq_add_neg])
  rwa [neg_val, ← sub_eq_add_neg] at this

theorem mul_rnd {a b : F64} (ha : a.IsFin) (hb : b.IsFin) (h : |a.val * b.val| ≤ max64) :
    (a * b).IsFin ∧ (a * b).val = rnd64 (a.val * b.val) := by
  show (mul a b).IsFin ∧ (mul a b).val = _
  cases a with
  | nan => exact ha.elim
  | inf s => exact ha.elim
  | zero s =>
    cases b with
    | nan => exact hb.elim
    | inf s => exact hb.elim
    | zero t => exact ⟨trivial, by simp [val, mul, B64.rnd64_zero]⟩
    | num y => exact ⟨trivial, by simp [val, mul, B64.rnd64_zero]⟩
  | num x =>
    cases b with
    | nan => exact hb.elim
    | inf s => exact hb.elim
    | zero t => exact ⟨trivial, by simp [val, mul, B64.rnd64_zero]⟩
    | num y => exact ofRat_fin h

theorem div_rnd {a b : F64} (ha : a.IsFin) (hb : b.IsFin) (h0 : b.val ≠ 0) (h : |a.val / b.val| ≤ max64) :
    (a / b).IsFin ∧ (a / b).val = rnd64 (a.val / b.val) := by
  show (div a b).IsFin ∧ (div a b).val = _
  cases b with
  | nan => exact hb.elim
  | inf s => exact hb.elim
  | zero t => exact absurd rfl h0
  | num y =>
    cases a with
    | nan => exact ha.elim
    | inf s => exact ha.elim
    | zero s => exact ⟨trivial, by simp [val, div, B64.rnd64_zero]⟩
    | num x => exact ofRat_fin h

theorem fma_rnd {a b c : F64} (ha : a.IsFin) (hb : b.IsFin) (hc : c.IsFin) (h : |a.val * b.val + c.val| ≤ max64) :
    (mulAdd a b c).IsFin ∧ (mulAdd a b c).val = rnd64 (a.val * b.val + c.val) := by
  show (fma a b c).IsFin ∧ (fma a b c).val = _
  have zs : ∀ s : Bool, |(zero s).val + c.val| ≤ max64 := fun s => by
    rw [show (zero s).val = 0 from rfl, _root_.zero_add]; exact (val_rep hc).2
  cases a with
  | nan => exact ha.elim
  | inf s => exact ha.elim
  | zero s =>
    cases b with
    | nan => exact hb.elim
    | inf s => exact hb.elim
    | zero t =>
      have := add_rnd (a := zero (xor s (zero t).sign)) trivial hc (zs _)
      rw [show F64.val _ * F64.val _ = (0 : ℚ) by simp [val]]; exact this
    | num y =>
      have := add_rnd (a := zero (xor s (num y).sign)) trivial hc (zs _)
      rw [show F64.val _ * F64.val _ = (0 : ℚ) by simp [val]]; exact this
  | num x =>
    cases b with
    | nan => exact hb.elim
    | inf s => exact hb.elim
    | zero t =>
      have := add_rnd (a := zero (xor (num x).sign t)) trivial hc (zs _)
      rw [show F64.val _ * F64.val _ = (0 : ℚ) by simp [val]]; exact this
    | num y =>
      cases c with
      | nan => exact hc.elim
      | inf s => exact hc.elim
      | zero t =>
        have h : |x.1 * y.1 + 0| ≤ max64 := h
        rw [_root_.add_zero] at h
        have := ofRat_fin h
        simpa [fma, val] using this
      | num z => exact ofRat_fin h

/-- binary64 obeys the rules of `Spec/Rounding`. -/
def fp : FpFma F64 where
  Fin := IsFin
  val := val
  eps := 1 / 2 ^ 53
  big := max64
  eps_nonneg := by positivity
  fin_zero := trivial
  val_zero := rfl
  eta := 1 / 2 * 2 ^ (-1074 : ℤ)
  eta_nonneg := mul_nonneg (by norm_num) (le_of_lt (two_zpow_pos _))
  add ha hb h := by
    obtain ⟨h1, h2⟩ := add_rnd ha hb h
    exact ⟨h1, by rw [h2]; exact B64.rnd64_add (val_rep ha) (val_rep hb)⟩
  zero_add := by
    intro a b ha hb h
    have hr := val_rep hb
    obtain ⟨h1, h2⟩ := add_rnd ha hb (by rw [h, _root_.zero_add]; exact hr.2)
    exact ⟨h1, by rw [h2, h, _root_.zero_add]; exact hr.fix⟩
  add_zero := by
    intro a b ha hb h
    have hr := val_rep ha
    obtain ⟨h1, h2⟩ := add_rnd ha hb (by rw [h, _root_.add_zero]; exact hr.2)
    exact ⟨h1, by rw [h2, h, _root_.add_zero]; exact hr.fix⟩
  mul ha hb h := by
    obtain ⟨h1, h2⟩ := mul_rnd ha hb h
    exact ⟨h1, by rw [h2]; exact rnd64_err _⟩
  fma ha hb hc h := by
    obtain ⟨h1, h2⟩ := fma_rnd ha hb hc h
    exact ⟨h1, by rw [h2]; exact rnd64_err _⟩

/-! ### zeros of either sign -/

theorem same_refl (a : F64) : SameNum a a := .inl rfl

theorem same_iff {a b : F64} : SameNum a b ↔ a = b ∨ ((∃ s, a = zero s) ∧ ∃ s, b = zero s) := by
  unfold SameNum
  rw [eq_zero_iff, eq_zero_iff]

theorem same_fin {a b : F64} (h : SameNum a b) (hb : b.IsFin) : a.IsFin := by
  rcases same_iff.1 h with rfl | ⟨⟨s, rfl⟩, -⟩
  · exact hb
  · trivial

theorem same_val {a b : F64} (h : SameNum a b) : a.val = b.val := by
  rcases same_iff.1 h with rfl | ⟨⟨s, rfl⟩, ⟨t, rfl⟩⟩ <;> rfl

theorem same_ne {a b : F64} (h : SameNum a b) (hb : (b == 0) = false) : a = b := by
  rcases h with h | ⟨-, h⟩
  · exact h
  · rw [hb] at h; cases h

theorem same_neg {a b : F64} (h : SameNum a b) : SameNum (-a) (-b) := by
  rcases same_iff.1 h with rfl | ⟨⟨s, rfl⟩, ⟨t, rfl⟩⟩
  · exact same_refl _
  · exact zero_same _ _

theorem same_abs {a b : F64} (h : SameNum a b) : SameNum (fabs a) (fabs b) := by
  rcases same_iff.1 h with rfl | ⟨⟨s, rfl⟩, ⟨t, rfl⟩⟩
  · exact same_refl _
  · cases s <;> cases t <;> exact zero_same _ _

theorem same_signum {a b : F64} (h : SameNum a b) : SameNum a.signum b.signum := by
  rcases same_iff.1 h with rfl | ⟨⟨s, rfl⟩, ⟨t, rfl⟩⟩
  · exact same_refl _
  · exact same_refl _

theorem same_zero_add (s : Bool) (b : F64) : SameNum (zero s + b) b := by
  show SameNum (add (zero s) b) b
  cases b with
  | zero t => exact zero_same _ _
  | _ => exact .inl rfl

theorem same_trans {a b c : F64} (h : SameNum a b) (h' : SameNum b c) : SameNum a c := by
  rcases h with rfl | ⟨h1, h2⟩
  · exact h'
  · rcases h' with rfl | ⟨h3, h4⟩
    · exact .inr ⟨h1, h2⟩
    · exact .inr ⟨h1, h4⟩

theorem same_symm {a b : F64} (h : SameNum a b) : SameNum b a := h.imp Eq.symm And.symm

theorem same_add_left {a b : F64} (h : SameNum a b) (c : F64) : SameNum (a + c) (b + c) := by
  rcases same_iff.1 h with rfl | ⟨⟨s, rfl⟩, ⟨t, rfl⟩⟩
  · exact same_refl _
  · exact same_trans (same_zero_add s c) (same_symm (same_zero_add t c))

theorem same_add {a b c d : F64} (h : SameNum a b) (h' : SameNum c d) : SameNum (a + c) (b + d) := by
  refine same_trans (same_add_left h c) ?_
  rw [F64.add_comm b c, F64.add_comm b d]
  exact same_add_left h' b

theorem same_sub {a b c d : F64} (h : SameNum a b) (h' : SameNum c d) : SameNum (a - c) (b - d) :=
  same_add h (same_neg h')

theorem same_mul_left {a b : F64} (h : SameNum a b) (c : F64) : SameNum (a * c) (b * c) := by
  rcases same_iff.1 h with rfl | ⟨⟨s, rfl⟩, ⟨t, rfl⟩⟩
  · exact same_refl _
  · show SameNum (mul _ c) (mul _ c)
    cases c with
    | nan => exact same_refl _
    | inf _ => exact same_refl _
    | zero _ => exact zero_same _ _
    | num _ => exact zero_same _ _

theorem same_mul {a b c d : F64} (h : SameNum a b) (h' : SameNum c d) : SameNum (a * c) (b * d) := by
  refine same_trans (same_mul_left h c) ?_
  rw [F64.mul_comm b c, F64.mul_comm b d]
  exact same_mul_left h' b

theorem same_div {a b : F64} (h : SameNum a b) (c : F64) : SameNum (a / c) (b / c) := by
  rcases same_iff.1 h with rfl | ⟨⟨s, rfl⟩, ⟨t, rfl⟩⟩
  · exact same_refl _
  · show SameNum (div _ c) (div _ c)
    cases c with
    | nan => exact same_refl _
    | inf _ => exact zero_same _ _
    | zero _ => exact same_refl _
    | num _ => exact zero_same _ _

theorem zero_mul_same {b : F64} (hb : b.IsFin) (s : Bool) : SameNum (zero s * b) 0 := by
  show SameNum (mul (zero s) b) (zero false)
  cases b with
  | nan => exact hb.elim
  | inf _ => exact hb.elim
  | zero _ => exact zero_same _ _
  | num _ => exact zero_same _ _

theorem mul_zero_same {a : F64} (ha : a.IsFin) (s : Bool) : SameNum (a * zero s) 0 := by
  rw [F64.mul_comm]; exact zero_mul_same ha s

theorem zero_div_same {b : F64} (h0 : (b == 0) = false) (hb : isNan b = false) (s : Bool) : SameNum (zero s / b) 0 := by
  show SameNum (div (zero s) b) (zero false)
  cases b with
  | nan => cases hb
  | inf _ => exact zero_same _ _
  | zero _ => cases h0
  | num _ => exact zero_same _ _

/-! ### one, minus one and powers of two -/

theorem rep_pow2 {k : ℤ} (h1 : -1074 ≤ k) (h2 : k ≤ 1023) : B64.Rep (2 ^ k) := by
  refine ⟨⟨1, k, by simp, by norm_num, h1⟩, ?_⟩
  rw [abs_of_pos (two_zpow_pos k)]
  refine le_trans (zpow_le_zpow_right₀ (by norm_num) h2) ?_
  unfold max64
  rw [show (1023 : ℤ) = 52 + 971 by norm_num, zpow_add₀ (by norm_num)]
  exact mul_le_mul_of_nonneg_right (by norm_num) (le_of_lt (two_zpow_pos _))

theorem rep_one : B64.Rep 1 := by
  have := rep_pow2 (k := 0) (by norm_num) (by norm_num)
  simpa using this

theorem one_eq : (1 : F64) = num ⟨1, rep_one, one_ne_zero⟩ := by
  show ofRat 1 = _
  unfold ofRat
  rw [dif_neg (by rw [rep_one.fix]; exact one_ne_zero), dif_pos (by rw [rep_one.fix]; exact rep_one.2)]
  simp only [rep_one.fix]

theorem ofRat_num {q : ℚ} (h : B64.Rep q) (h0 : q ≠ 0) : ofRat q = num ⟨q, h, h0⟩ := by
  unfold ofRat
  rw [dif_neg (by rw [h.fix]; exact h0), dif_pos (by rw [h.fix]; exact h.2)]
  simp only [h.fix]

/-- `x * -1` is `-x`. -/
theorem mul_neg_one (a : F64) : a * -1 = -a := by
  rw [one_eq]
  show mul a (neg _) = neg a
  cases a with
  | nan => rfl
  | inf s => simp [mul, neg, sign]
  | zero s => simp [mul, neg, sign]
  | num x =>
    simp only [mul, neg]
    rw [_root_.mul_neg_one, ofRat_num (rep_neg x.2.1) (neg_ne_zero.2 x.2.2)]

/-- `x * 1` is `x`. -/
protected theorem mul_one (a : F64) : a * 1 = a := by
  rw [one_eq]
  show mul a _ = a
  cases a with
  | nan => rfl
  | inf s => simp [mul, sign, show ¬ (1 : ℚ) < 0 by norm_num]
  | zero s => simp [mul, sign, show ¬ (1 : ℚ) < 0 by norm_num]
  | num x =>
    simp only [mul]
    rw [_root_.mul_one, ofRat_num x.2.1 x.2.2]

theorem neg_one_ne : ((-1 : F64) == 1) = false ∧ ((-1 : F64) == 0) = false := by
  rw [one_eq]
  constructor
  · show decide ((-1 : ℚ) = 1) = false
    norm_num
  · rfl

theorem recip_num {alpha : F64} (h : alpha.Pow2) :
    ∃ (y : Num64) (hr : B64.Rep (1 / y.1)) (hn : 1 / y.1 ≠ 0), alpha = num y ∧ 1 / alpha = num ⟨1 / y.1, hr, hn⟩ := by
  obtain ⟨hf, k, h1, h2, hk⟩ := h
  cases alpha with
  | nan => exact hf.elim
  | inf _ => exact hf.elim
  | zero _ => exact absurd hk (by rw [show (zero _).val = 0 from rfl, abs_zero]; exact (ne_of_gt (two_zpow_pos k)).symm)
  | num y =>
    have hk : |y.1| = 2 ^ k := hk
    have hr : B64.Rep (1 / y.1) := by
      have hp := rep_pow2 (k := -k) (by omega) (by omega)
      rcases abs_eq (le_of_lt (two_zpow_pos k)) |>.1 hk with e | e
      · rw [e, one_div, ← zpow_neg]; exact hp
      · rw [e, one_div, inv_neg, ← zpow_neg]; exact rep_neg hp
    refine ⟨y, hr, one_div_ne_zero y.2.2, rfl, ?_⟩
    rw [one_eq]
    exact ofRat_num hr (one_div_ne_zero y.2.2)

theorem recip_ne {alpha : F64} (h : alpha.Pow2) : (1 / alpha == 0) = false := by
  obtain ⟨y, hr, hn, -, e⟩ := recip_num h
  rw [e]; rfl

/-- `x * (1 / alpha)` is `x / alpha` if `alpha` is a power of two. -/
theorem mul_recip {alpha : F64} (h : alpha.Pow2) (a : F64) : a * (1 / alpha) = a / alpha := by
  obtain ⟨y, hr, hn, rfl, e⟩ := recip_num h
  rw [e]
  have hs : decide (1 / y.1 < 0) = decide (y.1 < 0) := by
    rw [decide_eq_decide, one_div, inv_lt_zero]
  show mul a _ = div a _
  cases a with
  | nan => rfl
  | inf s => simp only [mul, div, sign]; rw [hs]
  | zero s => simp only [mul, div, sign]; rw [hs]
  | num x => simp only [mul, div]; rw [mul_one_div]

end F64
end Lacuna
