import Mathlib.Tactic.Linarith
import Mathlib.Tactic.Positivity
import Mathlib.Tactic.FieldSimp
import Mathlib.Tactic.Ring
import Verif.Spec.Rounding
import Verif.Model.Binary64
/- binary64 satisfies the rules of `Spec/Rounding`. -/
namespace Lacuna

theorem roundEven_int (n : ℤ) : roundEven (n : ℚ) = n := by
  unfold roundEven
  rw [Int.floor_intCast]
  simp

theorem roundEven_err (x : ℚ) : |(roundEven x : ℚ) - x| ≤ 1 / 2 := by
  have h1 := Int.floor_le x
  have h2 := Int.lt_floor_add_one x
  unfold roundEven
  rw [abs_le]
  split
  · constructor <;> linarith
  split
  · push_cast; constructor <;> linarith
  split
  · constructor <;> linarith
  · push_cast; constructor <;> linarith

theorem roundEven_le {x : ℚ} {n : ℤ} (h : x ≤ n) : roundEven x ≤ n := by
  have h1 := Int.floor_le x
  by_cases hf : ⌊x⌋ + 1 ≤ n
  · unfold roundEven
    split
    · omega
    split
    · omega
    split <;> omega
  · have h3 : n ≤ ⌊x⌋ := by omega
    have h4 : (n : ℚ) ≤ ⌊x⌋ := by exact_mod_cast h3
    have : x = n := le_antisymm h (le_trans h4 h1)
    rw [this, roundEven_int]

theorem le_roundEven {x : ℚ} {n : ℤ} (h : n ≤ x) : n ≤ roundEven x := by
  have := Int.le_floor.2 h
  unfold roundEven
  split
  · omega
  split
  · omega
  split <;> omega

theorem abs_roundEven_le {x : ℚ} {n : ℤ} (h : |x| ≤ n) : |roundEven x| ≤ n := by
  rw [abs_le] at h ⊢
  constructor
  · apply le_roundEven; push_cast; linarith [h.1]
  · exact roundEven_le h.2

theorem two_zpow_pos (e : ℤ) : (0 : ℚ) < 2 ^ e := zpow_pos (by norm_num) e

theorem abs_lt_ulp (x : ℚ) : |x| < 2 ^ 53 * (2 : ℚ) ^ ulpExp x := by
  have h1 := Int.lt_zpow_succ_log_self (b := 2) (by norm_num) |x|
  have h2 : (2 : ℚ) ^ 53 * 2 ^ ulpExp x = 2 ^ (53 + ulpExp x) := by
    rw [zpow_add₀ (by norm_num)]; norm_cast
  rw [h2]
  refine lt_of_lt_of_le h1 ?_
  push_cast
  exact zpow_le_zpow_right₀ (by norm_num) (by unfold ulpExp; omega)

theorem ulpExp_ge (x : ℚ) : -1074 ≤ ulpExp x := by unfold ulpExp; omega

theorem div_ulp (x : ℚ) : x / 2 ^ ulpExp x * 2 ^ ulpExp x = x :=
  div_mul_cancel₀ _ (ne_of_gt (two_zpow_pos _))

theorem rnd64_sub (x : ℚ) : |rnd64 x - x| ≤ 1 / 2 * 2 ^ ulpExp x := by
  have h := roundEven_err (x / 2 ^ ulpExp x)
  have hp := two_zpow_pos (ulpExp x)
  have e : rnd64 x - x = (roundEven (x / 2 ^ ulpExp x) - x / 2 ^ ulpExp x) * 2 ^ ulpExp x := by
    rw [sub_mul, div_ulp]; rfl
  rw [e, abs_mul, abs_of_pos hp]
  exact mul_le_mul_of_nonneg_right h (le_of_lt hp)

/-- Normal numbers are rounded with relative error `2 ^ -53`. -/
theorem rnd64_rel {x : ℚ} (h : -1022 ≤ Int.log 2 |x|) (hx : x ≠ 0) : |rnd64 x - x| ≤ 1 / 2 ^ 53 * |x| := by
  have h1 := Int.zpow_log_le_self (b := 2) (by norm_num) (abs_pos.2 hx)
  have h2 : (1 : ℚ) / 2 * 2 ^ ulpExp x = 1 / 2 ^ 53 * 2 ^ (Int.log 2 |x|) := by
    have : ulpExp x = Int.log 2 |x| + (-52) := by unfold ulpExp; omega
    rw [this, zpow_add₀ (by norm_num)]
    norm_num
    ring
  refine le_trans (rnd64_sub x) ?_
  rw [h2]
  push_cast at h1
  exact mul_le_mul_of_nonneg_left h1 (by positivity)

/-- Anything is rounded with relative error `2 ^ -53` plus at most half the smallest number. -/
theorem rnd64_err (x : ℚ) : |rnd64 x - x| ≤ 1 / 2 ^ 53 * |x| + 1 / 2 * 2 ^ (-1074 : ℤ) := by
  have hp := two_zpow_pos (-1074)
  by_cases hx : x = 0
  · subst hx
    have : rnd64 0 = 0 := by
      unfold rnd64
      have := roundEven_int 0
      rw [Int.cast_zero] at this
      rw [zero_div, this]; simp
    rw [this]; simp
  by_cases h : -1022 ≤ Int.log 2 |x|
  · have := rnd64_rel h hx
    linarith
  · have h2 : ulpExp x = -1074 := by unfold ulpExp; omega
    have := rnd64_sub x
    rw [h2] at this
    have : 0 ≤ 1 / 2 ^ 53 * |x| := by positivity
    linarith

/-- A multiple of the last place is not changed. -/
theorem rnd64_fix {x : ℚ} {m e : ℤ} (h : x = m * 2 ^ e) (he : ulpExp x ≤ e) : rnd64 x = x := by
  have e1 : x / 2 ^ ulpExp x = ((m * 2 ^ (e - ulpExp x).toNat : ℤ) : ℚ) := by
    rw [div_eq_iff (ne_of_gt (two_zpow_pos _))]
    push_cast
    rw [mul_assoc, ← zpow_natCast, ← zpow_add₀ (by norm_num), Int.toNat_of_nonneg (by omega), h]
    congr 2
    omega
  unfold rnd64
  rw [e1, roundEven_int, ← e1, div_ulp]

namespace B64

theorem Rep.ulp_le {q : ℚ} {m e : ℤ} (h : q = m * 2 ^ e) (hm : |m| < 2 ^ 53) (he : -1074 ≤ e) (hq : q ≠ 0) :
    ulpExp q ≤ e := by
  have h1 := Int.zpow_log_le_self (b := 2) (by norm_num) (abs_pos.2 hq)
  have h2 : |q| < 2 ^ (53 + e) := by
    rw [h, abs_mul, abs_of_pos (two_zpow_pos e), zpow_add₀ (by norm_num)]
    apply mul_lt_mul_of_pos_right _ (two_zpow_pos e)
    rw [show (2 : ℚ) ^ (53 : ℤ) = ((2 ^ 53 : ℤ) : ℚ) by norm_num, ← Int.cast_abs]
    exact_mod_cast hm
  push_cast at h1
  have h3 := (zpow_lt_zpow_iff_right₀ (a := (2 : ℚ)) (by norm_num)).1 (lt_of_le_of_lt h1 h2)
  unfold ulpExp
  omega

theorem rnd64_zero : rnd64 0 = 0 := rnd64_fix (m := 0) (e := ulpExp 0) (by simp) (le_refl _)

theorem Rep.fix {q : ℚ} (h : Rep q) : rnd64 q = q := by
  obtain ⟨⟨m, e, h1, h2, h3⟩, -⟩ := h
  by_cases hq : q = 0
  · subst hq; exact rnd64_zero
  · exact rnd64_fix h1 (Rep.ulp_le h1 h2 h3 hq)

theorem rep_zero : Rep 0 := ⟨⟨0, 0, by simp, by norm_num, by norm_num⟩, by
    unfold max64
    rw [abs_zero]
    exact mul_nonneg (by norm_num) (le_of_lt (two_zpow_pos _))⟩

/-- What rounding returns is a binary64 number, unless it is too large. -/
theorem rep_rnd {x : ℚ} (h : |rnd64 x| ≤ max64) : Rep (rnd64 x) := by
  refine ⟨?_, h⟩
  have h1 : |roundEven (x / 2 ^ ulpExp x)| ≤ 2 ^ 53 := by
    apply abs_roundEven_le
    rw [abs_div, abs_of_pos (two_zpow_pos _), div_le_iff₀ (two_zpow_pos _)]
    push_cast
    exact le_of_lt (abs_lt_ulp x)
  rcases lt_or_eq_of_le h1 with h2 | h2
  · exact ⟨_, ulpExp x, rfl, h2, ulpExp_ge x⟩
  · have hs : ∃ s : ℤ, |s| = 1 ∧ roundEven (x / 2 ^ ulpExp x) = 2 * (s * 2 ^ 52) := by
      rcases abs_eq (by norm_num) |>.1 h2 with h | h
      · exact ⟨1, by norm_num, by rw [h]; norm_num⟩
      · exact ⟨-1, by norm_num, by rw [h]; norm_num⟩
    obtain ⟨s, hs1, hs2⟩ := hs
    refine ⟨s * 2 ^ 52, ulpExp x + 1, ?_, ?_, ?_⟩
    · unfold rnd64
      rw [hs2, zpow_add₀ (by norm_num)]
      push_cast
      ring
    · rw [abs_mul, hs1]; norm_num
    · have := ulpExp_ge x; omega

/-- No overflow below the largest number. -/
theorem rnd64_le {x : ℚ} (h : |x| ≤ max64) : |rnd64 x| ≤ max64 := by
  by_cases hx : x = 0
  · subst hx; rw [rnd64_zero]; exact h
  have hl : ulpExp x ≤ 971 := by
    have h1 := Int.zpow_log_le_self (b := 2) (by norm_num) (abs_pos.2 hx)
    have h2 : max64 < 2 ^ (1024 : ℤ) := by
      unfold max64
      rw [show (1024 : ℤ) = 53 + 971 from rfl, zpow_add₀ (by norm_num)]
      exact mul_lt_mul_of_pos_right (by norm_num) (two_zpow_pos _)
    push_cast at h1
    have h3 := (zpow_lt_zpow_iff_right₀ (a := (2 : ℚ)) (by norm_num)).1 (lt_of_le_of_lt (le_trans h1 h) h2)
    unfold ulpExp
    omega
  have hp := two_zpow_pos (ulpExp x)
  have e1 : max64 = (((2 ^ 53 - 1) * 2 ^ (971 - ulpExp x).toNat : ℤ) : ℚ) * 2 ^ ulpExp x := by
    push_cast
    rw [mul_assoc, ← zpow_natCast, ← zpow_add₀ (by norm_num), Int.toNat_of_nonneg (by omega)]
    unfold max64
    rw [show 971 - ulpExp x + ulpExp x = 971 by omega]
    congr 1
    norm_num
  unfold rnd64
  rw [abs_mul, abs_of_pos hp, e1]
  apply mul_le_mul_of_nonneg_right _ (le_of_lt hp)
  rw [← Int.cast_abs]
  have : |roundEven (x / 2 ^ ulpExp x)| ≤ (2 ^ 53 - 1) * 2 ^ (971 - ulpExp x).toNat := by
    apply abs_roundEven_le
    rw [abs_div, abs_of_pos hp, div_le_iff₀ hp, ← e1]
    exact h
  exact_mod_cast this

/-- No binary64 number is closer than the rounded one. -/
theorem rnd64_nearest (x : ℚ) {q : ℚ} (h : Rep q) : |rnd64 x - x| ≤ |q - x| := by
  by_cases hx : x = 0
  · subst hx; rw [rnd64_zero]; simp
  have hp := two_zpow_pos (ulpExp x)
  -- multiples of the last place
  have mult : ∀ k : ℤ, |rnd64 x - x| ≤ |k * 2 ^ ulpExp x - x| := by
    intro k
    have e1 : ∀ k : ℤ, k * 2 ^ ulpExp x - x = (k - x / 2 ^ ulpExp x) * 2 ^ ulpExp x := by
      intro k; rw [sub_mul, div_ulp]
    unfold rnd64
    rw [e1, e1, abs_mul, abs_mul, abs_of_pos hp]
    refine mul_le_mul_of_nonneg_right ?_ (le_of_lt hp)
    generalize x / 2 ^ ulpExp x = y
    by_cases hk : k = roundEven y
    · rw [hk]
    · have h1 := roundEven_err y
      have h2 : (1 : ℚ) ≤ |(k : ℚ) - roundEven y| := by
        rw [← Int.cast_sub, ← Int.cast_abs]
        exact_mod_cast Int.one_le_abs (sub_ne_zero.2 hk)
      have h3 := abs_sub_abs_le_abs_sub ((k : ℚ) - roundEven y) (y - roundEven y)
      rw [sub_sub_sub_cancel_right, abs_sub_comm y] at h3
      linarith
  obtain ⟨⟨m, e, h1, h2, h3⟩, -⟩ := h
  by_cases he : ulpExp x ≤ e
  · have : q = ((m * 2 ^ (e - ulpExp x).toNat : ℤ) : ℚ) * 2 ^ ulpExp x := by
      rw [Int.cast_mul, Int.cast_pow, Int.cast_ofNat, mul_assoc, ← zpow_natCast, ← zpow_add₀ (by norm_num),
        Int.toNat_of_nonneg (by omega), h1]
      congr 2
      omega
    rw [this]
    exact mult _
  · have hl : ulpExp x = Int.log 2 |x| - 52 := by unfold ulpExp at *; omega
    have h4 : |q| < 2 ^ (52 + ulpExp x) := by
      refine lt_of_lt_of_le ?_ (zpow_le_zpow_right₀ (by norm_num) (show 53 + e ≤ 52 + ulpExp x by omega))
      rw [h1, abs_mul, abs_of_pos (two_zpow_pos e), zpow_add₀ (by norm_num)]
      apply mul_lt_mul_of_pos_right _ (two_zpow_pos e)
      rw [show (2 : ℚ) ^ (53 : ℤ) = ((2 ^ 53 : ℤ) : ℚ) by norm_num, ← Int.cast_abs]
      exact_mod_cast h2
    have h5 : (2 : ℚ) ^ (52 + ulpExp x) ≤ |x| := by
      rw [hl, show 52 + (Int.log 2 |x| - 52) = Int.log 2 |x| by omega]
      have := Int.zpow_log_le_self (b := 2) (by norm_num) (abs_pos.2 hx)
      exact_mod_cast this
    have h6 : (2 : ℚ) ^ (52 + ulpExp x) = ((2 ^ 52 : ℤ) : ℚ) * 2 ^ ulpExp x := by
      rw [zpow_add₀ (by norm_num)]; norm_num
    rcases lt_or_gt_of_ne hx with hneg | hpos
    · have h7 := mult (-(2 ^ 52))
      rw [Int.cast_neg, neg_mul, ← h6] at h7
      rw [abs_of_neg hneg] at h5
      rw [abs_of_nonneg (a := -_ - x) (by linarith)] at h7
      have h8 := le_abs_self (q - x)
      have h9 := neg_abs_le q
      linarith
    · have h7 := mult (2 ^ 52)
      rw [← h6] at h7
      rw [abs_of_pos hpos] at h5
      rw [abs_of_nonpos (a := 2 ^ (52 + ulpExp x) - x) (by linarith)] at h7
      have h8 := neg_abs_le (q - x)
      have h9 := le_abs_self q
      linarith

/-- A binary64 number. -/
def IsFin : B64 → Prop
  | special => False
  | fin q => Rep q

/-- Its value. -/
def toRat : B64 → ℚ
  | special => 0
  | fin q => q

theorem ofRat_eq {x : ℚ} (h : |x| ≤ max64) : ofRat x = fin (rnd64 x) := if_pos (rnd64_le h)

theorem ofRat_rep {q : ℚ} (h : Rep q) : ofRat q = fin q := by rw [ofRat_eq h.2, h.fix]

/-- Sums of binary64 numbers have no underflow error. -/
theorem rnd64_add {a b : ℚ} (ha : Rep a) (hb : Rep b) : |rnd64 (a + b) - (a + b)| ≤ 1 / 2 ^ 53 * |a + b| := by
  by_cases hx : a + b = 0
  · rw [hx, rnd64_zero]; simp
  by_cases h : -1022 ≤ Int.log 2 |a + b|
  · exact rnd64_rel h hx
  · have h2 : ulpExp (a + b) = -1074 := by unfold ulpExp; omega
    obtain ⟨⟨m, e, h3, -, h4⟩, -⟩ := ha
    obtain ⟨⟨n, f, h5, -, h6⟩, -⟩ := hb
    have key : ∀ (m e : ℤ), -1074 ≤ e → (m : ℚ) * 2 ^ e = ((m * 2 ^ (e + 1074).toNat : ℤ) : ℚ) * 2 ^ (-1074 : ℤ) := by
      intro m e he
      rw [Int.cast_mul, Int.cast_pow, Int.cast_ofNat, mul_assoc, ← zpow_natCast, ← zpow_add₀ (by norm_num), Int.toNat_of_nonneg (by omega)]
      congr 2
      omega
    rw [rnd64_fix (x := a + b) (m := m * 2 ^ (e + 1074).toNat + n * 2 ^ (f + 1074).toNat) (e := -1074)]
    · simp
    · rw [Int.cast_add, add_mul, ← key m e h4, ← key n f h6, ← h3, ← h5]
    · omega

/-- binary64 obeys the rules with unit roundoff `2 ^ -53`. -/
def fp : FpFma B64 where
  Fin := IsFin
  val := toRat
  eps := 1 / 2 ^ 53
  big := max64
  eps_nonneg := by positivity
  fin_zero := rep_zero
  val_zero := rfl
  eta := 1 / 2 * 2 ^ (-1074 : ℤ)
  eta_nonneg := mul_nonneg (by norm_num) (le_of_lt (two_zpow_pos _))
  add := by
    intro a b ha hb h
    cases a with | special => exact ha.elim | fin a =>
    cases b with | special => exact hb.elim | fin b =>
    show IsFin (ofRat (a + b)) ∧ _
    have h : |a + b| ≤ max64 := h
    change _ ∧ |toRat (ofRat (a + b)) - (a + b)| ≤ 1 / 2 ^ 53 * |a + b|
    rw [ofRat_eq h]
    exact ⟨rep_rnd (rnd64_le h), rnd64_add ha hb⟩
  zero_add := by
    intro a b ha hb h
    cases a with | special => exact ha.elim | fin a =>
    cases b with | special => exact hb.elim | fin b =>
    have h : a = 0 := h
    subst h
    change IsFin (ofRat (0 + b)) ∧ toRat (ofRat (0 + b)) = b
    rw [zero_add, ofRat_rep hb]
    exact ⟨hb, rfl⟩
  add_zero := by
    intro a b ha hb h
    cases a with | special => exact ha.elim | fin a =>
    cases b with | special => exact hb.elim | fin b =>
    have h : b = 0 := h
    subst h
    change IsFin (ofRat (a + 0)) ∧ toRat (ofRat (a + 0)) = a
    rw [add_zero, ofRat_rep ha]
    exact ⟨ha, rfl⟩
  mul := by
    intro a b ha hb h
    cases a with | special => exact ha.elim | fin a =>
    cases b with | special => exact hb.elim | fin b =>
    have h : |a * b| ≤ max64 := h
    change IsFin (ofRat (a * b)) ∧ |toRat (ofRat (a * b)) - a * b| ≤ 1 / 2 ^ 53 * |a * b| + 1 / 2 * 2 ^ (-1074 : ℤ)
    rw [ofRat_eq h]
    exact ⟨rep_rnd (rnd64_le h), rnd64_err _⟩
  fma := by
    intro a b c ha hb hc h
    cases a with | special => exact ha.elim | fin a =>
    cases b with | special => exact hb.elim | fin b =>
    cases c with | special => exact hc.elim | fin c =>
    have h : |a * b + c| ≤ max64 := h
    change IsFin (ofRat (a * b + c)) ∧
      |toRat (ofRat (a * b + c)) - (a * b + c)| ≤ 1 / 2 ^ 53 * |a * b + c| + 1 / 2 * 2 ^ (-1074 : ℤ)
    rw [ofRat_eq h]
    exact ⟨rep_rnd (rnd64_le h), rnd64_err _⟩

end B64
end Lacuna
