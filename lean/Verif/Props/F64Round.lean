import Mathlib.Analysis.Real.Sqrt
import Mathlib.Tactic.LinearCombination
import Verif.Spec.F64Round
import Verif.Props.F64Var
/-
C92: the operations of `F64` on finite numbers are those of IEEE 754: the exact result rounded to
nearest, ties to even, and nothing else is.
-/
namespace Lacuna
namespace F64

/-! ### rounding to an integer -/

theorem roundEven_tie {x : ℚ} (h : |(roundEven x : ℚ) - x| = 1 / 2) : roundEven x % 2 = 0 := by
  have h1 := Int.floor_le x
  have h2 := Int.lt_floor_add_one x
  unfold roundEven at h ⊢
  split
  · rename_i c
    rw [if_pos c, abs_of_nonpos (by linarith)] at h
    linarith
  rename_i c
  rw [if_neg c] at h
  split
  · rename_i c'
    rw [if_pos c', Int.cast_add, Int.cast_one, abs_of_nonneg (by linarith)] at h
    linarith
  split <;> omega

theorem roundEven_near (x : ℚ) (k : ℤ) : |(roundEven x : ℚ) - x| ≤ |(k : ℚ) - x| := by
  by_cases hk : k = roundEven x
  · rw [hk]
  · have h1 := roundEven_err x
    have h2 : (1 : ℚ) ≤ |(k : ℚ) - roundEven x| := by
      rw [← Int.cast_sub, ← Int.cast_abs]
      exact_mod_cast Int.one_le_abs (sub_ne_zero.2 hk)
    have h3 := abs_sub_le (k : ℚ) x (roundEven x)
    rw [abs_sub_comm x] at h3
    linarith

/-- A number is a multiple of the unit `2 ^ e`, or smaller than the numbers with this unit. -/
theorem rep_grid {q : ℚ} (h : B64.Rep q) (e : ℤ) :
    (∃ k : ℤ, q = k * 2 ^ e) ∨ (|q| < 2 ^ 52 * 2 ^ e ∧ -1074 < e) := by
  obtain ⟨⟨m, f, h1, h2, h3⟩, -⟩ := h
  by_cases he : e ≤ f
  · left
    refine ⟨m * 2 ^ (f - e).toNat, ?_⟩
    rw [Int.cast_mul, Int.cast_pow, Int.cast_ofNat, mul_assoc, ← zpow_natCast, ← zpow_add₀ (by norm_num),
      Int.toNat_of_nonneg (by omega), h1]
    congr 2
    omega
  · right
    refine ⟨?_, by omega⟩
    have h4 : |q| < 2 ^ (53 : ℕ) * 2 ^ f := by
      rw [h1, abs_mul, abs_of_pos (two_zpow_pos f)]
      apply mul_lt_mul_of_pos_right _ (two_zpow_pos f)
      rw [← Int.cast_abs]
      exact_mod_cast h2
    refine lt_of_lt_of_le h4 ?_
    have : (2 : ℚ) ^ (f + 1) ≤ 2 ^ e := zpow_le_zpow_right₀ (by norm_num) (by omega)
    rw [zpow_add₀ (by norm_num), zpow_one] at this
    linarith

/-- A tie goes to the even multiple. -/
theorem rnd64_even {x q : ℚ} (h : B64.Rep q) (hne : q ≠ rnd64 x) (he : |q - x| = |rnd64 x - x|) :
    ∃ k : ℤ, rnd64 x = 2 * k * |q - rnd64 x| := by
  have hp := two_zpow_pos (ulpExp x)
  obtain ⟨z, hz⟩ : ∃ z, z = x / 2 ^ ulpExp x := ⟨_, rfl⟩
  have hx : x = z * 2 ^ ulpExp x := by rw [hz, div_ulp]
  have hr : rnd64 x = roundEven z * 2 ^ ulpExp x := by rw [hz]; rfl
  obtain ⟨p, hq⟩ : ∃ p, q = p * 2 ^ ulpExp x := ⟨q / 2 ^ ulpExp x, by rw [div_mul_cancel₀ _ hp.ne']⟩
  have ed : ∀ a b : ℚ, |a * 2 ^ ulpExp x - b * 2 ^ ulpExp x| = |a - b| * 2 ^ ulpExp x := by
    intro a b; rw [← sub_mul, abs_mul, abs_of_pos hp]
  have he' : |p - z| = |(roundEven z : ℚ) - z| := by
    have e0 := he
    rw [hr] at e0
    have e1 : |q - x| = |p - z| * 2 ^ ulpExp x := by rw [← ed, ← hx, ← hq]
    have e2 : |roundEven z * 2 ^ ulpExp x - x| = |(roundEven z : ℚ) - z| * 2 ^ ulpExp x := by rw [← ed, ← hx]
    rw [e1, e2] at e0
    exact mul_right_cancel₀ hp.ne' e0
  have hpn : p ≠ roundEven z := fun c => hne (by rw [hr, hq, c])
  rcases rep_grid h (ulpExp x) with ⟨k, hk⟩ | ⟨hs, hlow⟩
  · have hpk : p = k := mul_right_cancel₀ hp.ne' (hq.symm.trans hk)
    subst hpk
    have h1 := roundEven_err z
    have h2 : k ≠ roundEven z := fun c => hpn (by rw [c])
    have h3 : (1 : ℚ) ≤ |(k : ℚ) - roundEven z| := by
      rw [← Int.cast_sub, ← Int.cast_abs]
      exact_mod_cast Int.one_le_abs (sub_ne_zero.2 h2)
    have h4 := abs_sub_le (k : ℚ) z (roundEven z)
    rw [abs_sub_comm z, he'] at h4
    have h5 : |(roundEven z : ℚ) - z| = 1 / 2 := by linarith
    have h6 : |(k : ℚ) - roundEven z| = 1 := by linarith
    refine ⟨roundEven z / 2, ?_⟩
    have e1 : |q - rnd64 x| = 2 ^ ulpExp x := by rw [hr, hq, ed, h6, one_mul]
    have e2 : 2 * (roundEven z / 2) = roundEven z := by have := roundEven_tie h5; omega
    rw [e1, hr]
    have e3 : ((2 * (roundEven z / 2) : ℤ) : ℚ) = roundEven z := by rw [e2]
    push_cast at e3
    rw [e3]
  · exfalso
    have hx0 : x ≠ 0 := by
      intro c
      have z0 : z = 0 := by rw [hz, c, zero_div]
      have : |p| = 0 := by
        rw [z0] at he'
        rw [sub_zero, sub_zero] at he'
        rw [he', show roundEven 0 = 0 from by simpa using roundEven_int 0]; simp
      apply hpn
      rw [abs_eq_zero.1 this, z0, show roundEven 0 = 0 from by simpa using roundEven_int 0]; simp
    have hl : ulpExp x = Int.log 2 |x| - 52 := by unfold ulpExp at *; omega
    have h5 : (2 : ℚ) ^ 52 * 2 ^ ulpExp x ≤ |x| := by
      have := Int.zpow_log_le_self (b := 2) (by norm_num) (abs_pos.2 hx0)
      have e : (2 : ℚ) ^ Int.log 2 |x| = 2 ^ 52 * 2 ^ ulpExp x := by
        rw [hl, show Int.log 2 |x| = 52 + (Int.log 2 |x| - 52) by omega, zpow_add₀ (by norm_num)]
        simp only [add_sub_cancel_left]
        norm_num
      rw [← e]
      exact_mod_cast this
    have hz5 : (2 : ℚ) ^ 52 ≤ |z| := by
      have e : |x| = |z| * 2 ^ ulpExp x := by conv_lhs => rw [hx, abs_mul, abs_of_pos hp]
      rw [e] at h5
      exact le_of_mul_le_mul_right h5 hp
    have hp5 : |p| < 2 ^ 52 := by
      rw [hq, abs_mul, abs_of_pos hp] at hs
      exact lt_of_mul_lt_mul_right hs hp.le
    have hd : |(roundEven z : ℚ) - z| ≤ |z| - 2 ^ 52 := by
      rcases le_total 0 z with c | c
      · rw [abs_of_nonneg c] at hz5 ⊢
        have := roundEven_near z (2 ^ 52)
        rw [Int.cast_pow, Int.cast_ofNat, abs_of_nonpos (a := (2 : ℚ) ^ 52 - z) (by linarith)] at this
        linarith
      · rw [abs_of_nonpos c] at hz5 ⊢
        have := roundEven_near z (-2 ^ 52)
        rw [Int.cast_neg, Int.cast_pow, Int.cast_ofNat, abs_of_nonneg (a := -(2 : ℚ) ^ 52 - z) (by linarith)] at this
        linarith
    have := abs_sub_abs_le_abs_sub z p
    rw [abs_sub_comm] at this
    linarith

/-! ### overflow -/

theorem rnd64_ge_log {x : ℚ} (hx : x ≠ 0) (h : -1022 ≤ Int.log 2 |x|) : (2 : ℚ) ^ Int.log 2 |x| ≤ |rnd64 x| := by
  have hp := two_zpow_pos (ulpExp x)
  have hl : ulpExp x = Int.log 2 |x| - 52 := by unfold ulpExp; omega
  have e : (2 : ℚ) ^ Int.log 2 |x| = 2 ^ 52 * 2 ^ ulpExp x := by
    rw [hl, show Int.log 2 |x| = 52 + (Int.log 2 |x| - 52) by omega, zpow_add₀ (by norm_num)]
    simp only [add_sub_cancel_left]
    norm_num
  have h5 : (2 : ℚ) ^ 52 * 2 ^ ulpExp x ≤ |x| := by
    have := Int.zpow_log_le_self (b := 2) (by norm_num) (abs_pos.2 hx)
    rw [← e]
    exact_mod_cast this
  rw [e]
  unfold rnd64
  rw [abs_mul, abs_of_pos hp]
  refine mul_le_mul_of_nonneg_right ?_ hp.le
  rcases le_total 0 x with c | c
  · rw [abs_of_nonneg c] at h5
    have := le_roundEven (x := x / 2 ^ ulpExp x) (n := 2 ^ 52) (by push_cast; rwa [le_div_iff₀ hp])
    refine le_trans ?_ (le_abs_self _)
    exact_mod_cast this
  · rw [abs_of_nonpos c] at h5
    have := roundEven_le (x := x / 2 ^ ulpExp x) (n := -2 ^ 52) (by push_cast; rw [div_le_iff₀ hp]; linarith)
    refine le_trans ?_ (neg_le_abs _)
    have h6 : ((roundEven (x / 2 ^ ulpExp x) : ℤ) : ℚ) ≤ -2 ^ 52 := by exact_mod_cast this
    linarith

theorem over_iff (x : ℚ) : |rnd64 x| ≤ max64 ↔ |x| < overflow64 := by
  have h970 := two_zpow_pos 970
  have e971 : (2 : ℚ) ^ (971 : ℤ) = 2 * 2 ^ (970 : ℤ) := by
    rw [show (971 : ℤ) = 1 + 970 by norm_num, zpow_add₀ (by norm_num), zpow_one]
  have e1024 : (2 : ℚ) ^ (1024 : ℤ) = 2 ^ 54 * 2 ^ (970 : ℤ) := by
    rw [show (1024 : ℤ) = (54 : ℕ) + 970 by norm_num, zpow_add₀ (by norm_num), zpow_natCast]
  have emax : max64 = (2 ^ 54 - 2) * 2 ^ (970 : ℤ) := by unfold max64; rw [e971]; ring
  have e1023 : (2 : ℚ) ^ (1023 : ℤ) = 2 ^ 53 * 2 ^ (970 : ℤ) := by
    rw [show (1023 : ℤ) = (53 : ℕ) + 970 by norm_num, zpow_add₀ (by norm_num), zpow_natCast]
  have hlt : max64 < overflow64 := by
    rw [emax]; unfold overflow64
    exact mul_lt_mul_of_pos_right (by norm_num) h970
  by_cases h1 : |x| ≤ max64
  · exact iff_of_true (B64.rnd64_le h1) (lt_of_le_of_lt h1 hlt)
  rw [not_le] at h1
  have hx : x ≠ 0 := by
    intro c
    rw [c, abs_zero, emax] at h1
    exact lt_asymm h1 (mul_pos (by norm_num) h970)
  have hlog : 1023 ≤ Int.log 2 |x| := by
    rw [← Int.zpow_le_iff_le_log (by norm_num) (abs_pos.2 hx)]
    rw [Nat.cast_ofNat]
    rw [e1023]
    refine le_trans ?_ h1.le
    rw [emax]
    exact mul_le_mul_of_nonneg_right (by norm_num) h970.le
  by_cases h2 : (2 : ℚ) ^ (1024 : ℤ) ≤ |x|
  · have hl2 : 1024 ≤ Int.log 2 |x| := by
      rw [← Int.zpow_le_iff_le_log (by norm_num) (abs_pos.2 hx)]
      exact_mod_cast h2
    refine iff_of_false ?_ ?_
    · rw [not_le]
      refine lt_of_lt_of_le ?_ (rnd64_ge_log hx (by omega))
      refine lt_of_lt_of_le ?_ (zpow_le_zpow_right₀ (by norm_num) hl2)
      rw [emax, e1024]
      exact mul_lt_mul_of_pos_right (by norm_num) h970
    · rw [not_lt]
      refine le_trans ?_ h2
      rw [e1024]; unfold overflow64
      exact mul_le_mul_of_nonneg_right (by norm_num) h970.le
  rw [not_le] at h2
  have hlog2 : Int.log 2 |x| < 1024 := by
    rw [← Int.lt_zpow_iff_log_lt (by norm_num) (abs_pos.2 hx)]
    exact_mod_cast h2
  have hu : ulpExp x = 971 := by unfold ulpExp; omega
  have h971 := two_zpow_pos 971
  obtain ⟨z, hz⟩ : ∃ z, z = x / 2 ^ (971 : ℤ) := ⟨_, rfl⟩
  have hxz : x = z * 2 ^ (971 : ℤ) := by rw [hz, div_mul_cancel₀ _ h971.ne']
  have hr : rnd64 x = roundEven z * 2 ^ (971 : ℤ) := by unfold rnd64; rw [hu, hz]
  have hzlo : (2 : ℚ) ^ 53 - 1 < |z| := by
    rw [hxz, abs_mul, abs_of_pos h971] at h1
    exact lt_of_mul_lt_mul_right h1 h971.le
  have hA : |rnd64 x| ≤ max64 ↔ |(roundEven z : ℚ)| ≤ 2 ^ 53 - 1 := by
    rw [hr, abs_mul, abs_of_pos h971]
    unfold max64
    exact mul_le_mul_iff_left₀ h971
  have hB : |x| < overflow64 ↔ |z| < 2 ^ 53 - 1 / 2 := by
    rw [hxz, abs_mul, abs_of_pos h971, show overflow64 = (2 ^ 53 - 1 / 2) * 2 ^ (971 : ℤ) by
      unfold overflow64; rw [e971]; ring]
    exact mul_lt_mul_iff_left₀ h971
  rw [hA, hB]
  have hn := roundEven_err z
  have t1 := abs_sub_abs_le_abs_sub (roundEven z : ℚ) z
  have t2 := abs_sub_abs_le_abs_sub z (roundEven z : ℚ)
  rw [abs_sub_comm] at t2
  constructor
  · intro h
    refine lt_of_le_of_ne (by linarith) fun c => ?_
    have h5 : |(roundEven z : ℚ) - z| = 1 / 2 := by linarith
    have h6 : |(roundEven z : ℚ)| = 2 ^ 53 - 1 := by linarith
    have h7 : |roundEven z| = 2 ^ 53 - 1 := by
      rw [← Int.cast_abs] at h6
      exact_mod_cast h6
    have h8 := roundEven_tie h5
    rcases abs_choice (roundEven z) with c | c <;> omega
  · intro h
    have h3 : |(roundEven z : ℚ)| < 2 ^ 53 := by linarith
    have h4 : |roundEven z| < 2 ^ 53 := by
      rw [← Int.cast_abs] at h3
      exact_mod_cast h3
    have h5 : |roundEven z| ≤ 2 ^ 53 - 1 := by omega
    rw [← Int.cast_abs]
    exact_mod_cast h5

/-! ### the operations -/

theorem rnd64_sign (x : ℚ) : (x < 0 → rnd64 x ≤ 0) ∧ (0 ≤ x → 0 ≤ rnd64 x) := by
  have hp := two_zpow_pos (ulpExp x)
  constructor
  · intro h
    have : roundEven (x / 2 ^ ulpExp x) ≤ 0 := roundEven_le (by rw [Int.cast_zero]; exact (div_neg_of_neg_of_pos h hp).le)
    have h2 : ((roundEven (x / 2 ^ ulpExp x) : ℤ) : ℚ) ≤ 0 := by exact_mod_cast this
    exact mul_nonpos_of_nonpos_of_nonneg h2 hp.le
  · intro h
    have : 0 ≤ roundEven (x / 2 ^ ulpExp x) := le_roundEven (by rw [Int.cast_zero]; positivity)
    have h2 : (0 : ℚ) ≤ ((roundEven (x / 2 ^ ulpExp x) : ℤ) : ℚ) := by exact_mod_cast this
    exact mul_nonneg h2 hp.le

theorem ofRat_lt {x : ℚ} (h : |x| < overflow64) : (ofRat x).IsFin ∧ (ofRat x).val = rnd64 x := by
  have h' := (over_iff x).2 h
  unfold ofRat
  by_cases h0 : rnd64 x = 0
  · rw [dif_pos h0, h0]; exact ⟨trivial, rfl⟩
  · rw [dif_neg h0, dif_pos h']; exact ⟨trivial, rfl⟩

theorem ofRat_over {x : ℚ} (h : overflow64 ≤ |x|) : ofRat x = inf (decide (x < 0)) := by
  have h' : ¬ |rnd64 x| ≤ max64 := fun c => absurd ((over_iff x).1 c) (not_lt.2 h)
  have h0 : rnd64 x ≠ 0 := by
    intro c
    rw [c, abs_zero] at h'
    exact h' (by unfold max64; exact mul_nonneg (by norm_num) (two_zpow_pos _).le)
  unfold ofRat
  rw [dif_neg h0, dif_neg h']

theorem ofRat_sign (x : ℚ) : (ofRat x).sign = decide (x < 0) := by
  unfold ofRat
  by_cases h0 : rnd64 x = 0
  · rw [dif_pos h0]; rfl
  · rw [dif_neg h0]
    by_cases h' : |rnd64 x| ≤ max64
    · rw [dif_pos h']
      show decide (rnd64 x < 0) = _
      obtain ⟨s1, s2⟩ := rnd64_sign x
      by_cases c : x < 0
      · rw [decide_eq_true c, decide_eq_true (lt_of_le_of_ne (s1 c) h0)]
      · rw [decide_eq_false c, decide_eq_false (not_lt.2 (s2 (not_lt.1 c)))]
    · rw [dif_neg h']; rfl

theorem ofRat_rounds (x : ℚ) : Rounds x (ofRat x) where
  fin h := (ofRat_lt h).1
  nearest h q hq := by rw [(ofRat_lt h).2]; exact B64.rnd64_nearest x hq
  even h q hq := by rw [(ofRat_lt h).2]; exact rnd64_even hq
  over h := ofRat_over h
  sign _ := ofRat_sign x

theorem val_sign {a : F64} (h : a.val ≠ 0) : a.sign = decide (a.val < 0) := by
  cases a with
  | num x => rfl
  | _ => exact absurd rfl h

/-- A number is its own rounding. -/
theorem rounds_self {a : F64} (ha : a.IsFin) : Rounds a.val a := by
  have hr := ofRat_rounds a.val
  obtain ⟨h1, h2⟩ := ofRat_rep (val_rep ha)
  have hlt : |a.val| < overflow64 := (over_iff _).1 (by rw [(val_rep ha).fix]; exact (val_rep ha).2)
  exact ⟨fun _ => ha, fun h q hq => by have := hr.nearest h q hq; rwa [h2] at this,
    fun h q hq hne => by have := hr.even h q hq (by rwa [h2]); rwa [h2] at this, fun h => absurd hlt (not_lt.2 h), val_sign⟩

theorem rounds_zero (s : Bool) : Rounds 0 (zero s) := rounds_self (a := zero s) trivial

theorem add_rounds {a b : F64} (ha : a.IsFin) (hb : b.IsFin) : Rounds (a.val + b.val) (a + b) := by
  show Rounds _ (add a b)
  cases a with
  | nan => exact ha.elim
  | inf s => exact ha.elim
  | zero s =>
    rw [show (zero s).val = 0 from rfl, _root_.zero_add]
    cases b with
    | nan => exact hb.elim
    | inf s => exact hb.elim
    | zero t => exact rounds_zero _
    | num y => exact rounds_self hb
  | num x =>
    cases b with
    | nan => exact hb.elim
    | inf s => exact hb.elim
    | zero t =>
      rw [show (zero t).val = 0 from rfl, _root_.add_zero]
      exact rounds_self ha
    | num y => exact ofRat_rounds _

theorem mul_rounds {a b : F64} (ha : a.IsFin) (hb : b.IsFin) : Rounds (a.val * b.val) (a * b) := by
  show Rounds _ (mul a b)
  cases a with
  | nan => exact ha.elim
  | inf s => exact ha.elim
  | zero s =>
    rw [show (zero s).val = 0 from rfl, MulZeroClass.zero_mul]
    cases b with
    | nan => exact hb.elim
    | inf s => exact hb.elim
    | zero t => exact rounds_zero _
    | num y => exact rounds_zero _
  | num x =>
    cases b with
    | nan => exact hb.elim
    | inf s => exact hb.elim
    | zero t =>
      rw [show (zero t).val = 0 from rfl, MulZeroClass.mul_zero]
      exact rounds_zero _
    | num y => exact ofRat_rounds _

theorem div_rounds {a b : F64} (ha : a.IsFin) (hb : b.IsFin) (h0 : b.val ≠ 0) : Rounds (a.val / b.val) (a / b) := by
  show Rounds _ (div a b)
  cases b with
  | nan => exact hb.elim
  | inf s => exact hb.elim
  | zero t => exact absurd rfl h0
  | num y =>
    cases a with
    | nan => exact ha.elim
    | inf s => exact ha.elim
    | zero s =>
      rw [show (zero s).val = 0 from rfl, _root_.zero_div]
      exact rounds_zero _
    | num x => exact ofRat_rounds _

theorem fma_rounds {a b c : F64} (ha : a.IsFin) (hb : b.IsFin) (hc : c.IsFin) :
    Rounds (a.val * b.val + c.val) (mulAdd a b c) := by
  show Rounds _ (fma a b c)
  have zs : ∀ s, Rounds ((zero s).val + c.val) (add (zero s) c) := fun s => add_rounds (a := zero s) trivial hc
  cases a with
  | nan => exact ha.elim
  | inf s => exact ha.elim
  | zero s =>
    rw [show (zero s).val * b.val + c.val = (zero s).val + c.val by
      rw [show (zero s).val = 0 from rfl, MulZeroClass.zero_mul]]
    cases b with
    | nan => exact hb.elim
    | inf s => exact hb.elim
    | zero t => exact zs (xor s (zero t).sign)
    | num y => exact zs (xor s (num y).sign)
  | num x =>
    cases b with
    | nan => exact hb.elim
    | inf s => exact hb.elim
    | zero t =>
      rw [show (num x).val * (zero t).val + c.val = (zero t).val + c.val by
        rw [show (zero t).val = 0 from rfl, MulZeroClass.mul_zero]]
      exact zs (xor (num x).sign t)
    | num y =>
      cases c with
      | nan => exact hc.elim
      | inf s => exact hc.elim
      | zero s =>
        rw [show (zero s).val = 0 from rfl, _root_.add_zero]
        exact ofRat_rounds _
      | num z => exact ofRat_rounds _

end F64

/-- C92: sum, difference, product, quotient, fused product of finite numbers and the conversion of a whole
number are the exact results rounded to nearest, ties to even, with overflow to an infinity. -/
theorem f64_rounds {a b c : F64} (ha : a.IsFin) (hb : b.IsFin) (hc : c.IsFin) (n : Nat) :
    F64.Rounds (a.val + b.val) (a + b) ∧ F64.Rounds (a.val - b.val) (a - b) ∧ F64.Rounds (a.val * b.val) (a * b) ∧
    (b.val ≠ 0 → F64.Rounds (a.val / b.val) (a / b)) ∧ F64.Rounds (a.val * b.val + c.val) (mulAdd a b c) ∧
    F64.Rounds n (n : F64) := by
  refine ⟨F64.add_rounds ha hb, ?_, F64.mul_rounds ha hb, F64.div_rounds ha hb, F64.fma_rounds ha hb hc, F64.ofRat_rounds _⟩
  have := F64.add_rounds ha (F64.neg_fin hb)
  rwa [F64.neg_val, ← sub_eq_add_neg] at this

/-- C92: there is one such rounding of a number that is not zero. -/
theorem f64_rounds_unique {x : ℚ} (hx : x ≠ 0) {v w : F64} (hv : F64.Rounds x v) (hw : F64.Rounds x w) : v = w := by
  by_cases h : |x| < F64.overflow64
  · have fv := hv.fin h
    have fw := hw.fin h
    have rv := F64.val_rep fv
    have rw' := F64.val_rep fw
    have hval : v.val = w.val := by
      by_contra hne
      have he := le_antisymm (hv.nearest h _ rw') (hw.nearest h _ rv)
      obtain ⟨k, hk⟩ := hv.even h _ rw' (Ne.symm hne) he.symm
      obtain ⟨j, hj⟩ := hw.even h _ rv hne he
      rw [abs_sub_comm] at hk
      have hd : |v.val - w.val| ≠ 0 := abs_ne_zero.2 (sub_ne_zero.2 hne)
      have h1 : v.val - w.val = ((2 * (k - j) : ℤ) : ℚ) * |v.val - w.val| := by
        push_cast
        linear_combination hk - hj
      have h2 : |v.val - w.val| = |((2 * (k - j) : ℤ) : ℚ)| * |v.val - w.val| := by
        conv_lhs => rw [h1]
        rw [abs_mul, abs_abs]
      have h3 : |((2 * (k - j) : ℤ) : ℚ)| = 1 := by
        have : (1 : ℚ) * |v.val - w.val| = |((2 * (k - j) : ℤ) : ℚ)| * |v.val - w.val| := by rw [one_mul]; exact h2
        exact (mul_right_cancel₀ hd this).symm
      have h4 : |2 * (k - j)| = 1 := by
        rw [← Int.cast_abs] at h3
        exact_mod_cast h3
      rcases abs_choice (2 * (k - j)) with c | c <;> omega
    have hs : v.sign = w.sign := (hv.sign hx).trans (hw.sign hx).symm
    cases v with
    | nan => exact fv.elim
    | inf s => exact fv.elim
    | zero s =>
      cases w with
      | nan => exact fw.elim
      | inf s => exact fw.elim
      | zero t => exact congrArg F64.zero hs
      | num y => exact absurd hval.symm y.2.2
    | num x =>
      cases w with
      | nan => exact fw.elim
      | inf s => exact fw.elim
      | zero t => exact absurd hval x.2.2
      | num y => exact congrArg F64.num (Subtype.ext hval)
  · rw [hv.over (not_lt.1 h), hw.over (not_lt.1 h)]

theorem F64.xor_signs {x y : ℚ} (hx : x ≠ 0) (hy : y ≠ 0) : decide (x * y < 0) = xor (decide (x < 0)) (decide (y < 0)) := by
  rcases lt_or_gt_of_ne hx with h1 | h1 <;> rcases lt_or_gt_of_ne hy with h2 | h2
  · rw [decide_eq_true h1, decide_eq_true h2, decide_eq_false (not_lt.2 (mul_pos_of_neg_of_neg h1 h2).le)]; rfl
  · rw [decide_eq_true h1, decide_eq_false (not_lt.2 h2.le), decide_eq_true (mul_neg_of_neg_of_pos h1 h2)]; rfl
  · rw [decide_eq_false (not_lt.2 h1.le), decide_eq_true h2, decide_eq_true (mul_neg_of_pos_of_neg h1 h2)]; rfl
  · rw [decide_eq_false (not_lt.2 h1.le), decide_eq_false (not_lt.2 h2.le), decide_eq_false (not_lt.2 (mul_pos h1 h2).le)]; rfl

theorem F64.sum_zero {x y : ℚ} (hy : y ≠ 0) (h : x + y = 0) : (decide (x < 0) && decide (y < 0)) = false := by
  rcases lt_or_gt_of_ne hy with h2 | h2
  · rw [decide_eq_false (show ¬ x < 0 by linarith)]; rfl
  · rw [decide_eq_false (show ¬ y < 0 by linarith)]; simp

theorem F64.add_zero_sign {a b : F64} (ha : a.IsFin) (hb : b.IsFin) (h : a.val + b.val = 0) : a + b = F64.zero (a.sign && b.sign) := by
  show F64.add a b = _
  cases a with
  | nan => exact ha.elim
  | inf s => exact ha.elim
  | zero s =>
    cases b with
    | nan => exact hb.elim
    | inf s => exact hb.elim
    | zero t => rfl
    | num y => exact absurd ((_root_.zero_add y.1).symm.trans h) y.2.2
  | num x =>
    cases b with
    | nan => exact hb.elim
    | inf s => exact hb.elim
    | zero t => exact absurd ((_root_.add_zero x.1).symm.trans h) x.2.2
    | num y =>
      show F64.ofRat (x.1 + y.1) = F64.zero (decide (x.1 < 0) && decide (y.1 < 0))
      have h' : x.1 + y.1 = 0 := h
      rw [F64.sum_zero y.2.2 h', h', F64.ofRat_zero]

theorem F64.mul_sign {a b : F64} (ha : a.IsFin) (hb : b.IsFin) : (a * b).sign = xor a.sign b.sign := by
  show (F64.mul a b).sign = _
  cases a with
  | nan => exact ha.elim
  | inf s => exact ha.elim
  | zero s => cases b <;> first | exact hb.elim | rfl
  | num x =>
    cases b with
    | nan => exact hb.elim
    | inf s => exact hb.elim
    | zero t => rfl
    | num y =>
      show (F64.ofRat (x.1 * y.1)).sign = xor (decide (x.1 < 0)) (decide (y.1 < 0))
      rw [F64.ofRat_sign, F64.xor_signs x.2.2 y.2.2]

/-- C92: the signs of the results, those of zeros included. -/
theorem f64_signs {a b c : F64} (ha : a.IsFin) (hb : b.IsFin) (hc : c.IsFin) :
    (a.val + b.val = 0 → a + b = F64.zero (a.sign && b.sign)) ∧ (a.val - b.val = 0 → a - b = F64.zero (a.sign && !b.sign)) ∧
    (a * b).sign = xor a.sign b.sign ∧ (b.val ≠ 0 → (a / b).sign = xor a.sign b.sign) ∧
    (a.val * b.val + c.val = 0 → mulAdd a b c = F64.zero (xor a.sign b.sign && c.sign)) := by
  refine ⟨F64.add_zero_sign ha hb, fun h => ?_, F64.mul_sign ha hb, fun h0 => ?_, fun h => ?_⟩
  · have h1 := F64.add_zero_sign ha (F64.neg_fin hb) (by rw [F64.neg_val]; linarith)
    by_cases hz : b.val = 0
    · rw [F64.val_eq_zero hb, F64.eq_zero_iff] at hz
      obtain ⟨t, rfl⟩ := hz
      exact h1
    · have e : (-b).sign = !b.sign := by
        cases b with
        | num y =>
          show decide (-y.1 < 0) = !decide (y.1 < 0)
          rcases lt_or_gt_of_ne y.2.2 with c | c
          · rw [decide_eq_true c, decide_eq_false (by linarith)]; rfl
          · rw [decide_eq_false (not_lt.2 c.le), decide_eq_true (by linarith)]; rfl
        | _ => exact absurd rfl hz
      rw [← e]; exact h1
  · show (F64.div a b).sign = _
    cases b with
    | nan => exact hb.elim
    | inf s => exact hb.elim
    | zero t => exact absurd rfl h0
    | num y =>
      cases a with
      | nan => exact ha.elim
      | inf s => exact ha.elim
      | zero s => rfl
      | num x =>
        show (F64.ofRat (x.1 / y.1)).sign = xor (decide (x.1 < 0)) (decide (y.1 < 0))
        rw [F64.ofRat_sign, div_eq_mul_inv, F64.xor_signs x.2.2 (inv_ne_zero y.2.2)]
        simp only [inv_lt_zero]
  · show F64.fma a b c = _
    have hm := F64.mul_rounds ha hb
    have key : a.val * b.val = 0 → F64.fma a b c = a * b + c → F64.fma a b c = F64.zero (xor a.sign b.sign && c.sign) := by
      intro h0 e
      rw [h0, _root_.zero_add] at h
      rw [e, F64.add_zero_sign _ hc _, F64.mul_sign ha hb]
      · exact (F64.mul_rnd ha hb (by rw [h0, abs_zero]; exact B64.rep_zero.2.trans' (by simp))).1
      · rw [(F64.mul_rnd ha hb (by rw [h0, abs_zero]; exact B64.rep_zero.2.trans' (by simp))).2, h0, B64.rnd64_zero, h, _root_.add_zero]
    cases a with
    | nan => exact ha.elim
    | inf s => exact ha.elim
    | zero s =>
      refine key (MulZeroClass.zero_mul _) ?_
      cases b <;> first | exact hb.elim | rfl
    | num x =>
      cases b with
      | nan => exact hb.elim
      | inf s => exact hb.elim
      | zero t => exact key (MulZeroClass.mul_zero _) rfl
      | num y =>
        have hxy : x.1 * y.1 ≠ 0 := mul_ne_zero x.2.2 y.2.2
        cases c with
        | nan => exact hc.elim
        | inf s => exact hc.elim
        | zero s => exact absurd ((_root_.add_zero (x.1 * y.1)).symm.trans h) hxy
        | num z =>
          show F64.ofRat (x.1 * y.1 + z.1) = F64.zero (xor (decide (x.1 < 0)) (decide (y.1 < 0)) && decide (z.1 < 0))
          have h' : x.1 * y.1 + z.1 = 0 := h
          rw [← F64.xor_signs x.2.2 y.2.2, F64.sum_zero z.2.2 h', h', F64.ofRat_zero]

/-! ### floor and square root -/

theorem F64.rep_floor {q : ℚ} (h : B64.Rep q) : B64.Rep ((⌊q⌋ : ℤ) : ℚ) := by
  rcases F64.rep_grid h 0 with ⟨k, hk⟩ | ⟨hs, -⟩
  · rw [zpow_zero, mul_one] at hk
    rw [hk, Int.floor_intCast, ← hk]; exact h
  · rw [zpow_zero, mul_one] at hs
    apply F64.int_rep
    obtain ⟨h1, h2⟩ := abs_lt.1 hs
    have n1 : (-2 ^ 52 : ℤ) ≤ ⌊q⌋ := Int.le_floor.2 (by push_cast; exact h1.le)
    have n2 : ⌊q⌋ < 2 ^ 52 := Int.floor_lt.2 (by push_cast; exact h2)
    have : |⌊q⌋| ≤ 2 ^ 53 := abs_le.2 ⟨by omega, by omega⟩
    exact_mod_cast this

/-- C92: `floor` of a finite number is exact. -/
theorem f64_floor {a : F64} (ha : a.IsFin) : (HasFloor.floor a).IsFin ∧ (HasFloor.floor a).val = ⌊a.val⌋ := by
  cases a with
  | nan => exact ha.elim
  | inf s => exact ha.elim
  | zero s => exact ⟨trivial, by show (0 : ℚ) = ((⌊(0 : ℚ)⌋ : ℤ) : ℚ); simp⟩
  | num x => exact F64.ofRat_rep (F64.rep_floor x.2.1)

theorem F64.sqrtRat_spec {x : ℚ} (hx : 0 < x) (hr : B64.Rep x) : ∃ (n e : ℤ), F64.sqrtRat x = n * 2 ^ e ∧ 2 ^ 52 ≤ n ∧ n ≤ 2 ^ 53 ∧
    -1074 ≤ e ∧ e ≤ 500 ∧ ((2 : ℝ) ^ 52 * 2 ^ e ≤ √(x : ℝ)) ∧ |(n : ℝ) - √(x : ℝ) / 2 ^ e| ≤ 1 / 2 := by
  have hlo : -1074 ≤ Int.log 2 x := by
    rw [← Int.zpow_le_iff_le_log (by norm_num) hx]
    obtain ⟨⟨m, e, h1, h2, h3⟩, -⟩ := hr
    have hm : 0 < m := by
      by_contra c
      have : (m : ℚ) ≤ 0 := by exact_mod_cast not_lt.1 c
      have := mul_nonpos_of_nonpos_of_nonneg this (two_zpow_pos e).le
      linarith
    have hm1 : (1 : ℚ) ≤ m := by exact_mod_cast hm
    rw [h1]
    rw [Nat.cast_ofNat]
    refine le_trans (zpow_le_zpow_right₀ (by norm_num) h3) ?_
    exact le_mul_of_one_le_left (two_zpow_pos e).le hm1
  have hhi : Int.log 2 x < 1024 := by
    rw [← Int.lt_zpow_iff_log_lt (by norm_num) hx]
    have := hr.2
    rw [abs_of_pos hx] at this
    refine lt_of_le_of_lt this ?_
    unfold max64
    rw [Nat.cast_ofNat]
    rw [show (1024 : ℤ) = (53 : ℕ) + 971 by norm_num, zpow_add₀ (by norm_num), zpow_natCast]
    exact mul_lt_mul_of_pos_right (by norm_num) (two_zpow_pos _)
  obtain ⟨L, hL⟩ : ∃ L, L = Int.log 2 x := ⟨_, rfl⟩
  obtain ⟨e, he⟩ : ∃ e, e = L / 2 - 52 := ⟨_, rfl⟩
  obtain ⟨y, hy⟩ : ∃ y, y = x / 4 ^ e := ⟨_, rfl⟩
  obtain ⟨m, hm⟩ : ∃ m, m = Nat.sqrt ⌊y⌋.toNat := ⟨_, rfl⟩
  have h4 : (4 : ℚ) ^ e = 2 ^ (2 * e) := by rw [zpow_mul]; norm_num
  have hp4 : (0 : ℚ) < 4 ^ e := zpow_pos (by norm_num) e
  have hy0 : 0 < y := by rw [hy]; exact div_pos hx hp4
  have hxy : x = y * 4 ^ e := by rw [hy, div_mul_cancel₀ _ hp4.ne']
  have y1 : (2 : ℚ) ^ 104 ≤ y := by
    have h1 := Int.zpow_log_le_self (b := 2) (by norm_num) hx
    rw [hy, le_div_iff₀ hp4, h4]
    refine le_trans ?_ (by exact_mod_cast h1)
    rw [← zpow_natCast, ← zpow_add₀ (by norm_num)]
    exact zpow_le_zpow_right₀ (by norm_num) (by push_cast; omega)
  have y2 : y < (2 : ℚ) ^ 106 := by
    have h1 := Int.lt_zpow_succ_log_self (b := 2) (by norm_num) x
    rw [hy, div_lt_iff₀ hp4, h4]
    refine lt_of_lt_of_le (by exact_mod_cast h1) ?_
    rw [← zpow_natCast, ← zpow_add₀ (by norm_num)]
    push_cast
    exact zpow_le_zpow_right₀ (by norm_num) (by omega)
  have fy : (0 : ℤ) ≤ ⌊y⌋ := Int.floor_nonneg.2 hy0.le
  have hN : ((⌊y⌋.toNat : ℕ) : ℚ) = ((⌊y⌋ : ℤ) : ℚ) := by exact_mod_cast Int.toNat_of_nonneg fy
  have m1 : (m : ℚ) ^ 2 ≤ y := by
    have h1 : m * m ≤ ⌊y⌋.toNat := hm ▸ Nat.sqrt_le _
    have h2 : ((m * m : ℕ) : ℚ) ≤ ((⌊y⌋.toNat : ℕ) : ℚ) := by exact_mod_cast h1
    rw [hN] at h2
    push_cast at h2
    have := Int.floor_le y
    nlinarith
  have m2 : y < ((m : ℚ) + 1) ^ 2 := by
    have h1 : ⌊y⌋.toNat < (m + 1) * (m + 1) := hm ▸ Nat.lt_succ_sqrt _
    have h2 : ⌊y⌋ < (((m + 1) * (m + 1) : ℕ) : ℤ) := by omega
    have := Int.floor_lt.1 h2
    push_cast at this
    nlinarith
  have m3 : 2 ^ 52 ≤ m := by
    rw [hm, Nat.le_sqrt]
    have : (2 ^ 104 : ℤ) ≤ ⌊y⌋ := Int.le_floor.2 (by push_cast; exact y1)
    have h2 : 2 ^ 104 ≤ ⌊y⌋.toNat := by omega
    refine le_trans (le_of_eq (by norm_num)) h2
  have m4 : m < 2 ^ 53 := by
    rw [hm, Nat.sqrt_lt]
    have : ⌊y⌋ < (2 ^ 106 : ℤ) := Int.floor_lt.2 (by push_cast; exact y2)
    have h2 : ⌊y⌋.toNat < 2 ^ 106 := by omega
    refine lt_of_lt_of_le h2 (le_of_eq (by norm_num))
  obtain ⟨t, ht⟩ : ∃ t : ℝ, t = √(y : ℝ) := ⟨_, rfl⟩
  have hyr : (0 : ℝ) ≤ (y : ℝ) := by exact_mod_cast hy0.le
  have ht0 : 0 ≤ t := ht ▸ Real.sqrt_nonneg _
  have ht2 : t ^ 2 = (y : ℝ) := ht ▸ Real.sq_sqrt hyr
  have hroot : √(x : ℝ) = t * 2 ^ e := by
    rw [hxy, Rat.cast_mul, Real.sqrt_mul hyr, ← ht]
    congr 1
    rw [show (((4 : ℚ) ^ e : ℚ) : ℝ) = (2 ^ e) ^ 2 by
      push_cast; rw [← zpow_natCast, ← zpow_mul, mul_comm, zpow_mul]; norm_num]
    exact Real.sqrt_sq (zpow_pos (by norm_num) e).le
  have hpr : (0 : ℝ) < 2 ^ e := zpow_pos (by norm_num) e
  have hdiv : √(x : ℝ) / 2 ^ e = t := by rw [hroot, mul_div_cancel_right₀ _ hpr.ne']
  have t1 : (m : ℝ) ≤ t := by
    have : ((m : ℝ)) ^ 2 ≤ t ^ 2 := by rw [ht2]; exact_mod_cast m1
    exact le_of_sq_le_sq this ht0
  have t2 : t ≤ (m : ℝ) + 1 := by
    have : t ^ 2 ≤ ((m : ℝ) + 1) ^ 2 := by rw [ht2]; exact_mod_cast m2.le
    exact le_of_sq_le_sq this (by positivity)
  have t3 : (2 : ℝ) ^ 52 ≤ m := by exact_mod_cast m3
  have hdef : F64.sqrtRat x = if y ≤ ((m : ℚ) + 1 / 2) ^ 2 then (m : ℚ) * 2 ^ e else ((m : ℚ) + 1) * 2 ^ e := by
    unfold F64.sqrtRat
    simp only [hm, hy, he, hL]
  have hlow : (2 : ℝ) ^ 52 * 2 ^ e ≤ √(x : ℝ) := by
    rw [hroot]
    exact mul_le_mul_of_nonneg_right (t3.trans t1) hpr.le
  by_cases c : y ≤ ((m : ℚ) + 1 / 2) ^ 2
  · refine ⟨m, e, by rw [hdef, if_pos c]; push_cast; rfl, by exact_mod_cast m3, by exact_mod_cast m4.le, by omega, by omega, hlow, ?_⟩
    rw [hdiv]
    have : t ^ 2 ≤ ((m : ℝ) + 1 / 2) ^ 2 := by
      rw [ht2]
      have : ((y : ℚ) : ℝ) ≤ ((((m : ℚ) + 1 / 2) ^ 2 : ℚ) : ℝ) := by exact_mod_cast c
      push_cast at this
      exact this
    have := le_of_sq_le_sq this (by positivity)
    rw [abs_le]
    push_cast
    constructor <;> linarith
  · refine ⟨m + 1, e, by rw [hdef, if_neg c]; push_cast; rfl, by omega, by omega, by omega, by omega, hlow, ?_⟩
    rw [hdiv]
    have : ((m : ℝ) + 1 / 2) ^ 2 ≤ t ^ 2 := by
      rw [ht2]
      have : ((((m : ℚ) + 1 / 2) ^ 2 : ℚ) : ℝ) ≤ ((y : ℚ) : ℝ) := by exact_mod_cast (not_le.1 c).le
      push_cast at this
      exact this
    have := le_of_sq_le_sq this ht0
    rw [abs_le]
    push_cast
    constructor <;> linarith

/-- C92: no binary64 number is closer to the square root of a positive number than the one `sqrt`
returns, so its relative error is at most `2 ^ -53`. -/
theorem f64_sqrt_nearest {a : F64} (ha : a.IsFin) (h : 0 < a.val) :
    (fsqrt a).IsFin ∧ |((fsqrt a).val : ℝ) - √(a.val : ℝ)| ≤ 1 / 2 ^ 53 * √(a.val : ℝ) ∧ ∀ q, B64.Rep q → |((fsqrt a).val : ℝ) - √(a.val : ℝ)| ≤ |(q : ℝ) - √(a.val : ℝ)| := by
  have hrep := F64.val_rep ha
  obtain ⟨n, e, h1, h2, h3, h4, h5, h6, h7⟩ := F64.sqrtRat_spec h hrep
  have hdef : fsqrt a = F64.ofRat (F64.sqrtRat a.val) := by
    cases a with
    | num x => exact if_neg (not_lt.2 h.le)
    | _ => exact absurd h (lt_irrefl _)
  have hR : B64.Rep (F64.sqrtRat a.val) := by
    rw [h1]
    by_cases c : n = 2 ^ 53
    · rw [c, show ((2 ^ 53 : ℤ) : ℚ) * 2 ^ e = 2 ^ (53 + e) by rw [zpow_add₀ (by norm_num)]; norm_num]
      exact F64.rep_pow2 (by omega) (by omega)
    · exact B64.rep_units h4 (by omega) (by rw [abs_of_nonneg (by omega)]; omega)
  obtain ⟨f1, f2⟩ := F64.ofRat_rep hR
  rw [hdef]
  refine ⟨f1, ?_⟩
  rw [f2, h1]
  have hpr : (0 : ℝ) < 2 ^ e := zpow_pos (by norm_num) e
  obtain ⟨t, ht⟩ : ∃ t : ℝ, t = √(a.val : ℝ) / 2 ^ e := ⟨_, rfl⟩
  have hroot : √(a.val : ℝ) = t * 2 ^ e := by rw [ht, div_mul_cancel₀ _ hpr.ne']
  rw [← ht] at h7
  rw [hroot] at h6 ⊢
  have h6' : (2 : ℝ) ^ 52 ≤ t := le_of_mul_le_mul_right h6 hpr
  have near : ∀ k : ℤ, |(n : ℝ) - t| ≤ |(k : ℝ) - t| := by
    intro k
    by_cases hk : k = n
    · rw [hk]
    · have g2 : (1 : ℝ) ≤ |(k : ℝ) - n| := by
        rw [← Int.cast_sub, ← Int.cast_abs]
        exact_mod_cast Int.one_le_abs (sub_ne_zero.2 hk)
      have g3 := abs_sub_le (k : ℝ) t n
      rw [abs_sub_comm t] at g3
      linarith
  have en : (((n : ℚ) * 2 ^ e : ℚ) : ℝ) - t * 2 ^ e = ((n : ℝ) - t) * 2 ^ e := by push_cast; ring
  rw [en, abs_mul, abs_of_pos hpr]
  refine ⟨?_, fun q hq => ?_⟩
  · have : |(n : ℝ) - t| ≤ 1 / 2 ^ 53 * t := by
      have g : (1 : ℝ) / 2 ^ 53 * 2 ^ 52 ≤ 1 / 2 ^ 53 * t := mul_le_mul_of_nonneg_left h6' (by positivity)
      refine le_trans h7 (le_trans (le_of_eq ?_) g)
      norm_num
    rw [← mul_assoc]
    exact mul_le_mul_of_nonneg_right this hpr.le
  rcases F64.rep_grid hq e with ⟨k, hk⟩ | ⟨hs, -⟩
  · have : (q : ℝ) - t * 2 ^ e = ((k : ℝ) - t) * 2 ^ e := by rw [hk]; push_cast; ring
    rw [this, abs_mul, abs_of_pos hpr]
    exact mul_le_mul_of_nonneg_right (near k) hpr.le
  · have hs' : (q : ℝ) < 2 ^ 52 * 2 ^ e := by
      have : (q : ℝ) < ((2 ^ 52 * 2 ^ e : ℚ) : ℝ) := by exact_mod_cast lt_of_le_of_lt (le_abs_self q) hs
      rwa [Rat.cast_mul, Rat.cast_pow, Rat.cast_zpow, Rat.cast_ofNat] at this
    have hn := near (2 ^ 52)
    rw [Int.cast_pow, Int.cast_ofNat, abs_of_nonpos (a := (2 : ℝ) ^ 52 - t) (by linarith)] at hn
    refine le_trans (mul_le_mul_of_nonneg_right hn hpr.le) ?_
    refine le_trans ?_ (neg_le_abs _)
    linarith

section
variable [HasPowf F64] [HasMinMax F64]

/-- C92: a standard deviation is the number closest to the square root of a variance as in `f64_var_error`. -/
theorem f64_std_nearest {env : PyEnv F64} (he : env.Ok) {e : Prog F64} (hl : e.LitsOk) (hs : e.Small) (hd : e.AsDense) {τ : Ty}
    (hc : e.check = .ok τ) {axis : AxisArg} (keep : Bool) (ha : axis.Valid 2) (hne : axis ≠ .many []) (corr : F64)
    {out : PyRes (RedOut F64 F64)} (h : e.Reduce env (.std corr) axis keep out) :
    ∃ r, out = .ret (.dense r) ∧ IsReduction τ.shape (axis.covers 2) keep (fun l v => ∃ w, F64.RoundedVar corr l w ∧
      (w.IsFin → v.IsFin ∧ 0 ≤ w.val ∧ ∀ q, B64.Rep q → |(v.val : ℝ) - √(w.val : ℝ)| ≤ |(q : ℝ) - √(w.val : ℝ)|)) e.dense r := by
  obtain ⟨r, e1, hr⟩ := (f64_var_error he hl hs hd hc keep ha hne corr).2 h
  refine ⟨r, e1, hr.shape_eq, hr.size, fun y hy => ?_⟩
  obtain ⟨v, h1, w, h2, h3, rfl⟩ := hr.cell y hy
  refine ⟨_, h1, w, h2, fun hw => ?_⟩
  cases w with
  | nan => exact hw.elim
  | inf s => exact hw.elim
  | zero s =>
    refine ⟨trivial, le_refl _, fun q hq => ?_⟩
    show |((0 : ℚ) : ℝ) - √((0 : ℚ) : ℝ)| ≤ _
    rw [Rat.cast_zero, Real.sqrt_zero, sub_zero, abs_zero]
    exact abs_nonneg _
  | num x =>
    have hx : 0 < x.1 := lt_of_le_of_ne (not_lt.1 (of_decide_eq_false h3)) (Ne.symm x.2.2)
    have := f64_sqrt_nearest (a := F64.num x) trivial hx
    exact ⟨this.1, hx.le, this.2.2⟩

/-- `std([[1, 3]])`. -/
example {env : PyEnv F64} (he : env.Ok) {out : PyRes (RedOut F64 F64)}
    (h : (exPair (F64.ofRat (1 : ℤ)) (F64.ofRat (3 : ℤ))).Reduce env (.std 0) (.one 1) false out) :
    ∃ r v w, out = .ret (.dense r) ∧ r.shape = [1] ∧ r.data[0]? = some v ∧ F64.RoundedVar 0 [F64.ofRat (1 : ℤ), F64.ofRat (3 : ℤ)] w ∧
      (w.IsFin → v.IsFin) := by
  obtain ⟨h1, h2, h3, h4⟩ : (exPair (F64.ofRat (1 : ℤ)) (F64.ofRat (3 : ℤ))).LitsOk ∧ (exPair (F64.ofRat (1 : ℤ)) (F64.ofRat (3 : ℤ))).Small ∧
      (exPair (F64.ofRat (1 : ℤ)) (F64.ofRat (3 : ℤ))).AsDense ∧ (exPair (F64.ofRat (1 : ℤ)) (F64.ofRat (3 : ℤ))).check = .ok (.mat .csr 1 2) :=
    ⟨⟨by decide, nofun⟩, by decide +kernel, trivial, by decide +kernel⟩
  obtain ⟨r, e1, hr⟩ := f64_std_nearest he h1 h2 h3 h4 (axis := .one 1) false axis_one (by simp) 0 h
  have hsh : r.shape = [1] := hr.shape_eq
  obtain ⟨v, c1, w, c2, c3⟩ := hr.cell [0] (by rw [hsh]; exact .cons ⟨by omega, by omega⟩ .nil)
  rw [hsh] at c1
  exact ⟨r, v, w, e1, hsh, c1, c2, fun hw => (c3 hw).1⟩

end

/-- `1 / 3`, and the tie `1 + 2 ^ -53`, which goes to 1. -/
example (v : F64) (h : F64.Rounds (1 / 3) v) : v = F64.ofRat 1 / F64.ofRat 3 := by
  have e1 := F64.ofRat_rep (F64.int_rep (n := 1) (by norm_num))
  have e3 := F64.ofRat_rep (F64.int_rep (n := 3) (by norm_num))
  rw [show ((1 : ℤ) : ℚ) = 1 by norm_num] at e1
  rw [show ((3 : ℤ) : ℚ) = 3 by norm_num] at e3
  have := (f64_rounds e1.1 e3.1 e1.1 0).2.2.2.1 (by rw [e3.2]; norm_num)
  rw [e1.2, e3.2] at this
  exact f64_rounds_unique (by norm_num) h this

example : F64.Rounds (1 + 1 / 2 ^ 53) (F64.ofRat 1) := by
  have e1 := F64.ofRat_rep F64.rep_one
  have e2 := F64.ofRat_rep (F64.rep_pow2 (k := -53) (by norm_num) (by norm_num))
  have := (f64_rounds e1.1 e2.1 e1.1 0).1
  rw [e1.2, e2.2, show F64.ofRat 1 + F64.ofRat (2 ^ (-53 : ℤ)) = F64.ofRat 1 by decide +kernel] at this
  rw [show (1 : ℚ) / 2 ^ 53 = 2 ^ (-53 : ℤ) by rw [zpow_neg]; norm_num]
  exact this

/-- `1 - 1` and `-0 + -0`. -/
example : F64.ofRat 1 - F64.ofRat 1 = F64.zero false ∧ F64.zero true + F64.zero true = F64.zero true := by
  have e1 := F64.ofRat_rep F64.rep_one
  refine ⟨?_, (f64_signs (a := F64.zero true) (b := F64.zero true) (c := 0) trivial trivial trivial).1 (add_zero 0)⟩
  rw [(f64_signs e1.1 e1.1 e1.1).2.1 (sub_self _)]
  simp

/-- `floor(-5 / 2)` and the square root of 2. -/
example : (HasFloor.floor (F64.ofRat (-5 / 2))).val = -3 := by
  obtain ⟨h1, h2⟩ := F64.ofRat_rep (q := -5 / 2) ⟨⟨-5, -1, by norm_num, by norm_num, by norm_num⟩,
    le_trans (by rw [abs_div]; norm_num) (F64.int_rep (n := 100) (by norm_num)).2⟩
  rw [(f64_floor h1).2, h2]
  norm_num

example : |((fsqrt (F64.ofRat 2)).val : ℝ) - √2| ≤ 1 / 2 ^ 53 * √2 := by
  have e2 := F64.ofRat_rep (F64.int_rep (n := 2) (by norm_num))
  rw [show ((2 : ℤ) : ℚ) = 2 by norm_num] at e2
  have := (f64_sqrt_nearest e2.1 (by rw [e2.2]; norm_num)).2.1
  rwa [e2.2, Rat.cast_ofNat] at this

end Lacuna
