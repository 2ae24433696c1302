import Verif.Props.F64
import Verif.Spec.Exact
/-
Whole numbers in binary64: the operations on them, and floors of quotients.
-/
set_option linter.unusedSectionVars false

namespace Lacuna
namespace F64

theorem int_rep {n : ℤ} (h : |(n : ℚ)| ≤ 2 ^ 53) : B64.Rep (n : ℚ) := by
  have hm : |(n : ℚ)| ≤ max64 := by
    refine le_trans h ?_
    unfold max64
    have h2 : (2 : ℚ) ≤ 2 ^ (971 : ℤ) := by
      calc (2 : ℚ) = 2 ^ (1 : ℤ) := by norm_num
        _ ≤ _ := zpow_le_zpow_right₀ (by norm_num) (by norm_num)
    calc (2 : ℚ) ^ 53 ≤ (2 ^ 53 - 1) * 2 := by norm_num
      _ ≤ _ := mul_le_mul_of_nonneg_left h2 (by norm_num)
  have h' : |n| ≤ 2 ^ 53 := by exact_mod_cast h
  rcases lt_or_eq_of_le h' with h1 | h1
  · exact ⟨⟨n, 0, by simp, h1, by norm_num⟩, hm⟩
  · refine ⟨⟨n / 2, 1, ?_, ?_, by norm_num⟩, hm⟩
    · have : n = n / 2 * 2 := by
        rcases abs_choice n with e | e
        · rw [e] at h1; subst h1; decide
        · rw [e] at h1
          obtain rfl : n = -2 ^ 53 := by linarith
          decide
      rw [zpow_one]
      exact_mod_cast this
    · rcases abs_choice n with e | e
      · rw [e] at h1; subst h1; decide
      · rw [e] at h1
        obtain rfl : n = -2 ^ 53 := by linarith
        decide

theorem int_max {q : ℚ} (h : |q| ≤ 2 ^ 53) : |q| ≤ max64 :=
  le_trans h (by
    have := (int_rep (n := 2 ^ 53) (by norm_num)).2
    rw [abs_of_nonneg (by positivity)] at this
    exact_mod_cast this)

theorem int_add {a b : F64} (ha : a.IsInt) (hb : b.IsInt) (h : |a.val + b.val| ≤ 2 ^ 53) :
    (a + b).IsInt ∧ (a + b).val = a.val + b.val := by
  obtain ⟨fa, n, hn⟩ := ha
  obtain ⟨fb, m, hm⟩ := hb
  obtain ⟨h1, h2⟩ := add_rnd fa fb (int_max h)
  have e : a.val + b.val = ((n + m : ℤ) : ℚ) := by rw [hn, hm]; push_cast; rfl
  rw [e] at h h2
  rw [(int_rep h).fix] at h2
  exact ⟨⟨h1, _, h2⟩, by rw [h2, e]⟩

theorem int_sub {a b : F64} (ha : a.IsInt) (hb : b.IsInt) (h : |a.val - b.val| ≤ 2 ^ 53) :
    (a - b).IsInt ∧ (a - b).val = a.val - b.val := by
  obtain ⟨fa, n, hn⟩ := ha
  obtain ⟨fb, m, hm⟩ := hb
  obtain ⟨h1, h2⟩ := sub_rnd fa fb (int_max h)
  have e : a.val - b.val = ((n - m : ℤ) : ℚ) := by rw [hn, hm]; push_cast; rfl
  rw [e] at h h2
  rw [(int_rep h).fix] at h2
  exact ⟨⟨h1, _, h2⟩, by rw [h2, e]⟩

theorem int_mul {a b : F64} (ha : a.IsInt) (hb : b.IsInt) (h : |a.val * b.val| ≤ 2 ^ 53) :
    (a * b).IsInt ∧ (a * b).val = a.val * b.val := by
  obtain ⟨fa, n, hn⟩ := ha
  obtain ⟨fb, m, hm⟩ := hb
  obtain ⟨h1, h2⟩ := mul_rnd fa fb (int_max h)
  have e : a.val * b.val = ((n * m : ℤ) : ℚ) := by rw [hn, hm]; push_cast; rfl
  rw [e] at h h2
  rw [(int_rep h).fix] at h2
  exact ⟨⟨h1, _, h2⟩, by rw [h2, e]⟩

theorem int_fma {a b c : F64} (ha : a.IsInt) (hb : b.IsInt) (hc : c.IsInt) (h : |a.val * b.val + c.val| ≤ 2 ^ 53) :
    (mulAdd a b c).IsInt ∧ (mulAdd a b c).val = a.val * b.val + c.val := by
  obtain ⟨fa, n, hn⟩ := ha
  obtain ⟨fb, m, hm⟩ := hb
  obtain ⟨fc, k, hk⟩ := hc
  obtain ⟨h1, h2⟩ := fma_rnd fa fb fc (int_max h)
  have e : a.val * b.val + c.val = ((n * m + k : ℤ) : ℚ) := by rw [hn, hm, hk]; push_cast; rfl
  rw [e] at h h2
  rw [(int_rep h).fix] at h2
  exact ⟨⟨h1, _, h2⟩, by rw [h2, e]⟩

theorem int_zero : (0 : F64).IsInt := ⟨trivial, 0, by norm_num [show (0 : F64).val = 0 from rfl]⟩

theorem int_same {a b : F64} (h : SameNum a b) (hb : b.IsInt) : a.IsInt := by
  obtain ⟨f, n, hn⟩ := hb
  exact ⟨same_fin h f, n, by rw [same_val h, hn]⟩

theorem sum_abs_le (s : Multiset F64) : |(s.map val).sum| ≤ (s.map fun x => |x.val|).sum := by
  induction s using Multiset.induction_on with
  | empty => simp
  | cons a s ih =>
    rw [Multiset.map_cons, Multiset.map_cons, Multiset.sum_cons, Multiset.sum_cons]
    exact le_trans (abs_add_le _ _) (add_le_add (le_refl _) ih)

theorem sum_abs_nonneg (s : Multiset F64) : 0 ≤ (s.map fun x => |x.val|).sum := le_trans (abs_nonneg _) (sum_abs_le s)

/-- Adding whole numbers in any order and grouping is exact. -/
theorem addTree_int {s : Multiset F64} {v : F64} (h : AddTree s v) : (∀ x ∈ s, x.IsInt) → (s.map fun x => |x.val|).sum ≤ 2 ^ 53 →
    v.IsInt ∧ v.val = (s.map val).sum := by
  induction h with
  | zero => intro _ _; exact ⟨int_zero, rfl⟩
  | leaf x => intro hx _; exact ⟨hx x (Multiset.mem_singleton_self x), by simp⟩
  | @node s t a b _ _ iha ihb =>
    intro hx hb
    rw [Multiset.map_add, Multiset.sum_add] at hb
    have hs := sum_abs_nonneg s
    have ht := sum_abs_nonneg t
    obtain ⟨a1, a2⟩ := iha (fun x h => hx x (Multiset.mem_add.2 (.inl h))) (by linarith)
    obtain ⟨b1, b2⟩ := ihb (fun x h => hx x (Multiset.mem_add.2 (.inr h))) (by linarith)
    have := int_add a1 b1 (by
      rw [a2, b2]
      exact le_trans (abs_add_le _ _) (le_trans (add_le_add (sum_abs_le s) (sum_abs_le t)) hb))
    refine ⟨this.1, ?_⟩
    rw [this.2, a2, b2, Multiset.map_add, Multiset.sum_add]

theorem abs_val_fin {x : F64} (h : x.IsFin) : (fabs x).IsFin ∧ (fabs x).val = |x.val| := by
  show (F64.abs x).IsFin ∧ (F64.abs x).val = |x.val|
  unfold F64.abs
  cases x with
  | nan => exact h.elim
  | inf => exact h.elim
  | zero s => cases s <;> exact ⟨trivial, (abs_zero (α := ℚ)).symm⟩
  | num x =>
    by_cases hx : x.1 < 0
    · rw [if_pos (by simpa [F64.sign] using hx)]
      exact ⟨trivial, (abs_of_neg hx).symm⟩
    · rw [if_neg (by simpa [F64.sign] using hx)]
      exact ⟨trivial, (abs_of_nonneg (not_lt.1 hx)).symm⟩

theorem signum_val_fin {x : F64} (h : x.IsFin) :
    x.signum.IsFin ∧ x.signum.val = if 0 < x.val then 1 else if x.val < 0 then -1 else 0 := by
  have o : (1 : F64).IsFin ∧ (1 : F64).val = 1 := F64.ofRat_rep F64.rep_one
  cases x with
  | nan => exact h.elim
  | inf => exact h.elim
  | zero s => exact ⟨trivial, rfl⟩
  | num x =>
    have e : (F64.num x).signum = if x.1 < 0 then -1 else 1 := by
      by_cases hx : x.1 < 0 <;> simp [F64.signum, F64.sign, hx]
    rw [e]
    show _ ∧ _ = if 0 < x.1 then (1 : ℚ) else if x.1 < 0 then -1 else 0
    rcases lt_trichotomy x.1 0 with hx | hx | hx
    · rw [if_pos hx, if_neg (not_lt.2 hx.le), if_pos hx]
      exact ⟨neg_fin o.1, by rw [neg_val, o.2]⟩
    · exact absurd hx x.2.2
    · rw [if_neg (not_lt.2 hx.le), if_pos hx]
      exact o


theorem eta_small : (1 / 2 * 2 ^ (-1074 : ℤ) : ℚ) < 1 / 2 ^ 106 := by
  calc (1 / 2 * 2 ^ (-1074 : ℤ) : ℚ) < 1 * 2 ^ (-1074 : ℤ) := mul_lt_mul_of_pos_right (by norm_num) (zpow_pos (by norm_num) _)
    _ ≤ 1 * 2 ^ (-106 : ℤ) := mul_le_mul_of_nonneg_left (zpow_le_zpow_right₀ (by norm_num) (by norm_num)) (by norm_num)
    _ = 1 / 2 ^ 106 := by norm_num

theorem one_fin : (1 : F64).IsFin ∧ (1 : F64).val = 1 := ofRat_rep rep_one

/-- The reciprocal of a number that is neither tiny nor huge is a number, up to a relative error of `2 ^ -53`. -/
theorem recip_err {alpha : F64} (ha : alpha.IsFin) (h1 : (2 : ℚ) ^ (-1022 : ℤ) ≤ |alpha.val|) (h2 : |alpha.val| ≤ 2 ^ (1022 : ℤ)) :
    (1 / alpha).IsFin ∧ |(1 / alpha).val - 1 / alpha.val| ≤ 1 / 2 ^ 53 * |1 / alpha.val| ∧ (1 / alpha == 0) = false := by
  have hp : 0 < |alpha.val| := lt_of_lt_of_le (zpow_pos (by norm_num) _) h1
  have h0 : alpha.val ≠ 0 := abs_pos.1 hp
  have hq : |1 / alpha.val| = 1 / |alpha.val| := by rw [abs_div, abs_one]
  have u1 : |1 / alpha.val| ≤ 2 ^ (1022 : ℤ) := by
    rw [hq, div_le_iff₀ hp]
    calc (1 : ℚ) = 2 ^ (1022 : ℤ) * 2 ^ (-1022 : ℤ) := by rw [← zpow_add₀ (by norm_num)]; norm_num
      _ ≤ _ := mul_le_mul_of_nonneg_left h1 (zpow_pos (by norm_num) _).le
  have l1 : (2 : ℚ) ^ (-1022 : ℤ) ≤ |1 / alpha.val| := by
    rw [hq, le_div_iff₀ hp]
    calc (2 : ℚ) ^ (-1022 : ℤ) * |alpha.val| ≤ 2 ^ (-1022 : ℤ) * 2 ^ (1022 : ℤ) := mul_le_mul_of_nonneg_left h2 (zpow_pos (by norm_num) _).le
      _ = 1 := by rw [← zpow_add₀ (by norm_num)]; norm_num
  have hq0 : 1 / alpha.val ≠ 0 := one_div_ne_zero h0
  have hm : |1 / alpha.val| ≤ max64 := by
    have := (rep_pow2 (k := 1022) (by norm_num) (by norm_num)).2
    rw [abs_of_pos (zpow_pos (by norm_num) _)] at this
    exact le_trans u1 this
  have hr := div_rnd one_fin.1 ha h0 (by rw [one_fin.2]; exact hm)
  rw [one_fin.2] at hr
  have he := rnd64_rel (x := 1 / alpha.val) ((Int.zpow_le_iff_le_log (by norm_num) (abs_pos.2 hq0)).1 (by exact_mod_cast l1)) hq0
  refine ⟨hr.1, by rw [hr.2]; exact he, ?_⟩
  rw [Bool.eq_false_iff]
  intro hz
  have hz := (val_eq_zero hr.1).2 hz
  rw [hr.2] at hz
  rw [hz, zero_sub, abs_neg] at he
  have := abs_pos.2 hq0
  linarith

theorem div_error {d alpha : F64} (hd : d.IsFin) (ha : alpha.IsFin) (h1 : (2 : ℚ) ^ (-1022 : ℤ) ≤ |alpha.val|)
    (h2 : |alpha.val| ≤ 2 ^ (1022 : ℤ)) (hb : (1 + 1 / 2 ^ 53) * |d.val / alpha.val| ≤ max64) :
    (d * (1 / alpha)).IsFin ∧ |(d * (1 / alpha)).val - d.val / alpha.val| ≤
      (2 / 2 ^ 53 + 1 / 2 ^ 106) * |d.val / alpha.val| + 1 / 2 * 2 ^ (-1074 : ℤ) := by
  obtain ⟨hf, he, -⟩ := recip_err ha h1 h2
  set r := (1 / alpha).val with hr
  have e : d.val / alpha.val = d.val * (1 / alpha.val) := by ring
  have k1 : |d.val * r - d.val / alpha.val| ≤ 1 / 2 ^ 53 * |d.val / alpha.val| := by
    have : d.val * r - d.val / alpha.val = d.val * (r - 1 / alpha.val) := by ring
    rw [this, abs_mul, e, abs_mul]
    calc |d.val| * |r - 1 / alpha.val| ≤ |d.val| * (1 / 2 ^ 53 * |1 / alpha.val|) := mul_le_mul_of_nonneg_left he (abs_nonneg _)
      _ = _ := by ring
  have k2 : |d.val * r| ≤ (1 + 1 / 2 ^ 53) * |d.val / alpha.val| := by
    have := abs_sub_abs_le_abs_sub (d.val * r) (d.val / alpha.val)
    linarith
  obtain ⟨f, v⟩ := mul_rnd hd hf (le_trans k2 hb)
  refine ⟨f, ?_⟩
  rw [v]
  have k3 := rnd64_err (d.val * r)
  have k4 := abs_sub_le (rnd64 (d.val * r)) (d.val * r) (d.val / alpha.val)
  have k5 : (1 : ℚ) / 2 ^ 53 * |d.val * r| ≤ 1 / 2 ^ 53 * ((1 + 1 / 2 ^ 53) * |d.val / alpha.val|) :=
    mul_le_mul_of_nonneg_left k2 (by norm_num)
  have k6 : (1 : ℚ) / 2 ^ 53 * ((1 + 1 / 2 ^ 53) * |d.val / alpha.val|) + 1 / 2 ^ 53 * |d.val / alpha.val| =
    (2 / 2 ^ 53 + 1 / 2 ^ 106) * |d.val / alpha.val| := by ring
  linarith

theorem floor_int {y : F64} (hy : y.IsFin) (h : |((⌊y.val⌋ : ℤ) : ℚ)| ≤ 2 ^ 53) :
    (HasFloor.floor y).IsInt ∧ (HasFloor.floor y).val = ⌊y.val⌋ := by
  cases y with
  | nan => exact hy.elim
  | inf => exact hy.elim
  | zero s =>
    have : (F64.zero s).val = 0 := rfl
    refine ⟨⟨trivial, 0, by show (0 : ℚ) = _; simp⟩, ?_⟩
    rw [this]; show (0 : ℚ) = _; simp
  | num x =>
    have := ofRat_rep (int_rep h)
    exact ⟨⟨this.1, _, this.2⟩, this.2⟩

/-- The rounded quotient lies between the same whole numbers as the quotient. -/
theorem quot_between {d alpha : F64} (hd : d.IsFin) (ha : alpha.IsFin) (h0 : alpha.val ≠ 0) (hb : |d.val / alpha.val| < 2 ^ 53) :
    (d / alpha).IsFin ∧ (⌊d.val / alpha.val⌋ : ℚ) ≤ (d / alpha).val ∧ (d / alpha).val ≤ ⌊d.val / alpha.val⌋ + 1 ∧
      |((⌊d.val / alpha.val⌋ : ℤ) : ℚ)| ≤ 2 ^ 53 ∧ |((⌊d.val / alpha.val⌋ + 1 : ℤ) : ℚ)| ≤ 2 ^ 53 := by
  set q := d.val / alpha.val with hq
  obtain ⟨f, v⟩ := div_rnd hd ha h0 (int_max hb.le)
  obtain ⟨b1, b2⟩ := abs_lt.1 hb
  have n1 : (-2 ^ 53 : ℤ) ≤ ⌊q⌋ := Int.le_floor.2 (by push_cast; exact b1.le)
  have n2 : ⌊q⌋ < 2 ^ 53 := Int.floor_lt.2 (by push_cast; exact b2)
  have r1 : |((⌊q⌋ : ℤ) : ℚ)| ≤ 2 ^ 53 := by
    have : |⌊q⌋| ≤ 2 ^ 53 := abs_le.2 ⟨n1, n2.le⟩
    exact_mod_cast this
  have r2 : |((⌊q⌋ + 1 : ℤ) : ℚ)| ≤ 2 ^ 53 := by
    have : |⌊q⌋ + 1| ≤ 2 ^ 53 := abs_le.2 ⟨by linarith, by linarith⟩
    exact_mod_cast this
  have fl := Int.floor_le q
  have fu := Int.lt_floor_add_one q
  refine ⟨f, ?_, ?_, r1, r2⟩
  · have h := B64.rnd64_nearest q (int_rep r1)
    rw [v]
    rw [abs_of_nonpos (by linarith : (⌊q⌋ : ℚ) - q ≤ 0)] at h
    have := (abs_le.1 h).1
    linarith
  · have h := B64.rnd64_nearest q (int_rep r2)
    rw [v]
    push_cast at h
    rw [abs_of_nonneg (by linarith : (0 : ℚ) ≤ ⌊q⌋ + 1 - q)] at h
    have := (abs_le.1 h).2
    linarith

theorem floordiv_close {d alpha : F64} (hd : d.IsFin) (ha : alpha.IsFin) (h0 : alpha.val ≠ 0) (hb : |d.val / alpha.val| < 2 ^ 53) :
    (HasFloor.floor (d / alpha)).IsInt ∧ ((HasFloor.floor (d / alpha)).val = ⌊d.val / alpha.val⌋ ∨
      (HasFloor.floor (d / alpha)).val = ⌊d.val / alpha.val⌋ + 1) := by
  obtain ⟨f, l, u, r1, r2⟩ := quot_between hd ha h0 hb
  rcases lt_or_eq_of_le u with u | u
  · have e : ⌊(d / alpha).val⌋ = ⌊d.val / alpha.val⌋ := Int.floor_eq_iff.2 ⟨l, u⟩
    have := floor_int f (by rw [e]; exact r1)
    exact ⟨this.1, .inl (by rw [this.2, e])⟩
  · have e : ⌊(d / alpha).val⌋ = ⌊d.val / alpha.val⌋ + 1 := by
      rw [u]; exact_mod_cast Int.floor_intCast (R := ℚ) (⌊d.val / alpha.val⌋ + 1)
    have := floor_int f (by rw [e]; exact r2)
    exact ⟨this.1, .inr (by rw [this.2, e]; push_cast; rfl)⟩

/-- For whole numbers the rounded quotient never reaches the next whole number. -/
theorem floordiv_int {d alpha : F64} (hd : d.IsInt) (ha : alpha.IsInt) (h0 : alpha.val ≠ 0) (h1 : |d.val| < 2 ^ 53)
    (h2 : |alpha.val| ≤ 2 ^ 53) :
    (HasFloor.floor (d / alpha)).IsInt ∧ (HasFloor.floor (d / alpha)).val = ⌊d.val / alpha.val⌋ := by
  obtain ⟨fd, n, hn⟩ := hd
  obtain ⟨fa, m, hm⟩ := ha
  have hm1 : 1 ≤ |alpha.val| := by
    rw [hm] at h0 ⊢
    have : m ≠ 0 := by exact_mod_cast h0
    exact_mod_cast Int.one_le_abs this
  have hp : 0 < |alpha.val| := lt_of_lt_of_le one_pos hm1
  have hd1 : |d.val| ≤ 2 ^ 53 - 1 := by
    rw [hn] at h1 ⊢
    have : |n| < 2 ^ 53 := by exact_mod_cast h1
    have : |n| ≤ 2 ^ 53 - 1 := by omega
    exact_mod_cast this
  have hb : |d.val / alpha.val| < 2 ^ 53 := by
    rw [abs_div, div_lt_iff₀ hp]
    calc |d.val| < 2 ^ 53 * 1 := by rw [mul_one]; exact h1
      _ ≤ _ := mul_le_mul_of_nonneg_left hm1 (by norm_num)
  obtain ⟨f, l, u, r1, r2⟩ := quot_between fd fa h0 hb
  have hv := (div_rnd fd fa h0 (int_max hb.le)).2
  have key : (d / alpha).val < ⌊d.val / alpha.val⌋ + 1 := by
    set q := d.val / alpha.val with hq
    have fu := Int.lt_floor_add_one q
    -- the distance of the quotient from the next whole number
    have gap : 1 / |alpha.val| ≤ ⌊q⌋ + 1 - q := by
      have e : (⌊q⌋ + 1 - q) * |alpha.val| = |(((⌊q⌋ + 1) * m - n : ℤ) : ℚ)| := by
        rw [← abs_of_pos (sub_pos.2 fu), ← abs_mul]
        congr 1
        rw [sub_mul, hq, div_mul_cancel₀ _ h0, hn, hm]
        push_cast; ring
      rw [div_le_iff₀ hp, e]
      have : ((⌊q⌋ + 1) * m - n : ℤ) ≠ 0 := by
        intro h
        rw [h, Int.cast_zero, abs_zero] at e
        rcases mul_eq_zero.1 e with e | e <;> linarith
      exact_mod_cast Int.one_le_abs this
    have err := rnd64_err q
    have hqa : |q| ≤ (2 ^ 53 - 1) / |alpha.val| := by
      rw [hq, abs_div]; exact div_le_div_of_nonneg_right hd1 hp.le
    have slack : (1 : ℚ) / 2 ^ 106 ≤ 1 / 2 ^ 53 / |alpha.val| := by
      rw [le_div_iff₀ hp]
      calc (1 : ℚ) / 2 ^ 106 * |alpha.val| ≤ 1 / 2 ^ 106 * 2 ^ 53 := mul_le_mul_of_nonneg_left h2 (by norm_num)
        _ = 1 / 2 ^ 53 := by norm_num
    have k1 : (1 : ℚ) / 2 ^ 53 * |q| ≤ 1 / 2 ^ 53 * ((2 ^ 53 - 1) / |alpha.val|) := mul_le_mul_of_nonneg_left hqa (by norm_num)
    have k2 : (1 : ℚ) / 2 ^ 53 * ((2 ^ 53 - 1) / |alpha.val|) = 1 / |alpha.val| - 1 / 2 ^ 53 / |alpha.val| := by ring
    have := eta_small
    have := (abs_le.1 err).2
    rw [hv]
    linarith
  have e : ⌊(d / alpha).val⌋ = ⌊d.val / alpha.val⌋ := Int.floor_eq_iff.2 ⟨l, key⟩
  have := floor_int f (by rw [e]; exact r1)
  exact ⟨this.1, by rw [this.2, e]⟩

theorem rem_int {d alpha : F64} (hd : d.IsInt) (ha : alpha.IsInt) (h0 : alpha.val ≠ 0) (h : |d.val| + |alpha.val| ≤ 2 ^ 53) :
    (d - alpha * HasFloor.floor (d / alpha)).IsInt ∧
      (d - alpha * HasFloor.floor (d / alpha)).val = d.val - alpha.val * ⌊d.val / alpha.val⌋ := by
  have hp := abs_pos.2 h0
  obtain ⟨f, v⟩ := floordiv_int hd ha h0 (by linarith) (by have := abs_nonneg d.val; linarith)
  have h1 : |alpha.val * ⌊d.val / alpha.val⌋ - d.val| ≤ |alpha.val| := by
    have : alpha.val * ⌊d.val / alpha.val⌋ - d.val = alpha.val * (⌊d.val / alpha.val⌋ - d.val / alpha.val) := by
      rw [mul_sub, mul_div_cancel₀ _ h0]
    rw [this, abs_mul]
    have h3 := Int.floor_le (d.val / alpha.val)
    have h4 := Int.lt_floor_add_one (d.val / alpha.val)
    have : |(⌊d.val / alpha.val⌋ : ℚ) - d.val / alpha.val| ≤ 1 := abs_le.2 ⟨by linarith, by linarith⟩
    calc _ ≤ |alpha.val| * 1 := mul_le_mul_of_nonneg_left this hp.le
      _ = _ := mul_one _
  have h2 : |alpha.val * ⌊d.val / alpha.val⌋| ≤ 2 ^ 53 := by
    have := abs_sub_abs_le_abs_sub (alpha.val * ⌊d.val / alpha.val⌋) d.val
    linarith
  obtain ⟨g, w⟩ := int_mul ha f (by rw [v]; exact h2)
  rw [v] at w
  obtain ⟨k, z⟩ := int_sub hd g (by
    rw [w, abs_sub_comm]
    have := abs_nonneg d.val
    linarith)
  exact ⟨k, by rw [z, w]⟩

theorem floordiv_le {a b : ℚ} {n m : ℤ} (ha : a = n) (hb : b = m) (h0 : b ≠ 0) : |((⌊a / b⌋ : ℤ) : ℚ)| ≤ |a| := by
  subst ha hb
  have hm : m ≠ 0 := by exact_mod_cast h0
  have e : ⌊(n : ℚ) / m⌋ = ⌊(n : ℚ) / m⌋ := rfl
  have h1 : |(n : ℚ) / m| ≤ |(n : ℚ)| := by
    rw [abs_div]
    refine div_le_self (abs_nonneg _) ?_
    exact_mod_cast Int.one_le_abs hm
  obtain ⟨h2, h3⟩ := abs_le.1 h1
  have h4 : -|n| ≤ ⌊(n : ℚ) / m⌋ := Int.le_floor.2 (by push_cast; exact h2)
  have h5 : ((⌊(n : ℚ) / m⌋ : ℤ) : ℚ) ≤ |(n : ℚ)| := le_trans (Int.floor_le _) h3
  exact abs_le.2 ⟨by exact_mod_cast h4, h5⟩

theorem rem_le {a b : ℚ} (h0 : b ≠ 0) : |a - b * ⌊a / b⌋| ≤ |b| := by
  have : a - b * ⌊a / b⌋ = b * (a / b - ⌊a / b⌋) := by rw [mul_sub, mul_div_cancel₀ _ h0]
  rw [this, abs_mul]
  have h3 := Int.floor_le (a / b)
  have h4 := Int.lt_floor_add_one (a / b)
  have : |a / b - ⌊a / b⌋| ≤ 1 := abs_le.2 ⟨by linarith, by linarith⟩
  calc _ ≤ |b| * 1 := mul_le_mul_of_nonneg_left this (abs_nonneg _)
    _ = _ := mul_one _

theorem floordiv_zero [HasPowf F64] {x y : F64} (hy : y.IsFin) (h : y.val = 0) : (x / y).flr.orZero = 0 ∧ (x - y * (x / y).flr).orZero = 0 := by
  obtain ⟨s, rfl⟩ := eq_zero_iff.1 ((val_eq_zero hy).1 h)
  exact ⟨f64_orZero_not (quotLike_floordiv.zero_right x s), f64_orZero_not (quotLike_rem.zero_right x s)⟩

/-- Floor division and remainder of whole numbers. -/
theorem int_quot [HasPowf F64] {x y : F64} (hx : x.IsInt) (hy : y.IsInt) :
    (|x.val| < 2 ^ 53 → |y.val| ≤ 2 ^ 53 → (x / y).flr.orZero.IsInt ∧
      (x / y).flr.orZero.val = if y.val = 0 then 0 else ((⌊x.val / y.val⌋ : ℤ) : ℚ)) ∧
    (|x.val| + |y.val| ≤ 2 ^ 53 → (x - y * (x / y).flr).orZero.IsInt ∧
      (x - y * (x / y).flr).orZero.val = if y.val = 0 then 0 else x.val - y.val * ⌊x.val / y.val⌋) := by
  by_cases h0 : y.val = 0
  · obtain ⟨e1, e2⟩ := floordiv_zero (x := x) hy.1 h0
    rw [e1, e2, if_pos h0, if_pos h0]
    exact ⟨fun _ _ => ⟨int_zero, rfl⟩, fun _ => ⟨int_zero, rfl⟩⟩
  · rw [if_neg h0, if_neg h0]
    refine ⟨fun h1 h2 => ?_, fun h1 => ?_⟩
    · have h := floordiv_int hx hy h0 h1 h2
      have e : (x / y).flr.orZero = (x / y).flr := f64_orZero h.1.1
      rw [e]
      exact h
    · have h := rem_int hx hy h0 h1
      have e : (x - y * (x / y).flr).orZero = x - y * (x / y).flr := f64_orZero h.1.1
      rw [e]
      exact h

theorem lt_val {x y : F64} (hx : x.IsFin) (hy : y.IsFin) : flt x y = decide (x.val < y.val) := by
  cases x <;> cases y <;> first | exact hx.elim | exact hy.elim | rfl

theorem int_not_nan {x : F64} (h : x.IsFin) : isNan x = false := by
  cases x <;> first | exact h.elim | rfl

end F64

theorem val_ne {alpha : F64} (hf : alpha.IsFin) (h : (alpha == 0) = false) : alpha.val ≠ 0 := fun h0 => by
  rw [(F64.val_eq_zero hf).1 h0] at h; cases h

end Lacuna
