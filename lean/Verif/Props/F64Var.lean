import Verif.Props.F64Div
import Verif.Spec.F64Var
/-
C91: how accurate variances are in binary64, and how inaccurate they may be.
-/
set_option linter.unusedSectionVars false
namespace Lacuna

/-! ### sums of squares -/

theorem sum_sq_nonneg (l : List ℚ) : 0 ≤ (l.map fun x => x ^ 2).sum :=
  List.sum_nonneg fun x hx => by obtain ⟨y, -, rfl⟩ := List.mem_map.1 hx; positivity

/-- The square of a sum of absolute values against the sum of the squares. -/
theorem sq_sum_abs_le (l : List ℚ) : (l.map fun x => |x|).sum ^ 2 ≤ l.length * (l.map fun x => x ^ 2).sum := by
  induction l with
  | nil => simp
  | cons a l ih =>
    rw [List.map_cons, List.map_cons, List.sum_cons, List.sum_cons, List.length_cons]
    push_cast
    have hQ := sum_sq_nonneg l
    rcases l with _ | ⟨b, l⟩
    · simp
    · set A := ((b :: l).map fun x => |x|).sum
      set Q := ((b :: l).map fun x => x ^ 2).sum
      have hn : (0 : ℚ) < (b :: l).length := by simp; positivity
      set n : ℚ := ((b :: l).length : ℚ)
      have key : 2 * |a| * A ≤ n * a ^ 2 + Q := by
        have h1 : 0 ≤ (n * |a| - A) ^ 2 := sq_nonneg _
        have h2 : n * (n * a ^ 2 + Q - 2 * |a| * A) = (n * |a| - A) ^ 2 + (n * Q - A ^ 2) := by
          rw [← sq_abs a]; ring
        have h3 : 0 ≤ n * (n * a ^ 2 + Q - 2 * |a| * A) := by rw [h2]; linarith
        have := nonneg_of_mul_nonneg_right h3 hn
        linarith
      have : (|a| + A) ^ 2 = a ^ 2 + 2 * |a| * A + A ^ 2 := by rw [← sq_abs a]; ring
      rw [this]
      nlinarith

theorem sum_sq_dist (l : List ℚ) (m : ℚ) :
    (l.map fun x => (x - m) ^ 2).sum = (l.map fun x => x ^ 2).sum - 2 * m * l.sum + l.length * m ^ 2 := by
  induction l with
  | nil => simp
  | cons a l ih =>
    rw [List.map_cons, List.map_cons, List.sum_cons, List.sum_cons, List.sum_cons, List.length_cons, ih]
    push_cast; ring

theorem exactVar_eq {l : List ℚ} (h : l ≠ []) (c : ℚ) :
    exactVar c l = ((l.map fun x => x ^ 2).sum - l.sum ^ 2 / l.length) / (l.length - c) := by
  unfold exactVar
  have hn : (l.length : ℚ) ≠ 0 := by
    have := List.length_pos_of_ne_nil h
    exact_mod_cast this.ne'
  rw [sum_sq_dist]
  congr 1
  field_simp
  ring

theorem abs_sum_le_abs (l : List ℚ) : |l.sum| ≤ (l.map fun x => |x|).sum := by
  induction l with
  | nil => simp
  | cons a l ih =>
    rw [List.sum_cons, List.map_cons, List.sum_cons]
    exact le_trans (abs_add_le _ _) (add_le_add (le_refl _) ih)

/-! ### rounding steps -/

/-- One rounding after an approximation. -/
theorem round_step {x y w E W u eta : ℚ} (hu : 0 ≤ u) (h1 : |x - w| ≤ E) (h2 : |y - x| ≤ u * |x| + eta) (h3 : |w| ≤ W) :
    |y - w| ≤ (1 + u) * E + u * W + eta := by
  have h4 := abs_sub_le y x w
  have h5 : |x| ≤ E + W := by
    have := abs_sub_abs_le_abs_sub x w
    linarith
  have h6 : u * |x| ≤ u * (E + W) := mul_le_mul_of_nonneg_left h5 hu
  linarith

theorem abs_le_of_close {y w E W : ℚ} (h1 : |y - w| ≤ E) (h2 : |w| ≤ W) : |y| ≤ E + W := by
  have := abs_sub_abs_le_abs_sub y w
  linarith

namespace F64

theorem lt_fin {x y : F64} (hx : x.IsFin) (hy : y.IsFin) : flt x y = decide (x.val < y.val) := by
  cases x with
  | nan => exact hx.elim
  | inf => exact hx.elim
  | zero s =>
    cases y with
    | nan => exact hy.elim
    | inf => exact hy.elim
    | zero t => show false = decide ((0 : ℚ) < 0); simp
    | num y => rfl
  | num x =>
    cases y with
    | nan => exact hy.elim
    | inf => exact hy.elim
    | zero t => rfl
    | num y => rfl

/-- The rounded squares of numbers. -/
theorem sum_squares {l : List F64} (hf : ∀ x ∈ l, x.IsFin) (hb : (l.map fun x => x.val ^ 2).sum ≤ max64) :
    (∀ x ∈ l.map (fun x => x * x), x.IsFin) ∧
    |((l.map fun x => x * x).map val).sum - (l.map fun x => x.val ^ 2).sum| ≤
      1 / 2 ^ 53 * (l.map fun x => x.val ^ 2).sum + l.length * (1 / 2 * 2 ^ (-1074 : ℤ)) ∧
    ((l.map fun x => x * x).map fun x => |x.val|).sum ≤
      (1 + 1 / 2 ^ 53) * (l.map fun x => x.val ^ 2).sum + l.length * (1 / 2 * 2 ^ (-1074 : ℤ)) := by
  induction l with
  | nil => simp
  | cons a l ih =>
    simp only [List.map_cons, List.sum_cons, List.length_cons] at hb ⊢
    have hQ : 0 ≤ (l.map fun x => x.val ^ 2).sum := List.sum_nonneg fun x hx => by
      obtain ⟨y, -, rfl⟩ := List.mem_map.1 hx; positivity
    have ha := sq_nonneg a.val
    obtain ⟨i1, i2, i3⟩ := ih (fun x hx => hf x (List.mem_cons_of_mem _ hx)) (by linarith)
    have e : a.val * a.val = a.val ^ 2 := by ring
    obtain ⟨f, v⟩ := mul_rnd (hf a List.mem_cons_self) (hf a List.mem_cons_self) (by
      rw [e, abs_of_nonneg ha]; linarith)
    have err := rnd64_err (a.val * a.val)
    rw [← v, e, abs_of_nonneg ha] at err
    push_cast
    refine ⟨?_, ?_, ?_⟩
    · intro x hx
      rcases List.mem_cons.1 hx with rfl | hx
      · exact f
      · exact i1 x hx
    · have h := abs_add_le ((a * a).val - a.val ^ 2) (((l.map fun x => x * x).map val).sum - (l.map fun x => x.val ^ 2).sum)
      have e2 : (a * a).val + ((l.map fun x => x * x).map val).sum - (a.val ^ 2 + (l.map fun x => x.val ^ 2).sum) =
        (a * a).val - a.val ^ 2 + (((l.map fun x => x * x).map val).sum - (l.map fun x => x.val ^ 2).sum) := by ring
      rw [e2]
      linarith
    · have := abs_le_of_close err (le_of_eq (abs_of_nonneg ha))
      linarith

variable [HasPowf F64] [HasMinMax F64]

set_option maxHeartbeats 2000000 in
/-- The formula of `variance_from_sums` in binary64. -/
theorem var_error {l : List F64} {t q c : F64} (ht : RoundedSum fp.toFpAdd (l : Multiset F64) t)
    (hq : RoundedSum fp.toFpAdd ((l.map fun x => x * x : List F64) : Multiset F64) q) :
    RoundedVar c l (varOf t q l.length c) := by
  intro hf hc hcb hlen hcn hne hb
  unfold RoundedSum at ht hq
  simp only [Multiset.coe_card, Multiset.map_coe, Multiset.sum_coe] at ht hq
  have hpos : 0 < l.length := List.length_pos_of_ne_nil hne
  have hn1 : (1 : ℚ) ≤ (l.length : ℚ) := by exact_mod_cast hpos
  have hcs := sq_sum_abs_le (l.map val)
  have hSA := abs_sum_le_abs (l.map val)
  have hA0 : 0 ≤ (l.map fun x => |x.val|).sum := List.sum_nonneg fun x hx => by
    obtain ⟨y, -, rfl⟩ := List.mem_map.1 hx; exact abs_nonneg _
  have hQ0 : 0 ≤ (l.map fun x => x.val ^ 2).sum := List.sum_nonneg fun x hx => by
    obtain ⟨y, -, rfl⟩ := List.mem_map.1 hx; positivity
  rw [exactVar_eq (by simpa using hne)]
  simp only [List.map_map, List.length_map] at hcs hSA ⊢
  have eA : ((fun x : ℚ => |x|) ∘ val) = fun x : F64 => |x.val| := rfl
  have eQ : ((fun x : ℚ => x ^ 2) ∘ val) = fun x : F64 => x.val ^ 2 := rfl
  rw [eA] at hcs hSA
  rw [eQ] at hcs ⊢
  -- powers of `1 + u`
  set n : ℚ := (l.length : ℚ) with hn
  set th : ℚ := 1 + 1 / 2 ^ 53 with hth
  have th1 : (1 : ℚ) ≤ th := by rw [hth]; norm_num
  obtain ⟨a, ha⟩ : ∃ a, a = th ^ l.length := ⟨_, rfl⟩
  have a1 : 1 ≤ a := by rw [ha]; exact one_le_pow₀ th1
  have eP : th ^ (2 * l.length + 4) = a ^ 2 * th ^ 4 := by rw [ha]; ring
  rw [eP] at hb ⊢
  set P : ℚ := a ^ 2 * th ^ 4 with hP
  have a0 : (0 : ℚ) ≤ a := by linarith
  have th0 : (0 : ℚ) ≤ th := by linarith
  have pt : ∀ k, 1 ≤ th ^ k := fun k => one_le_pow₀ th1
  have aa : a ≤ a ^ 2 := by nlinarith
  have pa2 : 1 ≤ a ^ 2 := one_le_pow₀ a1
  -- every product of powers that occurs is at most `P`
  have pw : ∀ (i j : Nat), i ≤ 2 → j ≤ 4 → a ^ i * th ^ j ≤ P := fun i j hi hj =>
    mul_le_mul (pow_le_pow_right₀ a1 hi) (pow_le_pow_right₀ th1 hj) (by positivity) (by positivity)
  set A := (l.map fun x => |x.val|).sum with hAd
  set Q := (l.map fun x => x.val ^ 2).sum with hQd
  set S := (l.map val).sum with hSd
  set eta : ℚ := 1 / 2 * 2 ^ (-1074 : ℤ) with heta
  have eta0 : 0 ≤ eta := (mul_pos (by norm_num) (zpow_pos (by norm_num) _)).le
  have eta1 : eta ≤ 1 / 8 := le_trans eta_small.le (by norm_num)
  have P1 : 1 ≤ P := by have := pw 0 0 (by omega) (by omega); simpa using this
  have nQ : Q ≤ n * Q := by nlinarith
  -- the sum
  have A1 : A ≤ n * Q + 1 := by nlinarith [sq_nonneg (A - 1)]
  have PnQ : P * (n * Q + n) ≤ max64 := by
    have : P * (n * Q + n) ≤ 2 * P * (n * (Q + 2)) := by nlinarith [mul_nonneg (by linarith : (0:ℚ) ≤ P) (mul_nonneg (by linarith : (0:ℚ) ≤ n) hQ0)]
    linarith
  obtain ⟨t1, t2⟩ := ht (fun x hx => hf x (Multiset.mem_coe.1 hx)) (by
    show th ^ l.length * A ≤ max64
    rw [← ha]
    have h1 : a * A ≤ a * (n * Q + n) := mul_le_mul_of_nonneg_left (by linarith) a0
    have h2 : a * (n * Q + n) ≤ P * (n * Q + n) := mul_le_mul_of_nonneg_right (by simpa using pw 1 0 (by omega) (by omega)) (by nlinarith)
    linarith)
  have t1 : t.IsFin := t1
  have t2 : |t.val - S| ≤ (a - 1) * A := by
    have t2 : |t.val - S| ≤ (th ^ (l.length - 1) - 1) * A := t2
    refine le_trans t2 (mul_le_mul_of_nonneg_right ?_ hA0)
    rw [ha]
    have := pow_le_pow_right₀ th1 (show l.length - 1 ≤ l.length by omega)
    linarith
  -- the squares
  obtain ⟨s1, s2, s3⟩ := sum_squares hf (by
    rw [← hQd]
    have : 1 * (n * Q + n) ≤ P * (n * Q + n) := mul_le_mul_of_nonneg_right P1 (by linarith)
    linarith)
  rw [← hQd, ← heta, ← hn] at s2 s3
  have u : (1 : ℚ) / 2 ^ 53 = th - 1 := by rw [hth]; ring
  rw [u] at s2
  have u0 : 0 ≤ th - 1 := by linarith
  have rerr : ∀ {x y : ℚ}, y = rnd64 x → |y - x| ≤ (th - 1) * |x| + eta := fun h => by
    rw [h, ← u]; exact rnd64_err _
  set R := ((l.map fun x => x * x).map fun x => |x.val|).sum with hR
  have n0' : (0 : ℚ) ≤ n := by linarith
  have nE : n * eta ≤ n := by
    have := mul_le_mul_of_nonneg_left eta1 n0'
    linarith
  obtain ⟨q1, q2⟩ := hq (fun x hx => s1 x (Multiset.mem_coe.1 hx)) (by
    show th ^ (l.map fun x => x * x).length * R ≤ max64
    rw [List.length_map, ← ha]
    have h1 : a * R ≤ a * (th * Q + n * eta) := mul_le_mul_of_nonneg_left s3 a0
    have h2 : a * (th * Q) ≤ P * Q := by
      have := mul_le_mul_of_nonneg_right (pw 1 1 (by omega) (by omega)) hQ0
      rw [pow_one, pow_one] at this
      linarith
    have h3 : a * (n * eta) ≤ P * n := by
      have := pw 1 0 (by omega) (by omega)
      rw [pow_one, pow_zero, mul_one] at this
      exact mul_le_mul this nE (by positivity) (by linarith)
    have h4 : P * Q ≤ P * (n * Q) := mul_le_mul_of_nonneg_left nQ (by linarith)
    linarith)
  have q1 : q.IsFin := q1
  have q3 : |q.val - Q| ≤ (a * th - 1) * Q + a * n * eta := by
    have q2 : |q.val - ((l.map fun x => x * x).map val).sum| ≤ (th ^ ((l.map fun x => x * x).length - 1) - 1) * R := q2
    rw [List.length_map] at q2
    have h1 : th ^ (l.length - 1) - 1 ≤ a - 1 := by
      rw [ha]
      have := pow_le_pow_right₀ th1 (show l.length - 1 ≤ l.length by omega)
      linarith
    have hR0 : 0 ≤ R := List.sum_nonneg fun x hx => by
      obtain ⟨y, -, rfl⟩ := List.mem_map.1 hx; exact abs_nonneg _
    have h2 : (th ^ (l.length - 1) - 1) * R ≤ (a - 1) * (th * Q + n * eta) :=
      mul_le_mul h1 s3 hR0 (by linarith)
    have h3 := abs_sub_le q.val ((l.map fun x => x * x).map val).sum Q
    have h4 : (a - 1) * (th * Q + n * eta) + ((th - 1) * Q + n * eta) = (a * th - 1) * Q + a * n * eta := by ring
    linarith
  have rsub : ∀ {x y : F64}, x.IsFin → y.IsFin → |rnd64 (x.val - y.val) - (x.val - y.val)| ≤ (th - 1) * |x.val - y.val| + 0 := by
    intro x y hx hy
    rw [← u, add_zero]
    have := B64.rnd64_add (val_rep hx) (rep_neg (val_rep hy))
    rwa [← sub_eq_add_neg] at this
  have th2 : th ≤ 2 := by rw [hth]; norm_num
  clear ht hq q2 s1 s2 s3 u eA eQ hR
  clear_value R eta S Q A th
  clear hth heta hSd hAd hQd
  -- the square of the sum
  have tS : |t.val| ≤ a * A := by
    have := abs_le_of_close t2 hSA
    linarith
  have e1 : |t.val * t.val - S ^ 2| ≤ (a ^ 2 - 1) * A ^ 2 := by
    have h1 : t.val * t.val - S ^ 2 = (t.val - S) * (t.val + S) := by ring
    have h2 : |t.val + S| ≤ (a + 1) * A := le_trans (abs_add_le _ _) (by linarith)
    rw [h1, abs_mul]
    calc |t.val - S| * |t.val + S| ≤ ((a - 1) * A) * ((a + 1) * A) := mul_le_mul t2 h2 (abs_nonneg _) (by nlinarith)
      _ = _ := by ring
  have S2 : |S ^ 2| ≤ A ^ 2 := by rw [abs_pow]; exact pow_le_pow_left₀ (abs_nonneg _) hSA 2
  have b1 := abs_le_of_close e1 S2
  have PA : P * A ^ 2 ≤ P * (n * Q) := mul_le_mul_of_nonneg_left hcs (by linarith)
  have Pn : 0 ≤ P * n := by positivity
  obtain ⟨tt1, tt2⟩ := mul_rnd t1 t1 (by
    have := mul_le_mul_of_nonneg_right (pw 2 0 (by omega) (by omega)) (sq_nonneg A)
    rw [pow_zero, mul_one] at this
    linarith)
  have e2 : |(t * t).val - S ^ 2| ≤ (th * a ^ 2 - 1) * A ^ 2 + eta := by
    have h := round_step u0 e1 (rerr tt2) S2
    have : (1 + (th - 1)) * ((a ^ 2 - 1) * A ^ 2) + (th - 1) * A ^ 2 + eta = (th * a ^ 2 - 1) * A ^ 2 + eta := by ring
    linarith
  obtain ⟨k1, k2⟩ := f64_nat (k := l.length) (le_trans hlen (by norm_num))
  have n0 : (0 : ℚ) < n := by linarith
  have AQ : A ^ 2 / n ≤ Q := by rw [div_le_iff₀ n0]; linarith
  have S2n : |S ^ 2 / n| ≤ Q := by
    rw [abs_div, abs_of_pos n0]
    exact le_trans (div_le_div_of_nonneg_right S2 n0.le) AQ
  have tha : 1 ≤ th * a ^ 2 := by nlinarith
  have e3 : |(t * t).val / n - S ^ 2 / n| ≤ (th * a ^ 2 - 1) * Q + eta := by
    rw [← sub_div, abs_div, abs_of_pos n0]
    calc |(t * t).val - S ^ 2| / n ≤ ((th * a ^ 2 - 1) * A ^ 2 + eta) / n := div_le_div_of_nonneg_right e2 n0.le
      _ = (th * a ^ 2 - 1) * (A ^ 2 / n) + eta / n := by ring
      _ ≤ _ := add_le_add (mul_le_mul_of_nonneg_left AQ (by linarith)) (div_le_self eta0 hn1)
  have b3 := abs_le_of_close e3 S2n
  obtain ⟨d1, d2⟩ := div_rnd tt1 k1 (by rw [k2]; exact n0.ne') (by
    rw [k2]
    have := mul_le_mul_of_nonneg_right (pw 2 1 (by omega) (by omega)) hQ0
    have h4 : P * Q ≤ P * (n * Q) := mul_le_mul_of_nonneg_left nQ (by linarith)
    have h5 : eta ≤ P * n := by nlinarith
    have h6 : (th * a ^ 2 - 1) * Q + eta + Q = a ^ 2 * th ^ 1 * Q + eta := by ring
    rw [← hn]
    linarith)
  rw [k2, ← hn] at d2
  have e4 : |(t * t / (l.length : F64)).val - S ^ 2 / n| ≤ (th ^ 2 * a ^ 2 - 1) * Q + (th + 1) * eta := by
    have h := round_step u0 e3 (rerr d2) S2n
    have : (1 + (th - 1)) * ((th * a ^ 2 - 1) * Q + eta) + (th - 1) * Q + eta = (th ^ 2 * a ^ 2 - 1) * Q + (th + 1) * eta := by ring
    linarith
  set d := t * t / (l.length : F64) with hd
  -- the difference
  have S2p : 0 ≤ S ^ 2 / n := div_nonneg (sq_nonneg _) n0.le
  have V0 : 0 ≤ Q - S ^ 2 / n := by have := le_abs_self (S ^ 2 / n); linarith
  have V1 : |Q - S ^ 2 / n| ≤ Q := by rw [abs_of_nonneg V0]; linarith
  have e5 : |q.val - d.val - (Q - S ^ 2 / n)| ≤ (a * th + th ^ 2 * a ^ 2 - 2) * Q + (a * n + th + 1) * eta := by
    have h1 : q.val - d.val - (Q - S ^ 2 / n) = (q.val - Q) + -(d.val - S ^ 2 / n) := by ring
    rw [h1]
    have h2 := abs_add_le (q.val - Q) (-(d.val - S ^ 2 / n))
    rw [abs_neg] at h2
    have : (a * th - 1) * Q + a * n * eta + ((th ^ 2 * a ^ 2 - 1) * Q + (th + 1) * eta) =
      (a * th + th ^ 2 * a ^ 2 - 2) * Q + (a * n + th + 1) * eta := by ring
    linarith
  have thP : th ≤ P := by simpa using pw 0 1 (by omega) (by omega)
  have aP : a ≤ P := by simpa using pw 1 0 (by omega) (by omega)
  have etas : (a * n + th + 1) * eta ≤ P * n := by
    have : (a * n + th + 1) * eta ≤ (P * n + P * n + P * n) * (1 / 8) := by
      refine mul_le_mul ?_ eta1 eta0 (by linarith)
      have h1 : a * n ≤ P * n := mul_le_mul_of_nonneg_right aP n0.le
      have h2 : P ≤ P * n := by nlinarith
      linarith
    linarith
  have big : ∀ B : ℚ, B ≤ (P + P) * Q + P * n → B ≤ max64 := fun B hB => by
    have h4 : P * Q ≤ P * (n * Q) := mul_le_mul_of_nonneg_left nQ (by linarith)
    have h5 : 2 * P * (n * (Q + 2)) = 2 * (P * (n * Q)) + 4 * (P * n) := by ring
    linarith
  have m1 : a * th ≤ P := by simpa using pw 1 1 (by omega) (by omega)
  have m2 : th ^ 2 * a ^ 2 ≤ P := by have := pw 2 2 (by omega) (by omega); linarith
  obtain ⟨f1, f2⟩ := sub_rnd q1 d1 (by
    refine big _ (le_trans (abs_le_of_close e5 V1) ?_)
    have h1 : (a * th + th ^ 2 * a ^ 2 - 2) * Q ≤ (P + P - 1) * Q := mul_le_mul_of_nonneg_right (by linarith) hQ0
    linarith)
  have e6 : |(q - d).val - (Q - S ^ 2 / n)| ≤ (a * th ^ 2 + th ^ 3 * a ^ 2 - th - 1) * Q + th * (a * n + th + 1) * eta := by
    have h := round_step (y := (q - d).val) u0 e5 (by rw [f2]; exact rsub q1 d1) V1
    have : (1 + (th - 1)) * ((a * th + th ^ 2 * a ^ 2 - 2) * Q + (a * n + th + 1) * eta) + (th - 1) * Q + 0 =
      (a * th ^ 2 + th ^ 3 * a ^ 2 - th - 1) * Q + th * (a * n + th + 1) * eta := by ring
    linarith
  -- the divisor
  obtain ⟨fc, z, hz⟩ := hc
  have kint : (l.length : F64).IsInt := ⟨k1, l.length, by rw [k2]; simp⟩
  have hcb' := abs_le.1 hcb
  have hlen' : n ≤ 2 ^ 52 := by rw [hn]; exact_mod_cast hlen
  obtain ⟨m3, m4⟩ := int_sub kint ⟨fc, z, hz⟩ (by
    rw [k2, ← hn]
    refine abs_le.2 ⟨?_, ?_⟩
    · have := hcb'.2; linarith
    · have := hcb'.1
      have : (2 : ℚ) ^ 53 = 2 ^ 52 + 2 ^ 52 := by norm_num
      linarith)
  rw [k2, ← hn] at m4
  have mpos : 1 ≤ n - c.val := by
    rw [hz, hn] at hcn ⊢
    have : z < l.length := by exact_mod_cast hcn
    have : (1 : ℤ) ≤ l.length - z := by omega
    exact_mod_cast this
  set m := n - c.val with hm
  have m0 : 0 < m := by linarith
  have em : ∀ x : ℚ, 0 ≤ x → x / m ≤ x := fun x hx => div_le_self hx mpos
  have e7 : |(q - d).val / m - (Q - S ^ 2 / n) / m| ≤
      ((a * th ^ 2 + th ^ 3 * a ^ 2 - th - 1) * Q + th * (a * n + th + 1) * eta) / m := by
    rw [← sub_div, abs_div, abs_of_pos m0]
    exact div_le_div_of_nonneg_right e6 m0.le
  have V2 : |(Q - S ^ 2 / n) / m| ≤ Q / m := by
    rw [abs_div, abs_of_pos m0]; exact div_le_div_of_nonneg_right V1 m0.le
  have m5 : a * th ^ 2 ≤ P := by simpa using pw 1 2 (by omega) (by omega)
  have m6 : th ^ 3 * a ^ 2 ≤ P := by have := pw 2 3 (by omega) (by omega); linarith
  obtain ⟨g1, g2⟩ := div_rnd f1 m3.1 (by rw [m4]; exact m0.ne') (by
    rw [m4, abs_div, abs_of_pos m0]
    refine big _ (le_trans (em _ (abs_nonneg _)) (le_trans (abs_le_of_close e6 V1) ?_))
    have h1 : (a * th ^ 2 + th ^ 3 * a ^ 2 - th - 1) * Q ≤ (P + P - 1) * Q := mul_le_mul_of_nonneg_right (by linarith) hQ0
    have h2 : th * (a * n + th + 1) * eta ≤ P * n := by
      have h3 : th * (a * n + th + 1) ≤ P * n + P * n * 2 := by
        have h5 : a * th * n ≤ P * n := mul_le_mul_of_nonneg_right m1 n0.le
        have h6 : th * th ≤ P := by have := pw 0 2 (by omega) (by omega); rw [pow_zero, one_mul] at this; linarith [pow_two th]
        have h7 : P ≤ P * n := by nlinarith
        have : th * (a * n + th + 1) = a * th * n + th * th + th := by ring
        linarith
      have h4 : th * (a * n + th + 1) * eta ≤ (P * n + P * n * 2) * (1 / 8) := mul_le_mul h3 eta1 eta0 (by linarith)
      linarith
    linarith)
  rw [m4] at g2
  have e8 : |((q - d) / ((l.length : F64) - c)).val - (Q - S ^ 2 / n) / m| ≤ 2 * (P - 1) * Q / m + P * (n + 3) * eta := by
    have h := round_step u0 e7 (rerr g2) V2
    refine le_trans h ?_
    have h1 : (1 + (th - 1)) * (((a * th ^ 2 + th ^ 3 * a ^ 2 - th - 1) * Q + th * (a * n + th + 1) * eta) / m) + (th - 1) * (Q / m) + eta =
      ((a * th ^ 3 + P - th ^ 2 - 1) * Q) / m + (th ^ 2 * (a * n + th + 1) * eta) / m + eta := by rw [hP]; ring
    rw [h1]
    have h2 : ((a * th ^ 3 + P - th ^ 2 - 1) * Q) / m ≤ 2 * (P - 1) * Q / m := by
      refine div_le_div_of_nonneg_right (mul_le_mul_of_nonneg_right ?_ hQ0) m0.le
      have h3 : a * th ^ 3 ≤ P := by simpa using pw 1 3 (by omega) (by omega)
      have h4 := pt 2
      linarith
    have h5 : (th ^ 2 * (a * n + th + 1) * eta) / m ≤ th ^ 2 * (a * n + th + 1) * eta := em _ (by positivity)
    have h6 : th ^ 2 * (a * n + th + 1) * eta + eta ≤ P * (n + 3) * eta := by
      have h7 : th ^ 2 * (a * n + th + 1) + 1 ≤ P * (n + 3) := by
        have g1 : a * th ^ 2 * n ≤ P * n := mul_le_mul_of_nonneg_right m5 n0.le
        have g2 : th ^ 3 ≤ P := by simpa using pw 0 3 (by omega) (by omega)
        have g3 : th ^ 2 ≤ P := by simpa using pw 0 2 (by omega) (by omega)
        have : th ^ 2 * (a * n + th + 1) = a * th ^ 2 * n + th ^ 3 + th ^ 2 := by ring
        linarith
      have := mul_le_mul_of_nonneg_right h7 eta0
      linarith
    linarith
  have W0 : 0 ≤ (Q - S ^ 2 / n) / m := div_nonneg V0 m0.le
  -- the tests of `variance_from_sums`
  unfold varOf
  rw [if_neg hpos.ne', if_neg, ← hd]
  · by_cases hneg : flt ((q - d) / ((l.length : F64) - c)) 0 = true
    · rw [if_pos hneg]
      rw [lt_fin g1 (show (0 : F64).IsFin from trivial), show (0 : F64).val = 0 from rfl, decide_eq_true_eq] at hneg
      refine ⟨trivial, ?_⟩
      rw [show (0 : F64).val = 0 from rfl, zero_sub, abs_neg, abs_of_nonneg W0]
      have := (abs_le.1 e8).1
      linarith
    · rw [if_neg hneg]
      exact ⟨g1, e8⟩
  · rw [lt_fin m3.1 (show (0 : F64).IsFin from trivial), m4, show (0 : F64).val = 0 from rfl]
    have hz : ((l.length : F64) - c == 0) = false := by
      rw [Bool.eq_false_iff]
      intro h
      have := val_of_eq_zero _ h
      rw [m4] at this
      linarith
    rw [hz, Bool.or_false, decide_eq_true_eq]
    linarith

end F64

variable [HasPowf F64] [HasMinMax F64]

theorem heldAs_squares {l : List F64} {d : F64} (h : HeldAs l d) : HeldAs (l.map fun x => x * x) (d * d) := by
  rcases h with ⟨e1, e2⟩ | ⟨v, e1, e2⟩
  · left
    obtain ⟨s, rfl⟩ := F64.eq_zero_iff.1 e2
    exact ⟨by rw [e1]; rfl, rfl⟩
  · exact .inr ⟨v * v, by rw [e1]; rfl, F64.same_mul e2 e2⟩

theorem var_of_held {xs : List (List Int)} {held : List Int → List F64} {dense : List Int → F64} (hh : ∀ x ∈ xs, HeldAs (held x) (dense x))
    {t q : F64} (ht : AddTree (((xs.map held).flatten : List F64) : Multiset F64) t)
    (hq : AddTree ((((xs.map held).flatten : List F64) : Multiset F64).map fun x => x * x) q) (c : F64) :
    F64.RoundedVar c (xs.map dense) (varOf t q (Nat.min (xs.map held).length usizeMax) c) := by
  have hlen : (xs.map held).length = (xs.map dense).length := by rw [List.length_map, List.length_map]
  intro hf hc hcb hl
  have hm : Nat.min (xs.map held).length usizeMax = (xs.map dense).length := by
    rw [hlen]
    exact Nat.min_eq_left (le_trans hl (by decide))
  rw [hm]
  refine F64.var_error (heldAs_rounded hh (AddTree.rounded F64.fp.toFpAdd ht)) ?_ hf hc hcb hl
  have e1 : (((xs.map held).flatten : List F64) : Multiset F64).map (fun x => x * x) =
      (((xs.map fun x => (held x).map fun a => a * a).flatten : List F64) : Multiset F64) := by
    rw [Multiset.map_coe, List.map_flatten, List.map_map]
    rfl
  rw [e1] at hq
  have := heldAs_rounded (xs := xs) (dense := fun x => dense x * dense x) (fun x hx => heldAs_squares (hh x hx))
    (AddTree.rounded F64.fp.toFpAdd hq)
  rwa [List.map_map]

/-- C91: a variance is the variance of the dense elements up to an error bounded relative to the sum of
their squares, whatever the number of threads and the schedule; a standard deviation is the square
root of such a variance. -/
theorem f64_var_error {env : PyEnv F64} (he : env.Ok) {e : Prog F64} (hl : e.LitsOk) (hs : e.Small) (hd : e.AsDense) {τ : Ty}
    (hc : e.check = .ok τ) {axis : AxisArg} (keep : Bool) (ha : axis.Valid 2) (hne : axis ≠ .many []) (corr : F64)
    {out : PyRes (RedOut F64 F64)} :
    (e.Reduce env (.var corr) axis keep out → ∃ r, out = .ret (.dense r) ∧ IsReduction τ.shape (axis.covers 2) keep
      (F64.RoundedVar corr) e.dense r) ∧
    (e.Reduce env (.std corr) axis keep out → ∃ r, out = .ret (.dense r) ∧ IsReduction τ.shape (axis.covers 2) keep
      (fun l v => ∃ w, F64.RoundedVar corr l w ∧ flt w 0 = false ∧ v = fsqrt w) e.dense r) := by
  obtain ⟨f, r, c, rfl, -, hh⟩ := f64_held he hl hs hd hc
  constructor
  · intro h
    obtain ⟨r', e1, hr⟩ := (prog_reduce_any he hl hs hd.determined hc trivial (op := .var corr) keep ha hne (fun h => by cases h)).2 out h
    refine ⟨r', e1, hr.shape_eq, hr.size, fun y hy => ?_⟩
    obtain ⟨v, h1, h2⟩ := hr.cell y hy
    refine ⟨v, h1, ?_⟩
    obtain ⟨xs, hxs, hfib⟩ := fibre_map (Ty.mat f r c).shape (axis.covers 2) keep y
    rw [hfib] at h2 ⊢
    obtain ⟨t, q, ht, hq, h2⟩ := h2
    rw [h2]
    exact var_of_held (fun x hx => hh x (hxs x hx)) ht hq corr
  · intro h
    obtain ⟨r', e1, hr⟩ := (prog_reduce_any he hl hs hd.determined hc trivial (op := .std corr) keep ha hne (fun h => by cases h)).2 out h
    refine ⟨r', e1, hr.shape_eq, hr.size, fun y hy => ?_⟩
    obtain ⟨v, h1, h2⟩ := hr.cell y hy
    refine ⟨v, h1, ?_⟩
    obtain ⟨xs, hxs, hfib⟩ := fibre_map (Ty.mat f r c).shape (axis.covers 2) keep y
    rw [hfib] at h2 ⊢
    obtain ⟨t, q, ht, hq, h2⟩ := h2
    exact ⟨_, var_of_held (fun x hx => hh x (hxs x hx)) ht hq corr, varOf_nonneg .., h2⟩

/-! ### cancellation -/

theorem addTree_rep {s : Multiset F64} {v : F64} (h : AddTree s v) : (∀ x ∈ s, x.IsFin) → (∀ t ≤ s, B64.Rep (t.map F64.val).sum) →
    v.IsFin ∧ v.val = (s.map F64.val).sum := by
  induction h with
  | zero => intro _ _; exact ⟨trivial, rfl⟩
  | leaf x => intro hx _; exact ⟨hx x (Multiset.mem_singleton_self x), by simp⟩
  | @node s t a b _ _ iha ihb =>
    intro hx hr
    obtain ⟨a1, a2⟩ := iha (fun x h => hx x (Multiset.mem_add.2 (.inl h))) fun u hu => hr u (le_trans hu (Multiset.le_add_right _ _))
    obtain ⟨b1, b2⟩ := ihb (fun x h => hx x (Multiset.mem_add.2 (.inr h))) fun u hu => hr u (le_trans hu (Multiset.le_add_left _ _))
    have h := hr (s + t) (le_refl _)
    rw [Multiset.map_add, Multiset.sum_add, ← a2, ← b2] at h
    obtain ⟨c1, c2⟩ := F64.add_rnd a1 b1 h.2
    rw [h.fix] at c2
    exact ⟨c1, by rw [c2, a2, b2, Multiset.map_add, Multiset.sum_add]⟩

theorem addTree_two {x y v : F64} (h : AddTree (([x, y] : List F64) : Multiset F64) v) (hx : x.IsFin) (hy : y.IsFin)
    (hr : B64.Rep (x.val + y.val)) : v.IsFin ∧ v.val = x.val + y.val := by
  have := addTree_rep h (fun z hz => by
    have hz := Multiset.mem_coe.1 hz
    simp only [List.mem_cons, List.not_mem_nil, or_false] at hz
    rcases hz with rfl | rfl
    exacts [hx, hy]) (fun t ht => by
      have ht := Multiset.mem_powerset.2 ht
      rw [← Multiset.cons_coe, ← Multiset.cons_coe, Multiset.powerset_cons, Multiset.powerset_cons] at ht
      simp only [Multiset.coe_nil, Multiset.powerset_zero, Multiset.map_singleton, Multiset.mem_add, Multiset.mem_singleton,
        Multiset.mem_map] at ht
      rcases ht with (rfl | rfl) | ⟨a, rfl | rfl, rfl⟩
      · simpa using B64.rep_zero
      · simpa using F64.val_rep hy
      · simpa using F64.val_rep hx
      · simpa using hr)
  exact ⟨this.1, by rw [this.2]; simp⟩

theorem eq_ofRat {v : F64} (hf : v.IsFin) {q : ℚ} (hv : v.val = q) (h0 : q ≠ 0) : v = F64.ofRat q := by
  cases v with
  | nan => exact hf.elim
  | inf => exact hf.elim
  | zero s => exact absurd hv.symm h0
  | num x =>
    have hv : x.1 = q := hv
    subst hv
    rw [F64.ofRat_num x.2.1 x.2.2]

/-- The 1 × 2 matrix `[[x, y]]`. -/
def exPair (x y : F64) : Prog F64 := .mat .csr 1 2 [0, 2] [0, 1] [x, y]

theorem ofRat_int (n : ℤ) (h : |(n : ℚ)| ≤ 2 ^ 53) : (F64.ofRat n).IsFin ∧ (F64.ofRat n).val = n := F64.ofRat_rep (F64.int_rep h)

/-- C91: `var([[2 ** 27, 2 ** 27 + 1]])` is 0 in every execution.  The variance is 1/4, and NumPy's formula,
which subtracts the mean first, gives 1/4 in binary64. -/
theorem var_cancels {env : PyEnv F64} (he : env.Ok) {out : PyRes (RedOut F64 F64)}
    (h : (exPair (F64.ofRat (2 ^ 27)) (F64.ofRat (2 ^ 27 + 1))).Reduce env (.var 0) (.one 1) false out) :
    (∃ r v, out = .ret (.dense r) ∧ r.shape = [1] ∧ r.data[0]? = some v ∧ (v == 0) = true) ∧
    exactVar 0 [2 ^ 27, 2 ^ 27 + 1] = 1 / 4 ∧
    (let m := (F64.ofRat (2 ^ 27) + F64.ofRat (2 ^ 27 + 1)) / F64.ofRat 2
     ((F64.ofRat (2 ^ 27) - m) * (F64.ofRat (2 ^ 27) - m) + (F64.ofRat (2 ^ 27 + 1) - m) * (F64.ofRat (2 ^ 27 + 1) - m)) / F64.ofRat 2 =
       F64.ofRat (1 / 4)) := by
  refine ⟨?_, by unfold exactVar; norm_num, by decide +kernel⟩
  obtain ⟨h1, h2, h3, h4⟩ : (exPair (F64.ofRat (2 ^ 27)) (F64.ofRat (2 ^ 27 + 1))).LitsOk ∧ (exPair (F64.ofRat (2 ^ 27)) (F64.ofRat (2 ^ 27 + 1))).Small ∧
      (exPair (F64.ofRat (2 ^ 27)) (F64.ofRat (2 ^ 27 + 1))).AsDense ∧ (exPair (F64.ofRat (2 ^ 27)) (F64.ofRat (2 ^ 27 + 1))).check = .ok (.mat .csr 1 2) :=
    ⟨⟨by decide, nofun⟩, by decide +kernel, trivial, by decide +kernel⟩
  obtain ⟨r, e1, hr⟩ := (prog_reduce_any he h1 h2 (Prog.AsDense.determined h3) h4 trivial (op := .var 0) (axis := .one 1) false axis_one (by simp)
    (fun h => by cases h)).2 out h
  have hsh : r.shape = [1] := hr.shape_eq
  obtain ⟨v, c1, c2⟩ := hr.cell [0] (by rw [hsh]; exact .cons ⟨by omega, by omega⟩ .nil)
  rw [hsh] at c1
  refine ⟨r, v, e1, hsh, c1, ?_⟩
  obtain ⟨t, q, ht, hq, hv⟩ := c2
  have hfib : fibre (Ty.mat .csr 1 2).shape ((AxisArg.one 1).covers 2) false
      (fun x => valuesAt (exPair (F64.ofRat (2 ^ 27)) (F64.ofRat (2 ^ 27 + 1))).stores x) [0] =
      [[F64.ofRat (2 ^ 27)], [F64.ofRat (2 ^ 27 + 1)]] := rfl
  rw [hfib] at ht hq hv
  have ht : AddTree (([F64.ofRat (2 ^ 27), F64.ofRat (2 ^ 27 + 1)] : List F64) : Multiset F64) t := ht
  have hq : AddTree (([F64.ofRat (2 ^ 27) * F64.ofRat (2 ^ 27), F64.ofRat (2 ^ 27 + 1) * F64.ofRat (2 ^ 27 + 1)] : List F64) : Multiset F64) q := hq
  have v1 := ofRat_int (2 ^ 27) (by norm_num)
  have v2 := ofRat_int (2 ^ 27 + 1) (by norm_num)
  rw [show (((2 ^ 27 : ℤ)) : ℚ) = 2 ^ 27 by norm_num] at v1
  rw [show (((2 ^ 27 + 1 : ℤ)) : ℚ) = 2 ^ 27 + 1 by norm_num] at v2
  have s1 : F64.ofRat (2 ^ 27) * F64.ofRat (2 ^ 27) = F64.ofRat (2 ^ 54) := by decide +kernel
  have s2 : F64.ofRat (2 ^ 27 + 1) * F64.ofRat (2 ^ 27 + 1) = F64.ofRat (2 ^ 54 + 2 ^ 28) := by decide +kernel
  have big : ∀ x : ℚ, |x| ≤ 2 ^ 60 → |x| ≤ max64 := fun x h => le_trans h (by
    have := (F64.rep_pow2 (k := 60) (by norm_num) (by norm_num)).2
    rw [abs_of_pos (zpow_pos (by norm_num) _)] at this
    exact_mod_cast this)
  have w1 := F64.ofRat_rep (q := 2 ^ 54) ⟨⟨1, 54, by norm_num, by norm_num, by norm_num⟩, big _ (by norm_num)⟩
  have w2 := F64.ofRat_rep (q := 2 ^ 54 + 2 ^ 28) ⟨⟨2 ^ 26 + 1, 28, by norm_num, by norm_num, by norm_num⟩, big _ (by norm_num)⟩
  rw [s1, s2] at hq
  have t1 := addTree_two ht v1.1 v2.1 (by
    rw [v1.2, v2.2]
    exact ⟨⟨2 ^ 28 + 1, 0, by norm_num, by norm_num, by norm_num⟩, big _ (by norm_num)⟩)
  have q1 := addTree_two hq w1.1 w2.1 (by
    rw [w1.2, w2.2]
    exact ⟨⟨2 ^ 27 + 1, 28, by norm_num, by norm_num, by norm_num⟩, big _ (by norm_num)⟩)
  rw [v1.2, v2.2] at t1
  rw [w1.2, w2.2] at q1
  rw [hv, eq_ofRat t1.1 t1.2 (by norm_num), eq_ofRat q1.1 q1.2 (by norm_num)]
  show (varOf (F64.ofRat (2 ^ 27 + (2 ^ 27 + 1))) (F64.ofRat (2 ^ 54 + (2 ^ 54 + 2 ^ 28))) 2 0 == 0) = true
  decide +kernel

/-- `var([[1, 3]])` is next to 1. -/
example {env : PyEnv F64} (he : env.Ok) {out : PyRes (RedOut F64 F64)}
    (h : (exPair (F64.ofRat (1 : ℤ)) (F64.ofRat (3 : ℤ))).Reduce env (.var 0) (.one 1) false out) :
    ∃ r v, out = .ret (.dense r) ∧ r.shape = [1] ∧ r.data[0]? = some v ∧ v.IsFin ∧ |v.val - 1| ≤ 1 / 2 ^ 40 := by
  obtain ⟨h1, h2, h3, h4⟩ : (exPair (F64.ofRat (1 : ℤ)) (F64.ofRat (3 : ℤ))).LitsOk ∧ (exPair (F64.ofRat (1 : ℤ)) (F64.ofRat (3 : ℤ))).Small ∧
      (exPair (F64.ofRat (1 : ℤ)) (F64.ofRat (3 : ℤ))).AsDense ∧ (exPair (F64.ofRat (1 : ℤ)) (F64.ofRat (3 : ℤ))).check = .ok (.mat .csr 1 2) :=
    ⟨⟨by decide, nofun⟩, by decide +kernel, trivial, by decide +kernel⟩
  obtain ⟨r, e1, hr⟩ := (f64_var_error he h1 h2 h3 h4 (axis := .one 1) false axis_one (by simp) 0).1 h
  have hsh : r.shape = [1] := hr.shape_eq
  obtain ⟨v, c1, c2⟩ := hr.cell [0] (by rw [hsh]; exact .cons ⟨by omega, by omega⟩ .nil)
  rw [hsh] at c1
  have c2 : F64.RoundedVar 0 [F64.ofRat (1 : ℤ), F64.ofRat (3 : ℤ)] v := c2
  have n1 := ofRat_int 1 (by norm_num)
  have n3 := ofRat_int 3 (by norm_num)
  have v0 : (0 : F64).val = 0 := rfl
  have e0 : exactVar 0 [1, 3] = 1 := by unfold exactVar; norm_num
  unfold F64.RoundedVar at c2
  simp only [List.map_cons, List.map_nil, List.length_cons, List.length_nil, List.sum_cons, List.sum_nil, n1.2, n3.2, v0] at c2
  have k := c2 (by
    intro x hx
    simp only [List.mem_cons, List.not_mem_nil, or_false] at hx
    rcases hx with rfl | rfl
    exacts [n1.1, n3.1]) F64.int_zero (by norm_num) (by norm_num) (by norm_num) (by simp) (le_trans (by norm_num) max64_big)
  push_cast at k
  rw [e0] at k
  refine ⟨r, v, e1, hsh, c1, k.1, le_trans k.2 ?_⟩
  have m := min64_small
  have p : ((1 : ℚ) + 1 / 2 ^ 53) ^ 8 * (2 + 3) * (1 / 2 * 2 ^ (-1074 : ℤ)) ≤ 10 * (1 / 2 ^ 60) :=
    mul_le_mul (by norm_num) m (mul_pos (by norm_num) (zpow_pos (by norm_num) _)).le (by norm_num)
  refine le_trans (add_le_add (le_refl _) p) (by norm_num)

end Lacuna
