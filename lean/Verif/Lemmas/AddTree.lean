import Mathlib.Algebra.Order.BigOperators.Group.Multiset
import Mathlib.Algebra.BigOperators.Group.Multiset.Basic
import Mathlib.Algebra.Order.Ring.Pow
import Mathlib.Tactic.Linarith
import Mathlib.Tactic.Ring
import Mathlib.Tactic.GCongr
import Verif.Spec.Rounding
import Verif.Lemmas.Accum
/-
Sums in rounded arithmetic: the error of any order and bracketing, and the technique by which the
accumulators are shown to compute such sums: run them on values that carry the multiset they are a
sum of.
-/
namespace Lacuna
universe u
variable {V : Type u} [Zero V] [Add V]

/-! ### The error of a tree -/

theorem AddTree.err_aux (M : FpAdd V) {s : Multiset V} {v : V} (h : AddTree s v) (hs : ∀ x ∈ s, M.Fin x) :
    (1 + M.eps) ^ s.card * (s.map fun x => |M.val x|).sum ≤ M.big →
    M.Fin v ∧ (s = 0 → M.val v = 0) ∧
    |M.val v - (s.map M.val).sum| ≤ ((1 + M.eps) ^ (s.card - 1) - 1) * (s.map fun x => |M.val x|).sum := by
  have he := M.eps_nonneg
  have h1 : 1 ≤ 1 + M.eps := by linarith
  induction h with
  | zero => intro _; exact ⟨M.fin_zero, fun _ => M.val_zero, by simp [M.val_zero]⟩
  | leaf x =>
    intro _
    exact ⟨hs x (by simp), fun h => absurd h (by simp), by simp⟩
  | @node s t a b _ _ ih1 ih2 =>
    intro hb
    have nn : ∀ s : Multiset V, 0 ≤ (s.map fun x => |M.val x|).sum := fun s =>
      Multiset.sum_nonneg (by simp only [Multiset.mem_map]; rintro _ ⟨x, _, rfl⟩; exact abs_nonneg _)
    have abs_sum : ∀ s : Multiset V, |(s.map M.val).sum| ≤ (s.map fun x => |M.val x|).sum := fun s => by
      have := Multiset.abs_sum_le_sum_abs (s := s.map M.val)
      rwa [Multiset.map_map] at this
    have nS := nn s
    have nT := nn t
    have aS := abs_sum s
    have aT := abs_sum t
    rw [Multiset.card_add, Multiset.map_add, Multiset.sum_add] at hb
    rw [Multiset.card_add, Multiset.map_add, Multiset.map_add, Multiset.sum_add, Multiset.sum_add]
    generalize hS : (s.map fun x => |M.val x|).sum = S at *
    generalize hT : (t.map fun x => |M.val x|).sum = T at *
    have pw : ∀ n, 1 ≤ (1 + M.eps) ^ n := fun n => one_le_pow₀ h1
    have mono : ∀ {m n : ℕ}, m ≤ n → (1 + M.eps) ^ m ≤ (1 + M.eps) ^ n := fun h => pow_le_pow_right₀ h1 h
    have b1 : (1 + M.eps) ^ s.card * S ≤ M.big := by
      refine le_trans ?_ hb
      exact mul_le_mul (mono (Nat.le_add_right _ _)) (by linarith) nS (by linarith [pw (s.card + t.card)])
    have b2 : (1 + M.eps) ^ t.card * T ≤ M.big := by
      refine le_trans ?_ hb
      exact mul_le_mul (mono (Nat.le_add_left _ _)) (by linarith) nT (by linarith [pw (s.card + t.card)])
    obtain ⟨f1, z1, e1⟩ := ih1 (fun x hx => hs x (by simp [hx])) b1
    obtain ⟨f2, z2, e2⟩ := ih2 (fun x hx => hs x (by simp [hx])) b2
    by_cases hs0 : s = 0
    · obtain ⟨g1, g2⟩ := M.zero_add f1 f2 (z1 hs0)
      have : S = 0 := by rw [← hS, hs0]; simp
      refine ⟨g1, fun h => ?_, ?_⟩
      · rw [g2]
        exact z2 (by rw [hs0, zero_add] at h; exact h)
      · rw [g2, hs0, this]
        simpa using e2
    by_cases ht0 : t = 0
    · obtain ⟨g1, g2⟩ := M.add_zero f1 f2 (z2 ht0)
      have : T = 0 := by rw [← hT, ht0]; simp
      refine ⟨g1, fun h => ?_, ?_⟩
      · rw [g2]
        exact z1 (by rw [ht0, add_zero] at h; exact h)
      · rw [g2, ht0, this]
        simpa using e1
    have c1 : 0 < s.card := Multiset.card_pos.2 hs0
    have c2 : 0 < t.card := Multiset.card_pos.2 ht0
    generalize hm : s.card = m at *
    generalize hn : t.card = n at *
    -- the exact values of the two parts
    have v1 : |M.val a| ≤ (1 + M.eps) ^ (m - 1) * S := by
      have := abs_sub_abs_le_abs_sub (M.val a) (s.map M.val).sum
      nlinarith
    have v2 : |M.val b| ≤ (1 + M.eps) ^ (n - 1) * T := by
      have := abs_sub_abs_le_abs_sub (M.val b) (t.map M.val).sum
      nlinarith
    have k1 : (1 + M.eps) ^ (m - 1) * (1 + M.eps) ≤ (1 + M.eps) ^ (m + n - 1) := by
      rw [← pow_succ]; exact mono (by omega)
    have k2 : (1 + M.eps) ^ (n - 1) * (1 + M.eps) ≤ (1 + M.eps) ^ (m + n - 1) := by
      rw [← pow_succ]; exact mono (by omega)
    have k3 : (1 + M.eps) ^ (m + n - 1) ≤ (1 + M.eps) ^ (m + n) := mono (by omega)
    have p1 := pw (m - 1)
    have p2 := pw (n - 1)
    have k4 : (1 + M.eps) ^ (m - 1) ≤ (1 + M.eps) ^ (m + n - 1) := mono (by omega)
    have k5 : (1 + M.eps) ^ (n - 1) ≤ (1 + M.eps) ^ (m + n - 1) := mono (by omega)
    have tri := abs_add_le (M.val a) (M.val b)
    generalize (1 + M.eps) ^ (m - 1) = P at *
    generalize (1 + M.eps) ^ (n - 1) = Q at *
    generalize (1 + M.eps) ^ (m + n - 1) = R at *
    have hab : |M.val a + M.val b| ≤ R * (S + T) := by nlinarith
    obtain ⟨g1, g2⟩ := M.add f1 f2 (by nlinarith)
    refine ⟨g1, fun h => absurd h (by
      intro h
      have := congrArg Multiset.card h
      rw [Multiset.card_add, hm, hn] at this
      simp at this; omega), ?_⟩
    have t1 := abs_sub_le (M.val (a + b)) (M.val a + M.val b) ((s.map M.val).sum + (t.map M.val).sum)
    have t2 : |M.val a + M.val b - ((s.map M.val).sum + (t.map M.val).sum)| ≤ (P - 1) * S + (Q - 1) * T := by
      rw [add_sub_add_comm]
      exact le_trans (abs_add_le _ _) (add_le_add e1 e2)
    have t3 : M.eps * |M.val a + M.val b| ≤ M.eps * (P * S + Q * T) :=
      mul_le_mul_of_nonneg_left (by linarith) he
    have q1 : (P * (1 + M.eps)) * S ≤ R * S := mul_le_mul_of_nonneg_right k1 nS
    have q2 : (Q * (1 + M.eps)) * T ≤ R * T := mul_le_mul_of_nonneg_right k2 nT
    nlinarith

/-- Any order and bracketing of a sum of `n` numbers, without overflow: the error is at most
`(1 + eps) ^ (n - 1) - 1` times the sum of the absolute values. -/
theorem AddTree.err (M : FpAdd V) {s : Multiset V} {v : V} (h : AddTree s v) (hs : ∀ x ∈ s, M.Fin x)
    (hb : (1 + M.eps) ^ s.card * (s.map fun x => |M.val x|).sum ≤ M.big) :
    M.Fin v ∧ |M.val v - (s.map M.val).sum| ≤ ((1 + M.eps) ^ (s.card - 1) - 1) * (s.map fun x => |M.val x|).sum :=
  ⟨(h.err_aux M hs hb).1, (h.err_aux M hs hb).2.2⟩

/-- The usual form of the factor. -/
theorem gamma_le {e : ℚ} (he : 0 ≤ e) (n : ℕ) (hn : n * e < 1) : (1 + e) ^ n - 1 ≤ n * e / (1 - n * e) := by
  have h1 : 1 - n * e ≤ (1 - e) ^ n := by
    rcases Nat.eq_zero_or_pos n with h0 | h0
    · simp [h0]
    · have : (1 : ℚ) ≤ n := by exact_mod_cast h0
      have := one_add_mul_le_pow (a := -e) (by nlinarith) n
      rw [← sub_eq_add_neg] at this
      linarith
  have h2 : (1 + e) ^ n * (1 - e) ^ n ≤ 1 := by
    rw [← mul_pow]
    rcases Nat.eq_zero_or_pos n with h0 | h0
    · simp [h0]
    · have : (1 : ℚ) ≤ n := by exact_mod_cast h0
      apply pow_le_one₀ <;> nlinarith
  have h3 : 0 < (1 + e) ^ n := by positivity
  rw [le_div_iff₀ (by linarith)]
  nlinarith [mul_le_mul_of_nonneg_left h1 (le_of_lt h3)]

end Lacuna
