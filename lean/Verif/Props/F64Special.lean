import Verif.Spec.F64Special
import Verif.Props.F64Round
/-
C92: the operations of `F64` on infinities and NaN, and its comparisons, are those of IEEE 754.
-/
namespace Lacuna

namespace F64

theorem ofRat_not_nan (x : ℚ) : isNan (ofRat x) = false := by
  unfold ofRat
  split
  · rfl
  · split <;> rfl

theorem ofRat_not_nan' (x : ℚ) : ofRat x ≠ nan := fun h => by
  have := ofRat_not_nan x; rw [h] at this; cases this

theorem isNan_iff (a : F64) : isNan a = true ↔ a = nan := by cases a <;> simp [HasNan.isNan]

theorem add_def (a b : F64) : a + b = add a b := rfl
theorem sub_def (a b : F64) : a - b = add a (neg b) := rfl
theorem mul_def (a b : F64) : a * b = mul a b := rfl
theorem div_def (a b : F64) : a / b = div a b := rfl
theorem fma_def (a b c : F64) : mulAdd a b c = fma a b c := rfl
theorem neg_def (a : F64) : -a = neg a := rfl
theorem sqrt_def (a : F64) : HasSqrt.fsqrt a = sqrt a := rfl
theorem abs_def (a : F64) : HasAbs.fabs a = abs a := rfl
theorem flr_def (a : F64) : HasFloor.floor a = flr a := rfl
theorem lt_def (a b : F64) : flt a b = lt a b := rfl
theorem eq_def (a b : F64) : (a == b) = eq a b := rfl
theorem zero_def : (0 : F64) = zero false := rfl
theorem isInf_inf (s : Bool) : (inf s).IsInf := by cases s <;> simp [IsInf]
theorem isZero_zero (s : Bool) : (zero s).IsZero := by cases s <;> simp [IsZero]
theorem isInf_iff (a : F64) : a.IsInf ↔ ∃ s, a = inf s := by
  unfold IsInf; constructor
  · rintro (h | h) <;> exact ⟨_, h⟩
  · rintro ⟨s, rfl⟩; exact isInf_inf s
theorem isZero_iff (a : F64) : a.IsZero ↔ ∃ s, a = zero s := by
  unfold IsZero; constructor
  · rintro (h | h) <;> exact ⟨_, h⟩
  · rintro ⟨s, rfl⟩; exact isZero_zero s

end F64
open F64

/-- C92: which results are `NaN`, for all operands. -/
theorem f64_nan_iff (a b c : F64) :
    (isNan (a + b) = true ↔ isNan a = true ∨ isNan b = true ∨ (a.IsInf ∧ b = -a)) ∧
    (isNan (a - b) = true ↔ isNan a = true ∨ isNan b = true ∨ (a.IsInf ∧ b = a)) ∧
    (isNan (a * b) = true ↔ isNan a = true ∨ isNan b = true ∨ (a.IsInf ∧ b.IsZero) ∨ (a.IsZero ∧ b.IsInf)) ∧
    (isNan (a / b) = true ↔ isNan a = true ∨ isNan b = true ∨ (a.IsInf ∧ b.IsInf) ∨ (a.IsZero ∧ b.IsZero)) ∧
    (isNan (mulAdd a b c) = true ↔ isNan a = true ∨ isNan b = true ∨ isNan c = true ∨ (a.IsInf ∧ b.IsZero) ∨
      (a.IsZero ∧ b.IsInf) ∨ ((a.IsInf ∨ b.IsInf) ∧ c.IsInf ∧ c.sign ≠ xor a.sign b.sign)) ∧
    (isNan (HasSqrt.fsqrt a) = true ↔ isNan a = true ∨ flt a 0 = true) ∧
    (isNan (-a) = true ↔ isNan a = true) ∧ (isNan (HasAbs.fabs a) = true ↔ isNan a = true) ∧
    (isNan (HasFloor.floor a) = true ↔ isNan a = true) := by
  refine ⟨?_, ?_, ?_, ?_, ?_, ?_, ?_, ?_, ?_⟩
  · simp only [isNan_iff, add_def, isInf_iff, neg_def]
    rcases a with _ | s | s | x <;> rcases b with _ | t | t | y <;>
      simp [F64.add, F64.neg, ofRat_not_nan']
    all_goals (cases s <;> cases t <;> simp)
  · simp only [isNan_iff, sub_def, isInf_iff]
    rcases a with _ | s | s | x <;> rcases b with _ | t | t | y <;>
      simp [F64.add, F64.neg, ofRat_not_nan']
    all_goals (cases s <;> cases t <;> simp)
  · simp only [isNan_iff, mul_def, isInf_iff, isZero_iff]
    rcases a with _ | s | s | x <;> rcases b with _ | t | t | y <;>
      simp [F64.mul, ofRat_not_nan']
  · simp only [isNan_iff, div_def, isInf_iff, isZero_iff]
    rcases a with _ | s | s | x <;> rcases b with _ | t | t | y <;>
      simp [F64.div, ofRat_not_nan']
  · simp only [isNan_iff, fma_def, isInf_iff, isZero_iff]
    rcases a with _ | s | s | x <;> rcases b with _ | t | t | y <;> rcases c with _ | r | r | z <;>
      simp [F64.fma, F64.mul, F64.add, F64.sign, ofRat_not_nan']
    all_goals first
      | done
      | (constructor <;> intro h h' <;> exact h h'.symm)
  · simp only [isNan_iff, sqrt_def, lt_def, zero_def]
    rcases a with _ | s | s | x
    · simp [F64.sqrt]
    · cases s <;> simp [F64.sqrt, F64.lt]
    · simp [F64.sqrt, F64.lt]
    · by_cases h : x.1 < 0
      · simp [F64.sqrt, F64.lt, h]
      · simp [F64.sqrt, F64.lt, h, ofRat_not_nan']
  · simp only [isNan_iff, neg_def]
    rcases a with _ | s | s | x <;> simp [F64.neg]
  · simp only [isNan_iff, abs_def, F64.abs]
    rcases a with _ | s | s | x
    · simp [F64.sign]
    · cases s <;> simp [F64.neg, F64.sign]
    · cases s <;> simp [F64.neg, F64.sign]
    · by_cases h : x.1 < 0 <;> simp [F64.neg, F64.sign, h]
  · simp only [isNan_iff, flr_def]
    rcases a with _ | s | s | x <;> simp [F64.flr, ofRat_not_nan']

/-- C92: sums, differences, products, quotients and fused products with an infinity, and quotients by
zero; every case that is not `NaN` by `f64_nan_iff`. -/
theorem f64_infinite (a b c : F64) (s : Bool) :
    (isNan b = false → b ≠ inf (!s) → inf s + b = inf s ∧ b + inf s = inf s) ∧
    (isNan b = false → b ≠ inf s → inf s - b = inf s ∧ b - inf s = inf (!s)) ∧
    (isNan b = false → ¬ b.IsZero → inf s * b = inf (xor s b.sign) ∧ b * inf s = inf (xor b.sign s)) ∧
    (b.IsFin → inf s / b = inf (xor s b.sign) ∧ b / inf s = zero (xor b.sign s)) ∧
    (a.IsFin → ¬ a.IsZero → a / zero s = inf (xor a.sign s)) ∧
    (a * b = inf s → isNan c = false → c ≠ inf (!s) → (a.IsInf ∨ b.IsInf) → mulAdd a b c = inf s) ∧
    (a.IsFin → b.IsFin → mulAdd a b (inf s) = inf s) ∧
    -(inf s) = inf (!s) ∧ HasAbs.fabs (inf s) = inf false ∧ HasFloor.floor (inf s) = inf s ∧
    HasSqrt.fsqrt (inf false) = inf false ∧ HasSqrt.fsqrt (zero s) = zero s := by
  refine ⟨?_, ?_, ?_, ?_, ?_, ?_, ?_, rfl, ?_, rfl, rfl, rfl⟩
  · simp only [add_def, HasNan.isNan]
    rcases b with _ | t | t | y <;> simp [F64.add]
    intro h; revert h; cases s <;> cases t <;> simp
  · simp only [sub_def, HasNan.isNan]
    rcases b with _ | t | t | y <;> simp [F64.add, F64.neg]
    intro h; revert h; cases s <;> cases t <;> simp
  · simp only [mul_def, isZero_iff, HasNan.isNan]
    rcases b with _ | t | t | y <;> simp [F64.mul, F64.sign]
  · simp only [div_def]
    rcases b with _ | t | t | y <;> simp [F64.div, F64.sign, F64.IsFin]
  · simp only [div_def, isZero_iff]
    rcases a with _ | t | t | y <;> simp [F64.div, F64.sign, F64.IsFin]
  · simp only [mul_def, fma_def, isInf_iff, HasNan.isNan]
    intro h1 h2 h3 h4
    rcases a with _ | t | t | x <;> rcases b with _ | r | r | y <;> simp [F64.mul] at h1 h4 <;>
      simp only [F64.fma, F64.mul, F64.sign] at * <;> subst h1 <;>
      rcases c with _ | q | q | z <;> simp_all [F64.add]
  · simp only [fma_def]
    rcases a with _ | t | t | x <;> rcases b with _ | r | r | y <;> simp [F64.IsFin, F64.fma, F64.mul, F64.add]
  · cases s <;> rfl

/-- C92: `<` and `==` are the order and the equality of the extended real numbers; a `NaN` is neither
smaller than nor equal to anything, itself included; `is_finite` is false for infinities and `NaN`. -/
theorem f64_order (a b : F64) :
    (flt a b = true ↔ isNan a = false ∧ isNan b = false ∧ a.ext < b.ext) ∧
    ((a == b) = true ↔ isNan a = false ∧ isNan b = false ∧ a.ext = b.ext) ∧
    (isFinite a = true ↔ isNan a = false ∧ a.ext ≠ ⊤ ∧ a.ext ≠ ⊥) := by
  refine ⟨?_, ?_, ?_⟩
  · simp only [lt_def, HasNan.isNan]
    rcases a with _ | s | s | x <;> rcases b with _ | t | t | y <;> simp [F64.lt, F64.ext]
    · cases s <;> cases t <;> simp
    · cases s <;> simp
    · cases s <;> simp
    · cases t <;> simp
    · cases t <;> simp
  · simp only [eq_def, HasNan.isNan]
    rcases a with _ | s | s | x <;> rcases b with _ | t | t | y <;> simp [F64.eq, F64.ext]
    · cases s <;> cases t <;> simp
    · cases s <;> simp
    · cases s <;> simp
    · cases t <;> simp
    · exact fun h => y.2.2 (by exact_mod_cast h.symm)
    · cases t <;> simp
    · exact x.2.2
  · simp only [HasNan.isNan, isFinite]
    rcases a with _ | s | s | x <;> simp [F64.ext]

/-- `inf + (-inf)`, `0 * inf`, `1 / -0` and `inf < nan`. -/
example : isNan (F64.inf false + F64.inf true) = true ∧ isNan (F64.zero true * F64.inf false) = true ∧
    (1 : F64) / F64.zero true = F64.inf true ∧ flt (F64.inf true) .nan = false ∧
    flt (F64.inf true) (F64.zero true) = true := by
  refine ⟨(f64_nan_iff _ _ 0).1.2 (Or.inr (Or.inr ⟨isInf_inf _, rfl⟩)),
    (f64_nan_iff _ _ 0).2.2.1.2 (Or.inr (Or.inr (Or.inr ⟨isZero_zero _, isInf_inf _⟩))), ?_, rfl,
    (f64_order _ _).1.2 ⟨rfl, rfl, by simp [F64.ext]⟩⟩
  have h1 : (1 : F64) = .num ⟨1, rep_one, one_ne_zero⟩ := F64.ofRat_num rep_one one_ne_zero
  rw [h1, (f64_infinite (.num ⟨1, rep_one, one_ne_zero⟩) 0 0 true).2.2.2.2.1 trivial (by simp [F64.isZero_iff])]
  simp [F64.sign]
end Lacuna
