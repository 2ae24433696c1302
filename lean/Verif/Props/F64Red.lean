import Verif.Spec.F64Red
import Verif.Props.F64Quot
import Verif.Props.Exact
import Verif.Props.PyCount
/-
C95: minima, maxima, products, truth values, counts and comparisons in binary64.
-/
set_option linter.unusedSectionVars false
namespace Lacuna
section

/-! ### order -/

namespace F64

theorem same_lt {a b c d : F64} (h : SameNum a b) (h' : SameNum c d) : flt a c = flt b d := by
  rcases same_iff.1 h with rfl | ⟨⟨s, rfl⟩, t, rfl⟩ <;> rcases same_iff.1 h' with rfl | ⟨⟨s', rfl⟩, t', rfl⟩
  · rfl
  · cases a <;> rfl
  · cases c <;> rfl
  · rfl

theorem same_eq {a b c d : F64} (h : SameNum a b) (h' : SameNum c d) : (a == c) = (b == d) := by
  rcases same_iff.1 h with rfl | ⟨⟨s, rfl⟩, t, rfl⟩ <;> rcases same_iff.1 h' with rfl | ⟨⟨s', rfl⟩, t', rfl⟩
  · rfl
  · cases a <;> rfl
  · cases c <;> rfl
  · rfl

theorem same_isNan {a b : F64} (h : SameNum a b) : isNan a = isNan b := by
  rcases same_iff.1 h with rfl | ⟨⟨s, rfl⟩, t, rfl⟩ <;> rfl

/-- `≤` is transitive among the numbers that are not `NaN`. -/
theorem not_lt_trans {a b c : F64} (ha : isNan a = false) (hb : isNan b = false) (hc : isNan c = false)
    (h1 : flt b a = false) (h2 : flt c b = false) : flt c a = false := by
  cases a with
  | nan => cases ha
  | inf s => cases b with
    | nan => cases hb
    | inf t => cases c with
      | nan => cases hc
      | inf u => revert h1 h2; cases s <;> cases t <;> cases u <;> decide
      | zero u => revert h1 h2; cases s <;> cases t <;> intro h1 h2 <;> first | rfl | (cases h1; done) | (cases h2; done)
      | num z => revert h1 h2; cases s <;> cases t <;> intro h1 h2 <;> first | rfl | (cases h1; done) | (cases h2; done)
    | zero t => cases c with
      | nan => cases hc
      | inf u => revert h1 h2; cases s <;> cases u <;> intro h1 h2 <;> first | rfl | (cases h1; done) | (cases h2; done)
      | zero u => revert h1; cases s <;> intro h1 <;> first | rfl | (cases h1; done)
      | num z => revert h1; cases s <;> intro h1 <;> first | rfl | (cases h1; done)
    | num y => cases c with
      | nan => cases hc
      | inf u => revert h1 h2; cases s <;> cases u <;> intro h1 h2 <;> first | rfl | (cases h1; done) | (cases h2; done)
      | zero u => revert h1; cases s <;> intro h1 <;> first | rfl | (cases h1; done)
      | num z => revert h1; cases s <;> intro h1 <;> first | rfl | (cases h1; done)
  | zero s => cases b with
    | nan => cases hb
    | inf t => cases c with
      | nan => cases hc
      | inf u => revert h1 h2; cases t <;> cases u <;> intro h1 h2 <;> first | rfl | (cases h1; done) | (cases h2; done)
      | zero u => revert h1 h2; cases t <;> intro h1 h2 <;> first | rfl | (cases h1; done) | (cases h2; done)
      | num z => revert h1 h2; cases t <;> intro h1 h2 <;> first | rfl | (cases h1; done) | (cases h2; done)
    | zero t => cases c with
      | nan => cases hc
      | inf u => exact h2
      | zero u => rfl
      | num z => exact h2
    | num y => cases c with
      | nan => cases hc
      | inf u => exact h2
      | zero u => rfl
      | num z =>
        have h1 : decide (y.1 < 0) = false := h1
        have h2 : decide (z.1 < y.1) = false := h2
        show decide (z.1 < 0) = false
        rw [decide_eq_false_iff_not, not_lt] at *
        exact le_trans h1 h2
  | num x => cases b with
    | nan => cases hb
    | inf t => cases c with
      | nan => cases hc
      | inf u => revert h1 h2; cases t <;> cases u <;> intro h1 h2 <;> first | rfl | (cases h1; done) | (cases h2; done)
      | zero u => revert h1 h2; cases t <;> intro h1 h2 <;> first | rfl | (cases h1; done) | (cases h2; done)
      | num z => revert h1 h2; cases t <;> intro h1 h2 <;> first | rfl | (cases h1; done) | (cases h2; done)
    | zero t => cases c with
      | nan => cases hc
      | inf u => exact h2
      | zero u => exact h1
      | num z =>
        have h1 : decide (0 < x.1) = false := h1
        have h2 : decide (z.1 < 0) = false := h2
        show decide (z.1 < x.1) = false
        rw [decide_eq_false_iff_not, not_lt] at *
        exact le_trans h1 h2
    | num y => cases c with
      | nan => cases hc
      | inf u => exact h2
      | zero u =>
        have h1 : decide (y.1 < x.1) = false := h1
        have h2 : decide (0 < y.1) = false := h2
        show decide (0 < x.1) = false
        rw [decide_eq_false_iff_not, not_lt] at *
        exact le_trans h1 h2
      | num z =>
        have h1 : decide (y.1 < x.1) = false := h1
        have h2 : decide (z.1 < y.1) = false := h2
        show decide (z.1 < x.1) = false
        rw [decide_eq_false_iff_not, not_lt] at *
        exact le_trans h1 h2

theorem not_lt_self (a : F64) : flt a a = false := by
  cases a with
  | inf s => cases s <;> rfl
  | num x => exact decide_eq_false (lt_irrefl _)
  | _ => rfl

theorem lt_asymm {a b : F64} (h : flt a b = true) : flt b a = false := by
  cases a <;> cases b <;> first | rfl | (cases h; done) | skip
  case inf.inf s t => revert h; cases s <;> cases t <;> decide
  case inf.zero s t => revert h; cases s <;> intro h <;> first | rfl | (cases h; done)
  case inf.num s t => revert h; cases s <;> intro h <;> first | rfl | (cases h; done)
  case zero.inf s t => revert h; cases t <;> intro h <;> first | rfl | (cases h; done)
  case num.inf s t => revert h; cases t <;> intro h <;> first | rfl | (cases h; done)
  case zero.num s y => exact decide_eq_false (not_lt.2 (le_of_lt (of_decide_eq_true h)))
  case num.zero s y => exact decide_eq_false (not_lt.2 (le_of_lt (of_decide_eq_true h)))
  case num.num s y => exact decide_eq_false (not_lt.2 (le_of_lt (of_decide_eq_true h)))

theorem posInf_top {d : F64} (h : isNan d = false) (h' : flt d (.inf false) = false) : d = .inf false := by
  cases d with
  | nan => cases h
  | inf s => revert h'; cases s <;> intro h' <;> first | rfl | cases h'
  | zero s => cases h'
  | num x => cases h'

theorem negInf_bot {d : F64} (h : isNan d = false) (h' : flt (.inf true) d = false) : d = .inf true := by
  cases d with
  | nan => cases h
  | inf s => revert h'; cases s <;> intro h' <;> first | rfl | cases h'
  | zero s => cases h'
  | num x => cases h'

end F64

/-! ### minima and maxima -/

section
variable [HasMinMax F64]

theorem minJoin_ok (M : F64.MinMaxOk) {a b c : F64} (h : MinJoin a b c) (ha : isNan a = false) (hb : isNan b = false) :
    (c = a ∨ c = b) ∧ flt a c = false ∧ flt b c = false := by
  rcases h with rfl | rfl | rfl
  · exact M.fmin a b ha hb
  · exact M.vmin a b ha hb
  · split
    next h => exact ⟨.inr rfl, F64.lt_asymm h, F64.not_lt_self _⟩
    next h => exact ⟨.inl rfl, F64.not_lt_self _, by simpa using h⟩

theorem maxJoin_ok (M : F64.MinMaxOk) {a b c : F64} (h : MaxJoin a b c) (ha : isNan a = false) (hb : isNan b = false) :
    (c = a ∨ c = b) ∧ flt c a = false ∧ flt c b = false := by
  rcases h with rfl | rfl | rfl
  · exact M.fmax a b ha hb
  · exact M.vmax a b ha hb
  · split
    next h => exact ⟨.inr rfl, F64.lt_asymm h, F64.not_lt_self _⟩
    next h => exact ⟨.inl rfl, F64.not_lt_self _, by simpa using h⟩

theorem minTree (M : F64.MinMaxOk) {s : Multiset F64} {r : F64} (h : JoinTree MinJoin posInf s r) : (∀ x ∈ s, isNan x = false) →
    isNan r = false ∧ (r = posInf ∨ r ∈ s) ∧ ∀ x ∈ s, flt x r = false := by
  induction h with
  | unit => intro _; exact ⟨by rw [M.posInf]; rfl, .inl rfl, by simp⟩
  | leaf x =>
    intro h
    refine ⟨h x (Multiset.mem_singleton_self x), .inr (Multiset.mem_singleton_self x), fun y hy => ?_⟩
    rw [Multiset.mem_singleton.1 hy]
    exact F64.not_lt_self _
  | @node s t a b c _ _ e iha ihb =>
    intro h
    obtain ⟨a1, a2, a3⟩ := iha fun x hx => h x (Multiset.mem_add.2 (.inl hx))
    obtain ⟨b1, b2, b3⟩ := ihb fun x hx => h x (Multiset.mem_add.2 (.inr hx))
    obtain ⟨c1, c2, c3⟩ := minJoin_ok M e a1 b1
    have cn : isNan c = false := by rcases c1 with rfl | rfl <;> assumption
    refine ⟨cn, ?_, fun x hx => ?_⟩
    · rcases c1 with rfl | rfl
      · exact a2.imp_right fun h => Multiset.mem_add.2 (.inl h)
      · exact b2.imp_right fun h => Multiset.mem_add.2 (.inr h)
    · rcases Multiset.mem_add.1 hx with hx' | hx'
      · exact F64.not_lt_trans cn a1 (h x hx) c2 (a3 x hx')
      · exact F64.not_lt_trans cn b1 (h x hx) c3 (b3 x hx')

theorem maxTree (M : F64.MinMaxOk) {s : Multiset F64} {r : F64} (h : JoinTree MaxJoin negInf s r) : (∀ x ∈ s, isNan x = false) →
    isNan r = false ∧ (r = negInf ∨ r ∈ s) ∧ ∀ x ∈ s, flt r x = false := by
  induction h with
  | unit => intro _; exact ⟨by rw [M.negInf]; rfl, .inl rfl, by simp⟩
  | leaf x =>
    intro h
    refine ⟨h x (Multiset.mem_singleton_self x), .inr (Multiset.mem_singleton_self x), fun y hy => ?_⟩
    rw [Multiset.mem_singleton.1 hy]
    exact F64.not_lt_self _
  | @node s t a b c _ _ e iha ihb =>
    intro h
    obtain ⟨a1, a2, a3⟩ := iha fun x hx => h x (Multiset.mem_add.2 (.inl hx))
    obtain ⟨b1, b2, b3⟩ := ihb fun x hx => h x (Multiset.mem_add.2 (.inr hx))
    obtain ⟨c1, c2, c3⟩ := maxJoin_ok M e a1 b1
    have cn : isNan c = false := by rcases c1 with rfl | rfl <;> assumption
    refine ⟨cn, ?_, fun x hx => ?_⟩
    · rcases c1 with rfl | rfl
      · exact a2.imp_right fun h => Multiset.mem_add.2 (.inl h)
      · exact b2.imp_right fun h => Multiset.mem_add.2 (.inr h)
    · rcases Multiset.mem_add.1 hx with hx' | hx'
      · exact F64.not_lt_trans (h x hx) a1 cn (a3 x hx') c2
      · exact F64.not_lt_trans (h x hx) b1 cn (b3 x hx') c3

/-- The numbers compared: those stored, and a zero if a cell is empty. -/
def withZero (k : Nat) (s : Multiset F64) : Multiset F64 := if s.card < k then 0 ::ₘ s else s

/-- The numbers compared are NumPy's elements, up to the sign of zeros. -/
theorem withZero_held {α : Type} (xs : List α) {held : α → List F64} {dense : α → F64} (h : ∀ x ∈ xs, HeldAs (held x) (dense x)) :
    (∀ v ∈ withZero xs.length ((xs.map held).flatten : List F64), ∃ x ∈ xs, SameNum v (dense x)) ∧
    ∀ x ∈ xs, ∃ v ∈ withZero xs.length ((xs.map held).flatten : List F64), SameNum v (dense x) := by
  have hcard : ∀ xs : List α, (∀ x ∈ xs, HeldAs (held x) (dense x)) → (xs.map held).flatten.length ≤ xs.length ∧
      ((xs.map held).flatten.length < xs.length ↔ ∃ x ∈ xs, held x = []) := by
    intro xs
    induction xs with
    | nil => intro _; simp
    | cons x xs ih =>
      intro h
      obtain ⟨i1, i2⟩ := ih fun y hy => h y (List.mem_cons_of_mem _ hy)
      rw [List.map_cons, List.flatten_cons, List.length_append, List.length_cons]
      rcases h x List.mem_cons_self with ⟨e1, -⟩ | ⟨v, e1, -⟩
      · rw [e1, List.length_nil]
        exact ⟨by omega, ⟨fun _ => ⟨x, List.mem_cons_self, e1⟩, fun _ => by omega⟩⟩
      · rw [e1, List.length_singleton]
        refine ⟨by omega, ⟨fun hlt => ?_, ?_⟩⟩
        · obtain ⟨y, hy, e⟩ := i2.1 (by omega)
          exact ⟨y, List.mem_cons_of_mem _ hy, e⟩
        · rintro ⟨y, hy, e⟩
          rcases List.mem_cons.1 hy with rfl | hy
          · rw [e1] at e; cases e
          · have := i2.2 ⟨y, hy, e⟩; omega
  obtain ⟨-, hc⟩ := hcard xs h
  have hmem : ∀ x ∈ xs, ∀ v ∈ held x, SameNum v (dense x) := by
    intro x hx v hv
    rcases h x hx with ⟨e1, -⟩ | ⟨w, e1, e2⟩
    · rw [e1] at hv; cases hv
    · rw [e1] at hv; rw [List.mem_singleton.1 hv]; exact e2
  have hin : ∀ v ∈ (((xs.map held).flatten : List F64) : Multiset F64), ∃ x ∈ xs, SameNum v (dense x) := by
    intro v hv
    obtain ⟨l, hl, hv⟩ := List.mem_flatten.1 (Multiset.mem_coe.1 hv)
    obtain ⟨x, hx, rfl⟩ := List.mem_map.1 hl
    exact ⟨x, hx, hmem x hx v hv⟩
  have hzero : ∀ x ∈ xs, held x = [] → SameNum 0 (dense x) := by
    intro x hx e
    rcases h x hx with ⟨-, e2⟩ | ⟨w, e1, -⟩
    · exact .inr ⟨rfl, e2⟩
    · rw [e] at e1; cases e1
  unfold withZero
  rw [Multiset.coe_card]
  constructor
  · intro v hv
    split at hv
    next hlt =>
      rcases Multiset.mem_cons.1 hv with rfl | hv
      · obtain ⟨x, hx, e⟩ := hc.1 hlt
        exact ⟨x, hx, hzero x hx e⟩
      · exact hin v hv
    next => exact hin v hv
  · intro x hx
    rcases h x hx with ⟨e1, e2⟩ | ⟨v, e1, e2⟩
    · rw [if_pos (hc.2 ⟨x, hx, e1⟩)]
      exact ⟨0, Multiset.mem_cons_self _ _, .inr ⟨rfl, e2⟩⟩
    · have : v ∈ (((xs.map held).flatten : List F64) : Multiset F64) :=
        Multiset.mem_coe.2 (List.mem_flatten.2 ⟨_, List.mem_map_of_mem hx, by rw [e1]; exact List.mem_singleton_self _⟩)
      split
      · exact ⟨v, Multiset.mem_cons_of_mem this, e2⟩
      · exact ⟨v, this, e2⟩

variable [HasPowf F64]

/-- C95: `min(program, axis)`.  If none of the elements along the axis is `NaN`, the smallest of them is
returned, up to the sign of zeros, on every machine and for every schedule. -/
theorem f64_min (M : F64.MinMaxOk) {env : PyEnv F64} (he : env.Ok) {e : Prog F64} (hl : e.LitsOk) (hs : e.Small) (hd : e.AsDense) {τ : Ty}
    (hc : e.check = .ok τ) {axis : AxisArg} (keep : Bool) (ha : axis.Valid 2) (hne : axis ≠ .many []) :
    (∃ out, e.Reduce env .min axis keep out) ∧
    ∀ out, e.Reduce env .min axis keep out →
      ∃ r, out = .ret (.dense r) ∧ IsReduction τ.shape (axis.covers 2) keep F64.IsMin e.dense r := by
  obtain ⟨f, r, c, rfl, -, hh⟩ := f64_held he hl hs hd hc
  obtain ⟨hex, hall⟩ := prog_reduce_any he hl hs hd.determined hc trivial (op := .min) keep ha hne nofun
  refine ⟨hex, fun out h => ?_⟩
  obtain ⟨r, e1, hr⟩ := hall out h
  refine ⟨r, e1, hr.shape_eq, hr.size, fun y hy => ?_⟩
  obtain ⟨v, h1, h2⟩ := hr.cell y hy
  refine ⟨v, h1, ?_⟩
  obtain ⟨xs, hxs, hfib⟩ := fibre_map (Ty.mat f _ _).shape (axis.covers 2) keep y
  rw [hfib] at h2 ⊢
  intro hne hnan
  have hk : (xs.map fun x => valuesAt e.stores x).length = xs.length := List.length_map _
  have h2 : if (xs.map fun x => valuesAt e.stores x).length = 0 then v = 0
    else JoinTree MinJoin posInf (withZero (xs.map fun x => valuesAt e.stores x).length ((xs.map fun x => valuesAt e.stores x).flatten : List F64)) v := h2
  rw [hk, if_neg (fun h0 => hne (by rw [List.length_eq_zero_iff.1 h0]; rfl))] at h2
  obtain ⟨w1, w2⟩ := withZero_held xs (fun x hx => hh x (hxs x hx))
  obtain ⟨m1, m2, m3⟩ := minTree M h2 fun x hx => by
    obtain ⟨y, hy, e⟩ := w1 x hx
    rw [F64.same_isNan e]
    exact hnan _ (List.mem_map_of_mem hy)
  have hlow : ∀ d ∈ xs.map e.dense, flt d v = false := by
    intro d hd
    obtain ⟨x, hx, rfl⟩ := List.mem_map.1 hd
    obtain ⟨u, hu, e⟩ := w2 x hx
    rw [← F64.same_lt e (F64.same_refl v)]
    exact m3 u hu
  refine ⟨?_, hlow⟩
  rcases m2 with m2 | m2
  · obtain ⟨d, hd⟩ := List.exists_mem_of_ne_nil _ hne
    refine ⟨d, hd, .inl ?_⟩
    rw [m2, M.posInf]
    have := hlow d hd
    rw [m2, M.posInf] at this
    exact (F64.posInf_top (hnan d hd) this).symm
  · obtain ⟨x, hx, e⟩ := w1 v m2
    exact ⟨_, List.mem_map_of_mem hx, e⟩

/-- C95: `max(program, axis)`. -/
theorem f64_max (M : F64.MinMaxOk) {env : PyEnv F64} (he : env.Ok) {e : Prog F64} (hl : e.LitsOk) (hs : e.Small) (hd : e.AsDense) {τ : Ty}
    (hc : e.check = .ok τ) {axis : AxisArg} (keep : Bool) (ha : axis.Valid 2) (hne : axis ≠ .many []) :
    (∃ out, e.Reduce env .max axis keep out) ∧
    ∀ out, e.Reduce env .max axis keep out →
      ∃ r, out = .ret (.dense r) ∧ IsReduction τ.shape (axis.covers 2) keep F64.IsMax e.dense r := by
  obtain ⟨f, r, c, rfl, -, hh⟩ := f64_held he hl hs hd hc
  obtain ⟨hex, hall⟩ := prog_reduce_any he hl hs hd.determined hc trivial (op := .max) keep ha hne nofun
  refine ⟨hex, fun out h => ?_⟩
  obtain ⟨r, e1, hr⟩ := hall out h
  refine ⟨r, e1, hr.shape_eq, hr.size, fun y hy => ?_⟩
  obtain ⟨v, h1, h2⟩ := hr.cell y hy
  refine ⟨v, h1, ?_⟩
  obtain ⟨xs, hxs, hfib⟩ := fibre_map (Ty.mat f _ _).shape (axis.covers 2) keep y
  rw [hfib] at h2 ⊢
  intro hne hnan
  have hk : (xs.map fun x => valuesAt e.stores x).length = xs.length := List.length_map _
  have h2 : if (xs.map fun x => valuesAt e.stores x).length = 0 then v = 0
    else JoinTree MaxJoin negInf (withZero (xs.map fun x => valuesAt e.stores x).length ((xs.map fun x => valuesAt e.stores x).flatten : List F64)) v := h2
  rw [hk, if_neg (fun h0 => hne (by rw [List.length_eq_zero_iff.1 h0]; rfl))] at h2
  obtain ⟨w1, w2⟩ := withZero_held xs (fun x hx => hh x (hxs x hx))
  obtain ⟨m1, m2, m3⟩ := maxTree M h2 fun x hx => by
    obtain ⟨y, hy, e⟩ := w1 x hx
    rw [F64.same_isNan e]
    exact hnan _ (List.mem_map_of_mem hy)
  have hup : ∀ d ∈ xs.map e.dense, flt v d = false := by
    intro d hd
    obtain ⟨x, hx, rfl⟩ := List.mem_map.1 hd
    obtain ⟨u, hu, e⟩ := w2 x hx
    rw [← F64.same_lt (F64.same_refl v) e]
    exact m3 u hu
  refine ⟨?_, hup⟩
  rcases m2 with m2 | m2
  · obtain ⟨d, hd⟩ := List.exists_mem_of_ne_nil _ hne
    refine ⟨d, hd, .inl ?_⟩
    rw [m2, M.negInf]
    have := hup d hd
    rw [m2, M.negInf] at this
    exact (F64.negInf_bot (hnan d hd) this).symm
  · obtain ⟨x, hx, e⟩ := w1 v m2
    exact ⟨_, List.mem_map_of_mem hx, e⟩

end

/-! ### products -/

section

private theorem pow_bounds (k : Nat) : (1 - 1 / 2 ^ 53 : ℚ) ^ k ≤ 1 ∧ (1 : ℚ) ≤ (1 + 1 / 2 ^ 53) ^ k ∧ (0 : ℚ) < (1 - 1 / 2 ^ 53) ^ k :=
  ⟨pow_le_one₀ (by norm_num) (by norm_num), one_le_pow₀ (by norm_num), pow_pos (by norm_num) k⟩

/-- Multiplying numbers in any order and grouping: each of the products rounds once. -/
theorem mulTree_rounded {s : Multiset F64} {v : F64} (h : JoinTree (fun a b c : F64 => c = a * b) 1 s v) (n : Nat) :
    s.card ≤ n → (∀ x ∈ s, x.IsFin) →
    (∀ t : Multiset ℚ, t ≤ s.map F64.val → t.prod = 0 ∨
      (2 ^ (-1022 : ℤ) ≤ (1 - 1 / 2 ^ 53) ^ n * |t.prod| ∧ (1 + 1 / 2 ^ 53) ^ n * |t.prod| ≤ max64)) →
    v.IsFin ∧ (s.card = 0 → v = 1) ∧ ∃ θ : ℚ, (1 - 1 / 2 ^ 53) ^ (s.card - 1) ≤ θ ∧ θ ≤ (1 + 1 / 2 ^ 53) ^ (s.card - 1) ∧
      v.val = θ * (s.map F64.val).prod := by
  induction h with
  | unit =>
    intro _ _ _
    refine ⟨F64.one_fin.1, fun _ => rfl, 1, by simp, by simp, ?_⟩
    rw [F64.one_fin.2]; simp
  | leaf x =>
    intro _ hx _
    exact ⟨hx x (Multiset.mem_singleton_self x), by simp, 1, by simp, by simp, by simp⟩
  | @node s t a b c _ _ e iha ihb =>
    intro hn hx hr
    subst e
    rw [Multiset.card_add] at hn
    rw [Multiset.map_add] at hr
    obtain ⟨a1, a0, θ, a2, a3, a4⟩ := iha (by omega) (fun x h => hx x (Multiset.mem_add.2 (.inl h)))
      (fun u hu => hr u (hu.trans (Multiset.le_add_right _ _)))
    obtain ⟨b1, b0, η, b2, b3, b4⟩ := ihb (by omega) (fun x h => hx x (Multiset.mem_add.2 (.inr h)))
      (fun u hu => hr u (hu.trans (Multiset.le_add_left _ _)))
    rw [Multiset.card_add, Multiset.map_add, Multiset.prod_add]
    by_cases hs : s.card = 0
    · rw [a0 hs, F64.mul_comm, F64.mul_one, hs, Nat.zero_add, Multiset.card_eq_zero.1 hs]
      refine ⟨b1, b0, η, b2, b3, ?_⟩
      rw [b4]; simp
    by_cases ht : t.card = 0
    · rw [b0 ht, F64.mul_one, ht, Nat.add_zero, Multiset.card_eq_zero.1 ht]
      refine ⟨a1, a0, θ, a2, a3, ?_⟩
      rw [a4]; simp
    obtain ⟨k, hk⟩ : ∃ k, s.card = k + 1 := ⟨s.card - 1, by omega⟩
    obtain ⟨l, hl⟩ : ∃ l, t.card = l + 1 := ⟨t.card - 1, by omega⟩
    rw [hk] at a2 a3
    rw [hl] at b2 b3
    simp only [Nat.add_sub_cancel] at a2 a3 b2 b3
    have e1 : s.card + t.card - 1 = k + l + 1 := by omega
    rw [e1]
    obtain ⟨p1, p2, p3⟩ := pow_bounds k
    obtain ⟨q1, q2, q3⟩ := pow_bounds l
    have t0 : 0 < θ := lt_of_lt_of_le p3 a2
    have e0 : 0 < η := lt_of_lt_of_le q3 b2
    have lo : (1 - 1 / 2 ^ 53 : ℚ) ^ (k + l) ≤ θ * η := by rw [pow_add]; exact mul_le_mul a2 b2 q3.le t0.le
    have hi : θ * η ≤ (1 + 1 / 2 ^ 53 : ℚ) ^ (k + l) := by rw [pow_add]; exact mul_le_mul a3 b3 e0.le (by positivity)
    generalize hP : (s.map F64.val).prod * (t.map F64.val).prod = P
    have hab : a.val * b.val = θ * η * P := by rw [a4, b4, ← hP]; ring
    have hc : s.card + t.card = 0 → a * b = 1 := fun h => absurd h (by omega)
    rcases hr (s.map F64.val + t.map F64.val) le_rfl with h0 | ⟨h1, h2⟩
    · rw [Multiset.prod_add, hP] at h0
      have hab0 : a.val * b.val = 0 := by rw [hab, h0, mul_zero]
      obtain ⟨f, w⟩ := F64.mul_rnd a1 b1 (by rw [hab0, abs_zero]; exact B64.rep_zero.2.trans' (by simp))
      obtain ⟨r1, r2, -⟩ := pow_bounds (k + l + 1)
      exact ⟨f, hc, 1, r1, r2, by rw [w, hab0, B64.rnd64_zero, h0, mul_zero]⟩
    · rw [Multiset.prod_add, hP] at h1 h2
      have hpos : 0 < θ * η := mul_pos t0 e0
      have hlow : (1 - 1 / 2 ^ 53 : ℚ) ^ n ≤ θ * η := le_trans (pow_le_pow_of_le_one (by norm_num) (by norm_num) (by omega)) lo
      have hupp : θ * η ≤ (1 + 1 / 2 ^ 53 : ℚ) ^ n := le_trans hi (pow_le_pow_right₀ (by norm_num) (by omega))
      have habs : |a.val * b.val| = θ * η * |P| := by rw [hab, abs_mul, abs_of_pos hpos]
      have m1 : (2 : ℚ) ^ (-1022 : ℤ) ≤ |a.val * b.val| := by
        rw [habs]; exact le_trans h1 (mul_le_mul_of_nonneg_right hlow (abs_nonneg _))
      have m2 : |a.val * b.val| ≤ max64 := by
        rw [habs]; exact le_trans (mul_le_mul_of_nonneg_right hupp (abs_nonneg _)) h2
      have hne : a.val * b.val ≠ 0 := abs_pos.1 (lt_of_lt_of_le (zpow_pos (by norm_num) _) m1)
      obtain ⟨f, w⟩ := F64.mul_rnd a1 b1 m2
      have hrel := rnd64_rel (x := a.val * b.val)
        ((Int.zpow_le_iff_le_log (by norm_num) (abs_pos.2 hne)).1 (by exact_mod_cast m1)) hne
      refine ⟨f, hc, θ * η * (rnd64 (a.val * b.val) / (a.val * b.val)), ?_, ?_, ?_⟩
      rotate_left 2
      · rw [w, mul_right_comm, ← hab, mul_div_assoc', mul_div_cancel_left₀ _ hne]
      all_goals
        have hq : |rnd64 (a.val * b.val) / (a.val * b.val) - 1| ≤ 1 / 2 ^ 53 := by
          rw [div_sub_one hne, abs_div, div_le_iff₀ (abs_pos.2 hne)]
          exact hrel
        obtain ⟨q1, q2⟩ := abs_le.1 hq
        rw [pow_succ]
      · exact mul_le_mul lo (by linarith) (by norm_num) hpos.le
      · exact mul_le_mul hi (by linarith) (by linarith [show (1 : ℚ) / 2 ^ 53 ≤ 1 by norm_num]) (by positivity)

variable [HasMinMax F64] [HasPowf F64]

/-- The numbers stored are NumPy's elements up to the sign of zeros, if every cell holds one. -/
theorem heldAs_vals {α : Type} (xs : List α) {held : α → List F64} {dense : α → F64} (h : ∀ x ∈ xs, HeldAs (held x) (dense x))
    (hlen : ¬ (xs.map held).flatten.length < xs.length) : (xs.map held).flatten.map F64.val = (xs.map dense).map F64.val := by
  have hle : ∀ xs : List α, (∀ x ∈ xs, HeldAs (held x) (dense x)) → (xs.map held).flatten.length ≤ xs.length := by
    intro xs h
    induction xs with
    | nil => exact Nat.le_refl _
    | cons x xs ih =>
      rw [List.map_cons, List.flatten_cons, List.length_append, List.length_cons]
      have := ih fun y hy => h y (List.mem_cons_of_mem _ hy)
      rcases h x List.mem_cons_self with ⟨e1, e2⟩ | ⟨v, e1, e2⟩ <;> rw [e1] <;> simp only [List.length_nil, List.length_singleton] <;> omega
  induction xs with
  | nil => rfl
  | cons x xs ih =>
    have hx := hle xs fun y hy => h y (List.mem_cons_of_mem _ hy)
    rw [List.map_cons, List.flatten_cons, List.length_append, List.length_cons] at hlen
    rcases h x List.mem_cons_self with ⟨e1, -⟩ | ⟨v, e1, e2⟩
    · rw [e1, List.length_nil] at hlen; omega
    · rw [e1, List.length_singleton] at hlen
      rw [List.map_cons, List.flatten_cons, e1, List.singleton_append, List.map_cons, List.map_cons, List.map_cons,
        ih (fun y hy => h y (List.mem_cons_of_mem _ hy)) (by omega), F64.same_val e2]

/-- C95: `prod(program, axis)`.  If the elements along the axis are finite and no product of some of them is
near the ends of the range, the exact product is returned, up to one rounding for each multiplication but one
at most, whatever the machine and the schedule.  If an element is zero, the product is exactly zero. -/
theorem f64_prod {env : PyEnv F64} (he : env.Ok) {e : Prog F64} (hl : e.LitsOk) (hs : e.Small) (hd : e.AsDense) {τ : Ty}
    (hc : e.check = .ok τ) {axis : AxisArg} (keep : Bool) (ha : axis.Valid 2) (hne : axis ≠ .many []) :
    (∃ out, e.Reduce env .prod axis keep out) ∧
    ∀ out, e.Reduce env .prod axis keep out →
      ∃ r, out = .ret (.dense r) ∧ IsReduction τ.shape (axis.covers 2) keep F64.RoundedProd e.dense r := by
  obtain ⟨f, r, c, rfl, -, hh⟩ := f64_held he hl hs hd hc
  obtain ⟨hex, hall⟩ := prog_reduce_any he hl hs hd.determined hc trivial (op := .prod) keep ha hne nofun
  refine ⟨hex, fun out h => ?_⟩
  obtain ⟨r, e1, hr⟩ := hall out h
  refine ⟨r, e1, hr.shape_eq, hr.size, fun y hy => ?_⟩
  obtain ⟨v, h1, h2⟩ := hr.cell y hy
  refine ⟨v, h1, ?_⟩
  obtain ⟨xs, hxs, hfib⟩ := fibre_map (Ty.mat f _ _).shape (axis.covers 2) keep y
  rw [hfib] at h2 ⊢
  have hh : ∀ x ∈ xs, HeldAs (valuesAt e.stores x) (e.dense x) := fun x hx => hh x (hxs x hx)
  intro hf hrange
  have h2 : if (((xs.map fun x => valuesAt e.stores x).flatten : List F64) : Multiset F64).card < (xs.map fun x => valuesAt e.stores x).length
    then v = 0 else JoinTree (fun a b c : F64 => c = a * b) 1 (((xs.map fun x => valuesAt e.stores x).flatten : List F64) : Multiset F64) v := h2
  have hp := heldAs_prod xs hh
  rw [Multiset.coe_card, List.length_map] at h2
  by_cases hlt : (xs.map fun x => valuesAt e.stores x).flatten.length < xs.length
  · rw [if_pos hlt] at h2 hp
    obtain ⟨r1, r2, -⟩ := pow_bounds ((xs.map e.dense).length - 1)
    rw [h2, hp]
    exact ⟨trivial, 1, r1, r2, by rw [mul_zero]; rfl⟩
  · rw [if_neg hlt] at h2
    have hv := heldAs_vals xs hh hlt
    have hlen : (xs.map fun x => valuesAt e.stores x).flatten.length = (xs.map e.dense).length := by
      have := congrArg List.length hv
      rwa [List.length_map, List.length_map] at this
    obtain ⟨v1, -, θ, v2, v3, v4⟩ := mulTree_rounded h2 (xs.map e.dense).length (by rw [Multiset.coe_card, hlen]) (fun a ha => by
        obtain ⟨l, hl, ha⟩ := List.mem_flatten.1 (Multiset.mem_coe.1 ha)
        obtain ⟨x, hx, rfl⟩ := List.mem_map.1 hl
        rcases hh x hx with ⟨e1, -⟩ | ⟨w, e1, e2⟩
        · rw [e1] at ha; cases ha
        · rw [e1] at ha
          rw [List.mem_singleton.1 ha]
          exact F64.same_fin e2 (hf _ (List.mem_map_of_mem hx))) (by
        rw [Multiset.map_coe, hv]; exact hrange)
    rw [Multiset.coe_card, hlen] at v2 v3
    rw [Multiset.map_coe, hv, Multiset.prod_coe] at v4
    exact ⟨v1, θ, v2, v3, v4⟩

/-! ### running products -/

/-- A product with a zero factor is zero or `NaN`. -/
theorem zeroOrNan_mul {p : F64} (h : (p == 0) = true ∨ isNan p = true) (a : F64) : (p * a == 0) = true ∨ isNan (p * a) = true := by
  cases p with
  | nan => right; cases a <;> rfl
  | inf s => rcases h with h | h <;> cases h
  | num x =>
    rcases h with h | h
    · exact absurd ((F64.val_eq_zero (a := .num x) trivial).2 h) x.2.2
    · cases h
  | zero s => cases a <;> first | exact .inl rfl | exact .inr rfl

theorem foldl_zeroOrNan (l : List F64) {p : F64} (h : (p == 0) = true ∨ isNan p = true) :
    (l.foldl (· * ·) p == 0) = true ∨ isNan (l.foldl (· * ·) p) = true := by
  induction l generalizing p with
  | nil => exact h
  | cons a l ih => exact ih (zeroOrNan_mul h a)

theorem foldl_has_zero (l : List F64) (p : F64) (h : ∃ d ∈ l, (d == 0) = true) :
    (l.foldl (· * ·) p == 0) = true ∨ isNan (l.foldl (· * ·) p) = true := by
  induction l generalizing p with
  | nil => obtain ⟨d, hd, -⟩ := h; cases hd
  | cons a l ih =>
    obtain ⟨d, hd, hz⟩ := h
    rcases List.mem_cons.1 hd with rfl | hd
    · refine foldl_zeroOrNan l ?_
      show (p * d == 0) = true ∨ isNan (p * d) = true
      rw [F64.mul_comm]
      exact zeroOrNan_mul (.inl hz) p
    · exact ih _ ⟨d, hd, hz⟩

theorem cellAs_foldProd {α : Type} (xs : List α) {c : α → Option F64} {d : α → F64} (h : ∀ x ∈ xs, CellAs (c x) (d x)) :
    F64.RunningProd (xs.map d) (ScanOp.prod.bits (xs.map c)) := by
  have main : ∀ (xs : List α) {s t : F64}, (∀ x ∈ xs, CellAs (c x) (d x)) → (∀ x ∈ xs, c x ≠ none) → SameNum s t →
      SameNum (((xs.map c).filterMap id).foldl (· * ·) s) ((xs.map d).foldl (· * ·) t) := by
    intro xs
    induction xs with
    | nil => intro s t _ _ hst; exact hst
    | cons x xs ih =>
      intro s t h hn hst
      have hx : SameNum ((c x).getD 0) (d x) := h x List.mem_cons_self
      obtain ⟨v, hv⟩ := Option.ne_none_iff_exists'.1 (hn x List.mem_cons_self)
      rw [hv] at hx
      rw [List.map_cons, List.map_cons, List.foldl_cons, hv, List.filterMap_cons]
      show SameNum (((xs.map c).filterMap id).foldl (· * ·) (s * v)) _
      exact ih (fun y hy => h y (List.mem_cons_of_mem _ hy)) (fun y hy => hn y (List.mem_cons_of_mem _ hy)) (F64.same_mul hst hx)
  unfold ScanOp.bits
  by_cases hany : (xs.map c).any Option.isNone = true
  · simp only [hany, if_true]
    obtain ⟨o, ho, hnone⟩ := List.any_eq_true.1 hany
    obtain ⟨x, hx, rfl⟩ := List.mem_map.1 ho
    have hc : SameNum ((c x).getD 0) (d x) := h x hx
    rw [Option.isNone_iff_eq_none.1 hnone] at hc
    have hd : (d x == 0) = true := by
      rcases hc with hc | hc
      · rw [← hc]; rfl
      · exact hc.2
    rcases foldl_has_zero (xs.map d) 1 ⟨_, List.mem_map_of_mem hx, hd⟩ with h0 | h0
    · exact .inl (.inr ⟨rfl, h0⟩)
    · exact .inr ⟨h0, ⟨_, List.mem_map_of_mem hx, hd⟩, rfl⟩
  · simp only [hany]
    refine .inl (main xs h (fun x hx hn => hany (List.any_eq_true.2 ⟨_, List.mem_map_of_mem hx, by rw [hn]; rfl⟩)) (F64.same_refl 1))

/-- C95: `cumprod(program, axis)` is what NumPy computes, rounding, underflow and overflow included, up to the sign
of zeros, but may be zero where NumPy's product is `NaN` and has a factor zero. -/
theorem f64_cumprod {env : PyEnv F64} (he : env.Ok) {e : Prog F64} (hl : e.LitsOk) (hs : e.Small) (hd : e.AsDense) {τ : Ty}
    (hc : e.check = .ok τ) {axis : AxisArg} {rowwise : Bool} (ha : axis.Single rowwise)
    (hsz : 8 * (τ.shape.prod : Int) ≤ i64Max) (hcsc : rowwise = true → ∀ r c, τ ≠ .mat .csc r c) :
    (∃ out, e.Scan env .prod axis out) ∧
    ∀ out, e.Scan env .prod axis out → ∃ r, out = .ret r ∧ IsScanBy F64.RunningProd rowwise τ.shape e.dense r := by
  obtain ⟨f, r, c, rfl, -, hh⟩ := f64_held he hl hs hd hc
  obtain ⟨hex, hall⟩ := prog_scan_any he hl hs hd.determined hc trivial .prod ha hsz hcsc
  refine ⟨hex, fun out hout => ?_⟩
  obtain ⟨r', cc, e1, hcs, n, m, hsh, r1, r2, r3⟩ := hall out hout
  have h2 : n = r ∧ m = c := by cases hsh; exact ⟨rfl, rfl⟩
  obtain ⟨rfl, rfl⟩ := h2
  refine ⟨r', e1, n, m, hsh, r1, r2, fun i j hi hj => ?_⟩
  rw [r3 i j hi hj]
  unfold upTo
  cases rowwise
  · rw [if_neg (by simp), if_neg (by simp)]
    refine cellAs_foldProd (List.range (i + 1)) (c := fun (k : Nat) => cc [(k : Int), (j : Int)]) (fun k hk => ?_)
    have := List.mem_range.1 hk
    exact cellSums_as hh hcs (.cons ⟨by omega, by omega⟩ (.cons ⟨by omega, by omega⟩ .nil))
  · rw [if_pos rfl, if_pos rfl]
    refine cellAs_foldProd (List.range (j + 1)) (c := fun (k : Nat) => cc [(i : Int), (k : Int)]) (fun k hk => ?_)
    have := List.mem_range.1 hk
    exact cellSums_as hh hcs (.cons ⟨by omega, by omega⟩ (.cons ⟨by omega, by omega⟩ .nil))

/-! ### truth values -/

/-- NumPy's `all` and `any`: every number but a zero is true, a `NaN` too. -/
theorem f64_logic_cells {α : Type} (op : LogicOp) (xs : List α) {held : α → List F64} {dense : α → F64}
    (h : ∀ x ∈ xs, HeldAs (held x) (dense x)) {r : Bool} (hr : op.OfCells (xs.map held) r) : F64.Truth op (xs.map dense) r := by
  obtain ⟨sums, hs, rfl⟩ := hr
  have key : ∀ (xs : List α) (sums : List (Option F64)), (∀ x ∈ xs, HeldAs (held x) (dense x)) →
      List.Forall₂ (fun l o => ∃ l', l'.Perm l ∧ o = sumAll l') (xs.map held) sums →
      sums.map (fun o => o.any fun v => !(v == 0)) = (xs.map dense).map fun d => !(d == 0) := by
    intro xs
    induction xs with
    | nil => intro sums _ hs; cases hs; rfl
    | cons x xs ih =>
      intro sums h hs
      cases hs with
      | cons h1 h2 =>
        rename_i o os
        rw [List.map_cons, List.map_cons, List.map_cons, ih os (fun y hy => h y (List.mem_cons_of_mem _ hy)) h2]
        congr 1
        obtain ⟨l, hp, rfl⟩ := h1
        rcases h x List.mem_cons_self with ⟨e1, e2⟩ | ⟨v, e1, e2⟩
        · rw [e1] at hp
          rw [List.perm_nil.1 hp, e2]; rfl
        · rw [e1] at hp
          rw [List.perm_singleton.1 hp, ← F64.same_eq e2 (F64.same_refl 0)]; rfl
  have := key xs sums h hs
  cases op
  · show (sums.all _) = (xs.map dense).all fun d => !(d == 0)
    have h1 : ∀ (l : List F64), (l.all fun d => !(d == 0)) = (l.map fun d => !(d == 0)).all id := fun l => by rw [List.all_map]; rfl
    rw [h1, ← this, List.all_map]; rfl
  · show (sums.any _) = (xs.map dense).any fun d => !(d == 0)
    have h1 : ∀ (l : List F64), (l.any fun d => !(d == 0)) = (l.map fun d => !(d == 0)).any id := fun l => by rw [List.any_map]; rfl
    rw [h1, ← this, List.any_map]; rfl

/-- C95: `all(program, axis)` and `any(program, axis)` are NumPy's, `NaN`s and infinities included. -/
theorem f64_logic {env : PyEnv F64} (he : env.Ok) {e : Prog F64} (hl : e.LitsOk) (hs : e.Small) (hd : e.AsDense) {τ : Ty}
    (hc : e.check = .ok τ) (op : LogicOp) {axis : AxisArg} (keep : Bool) (ha : axis.Valid 2) (hne : axis ≠ .many []) :
    (∃ out, e.Logic env op axis keep out) ∧
    ∀ out, e.Logic env op axis keep out →
      ∃ r, out = .ret r ∧ IsReduction τ.shape (axis.covers 2) keep (F64.Truth op) e.dense r := by
  obtain ⟨f, r, c, rfl, -, hh⟩ := f64_held he hl hs hd hc
  obtain ⟨hex, hall⟩ := prog_logic_any he hl hs hd.determined hc trivial op keep ha hne
  refine ⟨hex, fun out h => ?_⟩
  obtain ⟨r, e1, hr⟩ := hall out h
  refine ⟨r, e1, hr.shape_eq, hr.size, fun y hy => ?_⟩
  obtain ⟨v, h1, h2⟩ := hr.cell y hy
  refine ⟨v, h1, ?_⟩
  obtain ⟨xs, hxs, hfib⟩ := fibre_map (Ty.mat f _ _).shape (axis.covers 2) keep y
  rw [hfib] at h2 ⊢
  exact f64_logic_cells op xs (fun x hx => hh x (hxs x hx)) h2

/-! ### comparisons -/

/-- A comparison does not see the sign of a zero. -/
theorem same_run (op : CmpOp) {a b c d : F64} (h : SameNum a b) (h' : SameNum c d) : op.run a c = op.run b d := by
  cases op <;> simp only [CmpOp.run, F64.same_eq h h', F64.same_lt h h', F64.same_lt h' h]

theorem cmpArg_dense {env : PyEnv F64} (he : env.Ok) {x : CmpArg F64} (hx : x.DenseOk) {s : List Nat} (h : x.check = .ok s) :
    ∃ g, x.Gives env s g ∧ ∀ i, InBounds s i → SameNum (g i) (x.dense i) := by
  cases x with
  | array y => cases h; exact ⟨_, gives_array env hx, fun i _ => F64.same_refl _⟩
  | prog e =>
    obtain ⟨hl, hs, hd⟩ : e.LitsOk ∧ e.Small ∧ e.AsDense := hx
    have h : e.check.map Ty.shape = .ok s := h
    cases hc : e.check with
    | error x => rw [hc] at h; cases h
    | ok τ =>
      rw [hc] at h; cases h
      refine ⟨_, gives_prog he hl hs hd.determined hc, ?_⟩
      obtain ⟨f, r, c, rfl, -, hh⟩ := f64_held he hl hs hd hc
      intro i hi
      unfold Prog.denseCell denseCell
      rw [Prog.compressed_ok hc]
      show SameNum (if true = true then _ else _) _
      rw [if_pos rfl]
      rcases hh i hi with ⟨e1, e2⟩ | ⟨v, e1, e2⟩
      · rw [e1]; exact .inr ⟨rfl, e2⟩
      · rw [e1]; exact e2

/-- C95: `equal`, `not_equal`, `less`, `less_equal`, `greater`, `greater_equal` of two programs, or of a
program and an array, whose shapes broadcast: exactly NumPy's comparisons of the elements, `NaN`s, infinities
and zeros of both signs included. -/
theorem f64_compare {env : PyEnv F64} (he : env.Ok) (numpy : CmpOp → DenseNd F64 → DenseNd F64 → PyRes (DenseNd Bool)) (op : CmpOp)
    {x y : CmpArg F64} (hx : x.DenseOk) (hy : y.DenseOk) (hp : x.IsProg ∨ y.IsProg) {s t u : List Nat} (hcx : x.check = .ok s)
    (hcy : y.check = .ok t) (hb : bcastTo s t = some u) (out : PyRes (DenseNd Bool)) :
    Compare env numpy op x y out ↔
      out = .ret (denseOf u fun i => op.run (x.dense (bcastIndex s i)) (y.dense (bcastIndex t i))) := by
  obtain ⟨f, gx, hf⟩ := cmpArg_dense he hx hcx
  obtain ⟨g, gy, hg⟩ := cmpArg_dense he hy hcy
  rw [compare_gives numpy op gx gy hp out, hb]
  show out = .ret (denseOf u fun i => op.run (f (bcastIndex s i)) (g (bcastIndex t i))) ↔ _
  rw [denseOf_congr (g := fun i => op.run (x.dense (bcastIndex s i)) (y.dense (bcastIndex t i))) fun i hi => by
    obtain ⟨-, -, h3, h4⟩ := bcast_cells hb hi
    exact same_run op (hf _ h3) (hg _ h4)]

/-! ### counts -/

/-- If no cell holds a zero, the cells that hold something are those with an element that is not zero. -/
theorem heldAs_count {α : Type} (xs : List α) {held : α → List F64} {dense : α → F64} (h : ∀ x ∈ xs, HeldAs (held x) (dense x))
    (hz : ∀ x ∈ xs, ∀ v ∈ held x, (v == 0) = false) : (xs.map held).flatten.length = countNz (xs.map dense) := by
  induction xs with
  | nil => rfl
  | cons x xs ih =>
    rw [List.map_cons, List.flatten_cons, List.length_append, List.map_cons,
      ih (fun y hy => h y (List.mem_cons_of_mem _ hy)) fun y hy => hz y (List.mem_cons_of_mem _ hy)]
    unfold countNz
    rw [List.countP_cons]
    rcases h x List.mem_cons_self with ⟨e1, e2⟩ | ⟨v, e1, e2⟩
    · rw [e1, e2]; simp
    · have h1 := hz x List.mem_cons_self v (by rw [e1]; exact List.mem_singleton_self _)
      rw [F64.same_eq e2 (F64.same_refl 0)] at h1
      rw [e1, h1, List.length_singleton, Nat.add_comm]
      rfl

/-- C95: `count_nonzero(program, axis)`, if the program stores no zero: NumPy's count, in which a `NaN`
counts. -/
theorem f64_count {env : PyEnv F64} (he : env.Ok) {e : Prog F64} (hl : e.LitsOk) (hs : e.Small) (hd : e.AsDense) {τ : Ty}
    (hc : e.check = .ok τ) (hz : ∀ k ∈ e.stores, (k.2 == 0) = false) {axis : AxisArg} (keep : Bool) (ha : axis.Valid 2)
    (hne : axis ≠ .many []) :
    ∃ r, (∀ out, e.Count env axis keep out ↔ out = .ret r) ∧
      IsReduction τ.shape (axis.covers 2) keep (fun l r => r = (countNz l : Int)) e.dense r := by
  obtain ⟨f, r, c, rfl, -, hh⟩ := f64_held he hl hs hd hc
  obtain ⟨r, h1, hr⟩ := prog_count_any he hl hs hd.determined hc trivial keep ha hne
  refine ⟨r, h1, hr.shape_eq, hr.size, fun y hy => ?_⟩
  obtain ⟨v, h1, h2⟩ := hr.cell y hy
  refine ⟨v, h1, ?_⟩
  obtain ⟨xs, hxs, hfib⟩ := fibre_map (Ty.mat f _ _).shape (axis.covers 2) keep y
  rw [hfib] at h2 ⊢
  rw [h2, heldAs_count xs (fun x hx => hh x (hxs x hx)) fun x _ v hv => ?_]
  obtain ⟨k, hk, rfl⟩ := List.mem_map.1 hv
  exact hz k (List.mem_filter.1 hk).1

end

/-! ### examples -/

/-- Minima and maxima that keep the first of two equal numbers. -/
@[instance_reducible] def exMinMax : HasMinMax F64 where
  fmin a b := if flt b a then b else a
  vmin a b := if flt a b then a else b
  fmax a b := if flt a b then b else a
  vmax a b := if flt b a then a else b
  posInf := .inf false
  negInf := .inf true

theorem exMinMax_ok : @F64.MinMaxOk exMinMax := by
  let _ := exMinMax
  refine ⟨rfl, rfl, fun a b _ _ => ?_, fun a b _ _ => ?_, fun a b _ _ => ?_, fun a b _ _ => ?_⟩
  · show (ite _ _ _ = _ ∨ ite _ _ _ = _) ∧ flt a (ite _ _ _) = false ∧ flt b (ite _ _ _) = false
    split
    next h => exact ⟨.inr rfl, F64.lt_asymm h, F64.not_lt_self _⟩
    next h => exact ⟨.inl rfl, F64.not_lt_self _, by simpa using h⟩
  · show (ite _ _ _ = _ ∨ ite _ _ _ = _) ∧ flt a (ite _ _ _) = false ∧ flt b (ite _ _ _) = false
    split
    next h => exact ⟨.inl rfl, F64.not_lt_self _, F64.lt_asymm h⟩
    next h => exact ⟨.inr rfl, by simpa using h, F64.not_lt_self _⟩
  · show (ite _ _ _ = _ ∨ ite _ _ _ = _) ∧ flt (ite _ _ _) a = false ∧ flt (ite _ _ _) b = false
    split
    next h => exact ⟨.inr rfl, F64.lt_asymm h, F64.not_lt_self _⟩
    next h => exact ⟨.inl rfl, F64.not_lt_self _, by simpa using h⟩
  · show (ite _ _ _ = _ ∨ ite _ _ _ = _) ∧ flt (ite _ _ _) a = false ∧ flt (ite _ _ _) b = false
    split
    next h => exact ⟨.inl rfl, F64.not_lt_self _, F64.lt_asymm h⟩
    next h => exact ⟨.inr rfl, by simpa using h, F64.not_lt_self _⟩

section
variable [HasPowf F64]

/-- `min([[0.5, 0, 3]], axis=1)` is zero and `max` is 3. -/
example {env : PyEnv F64} (he : env.Ok) :
    let _ := exMinMax
    (∀ out, exZ64.Reduce env .min (.one 1) false out → ∃ r v, out = .ret (.dense r) ∧ r.shape = [1] ∧ r.data[0]? = some v ∧ v.val = 0) ∧
    ∀ out, exZ64.Reduce env .max (.one 1) false out → ∃ r v, out = .ret (.dense r) ∧ r.shape = [1] ∧ r.data[0]? = some v ∧ v.val = 3 := by
  intro _
  obtain ⟨h1, h2, h3, h4⟩ := exZ64_ok
  have hnan : ∀ d ∈ [F64.ofRat (1 / 2), 0, F64.ofRat 3], isNan d = false := by decide +kernel
  constructor
  · intro out h
    obtain ⟨r, e, hr⟩ := (f64_min exMinMax_ok he h1 h2 h3 h4 (axis := .one 1) false axis_one (by simp)).2 out h
    have hsh : r.shape = [1] := hr.shape_eq
    obtain ⟨v, c, p⟩ := hr.cell [0] (by rw [hsh]; exact .cons ⟨by omega, by omega⟩ .nil)
    rw [hsh] at c
    obtain ⟨⟨d, hd, hs⟩, p⟩ := p (List.cons_ne_nil _ _) hnan
    refine ⟨r, v, e, hsh, c, ?_⟩
    have p : ∀ d ∈ [F64.ofRat (1 / 2), 0, F64.ofRat 3], flt d v = false := p
    have hd : d ∈ [F64.ofRat (1 / 2), 0, F64.ofRat 3] := hd
    have p0 := p 0 (by simp)
    rw [F64.same_lt (F64.same_refl 0) hs] at p0
    rw [F64.same_val hs]
    simp only [List.mem_cons, List.not_mem_nil, or_false] at hd
    rcases hd with rfl | rfl | rfl
    · exact absurd p0 (by decide +kernel)
    · rfl
    · exact absurd p0 (by decide +kernel)
  · intro out h
    obtain ⟨r, e, hr⟩ := (f64_max exMinMax_ok he h1 h2 h3 h4 (axis := .one 1) false axis_one (by simp)).2 out h
    have hsh : r.shape = [1] := hr.shape_eq
    obtain ⟨v, c, p⟩ := hr.cell [0] (by rw [hsh]; exact .cons ⟨by omega, by omega⟩ .nil)
    rw [hsh] at c
    obtain ⟨⟨d, hd, hs⟩, p⟩ := p (List.cons_ne_nil _ _) hnan
    refine ⟨r, v, e, hsh, c, ?_⟩
    have p : ∀ d ∈ [F64.ofRat (1 / 2), 0, F64.ofRat 3], flt v d = false := p
    have hd : d ∈ [F64.ofRat (1 / 2), 0, F64.ofRat 3] := hd
    have p0 := p (F64.ofRat 3) (by simp)
    rw [F64.same_lt hs (F64.same_refl _)] at p0
    rw [F64.same_val hs]
    simp only [List.mem_cons, List.not_mem_nil, or_false] at hd
    rcases hd with rfl | rfl | rfl
    · exact absurd p0 (by decide +kernel)
    · exact absurd p0 (by decide +kernel)
    · exact exNums.2.2

/-- `[[0.5, 3]]` -/
def exW95 : Prog F64 := .mat .csr 1 2 [0, 2] [0, 1] [F64.ofRat (1 / 2), F64.ofRat 3]

theorem exW95_range [HasMinMax F64] : F64.InRange [F64.ofRat (1 / 2), F64.ofRat 3] := by
  intro t ht
  rw [List.map_cons, List.map_cons, List.map_nil, exNums.1.2, exNums.2.2] at ht
  have hm : (2 : ℚ) ^ (-1022 : ℤ) ≤ 1 / 16 := le_trans (zpow_le_zpow_right₀ (by norm_num) (show (-1022 : ℤ) ≤ -4 by norm_num)) (by norm_num)
  have hp : t ∈ Multiset.powerset ([1 / 2, 3] : List ℚ) := Multiset.mem_powerset.2 ht
  rw [Multiset.powerset_coe] at hp
  obtain ⟨l, hl, rfl⟩ := List.mem_map.1 (Multiset.mem_coe.1 hp)
  rw [Multiset.prod_coe]
  right
  have hl : l ∈ [[], [1 / 2], [3], [1 / 2, 3]] := by
    simpa [List.sublists, List.mem_sublists] using hl
  have : l.prod = 1 ∨ l.prod = 3 ∨ l.prod = 1 / 2 ∨ l.prod = 3 / 2 := by
    simp only [List.mem_cons, List.not_mem_nil, or_false] at hl
    rcases hl with rfl | rfl | rfl | rfl <;> norm_num
  rcases this with e | e | e | e <;> rw [e] <;>
    exact ⟨le_trans hm (by norm_num), le_trans (by norm_num) max64_big⟩

/-- `prod([[0.5, 3]], axis=1)` is next to 1.5. -/
example [HasMinMax F64] {env : PyEnv F64} (he : env.Ok) {out : PyRes (RedOut F64 F64)} (h : exW95.Reduce env .prod (.one 1) false out) :
    ∃ r v, out = .ret (.dense r) ∧ r.shape = [1] ∧ r.data[0]? = some v ∧ v.IsFin ∧ |v.val - 3 / 2| ≤ 1 / 2 ^ 52 := by
  obtain ⟨r, e, hr⟩ := (f64_prod he (e := exW95) ⟨by decide, nofun⟩ (by decide +kernel) trivial (τ := .mat .csr 1 2) (by decide +kernel)
    (axis := .one 1) false axis_one (by simp)).2 out h
  have hsh : r.shape = [1] := hr.shape_eq
  obtain ⟨v, c, p⟩ := hr.cell [0] (by rw [hsh]; exact .cons ⟨by omega, by omega⟩ .nil)
  rw [hsh] at c
  have p : F64.RoundedProd [F64.ofRat (1 / 2), F64.ofRat 3] v := p
  obtain ⟨⟨f1, v1⟩, f2, v2⟩ := exNums
  obtain ⟨q1, θ, q2, q3, q4⟩ := p (by
    intro x hx
    simp only [List.mem_cons, List.not_mem_nil, or_false] at hx
    rcases hx with rfl | rfl
    exacts [f1, f2]) exW95_range
  simp only [List.length_cons, List.length_nil, Nat.zero_add, Nat.add_sub_cancel, pow_one, List.map_cons, List.map_nil, v1, v2,
    List.prod_cons, List.prod_nil] at q2 q3 q4
  refine ⟨r, v, e, hsh, c, q1, ?_⟩
  rw [q4, abs_le]
  constructor <;> norm_num at q2 q3 ⊢ <;> linarith

theorem exX64_fibre : fibre [1, 3] ((AxisArg.one 1).covers 2) false exX64.dense [0] = [F64.ofRat (2 ^ 1023), .nan, 0] := rfl

/-- `X = [[2^1023, NaN, 0]]`: `all(X, axis=1)` is false, `any(X, axis=1)` is true, `count_nonzero(X, axis=1)` is 2. -/
example [HasMinMax F64] {env : PyEnv F64} (he : env.Ok) :
    (∀ out, exX64.Logic env .all (.one 1) false out → ∃ r, out = .ret r ∧ r.data[0]? = some false) ∧
    (∀ out, exX64.Logic env .any (.one 1) false out → ∃ r, out = .ret r ∧ r.data[0]? = some true) ∧
    ∃ r, (∀ out, exX64.Count env (.one 1) false out ↔ out = .ret r) ∧ r.data[0]? = some 2 := by
  have hz : ∀ k ∈ exX64.stores, (k.2 == 0) = false := by
    show ∀ k ∈ [([(0 : Int), 0], F64.ofRat (2 ^ 1023)), ([0, 1], F64.nan)], (k.2 == 0) = false
    decide +kernel
  obtain ⟨h1, h2, h3, h4⟩ := exX64_ok
  refine ⟨fun out h => ?_, fun out h => ?_, ?_⟩
  · obtain ⟨r, e, hr⟩ := (f64_logic he h1 h2 h3 h4 .all (axis := .one 1) false axis_one (by simp)).2 out h
    have hsh : r.shape = [1] := hr.shape_eq
    obtain ⟨v, c, p⟩ := hr.cell [0] (by rw [hsh]; exact .cons ⟨by omega, by omega⟩ .nil)
    rw [hsh] at c
    have p : v = [F64.ofRat (2 ^ 1023), .nan, 0].all fun d : F64 => !(d == 0) := p
    exact ⟨r, e, c.trans (by rw [p]; decide +kernel)⟩
  · obtain ⟨r, e, hr⟩ := (f64_logic he h1 h2 h3 h4 .any (axis := .one 1) false axis_one (by simp)).2 out h
    have hsh : r.shape = [1] := hr.shape_eq
    obtain ⟨v, c, p⟩ := hr.cell [0] (by rw [hsh]; exact .cons ⟨by omega, by omega⟩ .nil)
    rw [hsh] at c
    have p : v = [F64.ofRat (2 ^ 1023), .nan, 0].any fun d : F64 => !(d == 0) := p
    exact ⟨r, e, c.trans (by rw [p]; decide +kernel)⟩
  · obtain ⟨r, e, hr⟩ := f64_count he h1 h2 h3 h4 hz (axis := .one 1) false axis_one (by simp)
    have hsh : r.shape = [1] := hr.shape_eq
    obtain ⟨v, c, p⟩ := hr.cell [0] (by rw [hsh]; exact .cons ⟨by omega, by omega⟩ .nil)
    rw [hsh] at c
    have p : v = (countNz [F64.ofRat (2 ^ 1023), .nan, (0 : F64)] : Int) := p
    exact ⟨r, e, c.trans (by rw [p]; decide +kernel)⟩

/-- `cumprod(X, axis=1)` is `[2^1023, NaN, 0]` or `[2^1023, NaN, NaN]`; NumPy has the latter. -/
example [HasMinMax F64] {env : PyEnv F64} (he : env.Ok) {out} (h : exX64.Scan env .prod (.one 1) out) :
    ∃ r, out = .ret r ∧ r.data.getD 0 0 = F64.ofRat (2 ^ 1023) ∧ r.data.getD 1 0 = .nan ∧ (r.data.getD 2 0 = .nan ∨ r.data.getD 2 0 = 0) := by
  obtain ⟨h1, h2, h3, h4⟩ := exX64_ok
  obtain ⟨r, e, n, m, hsh, -, -, hr⟩ := (f64_cumprod he h1 h2 h3 h4 (axis := .one 1) (rowwise := true) ⟨axis_one, by decide, by decide⟩
    (by decide) (by simp)).2 out h
  cases hsh
  have k0 : F64.RunningProd [F64.ofRat (2 ^ 1023)] (r.data.getD 0 0) := hr 0 0 (by decide) (by decide)
  have k1 : F64.RunningProd [F64.ofRat (2 ^ 1023), .nan] (r.data.getD 1 0) := hr 0 1 (by decide) (by decide)
  have k2 : F64.RunningProd [F64.ofRat (2 ^ 1023), .nan, 0] (r.data.getD 2 0) := hr 0 2 (by decide) (by decide)
  refine ⟨r, e, ?_, ?_, ?_⟩
  · rcases k0 with k | ⟨k, -⟩
    · exact same_at k (show 1 * F64.ofRat (2 ^ 1023) = F64.ofRat (2 ^ 1023) by decide +kernel) (by decide +kernel)
    · exact absurd k (by decide +kernel)
  · rcases k1 with k | ⟨k, k'⟩
    · exact same_at k (show 1 * F64.ofRat (2 ^ 1023) * .nan = .nan by decide +kernel) (by decide +kernel)
    · exact absurd k'.1 (by decide +kernel)
  · rcases k2 with k | ⟨-, -, k⟩
    · exact .inl (same_at k (show 1 * F64.ofRat (2 ^ 1023) * .nan * 0 = .nan by decide +kernel) (by decide +kernel))
    · exact .inr k

/-- `equal(X, X)` and `X <= [0]`: a `NaN` is not equal to itself nor smaller than anything. -/
example [HasMinMax F64] {env : PyEnv F64} (he : env.Ok) (numpy : CmpOp → DenseNd F64 → DenseNd F64 → PyRes (DenseNd Bool)) :
    (∀ out, Compare env numpy .eq (.prog exX64) (.prog exX64) out ↔ out = .ret ⟨[1, 3], [true, false, true]⟩) ∧
    ∀ out, Compare env numpy .le (.prog exX64) (.array ⟨[1], [.zero true]⟩) out ↔ out = .ret ⟨[1, 3], [false, false, true]⟩ := by
  obtain ⟨h1, h2, h3, h4⟩ := exX64_ok
  have hc : (CmpArg.prog exX64).check = .ok [1, 3] := by
    show exX64.check.map Ty.shape = _
    rw [h4]; rfl
  constructor
  · intro out
    rw [f64_compare he numpy .eq (x := .prog exX64) (y := .prog exX64) ⟨h1, h2, h3⟩ ⟨h1, h2, h3⟩ (.inl trivial) hc hc
      (u := [1, 3]) (by decide) out]
    have : (denseOf [1, 3] fun i => CmpOp.eq.run ((CmpArg.prog exX64).dense (bcastIndex [1, 3] i)) ((CmpArg.prog exX64).dense (bcastIndex [1, 3] i))) =
        ⟨[1, 3], [true, false, true]⟩ := by
      show (⟨[1, 3], [F64.ofRat (2 ^ 1023) == F64.ofRat (2 ^ 1023), F64.nan == F64.nan, (0 : F64) == 0]⟩ : DenseNd Bool) = _
      decide +kernel
    rw [this]
  · intro out
    rw [f64_compare he numpy .le (x := .prog exX64) (y := .array ⟨[1], [.zero true]⟩) ⟨h1, h2, h3⟩ rfl (.inl trivial) hc rfl
      (u := [1, 3]) (by decide) out]
    have : (denseOf [1, 3] fun i => CmpOp.le.run ((CmpArg.prog exX64).dense (bcastIndex [1, 3] i))
        ((CmpArg.array ⟨[1], [.zero true]⟩).dense (bcastIndex [1] i))) = ⟨[1, 3], [false, false, true]⟩ := by
      show (⟨[1, 3], [CmpOp.le.run (F64.ofRat (2 ^ 1023)) (.zero true), CmpOp.le.run F64.nan (.zero true), CmpOp.le.run (0 : F64) (.zero true)]⟩ : DenseNd Bool) = _
      decide +kernel
    rw [this]

end
end
end Lacuna
