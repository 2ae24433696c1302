import Verif.Lemmas.F64Int
/-
C89: with whole numbers up to `2 ^ 53` the library computes exactly.
-/
set_option linter.unusedSectionVars false

namespace Lacuna

open F64

section
variable [HasPowf F64]

/-- The conditions of `AsDense` hold, and the dense elements are the exact ones. -/
theorem int53_exact : ∀ {e : Prog F64}, e.Int53 → ∀ {τ : Ty}, e.check = .ok τ →
    (∃ f r c, τ = .mat f r c) ∧ e.AsDense ∧ (∀ x, InBounds τ.shape x → ((e.dense x).IsInt ∧ (e.dense x).val = e.exact x) ∧ |e.exact x| ≤ 2 ^ 53) := by
  intro e
  induction e with
  | mat f nrows ncols indptr indices data =>
    intro hd τ hc
    have hsh := Prog.shape_ok hc
    refine ⟨?_, trivial, fun x hx => ⟨⟨hd.1 x (by rw [hsh]; exact hx), rfl⟩, hd.2 x (by rw [hsh]; exact hx)⟩⟩
    unfold Prog.check at hc
    split at hc
    · cases hc; exact ⟨f, _, _, rfl⟩
    · cases hc
  | coo => intro hd; exact hd.elim
  | nd => intro hd; exact hd.elim
  | un op a ih =>
    intro hd τ hc
    obtain ⟨h1, h2, h3⟩ := ih hd (τ := τ) hc
    refine ⟨h1, h2, fun x hx => ?_⟩
    obtain ⟨⟨⟨k1, n, k2⟩, k3⟩, k4⟩ := h3 x hx
    cases op with
    | abs =>
      refine ⟨?_, by show |(|a.exact x|)| ≤ _; rw [abs_abs]; exact k4⟩
      obtain ⟨g1, g2⟩ := abs_val_fin k1
      exact ⟨⟨g1, |n|, by show (fabs (a.dense x)).val = _; rw [g2, k2]; push_cast; rfl⟩, by show (fabs (a.dense x)).val = |_|; rw [g2, k3]⟩
    | neg =>
      refine ⟨?_, by show |(-a.exact x)| ≤ _; rw [abs_neg]; exact k4⟩
      exact ⟨⟨neg_fin k1, -n, by show (-_ : F64).val = _; rw [neg_val, k2]; push_cast; rfl⟩, by show (-_ : F64).val = -_; rw [neg_val, k3]⟩
    | sign =>
      refine ⟨?_, by
        show |(if 0 < a.exact x then (1 : ℚ) else if a.exact x < 0 then -1 else 0)| ≤ _
        split
        · norm_num
        · split <;> norm_num⟩
      obtain ⟨g1, g2⟩ := signum_val_fin k1
      rw [k3] at g2
      refine ⟨⟨g1, if 0 < a.exact x then 1 else if a.exact x < 0 then -1 else 0, ?_⟩, g2⟩
      show (a.dense x).signum.val = _
      rw [g2]
      split
      · norm_num
      · split <;> norm_num
  | bin op a b iha ihb =>
    intro hd τ hc
    have hc' := hc
    have had : a.Int53 ∧ b.Int53 := by
      cases op with
      | add => exact ⟨hd.1, hd.2.1⟩
      | sub => exact ⟨hd.1, hd.2.1⟩
      | mul => exact ⟨hd.1, hd.2.1⟩
      | floordiv => exact ⟨hd.1, hd.2.1⟩
      | rem => exact ⟨hd.1, hd.2.1⟩
      | _ => exact hd.elim
    have hc : (a.check.bind fun t => b.check.bind fun u => Ty.bin op t u) = .ok τ := hc
    cases ha : a.check with
    | error x => rw [ha] at hc; cases hc
    | ok t =>
      cases hb : b.check with
      | error x => rw [ha, hb] at hc; cases hc
      | ok u =>
        rw [ha, hb] at hc
        obtain ⟨⟨f, r, c, rfl⟩, a2, a3⟩ := iha had.1 ha
        obtain ⟨⟨g, r', c', rfl⟩, b2, b3⟩ := ihb had.2 hb
        have hc : (if f ≠ g then Except.error PyErr.notImplemented
          else if r = r' ∧ c = c' then .ok (.mat f r c) else .error .panic) = .ok τ := hc
        by_cases hfg : f ≠ g
        · rw [if_pos hfg] at hc; cases hc
        rw [if_neg hfg] at hc
        by_cases hrc : r = r' ∧ c = c'
        · rw [if_pos hrc] at hc
          have hτ : Ty.mat f r c = τ := Except.ok.inj hc
          subst hτ
          obtain ⟨rfl, rfl⟩ := hrc
          have hsh : (Prog.bin op a b).shape = [r, c] := Prog.shape_ok hc'
          have hsa : a.shape = [r, c] := Prog.shape_ok ha
          refine ⟨⟨f, r, c, rfl⟩, ?_, fun x hx => ?_⟩
          · cases op with
            | add => exact ⟨a2, b2⟩
            | sub => exact ⟨a2, b2⟩
            | mul => exact ⟨a2, b2, fun x hx => ⟨(a3 x (by rw [hsa] at hx; exact hx)).1.1.1, (b3 x (by rw [hsa] at hx; exact hx)).1.1.1⟩⟩
            | floordiv => exact ⟨a2, b2⟩
            | rem => exact ⟨a2, b2⟩
            | _ => exact hd.elim
          · obtain ⟨⟨p1, p2⟩, p3⟩ := a3 x hx
            obtain ⟨⟨q1, q2⟩, q3⟩ := b3 x hx
            have hxs : InBounds (Prog.bin op a b).shape x := by rw [hsh]; exact hx
            have hxa : InBounds a.shape x := by rw [hsa]; exact hx
            cases op with
            | add =>
              have hw : |a.exact x + b.exact x| ≤ 2 ^ 53 := hd.2.2 x hxs
              refine ⟨?_, hw⟩
              rw [← p2, ← q2] at hw
              have := int_add p1 q1 hw
              rw [p2, q2] at this
              exact this
            | sub =>
              have hw : |a.exact x - b.exact x| ≤ 2 ^ 53 := hd.2.2 x hxs
              refine ⟨?_, hw⟩
              rw [← p2, ← q2] at hw
              have := int_sub p1 q1 hw
              rw [p2, q2] at this
              exact this
            | mul =>
              have hw : |a.exact x * b.exact x| ≤ 2 ^ 53 := hd.2.2 x hxs
              refine ⟨?_, hw⟩
              rw [← p2, ← q2] at hw
              have := int_mul p1 q1 hw
              rw [p2, q2] at this
              exact this
            | floordiv =>
              have hw : |a.exact x| < 2 ^ 53 := hd.2.2 x hxa
              have := (int_quot p1 q1).1 (by rw [p2]; exact hw) (by rw [q2]; exact q3)
              rw [p2, q2] at this
              refine ⟨this, ?_⟩
              show |(if b.exact x = 0 then 0 else ((⌊a.exact x / b.exact x⌋ : ℤ) : ℚ))| ≤ _
              split
              · norm_num
              · rename_i h0
                obtain ⟨-, n, hn⟩ := p1
                obtain ⟨-, m, hm⟩ := q1
                rw [p2] at hn
                rw [q2] at hm
                exact le_trans (floordiv_le hn hm h0) p3
            | rem =>
              have hw : |a.exact x| + |b.exact x| ≤ 2 ^ 53 := hd.2.2 x hxa
              have := (int_quot p1 q1).2 (by rw [p2, q2]; exact hw)
              rw [p2, q2] at this
              refine ⟨this, ?_⟩
              show |(if b.exact x = 0 then 0 else a.exact x - b.exact x * ⌊a.exact x / b.exact x⌋)| ≤ _
              split
              · norm_num
              · rename_i h0
                exact le_trans (rem_le h0) q3
            | _ => exact hd.elim
        · rw [if_neg hrc] at hc; cases hc
  | scalar op a alpha ih =>
    intro hd τ hc
    have hc' := hc
    cases op with
    | mul =>
      have hc : (a.check.bind fun t => Ty.scalar .mul (alpha == 0) t) = .ok τ := hc
      cases ha : a.check with
      | error x => rw [ha] at hc; cases hc
      | ok t =>
        rw [ha] at hc
        have hc : Ty.scalar .mul (alpha == 0) t = .ok τ := hc
        obtain ⟨⟨f, r, c, rfl⟩, a2, a3⟩ := ih hd.1 ha
        cases hc
        have hsa : a.shape = [r, c] := Prog.shape_ok ha
        refine ⟨⟨f, r, c, rfl⟩, ⟨a2, hd.2.1.1, fun _ x hx => (a3 x (by rw [hsa] at hx; exact hx)).1.1.1⟩, fun x hx => ?_⟩
        have hw : |a.exact x * alpha.val| ≤ 2 ^ 53 := hd.2.2 x (by rw [Prog.shape_ok hc']; exact hx)
        obtain ⟨⟨p1, p2⟩, -⟩ := a3 x hx
        refine ⟨?_, hw⟩
        rw [← p2] at hw
        have := int_mul p1 hd.2.1 hw
        rw [p2] at this
        exact this
    | floordiv =>
      have hc : (a.check.bind fun t => Ty.scalar .floordiv (alpha == 0) t) = .ok τ := hc
      cases ha : a.check with
      | error x => rw [ha] at hc; cases hc
      | ok t =>
        rw [ha] at hc
        obtain ⟨⟨f, r, c, rfl⟩, a2, a3⟩ := ih hd.1 ha
        have hc : (if (alpha == 0) = true then Except.error PyErr.zeroDivision else .ok (Ty.mat f r c)) = .ok τ := hc
        cases h0 : (alpha == 0) <;> rw [h0] at hc <;> cases hc
        have hsa : a.shape = [r, c] := Prog.shape_ok ha
        have hv := val_ne hd.2.1.1 h0
        refine ⟨⟨f, r, c, rfl⟩, ⟨a2, int_not_nan hd.2.1.1⟩, fun x hx => ?_⟩
        have hw : |a.exact x| < 2 ^ 53 := hd.2.2.2 x (by rw [hsa]; exact hx)
        obtain ⟨⟨p1, p2⟩, p3⟩ := a3 x hx
        have := floordiv_int p1 hd.2.1 hv (by rw [p2]; exact hw) hd.2.2.1
        rw [p2] at this
        refine ⟨this, ?_⟩
        obtain ⟨-, n, hn⟩ := p1
        obtain ⟨-, m, hm⟩ := hd.2.1
        rw [p2] at hn
        exact le_trans (floordiv_le hn hm hv) p3
    | rem =>
      have hc : (a.check.bind fun t => Ty.scalar .rem (alpha == 0) t) = .ok τ := hc
      cases ha : a.check with
      | error x => rw [ha] at hc; cases hc
      | ok t =>
        rw [ha] at hc
        obtain ⟨⟨f, r, c, rfl⟩, a2, a3⟩ := ih hd.1 ha
        have hc : (if (alpha == 0) = true then Except.error PyErr.zeroDivision else .ok (Ty.mat f r c)) = .ok τ := hc
        cases h0 : (alpha == 0) <;> rw [h0] at hc <;> cases hc
        have hsa : a.shape = [r, c] := Prog.shape_ok ha
        have hv := val_ne hd.2.1.1 h0
        refine ⟨⟨f, r, c, rfl⟩, ⟨a2, hd.2.1.1⟩, fun x hx => ?_⟩
        have hw : |a.exact x| + |alpha.val| ≤ 2 ^ 53 := hd.2.2.2 x (by rw [hsa]; exact hx)
        obtain ⟨⟨p1, p2⟩, p3⟩ := a3 x hx
        have := rem_int p1 hd.2.1 hv (by rw [p2]; exact hw)
        rw [p2] at this
        exact ⟨this, le_trans (rem_le hv) hd.2.2.1⟩
    | _ => exact hd.elim
  | left op alpha a ih =>
    intro hd τ hc
    have hc' := hc
    cases op with
    | mul =>
      have hc : (a.check.bind fun t => Ty.left .mul t) = .ok τ := hc
      cases ha : a.check with
      | error x => rw [ha] at hc; cases hc
      | ok t =>
        rw [ha] at hc
        have hc : Ty.left .mul t = .ok τ := hc
        obtain ⟨⟨f, r, c, rfl⟩, a2, a3⟩ := ih hd.1 ha
        cases hc
        have hsa : a.shape = [r, c] := Prog.shape_ok ha
        refine ⟨⟨f, r, c, rfl⟩, ⟨a2, hd.2.1.1, fun _ x hx => (a3 x (by rw [hsa] at hx; exact hx)).1.1.1⟩, fun x hx => ?_⟩
        have hw : |alpha.val * a.exact x| ≤ 2 ^ 53 := hd.2.2 x (by rw [Prog.shape_ok hc']; exact hx)
        obtain ⟨⟨p1, p2⟩, -⟩ := a3 x hx
        refine ⟨?_, hw⟩
        rw [← p2] at hw
        have := int_mul hd.2.1 p1 hw
        rw [p2] at this
        exact this
    | _ => exact hd.elim
  | T a ih =>
    intro hd τ hc
    have hc : (a.check.bind fun t => Ty.T t) = .ok τ := hc
    cases ha : a.check with
    | error x => rw [ha] at hc; cases hc
    | ok t =>
      rw [ha] at hc
      obtain ⟨⟨f, r, c, rfl⟩, a2, a3⟩ := ih hd ha
      cases hc
      exact ⟨⟨f, c, r, rfl⟩, a2, fun x hx => a3 _ (inBounds_reverse hx)⟩
  | prune eps a ih =>
    intro hd τ hc
    have hc : a.check = .ok τ := check_pruned hc
    obtain ⟨h1, h2, h3⟩ := ih hd.1 hc
    have hsa := Prog.shape_ok hc
    refine ⟨h1, ⟨h2, fun x hx => int_not_nan (h3 x (by rw [← hsa]; exact hx)).1.1.1⟩, fun x hx => ?_⟩
    obtain ⟨⟨p1, p2⟩, p3⟩ := h3 x hx
    obtain ⟨g1, g2⟩ := abs_val_fin p1.1
    rw [p2] at g2
    have e : (flt eps 0 || flt eps (fabs (a.dense x))) = decide (eps.val < |a.exact x|) := by
      rw [lt_val hd.2 (y := 0) trivial, lt_val hd.2 g1, g2, ← Bool.decide_or, decide_eq_decide]
      exact ⟨fun h => h.elim (fun h => lt_of_lt_of_le h (abs_nonneg _)) id, .inr⟩
    show ((if (flt eps 0 || flt eps (fabs (a.dense x))) = true then a.dense x else 0).IsInt ∧
      (if (flt eps 0 || flt eps (fabs (a.dense x))) = true then a.dense x else 0).val = if eps.val < |a.exact x| then a.exact x else 0) ∧
      |(if eps.val < |a.exact x| then a.exact x else 0)| ≤ 2 ^ 53
    rw [e]
    by_cases h : eps.val < |a.exact x|
    · rw [if_pos h, if_pos (decide_eq_true h)]
      exact ⟨⟨p1, p2⟩, p3⟩
    · rw [if_neg h, if_neg (by simpa using h)]
      exact ⟨⟨int_zero, rfl⟩, by norm_num⟩
  | elimZeros a ih =>
    intro hd τ hc
    have hc : a.check = .ok τ := check_pruned hc
    obtain ⟨h1, h2, h3⟩ := ih hd hc
    have hsa := Prog.shape_ok hc
    exact ⟨h1, ⟨h2, fun x hx => int_not_nan (h3 x (by rw [← hsa]; exact hx)).1.1.1⟩, h3⟩
  | ndop => intro hd; exact hd.elim
  | mode => intro hd; exact hd.elim

/-- C89: programs over whole numbers up to `2 ^ 53` are exact: the elements of `program.toarray()` are the
rational numbers that the operations stand for, on every machine. -/
theorem int_toarray {env : PyEnv F64} (he : env.Ok) {e : Prog F64} (hl : e.LitsOk) (hs : e.Small) (hi : e.Int53) {τ : Ty}
    (hc : e.check = .ok τ) : ∃ f r c d, τ = .mat f r c ∧ (∀ out, e.Toarray env out ↔ out = .ret d) ∧
      d.shape = [r, c] ∧ d.data.length = r * c ∧ ∀ x, InBounds [r, c] x → (d.elem x).IsFin ∧ (d.elem x).val = e.exact x := by
  obtain ⟨-, hd, hx⟩ := int53_exact hi hc
  obtain ⟨f, r, c, d, rfl, h1, h2, h3, h4⟩ := f64_toarray he hl hs hd hc
  refine ⟨f, r, c, d, rfl, h1, h2, h3, fun x hxb => ?_⟩
  obtain ⟨⟨k1, k2⟩, -⟩ := hx x hxb
  have h := h4 x hxb
  exact ⟨same_fin h k1.1, by rw [same_val h, k2]⟩

variable [HasMinMax F64]

theorem heldAs_int {α : Type} {x : α} {held : α → List F64} {dense : α → F64} (h : HeldAs (held x) (dense x)) (hf : (dense x).IsInt)
    {a : F64} (ha : a ∈ held x) : a.IsInt := by
  rcases h with ⟨e, -⟩ | ⟨v, e, hv⟩
  · rw [e] at ha; cases ha
  · rw [e] at ha
    rw [List.mem_singleton.1 ha]
    exact int_same hv hf

/-- C89: sums of whole numbers are exact, whatever the machine and the schedule. -/
theorem int_sum {env : PyEnv F64} (he : env.Ok) {e : Prog F64} (hl : e.LitsOk) (hs : e.Small) (hd : e.AsDense) {τ : Ty}
    (hc : e.check = .ok τ) {axis : AxisArg} (keep : Bool) (ha : axis.Valid 2) (hne : axis ≠ .many [])
    {out : PyRes (RedOut F64 F64)} (h : e.Reduce env .sum axis keep out) :
    ∃ r, out = .ret (.dense r) ∧ IsReduction τ.shape (axis.covers 2) keep F64.ExactSum e.dense r := by
  obtain ⟨f, r, c, rfl, -, hh⟩ := f64_held he hl hs hd hc
  obtain ⟨r, e1, hr⟩ := (prog_reduce_any he hl hs hd.determined hc trivial (op := .sum) keep ha hne nofun).2 out h
  refine ⟨r, e1, hr.shape_eq, hr.size, fun y hy => ?_⟩
  obtain ⟨v, h1, h2⟩ := hr.cell y hy
  refine ⟨v, h1, ?_⟩
  obtain ⟨xs, hxs, hfib⟩ := fibre_map (Ty.mat f _ _).shape (axis.covers 2) keep y
  rw [hfib] at h2 ⊢
  have hh : ∀ x ∈ xs, HeldAs (valuesAt e.stores x) (e.dense x) := fun x hx => hh x (hxs x hx)
  intro hi hb
  have h2 : AddTree (((xs.map fun x => valuesAt e.stores x).flatten : List F64) : Multiset F64) v := h2
  have s1 := heldAs_sum xs hh (fun _ a => a.val) (fun _ a b h => same_val h) (fun _ => rfl)
  have s2 := heldAs_sum xs hh (fun _ a => |a.val|) (fun _ a b h => by rw [same_val h]) (fun _ => abs_zero)
  have := addTree_int h2 (fun a ha => by
    obtain ⟨l, hl, ha⟩ := List.mem_flatten.1 (Multiset.mem_coe.1 ha)
    obtain ⟨x, hx, rfl⟩ := List.mem_map.1 hl
    exact heldAs_int (hh x hx) (hi _ (List.mem_map_of_mem hx)) ha) (by
      rw [Multiset.map_coe, Multiset.sum_coe, List.map_flatten, List.map_map]
      rw [List.map_map] at hb
      refine le_trans (le_of_eq ?_) hb
      exact s2)
  refine ⟨this.1.1, ?_⟩
  rw [this.2, Multiset.map_coe, Multiset.sum_coe, List.map_flatten, List.map_map, List.map_map]
  exact s1

theorem prod_map_ge_one (s : Multiset F64) : 1 ≤ (s.map fun x => max 1 |x.val|).prod := by
  induction s using Multiset.induction_on with
  | empty => simp
  | cons a s ih =>
    rw [Multiset.map_cons, Multiset.prod_cons]
    exact one_le_mul_of_one_le_of_one_le (le_max_left _ _) ih

theorem prod_abs_le (s : Multiset F64) : |(s.map val).prod| ≤ (s.map fun x => max 1 |x.val|).prod := by
  induction s using Multiset.induction_on with
  | empty => simp
  | cons a s ih =>
    rw [Multiset.map_cons, Multiset.map_cons, Multiset.prod_cons, Multiset.prod_cons, abs_mul]
    exact mul_le_mul (le_max_right _ _) ih (abs_nonneg _) (le_trans zero_le_one (le_max_left _ _))

/-- Multiplying whole numbers in any order and grouping is exact. -/
theorem mulTree_int {s : Multiset F64} {v : F64} (h : JoinTree (fun a b c : F64 => c = a * b) 1 s v) :
    (∀ x ∈ s, x.IsInt) → (s.map fun x => max 1 |x.val|).prod ≤ 2 ^ 53 → v.IsInt ∧ v.val = (s.map val).prod := by
  have o : (1 : F64).IsFin ∧ (1 : F64).val = 1 := F64.ofRat_rep F64.rep_one
  induction h with
  | unit => intro _ _; exact ⟨⟨o.1, 1, by rw [o.2]; norm_num⟩, o.2⟩
  | leaf x => intro hx _; exact ⟨hx x (Multiset.mem_singleton_self x), by simp⟩
  | @node s t a b c _ _ e iha ihb =>
    intro hx hb
    subst e
    rw [Multiset.map_add, Multiset.prod_add] at hb
    have hs := prod_map_ge_one s
    have ht := prod_map_ge_one t
    obtain ⟨a1, a2⟩ := iha (fun x h => hx x (Multiset.mem_add.2 (.inl h)))
      (le_trans (le_mul_of_one_le_right (le_trans zero_le_one hs) ht) hb)
    obtain ⟨b1, b2⟩ := ihb (fun x h => hx x (Multiset.mem_add.2 (.inr h)))
      (le_trans (le_mul_of_one_le_left (le_trans zero_le_one ht) hs) hb)
    have := int_mul a1 b1 (by
      rw [a2, b2, abs_mul]
      exact le_trans (mul_le_mul (prod_abs_le s) (prod_abs_le t) (abs_nonneg _) (le_trans zero_le_one hs)) hb)
    refine ⟨this.1, ?_⟩
    rw [this.2, a2, b2, Multiset.map_add, Multiset.prod_add]

/-- The product over the stored numbers if every cell holds one, and a zero among the elements otherwise. -/
theorem heldAs_prod {α : Type} (xs : List α) {held : α → List F64} {dense : α → F64} (h : ∀ x ∈ xs, HeldAs (held x) (dense x)) :
    if (xs.map held).flatten.length < xs.length then ((xs.map dense).map val).prod = 0
    else (∀ g : F64 → ℚ, (∀ a b, SameNum a b → g a = g b) → ((xs.map held).flatten.map g).prod = ((xs.map dense).map g).prod) := by
  have hlen : ∀ xs : List α, (∀ x ∈ xs, HeldAs (held x) (dense x)) → (xs.map held).flatten.length ≤ xs.length := by
    intro xs h
    induction xs with
    | nil => exact Nat.le_refl _
    | cons x xs ih =>
      rw [List.map_cons, List.flatten_cons, List.length_append, List.length_cons]
      have := ih fun y hy => h y (List.mem_cons_of_mem _ hy)
      rcases h x List.mem_cons_self with ⟨e1, e2⟩ | ⟨v, e1, e2⟩ <;> rw [e1] <;> simp only [List.length_nil, List.length_singleton] <;> omega
  induction xs with
  | nil => rw [if_neg (by simp)]; intro g _; rfl
  | cons x xs ih =>
    have ih := ih fun y hy => h y (List.mem_cons_of_mem _ hy)
    have hl := hlen xs fun y hy => h y (List.mem_cons_of_mem _ hy)
    rw [List.map_cons, List.flatten_cons, List.length_append, List.length_cons]
    rcases h x List.mem_cons_self with ⟨e1, e2⟩ | ⟨v, e1, e2⟩
    · rw [e1, if_pos (by simp only [List.length_nil]; omega), List.map_cons, List.map_cons, List.prod_cons, val_of_eq_zero _ e2, zero_mul]
    · rw [e1]
      simp only [List.length_singleton]
      by_cases hlt : (xs.map held).flatten.length < xs.length
      · rw [if_pos (by omega)]
        rw [if_pos hlt] at ih
        rw [List.map_cons, List.map_cons, List.prod_cons, ih, mul_zero]
      · rw [if_neg (by omega)]
        rw [if_neg hlt] at ih
        intro g hg
        rw [List.singleton_append, List.map_cons, List.prod_cons, ih g hg, hg _ _ e2, List.map_cons, List.map_cons, List.prod_cons]

/-- C89: products of whole numbers are exact, whatever the machine and the schedule. -/
theorem int_prod {env : PyEnv F64} (he : env.Ok) {e : Prog F64} (hl : e.LitsOk) (hs : e.Small) (hd : e.AsDense) {τ : Ty}
    (hc : e.check = .ok τ) {axis : AxisArg} (keep : Bool) (ha : axis.Valid 2) (hne : axis ≠ .many [])
    {out : PyRes (RedOut F64 F64)} (h : e.Reduce env .prod axis keep out) :
    ∃ r, out = .ret (.dense r) ∧ IsReduction τ.shape (axis.covers 2) keep F64.ExactProd e.dense r := by
  obtain ⟨f, r, c, rfl, -, hh⟩ := f64_held he hl hs hd hc
  obtain ⟨r, e1, hr⟩ := (prog_reduce_any he hl hs hd.determined hc trivial (op := .prod) keep ha hne nofun).2 out h
  refine ⟨r, e1, hr.shape_eq, hr.size, fun y hy => ?_⟩
  obtain ⟨v, h1, h2⟩ := hr.cell y hy
  refine ⟨v, h1, ?_⟩
  obtain ⟨xs, hxs, hfib⟩ := fibre_map (Ty.mat f _ _).shape (axis.covers 2) keep y
  rw [hfib] at h2 ⊢
  have hh : ∀ x ∈ xs, HeldAs (valuesAt e.stores x) (e.dense x) := fun x hx => hh x (hxs x hx)
  intro hi hb
  have h2 : if (((xs.map fun x => valuesAt e.stores x).flatten : List F64) : Multiset F64).card < (xs.map fun x => valuesAt e.stores x).length
    then v = 0 else JoinTree (fun a b c : F64 => c = a * b) 1 (((xs.map fun x => valuesAt e.stores x).flatten : List F64) : Multiset F64) v := h2
  have hp := heldAs_prod xs hh
  rw [Multiset.coe_card, List.length_map] at h2
  by_cases hlt : (xs.map fun x => valuesAt e.stores x).flatten.length < xs.length
  · rw [if_pos hlt] at h2 hp
    rw [h2, hp]
    exact ⟨trivial, rfl⟩
  · rw [if_neg hlt] at h2 hp
    have := mulTree_int h2 (fun a ha => by
      obtain ⟨l, hl, ha⟩ := List.mem_flatten.1 (Multiset.mem_coe.1 ha)
      obtain ⟨x, hx, rfl⟩ := List.mem_map.1 hl
      exact heldAs_int (hh x hx) (hi _ (List.mem_map_of_mem hx)) ha) (by
        rw [Multiset.map_coe, Multiset.prod_coe, hp _ fun a b h => by rw [same_val h]]
        exact hb)
    refine ⟨this.1.1, ?_⟩
    rw [this.2, Multiset.map_coe, Multiset.prod_coe, hp _ fun a b h => same_val h]

theorem foldl_int (l : List F64) {s : F64} (hs : s.IsInt) (hl : ∀ x ∈ l, x.IsInt) (hb : |s.val| + (l.map fun x => |x.val|).sum ≤ 2 ^ 53) :
    (l.foldl (· + ·) s).IsInt ∧ (l.foldl (· + ·) s).val = s.val + (l.map val).sum := by
  induction l generalizing s with
  | nil => exact ⟨hs, by simp⟩
  | cons a l ih =>
    rw [List.map_cons, List.sum_cons] at hb
    have h0 : 0 ≤ (l.map fun x => |x.val|).sum := sum_abs_nonneg (l : Multiset F64)
    have k := int_add hs (hl a List.mem_cons_self) (le_trans (abs_add_le _ _) (by linarith))
    have := ih k.1 (fun x hx => hl x (List.mem_cons_of_mem _ hx)) (by
      rw [k.2]
      have := abs_add_le s.val a.val
      linarith)
    rw [List.foldl_cons, List.map_cons, List.sum_cons]
    refine ⟨this.1, ?_⟩
    rw [this.2, k.2]
    ring

/-- C89: cumulative sums of whole numbers are exact. -/
theorem int_cumsum {env : PyEnv F64} (he : env.Ok) {e : Prog F64} (hl : e.LitsOk) (hs : e.Small) (hd : e.AsDense) {τ : Ty}
    (hc : e.check = .ok τ) {axis : AxisArg} {rowwise : Bool} (ha : axis.Single rowwise)
    (hsz : 8 * (τ.shape.prod : Int) ≤ i64Max) (hcsc : rowwise = true → ∀ r c, τ ≠ .mat .csc r c) {out : PyRes (NdArr F64)}
    (h : e.Scan env .sum axis out) : ∃ r, out = .ret r ∧ IsScanBy F64.ExactSum rowwise τ.shape e.dense r := by
  obtain ⟨r, e1, n, m, h1, h2, h3, h4⟩ := (f64_cumsum he hl hs hd hc ha hsz hcsc).2 out h
  refine ⟨r, e1, n, m, h1, h2, h3, fun i j hi hj hx hb => ?_⟩
  have k := h4 i j hi hj
  have := foldl_int (upTo rowwise e.dense i j) int_zero hx (by rw [show (0 : F64).val = 0 from rfl, abs_zero, zero_add]; exact hb)
  rw [show (0 : F64).val = 0 from rfl, zero_add] at this
  exact ⟨same_fin k this.1.1, by rw [same_val k, this.2]⟩

theorem diffN_int (n : Nat) : ∀ {f : Nat → F64} {g : Nat → ℚ} {j : Nat} {B : ℚ}, (∀ k, k ≤ j + n → (f k).IsInt ∧ (f k).val = g k ∧ |g k| ≤ B) →
    B * 2 ^ n ≤ 2 ^ 53 → (diffN n f j).IsInt ∧ (diffN n f j).val = diffN n g j := by
  induction n with
  | zero => intro f g j B h _; exact ⟨(h j (Nat.le_refl _)).1, (h j (Nat.le_refl _)).2.1⟩
  | succ n ih =>
    intro f g j B h hB
    have hB0 : 0 ≤ B := le_trans (abs_nonneg _) (h j (by omega)).2.2
    refine ih (f := fun j => f (j + 1) - f j) (g := fun j => g (j + 1) - g j) (B := B * 2) (fun k hk => ?_) (by
      rw [pow_succ] at hB; linarith)
    obtain ⟨a1, a2, a3⟩ := h (k + 1) (by omega)
    obtain ⟨b1, b2, b3⟩ := h k (by omega)
    have hle : |g (k + 1) - g k| ≤ B * 2 := by
      rw [abs_le] at a3 b3 ⊢
      constructor <;> linarith [a3.1, a3.2, b3.1, b3.2]
    have h1 : (1 : ℚ) ≤ 2 ^ n := one_le_pow₀ (by norm_num)
    have h2 : B * 2 ≤ 2 ^ 53 := by
      rw [pow_succ] at hB
      have := mul_le_mul_of_nonneg_left h1 (show (0 : ℚ) ≤ B * 2 by linarith)
      linarith
    have := int_sub a1 b1 (by rw [a2, b2]; exact le_trans hle h2)
    exact ⟨this.1, by rw [this.2, a2, b2], hle⟩

/-- C89: differences of whole numbers are exact: `diff` of order `n` if the elements are at most `2 ^ (53 - n)`
in absolute value. -/
theorem int_diff {env : PyEnv F64} (he : env.Ok) {e : Prog F64} (hl : e.LitsOk) (hs : e.Small) (hd : e.AsDense) {τ : Ty}
    (hc : e.check = .ok τ) {axis : Int} {rowwise : Bool} (hx : if rowwise then axis = 1 ∨ axis = -1 else axis = 0 ∨ axis = -2)
    {n : Nat} (hn : n ≤ usizeMax) (hsz : 32 * (τ.shape.prod : Int) ≤ i64Max) {B : ℚ} (hB : B * 2 ^ n ≤ 2 ^ 53)
    (hi : ∀ x, InBounds τ.shape x → (e.dense x).IsInt ∧ |(e.dense x).val| ≤ B) {out : PyRes (PyObj F64)} (h : e.Diff env n axis out) :
    ∃ w : SpVal F64, out = .ret w.obj ∧ w.ty = τ.diff rowwise n ∧
      ∀ x, InBounds w.ty.shape x → ((w.held x).head?.getD 0).IsFin ∧
        ((w.held x).head?.getD 0).val = diffCells rowwise n (fun x => (e.dense x).val) x := by
  obtain ⟨f, r, c, rfl, -, -⟩ := f64_held he hl hs hd hc
  obtain ⟨w, e1, ht, hw⟩ := (f64_diff he hl hs hd hc hx hn hsz).2 out h
  refine ⟨w, e1, ht, fun x hxb => ?_⟩
  have k := hw x hxb
  rw [ht] at hxb
  have : (diffCells rowwise n e.dense x).IsInt ∧ (diffCells rowwise n e.dense x).val = diffCells rowwise n (fun x => (e.dense x).val) x := by
    cases rowwise
    · have hxb : InBounds [r - n, c] x := hxb
      obtain ⟨i, j, h1, h2, rfl⟩ := inBounds_two hxb
      refine diffN_int n (B := B) (fun k hk => ?_) hB
      have := hi [(k : Int), (j : Int)] (.cons ⟨by omega, by omega⟩ (.cons ⟨by omega, by omega⟩ .nil))
      exact ⟨this.1, rfl, this.2⟩
    · have hxb : InBounds [r, c - n] x := hxb
      obtain ⟨i, j, h1, h2, rfl⟩ := inBounds_two hxb
      refine diffN_int n (B := B) (fun k hk => ?_) hB
      have := hi [(i : Int), (k : Int)] (.cons ⟨by omega, by omega⟩ (.cons ⟨by omega, by omega⟩ .nil))
      exact ⟨this.1, rfl, this.2⟩
  exact ⟨same_fin k this.1.1, by rw [same_val k, this.2]⟩

/-! ### products with dense arrays -/

theorem dot_tree_int {l : List (F64 × F64)} {v : F64} (h : DotTree l v) (hi : ∀ q ∈ l, q.1.IsInt ∧ q.2.IsInt)
    (hb : (l.map fun q => |q.1.val * q.2.val|).sum ≤ 2 ^ 53) : v.IsInt ∧ v.val = (l.map fun q => q.1.val * q.2.val).sum := by
  have hm : ∀ q ∈ l, (q.1 * q.2).IsInt ∧ (q.1 * q.2).val = q.1.val * q.2.val := fun q hq =>
    int_mul (hi q hq).1 (hi q hq).2 (le_trans (List.single_le_sum (fun x hx => by
      obtain ⟨p, -, rfl⟩ := List.mem_map.1 hx; exact abs_nonneg _) _ (List.mem_map.2 ⟨q, hq, rfl⟩)) hb)
  have e : ∀ g : ℚ → ℚ, ((l.map fun q => q.1 * q.2).map fun x => g x.val) = l.map fun q => g (q.1.val * q.2.val) := by
    intro g
    rw [List.map_map]
    apply List.map_congr_left
    intro q hq
    show g (q.1 * q.2).val = _
    rw [(hm q hq).2]
  have := addTree_int h (fun x hx => by
    obtain ⟨q, hq, rfl⟩ := List.mem_map.1 (Multiset.mem_coe.1 hx)
    exact (hm q hq).1) (by rw [Multiset.map_coe, Multiset.sum_coe, e (fun x => |x|)]; exact hb)
  rw [Multiset.map_coe, Multiset.sum_coe] at this
  exact ⟨this.1, by rw [this.2, ← e fun x => x]⟩

theorem fma_fold_int (l : List (F64 × F64)) {s : F64} (hs : s.IsInt) (hi : ∀ q ∈ l, q.1.IsInt ∧ q.2.IsInt)
    (hb : |s.val| + (l.map fun q => |q.1.val * q.2.val|).sum ≤ 2 ^ 53) :
    (l.foldl (fun s q => mulAdd q.1 q.2 s) s).IsInt ∧
      (l.foldl (fun s q => mulAdd q.1 q.2 s) s).val = s.val + (l.map fun q => q.1.val * q.2.val).sum := by
  induction l generalizing s with
  | nil => exact ⟨hs, by simp⟩
  | cons a l ih =>
    rw [List.map_cons, List.sum_cons] at hb
    have h0 : 0 ≤ (l.map fun q => |q.1.val * q.2.val|).sum := List.sum_nonneg fun x hx => by
      obtain ⟨p, -, rfl⟩ := List.mem_map.1 hx; exact abs_nonneg _
    have hle := abs_add_le (a.1.val * a.2.val) s.val
    have k := int_fma (hi a List.mem_cons_self).1 (hi a List.mem_cons_self).2 hs (by linarith)
    have := ih k.1 (fun x hx => hi x (List.mem_cons_of_mem _ hx)) (by rw [k.2]; linarith)
    rw [List.foldl_cons, List.map_cons, List.sum_cons]
    refine ⟨this.1, ?_⟩
    rw [this.2, k.2]
    ring

theorem dotCell_int {τ : Ty} {ndim : Nat} {tr : Bool} {l : List (F64 × F64)} {v : F64} (h : DotCell τ ndim tr l v) :
    F64.ExactDot l v := by
  intro hi hb
  have tree : DotTree l v → v.IsFin ∧ v.val = (l.map fun q => q.1.val * q.2.val).sum := fun h =>
    ⟨(dot_tree_int h hi hb).1.1, (dot_tree_int h hi hb).2⟩
  have fma : v = fmaFold l → v.IsFin ∧ v.val = (l.map fun q => q.1.val * q.2.val).sum := fun h => by
    have := fma_fold_int l int_zero hi (by rw [show (0 : F64).val = 0 from rfl, abs_zero, zero_add]; exact hb)
    rw [show (0 : F64).val = 0 from rfl, zero_add] at this
    rw [h]
    exact ⟨this.1.1, this.2⟩
  have drop : ∀ (g : ℚ → ℚ), g 0 = 0 → ((l.filter fun q => !(q.2 == 0)).map fun q => g (q.1.val * q.2.val)).sum =
      (l.map fun q => g (q.1.val * q.2.val)).sum := by
    intro g hg
    clear tree fma hi hb h
    induction l with
    | nil => rfl
    | cons a l ih =>
      rw [List.map_cons, List.sum_cons, List.filter_cons]
      cases h0 : a.2 == 0 with
      | true => rw [if_neg (by simp), ih, val_of_eq_zero _ h0, mul_zero, hg, zero_add]
      | false => rw [if_pos (by simp), List.map_cons, List.sum_cons, ih]
  have skip : DotTree (l.filter fun q => !(q.2 == 0)) v → v.IsFin ∧ v.val = (l.map fun q => q.1.val * q.2.val).sum := fun h => by
    have := dot_tree_int h (fun q hq => hi q (List.mem_filter.1 hq).1) (by rw [drop (fun x => |x|) abs_zero]; exact hb)
    exact ⟨this.1.1, by rw [this.2]; exact drop (fun x => x) rfl⟩
  unfold DotCell at h
  by_cases hn : 2 ≤ ndim
  · rw [if_pos hn] at h
    exact tree (h ▸ dotFold_tree l)
  · rw [if_neg hn] at h
    cases τ with
    | mat f r c => cases f <;> cases tr
                   · exact fma h
                   · exact skip h
                   · exact tree h
                   · exact fma h
    | coo r c => cases tr
                 · exact tree h
                 · exact skip h
    | nd s => cases tr
              · exact tree h
              · exact skip h

/-- C89: `matmul`, `tensordot` and `vecdot` of a program and a dense array of whole numbers are exact. -/
theorem int_linalg {env : PyEnv F64} (he : env.Ok) {e : Prog F64} (hl : e.LitsOk) (hs : e.Small) (hd : e.AsDense) {τ : Ty}
    (hc : e.check = .ok τ) {fn : LinFn} {y : DenseNd F64} (hy : y.Ok) {tr : Bool} {p : Nat}
    (hfn : fn.Contraction y.shape.length tr p) {r c : Nat} (hrc : (if tr then τ.shape.reverse else τ.shape) = [r, c])
    (hyc : y.shape[p]? = some c) (hpos : 0 < (y.shape.eraseIdx p).prod)
    (hsz : 8 * ((max r 1 * (y.shape.eraseIdx p).prod : Nat) : Int) ≤ i64Max) {out : PyRes (LinRes F64)} (h : e.Linalg env fn y out) :
    ∃ d, out = .ret (.dense d) ∧ d.shape = y.shape.set p r ∧ d.data.length = d.shape.prod ∧
      ∀ z, InBounds d.shape z → F64.ExactDot
        ((List.range c).map fun (j : Nat) => (e.dense (if tr then [(j : Int), z.getD p 0] else [z.getD p 0, (j : Int)]),
          y.elem (z.set p (j : Int)))) (d.elem z) := by
  obtain ⟨f, r0, c0, rfl, hin, hh⟩ := f64_held he hl hs hd hc
  obtain ⟨d, e1, hd1, hd2, hd3⟩ := (prog_linalg_any F64.mul_comm he hl hs hd.determined hc trivial hy hfn hrc hyc hpos hsz).2 out h
  refine ⟨d, e1, hd1, hd2, fun z hz hi hb => ?_⟩
  have hp : p < y.shape.length := by
    by_contra h
    rw [List.getElem?_eq_none (by omega)] at hyc
    cases hyc
  have hh : ∀ j ∈ List.range c, HeldAs (valuesAt e.stores (dotKey tr p z j)) (e.dense (dotKey tr p z j)) := fun j hj =>
    hh _ (dotKey_bounds hrc hp (hd1 ▸ hz) (List.mem_range.1 hj))
  have hperm := dotTerms_perm (p := p) (z := z) hrc hin y
  have sums : ∀ g : ℚ → ℚ, g 0 = 0 → ((dotTerms e.stores tr p y z).map fun q => g (q.1.val * q.2.val)).sum =
      ((List.range c).map fun j => g ((e.dense (dotKey tr p z j)).val * (y.elem (z.set p (j : Int))).val)).sum := by
    intro g hg
    rw [← (hperm.map fun q : F64 × F64 => g (q.1.val * q.2.val)).sum_eq, List.map_flatMap]
    simp only [List.map_map]
    exact heldAs_sum (List.range c) hh (fun j a => g (a.val * (y.elem (z.set p (j : Int))).val))
      (fun j a b h => by rw [same_val h]) (fun j => by rw [show (0 : F64).val = 0 from rfl, zero_mul, hg])
  rw [List.map_map] at hb
  have := dotCell_int (hd3 z hz) (fun q hq => by
    obtain ⟨j, hj, hq⟩ := List.mem_flatMap.1 (hperm.mem_iff.2 hq)
    obtain ⟨a, ha, rfl⟩ := List.mem_map.1 hq
    have := hi _ (List.mem_map_of_mem (f := fun (j : Nat) => (e.dense (if tr then [(j : Int), z.getD p 0] else [z.getD p 0, (j : Int)]),
          y.elem (z.set p (j : Int)))) hj)
    exact ⟨heldAs_int (x := j) (held := fun j => valuesAt e.stores (dotKey tr p z j)) (dense := fun j => e.dense (dotKey tr p z j)) (hh j hj) this.1 ha, this.2⟩)
    (by rw [sums (fun x => |x|) abs_zero]; exact hb)
  refine ⟨this.1, ?_⟩
  rw [this.2, sums (fun x => x) rfl, List.map_map]
  rfl

/-! ### examples -/

theorem int_lit (n : ℤ) (h : |(n : ℚ)| ≤ 2 ^ 53) : (F64.ofRat n).IsInt ∧ (F64.ofRat n).val = n := by
  have := F64.ofRat_rep (int_rep h)
  exact ⟨⟨this.1, n, this.2⟩, this.2⟩

/-- `A` is the 1 × 3 matrix `[[2, 0, -3]]` and `B` is `[[4, 1, 5]]`. -/
def exA53 : Prog F64 := .mat .csr 1 3 [0, 2] [0, 2] [F64.ofRat (2 : ℤ), F64.ofRat (-3 : ℤ)]
def exB53 : Prog F64 := .mat .csr 1 3 [0, 3] [0, 1, 2] [F64.ofRat (4 : ℤ), F64.ofRat (1 : ℤ), F64.ofRat (5 : ℤ)]
/-- `A * B + 7 * B`. -/
def exI53 : Prog F64 := .bin .add (.bin .mul exA53 exB53) (.left .mul (F64.ofRat (7 : ℤ)) exB53)

theorem exA53_dense {x : List Int} (hx : InBounds [1, 3] x) :
    (exA53.dense x).IsInt ∧ (exA53.dense x).val = if x = [0, 0] then 2 else if x = [0, 2] then -3 else 0 := by
  obtain ⟨i, j, hi, hj, rfl⟩ := inBounds_two hx
  obtain rfl : i = 0 := by omega
  have : j = 0 ∨ j = 1 ∨ j = 2 := by omega
  rcases this with rfl | rfl | rfl
  · have := int_lit 2 (by norm_num)
    exact ⟨this.1, by rw [if_pos (by decide)]; exact_mod_cast this.2⟩
  · exact ⟨int_zero, rfl⟩
  · have := int_lit (-3) (by norm_num)
    exact ⟨this.1, by rw [if_neg (by decide), if_pos (by decide)]; exact_mod_cast this.2⟩

theorem exB53_dense {x : List Int} (hx : InBounds [1, 3] x) :
    (exB53.dense x).IsInt ∧ (exB53.dense x).val = if x = [0, 0] then 4 else if x = [0, 1] then 1 else 5 := by
  obtain ⟨i, j, hi, hj, rfl⟩ := inBounds_two hx
  obtain rfl : i = 0 := by omega
  have : j = 0 ∨ j = 1 ∨ j = 2 := by omega
  rcases this with rfl | rfl | rfl
  · have := int_lit 4 (by norm_num)
    exact ⟨this.1, by rw [if_pos (by decide)]; exact_mod_cast this.2⟩
  · have := int_lit 1 (by norm_num)
    exact ⟨this.1, by rw [if_neg (by decide), if_pos (by decide)]; exact_mod_cast this.2⟩
  · have := int_lit 5 (by norm_num)
    exact ⟨this.1, by rw [if_neg (by decide), if_neg (by decide)]; exact_mod_cast this.2⟩

theorem exA53_ok : exA53.LitsOk ∧ exA53.Small ∧ exA53.AsDense ∧ exA53.check = .ok (.mat .csr 1 3) :=
  ⟨⟨by decide, nofun⟩, by decide +kernel, trivial, by decide +kernel⟩
theorem exB53_ok : exB53.LitsOk ∧ exB53.Small ∧ exB53.AsDense ∧ exB53.check = .ok (.mat .csr 1 3) :=
  ⟨⟨by decide, nofun⟩, by decide +kernel, trivial, by decide +kernel⟩

theorem exI53_ok : exI53.LitsOk ∧ exI53.Small ∧ exI53.check = .ok (.mat .csr 1 3) :=
  ⟨⟨⟨⟨by decide, nofun⟩, ⟨by decide, nofun⟩⟩, ⟨by decide, nofun⟩⟩, by decide +kernel, by decide +kernel⟩

theorem ex53_shape {e : Prog F64} (h : e.check = .ok (.mat .csr 1 3)) {x : List Int} (hx : InBounds e.shape x) : InBounds [1, 3] x := by
  rw [Prog.shape_ok h] at hx; exact hx

theorem exA53_int : exA53.Int53 := ⟨fun x hx => (exA53_dense (ex53_shape exA53_ok.2.2.2 hx)).1, fun x hx => by
    show |(exA53.dense x).val| ≤ _
    rw [(exA53_dense (ex53_shape exA53_ok.2.2.2 hx)).2]
    split
    · norm_num
    · split <;> norm_num⟩

theorem exB53_int : exB53.Int53 := ⟨fun x hx => (exB53_dense (ex53_shape exB53_ok.2.2.2 hx)).1, fun x hx => by
    show |(exB53.dense x).val| ≤ _
    rw [(exB53_dense (ex53_shape exB53_ok.2.2.2 hx)).2]
    split
    · norm_num
    · split <;> norm_num⟩

theorem exI53_int : exI53.Int53 := by
  have v7 := int_lit 7 (by norm_num)
  have hA := exA53_int
  have hB := exB53_int
  refine ⟨⟨hA, hB, fun x hx => ?_⟩, ⟨hB, v7.1, fun x hx => ?_⟩, fun x hx => ?_⟩
  · have hx := ex53_shape (by decide +kernel) hx
    show |(exA53.dense x).val * (exB53.dense x).val| ≤ _
    rw [(exA53_dense hx).2, (exB53_dense hx).2]
    split_ifs <;> norm_num
  · have hx := ex53_shape (by decide +kernel) hx
    show |(F64.ofRat (7 : ℤ)).val * (exB53.dense x).val| ≤ _
    rw [v7.2, (exB53_dense hx).2]
    split_ifs <;> norm_num
  · have hx := ex53_shape (by decide +kernel) hx
    show |(exA53.dense x).val * (exB53.dense x).val + (F64.ofRat (7 : ℤ)).val * (exB53.dense x).val| ≤ _
    rw [v7.2, (exA53_dense hx).2, (exB53_dense hx).2]
    split_ifs <;> norm_num

/-- The last element of `A * B + 7 * B` is `-3 * 5 + 7 * 5 = 20`. -/
example {env : PyEnv F64} (he : env.Ok) : ∃ d, (∀ out, exI53.Toarray env out ↔ out = .ret d) ∧ (d.elem [0, 2]).IsFin ∧ (d.elem [0, 2]).val = 20 := by
  obtain ⟨h1, h2, h3⟩ := exI53_ok
  obtain ⟨f, r, c, d, e, ho, -, -, hd⟩ := int_toarray he h1 h2 exI53_int h3
  cases e
  have hx : InBounds [1, 3] [0, 2] := .cons ⟨by decide, by decide⟩ (.cons ⟨by decide, by decide⟩ .nil)
  refine ⟨d, ho, (hd _ hx).1, ?_⟩
  rw [(hd _ hx).2]
  show (exA53.dense [0, 2]).val * (exB53.dense [0, 2]).val + (F64.ofRat (7 : ℤ)).val * (exB53.dense [0, 2]).val = _
  rw [(int_lit 7 (by norm_num)).2, (exA53_dense hx).2, (exB53_dense hx).2]
  norm_num

theorem exA53_fibre : fibre [1, 3] ((AxisArg.one 1).covers 2) false exA53.dense [0] = [F64.ofRat (2 : ℤ), 0, F64.ofRat (-3 : ℤ)] := rfl
theorem exB53_fibre : fibre [1, 3] ((AxisArg.one 1).covers 2) false exB53.dense [0] = [F64.ofRat (4 : ℤ), F64.ofRat (1 : ℤ), F64.ofRat (5 : ℤ)] := rfl

/-- `sum(A, axis=1)` is `[-1]`. -/
example {env : PyEnv F64} (he : env.Ok) {out : PyRes (RedOut F64 F64)} (h : exA53.Reduce env .sum (.one 1) false out) :
    ∃ r v, out = .ret (.dense r) ∧ r.shape = [1] ∧ r.data[0]? = some v ∧ v.IsFin ∧ v.val = (-1 : ℚ) := by
  obtain ⟨h1, h2, h3, h4⟩ := exA53_ok
  obtain ⟨r, e, hr⟩ := int_sum he h1 h2 h3 h4 (axis := .one 1) false axis_one (by simp) h
  have hsh : r.shape = [1] := hr.shape_eq
  obtain ⟨v, c, p⟩ := hr.cell [0] (by rw [hsh]; exact .cons ⟨by omega, by omega⟩ .nil)
  rw [hsh] at c
  have p : F64.ExactSum (fibre [1, 3] ((AxisArg.one 1).covers 2) false exA53.dense [0]) v := p
  rw [exA53_fibre] at p
  have v2 := int_lit 2 (by norm_num)
  have v3 := int_lit (-3) (by norm_num)
  have v0 : (0 : F64).val = 0 := rfl
  have := p (by
    intro x hx
    simp only [List.mem_cons, List.not_mem_nil, or_false] at hx
    rcases hx with rfl | rfl | rfl
    exacts [v2.1, int_zero, v3.1]) (by simp only [List.map_cons, List.map_nil, List.sum_cons, List.sum_nil, v2.2, v3.2, v0]; norm_num)
  refine ⟨r, v, e, hsh, c, this.1, ?_⟩
  rw [this.2]
  simp only [List.map_cons, List.map_nil, List.sum_cons, List.sum_nil, v2.2, v3.2, v0]
  norm_num

/-- `prod(B, axis=1)` is `[20]`. -/
example {env : PyEnv F64} (he : env.Ok) {out : PyRes (RedOut F64 F64)} (h : exB53.Reduce env .prod (.one 1) false out) :
    ∃ r v, out = .ret (.dense r) ∧ r.shape = [1] ∧ r.data[0]? = some v ∧ v.IsFin ∧ v.val = 20 := by
  obtain ⟨h1, h2, h3, h4⟩ := exB53_ok
  obtain ⟨r, e, hr⟩ := int_prod he h1 h2 h3 h4 (axis := .one 1) false axis_one (by simp) h
  have hsh : r.shape = [1] := hr.shape_eq
  obtain ⟨v, c, p⟩ := hr.cell [0] (by rw [hsh]; exact .cons ⟨by omega, by omega⟩ .nil)
  rw [hsh] at c
  have p : F64.ExactProd (fibre [1, 3] ((AxisArg.one 1).covers 2) false exB53.dense [0]) v := p
  rw [exB53_fibre] at p
  have v4 := int_lit 4 (by norm_num)
  have v1 := int_lit 1 (by norm_num)
  have v5 := int_lit 5 (by norm_num)
  have := p (by
    intro x hx
    simp only [List.mem_cons, List.not_mem_nil, or_false] at hx
    rcases hx with rfl | rfl | rfl
    exacts [v4.1, v1.1, v5.1]) (by
      simp only [List.map_cons, List.map_nil, List.prod_cons, List.prod_nil, v4.2, v1.2, v5.2]
      norm_num)
  refine ⟨r, v, e, hsh, c, this.1, ?_⟩
  rw [this.2]
  simp only [List.map_cons, List.map_nil, List.prod_cons, List.prod_nil, v4.2, v1.2, v5.2]
  norm_num

/-- `cumsum(B, axis=1)` ends with 10. -/
example {env : PyEnv F64} (he : env.Ok) {out} (h : exB53.Scan env .sum (.one 1) out) :
    ∃ r, out = .ret r ∧ r.shape = [1, 3] ∧ (r.data.getD 2 0).IsFin ∧ (r.data.getD 2 0).val = 10 := by
  obtain ⟨h1, h2, h3, h4⟩ := exB53_ok
  obtain ⟨r, e, n, m, hsh, r1, r2, r3⟩ := int_cumsum he h1 h2 h3 h4 (axis := .one 1) (rowwise := true) ⟨axis_one, by decide, by decide⟩
    (by decide) (fun _ _ _ => nofun) h
  cases hsh
  have p := r3 0 2 (by decide) (by decide)
  have p : F64.ExactSum [F64.ofRat (4 : ℤ), F64.ofRat (1 : ℤ), F64.ofRat (5 : ℤ)] (r.data.getD 2 0) := p
  have v4 := int_lit 4 (by norm_num)
  have v1 := int_lit 1 (by norm_num)
  have v5 := int_lit 5 (by norm_num)
  have := p (by
    intro x hx
    simp only [List.mem_cons, List.not_mem_nil, or_false] at hx
    rcases hx with rfl | rfl | rfl
    exacts [v4.1, v1.1, v5.1]) (by
      simp only [List.map_cons, List.map_nil, List.sum_cons, List.sum_nil, v4.2, v1.2, v5.2]
      norm_num)
  refine ⟨r, e, r1, this.1, ?_⟩
  rw [this.2]
  simp only [List.map_cons, List.map_nil, List.sum_cons, List.sum_nil, v4.2, v1.2, v5.2]
  norm_num

/-- `diff(B, axis=1)` is `[[-3, 4]]`. -/
example {env : PyEnv F64} (he : env.Ok) {out} (h : exB53.Diff env (1 : Nat) 1 out) :
    ∃ w : SpVal F64, out = .ret w.obj ∧ w.ty = .mat .csr 1 2 ∧ ((w.held [0, 0]).head?.getD 0).val = -3 := by
  obtain ⟨h1, h2, h3, h4⟩ := exB53_ok
  obtain ⟨w, e, ht, hw⟩ := int_diff he h1 h2 h3 h4 (axis := 1) (rowwise := true) (.inl rfl) (n := 1) (by decide) (by decide)
    (B := 5) (by norm_num) (fun x hx => ⟨(exB53_dense hx).1, by rw [(exB53_dense hx).2]; split_ifs <;> norm_num⟩) h
  have ht : w.ty = .mat .csr 1 2 := ht
  refine ⟨w, e, ht, ?_⟩
  rw [(hw [0, 0] (by rw [ht]; exact .cons ⟨by omega, by omega⟩ (.cons ⟨by omega, by omega⟩ .nil))).2]
  show (exB53.dense [0, 1]).val - (exB53.dense [0, 0]).val = -3
  rw [(exB53_dense (.cons ⟨by decide, by decide⟩ (.cons ⟨by decide, by decide⟩ .nil))).2,
    (exB53_dense (.cons ⟨by decide, by decide⟩ (.cons ⟨by decide, by decide⟩ .nil))).2, if_neg (by decide), if_pos rfl, if_pos rfl]
  norm_num

/-- `matmul(A, [4, 1, 5])` is `[-7]`. -/
example {env : PyEnv F64} (he : env.Ok) {out}
    (h : exA53.Linalg env .matmul ⟨[3], [F64.ofRat (4 : ℤ), F64.ofRat (1 : ℤ), F64.ofRat (5 : ℤ)]⟩ out) :
    ∃ d, out = .ret (.dense d) ∧ d.shape = [1] ∧ (d.elem [0]).IsFin ∧ (d.elem [0]).val = -7 := by
  obtain ⟨h1, h2, h3, h4⟩ := exA53_ok
  obtain ⟨d, e, hsh, -, hd⟩ := int_linalg he h1 h2 h3 h4 (fn := .matmul)
    (y := ⟨[3], [F64.ofRat (4 : ℤ), F64.ofRat (1 : ℤ), F64.ofRat (5 : ℤ)]⟩) ⟨rfl, by decide⟩
    (tr := false) (p := 0) ⟨rfl, .inl ⟨rfl, rfl⟩⟩ (r := 1) (c := 3) rfl rfl (by decide) (by decide) h
  have hsh : d.shape = [1] := hsh
  have p := hd [0] (by rw [hsh]; exact .cons ⟨by omega, by omega⟩ .nil)
  have p : F64.ExactDot [(F64.ofRat (2 : ℤ), F64.ofRat (4 : ℤ)), (0, F64.ofRat (1 : ℤ)), (F64.ofRat (-3 : ℤ), F64.ofRat (5 : ℤ))] (d.elem [0]) := p
  have v2 := int_lit 2 (by norm_num)
  have v3 := int_lit (-3) (by norm_num)
  have v0 : (0 : F64).val = 0 := rfl
  have v4 := int_lit 4 (by norm_num)
  have v1 := int_lit 1 (by norm_num)
  have v5 := int_lit 5 (by norm_num)
  have := p (by
    intro x hx
    simp only [List.mem_cons, List.not_mem_nil, or_false] at hx
    rcases hx with rfl | rfl | rfl
    exacts [⟨v2.1, v4.1⟩, ⟨int_zero, v1.1⟩, ⟨v3.1, v5.1⟩]) (by
      simp only [List.map_cons, List.map_nil, List.sum_cons, List.sum_nil, v2.2, v3.2, v0, v4.2, v1.2, v5.2]
      norm_num)
  refine ⟨d, e, hsh, this.1, ?_⟩
  rw [this.2]
  simp only [List.map_cons, List.map_nil, List.sum_cons, List.sum_nil, v2.2, v3.2, v0, v4.2, v1.2, v5.2]
  norm_num

end
end Lacuna
