import Verif.Props.F64NdDot
import Verif.Spec.ExactNd
/-
C98: with whole numbers up to `2 ^ 53` programs over all classes compute exactly.
-/
set_option linter.unusedSectionVars false

namespace Lacuna

open F64

section
variable [HasPowf F64]

theorem wholeLit_exact {e : Prog F64} (hd : e.WholeLit) (hx : ∀ x, e.exactN x = (e.elems x).val) {τ : Ty} (hc : e.check = .ok τ) {x : List Int}
    (hb : InBounds τ.shape x) : ((e.elems x).IsInt ∧ (e.elems x).val = e.exactN x) ∧ |e.exactN x| ≤ 2 ^ 53 := by
  have hb : InBounds e.shape x := by rw [Prog.shape_ok hc]; exact hb
  exact ⟨⟨hd.2.1 x hb, (hx x).symm⟩, hd.2.2 x hb⟩

/-- The conditions of `AsElems` hold, and the elements are the exact ones. -/
theorem whole_exact : ∀ {e : Prog F64}, e.Whole → ∀ {τ : Ty}, e.check = .ok τ →
    e.AsElems ∧ ∀ x, InBounds τ.shape x → ((e.elems x).IsInt ∧ (e.elems x).val = e.exactN x) ∧ |e.exactN x| ≤ 2 ^ 53 := by
  intro e
  induction e with
  | mat f nrows ncols indptr indices data => intro hd τ hc; exact ⟨trivial, fun x hx => wholeLit_exact hd (fun _ => rfl) hc hx⟩
  | coo => intro hd τ hc; exact ⟨hd.1, fun x hx => wholeLit_exact hd (fun _ => rfl) hc hx⟩
  | nd => intro hd τ hc; exact ⟨hd.1, fun x hx => wholeLit_exact hd (fun _ => rfl) hc hx⟩
  | un op a ih =>
    intro hd τ hc
    obtain ⟨h2, h3⟩ := ih hd (τ := τ) hc
    refine ⟨h2, fun x hx => ?_⟩
    obtain ⟨⟨⟨k1, n, k2⟩, k3⟩, k4⟩ := h3 x hx
    cases op with
    | abs =>
      refine ⟨?_, by show |(|a.exactN x|)| ≤ _; rw [abs_abs]; exact k4⟩
      obtain ⟨g1, g2⟩ := abs_val_fin k1
      exact ⟨⟨g1, |n|, by show (fabs (a.elems x)).val = _; rw [g2, k2]; push_cast; rfl⟩, by show (fabs (a.elems x)).val = |_|; rw [g2, k3]⟩
    | neg =>
      refine ⟨?_, by show |(-a.exactN x)| ≤ _; rw [abs_neg]; exact k4⟩
      exact ⟨⟨neg_fin k1, -n, by show (-_ : F64).val = _; rw [neg_val, k2]; push_cast; rfl⟩, by show (-_ : F64).val = -_; rw [neg_val, k3]⟩
    | sign =>
      refine ⟨?_, by
        show |(if 0 < a.exactN x then (1 : ℚ) else if a.exactN x < 0 then -1 else 0)| ≤ _
        split
        · norm_num
        · split <;> norm_num⟩
      obtain ⟨g1, g2⟩ := signum_val_fin k1
      rw [k3] at g2
      refine ⟨⟨g1, if 0 < a.exactN x then 1 else if a.exactN x < 0 then -1 else 0, ?_⟩, g2⟩
      show (a.elems x).signum.val = _
      rw [g2]
      split
      · norm_num
      · split <;> norm_num
  | bin op a b iha ihb =>
    intro hd τ hc
    have hc' := hc
    have had : a.Whole ∧ b.Whole := by
      cases op with
      | add => exact ⟨hd.1, hd.2.1⟩
      | sub => exact ⟨hd.1, hd.2.1⟩
      | mul => exact ⟨hd.1, hd.2.1⟩
      | floordiv => exact ⟨hd.1, hd.2.1⟩
      | rem => exact ⟨hd.1, hd.2.1⟩
      | _ => exact hd.elim
    have hc : (a.check.bind fun t => b.check.bind fun u => Ty.bin op t u) = .ok τ := hc
    cases ha : a.check with
    | error x => rw [ha] at hc; cases hc
    | ok t =>
      cases hb : b.check with
      | error x => rw [ha, hb] at hc; cases hc
      | ok u =>
        rw [ha, hb] at hc
        have hc : Ty.bin op t u = .ok τ := hc
        obtain ⟨a2, a3⟩ := iha had.1 ha
        obtain ⟨b2, b3⟩ := ihb had.2 hb
        have hsh : (Prog.bin op a b).shape = τ.shape := Prog.shape_ok hc'
        have hsa : a.shape = t.shape := Prog.shape_ok ha
        have hsb : b.shape = u.shape := Prog.shape_ok hb
        -- where the operands of an element are
        have hloc : ∀ x, InBounds τ.shape x → InBounds t.shape (bcastIndex a.shape x) ∧ InBounds u.shape (bcastIndex b.shape x) ∧
            (op ≠ .mul → bcastIndex a.shape x = x ∧ bcastIndex b.shape x = x) := by
          intro x hx
          rw [hsa, hsb]
          cases t with
          | coo => cases u <;> cases hc
          | mat f r c =>
            cases u with
            | coo => cases hc
            | nd => cases hc
            | mat g r' c' =>
              have hc : (if f ≠ g then Except.error PyErr.notImplemented
                else if r = r' ∧ c = c' then .ok (.mat f r c) else .error .panic) = .ok τ := hc
              split_ifs at hc with h1 h2
              have hτ : Ty.mat f r c = τ := Except.ok.inj hc
              subst hτ
              obtain ⟨rfl, rfl⟩ := h2
              have hx : InBounds [r, c] x := hx
              show InBounds [r, c] (bcastIndex [r, c] x) ∧ InBounds [r, c] (bcastIndex [r, c] x) ∧
                (op ≠ .mul → bcastIndex [r, c] x = x ∧ bcastIndex [r, c] x = x)
              rw [bcastIndex_self hx]
              exact ⟨hx, hx, fun _ => ⟨rfl, rfl⟩⟩
          | nd s =>
            cases u with
            | coo => cases hc
            | mat => cases hc
            | nd s' =>
              have hc : (if op = .mul then (match bcastTo s s' with | some u => Except.ok (Ty.nd u) | none => .error PyErr.panic)
                else .error PyErr.notImplemented) = .ok τ := hc
              by_cases hop : op = .mul
              · rw [if_pos hop] at hc
                cases hbc : bcastTo s s' with
                | none => rw [hbc] at hc; cases hc
                | some u =>
                  rw [hbc] at hc
                  cases hc
                  obtain ⟨-, -, b1, b2⟩ := bcast_cells hbc (show InBounds u x from hx)
                  exact ⟨b1, b2, fun h => absurd hop h⟩
              · rw [if_neg hop] at hc; cases hc
        refine ⟨?_, fun x hx => ?_⟩
        · cases op with
          | add => exact ⟨a2, b2⟩
          | sub => exact ⟨a2, b2⟩
          | mul =>
            refine ⟨a2, b2, fun x hx => ?_⟩
            obtain ⟨l1, l2, -⟩ := hloc x (by rw [← hsh]; exact hx)
            exact ⟨(a3 _ l1).1.1.1, (b3 _ l2).1.1.1⟩
          | floordiv => exact ⟨a2, b2⟩
          | rem => exact ⟨a2, b2⟩
          | _ => exact hd.elim
        · obtain ⟨l1, l2, l3⟩ := hloc x hx
          obtain ⟨⟨p1, p2⟩, p3⟩ := a3 _ l1
          obtain ⟨⟨q1, q2⟩, q3⟩ := b3 _ l2
          have hxs : InBounds (Prog.bin op a b).shape x := by rw [hsh]; exact hx
          by_cases hop : op = .mul
          · subst hop
            have hw : |a.exactN (bcastIndex a.shape x) * b.exactN (bcastIndex b.shape x)| ≤ 2 ^ 53 := hd.2.2 x hxs
            refine ⟨?_, hw⟩
            rw [← p2, ← q2] at hw
            have := int_mul p1 q1 hw
            rw [p2, q2] at this
            exact this
          · obtain ⟨e1, e2⟩ := l3 hop
            rw [e1] at p1 p2 p3 l1
            rw [e2] at q1 q2 q3
            have hxa : InBounds a.shape x := by rw [hsa]; exact l1
            cases op with
            | add =>
              have hw : |a.exactN x + b.exactN x| ≤ 2 ^ 53 := hd.2.2 x hxs
              refine ⟨?_, hw⟩
              rw [← p2, ← q2] at hw
              have := int_add p1 q1 hw
              rw [p2, q2] at this
              exact this
            | sub =>
              have hw : |a.exactN x - b.exactN x| ≤ 2 ^ 53 := hd.2.2 x hxs
              refine ⟨?_, hw⟩
              rw [← p2, ← q2] at hw
              have := int_sub p1 q1 hw
              rw [p2, q2] at this
              exact this
            | floordiv =>
              have hw : |a.exactN x| < 2 ^ 53 := hd.2.2 x hxa
              have := (int_quot p1 q1).1 (by rw [p2]; exact hw) (by rw [q2]; exact q3)
              rw [p2, q2] at this
              refine ⟨this, ?_⟩
              show |(if b.exactN x = 0 then 0 else ((⌊a.exactN x / b.exactN x⌋ : ℤ) : ℚ))| ≤ _
              split
              · norm_num
              · rename_i h0
                obtain ⟨-, n, hn⟩ := p1
                obtain ⟨-, m, hm⟩ := q1
                rw [p2] at hn
                rw [q2] at hm
                exact le_trans (floordiv_le hn hm h0) p3
            | rem =>
              have hw : |a.exactN x| + |b.exactN x| ≤ 2 ^ 53 := hd.2.2 x hxa
              have := (int_quot p1 q1).2 (by rw [p2, q2]; exact hw)
              rw [p2, q2] at this
              refine ⟨this, ?_⟩
              show |(if b.exactN x = 0 then 0 else a.exactN x - b.exactN x * ⌊a.exactN x / b.exactN x⌋)| ≤ _
              split
              · norm_num
              · rename_i h0
                exact le_trans (rem_le h0) q3
            | mul => exact absurd rfl hop
            | _ => exact hd.elim
  | scalar op a alpha ih =>
    intro hd τ hc
    have hc' := hc
    have had : a.Whole := by
      cases op with
      | mul => exact hd.1
      | floordiv => exact hd.1
      | rem => exact hd.1
      | _ => exact hd.elim
    have hc : (a.check.bind fun t => Ty.scalar op (alpha == 0) t) = .ok τ := hc
    cases ha : a.check with
    | error x => rw [ha] at hc; cases hc
    | ok t =>
      rw [ha] at hc
      have hc : Ty.scalar op (alpha == 0) t = .ok τ := hc
      have hτ : τ = t ∧ (op = .floordiv ∨ op = .rem → (alpha == 0) = false) := by
        cases op with
        | mul => cases t <;> cases hc <;> exact ⟨rfl, by simp⟩
        | floordiv =>
          cases h0 : (alpha == 0) <;> rw [h0] at hc <;> cases hc
          exact ⟨rfl, fun _ => rfl⟩
        | rem =>
          cases h0 : (alpha == 0) <;> rw [h0] at hc <;> cases hc
          exact ⟨rfl, fun _ => rfl⟩
        | _ => exact hd.elim
      obtain ⟨rfl, hz⟩ := hτ
      obtain ⟨a2, a3⟩ := ih had ha
      have hsa : a.shape = τ.shape := Prog.shape_ok ha
      cases op with
      | mul =>
        refine ⟨⟨a2, hd.2.1.1, fun _ x hx => (a3 x (by rw [hsa] at hx; exact hx)).1.1.1⟩, fun x hx => ?_⟩
        have hw : |a.exactN x * alpha.val| ≤ 2 ^ 53 := hd.2.2 x (by rw [Prog.shape_ok hc']; exact hx)
        obtain ⟨⟨p1, p2⟩, -⟩ := a3 x hx
        refine ⟨?_, hw⟩
        rw [← p2] at hw
        have := int_mul p1 hd.2.1 hw
        rw [p2] at this
        exact this
      | floordiv =>
        have hv := val_ne hd.2.1.1 (hz (.inl rfl))
        refine ⟨⟨a2, int_not_nan hd.2.1.1⟩, fun x hx => ?_⟩
        have hw : |a.exactN x| < 2 ^ 53 := hd.2.2.2 x (by rw [hsa]; exact hx)
        obtain ⟨⟨p1, p2⟩, p3⟩ := a3 x hx
        have := floordiv_int p1 hd.2.1 hv (by rw [p2]; exact hw) hd.2.2.1
        rw [p2] at this
        refine ⟨this, ?_⟩
        obtain ⟨-, n, hn⟩ := p1
        obtain ⟨-, m, hm⟩ := hd.2.1
        rw [p2] at hn
        exact le_trans (floordiv_le hn hm hv) p3
      | rem =>
        have hv := val_ne hd.2.1.1 (hz (.inr rfl))
        refine ⟨⟨a2, hd.2.1.1⟩, fun x hx => ?_⟩
        have hw : |a.exactN x| + |alpha.val| ≤ 2 ^ 53 := hd.2.2.2 x (by rw [hsa]; exact hx)
        obtain ⟨⟨p1, p2⟩, p3⟩ := a3 x hx
        have := rem_int p1 hd.2.1 hv (by rw [p2]; exact hw)
        rw [p2] at this
        exact ⟨this, le_trans (rem_le hv) hd.2.2.1⟩
      | _ => exact hd.elim
  | left op alpha a ih =>
    intro hd τ hc
    have hc' := hc
    cases op with
    | mul =>
      have hc : (a.check.bind fun t => Ty.left .mul t) = .ok τ := hc
      cases ha : a.check with
      | error x => rw [ha] at hc; cases hc
      | ok t =>
        rw [ha] at hc
        have hc : Ty.left .mul t = .ok τ := hc
        have hτ : τ = t := by cases t <;> cases hc <;> rfl
        subst hτ
        obtain ⟨a2, a3⟩ := ih hd.1 ha
        have hsa : a.shape = τ.shape := Prog.shape_ok ha
        refine ⟨⟨a2, hd.2.1.1, fun _ x hx => (a3 x (by rw [hsa] at hx; exact hx)).1.1.1⟩, fun x hx => ?_⟩
        have hw : |alpha.val * a.exactN x| ≤ 2 ^ 53 := hd.2.2 x (by rw [Prog.shape_ok hc']; exact hx)
        obtain ⟨⟨p1, p2⟩, -⟩ := a3 x hx
        refine ⟨?_, hw⟩
        rw [← p2] at hw
        have := int_mul hd.2.1 p1 hw
        rw [p2] at this
        exact this
    | _ => exact hd.elim
  | T a ih =>
    intro hd τ hc
    have hc : (a.check.bind fun t => Ty.T t) = .ok τ := hc
    cases ha : a.check with
    | error x => rw [ha] at hc; cases hc
    | ok t =>
      rw [ha] at hc
      obtain ⟨a2, a3⟩ := ih hd ha
      cases t with
      | mat f r c => cases hc; exact ⟨a2, fun x hx => a3 _ (inBounds_reverse hx)⟩
      | coo r c => cases hc; exact ⟨a2, fun x hx => a3 _ (inBounds_reverse hx)⟩
      | nd s => cases hc
  | prune eps a ih =>
    intro hd τ hc
    have hc : a.check = .ok τ := check_pruned hc
    obtain ⟨h2, h3⟩ := ih hd.1 hc
    have hsa := Prog.shape_ok hc
    refine ⟨⟨h2, fun x hx => int_not_nan (h3 x (by rw [← hsa]; exact hx)).1.1.1⟩, fun x hx => ?_⟩
    obtain ⟨⟨p1, p2⟩, p3⟩ := h3 x hx
    obtain ⟨g1, g2⟩ := abs_val_fin p1.1
    rw [p2] at g2
    have e : (flt eps 0 || flt eps (fabs (a.elems x))) = decide (eps.val < |a.exactN x|) := by
      rw [lt_val hd.2 (y := 0) trivial, lt_val hd.2 g1, g2, ← Bool.decide_or, decide_eq_decide]
      exact ⟨fun h => h.elim (fun h => lt_of_lt_of_le h (abs_nonneg _)) id, .inr⟩
    show ((if (flt eps 0 || flt eps (fabs (a.elems x))) = true then a.elems x else 0).IsInt ∧
      (if (flt eps 0 || flt eps (fabs (a.elems x))) = true then a.elems x else 0).val = if eps.val < |a.exactN x| then a.exactN x else 0) ∧
      |(if eps.val < |a.exactN x| then a.exactN x else 0)| ≤ 2 ^ 53
    rw [e]
    by_cases h : eps.val < |a.exactN x|
    · rw [if_pos h, if_pos (decide_eq_true h)]
      exact ⟨⟨p1, p2⟩, p3⟩
    · rw [if_neg h, if_neg (by simpa using h)]
      exact ⟨⟨int_zero, rfl⟩, by norm_num⟩
  | elimZeros a ih =>
    intro hd τ hc
    have hc : a.check = .ok τ := check_pruned hc
    obtain ⟨h2, h3⟩ := ih hd hc
    have hsa := Prog.shape_ok hc
    exact ⟨⟨h2, fun x hx => int_not_nan (h3 x (by rw [← hsa]; exact hx)).1.1.1⟩, h3⟩
  | ndop op arg a ih =>
    intro hd τ hc
    have had : a.Whole := by cases op <;> first | exact hd | exact hd.1 | exact hd.elim
    have hsh : (Prog.ndop op arg a).shape = τ.shape := Prog.shape_ok hc
    have hc : (a.check.bind fun t => Ty.ndop op arg t) = .ok τ := hc
    cases ha : a.check with
    | error x => rw [ha] at hc; cases hc
    | ok t =>
      rw [ha] at hc
      cases t with
      | mat => cases op <;> cases hc
      | coo => cases op <;> cases hc
      | nd s =>
        have hc : (argDims arg).bind (op.ty s) = .ok τ := hc
        obtain ⟨a2, a3⟩ := ih had ha
        have hash : a.shape = s := Prog.shape_ok ha
        have hc : op.ty s (arg.map Int.toNat) = .ok τ := by
          unfold argDims at hc
          split_ifs at hc
          · cases hc
          · cases hc
          · exact hc
        generalize hxs : arg.map Int.toNat = xs at hc
        cases op with
        | reshape =>
          simp only [NdOp.ty] at hc
          split_ifs at hc with h1 h2
          cases hc
          rw [not_not] at h1
          refine ⟨a2, fun x hx => ?_⟩
          show ((a.elems (unravel a.shape (rowMajor (arg.map Int.toNat) x))).IsInt ∧
            (a.elems (unravel a.shape (rowMajor (arg.map Int.toNat) x))).val = a.exactN (unravel a.shape (rowMajor (arg.map Int.toNat) x))) ∧
            |a.exactN (unravel a.shape (rowMajor (arg.map Int.toNat) x))| ≤ 2 ^ 53
          rw [hash, hxs]
          have hlt := rowMajor_lt (show InBounds xs x from hx)
          exact a3 _ (unravel_spec (s := s) (k := rowMajor xs x) (by omega)).1
        | permute =>
          simp only [NdOp.ty] at hc
          split_ifs at hc with h1
          cases hc
          refine ⟨a2, fun x hx => ?_⟩
          show ((a.elems (unpermute (arg.map Int.toNat) x)).IsInt ∧
            (a.elems (unpermute (arg.map Int.toNat) x)).val = a.exactN (unpermute (arg.map Int.toNat) x)) ∧
            |a.exactN (unpermute (arg.map Int.toNat) x)| ≤ 2 ^ 53
          rw [hxs]
          exact a3 _ (unpermute_inBounds h1 hx)
        | unfold f =>
          simp only [NdOp.ty] at hc
          split_ifs at hc with h1
          cases hc
          refine ⟨a2, fun x hx => ?_⟩
          show ((a.elems (foldIndex a.shape (arg.map Int.toNat) x)).IsInt ∧
            (a.elems (foldIndex a.shape (arg.map Int.toNat) x)).val = a.exactN (foldIndex a.shape (arg.map Int.toNat) x)) ∧
            |a.exactN (foldIndex a.shape (arg.map Int.toNat) x)| ≤ 2 ^ 53
          rw [hash, hxs]
          obtain ⟨i, j, rfl, hi, hj⟩ := inBounds_pair (show InBounds [_, _] x from hx)
          exact a3 _ (unfold_index h1 hi hj (x := foldIndex s xs [(i : Int), (j : Int)]) rfl).1
        | reduceSum =>
          have main : ∀ x, InBounds τ.shape x → F64.WholeSum (axisLine a.shape (arg.map Int.toNat) a.elems x) ∧
              ((axisLine a.shape (arg.map Int.toNat) a.elems x).map val).sum = (Prog.ndop .reduceSum arg a).exactN x ∧
              |(Prog.ndop .reduceSum arg a).exactN x| ≤ 2 ^ 53 := by
            intro x hx
            have hw := hd.2 x (by rw [hsh]; exact hx)
            show F64.WholeSum (axisLine a.shape (arg.map Int.toNat) a.elems x) ∧ _ =
              (((indicesOf a.shape).filter fun z => select (restAxes a.shape.length (arg.map Int.toNat)) z == x).map a.exactN).sum ∧
              |(((indicesOf a.shape).filter fun z => select (restAxes a.shape.length (arg.map Int.toNat)) z == x).map a.exactN).sum| ≤ 2 ^ 53
            unfold axisLine
            have hz : ∀ z ∈ (indicesOf a.shape).filter fun z => select (restAxes a.shape.length (arg.map Int.toNat)) z == x,
                (a.elems z).IsInt ∧ (a.elems z).val = a.exactN z := fun z hz =>
              (a3 z (by rw [← Prog.shape_ok ha]; exact mem_indicesOf.1 (List.mem_filter.1 hz).1)).1
            generalize ((indicesOf a.shape).filter fun z => select (restAxes a.shape.length (arg.map Int.toNat)) z == x) = zs at hw hz ⊢
            have e1 : (zs.map a.elems).map val = zs.map a.exactN := by
              rw [List.map_map]
              exact List.map_congr_left fun z h => (hz z h).2
            have e2 : ((zs.map a.elems).map fun v => |v.val|) = zs.map fun z => |a.exactN z| := by
              rw [List.map_map]
              exact List.map_congr_left fun z h => by show |(a.elems z).val| = _; rw [(hz z h).2]
            refine ⟨⟨fun v hv => ?_, by rw [e2]; exact hw⟩, by rw [e1], ?_⟩
            · obtain ⟨z, h, rfl⟩ := List.mem_map.1 hv
              exact (hz z h).1
            · have := sum_abs_le ((zs.map a.elems : List F64) : Multiset F64)
              rw [Multiset.map_coe, Multiset.sum_coe, Multiset.map_coe, Multiset.sum_coe, e1, e2] at this
              exact le_trans this hw
          refine ⟨⟨a2, fun x hx => (main x (by rw [← hsh]; exact hx)).1⟩, fun x hx => ?_⟩
          obtain ⟨m1, m2, m3⟩ := main x hx
          obtain ⟨w1, w2⟩ := wholeSum_foldl m1
          exact ⟨⟨w1, w2.trans m2⟩, m3⟩
        | _ => exact hd.elim
  | mode f axis a ih =>
    intro hd τ hc
    have hc : (a.check.bind fun t => Ty.mode f axis t) = .ok τ := hc
    cases ha : a.check with
    | error x => rw [ha] at hc; cases hc
    | ok t =>
      rw [ha] at hc
      cases t with
      | mat => cases hc
      | coo => cases hc
      | nd s =>
        obtain ⟨a2, a3⟩ := ih hd ha
        have hash : a.shape = s := Prog.shape_ok ha
        have hc : (if axis < 0 ∨ (usizeMax : Int) < axis then Except.error PyErr.overflowError
          else if axis.toNat < s.length then
            .ok (Ty.mat f (s.getD axis.toNat 0) (extents s (restAxes s.length [axis.toNat])).prod)
          else .error PyErr.panic) = .ok τ := hc
        split_ifs at hc with c1 c2
        have e1 : s.getD axis.toNat 0 = (extents s [axis.toNat]).prod := by simp [extents]
        rw [e1] at hc
        cases hc
        refine ⟨a2, fun x hx => ?_⟩
        show ((a.elems (foldIndex a.shape [axis.toNat] x)).IsInt ∧
          (a.elems (foldIndex a.shape [axis.toNat] x)).val = a.exactN (foldIndex a.shape [axis.toNat] x)) ∧
          |a.exactN (foldIndex a.shape [axis.toNat] x)| ≤ 2 ^ 53
        rw [hash]
        obtain ⟨i, j, rfl, hi, hj⟩ := inBounds_pair (show InBounds [_, _] x from hx)
        exact a3 _ (unfold_index (s := s) (xs := [axis.toNat]) ⟨by simpa using c2, by simp⟩ hi hj
          (x := foldIndex s [axis.toNat] [(i : Int), (j : Int)]) rfl).1

variable [HasMinMax F64]

theorem heldAs_exactSum {α : Type} {xs : List α} {held : α → List F64} {dense : α → F64} (hh : ∀ x ∈ xs, HeldAs (held x) (dense x))
    {v : F64} (h : AddTree (((xs.map held).flatten : List F64) : Multiset F64) v) : F64.ExactSum (xs.map dense) v := by
  intro hi hb
  have s1 := heldAs_sum xs hh (fun _ a => a.val) (fun _ a b h => same_val h) (fun _ => rfl)
  have s2 := heldAs_sum xs hh (fun _ a => |a.val|) (fun _ a b h => by rw [same_val h]) (fun _ => abs_zero)
  have := addTree_int h (fun a ha => by
    obtain ⟨l, hl, ha⟩ := List.mem_flatten.1 (Multiset.mem_coe.1 ha)
    obtain ⟨x, hx, rfl⟩ := List.mem_map.1 hl
    exact heldAs_int (hh x hx) (hi _ (List.mem_map_of_mem hx)) ha) (by
      rw [Multiset.map_coe, Multiset.sum_coe, List.map_flatten, List.map_map]
      rw [List.map_map] at hb
      refine le_trans (le_of_eq ?_) hb
      exact s2)
  refine ⟨this.1.1, ?_⟩
  rw [this.2, Multiset.map_coe, Multiset.sum_coe, List.map_flatten, List.map_map, List.map_map]
  exact s1

theorem heldAs_exactProd {α : Type} {xs : List α} {held : α → List F64} {dense : α → F64} (hh : ∀ x ∈ xs, HeldAs (held x) (dense x))
    {v : F64} (h2 : if (((xs.map held).flatten : List F64) : Multiset F64).card < (xs.map held).length
      then v = 0 else JoinTree (fun a b c : F64 => c = a * b) 1 (((xs.map held).flatten : List F64) : Multiset F64) v) :
    F64.ExactProd (xs.map dense) v := by
  intro hi hb
  have hp := heldAs_prod xs hh
  rw [Multiset.coe_card, List.length_map] at h2
  by_cases hlt : (xs.map held).flatten.length < xs.length
  · rw [if_pos hlt] at h2 hp
    rw [h2, hp]
    exact ⟨trivial, rfl⟩
  · rw [if_neg hlt] at h2 hp
    have := mulTree_int h2 (fun a ha => by
      obtain ⟨l, hl, ha⟩ := List.mem_flatten.1 (Multiset.mem_coe.1 ha)
      obtain ⟨x, hx, rfl⟩ := List.mem_map.1 hl
      exact heldAs_int (hh x hx) (hi _ (List.mem_map_of_mem hx)) ha) (by
        rw [Multiset.map_coe, Multiset.prod_coe, hp _ fun a b h => by rw [same_val h]]
        exact hb)
    refine ⟨this.1.1, ?_⟩
    rw [this.2, Multiset.map_coe, Multiset.prod_coe, hp _ fun a b h => same_val h]

/-- Elements that are whole numbers, in terms of the exact ones. -/
theorem exactSum_total {α : Type} {xs : List α} {f : α → F64} {g : α → ℚ} (h : ∀ x ∈ xs, (f x).IsInt ∧ (f x).val = g x) {v : F64}
    (hv : F64.ExactSum (xs.map f) v) : F64.ExactTotal (xs.map g) v := by
  intro hb
  have e1 : (xs.map f).map val = xs.map g := by
    rw [List.map_map]
    exact List.map_congr_left fun z hz => (h z hz).2
  have e2 : ((xs.map f).map fun v => |v.val|) = (xs.map g).map fun q => |q| := by
    rw [← e1, List.map_map, List.map_map, List.map_map]
    rfl
  have := hv (fun x hx => by
    obtain ⟨z, hz, rfl⟩ := List.mem_map.1 hx
    exact (h z hz).1) (by rw [e2]; exact hb)
  rwa [e1] at this

theorem exactProd_product {α : Type} {xs : List α} {f : α → F64} {g : α → ℚ} (h : ∀ x ∈ xs, (f x).IsInt ∧ (f x).val = g x) {v : F64}
    (hv : F64.ExactProd (xs.map f) v) : F64.ExactProduct (xs.map g) v := by
  intro hb
  have e1 : (xs.map f).map val = xs.map g := by
    rw [List.map_map]
    exact List.map_congr_left fun z hz => (h z hz).2
  have e2 : ((xs.map f).map fun v => max 1 |v.val|) = (xs.map g).map fun q => max 1 |q| := by
    rw [← e1, List.map_map, List.map_map, List.map_map]
    rfl
  have := hv (fun x hx => by
    obtain ⟨z, hz, rfl⟩ := List.mem_map.1 hx
    exact (h z hz).1) (by rw [e2]; exact hb)
  rwa [e1] at this

theorem exactDot_inner {α : Type} {xs : List α} {f : α → F64} {g : α → ℚ} (h : ∀ x ∈ xs, (f x).IsInt ∧ (f x).val = g x) {y : α → F64}
    {v : F64} (hv : F64.ExactDot (xs.map fun x => (f x, y x)) v) : F64.ExactInner (xs.map fun x => (g x, y x)) v := by
  intro hi hb
  have e : ∀ φ : ℚ → ℚ, ((xs.map fun x => (f x, y x)).map fun q => φ (q.1.val * q.2.val)) =
      (xs.map fun x => (g x, y x)).map fun q => φ (q.1 * q.2.val) := by
    intro φ
    rw [List.map_map, List.map_map]
    exact List.map_congr_left fun z hz => by
      show φ ((f z).val * _) = _
      rw [(h z hz).2]
      rfl
  have := hv (fun q hq => by
    obtain ⟨z, hz, rfl⟩ := List.mem_map.1 hq
    exact ⟨(h z hz).1, hi _ (List.mem_map.2 ⟨z, hz, rfl⟩)⟩) (by rw [e fun x => |x|]; exact hb)
  rw [e fun x => x] at this
  exact this

/-- C98: `program.toarray()` of a program over whole numbers up to `2 ^ 53` is exact, on every machine. -/
theorem whole_toarray {env : PyEnv F64} (he : env.Ok) {e : Prog F64} (hl : e.LitsOk) (hs : e.Small) (hi : e.Whole) {τ : Ty}
    (hc : e.check = .ok τ) (h2d : τ.Is2d) : ∃ d, (∀ out, e.Toarray env out ↔ out = .ret d) ∧
      d.shape = τ.shape ∧ d.data.length = τ.shape.prod ∧ ∀ x, InBounds τ.shape x → (d.elem x).IsFin ∧ (d.elem x).val = e.exactN x := by
  obtain ⟨hd, hx⟩ := whole_exact hi hc
  obtain ⟨d, h1, h2, h3, h4⟩ := elems_toarray he hl hs hd hc h2d
  refine ⟨d, h1, h2, h3, fun x hxb => ?_⟩
  obtain ⟨⟨k1, k2⟩, -⟩ := hx x hxb
  have h := h4 x hxb
  exact ⟨same_fin h k1.1, by rw [same_val h, k2]⟩

/-- C98: the value of a program that is an N-D array of whole numbers: it stores no coordinate twice, and what it
stores for a coordinate is the exact element; what it does not store is zero. -/
theorem whole_entries {env : PyEnv F64} (he : env.Ok) {e : Prog F64} (hl : e.LitsOk) (hs : e.Small) (hi : e.Whole) {s : List Nat}
    (hc : e.check = .ok (.nd s)) : ∃ a : CooNd F64, (∀ out, e.Eval env out ↔ out = .ret (SpVal.nd a).obj) ∧ a.shape = s ∧
      (a.entries.map Prod.fst).Nodup ∧ (∀ k ∈ a.entries, InBounds s k.1 ∧ k.2.IsFin ∧ k.2.val = e.exactN k.1) ∧
      ∀ x, InBounds s x → x ∉ a.entries.map Prod.fst → e.exactN x = 0 := by
  obtain ⟨hd, hx⟩ := whole_exact hi hc
  obtain ⟨a, h1, h2, h3, h4, h5⟩ := elems_entries he hl hs hd hc
  refine ⟨a, h1, h2, h3, fun k hk => ?_, fun x hxb hk => ?_⟩
  · obtain ⟨b1, b2⟩ := h4 k hk
    obtain ⟨⟨k1, k2⟩, -⟩ := hx k.1 b1
    exact ⟨b1, same_fin b2 k1.1, by rw [same_val b2, k2]⟩
  · obtain ⟨⟨k1, k2⟩, -⟩ := hx x hxb
    rw [← k2]
    exact val_of_eq_zero _ (h5 x hxb hk)

/-- C98: sums along the axes of a matrix of whole numbers are exact, on every machine and for every schedule. -/
theorem whole_sum {env : PyEnv F64} (he : env.Ok) {e : Prog F64} (hl : e.LitsOk) (hs : e.Small) (hi : e.Whole) {τ : Ty}
    (hc : e.check = .ok τ) (h2d : τ.Is2d) {axis : AxisArg} (keep : Bool) (ha : axis.Valid 2) (hne : axis ≠ .many []) :
    (∃ out, e.Reduce env .sum axis keep out) ∧
    ∀ out, e.Reduce env .sum axis keep out →
      ∃ r, out = .ret (.dense r) ∧ IsReduction τ.shape (axis.covers 2) keep F64.ExactTotal e.exactN r := by
  obtain ⟨hd, hx⟩ := whole_exact hi hc
  obtain ⟨-, hh⟩ := elems_held he hl hs hd hc
  obtain ⟨hex, hall⟩ := prog_reduce_any he hl hs hd.wf.1 hc h2d (op := .sum) keep ha hne nofun
  refine ⟨hex, fun out h => ?_⟩
  obtain ⟨r, e1, hr⟩ := hall out h
  refine ⟨r, e1, hr.shape_eq, hr.size, fun y hy => ?_⟩
  obtain ⟨v, h1, h2⟩ := hr.cell y hy
  refine ⟨v, h1, ?_⟩
  obtain ⟨xs, hxs, hfib⟩ := fibre_map τ.shape (axis.covers 2) keep y
  rw [hfib] at h2 ⊢
  exact exactSum_total (fun x h => (hx x (hxs x h)).1) (heldAs_exactSum (fun x h => hh x (hxs x h)) h2)

/-- C98: the sum of an N-D array of whole numbers is exact. -/
theorem whole_nd_sum {env : PyEnv F64} (he : env.Ok) {e : Prog F64} (hl : e.LitsOk) (hs : e.Small) (hi : e.Whole)
    {s : List Nat} (hc : e.check = .ok (.nd s)) (keep : Bool) :
    (∃ out, e.Reduce env .sum .none keep out) ∧
    ∀ out, e.Reduce env .sum .none keep out →
      ∃ r, out = .ret (.dense r) ∧ IsReduction s (fun _ => true) keep F64.ExactTotal e.exactN r := by
  obtain ⟨hd, hx⟩ := whole_exact hi hc
  obtain ⟨-, hh⟩ := elems_held he hl hs hd hc
  obtain ⟨hex, hall⟩ := prog_nd_reduce_any he hl hs hd.wf.1 hc (op := .sum) trivial keep nofun
  refine ⟨hex, fun out h => ?_⟩
  obtain ⟨r, e1, hr⟩ := hall out h
  refine ⟨r, e1, hr.shape_eq, hr.size, fun y hy => ?_⟩
  obtain ⟨v, h1, h2⟩ := hr.cell y hy
  refine ⟨v, h1, ?_⟩
  obtain ⟨xs, hxs, hfib⟩ := fibre_map s (fun _ => true) keep y
  rw [hfib] at h2 ⊢
  exact exactSum_total (fun x h => (hx x (hxs x h)).1) (heldAs_exactSum (fun x h => hh x (hxs x h)) h2)

/-- C98: products along the axes of a matrix of whole numbers are exact. -/
theorem whole_prod {env : PyEnv F64} (he : env.Ok) {e : Prog F64} (hl : e.LitsOk) (hs : e.Small) (hi : e.Whole) {τ : Ty}
    (hc : e.check = .ok τ) (h2d : τ.Is2d) {axis : AxisArg} (keep : Bool) (ha : axis.Valid 2) (hne : axis ≠ .many []) :
    (∃ out, e.Reduce env .prod axis keep out) ∧
    ∀ out, e.Reduce env .prod axis keep out →
      ∃ r, out = .ret (.dense r) ∧ IsReduction τ.shape (axis.covers 2) keep F64.ExactProduct e.exactN r := by
  obtain ⟨hd, hx⟩ := whole_exact hi hc
  obtain ⟨-, hh⟩ := elems_held he hl hs hd hc
  obtain ⟨hex, hall⟩ := prog_reduce_any he hl hs hd.wf.1 hc h2d (op := .prod) keep ha hne nofun
  refine ⟨hex, fun out h => ?_⟩
  obtain ⟨r, e1, hr⟩ := hall out h
  refine ⟨r, e1, hr.shape_eq, hr.size, fun y hy => ?_⟩
  obtain ⟨v, h1, h2⟩ := hr.cell y hy
  refine ⟨v, h1, ?_⟩
  obtain ⟨xs, hxs, hfib⟩ := fibre_map τ.shape (axis.covers 2) keep y
  rw [hfib] at h2 ⊢
  exact exactProd_product (fun x h => (hx x (hxs x h)).1) (heldAs_exactProd (fun x h => hh x (hxs x h)) h2)

/-- C98: cumulative sums of whole numbers are exact. -/
theorem whole_cumsum {env : PyEnv F64} (he : env.Ok) {e : Prog F64} (hl : e.LitsOk) (hs : e.Small) (hi : e.Whole) {τ : Ty}
    (hc : e.check = .ok τ) (h2d : τ.Is2d) {axis : AxisArg} {rowwise : Bool} (ha : axis.Single rowwise)
    (hsz : 8 * (τ.shape.prod : Int) ≤ i64Max) (hcsc : rowwise = true → ∀ r c, τ ≠ .mat .csc r c) :
    (∃ out, e.Scan env .sum axis out) ∧
    ∀ out, e.Scan env .sum axis out → ∃ r, out = .ret r ∧ IsScanBy F64.ExactTotal rowwise τ.shape e.exactN r := by
  obtain ⟨hd, hx⟩ := whole_exact hi hc
  obtain ⟨hex, hall⟩ := elems_cumsum he hl hs hd hc h2d ha hsz hcsc
  refine ⟨hex, fun out hout => ?_⟩
  obtain ⟨r, e1, n, m, h1, h2, h3, h4⟩ := hall out hout
  rw [h1] at hx
  refine ⟨r, e1, n, m, h1, h2, h3, fun i j hi hj => ?_⟩
  have k := h4 i j hi hj
  have fold : ∀ {l : List F64}, SameNum (r.data.getD (i * m + j) 0) (l.foldl (· + ·) 0) → F64.ExactSum l (r.data.getD (i * m + j) 0) := by
    intro l k hx hb
    have := foldl_int l int_zero hx (by rw [show (0 : F64).val = 0 from rfl, abs_zero, zero_add]; exact hb)
    rw [show (0 : F64).val = 0 from rfl, zero_add] at this
    exact ⟨same_fin k this.1.1, by rw [same_val k, this.2]⟩
  have k := fold k
  unfold upTo at k ⊢
  cases rowwise
  · rw [if_neg (by simp)] at k ⊢
    refine exactSum_total (f := fun (q : Nat) => e.elems [(q : Int), (j : Int)]) (fun q hq => (hx _ ?_).1) k
    have := List.mem_range.1 hq
    exact .cons ⟨by omega, by omega⟩ (.cons ⟨by omega, by omega⟩ .nil)
  · rw [if_pos rfl] at k ⊢
    refine exactSum_total (f := fun (q : Nat) => e.elems [(i : Int), (q : Int)]) (fun q hq => (hx _ ?_).1) k
    have := List.mem_range.1 hq
    exact .cons ⟨by omega, by omega⟩ (.cons ⟨by omega, by omega⟩ .nil)

/-- C98: `matmul`, `tensordot` and `vecdot` of a matrix of whole numbers and a dense array of whole numbers are
exact. -/
theorem whole_linalg {env : PyEnv F64} (he : env.Ok) {e : Prog F64} (hl : e.LitsOk) (hs : e.Small) (hi : e.Whole) {τ : Ty}
    (hc : e.check = .ok τ) (h2d : τ.Is2d) {fn : LinFn} {y : DenseNd F64} (hy : y.Ok) {tr : Bool} {p : Nat}
    (hfn : fn.Contraction y.shape.length tr p) {r c : Nat} (hrc : (if tr then τ.shape.reverse else τ.shape) = [r, c])
    (hyc : y.shape[p]? = some c) (hpos : 0 < (y.shape.eraseIdx p).prod)
    (hsz : 8 * ((max r 1 * (y.shape.eraseIdx p).prod : Nat) : Int) ≤ i64Max) :
    (∃ out, e.Linalg env fn y out) ∧
    ∀ out, e.Linalg env fn y out → ∃ d, out = .ret (.dense d) ∧ d.shape = y.shape.set p r ∧ d.data.length = d.shape.prod ∧
      ∀ z, InBounds d.shape z → F64.ExactInner
        ((List.range c).map fun (j : Nat) => (e.exactN (if tr then [(j : Int), z.getD p 0] else [z.getD p 0, (j : Int)]),
          y.elem (z.set p (j : Int)))) (d.elem z) := by
  obtain ⟨hd, hx⟩ := whole_exact hi hc
  obtain ⟨hin, hh⟩ := elems_held he hl hs hd hc
  obtain ⟨r0, c0, hsh⟩ := is2d_shape h2d
  obtain ⟨hex, hall⟩ := prog_linalg_any F64.mul_comm he hl hs hd.wf.1 hc h2d hy hfn hrc hyc hpos hsz
  rw [hsh] at hrc hin hh hx
  refine ⟨hex, fun out hout => ?_⟩
  obtain ⟨d, e1, hd1, hd2, hd3⟩ := hall out hout
  refine ⟨d, e1, hd1, hd2, fun z hz => ?_⟩
  have hp : p < y.shape.length := by
    by_contra h
    rw [List.getElem?_eq_none (by omega)] at hyc
    cases hyc
  have hb : ∀ j ∈ List.range c, InBounds [r0, c0] (dotKey tr p z j) := fun j hj =>
    dotKey_bounds hrc hp (hd1 ▸ hz) (List.mem_range.1 hj)
  have hh : ∀ j ∈ List.range c, HeldAs (valuesAt e.stores (dotKey tr p z j)) (e.elems (dotKey tr p z j)) := fun j hj => hh _ (hb j hj)
  have hperm := dotTerms_perm (p := p) (z := z) hrc hin y
  refine exactDot_inner (f := fun j => e.elems (dotKey tr p z j)) (fun j hj => (hx _ (hb j hj)).1) fun hi hb => ?_
  have sums : ∀ g : ℚ → ℚ, g 0 = 0 → ((dotTerms e.stores tr p y z).map fun q => g (q.1.val * q.2.val)).sum =
      ((List.range c).map fun j => g ((e.elems (dotKey tr p z j)).val * (y.elem (z.set p (j : Int))).val)).sum := by
    intro g hg
    rw [← (hperm.map fun q : F64 × F64 => g (q.1.val * q.2.val)).sum_eq, List.map_flatMap]
    simp only [List.map_map]
    exact heldAs_sum (List.range c) hh (fun j a => g (a.val * (y.elem (z.set p (j : Int))).val))
      (fun j a b h => by rw [same_val h]) (fun j => by rw [show (0 : F64).val = 0 from rfl, zero_mul, hg])
  rw [List.map_map] at hb
  have := dotCell_int (hd3 z hz) (fun q hq => by
    obtain ⟨j, hj, hq⟩ := List.mem_flatMap.1 (hperm.mem_iff.2 hq)
    obtain ⟨a, ha, rfl⟩ := List.mem_map.1 hq
    have := hi _ (List.mem_map_of_mem (f := fun (j : Nat) => (e.elems (dotKey tr p z j), y.elem (z.set p (j : Int)))) hj)
    exact ⟨heldAs_int (x := j) (held := fun j => valuesAt e.stores (dotKey tr p z j)) (dense := fun j => e.elems (dotKey tr p z j)) (hh j hj) this.1 ha, this.2⟩)
    (by rw [sums (fun x => |x|) abs_zero]; exact hb)
  refine ⟨this.1, ?_⟩
  rw [this.2, sums (fun x => x) rfl, List.map_map]
  rfl

/-- C98: `tensordot` and `vecdot` of an N-D array of whole numbers and a dense array of whole numbers: exact. -/
theorem whole_tensordot_nd {env : PyEnv F64} (he : env.Ok) {e : Prog F64} (hl : e.LitsOk) (hs : e.Small) (hi : e.Whole)
    {s : List Nat} (hc : e.check = .ok (.nd s)) {axes : AxesArg} {axis : Nat} (hax : axis < s.length)
    (hnd : (LinFn.tensordot axes).NdContraction s.length axis)
    {y : DenseNd F64} (hy : y.Ok) {rest : List Nat} (hys : y.shape = s.getD axis 0 :: rest) (hpos : 0 < rest.prod)
    (hcells : (((s.eraseIdx axis).prod * rest.prod : Nat) : Int) ≤ i64Max)
    (hmem : 24 * ((e.stores.length * s.length * rest.prod : Nat) : Int) ≤ i64Max) :
    ∃ r : CooNd F64, (∀ out, e.Linalg env (.tensordot axes) y out ↔ out = .ret (.sparse (SpVal.nd r).obj)) ∧
      r.shape = s.eraseIdx axis ++ [rest.prod] ∧
      ∀ u z, InBounds (s.eraseIdx axis) u → InBounds rest z →
        F64.ExactInner ((List.range (s.getD axis 0)).map fun (j : Nat) => (e.exactN (u.insertIdx axis (j : Int)), y.elem ((j : Int) :: z)))
          (readAt r.entries (u ++ [(rowMajor rest z : Int)])) := by
  obtain ⟨hd, hx⟩ := whole_exact hi hc
  obtain ⟨r, h1, h2, h3⟩ := elems_tensordot_nd he hl hs hd hc hax hnd hy hys hpos hcells hmem
  refine ⟨r, h1, h2, fun u z hu hz => ?_⟩
  exact exactDot_inner (f := fun (j : Nat) => e.elems (u.insertIdx axis (j : Int)))
    (fun j hj => (hx _ (insertIdx_inBounds hax hu (List.mem_range.1 hj))).1) (h3 u z hu hz).2.1

/-- C98: the same for `vecdot`. -/
theorem whole_vecdot_nd {env : PyEnv F64} (he : env.Ok) {e : Prog F64} (hl : e.LitsOk) (hs : e.Small) (hi : e.Whole)
    {s : List Nat} (hc : e.check = .ok (.nd s)) {ax : Option Int} {axis : Nat} (hax : axis < s.length) (hrank : 1 < s.length)
    (hnd : (LinFn.vecdot ax).NdContraction s.length axis) {y : DenseNd F64} (hy : y.Ok) (hys : y.shape = [s.getD axis 0]) :
    ∃ r : CooNd F64, (∀ out, e.Linalg env (.vecdot ax) y out ↔ out = .ret (.sparse (SpVal.nd r).obj)) ∧
      r.shape = s.eraseIdx axis ∧
      ∀ u, InBounds (s.eraseIdx axis) u →
        F64.ExactInner ((List.range (s.getD axis 0)).map fun (j : Nat) => (e.exactN (u.insertIdx axis (j : Int)), y.elem [(j : Int)]))
          (readAt r.entries u) := by
  obtain ⟨hd, hx⟩ := whole_exact hi hc
  obtain ⟨r, h1, h2, h3⟩ := elems_vecdot_nd he hl hs hd hc hax hrank hnd hy hys
  refine ⟨r, h1, h2, fun u hu => ?_⟩
  exact exactDot_inner (f := fun (j : Nat) => e.elems (u.insertIdx axis (j : Int)))
    (fun j hj => (hx _ (insertIdx_inBounds hax hu (List.mem_range.1 hj))).1) (h3 u hu).2.1

/-! ### examples -/

/-- `A` is the 2 × 1 array `[[2], [-3]]` and `B` the vector `[4, 5]`; `A * B` is `[[8, 10], [-12, -15]]`. -/
def exA98 : Prog F64 := .nd [2, 1] [0, 0, 1, 0] [F64.ofRat (2 : ℤ), F64.ofRat (-3 : ℤ)]
def exB98 : Prog F64 := .nd [2] [0, 1] [F64.ofRat (4 : ℤ), F64.ofRat (5 : ℤ)]
def exP98 : Prog F64 := .bin .mul exA98 exB98
/-- The sum of `A * B` over its first axis, `[-4, -5]`, as a matrix with one column, times 7. -/
def exS98 : Prog F64 := .ndop .reduceSum [0] exP98
def exU98 : Prog F64 := .scalar .mul (.ndop (.unfold .csr) [0] exS98) (F64.ofRat (7 : ℤ))
/-- The mean of `A * B` over its first axis, negated: `[2, 2.5]`. -/
def exM98 : Prog F64 := .ndop (.unfold .csr) [0] (.un .neg (.ndop .reduceMean [0] exP98))

theorem ex98_vals : exA98.exactN [0, 0] = 2 ∧ exA98.exactN [1, 0] = -3 ∧ exB98.exactN [0] = 4 ∧ exB98.exactN [1] = 5 ∧
    (exA98.elems [0, 0]).IsInt ∧ (exA98.elems [1, 0]).IsInt ∧ (exB98.elems [0]).IsInt ∧ (exB98.elems [1]).IsInt := by
  have n2 := int_lit 2 (by norm_num)
  have n3 := int_lit (-3) (by norm_num)
  have n4 := int_lit 4 (by norm_num)
  have n5 := int_lit 5 (by norm_num)
  refine ⟨?_, ?_, ?_, ?_, n2.1, n3.1, n4.1, n5.1⟩
  · exact n2.2.trans (by norm_num)
  · exact n3.2.trans (by norm_num)
  · exact n4.2.trans (by norm_num)
  · exact n5.2.trans (by norm_num)

theorem exP98_ok : exP98.LitsOk ∧ exP98.Small ∧ exP98.check = .ok (.nd [2, 2]) := by
  have h1 : ∀ k < 2, ∀ d (h : d < [2, 1].length), 0 ≤ ([0, 0, 1, 0] : List Int).getD (k * 2 + d) 0 ∧
      ([0, 0, 1, 0] : List Int).getD (k * 2 + d) 0 < (([2, 1] : List Nat)[d] : Nat) := by decide
  have h2 : ∀ k < 2, ∀ d (h : d < [2].length), 0 ≤ ([0, 1] : List Int).getD (k * 1 + d) 0 ∧
      ([0, 1] : List Int).getD (k * 1 + d) 0 < (([2] : List Nat)[d] : Nat) := by decide
  refine ⟨⟨⟨by decide, ⟨by decide, rfl, h1⟩, ?_⟩, by decide, ⟨by decide, rfl, h2⟩, ?_⟩, by decide +kernel, by decide +kernel⟩
  · show ∀ i ∈ ([0, 0, 1, 0] : List Int), i ≤ i64Max; decide
  · show ∀ i ∈ ([0, 1] : List Int), i ≤ i64Max; decide

theorem exP98_whole : exP98.Whole := by
  obtain ⟨a0, a1, b0, b1, i0, i1, j0, j1⟩ := ex98_vals
  refine ⟨⟨?_, fun x hx => ?_, fun x hx => ?_⟩, ⟨?_, fun x hx => ?_, fun x hx => ?_⟩, fun x hx => ?_⟩
  · show ([[0, 0], [1, 0]] : List (List Int)).Nodup
    decide
  · have hx : x ∈ indicesOf [2, 1] := mem_indicesOf.2 hx
    have hx : x ∈ [[(0 : Int), 0], [1, 0]] := hx
    simp only [List.mem_cons, List.not_mem_nil, or_false] at hx
    rcases hx with rfl | rfl
    · exact i0
    · exact i1
  · have hx : x ∈ indicesOf [2, 1] := mem_indicesOf.2 hx
    have hx : x ∈ [[(0 : Int), 0], [1, 0]] := hx
    simp only [List.mem_cons, List.not_mem_nil, or_false] at hx
    rcases hx with rfl | rfl
    · exact (show |exA98.exactN [0, 0]| ≤ 2 ^ 53 by rw [a0]; norm_num)
    · exact (show |exA98.exactN [1, 0]| ≤ 2 ^ 53 by rw [a1]; norm_num)
  · show ([[0], [1]] : List (List Int)).Nodup
    decide
  · have hx : x ∈ indicesOf [2] := mem_indicesOf.2 hx
    have hx : x ∈ [[(0 : Int)], [1]] := hx
    simp only [List.mem_cons, List.not_mem_nil, or_false] at hx
    rcases hx with rfl | rfl
    · exact j0
    · exact j1
  · have hx : x ∈ indicesOf [2] := mem_indicesOf.2 hx
    have hx : x ∈ [[(0 : Int)], [1]] := hx
    simp only [List.mem_cons, List.not_mem_nil, or_false] at hx
    rcases hx with rfl | rfl
    · exact (show |exB98.exactN [0]| ≤ 2 ^ 53 by rw [b0]; norm_num)
    · exact (show |exB98.exactN [1]| ≤ 2 ^ 53 by rw [b1]; norm_num)
  · have hx : x ∈ indicesOf [2, 2] := mem_indicesOf.2 hx
    have hx : x ∈ [[(0 : Int), 0], [0, 1], [1, 0], [1, 1]] := hx
    simp only [List.mem_cons, List.not_mem_nil, or_false] at hx
    rcases hx with rfl | rfl | rfl | rfl
    · exact (show |exA98.exactN [0, 0] * exB98.exactN [0]| ≤ 2 ^ 53 by rw [a0, b0]; norm_num)
    · exact (show |exA98.exactN [0, 0] * exB98.exactN [1]| ≤ 2 ^ 53 by rw [a0, b1]; norm_num)
    · exact (show |exA98.exactN [1, 0] * exB98.exactN [0]| ≤ 2 ^ 53 by rw [a1, b0]; norm_num)
    · exact (show |exA98.exactN [1, 0] * exB98.exactN [1]| ≤ 2 ^ 53 by rw [a1, b1]; norm_num)

theorem exS98_whole : exS98.Whole ∧ exS98.exactN [0] = -4 ∧ exS98.exactN [1] = -5 := by
  obtain ⟨a0, a1, b0, b1, -⟩ := ex98_vals
  refine ⟨⟨exP98_whole, fun x hx => ?_⟩, ?_, ?_⟩
  · have hx : x ∈ indicesOf [2] := mem_indicesOf.2 hx
    have hx : x ∈ [[(0 : Int)], [1]] := hx
    simp only [List.mem_cons, List.not_mem_nil, or_false] at hx
    rcases hx with rfl | rfl
    · show ([|exA98.exactN [0, 0] * exB98.exactN [0]|, |exA98.exactN [1, 0] * exB98.exactN [0]|] : List ℚ).sum ≤ _
      rw [a0, a1, b0]; norm_num
    · show ([|exA98.exactN [0, 0] * exB98.exactN [1]|, |exA98.exactN [1, 0] * exB98.exactN [1]|] : List ℚ).sum ≤ _
      rw [a0, a1, b1]; norm_num
  · show ([exA98.exactN [0, 0] * exB98.exactN [0], exA98.exactN [1, 0] * exB98.exactN [0]] : List ℚ).sum = _
    rw [a0, a1, b0]; norm_num
  · show ([exA98.exactN [0, 0] * exB98.exactN [1], exA98.exactN [1, 0] * exB98.exactN [1]] : List ℚ).sum = _
    rw [a0, a1, b1]; norm_num

theorem exU98_whole : exU98.Whole ∧ exU98.exactN [0, 0] = -28 ∧ exU98.exactN [1, 0] = -35 := by
  obtain ⟨hw, s0, s1⟩ := exS98_whole
  have n7 := int_lit 7 (by norm_num)
  have u0 : exU98.exactN [0, 0] = -28 := by
    show exS98.exactN [0] * (F64.ofRat (7 : ℤ)).val = _
    rw [s0, n7.2]; norm_num
  have u1 : exU98.exactN [1, 0] = -35 := by
    show exS98.exactN [1] * (F64.ofRat (7 : ℤ)).val = _
    rw [s1, n7.2]; norm_num
  refine ⟨⟨hw, n7.1, fun x hx => ?_⟩, u0, u1⟩
  have hx : x ∈ indicesOf [2, 1] := mem_indicesOf.2 hx
  have hx : x ∈ [[(0 : Int), 0], [1, 0]] := hx
  simp only [List.mem_cons, List.not_mem_nil, or_false] at hx
  rcases hx with rfl | rfl
  · show |exU98.exactN [0, 0]| ≤ _
    rw [u0]; norm_num
  · show |exU98.exactN [1, 0]| ≤ _
    rw [u1]; norm_num

/-- In every execution `reduce_sum_axes(A * B, [0])` as a matrix, times 7, is exactly `[[-28], [-35]]`. -/
example {env : PyEnv F64} (he : env.Ok) : ∃ d, (∀ out, exU98.Toarray env out ↔ out = .ret d) ∧ d.shape = [2, 1] ∧
    (d.elem [0, 0]).val = -28 ∧ (d.elem [1, 0]).val = -35 := by
  obtain ⟨h1, -⟩ := exP98_ok
  obtain ⟨d, ho, hs, -, hd⟩ := whole_toarray he (e := exU98) h1 (by decide +kernel) exU98_whole.1
    (τ := .mat .csr 2 1) (by decide +kernel) trivial
  refine ⟨d, ho, hs, ?_, ?_⟩
  · rw [(hd [0, 0] (.cons ⟨by decide, by decide⟩ (.cons ⟨by decide, by decide⟩ .nil))).2]
    exact exU98_whole.2.1
  · rw [(hd [1, 0] (.cons ⟨by decide, by decide⟩ (.cons ⟨by decide, by decide⟩ .nil))).2]
    exact exU98_whole.2.2

theorem exM98_ok : exM98.LitsOk ∧ exM98.Small ∧ exM98.AsElems ∧ exM98.check = .ok (.mat .csr 2 1) := by
  obtain ⟨h1, -, h3⟩ := exP98_ok
  have hw := (whole_exact exS98_whole.1 (τ := .nd [2]) (by decide +kernel)).1.2
  exact ⟨h1, by decide +kernel, ⟨(whole_exact exP98_whole h3).1, by decide +kernel, hw⟩, by decide +kernel⟩

/-- In every execution `-reduce_mean_axes(A * B, [0])` as a matrix is `[[2], [2.5]]`. -/
example {env : PyEnv F64} (he : env.Ok) : ∃ d, (∀ out, exM98.Toarray env out ↔ out = .ret d) ∧ d.shape = [2, 1] ∧
    d.elem [0, 0] = F64.ofRat 2 ∧ d.elem [1, 0] = F64.ofRat (5 / 2) := by
  obtain ⟨h1, h2, h3, h4⟩ := exM98_ok
  have c0 : exM98.elems [0, 0] = -((0 + F64.ofRat (2 : ℤ) * F64.ofRat (4 : ℤ) + F64.ofRat (-3 : ℤ) * F64.ofRat (4 : ℤ)) *
    (1 / ((2 : Nat) : F64))) := rfl
  have c1 : exM98.elems [1, 0] = -((0 + F64.ofRat (2 : ℤ) * F64.ofRat (5 : ℤ) + F64.ofRat (-3 : ℤ) * F64.ofRat (5 : ℤ)) *
    (1 / ((2 : Nat) : F64))) := rfl
  obtain ⟨d, ho, hs, -, hd⟩ := elems_toarray he h1 h2 h3 h4 trivial
  refine ⟨d, ho, hs, ?_, ?_⟩
  · exact same_at (hd [0, 0] (.cons ⟨by decide, by decide⟩ (.cons ⟨by decide, by decide⟩ .nil)))
      (c0.trans (by decide +kernel)) (by decide +kernel)
  · exact same_at (hd [1, 0] (.cons ⟨by decide, by decide⟩ (.cons ⟨by decide, by decide⟩ .nil)))
      (c1.trans (by decide +kernel)) (by decide +kernel)

end
end Lacuna
