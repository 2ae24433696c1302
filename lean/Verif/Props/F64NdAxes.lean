import Verif.Props.F64NdRed
import Verif.Props.PyDotNd
import Verif.Props.ExactNd
import Verif.Spec.F64NdAxes
/-
C99: `reduce_sum_axes` and `reduce_mean_axes` of programs in binary64, for any numbers; means and differences of
whole numbers.
-/
set_option linter.unusedSectionVars false
namespace Lacuna

/-- What is stored along the axes, line by line or in storage order. -/
theorem axis_perm {s xs : List Nat} {l : List (List Int × F64)} (hin : ∀ k ∈ l, InBounds s k.1) (x : List Int) :
    ((((indicesOf s).filter fun z => select (restAxes s.length xs) z == x).map fun z => valuesAt l z).flatten).Perm
      (valuesAt (l.map fun e => (select (restAxes s.length xs) e.1, e.2)) x) := by
  have hks : ((indicesOf s).filter fun z => select (restAxes s.length xs) z == x).Nodup := (indicesOf_nodup s).filter _
  generalize hz : ((indicesOf s).filter fun z => select (restAxes s.length xs) z == x) = zs at hks
  have hzs : ∀ z, z ∈ zs ↔ InBounds s z ∧ select (restAxes s.length xs) z = x := fun z => by
    rw [← hz, List.mem_filter, mem_indicesOf, beq_iff_eq]
  have hp := (perm_by_key (fun k : List Int × F64 => k.1) hks l).map Prod.snd
  have e1 : (zs.flatMap fun k => l.filter fun y => y.1 == k).map Prod.snd = (zs.map fun z => valuesAt l z).flatten := by
    rw [List.map_flatMap, List.flatMap]
    rfl
  have e2 : (l.filter fun y => zs.contains y.1).map Prod.snd =
      valuesAt (l.map fun e => (select (restAxes s.length xs) e.1, e.2)) x := by
    unfold valuesAt
    rw [List.filter_map, List.map_map]
    congr 1
    apply List.filter_congr
    intro k hk
    rw [Bool.eq_iff_iff, List.contains_iff_mem, hzs]
    simp only [Function.comp, beq_iff_eq]
    exact ⟨fun h => h.2, fun h => ⟨hin k hk, h⟩⟩
  rwa [e1, e2] at hp

theorem sumAll_rounded (l : List F64) : RoundedSum F64.fp.toFpAdd (l : Multiset F64) ((sumAll l).getD 0) := by
  cases h : sumAll l with
  | none =>
    rw [sumAll_eq_none.1 h]
    exact AddTree.rounded _ AddTree.zero
  | some v => exact AddTree.rounded _ (sumAll_tree h)

section
variable [HasMinMax F64] [HasPowf F64]

/-- The sum of what is stored along the axes is the sum of the elements up to rounding. -/
theorem axis_rounded {s xs : List Nat} {l : List (List Int × F64)} (hin : ∀ k ∈ l, InBounds s k.1) {c : List Int → F64}
    (h : ∀ y, InBounds s y → HeldAs (valuesAt l y) (c y)) (x : List Int) :
    RoundedSum F64.fp.toFpAdd (axisLine s xs c x : Multiset F64)
      ((total (l.map fun e => (select (restAxes s.length xs) e.1, e.2)) x).getD 0) := by
  rw [total_eq_sumAll]
  have h1 := sumAll_rounded (valuesAt (l.map fun e => (select (restAxes s.length xs) e.1, e.2)) x)
  rw [← Multiset.coe_eq_coe.2 (axis_perm hin x)] at h1
  exact heldAs_rounded (held := fun z => valuesAt l z) (dense := c)
    (fun z hz => h z (mem_indicesOf.1 (List.mem_filter.1 hz).1)) h1

theorem axis_nan {s xs : List Nat} {l : List (List Int × F64)} (hin : ∀ k ∈ l, InBounds s k.1) {c : List Int → F64}
    (h : ∀ y, InBounds s y → HeldAs (valuesAt l y) (c y)) {x : List Int} (hn : ∃ v ∈ axisLine s xs c x, isNan v = true) :
    isNan ((total (l.map fun e => (select (restAxes s.length xs) e.1, e.2)) x).getD 0) = true := by
  rw [total_eq_sumAll]
  obtain ⟨v, hv, hn⟩ := hn
  obtain ⟨z, hz, rfl⟩ := List.mem_map.1 hv
  have hmem : ∃ w ∈ valuesAt l z, isNan w = true := by
    rcases h z (mem_indicesOf.1 (List.mem_filter.1 hz).1) with ⟨-, e2⟩ | ⟨w, e1, e2⟩
    · obtain ⟨b, e3⟩ := F64.eq_zero_iff.1 e2
      rw [e3] at hn; cases hn
    · refine ⟨w, by rw [e1]; exact List.mem_singleton_self _, ?_⟩
      rcases e2 with e2 | ⟨-, e2⟩
      · rw [e2]; exact hn
      · obtain ⟨b, e3⟩ := F64.eq_zero_iff.1 e2
        rw [e3] at hn; cases hn
  obtain ⟨w, hw, hwn⟩ := hmem
  have hw' : w ∈ valuesAt (l.map fun e => (select (restAxes s.length xs) e.1, e.2)) x :=
    (axis_perm hin x).mem_iff.1 (List.mem_flatten.2 ⟨_, List.mem_map_of_mem hz, hw⟩)
  cases hs : sumAll (valuesAt (l.map fun e => (select (restAxes s.length xs) e.1, e.2)) x) with
  | none => rw [sumAll_eq_none.1 hs] at hw'; cases hw'
  | some u => exact addTree_nan F64.isNan_add (sumAll_tree hs) ⟨w, Multiset.mem_coe.2 hw', hwn⟩

/-- The rounded reciprocal of a count has a relative error of at most `2⁻⁵³`. -/
theorem f64_recip_err {n : Nat} (h0 : 0 < n) (h53 : n ≤ 2 ^ 53) :
    (1 / (n : F64)).IsFin ∧ |(1 / (n : F64)).val - 1 / n| ≤ 1 / 2 ^ 53 * (1 / n) ∧ ((1 / (n : F64)) == 0) = false := by
  obtain ⟨k1, k2⟩ := f64_nat h53
  have hq : (1 : ℚ) ≤ n := by exact_mod_cast h0
  have hq2 : (n : ℚ) ≤ 2 ^ 53 := by exact_mod_cast h53
  have hpos : (0 : ℚ) < 1 / n := by positivity
  have hle : (1 : ℚ) / n ≤ 1 := by rw [div_le_one (by linarith)]; exact hq
  have hd := F64.div_rnd F64.one_fin.1 k1 (by rw [k2]; linarith) (by
    rw [F64.one_fin.2, k2, abs_of_pos hpos]
    refine le_trans hle ?_
    have := F64.int_max (q := 1) (by norm_num)
    rwa [abs_one] at this)
  rw [F64.one_fin.2, k2] at hd
  have hlog : (-53 : ℤ) ≤ Int.log 2 |(1 : ℚ) / n| := by
    rw [abs_of_pos hpos, ← Int.zpow_le_iff_le_log (by norm_num) hpos]
    rw [show ((2 : ℕ) : ℚ) ^ (-53 : ℤ) = 1 / 2 ^ 53 by norm_num]
    exact one_div_le_one_div_of_le (by linarith) hq2
  have hr := rnd64_rel (x := (1 : ℚ) / n) (by omega) (ne_of_gt hpos)
  rw [abs_of_pos hpos] at hr
  refine ⟨hd.1, by rw [hd.2]; exact hr, ?_⟩
  rw [Bool.eq_false_iff]
  intro h
  have hv := F64.val_of_eq_zero _ h
  rw [hd.2] at hv
  rw [hv, zero_sub, abs_neg, abs_of_pos hpos] at hr
  nlinarith

/-- A sum up to rounding, scaled by the rounded reciprocal of the count. -/
theorem f64_recip_mean {l : List F64} {t v : F64} (h : RoundedSum F64.fp.toFpAdd (l : Multiset F64) t) (hk : l.length ≤ 2 ^ 53)
    (hv : SameNum v (if l.length = 1 then t else scaleBits (1 / (l.length : F64)) t)) : F64.ReciprocalMean l v := by
  intro hne hf hb
  suffices hv' : ∀ v', v' = (if l.length = 1 then t else scaleBits (1 / (l.length : F64)) t) →
      v'.IsFin ∧ |v'.val - (l.map F64.val).sum / l.length| ≤
        ((1 + 1 / 2 ^ 53) ^ (l.length + 1) - 1) * ((l.map fun x => |x.val|).sum / l.length) + 1 / 2 * 2 ^ (-1074 : ℤ) by
    obtain ⟨k1, k2⟩ := hv' _ rfl
    exact ⟨F64.same_fin hv k1, by rw [F64.same_val hv]; exact k2⟩
  clear hv v
  intro v hv
  have hpos : 0 < l.length := List.length_pos_of_ne_nil hne
  obtain ⟨r1, r2, r3⟩ := f64_recip_err hpos hk
  rw [f64_scale_ne r3] at hv
  unfold RoundedSum at h
  simp only [Multiset.coe_card, Multiset.map_coe, Multiset.sum_coe] at h
  obtain ⟨h1, h2⟩ := h (fun x hx => hf x (Multiset.mem_coe.1 hx)) hb
  have h2 : |t.val - (l.map F64.val).sum| ≤ ((1 + 1 / 2 ^ 53) ^ (l.length - 1) - 1) * (l.map fun x => |x.val|).sum := h2
  have hA : 0 ≤ (l.map fun x => |x.val|).sum := List.sum_nonneg (by
    intro x hx
    obtain ⟨p, -, rfl⟩ := List.mem_map.1 hx
    exact abs_nonneg _)
  have hS := abs_sum_val l
  have hη := two_zpow_pos (-1074)
  have hq : (1 : ℚ) ≤ (l.length : ℚ) := by exact_mod_cast hpos
  generalize (l.map F64.val).sum = S at *
  generalize (l.map fun x => |x.val|).sum = A at *
  obtain ⟨m, hm⟩ : ∃ m, l.length = m + 1 := ⟨l.length - 1, by omega⟩
  rw [hm, Nat.add_sub_cancel] at h2
  obtain ⟨P, hP⟩ : ∃ P : ℚ, P = (1 + 1 / 2 ^ 53) ^ m := ⟨_, rfl⟩
  have hpow : 1 ≤ P := by rw [hP]; exact one_le_pow₀ (by norm_num)
  have e1 : (1 + 1 / 2 ^ 53 : ℚ) ^ l.length = P * (1 + 1 / 2 ^ 53) := by rw [hm, pow_succ, hP]
  have e2 : (1 + 1 / 2 ^ 53 : ℚ) ^ (l.length + 1) = P * (1 + 1 / 2 ^ 53) * (1 + 1 / 2 ^ 53) := by rw [pow_succ, e1]
  rw [← hP] at h2
  rw [e1] at hb
  rw [e2]
  obtain ⟨u, hu⟩ : ∃ u : ℚ, u = 1 / 2 ^ 53 := ⟨_, rfl⟩
  have hu0 : 0 ≤ u := by rw [hu]; positivity
  rw [← hu] at r2 hb ⊢
  have ht : |t.val| ≤ P * A := by
    have : |t.val| ≤ |t.val - S| + |S| := by
      have := abs_add_le (t.val - S) S
      rwa [sub_add_cancel] at this
    nlinarith
  generalize hη' : (1 : ℚ) / 2 * 2 ^ (-1074 : ℤ) = η at *
  have hη : 0 < η := by rw [← hη']; linarith
  by_cases hn : l.length = 1
  · rw [if_pos hn] at hv
    rw [hv]
    refine ⟨h1, ?_⟩
    rw [hn, Nat.cast_one, div_one, div_one]
    have k1 : P ≤ P * ((1 + u) * (1 + u)) := le_mul_of_one_le_right (by linarith) (by nlinarith)
    have k2 : (P - 1) * A ≤ (P * (1 + u) * (1 + u) - 1) * A := mul_le_mul_of_nonneg_right (by linarith) hA
    linarith
  rw [if_neg hn] at hv
  generalize (1 / (l.length : F64)) = r at *
  obtain ⟨w, hw⟩ : ∃ w : ℚ, w = 1 / (l.length : ℚ) := ⟨_, rfl⟩
  have hw0 : 0 < w := by rw [hw]; positivity
  have hw1 : w ≤ 1 := by rw [hw, div_le_one (by linarith)]; exact hq
  have ew : ∀ z : ℚ, z / (l.length : ℚ) = z * w := fun z => by rw [hw]; ring
  rw [ew, ew]
  rw [← hw] at r2
  have hr : |r.val| ≤ (1 + u) * w := by
    have := abs_add_le (r.val - w) w
    rw [sub_add_cancel, abs_of_pos hw0] at this
    linarith
  have htr : |t.val * r.val| ≤ P * A * ((1 + u) * w) := by
    rw [abs_mul]
    exact mul_le_mul ht hr (abs_nonneg _) (by positivity)
  have hPA : 0 ≤ P * A := by positivity
  have hmax : P * A * ((1 + u) * w) ≤ max64 := by
    have : P * A * ((1 + u) * w) ≤ P * (1 + u) * A := by
      have : P * A * (1 + u) * w ≤ P * A * (1 + u) * 1 := mul_le_mul_of_nonneg_left hw1 (by positivity)
      linarith
    linarith
  have hd := F64.mul_rnd h1 r1 (le_trans htr hmax)
  rw [hv]
  refine ⟨hd.1, ?_⟩
  rw [hd.2]
  have e := rnd64_err (t.val * r.val)
  rw [← hu, hη'] at e
  have d1 : |t.val * r.val - S * w| ≤ P * A * (u * w) + (P - 1) * A * w := by
    have e3 : t.val * r.val - S * w = t.val * (r.val - w) + (t.val - S) * w := by ring
    rw [e3]
    refine le_trans (abs_add_le _ _) (add_le_add ?_ ?_)
    · rw [abs_mul]
      exact mul_le_mul ht r2 (abs_nonneg _) hPA
    · rw [abs_mul, abs_of_pos hw0]
      exact mul_le_mul_of_nonneg_right h2 hw0.le
  have d2 := abs_add_le (rnd64 (t.val * r.val) - t.val * r.val) (t.val * r.val - S * w)
  rw [sub_add_sub_cancel] at d2
  have d3 : u * |t.val * r.val| ≤ u * (P * A * ((1 + u) * w)) := mul_le_mul_of_nonneg_left htr hu0
  have d4 : (P * (1 + u) * (1 + u) - 1) * (A * w) =
      u * (P * A * ((1 + u) * w)) + (P * A * (u * w) + (P - 1) * A * w) := by ring
  linarith

/-- The number of elements along the axes. -/
theorem axisLine_length {s xs : List Nat} (hv : AxesOk s.length xs) (c : List Int → F64) {x : List Int}
    (hx : InBounds (extents s (restAxes s.length xs)) x) : (axisLine s xs c x).length = (extents s xs).prod := by
  have hp := axes_perm hv
  have hsel : ∀ z, select (xs ++ restAxes s.length xs) z = select xs z ++ select (restAxes s.length xs) z := fun z => by
    unfold select
    rw [List.map_append]
  have hext : extents s (xs ++ restAxes s.length xs) = extents s xs ++ extents s (restAxes s.length xs) := by
    unfold extents
    rw [List.map_append]
  have hb : ∀ k, InBounds (extents s xs) k → InBounds (extents s (xs ++ restAxes s.length xs)) (k ++ x) := fun k hk => by
    rw [hext]
    exact List.rel_append hk hx
  have hu : ∀ k, InBounds (extents s xs) k → select xs (unpermute (xs ++ restAxes s.length xs) (k ++ x)) = k ∧
      select (restAxes s.length xs) (unpermute (xs ++ restAxes s.length xs) (k ++ x)) = x := fun k hk => by
    have h := select_unpermute hp (y := k ++ x) (by
      have := (hb k hk).length_eq
      rw [this]
      unfold extents
      rw [List.length_map]
      simpa using hp.length_eq)
    rw [hsel] at h
    exact List.append_inj h (by rw [hk.length_eq]; simp [select, extents])
  have key : ((indicesOf s).filter fun z => select (restAxes s.length xs) z == x).Perm
      ((indicesOf (extents s xs)).map fun k => unpermute (xs ++ restAxes s.length xs) (k ++ x)) := by
    rw [List.perm_ext_iff_of_nodup ((indicesOf_nodup s).filter _)]
    · intro z
      rw [List.mem_filter, mem_indicesOf, beq_iff_eq, List.mem_map]
      constructor
      · rintro ⟨h1, h2⟩
        have hk : InBounds (extents s xs) (select xs z) := by
          have h1 := (inBounds_iff_get.1 h1).2
          unfold InBounds extents select
          rw [List.forall₂_map_left_iff, List.forall₂_map_right_iff, List.forall₂_same]
          exact fun d hd => h1 d (hv.1 d hd)
        refine ⟨select xs z, mem_indicesOf.2 hk, ?_⟩
        refine select_perm_inj hp (unpermute_inBounds hp (hb _ hk)) h1 ?_
        rw [hsel, hsel, (hu _ hk).1, (hu _ hk).2, h2]
      · rintro ⟨k, hk, rfl⟩
        have hk := mem_indicesOf.1 hk
        exact ⟨unpermute_inBounds hp (hb k hk), (hu k hk).2⟩
    · refine List.Nodup.map_on (fun k hk k' hk' h => ?_) (indicesOf_nodup _)
      rw [← (hu k (mem_indicesOf.1 hk)).1, ← (hu k' (mem_indicesOf.1 hk')).1, h]
  unfold axisLine
  rw [List.length_map, key.length_eq, List.length_map, indicesOf_length]

theorem read_nodup {l : List (List Int × F64)} (hn : (l.map Prod.fst).Nodup) (x : List Int) : readAt l x = (total l x).getD 0 := by
  have h1 := valuesAt_nodup hn x
  rw [total_eq_sumAll]
  unfold readAt
  generalize valuesAt l x = m at h1
  rcases m with _ | ⟨v, _ | ⟨w, m⟩⟩
  · rfl
  · rfl
  · exact absurd h1 (by simp)

/-- What `reduce_sum_axes` and `reduce_mean_axes` store. -/
theorem elems_axes {env : PyEnv F64} (he : env.Ok) {e : Prog F64} {op : NdOp} {arg : List Int} (hop : op = .reduceSum ∨ op = .reduceMean)
    (hl : e.LitsOk) (hs : (Prog.ndop op arg e).Small) (hd : e.AsElems) {τ : Ty} (hc : (Prog.ndop op arg e).check = .ok τ) :
    ∃ s, e.check = .ok (.nd s) ∧ AxesOk s.length (arg.map Int.toNat) ∧ τ = .nd (extents s (restAxes s.length (arg.map Int.toNat))) ∧
      ∃ a : CooNd F64, (∀ out, (Prog.ndop op arg e).Eval env out ↔ out = .ret (SpVal.nd a).obj) ∧ a.shape = τ.shape ∧
      (a.entries.map Prod.fst).Nodup ∧ (∀ k ∈ a.entries, InBounds τ.shape k.1) ∧
      ∀ x, InBounds τ.shape x → ∃ p : Option F64,
        p = total (e.stores.map fun k => (select (restAxes s.length (arg.map Int.toNat)) k.1, k.2)) x ∧
        readAt a.entries x = (p.map fun v => if op = .reduceMean then
            (if (extents s (arg.map Int.toNat)).prod = 1 then v else scaleBits (1 / ((extents s (arg.map Int.toNat)).prod : F64)) v)
          else v).getD 0 := by
  have hdet : (Prog.ndop op arg e).Determined := by rcases hop with rfl | rfl <;> exact ⟨hd.wf.1, trivial⟩
  obtain ⟨w, hv, ht, hst, hev⟩ := prog_stored he (e := .ndop op arg e) hl hs hdet hc
  have hord := Prog.order_ok hc
  have hc : (e.check.bind fun t => Ty.ndop op arg t) = .ok τ := hc
  cases ha : e.check with
  | error x => rw [ha] at hc; cases hc
  | ok t =>
    rw [ha] at hc
    cases t with
    | mat => rcases hop with rfl | rfl <;> cases hc
    | coo => rcases hop with rfl | rfl <;> cases hc
    | nd s =>
      have hc : (argDims arg).bind (op.ty s) = .ok τ := hc
      have hash : e.shape = s := Prog.shape_ok ha
      have hc : op.ty s (arg.map Int.toNat) = .ok τ := by
        unfold argDims at hc
        split_ifs at hc
        · cases hc
        · cases hc
        · exact hc
      have hst : w.stores = op.bits e.shape (arg.map Int.toNat) (Prog.ndop op arg e).order e.stores := hst
      rw [hash, hord] at hst
      generalize arg.map Int.toNat = xs at hc hst ⊢
      have hτ : AxesOk s.length xs ∧ τ = .nd (extents s (restAxes s.length xs)) := by
        rcases hop with rfl | rfl
        · simp only [NdOp.ty] at hc
          split_ifs at hc with h1
          exact ⟨h1.1, (Except.ok.inj hc).symm⟩
        · simp only [NdOp.ty] at hc
          split_ifs at hc with h1
          exact ⟨h1.1, (Except.ok.inj hc).symm⟩
      obtain ⟨hax, hτ⟩ := hτ
      subst hτ
      refine ⟨s, rfl, hax, rfl, ?_⟩
      cases w with
      | mat f a => cases ht
      | coo a => cases ht
      | nd a =>
        have hst : a.entries = op.bits s xs (Ty.nd (extents s (restAxes s.length xs))).order e.stores := hst
        have hkeys := (ty_order_nodup (Ty.nd (extents s (restAxes s.length xs)))).sublist
          (tabulate_keys _ (total (e.stores.map fun k => (select (restAxes s.length xs) k.1, k.2))))
        have hn : (a.entries.map Prod.fst).Nodup := by
          rw [hst]
          rcases hop with rfl | rfl
          · exact hkeys
          · show (((tabulate _ _).map _).map Prod.fst).Nodup
            rw [List.map_map]
            exact hkeys
        have hin : ∀ k ∈ a.entries, InBounds (Ty.nd (extents s (restAxes s.length xs))).shape k.1 := by
          intro k hk
          refine mem_ty_order.1 ((tabulate_keys _ (total (e.stores.map fun k => (select (restAxes s.length xs) k.1, k.2)))).subset ?_)
          rw [hst] at hk
          rcases hop with rfl | rfl
          · exact List.mem_map_of_mem hk
          · obtain ⟨k', hk', rfl⟩ := List.mem_map.1 hk
            exact List.mem_map.2 ⟨k', hk', rfl⟩
        refine ⟨a, hev, Ty.nd.inj ht, hn, hin, fun x hx => ⟨_, rfl, ?_⟩⟩
        rw [read_nodup hn, hst]
        rcases hop with rfl | rfl
        · show (total (tabulate _ _) x).getD 0 = _
          rw [total_tabulate (ty_order_nodup _) (mem_ty_order.2 hx)]
          simp
        · show (total ((tabulate _ _).map fun k => (k.1, if (extents s xs).prod = 1 then k.2 else
            scaleBits (1 / ((extents s xs).prod : F64)) k.2)) x).getD 0 = _
          rw [total_map_nodup hkeys (fun v => if (extents s xs).prod = 1 then v else scaleBits (1 / ((extents s xs).prod : F64)) v),
            total_tabulate (ty_order_nodup _) (mem_ty_order.2 hx)]
          simp

/-- C99: sums over axes.  `program.reduce_sum_axes(axes)` of a program whose value is a `COOND` has one outcome,
on every machine: an array over the other axes that stores no coordinate twice.  Each of its elements is the exact
sum of the elements of the program along the axes up to the error bound of recursive summation of binary64 numbers,
and `NaN` if one of them is; it reads zero where nothing is stored. -/
theorem elems_sum_axes {env : PyEnv F64} (he : env.Ok) {e : Prog F64} {arg : List Int} (hl : e.LitsOk)
    (hs : (Prog.ndop .reduceSum arg e).Small) (hd : e.AsElems) {τ : Ty} (hc : (Prog.ndop .reduceSum arg e).check = .ok τ) :
    ∃ a : CooNd F64, (∀ out, (Prog.ndop .reduceSum arg e).Eval env out ↔ out = .ret (SpVal.nd a).obj) ∧
      a.shape = extents e.shape (restAxes e.shape.length (arg.map Int.toNat)) ∧
      (a.entries.map Prod.fst).Nodup ∧ (∀ k ∈ a.entries, InBounds a.shape k.1) ∧ ∀ x, InBounds a.shape x →
        RoundedSum F64.fp.toFpAdd (axisLine e.shape (arg.map Int.toNat) e.elems x : Multiset F64) (readAt a.entries x) ∧
        ((∃ v ∈ axisLine e.shape (arg.map Int.toNat) e.elems x, isNan v = true) → isNan (readAt a.entries x) = true) := by
  obtain ⟨s, ha, hax, rfl, a, h1, h2, h3, h4, h5⟩ := elems_axes he (.inl rfl) hl hs hd hc
  obtain ⟨hin, hh⟩ := elems_held he hl hs.1 hd ha
  have hin : ∀ k ∈ e.stores, InBounds s k.1 := hin
  have hh : ∀ x, InBounds s x → HeldAs (valuesAt e.stores x) (e.elems x) := hh
  have hash : e.shape = s := Prog.shape_ok ha
  rw [hash]
  refine ⟨a, h1, h2, h3, by rw [h2]; exact h4, fun x hx => ?_⟩
  rw [h2] at hx
  obtain ⟨p, rfl, e2⟩ := h5 x hx
  simp only [reduceCtorEq, if_false, Option.map_id'] at e2
  rw [e2]
  exact ⟨axis_rounded hin hh x, fun hn => axis_nan hin hh hn⟩

/-- C99: means over axes.  The same for `program.reduce_mean_axes(axes)` and the mean of the elements along the axes,
if at most `2 ^ 53` are averaged. -/
theorem elems_mean_axes {env : PyEnv F64} (he : env.Ok) {e : Prog F64} {arg : List Int} (hl : e.LitsOk)
    (hs : (Prog.ndop .reduceMean arg e).Small) (hd : e.AsElems) {τ : Ty} (hc : (Prog.ndop .reduceMean arg e).check = .ok τ)
    (h53 : (extents e.shape (arg.map Int.toNat)).prod ≤ 2 ^ 53) :
    ∃ a : CooNd F64, (∀ out, (Prog.ndop .reduceMean arg e).Eval env out ↔ out = .ret (SpVal.nd a).obj) ∧
      a.shape = extents e.shape (restAxes e.shape.length (arg.map Int.toNat)) ∧
      (a.entries.map Prod.fst).Nodup ∧ (∀ k ∈ a.entries, InBounds a.shape k.1) ∧ ∀ x, InBounds a.shape x →
        (axisLine e.shape (arg.map Int.toNat) e.elems x).length = (extents e.shape (arg.map Int.toNat)).prod ∧
        F64.ReciprocalMean (axisLine e.shape (arg.map Int.toNat) e.elems x) (readAt a.entries x) ∧
        ((∃ v ∈ axisLine e.shape (arg.map Int.toNat) e.elems x, isNan v = true) → isNan (readAt a.entries x) = true) := by
  obtain ⟨s, ha, hax, rfl, a, h1, h2, h3, h4, h5⟩ := elems_axes he (.inr rfl) hl hs hd hc
  obtain ⟨hin, hh⟩ := elems_held he hl hs.1 hd ha
  have hin : ∀ k ∈ e.stores, InBounds s k.1 := hin
  have hh : ∀ x, InBounds s x → HeldAs (valuesAt e.stores x) (e.elems x) := hh
  have hash : e.shape = s := Prog.shape_ok ha
  rw [hash] at h53 ⊢
  refine ⟨a, h1, h2, h3, by rw [h2]; exact h4, fun x hx => ?_⟩
  rw [h2] at hx
  have hlen := axisLine_length hax e.elems (x := x) hx
  obtain ⟨p, hp, e2⟩ := h5 x hx
  simp only [if_true] at e2
  have hr := axis_rounded (xs := arg.map Int.toNat) hin hh x
  have hnn := axis_nan (xs := arg.map Int.toNat) hin hh (x := x)
  rw [← hp] at hr hnn
  rw [← hlen] at e2 h53
  generalize axisLine s (arg.map Int.toNat) e.elems x = l at *
  refine ⟨hlen, ?_, fun hn => ?_⟩
  · by_cases hl0 : l = []
    · exact fun h => absurd hl0 h
    refine f64_recip_mean hr h53 ?_
    rw [e2]
    cases p with
    | none =>
      show SameNum (0 : F64) (if l.length = 1 then 0 else scaleBits (1 / (l.length : F64)) 0)
      split
      · exact F64.same_refl _
      · have hl1 := List.length_pos_of_ne_nil hl0
        rw [f64_scale_ne (f64_recip_err hl1 h53).2.2]
        exact F64.same_symm (F64.zero_mul_same (f64_recip_err hl1 h53).1 false)
    | some v => exact F64.same_refl _
  · have := hnn hn
    have hl0 : 0 < l.length := by
      obtain ⟨v, hv, -⟩ := hn
      exact List.length_pos_of_mem hv
    rw [e2]
    cases p with
    | none => exact absurd this (by decide)
    | some v =>
      have this : isNan v = true := this
      show isNan (if l.length = 1 then v else scaleBits (1 / (l.length : F64)) v) = true
      split
      · exact this
      · rw [f64_scale_ne (f64_recip_err hl0 h53).2.2]
        exact F64.isNan_mul _ _ (.inl this)

/-- The element read from a `COOND` that is the value of a program. -/
theorem elems_read {env : PyEnv F64} (he : env.Ok) {e : Prog F64} (hl : e.LitsOk) (hs : e.Small) (hd : e.AsElems) {s : List Nat}
    (hc : e.check = .ok (.nd s)) : ∃ a : CooNd F64, (∀ out, e.Eval env out ↔ out = .ret (SpVal.nd a).obj) ∧ a.shape = s ∧
      (a.entries.map Prod.fst).Nodup ∧ (∀ k ∈ a.entries, InBounds s k.1) ∧
      ∀ x, InBounds s x → SameNum (readAt a.entries x) (e.elems x) := by
  obtain ⟨w, hv, ht, hst, hev⟩ := prog_stored he hl hs hd.wf.1 hc
  obtain ⟨hn, hin⟩ := stores_keys he hl hs hd hc
  cases w with
  | mat f a => cases ht
  | coo a => cases ht
  | nd a =>
    have hst : a.entries = e.stores := hst
    refine ⟨a, hev, Ty.nd.inj ht, by rw [hst]; exact hn, by rw [hst]; exact hin, fun x hx => ?_⟩
    rw [hst, read_nodup hn]
    exact f64_elems he hl hs hd hc x hx

theorem dyadic_rep {n : ℤ} (h : |(n : ℚ)| ≤ 2 ^ 53) {k : Nat} (hk : k ≤ 53) : B64.Rep ((n : ℚ) / 2 ^ k) := by
  have hp : (1 : ℚ) ≤ 2 ^ k := one_le_pow₀ (by norm_num)
  have hm : |(n : ℚ) / 2 ^ k| ≤ max64 := by
    rw [abs_div, abs_of_pos (show (0 : ℚ) < 2 ^ k by positivity)]
    exact le_trans (div_le_self (abs_nonneg _) hp) (F64.int_max h)
  obtain ⟨⟨m, e, h1, h2, h3⟩, -⟩ := F64.int_rep h
  have h' : |n| ≤ 2 ^ 53 := by exact_mod_cast h
  rcases lt_or_eq_of_le h' with h1 | h1
  · refine ⟨⟨n, -k, ?_, h1, by omega⟩, hm⟩
    rw [zpow_neg, zpow_natCast, div_eq_mul_inv]
  · have e2 : n = n / 2 * 2 ∧ |n / 2| < 2 ^ 53 := by
      rcases abs_choice n with e | e
      · rw [e] at h1; subst h1; decide
      · rw [e] at h1
        obtain rfl : n = -2 ^ 53 := by linarith
        decide
    refine ⟨⟨n / 2, 1 - k, ?_, e2.2, by omega⟩, hm⟩
    rw [zpow_sub₀ (by norm_num), zpow_one, zpow_natCast, div_eq_mul_inv, div_eq_mul_inv, ← mul_assoc]
    congr 1
    exact_mod_cast e2.1

/-- A whole number times the reciprocal of a power of two. -/
theorem f64_pow2_mean {v : F64} (hv : v.IsInt) (h : |v.val| ≤ 2 ^ 53) {k : Nat} (hk : k ≤ 53) :
    (v * (1 / ((2 ^ k : Nat) : F64))).IsFin ∧ (v * (1 / ((2 ^ k : Nat) : F64))).val = v.val / 2 ^ k := by
  obtain ⟨k1, k2⟩ := f64_nat (k := 2 ^ k) (Nat.pow_le_pow_right (by norm_num) hk)
  have k2 : (((2 ^ k : Nat) : F64)).val = 2 ^ k := by rw [k2]; push_cast; rfl
  have hp : ((2 ^ k : Nat) : F64).Pow2 := by
    refine ⟨k1, k, by omega, by omega, ?_⟩
    rw [k2, abs_of_pos (by positivity), zpow_natCast]
  rw [F64.mul_recip hp]
  obtain ⟨h1, n, h2⟩ := hv
  rw [h2] at h
  have hr := dyadic_rep h hk
  have hd := F64.div_rnd h1 k1 (by rw [k2]; positivity) (by rw [h2, k2]; exact hr.2)
  rw [h2, k2, hr.fix] at hd
  rw [h2]
  exact hd

/-- C99: means of whole numbers over axes with `2 ^ k` cells are exact, on every machine, if the absolute values
of what is averaged add up to at most `2 ^ 53`. -/
theorem whole_mean_axes {env : PyEnv F64} (he : env.Ok) {e : Prog F64} {arg : List Int} (hl : e.LitsOk)
    (hs : (Prog.ndop .reduceMean arg e).Small) (hi : (Prog.ndop .reduceSum arg e).Whole) {s : List Nat}
    (hc : (Prog.ndop .reduceMean arg e).check = .ok (.nd s)) {k : Nat} (hk : k ≤ 53)
    (hn : (extents e.shape (arg.map Int.toNat)).prod = 2 ^ k) :
    ∃ a : CooNd F64, (∀ out, (Prog.ndop .reduceMean arg e).Eval env out ↔ out = .ret (SpVal.nd a).obj) ∧ a.shape = s ∧
      (a.entries.map Prod.fst).Nodup ∧ (∀ k ∈ a.entries, InBounds s k.1) ∧ ∀ x, InBounds s x → (readAt a.entries x).IsFin ∧
        (readAt a.entries x).val =
          (((indicesOf e.shape).filter fun z => select (restAxes e.shape.length (arg.map Int.toNat)) z == x).map e.exactN).sum / 2 ^ k := by
  have hc' : (Prog.ndop .reduceSum arg e).check = .ok (.nd s) := hc
  obtain ⟨h1, h2⟩ := whole_exact hi hc'
  have hd : (Prog.ndop .reduceMean arg e).AsElems := ⟨h1.1, by rw [hn]; exact Nat.pow_le_pow_right (by norm_num) hk, fun x hx => h1.2 x (by
    rw [Prog.shape_ok hc']
    rw [Prog.shape_ok hc] at hx
    exact hx)⟩
  obtain ⟨a, r1, r2, r3, r4, r5⟩ := elems_read he (e := .ndop .reduceMean arg e) hl hs hd hc
  refine ⟨a, r1, r2, r3, r4, fun x hx => ?_⟩
  obtain ⟨⟨q1, q2⟩, q3⟩ := h2 x hx
  have q2' := q2
  rw [← q2] at q3
  obtain ⟨m1, m2⟩ := f64_pow2_mean q1 q3 hk
  have hr : SameNum (readAt a.entries x) ((Prog.ndop .reduceSum arg e).elems x *
    (1 / ((extents e.shape (arg.map Int.toNat)).prod : F64))) := r5 x hx
  rw [hn] at hr
  refine ⟨F64.same_fin hr m1, ?_⟩
  rw [F64.same_val hr, m2, q2']
  rfl

/-! ### matrices of whole numbers -/

theorem f64_correct_mean {l : List ℚ} {t v : F64} (h : F64.ExactTotal l t) (hk : l.length ≤ 2 ^ 53) (hv : v = t / (l.length : F64)) :
    F64.CorrectMean l v := by
  intro hne hb
  obtain ⟨h1, h2⟩ := h hb
  obtain ⟨k1, k2⟩ := f64_nat hk
  have hq : (1 : ℚ) ≤ l.length := by exact_mod_cast List.length_pos_of_ne_nil hne
  have hS : |l.sum| ≤ (l.map fun q => |q|).sum := by
    clear h hk hv hne hb h2 k1 k2 hq
    induction l with
    | nil => simp
    | cons a l ih =>
      simp only [List.map_cons, List.sum_cons]
      exact le_trans (abs_add_le _ _) (by linarith)
  have hd := F64.div_rnd h1 k1 (by rw [k2]; linarith) (by
    rw [h2, k2]
    refine F64.int_max ?_
    rw [abs_div, abs_of_pos (show (0 : ℚ) < l.length by linarith)]
    exact le_trans (div_le_self (abs_nonneg _) hq) (le_trans hS hb))
  rw [h2, k2] at hd
  rw [hv]
  exact hd

/-- C99: means along the axes of a matrix of whole numbers are correctly rounded, on every machine and for every
schedule. -/
theorem whole_mean {env : PyEnv F64} (he : env.Ok) {e : Prog F64} (hl : e.LitsOk) (hs : e.Small) (hi : e.Whole) {τ : Ty}
    (hc : e.check = .ok τ) (h2d : τ.Is2d) (h0 : 0 < τ.shape.prod) (h53 : τ.shape.prod ≤ 2 ^ 53) {axis : AxisArg} (keep : Bool)
    (ha : axis.Valid 2) (hne : axis ≠ .many []) :
    (∃ out, e.Reduce env .mean axis keep out) ∧
    ∀ out, e.Reduce env .mean axis keep out →
      ∃ r, out = .ret (.dense r) ∧ IsReduction τ.shape (axis.covers 2) keep F64.CorrectMean e.exactN r := by
  obtain ⟨hd, hx⟩ := whole_exact hi hc
  obtain ⟨-, hh⟩ := elems_held he hl hs hd hc
  obtain ⟨hex, hall⟩ := prog_reduce_any he hl hs hd.wf.1 hc h2d (op := .mean) keep ha hne (fun _ _ => by
    rw [Bool.eq_false_iff]
    intro h
    have k := (f64_nat h53).2
    rw [F64.val_of_eq_zero _ h] at k
    have : (τ.shape.prod : ℚ) ≠ 0 := by exact_mod_cast Nat.pos_iff_ne_zero.1 h0
    exact this k.symm)
  refine ⟨hex, fun out hout => ?_⟩
  obtain ⟨r', e1, hr⟩ := hall out hout
  refine ⟨r', e1, hr.shape_eq, hr.size, fun y hy => ?_⟩
  obtain ⟨v, h1, h2⟩ := hr.cell y hy
  refine ⟨v, h1, ?_⟩
  have hlen : (fibre τ.shape (axis.covers 2) keep e.exactN y).length ≤ τ.shape.prod := by
    unfold fibre
    rw [List.length_map]
    exact le_trans (List.length_filter_le _ _) (by rw [indicesOf_length])
  obtain ⟨xs, hxs, hfib⟩ := fibre_map τ.shape (axis.covers 2) keep y
  rw [hfib] at h2 hlen ⊢
  obtain ⟨t, ht, hv⟩ := h2
  refine f64_correct_mean (exactSum_total (fun x h => (hx x (hxs x h)).1) (heldAs_exactSum (fun x h => hh x (hxs x h)) ht))
    (le_trans hlen h53) ?_
  rw [hv, List.length_map, List.length_map]

/-- C99: the mean of an N-D array of whole numbers is correctly rounded. -/
theorem whole_nd_mean {env : PyEnv F64} (he : env.Ok) {e : Prog F64} (hl : e.LitsOk) (hs : e.Small) (hi : e.Whole)
    {s : List Nat} (hc : e.check = .ok (.nd s)) (h0 : 0 < s.prod) (h53 : s.prod ≤ 2 ^ 53) (keep : Bool) :
    (∃ out, e.Reduce env .mean .none keep out) ∧
    ∀ out, e.Reduce env .mean .none keep out →
      ∃ r, out = .ret (.dense r) ∧ IsReduction s (fun _ => true) keep F64.CorrectMean e.exactN r := by
  obtain ⟨hd, hx⟩ := whole_exact hi hc
  obtain ⟨-, hh⟩ := elems_held he hl hs hd hc
  obtain ⟨hex, hall⟩ := prog_nd_reduce_any he hl hs hd.wf.1 hc (op := .mean) trivial keep (fun _ => by
    rw [Bool.eq_false_iff]
    intro h
    have k := (f64_nat h53).2
    rw [F64.val_of_eq_zero _ h] at k
    have : (s.prod : ℚ) ≠ 0 := by exact_mod_cast Nat.pos_iff_ne_zero.1 h0
    exact this k.symm)
  refine ⟨hex, fun out hout => ?_⟩
  obtain ⟨r', e1, hr⟩ := hall out hout
  refine ⟨r', e1, hr.shape_eq, hr.size, fun y hy => ?_⟩
  obtain ⟨v, h1, h2⟩ := hr.cell y hy
  refine ⟨v, h1, ?_⟩
  have hlen : (fibre s (fun _ => true) keep e.exactN y).length ≤ s.prod := by
    unfold fibre
    rw [List.length_map]
    exact le_trans (List.length_filter_le _ _) (by rw [indicesOf_length])
  obtain ⟨xs, hxs, hfib⟩ := fibre_map s (fun _ => true) keep y
  rw [hfib] at h2 hlen ⊢
  obtain ⟨t, ht, hv⟩ := h2
  refine f64_correct_mean (exactSum_total (fun x h => (hx x (hxs x h)).1) (heldAs_exactSum (fun x h => hh x (hxs x h)) ht))
    (le_trans hlen h53) ?_
  rw [hv, List.length_map, List.length_map]

/-- C99: differences of order `n` of a matrix of whole numbers up to `B` in absolute value are exact if
`B · 2 ^ n ≤ 2 ^ 53`. -/
theorem whole_diff {env : PyEnv F64} (he : env.Ok) {e : Prog F64} (hl : e.LitsOk) (hs : e.Small) (hi : e.Whole) {τ : Ty}
    (hc : e.check = .ok τ) (h2d : τ.Is2d) {axis : Int} {rowwise : Bool}
    (hx : if rowwise then axis = 1 ∨ axis = -1 else axis = 0 ∨ axis = -2)
    {n : Nat} (hn : n ≤ usizeMax) (hsz : 32 * (τ.shape.prod : Int) ≤ i64Max) {B : ℚ} (hB : B * 2 ^ n ≤ 2 ^ 53)
    (hb : ∀ x, InBounds τ.shape x → |e.exactN x| ≤ B) :
    (∃ out, e.Diff env n axis out) ∧
    ∀ out, e.Diff env n axis out → ∃ w : SpVal F64, out = .ret w.obj ∧ w.ty = τ.diff rowwise n ∧
      ∀ x, InBounds w.ty.shape x → ((w.held x).head?.getD 0).IsFin ∧
        ((w.held x).head?.getD 0).val = diffCells rowwise n e.exactN x := by
  obtain ⟨hd, hxx⟩ := whole_exact hi hc
  obtain ⟨hex, hall⟩ := elems_diff he hl hs hd hc h2d hx hn hsz
  refine ⟨hex, fun out hout => ?_⟩
  obtain ⟨w, e1, ht, hw⟩ := hall out hout
  refine ⟨w, e1, ht, fun x hxb => ?_⟩
  have k := hw x hxb
  rw [ht] at hxb
  obtain ⟨r, c, hsh⟩ := is2d_shape h2d
  have hds : (τ.diff rowwise n).shape = if rowwise then [r, c - n] else [r - n, c] := by
    cases τ with
    | nd s => exact h2d.elim
    | mat f r' c' => cases hsh; cases rowwise <;> rfl
    | coo r' c' => cases hsh; cases rowwise <;> rfl
  rw [hds] at hxb
  rw [hsh] at hxx hb
  have cell : ∀ y, InBounds [r, c] y → (e.elems y).IsInt ∧ (e.elems y).val = e.exactN y ∧ |e.exactN y| ≤ B := fun y hy => by
    obtain ⟨⟨k1, k2⟩, -⟩ := hxx y hy
    exact ⟨k1, k2, hb y hy⟩
  have : (diffCells rowwise n e.elems x).IsInt ∧ (diffCells rowwise n e.elems x).val = diffCells rowwise n e.exactN x := by
    cases rowwise
    · have hxb : InBounds [r - n, c] x := hxb
      obtain ⟨i, j, h1, h2, rfl⟩ := inBounds_two hxb
      refine diffN_int n (B := B) (fun k hk => ?_) hB
      exact cell [(k : Int), (j : Int)] (.cons ⟨by omega, by omega⟩ (.cons ⟨by omega, by omega⟩ .nil))
    · have hxb : InBounds [r, c - n] x := hxb
      obtain ⟨i, j, h1, h2, rfl⟩ := inBounds_two hxb
      refine diffN_int n (B := B) (fun k hk => ?_) hB
      exact cell [(i : Int), (k : Int)] (.cons ⟨by omega, by omega⟩ (.cons ⟨by omega, by omega⟩ .nil))
  exact ⟨F64.same_fin k this.1.1, by rw [F64.same_val k, this.2]⟩

/-! ### instances -/

/-- `[[1/2, 0], [NaN, 3]]`. -/
def exN99 : Prog F64 := .nd [2, 2] [1, 1, 1, 0, 0, 0] [F64.ofRat 3, F64.nan, F64.ofRat (1 / 2)]

theorem exN99_ok : exN99.LitsOk ∧ exN99.AsElems := by
  have h1 : ∀ k < 3, ∀ d (h : d < [2, 2].length), 0 ≤ ([1, 1, 1, 0, 0, 0] : List Int).getD (k * 2 + d) 0 ∧
      ([1, 1, 1, 0, 0, 0] : List Int).getD (k * 2 + d) 0 < (([2, 2] : List Nat)[d] : Nat) := by decide
  refine ⟨⟨by decide, ⟨by decide, rfl, h1⟩, ?_⟩, ?_⟩
  · show ∀ i ∈ ([1, 1, 1, 0, 0, 0] : List Int), i ≤ i64Max; decide
  · show ([[1, 1], [1, 0], [0, 0]] : List (List Int)).Nodup
    decide

theorem ex99_half : (F64.ofRat (1 / 2)).IsFin ∧ (F64.ofRat (1 / 2)).val = 1 / 2 := by
  have := F64.ofRat_rep (dyadic_rep (n := 1) (by norm_num) (k := 1) (by norm_num))
  rwa [show (((1 : ℤ) : ℚ) / 2 ^ 1) = 1 / 2 by norm_num] at this

theorem ex99_max {q : ℚ} (h0 : 0 ≤ q) (h : q ≤ 1) : q ≤ max64 := by
  have := F64.int_max (q := q) (by rw [abs_of_nonneg h0]; linarith)
  rwa [abs_of_nonneg h0] at this

/-- In every execution, `reduce_sum_axes([1])` of it is an array `[v, NaN]` with `|v - 1/2| ≤ 2⁻⁵³ / 2`. -/
example {env : PyEnv F64} (he : env.Ok) : ∃ a : CooNd F64,
    (∀ out, (Prog.ndop .reduceSum [1] exN99).Eval env out ↔ out = .ret (SpVal.nd a).obj) ∧ a.shape = [2] ∧
      |(readAt a.entries [0]).val - 1 / 2| ≤ 1 / 2 ^ 53 * (1 / 2) ∧ isNan (readAt a.entries [1]) = true := by
  obtain ⟨h1, h2⟩ := exN99_ok
  obtain ⟨a, ho, hs, -, -, h⟩ := elems_sum_axes he (arg := [1]) h1 (by decide +kernel) h2 (τ := .nd [2]) (by decide +kernel)
  have hs : a.shape = [2] := hs
  rw [hs] at h
  refine ⟨a, ho, hs, ?_, ?_⟩
  · have := (h [0] (.cons ⟨by decide, by decide⟩ .nil)).1
    have el : axisLine exN99.shape (([1] : List Int).map Int.toNat) exN99.elems [0] = [F64.ofRat (1 / 2), 0] := rfl
    rw [el] at this
    obtain ⟨v1, v2⟩ := ex99_half
    have hv : (0 : F64).val = 0 := rfl
    have e1 : ((([F64.ofRat (1 / 2), 0] : List F64) : Multiset F64).map fun x => |F64.val x|).sum = 1 / 2 := by
      rw [Multiset.map_coe, Multiset.sum_coe]
      simp only [List.map_cons, List.map_nil, List.sum_cons, List.sum_nil, v2, hv]
      norm_num
    have e2 : ((([F64.ofRat (1 / 2), 0] : List F64) : Multiset F64).map F64.val).sum = 1 / 2 := by
      rw [Multiset.map_coe, Multiset.sum_coe]
      simp only [List.map_cons, List.map_nil, List.sum_cons, List.sum_nil, v2, hv]
      norm_num
    have this := this (fun x hx => by
      have hx := Multiset.mem_coe.1 hx
      simp only [List.mem_cons, List.not_mem_nil, or_false] at hx
      rcases hx with rfl | rfl
      · exact v1
      · exact trivial) (by
      have := ex99_max (q := (1 + 1 / 2 ^ 53) ^ 2 * (1 / 2)) (by positivity) (by norm_num)
      rw [← e1] at this
      exact this)
    have this : |(readAt a.entries [0]).val - ((([F64.ofRat (1 / 2), 0] : List F64) : Multiset F64).map F64.val).sum| ≤
      ((1 + 1 / 2 ^ 53) ^ 1 - 1) * ((([F64.ofRat (1 / 2), 0] : List F64) : Multiset F64).map fun x => |F64.val x|).sum := this.2
    rw [e1, e2] at this
    refine le_trans this (le_of_eq (by norm_num))
  · exact (h [1] (.cons ⟨by decide, by decide⟩ .nil)).2 ⟨F64.nan, by
      have el : axisLine exN99.shape (([1] : List Int).map Int.toNat) exN99.elems [1] = [F64.nan, F64.ofRat 3] := rfl
      rw [el]; exact List.mem_cons_self, rfl⟩

/-- In every execution, `reduce_mean_axes([1])` of it is an array `[v, NaN]` with `|v - 1/4| ≤ 2⁻⁵²`. -/
example {env : PyEnv F64} (he : env.Ok) : ∃ a : CooNd F64,
    (∀ out, (Prog.ndop .reduceMean [1] exN99).Eval env out ↔ out = .ret (SpVal.nd a).obj) ∧ a.shape = [2] ∧
      |(readAt a.entries [0]).val - 1 / 4| ≤ 1 / 2 ^ 52 ∧ isNan (readAt a.entries [1]) = true := by
  obtain ⟨h1, h2⟩ := exN99_ok
  obtain ⟨a, ho, hs, -, -, h⟩ := elems_mean_axes he (arg := [1]) h1 (by decide +kernel) h2 (τ := .nd [2]) (by decide +kernel)
    (by decide +kernel)
  have hs : a.shape = [2] := hs
  rw [hs] at h
  refine ⟨a, ho, hs, ?_, ?_⟩
  · have := (h [0] (.cons ⟨by decide, by decide⟩ .nil)).2.1
    have el : axisLine exN99.shape (([1] : List Int).map Int.toNat) exN99.elems [0] = [F64.ofRat (1 / 2), 0] := rfl
    rw [el] at this
    obtain ⟨v1, v2⟩ := ex99_half
    have hv : (0 : F64).val = 0 := rfl
    have e1 : (([F64.ofRat (1 / 2), 0] : List F64).map fun x => |F64.val x|).sum = 1 / 2 := by
      simp only [List.map_cons, List.map_nil, List.sum_cons, List.sum_nil, v2, hv]
      norm_num
    have e2 : (([F64.ofRat (1 / 2), 0] : List F64).map F64.val).sum = 1 / 2 := by
      simp only [List.map_cons, List.map_nil, List.sum_cons, List.sum_nil, v2, hv]
      norm_num
    have this := (this (by simp) (fun x hx => by
      simp only [List.mem_cons, List.not_mem_nil, or_false] at hx
      rcases hx with rfl | rfl
      · exact v1
      · exact trivial) (by
      rw [e1]
      exact ex99_max (q := (1 + 1 / 2 ^ 53) ^ 2 * (1 / 2)) (by positivity) (by norm_num))).2
    rw [e1, e2] at this
    have hη : (2 : ℚ) ^ (-1074 : ℤ) ≤ 2 ^ (-60 : ℤ) := zpow_le_zpow_right₀ (by norm_num) (by norm_num)
    have h60 : (2 : ℚ) ^ (-60 : ℤ) = 1 / 2 ^ 60 := by norm_num
    rw [h60] at hη
    simp only [List.length_cons, List.length_nil] at this
    have e4 : (1 / 2 / ((0 + 1 + 1 : Nat) : ℚ)) = 1 / 4 := by norm_num
    rw [e4] at this
    refine le_trans this ?_
    have : ((1 + 1 / 2 ^ 53 : ℚ) ^ (0 + 1 + 1 + 1) - 1) * (1 / 4) + 1 / 2 * (1 / 2 ^ 60) ≤ 1 / 2 ^ 52 := by norm_num
    linarith
  · exact (h [1] (.cons ⟨by decide, by decide⟩ .nil)).2.2 ⟨F64.nan, by
      have el : axisLine exN99.shape (([1] : List Int).map Int.toNat) exN99.elems [1] = [F64.nan, F64.ofRat 3] := rfl
      rw [el]; exact List.mem_cons_self, rfl⟩

/-- In every execution, `reduce_mean_axes([0])` of `[[8, 10], [-12, -15]]` is exactly `[-2, -5/2]`. -/
example {env : PyEnv F64} (he : env.Ok) : ∃ a : CooNd F64,
    (∀ out, (Prog.ndop .reduceMean [0] exP98).Eval env out ↔ out = .ret (SpVal.nd a).obj) ∧ a.shape = [2] ∧
      (readAt a.entries [0]).val = -2 ∧ (readAt a.entries [1]).val = -5 / 2 := by
  obtain ⟨h1, -⟩ := exP98_ok
  obtain ⟨hw, s0, s1⟩ := exS98_whole
  obtain ⟨a, ho, hs, -, -, h⟩ := whole_mean_axes he (e := exP98) (arg := [0]) h1 (by decide +kernel) hw (s := [2]) (by decide +kernel)
    (k := 1) (by norm_num) (by decide +kernel)
  refine ⟨a, ho, hs, ?_, ?_⟩
  · rw [(h [0] (.cons ⟨by decide, by decide⟩ .nil)).2]
    show exS98.exactN [0] / 2 ^ 1 = _
    rw [s0]; norm_num
  · rw [(h [1] (.cons ⟨by decide, by decide⟩ .nil)).2]
    show exS98.exactN [1] / 2 ^ 1 = _
    rw [s1]; norm_num

/-- In every execution, `mean(U, axis=0)` of the matrix `U = [[-28], [-35]]` is `[-63/2]`. -/
example {env : PyEnv F64} (he : env.Ok) : (∃ out, exU98.Reduce env .mean (.one 0) false out) ∧
    ∀ out, exU98.Reduce env .mean (.one 0) false out → ∃ r v, out = .ret (.dense r) ∧ r.shape = [1] ∧ r.data = [v] ∧ v.IsFin ∧
      v.val = -63 / 2 := by
  obtain ⟨h1, -⟩ := exP98_ok
  obtain ⟨hw, u0, u1⟩ := exU98_whole
  obtain ⟨hex, hall⟩ := whole_mean he (e := exU98) h1 (by decide +kernel) hw (τ := .mat .csr 2 1) (by decide +kernel) trivial
    (by decide) (by decide) (axis := .one 0) false (fun a ha => by rw [List.mem_singleton.1 ha]; decide) (by simp)
  refine ⟨hex, fun out hout => ?_⟩
  obtain ⟨r, e1, hr⟩ := hall out hout
  have hsh : r.shape = [1] := hr.shape_eq
  obtain ⟨v, k1, k2⟩ := hr.cell [0] (by rw [hsh]; exact .cons ⟨by decide, by decide⟩ .nil)
  have hlen := hr.size
  rw [hsh] at k1 hlen
  have hdata : r.data = [v] := by
    generalize r.data = l at k1 hlen
    rcases l with _ | ⟨w, _ | ⟨w', l⟩⟩
    · cases k1
    · exact congrArg (fun z => [z]) (Option.some.inj k1)
    · simp at hlen
  have el : fibre [2, 1] (AxisArg.covers 2 (.one 0)) false exU98.exactN [0] = [exU98.exactN [0, 0], exU98.exactN [1, 0]] := rfl
  have k2 : F64.CorrectMean (fibre [2, 1] (AxisArg.covers 2 (.one 0)) false exU98.exactN [0]) v := k2
  rw [el, u0, u1] at k2
  obtain ⟨k3, k4⟩ := k2 (by simp) (by norm_num)
  refine ⟨r, v, e1, hsh, hdata, k3, ?_⟩
  rw [k4]
  have := (dyadic_rep (n := -63) (by norm_num) (k := 1) (by norm_num)).fix
  have e2 : (([-28, -35] : List ℚ).sum / (([-28, -35] : List ℚ).length : ℚ)) = (((-63 : ℤ) : ℚ) / 2 ^ 1) := by norm_num
  rw [e2, this]
  norm_num

/-- In every execution, `diff(U, axis=0)` is `[[-7]]`. -/
example {env : PyEnv F64} (he : env.Ok) : (∃ out, exU98.Diff env 1 0 out) ∧
    ∀ out, exU98.Diff env 1 0 out → ∃ w : SpVal F64, out = .ret w.obj ∧ w.ty = .mat .csr 1 1 ∧
      ((w.held [0, 0]).head?.getD 0).val = -7 := by
  obtain ⟨h1, -⟩ := exP98_ok
  obtain ⟨hw, u0, u1⟩ := exU98_whole
  obtain ⟨hex, hall⟩ := whole_diff he (e := exU98) h1 (by decide +kernel) hw (τ := .mat .csr 2 1) (by decide +kernel) trivial
    (axis := 0) (rowwise := false) (.inl rfl) (n := 1) (by decide) (by decide) (B := 35) (by norm_num) (fun x hx => by
      have hx : x ∈ indicesOf [2, 1] := mem_indicesOf.2 hx
      have hx : x ∈ [[(0 : Int), 0], [1, 0]] := hx
      simp only [List.mem_cons, List.not_mem_nil, or_false] at hx
      rcases hx with rfl | rfl
      · rw [u0]; norm_num
      · rw [u1]; norm_num)
  refine ⟨hex, fun out hout => ?_⟩
  obtain ⟨w, e1, ht, h⟩ := hall out hout
  refine ⟨w, e1, ht, ?_⟩
  rw [ht] at h
  rw [(h [0, 0] (.cons ⟨by decide, by decide⟩ (.cons ⟨by decide, by decide⟩ .nil))).2]
  show exU98.exactN [1, 0] - exU98.exactN [0, 0] = -7
  rw [u0, u1]; norm_num

end
end Lacuna
