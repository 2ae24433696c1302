import Verif.Spec.F64Nd
import Verif.Props.Exact
/-
C96: programs over all classes in binary64: `COO` and `COOND` operands, broadcast products and the methods
that move elements.
-/
set_option linter.unusedSectionVars false
namespace Lacuna

theorem total_map_nodup {l : List (List Int × F64)} (h : (l.map Prod.fst).Nodup) (g : F64 → F64) (x : List Int) :
    total (l.map fun e => (e.1, g e.2)) x = (total l x).map g := by
  rw [total_eq_sumAll, total_eq_sumAll]
  have e : valuesAt (l.map fun e => (e.1, g e.2)) x = (valuesAt l x).map g := by
    unfold valuesAt
    rw [List.filter_map, List.map_map, List.map_map]
    rfl
  rw [e]
  have h1 := valuesAt_nodup h x
  generalize valuesAt l x = vs at h1
  rcases vs with _ | ⟨v, _ | ⟨w, m⟩⟩
  · rfl
  · rfl
  · exact absurd h1 (by simp)

theorem total_filter_nodup {l : List (List Int × F64)} (h : (l.map Prod.fst).Nodup) (g : F64 → Bool) (x : List Int) :
    total (l.filter fun e => g e.2) x = (total l x).filter g := by
  rw [total_eq_sumAll, total_eq_sumAll]
  have e : valuesAt (l.filter fun e => g e.2) x = (valuesAt l x).filter g := by
    unfold valuesAt
    rw [List.filter_filter, List.filter_map, List.filter_filter]
    congr 1
    apply List.filter_congr
    intro e _
    exact Bool.and_comm _ _
  rw [e]
  have h1 := valuesAt_nodup h x
  generalize valuesAt l x = vs at h1
  rcases vs with _ | ⟨v, _ | ⟨w, m⟩⟩
  · rfl
  · cases hv : g v <;> simp [hv, sumAll, Option.filter]
  · exact absurd h1 (by simp)

section
variable [HasPowf F64]

theorem Prog.AsElems.wf : ∀ {e : Prog F64}, e.AsElems → e.Determined ∧ e.Distinct
  | .mat .., _ => ⟨trivial, trivial⟩
  | .coo .., h => ⟨trivial, h⟩
  | .nd .., h => ⟨trivial, h⟩
  | .un op a, h => Prog.AsElems.wf (e := a) h
  | .bin op a b, h => by
    refine ⟨?_, trivial⟩
    cases op with
    | add => exact ⟨(Prog.AsElems.wf h.1).1, (Prog.AsElems.wf h.2).1⟩
    | sub => exact ⟨(Prog.AsElems.wf h.1).1, (Prog.AsElems.wf h.2).1⟩
    | mul => exact ⟨(Prog.AsElems.wf h.1).1, (Prog.AsElems.wf h.2.1).1⟩
    | div => exact ⟨(Prog.AsElems.wf h.1).1, (Prog.AsElems.wf h.2).1⟩
    | floordiv => exact ⟨(Prog.AsElems.wf h.1).1, (Prog.AsElems.wf h.2).1⟩
    | rem => exact ⟨(Prog.AsElems.wf h.1).1, (Prog.AsElems.wf h.2).1⟩
    | _ => exact h.elim
  | .scalar op a _, h => by cases op with
    | mul => exact Prog.AsElems.wf (e := a) h.1
    | div => exact Prog.AsElems.wf (e := a) h.1
    | floordiv => exact Prog.AsElems.wf (e := a) h.1
    | rem => exact Prog.AsElems.wf (e := a) h.1
    | _ => exact h.elim
  | .left op _ a, h => by cases op with
    | mul => exact Prog.AsElems.wf (e := a) h.1
    | _ => exact h.elim
  | .T a, h => Prog.AsElems.wf (e := a) h
  | .prune _ a, h => Prog.AsElems.wf (e := a) h.1
  | .elimZeros a, h => Prog.AsElems.wf (e := a) h.1
  | .ndop op _ a, h => by cases op with
    | reshape => exact ⟨⟨(Prog.AsElems.wf (e := a) h).1, trivial⟩, (Prog.AsElems.wf (e := a) h).2⟩
    | permute => exact ⟨⟨(Prog.AsElems.wf (e := a) h).1, trivial⟩, (Prog.AsElems.wf (e := a) h).2⟩
    | unfold f => exact ⟨Prog.AsElems.wf (e := a) h, trivial⟩
    | reduceSum => exact ⟨⟨(Prog.AsElems.wf (e := a) h.1).1, trivial⟩, trivial⟩
    | reduceMean => exact ⟨⟨(Prog.AsElems.wf (e := a) h.1).1, trivial⟩, trivial⟩
  | .mode _ _ a, h => ⟨Prog.AsElems.wf (e := a) h, trivial⟩

theorem stores_keys {env : PyEnv F64} (he : env.Ok) {e : Prog F64} (hl : e.LitsOk) (hs : e.Small) (hd : e.AsElems) {τ : Ty}
    (hc : e.check = .ok τ) : (e.stores.map Prod.fst).Nodup ∧ ∀ k ∈ e.stores, InBounds τ.shape k.1 := by
  obtain ⟨h1, -⟩ := Prog.step he hl hs
  rw [hc] at h1
  obtain ⟨w, e1, hv, rfl, -⟩ := h1
  obtain ⟨e2, e3⟩ := Prog.value_stores he hl hs hd.wf.1 e1
  rw [← e2]
  exact ⟨e3 hd.wf.2, stores_inBounds hv⟩

/-- The cells of a pruned program without `NaN`. -/
theorem f64_pruned_elems {l : List (List Int × F64)} (hk : (l.map Prod.fst).Nodup) (cp : Bool) (eps : F64) {x : List Int} {d : F64}
    (h1 : SameNum ((total l x).getD 0) d) (hn : isNan d = false) :
    SameNum ((total (pruneBits cp eps l) x).getD 0) (if flt eps 0 || flt eps (fabs d) then d else 0) := by
  unfold pruneBits
  by_cases h0 : flt eps 0 = true
  · rw [if_pos h0, h0]
    exact h1
  rw [if_neg h0, Bool.eq_false_iff.2 h0, Bool.false_or]
  by_cases hz : (cp && eps == 0 && !(l.any fun e => e.2 == 0)) = true
  · rw [if_pos hz]
    refine F64.same_trans h1 ?_
    have he0 : (eps == 0) = true := by
      simp only [Bool.and_eq_true] at hz
      exact hz.1.2
    obtain ⟨s, rfl⟩ := F64.eq_zero_iff.1 he0
    have e0 : flt (F64.zero s) (fabs d) = flt 0 (fabs d) := by
      generalize fabs d = w
      cases w <;> rfl
    rw [e0]
    cases hv : (d == 0) with
    | true => rw [f64_abs_zero_lt hv]; exact .inr ⟨hv, rfl⟩
    | false => rw [f64_abs_pos hn hv]; exact F64.same_refl _
  · rw [if_neg hz, total_filter_nodup hk (fun v => flt eps (fabs v)) x]
    generalize total l x = p at h1 ⊢
    cases p with
    | none =>
      split
      · exact h1
      · exact F64.same_refl _
    | some v =>
      have h1 : SameNum v d := h1
      rw [← same_lt_abs (eps := eps) h1]
      cases hv : flt eps (fabs v) with
      | true => simp only [Option.filter, hv, if_true]; exact h1
      | false => simp only [Option.filter, hv]; exact F64.same_refl _

theorem ty_order_nodup (τ : Ty) : τ.order.Nodup := by
  cases τ with
  | mat f r c => exact order_nodup f r c
  | coo r c => exact indicesOf_nodup _
  | nd s => exact indicesOf_nodup _

theorem mem_ty_order {τ : Ty} {x : List Int} : x ∈ τ.order ↔ InBounds τ.shape x := by
  cases τ with
  | mat f r c => exact mem_order
  | coo r c => exact mem_indicesOf
  | nd s => exact mem_indicesOf

/-- The elements of an unfolding. -/
theorem f64_unfolded {s xs : List Nat} (h1 : AxesOk s.length xs) {l : List (List Int × F64)} (hin : ∀ k ∈ l, InBounds s k.1)
    {c : List Int → F64} (h : ∀ y, InBounds s y → SameNum ((total l y).getD 0) (c y)) {f : Fmt} {x : List Int}
    (hx : InBounds [(extents s xs).prod, (extents s (restAxes s.length xs)).prod] x) :
    SameNum ((total (tabulate (Ty.mat f (extents s xs).prod (extents s (restAxes s.length xs)).prod).order
      (total (l.map fun e => (unfoldIndex s xs e.1, e.2)))) x).getD 0) (c (foldIndex s xs x)) := by
  rw [total_tabulate (order_nodup _ _ _) (mem_order.2 hx)]
  obtain ⟨i, j, rfl, hi, hj⟩ := inBounds_pair hx
  obtain ⟨u1, u2, u3⟩ := unfold_index h1 hi hj (x := foldIndex s xs [(i : Int), (j : Int)]) rfl
  have e := total_map_key l (unfoldIndex s xs) (foldIndex s xs [(i : Int), (j : Int)]) fun e hm hxy => by
    unfold unfoldIndex at hxy
    simp only [List.cons.injEq, Nat.cast_inj, and_true] at hxy
    exact unfold_inj h1.1 (hin e hm) u1 hxy.1 hxy.2
  have e0 : unfoldIndex s xs (foldIndex s xs [(i : Int), (j : Int)]) = [(i : Int), (j : Int)] := by
    unfold unfoldIndex
    rw [u2, u3]
  rw [e0] at e
  rw [e]
  exact h _ u1

/-- What is stored once and is, up to the sign of a zero, the element. -/
theorem heldAs_of {l : List (List Int × F64)} (hn : (l.map Prod.fst).Nodup) {x : List Int} {d : F64}
    (h2 : SameNum ((total l x).getD 0) d) : HeldAs (valuesAt l x) d := by
  have h1 := valuesAt_nodup hn x
  rw [total_eq_sumAll] at h2
  generalize valuesAt l x = m at h1 h2
  rcases m with _ | ⟨v, _ | ⟨w, m⟩⟩
  · left
    refine ⟨rfl, ?_⟩
    rcases h2 with h2 | ⟨-, h2⟩
    · rw [← h2]; rfl
    · exact h2
  · exact .inr ⟨v, rfl, h2⟩
  · exact absurd h1 (by simp)

/-- Finite numbers of the same value are the same up to the sign of a zero. -/
theorem F64.same_of_val {a b : F64} (ha : a.IsFin) (hb : b.IsFin) (h : a.val = b.val) : SameNum a b := by
  by_cases h0 : a.val = 0
  · exact .inr ⟨(F64.val_eq_zero ha).1 h0, (F64.val_eq_zero hb).1 (h ▸ h0)⟩
  · left
    cases a with
    | nan => exact ha.elim
    | inf => exact ha.elim
    | zero => exact absurd rfl h0
    | num x =>
      cases b with
      | nan => exact hb.elim
      | inf => exact hb.elim
      | zero => exact absurd h h0
      | num y => exact congrArg F64.num (Subtype.ext h)

/-- Sums of whole numbers from left to right. -/
theorem wholeSum_foldl {l : List F64} (h : F64.WholeSum l) :
    (l.foldl (fun s v => s + v) 0).IsInt ∧ (l.foldl (fun s v => s + v) 0).val = (l.map F64.val).sum := by
  have := foldl_tree l (AddTree.zero (V := F64))
  rw [zero_add] at this
  obtain ⟨h1, h2⟩ := F64.addTree_int this (fun x hx => h.1 x (Multiset.mem_coe.1 hx)) (by
    rw [Multiset.map_coe, Multiset.sum_coe]
    exact h.2)
  rw [Multiset.map_coe, Multiset.sum_coe] at h2
  exact ⟨h1, h2⟩

/-- The sums over axes that are exact: the stored numbers are added in some order. -/
theorem f64_reduced {s xs : List Nat} {l : List (List Int × F64)} (hin : ∀ k ∈ l, InBounds s k.1) {c : List Int → F64}
    (h : ∀ y, InBounds s y → HeldAs (valuesAt l y) (c y)) {x : List Int} (hw : F64.WholeSum (axisLine s xs c x)) :
    SameNum ((total (l.map fun e => (select (restAxes s.length xs) e.1, e.2)) x).getD 0)
      ((axisLine s xs c x).foldl (fun s v => s + v) 0) := by
  have : HasMinMax F64 := ⟨fun a _ => a, fun a _ => a, fun a _ => a, fun a _ => a, 0, 0⟩
  obtain ⟨w1, w2⟩ := wholeSum_foldl hw
  have hks : ((indicesOf s).filter fun z => select (restAxes s.length xs) z == x).Nodup := (indicesOf_nodup s).filter _
  unfold axisLine at hw w2
  generalize hz : ((indicesOf s).filter fun z => select (restAxes s.length xs) z == x) = zs at hks hw w2
  have hzs : ∀ z, z ∈ zs ↔ InBounds s z ∧ select (restAxes s.length xs) z = x := fun z => by
    rw [← hz, List.mem_filter, mem_indicesOf, beq_iff_eq]
  have hp := (perm_by_key (fun k : List Int × F64 => k.1) hks l).map Prod.snd
  have e1 : (zs.flatMap fun k => l.filter fun y => y.1 == k).map Prod.snd = (zs.map fun z => valuesAt l z).flatten := by
    rw [List.map_flatMap, List.flatMap]
    rfl
  have e2 : (l.filter fun y => zs.contains y.1).map Prod.snd =
      valuesAt (l.map fun e => (select (restAxes s.length xs) e.1, e.2)) x := by
    unfold valuesAt
    rw [List.filter_map, List.map_map]
    congr 1
    apply List.filter_congr
    intro k hk
    rw [Bool.eq_iff_iff, List.contains_iff_mem, hzs]
    simp only [Function.comp, beq_iff_eq]
    exact ⟨fun h => h.2, fun h => ⟨hin k hk, h⟩⟩
  rw [e1, e2] at hp
  rw [total_eq_sumAll]
  have hh : ∀ z ∈ zs, HeldAs (valuesAt l z) (c z) := fun z hz => h z ((hzs z).1 hz).1
  have emap : ∀ φ : F64 → ℚ, ((zs.map fun z => valuesAt l z).flatten).map φ = zs.flatMap fun z => (valuesAt l z).map φ := by
    intro φ
    rw [← List.flatMap_def, List.map_flatMap]
  have s1 := heldAs_sum zs hh (fun _ => F64.val) (fun _ _ _ => F64.same_val) fun _ => rfl
  have s2 := heldAs_sum zs hh (fun _ a => |F64.val a|) (fun _ _ _ h => by rw [F64.same_val h]) fun _ => abs_zero
  rw [← emap] at s1 s2
  have q1 := (hp.map F64.val).sum_eq
  have q2 := (hp.map fun a => |F64.val a|).sum_eq
  rw [s1] at q1
  rw [s2] at q2
  rw [List.map_map] at w2
  obtain ⟨hwi, hwb⟩ := hw
  rw [List.map_map] at hwb
  cases hv : sumAll (valuesAt (l.map fun e => (select (restAxes s.length xs) e.1, e.2)) x) with
  | none =>
    rw [sumAll_eq_none.1 hv] at q1
    refine .inr ⟨rfl, (F64.val_eq_zero w1.1).1 ?_⟩
    unfold axisLine
    rw [hz, w2]
    exact q1
  | some v =>
    obtain ⟨v1, v2⟩ := F64.addTree_int (sumAll_tree hv) (fun a ha => by
      rw [Multiset.mem_coe, ← hp.mem_iff, List.mem_flatten] at ha
      obtain ⟨m, hm, ha⟩ := ha
      obtain ⟨z, hz, rfl⟩ := List.mem_map.1 hm
      exact heldAs_int (held := valuesAt l) (dense := c) (hh z hz) (hwi _ (List.mem_map_of_mem hz)) ha) (by
      rw [Multiset.map_coe, Multiset.sum_coe, ← q2]
      exact hwb)
    rw [Multiset.map_coe, Multiset.sum_coe, ← q1] at v2
    refine F64.same_of_val v1.1 w1.1 ?_
    show v.val = _
    unfold axisLine
    rw [hz, w2, v2]
    rfl

/-- The count of a mean: it is a number, as is its reciprocal. -/
theorem f64_recip_nat {n : Nat} (h0 : 0 < n) (h53 : n ≤ 2 ^ 53) : (1 / (n : F64)).IsFin := by
  have : HasMinMax F64 := ⟨fun a _ => a, fun a _ => a, fun a _ => a, fun a _ => a, 0, 0⟩
  obtain ⟨k1, k2⟩ := f64_nat h53
  have hq : (1 : ℚ) ≤ n := by exact_mod_cast h0
  refine (F64.div_rnd F64.one_fin.1 k1 (by rw [k2]; linarith) ?_).1
  rw [F64.one_fin.2, k2, abs_of_pos (by positivity)]
  refine le_trans ((div_le_one (by linarith)).2 hq) ?_
  have := F64.int_max (q := 1) (by norm_num)
  rwa [abs_one] at this

theorem f64_elems {env : PyEnv F64} (he : env.Ok) : ∀ {e : Prog F64}, e.LitsOk → e.Small → e.AsElems → ∀ {τ : Ty}, e.check = .ok τ →
    ∀ x, InBounds τ.shape x → SameNum ((total e.stores x).getD 0) (e.elems x) := by
  intro e
  induction e with
  | mat f nrows ncols indptr indices data => intro _ _ _ _ _ x _; exact F64.same_refl _
  | coo => intro _ _ _ _ _ x _; exact F64.same_refl _
  | nd => intro _ _ _ _ _ x _; exact F64.same_refl _
  | un op a ih =>
    intro hl hs hd τ hc x hx
    have hk := (stores_keys he (e := a) hl hs.1 hd hc).1
    show SameNum ((total (a.stores.map fun e => (e.1, op.bits e.2)) x).getD 0) _
    rw [total_map_nodup hk]
    have hx := ih hl hs.1 hd hc x hx
    have h0 : SameNum (((total a.stores x).map op.bits).getD 0) (op.bits ((total a.stores x).getD 0)) := by
      cases total a.stores x with
      | some v => exact .inl rfl
      | none =>
        cases op with
        | abs => exact F64.same_refl _
        | neg => rw [f64_negative]; exact F64.zero_same _ _
        | sign => rw [f64_sign]; exact F64.same_refl _
    refine F64.same_trans h0 ?_
    cases op with
    | abs => exact F64.same_abs hx
    | neg => rw [f64_negative]; exact F64.same_neg hx
    | sign => rw [f64_sign]; exact F64.same_signum hx
  | bin op a b iha ihb =>
    intro hl hs hd τ hc x hx
    have had : a.AsElems ∧ b.AsElems := by
      cases op with
      | add => exact hd
      | sub => exact hd
      | mul => exact ⟨hd.1, hd.2.1⟩
      | div => exact hd
      | floordiv => exact hd
      | rem => exact hd
      | _ => exact hd.elim
    have hsh : (Prog.bin op a b).shape = τ.shape := Prog.shape_ok hc
    have hord := Prog.order_ok hc
    have hc : (a.check.bind fun t => b.check.bind fun u => Ty.bin op t u) = .ok τ := hc
    cases ha : a.check with
    | error x => rw [ha] at hc; cases hc
    | ok t =>
      cases hb : b.check with
      | error x => rw [ha, hb] at hc; cases hc
      | ok u =>
        rw [ha, hb] at hc
        have hc : Ty.bin op t u = .ok τ := hc
        have h1 := iha hl.1 hs.1 had.1 ha
        have h2 := ihb hl.2 hs.2.1 had.2 hb
        have hka := (stores_keys he hl.1 hs.1 had.1 ha).1
        have hkb := (stores_keys he hl.2 hs.2.1 had.2 hb).1
        cases t with
        | coo => cases u <;> cases hc
        | mat f r c =>
          cases u with
          | coo => cases hc
          | nd => cases hc
          | mat g r' c' =>
            have hc : (if f ≠ g then Except.error PyErr.notImplemented
              else if r = r' ∧ c = c' then .ok (.mat f r c) else .error .panic) = .ok τ := hc
            by_cases hfg : f ≠ g
            · rw [if_pos hfg] at hc; cases hc
            rw [if_neg hfg] at hc
            by_cases hrc : r = r' ∧ c = c'
            · rw [if_pos hrc] at hc
              have hτ : Ty.mat f r c = τ := Except.ok.inj hc
              subst hτ
              obtain ⟨rfl, rfl⟩ := hrc
              have hfg : f = g := not_not.1 hfg
              subst hfg
              rw [stores_of_bin op ha hb, total_tabulate (order_nodup _ _ _) (mem_order.2 hx)]
              have h1 := h1 x hx
              have h2 := h2 x hx
              have ea : bcastIndex a.shape x = x := by rw [Prog.shape_ok ha]; exact bcastIndex_self hx
              have eb : bcastIndex b.shape x = x := by rw [Prog.shape_ok hb]; exact bcastIndex_self hx
              generalize total a.stores x = p at h1 ⊢
              generalize total b.stores x = q at h2 ⊢
              cases op with
              | add => exact F64.same_trans (f64_bits_add p q) (F64.same_add h1 h2)
              | sub => exact F64.same_trans (f64_bits_sub p q) (F64.same_sub h1 h2)
              | mul =>
                obtain ⟨k1, k2⟩ := hd.2.2 x (by rw [hsh]; exact hx)
                show SameNum _ (a.elems (bcastIndex a.shape x) * b.elems (bcastIndex b.shape x))
                rw [ea] at k1 ⊢
                rw [eb] at k2 ⊢
                exact F64.same_trans (f64_bits_mul (F64.same_fin h1 k1) (F64.same_fin h2 k2)) (F64.same_mul h1 h2)
              | div => exact F64.same_trans (f64_bits_div p q) (quotLike_div.congr h1 h2)
              | floordiv => exact F64.same_trans (f64_bits_floordiv p q) (quotLike_floordiv.congr h1 h2)
              | rem => exact F64.same_trans (f64_bits_rem p q) (quotLike_rem.congr h1 h2)
              | _ => exact hd.elim
            · rw [if_neg hrc] at hc; cases hc
        | nd s =>
          cases u with
          | coo => cases hc
          | mat => cases hc
          | nd s' =>
            have hc : (if op = .mul then (match bcastTo s s' with | some u => Except.ok (Ty.nd u) | none => .error PyErr.panic)
              else .error PyErr.notImplemented) = .ok τ := hc
            by_cases hop : op = .mul
            · subst hop
              rw [if_pos rfl] at hc
              cases hbc : bcastTo s s' with
              | none => rw [hbc] at hc; cases hc
              | some u =>
                rw [hbc] at hc
                cases hc
                obtain ⟨-, -, b1, b2⟩ := bcast_cells hbc (show InBounds u x from hx)
                obtain ⟨k1, k2⟩ := hd.2.2 x (by rw [hsh]; exact hx)
                have ea := Prog.shape_ok ha
                have eb := Prog.shape_ok hb
                have h1 := h1 _ b1
                have h2 := h2 _ b2
                show SameNum ((total (tabulate (Prog.bin .mul a b).order _) x).getD 0)
                  (a.elems (bcastIndex a.shape x) * b.elems (bcastIndex b.shape x))
                rw [hord, total_tabulate (ty_order_nodup _) (mem_ty_order.2 hx)]
                simp only [Prog.compressed_ok ha]
                rw [ea] at k1 ⊢
                rw [eb] at k2 ⊢
                rw [if_neg (show ¬ (Ty.nd s).compressed = true from Bool.false_ne_true)]
                have n1 := valuesAt_nodup hka (bcastIndex s x)
                have n2 := valuesAt_nodup hkb (bcastIndex s' x)
                rw [total_eq_sumAll] at h1 h2
                have h1 : SameNum ((sumAll (valuesAt a.stores (bcastIndex s x))).getD 0) (a.elems (bcastIndex s x)) := h1
                have h2 : SameNum ((sumAll (valuesAt b.stores (bcastIndex s' x))).getD 0) (b.elems (bcastIndex s' x)) := h2
                have k1 : (a.elems (bcastIndex s x)).IsFin := k1
                have k2 : (b.elems (bcastIndex s' x)).IsFin := k2
                show SameNum ((sumAll ((valuesAt a.stores (bcastIndex s x)).flatMap fun p =>
                  (valuesAt b.stores (bcastIndex s' x)).map fun q => p * q)).getD 0)
                  (a.elems (bcastIndex s x) * b.elems (bcastIndex s' x))
                generalize valuesAt a.stores (bcastIndex s x) = us at n1 h1 ⊢
                generalize valuesAt b.stores (bcastIndex s' x) = vs at n2 h2 ⊢
                generalize a.elems (bcastIndex s x) = da at h1 k1 ⊢
                generalize b.elems (bcastIndex s' x) = db at h2 k2 ⊢
                refine F64.same_trans ?_ (F64.same_mul h1 h2)
                have k1 := F64.same_fin h1 k1
                have k2 := F64.same_fin h2 k2
                rcases us with _ | ⟨v, _ | ⟨w, m⟩⟩
                · exact F64.same_symm (F64.zero_mul_same k2 false)
                · rcases vs with _ | ⟨v', _ | ⟨w', m'⟩⟩
                  · exact F64.same_symm (F64.mul_zero_same k1 false)
                  · exact F64.same_refl _
                  · exact absurd n2 (by simp)
                · exact absurd n1 (by simp)
            · rw [if_neg hop] at hc; cases hc
  | scalar op a alpha ih =>
    intro hl hs hd τ hc x hx
    have had : a.AsElems := by
      cases op with
      | mul => exact hd.1
      | div => exact hd.1
      | floordiv => exact hd.1
      | rem => exact hd.1
      | _ => exact hd.elim
    have hc : (a.check.bind fun t => Ty.scalar op (alpha == 0) t) = .ok τ := hc
    cases ha : a.check with
    | error x => rw [ha] at hc; cases hc
    | ok t =>
      rw [ha] at hc
      have hc : Ty.scalar op (alpha == 0) t = .ok τ := hc
      have hτ : τ = t ∧ (op = .floordiv ∨ op = .rem → (alpha == 0) = false) := by
        cases op with
        | mul => cases t <;> cases hc <;> exact ⟨rfl, by simp⟩
        | div =>
          refine ⟨?_, by simp⟩
          cases t <;> cases h0 : (alpha == 0) <;> rw [h0] at hc <;> cases hc <;> rfl
        | floordiv =>
          cases h0 : (alpha == 0) <;> rw [h0] at hc <;> cases hc
          exact ⟨rfl, fun _ => rfl⟩
        | rem =>
          cases h0 : (alpha == 0) <;> rw [h0] at hc <;> cases hc
          exact ⟨rfl, fun _ => rfl⟩
        | _ => exact hd.elim
      obtain ⟨rfl, hz⟩ := hτ
      have hk := (stores_keys he (e := a) hl hs.1 had ha).1
      show SameNum ((total (a.stores.map fun e => (e.1, op.scalarBits alpha e.2)) x).getD 0) _
      rw [total_map_nodup hk]
      have hsx : InBounds a.shape x := by rw [Prog.shape_ok ha]; exact hx
      have hx := ih hl hs.1 had ha x hx
      generalize total a.stores x = p at hx ⊢
      cases op with
      | mul =>
        show SameNum _ (a.elems x * alpha)
        refine F64.same_trans ?_ (F64.same_mul_left hx alpha)
        cases p with
        | none => exact F64.same_symm (F64.zero_mul_same hd.2.1 false)
        | some v => exact f64_scale hd.2.1 fun h0 => F64.same_fin hx (hd.2.2 h0 x hsx)
      | div =>
        show SameNum _ (a.elems x / alpha)
        refine F64.same_trans ?_ (F64.same_div hx alpha)
        obtain ⟨hf, k, k1, k2, hk⟩ := hd.2
        have hn : (alpha == 0) = false := by
          rw [Bool.eq_false_iff]
          intro h
          rw [F64.val_of_eq_zero _ h, abs_zero] at hk
          exact absurd hk (ne_of_gt (two_zpow_pos k)).symm
        cases p with
        | none =>
          refine F64.same_symm (F64.zero_div_same hn ?_ false)
          cases alpha <;> first | exact hf.elim | rfl
        | some v =>
          show SameNum (scaleBits (1 / alpha) v) (v / alpha)
          rw [f64_scale_ne (F64.recip_ne hd.2), F64.mul_recip hd.2]
          exact F64.same_refl _
      | floordiv =>
        show SameNum _ (a.elems x / alpha).flr
        refine F64.same_trans ?_ (F64.same_flr (F64.same_div hx alpha))
        cases p with
        | none => exact F64.same_symm (F64.same_flr (F64.zero_div_same (hz (.inl rfl)) hd.2 false))
        | some v => exact F64.same_refl _
      | rem =>
        show SameNum _ (a.elems x - alpha * (a.elems x / alpha).flr)
        refine F64.same_trans ?_ (quotLike_rem.same alpha hx)
        cases p with
        | none =>
          have h0 := hz (.inr rfl)
          have hf : alpha.IsFin := hd.2
          cases alpha with
          | num y => exact F64.zero_same _ _
          | zero s => cases h0
          | _ => exact hf.elim
        | some v => exact F64.same_refl _
      | _ => exact hd.elim
  | left op alpha a ih =>
    intro hl hs hd τ hc x hx
    have had : a.AsElems := by
      cases op with
      | mul => exact hd.1
      | _ => exact hd.elim
    have hc : (a.check.bind fun t => Ty.left op t) = .ok τ := hc
    cases ha : a.check with
    | error x => rw [ha] at hc; cases hc
    | ok t =>
      rw [ha] at hc
      have hc : Ty.left op t = .ok τ := hc
      cases op with
      | mul =>
        have hτ : τ = t := by cases t <;> cases hc <;> rfl
        subst hτ
        have hk := (stores_keys he (e := a) hl hs.1 had ha).1
        show SameNum ((total (a.stores.map fun e => (e.1, scaleBits alpha e.2)) x).getD 0) (alpha * a.elems x)
        rw [total_map_nodup hk, F64.mul_comm]
        have hsx : InBounds a.shape x := by rw [Prog.shape_ok ha]; exact hx
        have hx := ih hl hs.1 had ha x hx
        generalize total a.stores x = p at hx ⊢
        refine F64.same_trans ?_ (F64.same_mul_left hx alpha)
        cases p with
        | none => exact F64.same_symm (F64.zero_mul_same hd.2.1 false)
        | some v => exact f64_scale hd.2.1 fun h0 => F64.same_fin hx (hd.2.2 h0 x hsx)
      | _ => exact hd.elim
  | T a ih =>
    intro hl hs hd τ hc x hx
    have hc : (a.check.bind fun t => Ty.T t) = .ok τ := hc
    cases ha : a.check with
    | error x => rw [ha] at hc; cases hc
    | ok t =>
      rw [ha] at hc
      have h := ih hl hs.1 hd ha
      cases t with
      | mat f r c =>
        cases hc
        rw [total_of_T ha hx]
        exact h _ (inBounds_reverse hx)
      | coo r c =>
        cases hc
        show SameNum ((total (if a.compressed then _ else a.stores.map fun e => (e.1.reverse, e.2)) x).getD 0) _
        rw [Prog.compressed_ok ha, if_neg (show ¬ (Ty.coo r c).compressed = true from Bool.false_ne_true)]
        have e := total_map_key a.stores List.reverse x.reverse fun e _ h => List.reverse_injective h
        rw [List.reverse_reverse] at e
        rw [e]
        exact h _ (inBounds_reverse hx)
      | nd s => cases hc
  | prune eps a ih =>
    intro hl hs hd τ hc x hx
    have hc : a.check = .ok τ := check_pruned hc
    exact f64_pruned_elems (stores_keys he (e := a) hl hs.1 hd.1 hc).1 _ eps (ih hl hs.1 hd.1 hc x hx)
      (hd.2 x (by rw [Prog.shape_ok hc]; exact hx))
  | elimZeros a ih =>
    intro hl hs hd τ hc x hx
    have hc : a.check = .ok τ := check_pruned hc
    have hn := hd.2 x (by rw [Prog.shape_ok hc]; exact hx)
    refine F64.same_trans (f64_pruned_elems (stores_keys he (e := a) hl hs.1 hd.1 hc).1 _ 0 (ih hl hs.1 hd.1 hc x hx) hn) ?_
    show SameNum (if flt 0 0 || flt 0 (fabs (a.elems x)) then a.elems x else 0) (a.elems x)
    split
    · exact F64.same_refl _
    · rename_i h0
      exact .inr ⟨rfl, by
        by_contra h1
        exact h0 (by rw [f64_abs_pos hn (Bool.eq_false_iff.2 h1)]; simp)⟩
  | ndop op arg a ih =>
    intro hl hs hd τ hc x hx
    have hsmall := hs
    have hord := Prog.order_ok hc
    have had : a.AsElems := by cases op <;> first | exact hd | exact hd.1
    have hsh : (Prog.ndop op arg a).shape = τ.shape := Prog.shape_ok hc
    have hc : (a.check.bind fun t => Ty.ndop op arg t) = .ok τ := hc
    cases ha : a.check with
    | error x => rw [ha] at hc; cases hc
    | ok t =>
      rw [ha] at hc
      cases t with
      | mat => cases op <;> cases hc
      | coo => cases op <;> cases hc
      | nd s =>
        have hc : (argDims arg).bind (op.ty s) = .ok τ := hc
        have h := ih hl hs.1 had ha
        have hin := (stores_keys he (e := a) hl hs.1 had ha).2
        have hash : a.shape = s := Prog.shape_ok ha
        have hc : op.ty s (arg.map Int.toNat) = .ok τ := by
          unfold argDims at hc
          split_ifs at hc
          · cases hc
          · cases hc
          · exact hc
        show SameNum ((total (op.bits a.shape (arg.map Int.toNat) (Prog.ndop op arg a).order a.stores) x).getD 0) _
        rw [hash, hord]
        generalize hxs : arg.map Int.toNat = xs at hc ⊢
        cases op with
        | reshape =>
          simp only [NdOp.ty] at hc
          split_ifs at hc with h1 h2
          cases hc
          rw [not_not] at h1
          show SameNum _ (a.elems (unravel a.shape (rowMajor (arg.map Int.toNat) x)))
          rw [hash, hxs]
          have hlt := rowMajor_lt (show InBounds xs x from hx)
          obtain ⟨u1, u2⟩ := unravel_spec (s := s) (k := rowMajor xs x) (by omega)
          have e := total_map_key a.stores (fun y => unravel xs (rowMajor s y)) (unravel s (rowMajor xs x)) fun e hm hxy => by
            have b1 := hin e hm
            have k1 := rowMajor_lt b1
            have k2 := rowMajor_lt u1
            have k1 : rowMajor s e.1 < s.prod := k1
            have := congrArg (rowMajor xs) hxy
            rw [(unravel_spec (by omega)).2, (unravel_spec (by omega)).2] at this
            exact rowMajor_inj b1 u1 this
          have e0 : unravel xs (rowMajor s (unravel s (rowMajor xs x))) = x := by rw [u2]; exact unravel_rowMajor hx
          simp only [e0] at e
          show SameNum ((total (a.stores.map fun e => (unravel xs (rowMajor s e.1), e.2)) x).getD 0) _
          rw [e]
          exact h _ u1
        | permute =>
          simp only [NdOp.ty] at hc
          split_ifs at hc with h1
          cases hc
          show SameNum _ (a.elems (unpermute (arg.map Int.toNat) x))
          rw [hxs]
          have hl' : xs.length = s.length := by simpa using h1.length_eq
          have u1 := unpermute_inBounds h1 hx
          have e := total_map_key a.stores (select xs) (unpermute xs x) fun e hm hxy => select_perm_inj h1 (hin e hm) u1 hxy
          rw [select_unpermute h1 (by rw [(show InBounds (extents s xs) x from hx).length_eq]; simpa [extents] using hl')] at e
          show SameNum ((total (a.stores.map fun e => (select xs e.1, e.2)) x).getD 0) _
          rw [e]
          exact h _ u1
        | unfold f =>
          simp only [NdOp.ty] at hc
          split_ifs at hc with h1
          cases hc
          show SameNum _ (a.elems (foldIndex a.shape (arg.map Int.toNat) x))
          rw [hash, hxs]
          exact f64_unfolded h1 hin (fun y hy => h y hy) hx
        | reduceSum =>
          have hw := hd.2 x (by rw [hsh]; exact hx)
          rw [hash, hxs] at hw
          show SameNum ((total (tabulate τ.order (total (a.stores.map fun e => (select (restAxes s.length xs) e.1, e.2)))) x).getD 0)
            ((axisLine a.shape (arg.map Int.toNat) a.elems x).foldl (fun s v => s + v) 0)
          rw [hash, hxs, total_tabulate (ty_order_nodup _) (mem_ty_order.2 hx)]
          exact f64_reduced hin (fun y hy => heldAs_of (stores_keys he (e := a) hl hs.1 had ha).1 (h y hy)) hw
        | reduceMean =>
          have hw := hd.2.2 x (by rw [hsh]; exact hx)
          have h53 := hd.2.1
          rw [hash, hxs] at hw h53
          simp only [NdOp.ty] at hc
          split_ifs at hc with h1
          have hpos : 0 < (extents s xs).prod := by
            have : HasMinMax F64 := ⟨fun a _ => a, fun a _ => a, fun a _ => a, fun a _ => a, 0, 0⟩
            obtain ⟨w, hv, hsz, ht, -⟩ := prog_stores he (e := a) hl hs.1 had.wf.1 ha
            rw [ht] at hsz
            have h0 : 0 < s.prod := hsz.1
            refine List.prod_pos fun n hn => ?_
            obtain ⟨p, hp, rfl⟩ := List.mem_map.1 hn
            have hp := h1.1.1 p hp
            rw [List.getD_eq_getElem _ _ hp]
            exact Nat.pos_of_ne_zero fun h => absurd (List.prod_eq_zero (h ▸ List.getElem_mem hp)) (by omega)
          have hfin := f64_recip_nat hpos h53
          show SameNum ((total ((tabulate τ.order (total (a.stores.map fun e => (select (restAxes s.length xs) e.1, e.2)))).map fun e =>
            (e.1, if (extents s xs).prod = 1 then e.2 else scaleBits (1 / ((extents s xs).prod : F64)) e.2)) x).getD 0)
            ((axisLine a.shape (arg.map Int.toNat) a.elems x).foldl (fun s v => s + v) 0 *
              (1 / ((extents a.shape (arg.map Int.toNat)).prod : F64)))
          rw [hash, hxs, total_map_nodup ((ty_order_nodup τ).sublist (tabulate_keys _ _))
              (fun v => if (extents s xs).prod = 1 then v else scaleBits (1 / ((extents s xs).prod : F64)) v),
            total_tabulate (ty_order_nodup _) (mem_ty_order.2 hx)]
          have h2 := f64_reduced (s := s) (xs := xs) hin (fun y hy => heldAs_of (stores_keys he (e := a) hl hs.1 had ha).1 (h y hy)) hw
          refine F64.same_trans ?_ (F64.same_mul_left h2 _)
          have hwf := F64.same_fin h2 (wholeSum_foldl hw).1.1
          generalize total (a.stores.map fun e => (select (restAxes s.length xs) e.1, e.2)) x = p at hwf ⊢
          generalize (extents s xs).prod = n at hfin ⊢
          cases p with
          | none => exact F64.same_symm (F64.zero_mul_same hfin false)
          | some v =>
            have := f64_scale (v := v) hfin fun _ => hwf
            show SameNum (if n = 1 then v else scaleBits (1 / (n : F64)) v) (v * (1 / (n : F64)))
            by_cases hn : n = 1
            · subst hn
              rw [if_pos rfl]
              have h1 : ((1 / ((1 : Nat) : F64)) == 1) = true := by decide +kernel
              unfold scaleBits at this
              rwa [if_pos h1] at this
            · rw [if_neg hn]
              exact this
  | mode f axis a ih =>
    intro hl hs hd τ hc x hx
    have hord := Prog.order_ok hc
    have hc : (a.check.bind fun t => Ty.mode f axis t) = .ok τ := hc
    cases ha : a.check with
    | error x => rw [ha] at hc; cases hc
    | ok t =>
      rw [ha] at hc
      cases t with
      | mat => cases hc
      | coo => cases hc
      | nd s =>
        have h := ih hl hs.1 hd ha
        have hin := (stores_keys he (e := a) hl hs.1 hd ha).2
        have hash : a.shape = s := Prog.shape_ok ha
        have hc : (if axis < 0 ∨ (usizeMax : Int) < axis then Except.error PyErr.overflowError
          else if axis.toNat < s.length then
            .ok (Ty.mat f (s.getD axis.toNat 0) (extents s (restAxes s.length [axis.toNat])).prod)
          else .error PyErr.panic) = .ok τ := hc
        split_ifs at hc with c1 c2
        have e1 : s.getD axis.toNat 0 = (extents s [axis.toNat]).prod := by simp [extents]
        rw [e1] at hc
        cases hc
        show SameNum ((total ((NdOp.unfold f).bits a.shape [axis.toNat] (Prog.mode f axis a).order a.stores) x).getD 0)
          (a.elems (foldIndex a.shape [axis.toNat] x))
        rw [hash, hord]
        exact f64_unfolded (s := s) ⟨by simpa using c2, by simp⟩ hin (fun y hy => h y hy) hx

end
end Lacuna
