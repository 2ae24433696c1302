import Mathlib.Tactic.IntervalCases
import Verif.Props.F64NdAxes
/-
C100: the functions `sum` and `mean` over some axes of programs whose value is a `COOND`, in binary64.
-/
set_option linter.unusedSectionVars false
namespace Lacuna

theorem pyNd_of_inj {a b : CooNd F64} (h : (SpVal.nd a).obj = (SpVal.nd b).obj) : a = b := by
  have h : PyNd.of a = PyNd.of b := PyObj.nd.inj h
  have h1 : a.shape.map Int.ofNat = b.shape.map Int.ofNat := congrArg PyNd.shape h
  have h2 : a.indices = b.indices := congrArg PyNd.indices h
  have h3 : a.data = b.data := congrArg PyNd.data h
  have h1 : a.shape = b.shape := List.map_injective_iff.2 (fun _ _ h => Int.ofNat.inj h) h1
  cases a; cases b
  simp only at h1 h2 h3
  subst h1 h2 h3
  rfl

theorem toNat_covered (n : Nat) (S : Nat → Bool) :
    ((((List.range n).filter S).map fun (d : Nat) => (d : Int)).map Int.toNat) = (List.range n).filter S := by
  rw [List.map_map]
  conv => rhs; rw [← List.map_id ((List.range n).filter S)]
  exact List.map_congr_left fun d _ => Int.toNat_natCast d

theorem axisLine_fibre {V : Type} (s : List Nat) (S : Nat → Bool) (f : List Int → V) (x : List Int) :
    ((indicesOf s).filter fun z => select (restAxes s.length ((List.range s.length).filter S)) z == x).map f = fibre s S false f x := by
  unfold fibre
  rw [restAxes_covered]
  simp only [reducedIndex_false]

theorem expand_inBounds {s : List Nat} {S : Nat → Bool} {x : List Int} (hx : InBounds (reducedShape s S false) x) :
    InBounds (reducedShape s S true) (expandIndex s.length S x) := by
  rw [inBounds_iff_get] at hx ⊢
  rw [reducedShape_false] at hx
  rw [reducedShape_true]
  unfold expandIndex
  simp only [List.length_map, List.length_range, true_and] at hx ⊢
  intro d hd
  rw [List.getD_eq_getElem (List.map _ _) _ (by simpa using hd), List.getElem_map, List.getElem_range,
    List.getD_eq_getElem (List.map _ _) _ (by simpa using hd), List.getElem_map, List.getElem_range]
  cases hs : S d with
  | true => simp
  | false =>
    have hm : d ∈ (List.range s.length).filter fun d => !(S d) := List.mem_filter.2 ⟨List.mem_range.2 hd, by simp [hs]⟩
    have := hx.2 _ (List.idxOf_lt_length_iff.2 hm)
    rw [getD_map_idxOf _ (fun d => s.getD d 0) 0 hm] at this
    simpa using this

/-- An index of the array with the reduced axes kept is one without them, with zeros put in. -/
theorem keep_index {s : List Nat} {S : Nat → Bool} {y : List Int} (hy : InBounds (reducedShape s S true) y) :
    ∃ x, InBounds (reducedShape s S false) x ∧ expandIndex s.length S x = y ∧
      ∀ {V : Type} (f : List Int → V), fibre s S true f y = fibre s S false f x := by
  rw [inBounds_iff_get, reducedShape_true] at hy
  simp only [List.length_map, List.length_range] at hy
  obtain ⟨hy1, hy2⟩ := hy
  have hget : ∀ d, d < s.length → 0 ≤ y.getD d 0 ∧ y.getD d 0 < ((if S d then 1 else s.getD d 0 : Nat) : Int) := by
    intro d hd
    have := hy2 d hd
    rwa [List.getD_eq_getElem (List.map _ _) _ (by simpa using hd), List.getElem_map, List.getElem_range] at this
  have hex : expandIndex s.length S (reducedIndex s.length S false y) = y := by
    rw [expand_select, reducedIndex_true]
    apply List.ext_getElem
    · simp [hy1]
    · intro d h1 h2
      have hd : d < s.length := by simpa using h1
      rw [List.getElem_map, List.getElem_range]
      have := hget d hd
      rw [List.getD_eq_getElem _ _ h2] at this ⊢
      cases hs : S d with
      | true =>
        rw [hs] at this
        simp only [if_true] at this ⊢
        omega
      | false => rfl
  refine ⟨reducedIndex s.length S false y, ?_, hex, fun f => ?_⟩
  · rw [inBounds_iff_get, reducedIndex_false_length, reducedShape_false]
    refine ⟨by simp, fun q hq => ?_⟩
    rw [List.length_map] at hq
    have hm := List.getElem_mem hq
    rw [List.mem_filter, List.mem_range] at hm
    have := hget _ hm.1
    rw [reducedIndex_false]
    unfold select
    rw [List.getD_eq_getElem (List.map _ _) _ (by simpa using hq), List.getElem_map,
      List.getD_eq_getElem (List.map _ _) _ (by simpa using hq), List.getElem_map]
    have hs : S (((List.range s.length).filter fun d => !(S d))[q]) = false := by simpa using hm.2
    rw [hs] at this
    exact this
  · unfold fibre
    congr 1
    apply List.filter_congr
    intro z _
    rw [← expand_select]
    rw [Bool.eq_iff_iff, beq_iff_eq, beq_iff_eq]
    constructor
    · intro h
      exact expand_inj (reducedIndex_false_length _ _ _) (reducedIndex_false_length _ _ _) (h.trans hex.symm)
    · intro h
      rw [h, hex]

variable [HasMinMax F64] [HasPowf F64]

/-- The call of `sum` or `mean` on the value of a program, by the method it calls. -/
theorem reduce_by_method {env : PyEnv F64} (he : env.Ok) {e : Prog F64} (hl : e.LitsOk) (hs : e.Small) (hdet : e.Determined)
    {s : List Nat} (hc : e.check = .ok (.nd s)) (hrank : (s.length : Int) ≤ i64Max) {op : RedOp F64} {m : NdOp}
    (hop : op = .sum ∧ m = .reduceSum ∨ op = .mean ∧ m = .reduceMean) {axis : AxisArg} (keep : Bool)
    (hn : axis ≠ .none) (hne : axis ≠ .many []) (ha : axis.Valid s.length)
    (hleft : ∃ d, d < s.length ∧ axis.covers s.length d = false) {L : List Nat}
    (hL : L = (List.range s.length).filter (axis.covers s.length)) {arg : List Int} (hA : arg = L.map fun (d : Nat) => (d : Int)) :
    (Prog.ndop m arg e).Small ∧ (Prog.ndop m arg e).check = .ok (.nd (reducedShape s (axis.covers s.length) false)) ∧
    ∀ a : CooNd F64, (∀ out, (Prog.ndop m arg e).Eval env out ↔ out = .ret (SpVal.nd a).obj) →
      ∃ r : CooNd F64, (∀ out, e.Reduce env op axis keep out ↔ out = .ret (.sparse (SpVal.nd r).obj)) ∧
        r.shape = reducedShape s (axis.covers s.length) keep ∧
        r.entries = if keep then a.entries.map (fun k => (expandIndex s.length (axis.covers s.length) k.1, k.2)) else a.entries := by
  have hLne : L ≠ [] := by rw [hL]; exact covered_ne_nil hn hne ha
  have hrest : restAxes s.length L = (List.range s.length).filter fun d => !(axis.covers s.length d) := by
    rw [hL]; exact restAxes_covered _ _
  have hrem : ((List.range s.length).filter fun d => !(axis.covers s.length d)) ≠ [] := by
    obtain ⟨d, hd, hcv⟩ := hleft
    exact List.ne_nil_of_mem (List.mem_filter.2 ⟨List.mem_range.2 hd, by rw [hcv]; rfl⟩)
  have hLok : AxesOk s.length L := by
    rw [hL]
    exact ⟨fun _ hp => List.mem_range.1 (List.mem_filter.1 hp).1, List.Nodup.filter _ List.nodup_range⟩
  have harg : argDims arg = .ok L := by
    rw [hA]
    refine argDims_nat fun d hd => ?_
    have := hLok.1 d hd
    omega
  have hsh : extents s (restAxes s.length L) = reducedShape s (axis.covers s.length) false := by
    rw [hrest, reducedShape_false]; rfl
  have hcheck : (Prog.ndop m arg e).check = .ok (.nd (reducedShape s (axis.covers s.length) false)) := by
    show (e.check.bind fun t => Ty.ndop m arg t) = _
    rw [hc]
    show (argDims arg).bind (m.ty s) = _
    rw [harg]
    show m.ty s L = _
    have hcond : AxesOk s.length L ∧ L ≠ [] ∧ restAxes s.length L ≠ [] := ⟨hLok, hLne, by rw [hrest]; exact hrem⟩
    rw [← hsh]
    rcases hop with ⟨-, rfl⟩ | ⟨-, rfl⟩
    · exact if_pos hcond
    · exact if_pos hcond
  have hfit := Prog.small_fits hs
  unfold Prog.Fits at hfit
  rw [hc] at hfit
  have hsmall : (Prog.ndop m arg e).Small := by
    refine ⟨hs, ?_⟩
    unfold Prog.Fits
    rw [hcheck]
    obtain ⟨f1, f2, f3, f4⟩ := hfit
    have hp := extents_prod_le (restAxes_ok s.length L) f1
    rw [← hsh]
    have hlen : (extents s (restAxes s.length L)).length ≤ s.length := by
      unfold extents restAxes
      rw [List.length_map]
      exact (List.length_filter_le _ _).trans (by simp)
    refine ⟨hp.1, ?_, f3, ?_⟩
    · have := hp.2; omega
    · have f4 : 8 * ((e.bound * s.length : Nat) : Int) ≤ i64Max := f4
      have := Nat.mul_le_mul_left e.bound hlen
      show 8 * ((e.bound * (extents s (restAxes s.length L)).length : Nat) : Int) ≤ i64Max
      omega
  refine ⟨hsmall, hcheck, fun a hev => ?_⟩
  obtain ⟨w, hwv, hwt, -, hwe⟩ := prog_stored he (e := .ndop m arg e) hl hsmall (by
    rcases hop with ⟨-, rfl⟩ | ⟨-, rfl⟩ <;> exact ⟨hdet, trivial⟩) hcheck
  have hww : w = .nd a := by
    have := (hwe _).1 ((hev _).2 rfl)
    have this : (SpVal.nd a).obj = w.obj := PyRes.ret.inj this
    cases w with
    | mat f b => cases hwt
    | coo b => cases hwt
    | nd b => rw [pyNd_of_inj this]
  subst hww
  have haw : a.WF := hwv.1
  have has : a.shape = reducedShape s (axis.covers s.length) false := Ty.nd.inj hwt
  have hlen : a.shape.length = ((List.range s.length).filter fun d => !(axis.covers s.length d)).length := by
    rw [has, reducedShape_false, List.length_map]
  have hcont : ∀ d, d < s.length → L.contains d = axis.covers s.length d := fun d hd => by rw [hL]; exact contains_covered hd
  obtain ⟨v, hvv, hvt, -, hve⟩ := prog_stored he hl hs hdet hc
  cases v with
  | mat f b => cases hvt
  | coo b => cases hvt
  | nd b =>
    have hbs : b.shape = s := Ty.nd.inj hvt
    have hmeth : ∀ o, NdMethod env m arg (.nd (PyNd.of b)) o ↔ o = .ret (.nd (PyNd.of a)) := by
      intro o
      rw [← show (Prog.ndop m arg e).Eval env o ↔ o = .ret (.nd (PyNd.of a)) from hev o]
      constructor
      · intro h
        exact ⟨_, (hve _).2 rfl, h⟩
      · rintro ⟨oa, h1, h2⟩
        rw [(hve oa).1 h1] at h2
        exact h2
    refine ⟨if keep then coondKeepdims s.length a L else a, fun out => ?_, ?_, ?_⟩
    · have h1 : e.Reduce env op axis keep out ↔ RedMethod env op axis keep (SpVal.nd b).obj out := by
        constructor
        · rintro ⟨o, ho, h⟩; rw [(hve o).1 ho] at h; exact h
        · intro h; exact ⟨_, (hve _).2 rfl, h⟩
      have h2 : RedMethod env op axis keep (SpVal.nd b).obj out ↔ RedNd env (m = .reduceMean) axis keep (PyNd.of b) out := by
        rcases hop with ⟨rfl, rfl⟩ | ⟨rfl, rfl⟩ <;> exact Iff.rfl
      rw [h1, h2]
      have hm : (if (decide (m = .reduceMean)) = true then NdOp.reduceMean else .reduceSum) = m := by
        rcases hop with ⟨-, rfl⟩ | ⟨-, rfl⟩ <;> rfl
      unfold RedNd
      rw [show (PyNd.of b).shape.length = s.length from by rw [← hbs]; exact List.length_map _,
        normalizeAxesNd_eq s.length axis hn ha, ← hL, ← hA, hm]
      have hax : axesToUsize arg = L := by rw [hA, hL]; exact axesToUsize_covers _ _
      cases harg' : arg with
      | nil => rw [hA] at harg'; exact absurd (List.map_eq_nil_iff.1 harg') hLne
      | cons d ds =>
        rw [harg'] at hmeth hax
        simp only []
        constructor
        · rintro ⟨o, ho, rfl⟩
          rw [hmeth] at ho
          subst ho
          cases keep
          · rfl
          · show (keepdimsObj _ _ (axesToUsize (d :: ds))).bind _ = _
            rw [hax, keepdimsObj_of hcont hrem has haw]
            rfl
        · rintro rfl
          refine ⟨_, (hmeth _).2 rfl, ?_⟩
          cases keep
          · rfl
          · show _ = (keepdimsObj _ _ (axesToUsize (d :: ds))).bind _
            rw [hax, keepdimsObj_of hcont hrem has haw]
            rfl
    · cases keep
      · exact has
      · exact (coondKeepdims_wf rfl hcont hrem has haw).1
    · cases keep
      · rfl
      · exact coondKeepdims_entries hcont hrem hlen

/-- The elements of the result of `sum` or `mean` are those the method returns. -/
theorem reduce_reads {env : PyEnv F64} (he : env.Ok) {e : Prog F64} (hl : e.LitsOk) (hs : e.Small) (hdet : e.Determined)
    {s : List Nat} (hc : e.check = .ok (.nd s)) (hrank : (s.length : Int) ≤ i64Max) {op : RedOp F64} {m : NdOp}
    (hop : op = .sum ∧ m = .reduceSum ∨ op = .mean ∧ m = .reduceMean) {axis : AxisArg} (keep : Bool)
    (hn : axis ≠ .none) (hne : axis ≠ .many []) (ha : axis.Valid s.length)
    (hleft : ∃ d, d < s.length ∧ axis.covers s.length d = false) :
    ∃ arg : List Int, arg.map Int.toNat = (List.range s.length).filter (axis.covers s.length) ∧
    (Prog.ndop m arg e).Small ∧ (Prog.ndop m arg e).check = .ok (.nd (reducedShape s (axis.covers s.length) false)) ∧
    ∀ a : CooNd F64, (∀ out, (Prog.ndop m arg e).Eval env out ↔ out = .ret (SpVal.nd a).obj) →
      (a.entries.map Prod.fst).Nodup →
      (∀ k ∈ a.entries, InBounds (reducedShape s (axis.covers s.length) false) k.1) →
      ∃ r : CooNd F64, (∀ out, e.Reduce env op axis keep out ↔ out = .ret (.sparse (SpVal.nd r).obj)) ∧
        r.shape = reducedShape s (axis.covers s.length) keep ∧ (r.entries.map Prod.fst).Nodup ∧
        (∀ k ∈ r.entries, InBounds r.shape k.1) ∧
        ∀ y, InBounds r.shape y → ∃ x, InBounds (reducedShape s (axis.covers s.length) false) x ∧
          readAt r.entries y = readAt a.entries x ∧
          ∀ {V : Type} (f : List Int → V), fibre s (axis.covers s.length) keep f y = fibre s (axis.covers s.length) false f x := by
  refine ⟨_, toNat_covered _ _, ?_⟩
  obtain ⟨h1, h2, h3⟩ := reduce_by_method he hl hs hdet hc hrank hop keep hn hne ha hleft rfl rfl
  refine ⟨h1, h2, fun a hev hnd hin => ?_⟩
  obtain ⟨r, r1, r2, r3⟩ := h3 a hev
  refine ⟨r, r1, r2, ?_⟩
  cases keep with
  | false =>
    have r3 : r.entries = a.entries := r3
    rw [r2, r3]
    exact ⟨hnd, hin, fun y hy => ⟨y, hy, rfl, fun _ => rfl⟩⟩
  | true =>
    have r3 : r.entries = a.entries.map (fun k => (expandIndex s.length (axis.covers s.length) k.1, k.2)) := r3
    have hlen : ∀ x, InBounds (reducedShape s (axis.covers s.length) false) x →
        x.length = ((List.range s.length).filter fun d => !(axis.covers s.length d)).length := fun x hx => by
      rw [InBounds.length hx, reducedShape_false, List.length_map]
    rw [r2, r3]
    refine ⟨?_, ?_, ?_⟩
    · have : (a.entries.map fun k => (expandIndex s.length (axis.covers s.length) k.1, k.2)).map Prod.fst =
          (a.entries.map Prod.fst).map (expandIndex s.length (axis.covers s.length)) := by
        rw [List.map_map, List.map_map]; rfl
      rw [this]
      refine List.Nodup.map_on ?_ hnd
      intro x hx y hy hxy
      obtain ⟨k, hk, rfl⟩ := List.mem_map.1 hx
      obtain ⟨k', hk', rfl⟩ := List.mem_map.1 hy
      exact expand_inj (hlen _ (hin _ hk)) (hlen _ (hin _ hk')) hxy
    · intro k hk
      obtain ⟨k', hk', rfl⟩ := List.mem_map.1 hk
      exact expand_inBounds (hin _ hk')
    · intro y hy
      obtain ⟨x, x1, x2, x3⟩ := keep_index hy
      refine ⟨x, x1, ?_, x3⟩
      unfold readAt valuesAt
      rw [List.filter_map, List.map_map]
      congr 2
      rw [show (Prod.snd ∘ fun k : List Int × F64 => (expandIndex s.length (axis.covers s.length) k.1, k.2)) = Prod.snd from rfl]
      congr 1
      apply List.filter_congr
      intro k hk
      show (expandIndex s.length (axis.covers s.length) k.1 == y) = (k.1 == x)
      rw [Bool.eq_iff_iff, beq_iff_eq, beq_iff_eq, ← x2]
      exact ⟨fun h => expand_inj (hlen _ (hin _ hk)) (hlen _ x1) h, fun h => by rw [h]⟩

/-- C100: sums over some axes.  `sum(program, axis=axis, keepdims=keepdims)` of a program whose value is a `COOND`, over
axes that leave one, has one outcome, on every machine: an array of the shape NumPy returns that stores no coordinate
twice.  Each of its elements is the exact sum of the elements of the program along the axes up to the error bound of
recursive summation of binary64 numbers, and `NaN` if one of them is. -/
theorem elems_sum_fn {env : PyEnv F64} (he : env.Ok) {e : Prog F64} (hl : e.LitsOk) (hs : e.Small) (hd : e.AsElems)
    {s : List Nat} (hc : e.check = .ok (.nd s)) (hrank : (s.length : Int) ≤ i64Max) {axis : AxisArg} (keep : Bool)
    (hn : axis ≠ .none) (hne : axis ≠ .many []) (ha : axis.Valid s.length)
    (hleft : ∃ d, d < s.length ∧ axis.covers s.length d = false) :
    ∃ r : CooNd F64, (∀ out, e.Reduce env .sum axis keep out ↔ out = .ret (.sparse (SpVal.nd r).obj)) ∧
      r.shape = reducedShape s (axis.covers s.length) keep ∧ (r.entries.map Prod.fst).Nodup ∧
      (∀ k ∈ r.entries, InBounds r.shape k.1) ∧ ∀ y, InBounds r.shape y →
        RoundedSum F64.fp.toFpAdd (fibre s (axis.covers s.length) keep e.elems y : Multiset F64) (readAt r.entries y) ∧
        ((∃ v ∈ fibre s (axis.covers s.length) keep e.elems y, isNan v = true) → isNan (readAt r.entries y) = true) := by
  obtain ⟨arg, e1, e2, e3, h⟩ := reduce_reads he hl hs hd.wf.1 hc hrank (.inl ⟨rfl, rfl⟩) keep hn hne ha hleft
  obtain ⟨a, a1, a2, a3, a4, a5⟩ := elems_sum_axes he hl e2 hd e3
  have hash : e.shape = s := Prog.shape_ok hc
  have hsh : a.shape = reducedShape s (axis.covers s.length) false := by
    rw [a2, hash, e1, restAxes_covered, reducedShape_false]; rfl
  rw [hsh] at a4 a5
  obtain ⟨r, r1, r2, r3, r4, r5⟩ := h a a1 a3 a4
  refine ⟨r, r1, r2, r3, r4, fun y hy => ?_⟩
  obtain ⟨x, x1, x2, x3⟩ := r5 y hy
  have := a5 x x1
  rw [hash, e1, show axisLine s _ e.elems x = _ from axisLine_fibre s (axis.covers s.length) e.elems x] at this
  rw [x2, x3]
  exact this

/-- C100: means over some axes.  The same for `mean(program, axis=axis, keepdims=keepdims)` if at most `2 ^ 53` elements
are averaged. -/
theorem elems_mean_fn {env : PyEnv F64} (he : env.Ok) {e : Prog F64} (hl : e.LitsOk) (hs : e.Small) (hd : e.AsElems)
    {s : List Nat} (hc : e.check = .ok (.nd s)) (hrank : (s.length : Int) ≤ i64Max) {axis : AxisArg} (keep : Bool)
    (hn : axis ≠ .none) (hne : axis ≠ .many []) (ha : axis.Valid s.length)
    (hleft : ∃ d, d < s.length ∧ axis.covers s.length d = false)
    (h53 : (extents s ((List.range s.length).filter (axis.covers s.length))).prod ≤ 2 ^ 53) :
    ∃ r : CooNd F64, (∀ out, e.Reduce env .mean axis keep out ↔ out = .ret (.sparse (SpVal.nd r).obj)) ∧
      r.shape = reducedShape s (axis.covers s.length) keep ∧ (r.entries.map Prod.fst).Nodup ∧
      (∀ k ∈ r.entries, InBounds r.shape k.1) ∧ ∀ y, InBounds r.shape y →
        F64.ReciprocalMean (fibre s (axis.covers s.length) keep e.elems y) (readAt r.entries y) ∧
        ((∃ v ∈ fibre s (axis.covers s.length) keep e.elems y, isNan v = true) → isNan (readAt r.entries y) = true) := by
  obtain ⟨arg, e1, e2, e3, h⟩ := reduce_reads he hl hs hd.wf.1 hc hrank (.inr ⟨rfl, rfl⟩) keep hn hne ha hleft
  have hash : e.shape = s := Prog.shape_ok hc
  obtain ⟨a, a1, a2, a3, a4, a5⟩ := elems_mean_axes he hl e2 hd e3 (by rw [hash, e1]; exact h53)
  have hsh : a.shape = reducedShape s (axis.covers s.length) false := by
    rw [a2, hash, e1, restAxes_covered, reducedShape_false]; rfl
  rw [hsh] at a4 a5
  obtain ⟨r, r1, r2, r3, r4, r5⟩ := h a a1 a3 a4
  refine ⟨r, r1, r2, r3, r4, fun y hy => ?_⟩
  obtain ⟨x, x1, x2, x3⟩ := r5 y hy
  have := (a5 x x1).2
  rw [hash, e1, show axisLine s _ e.elems x = _ from axisLine_fibre s (axis.covers s.length) e.elems x] at this
  rw [x2, x3]
  exact this

/-! ### whole numbers -/

theorem abs_sum_rat (l : List ℚ) : |l.sum| ≤ (l.map fun q => |q|).sum := by
  induction l with
  | nil => simp
  | cons a l ih =>
    simp only [List.map_cons, List.sum_cons]
    exact le_trans (abs_add_le _ _) (by linarith)

/-- An exact sum, scaled by the rounded reciprocal of the count. -/
theorem f64_scaled_mean {l : List ℚ} {p : Option F64} (h : F64.ExactTotal l (p.getD 0)) (hk : l.length ≤ 2 ^ 53) :
    F64.ScaledMean l ((p.map fun v => if l.length = 1 then v else scaleBits (1 / (l.length : F64)) v).getD 0) := by
  intro hne hb
  obtain ⟨h1, h2⟩ := h hb
  have hpos : 0 < l.length := List.length_pos_of_ne_nil hne
  cases p with
  | none =>
    have h2 : (0 : ℚ) = l.sum := h2
    rw [← h2, zero_mul, B64.rnd64_zero]
    exact ⟨trivial, rfl⟩
  | some v =>
    have h1 : v.IsFin := h1
    have h2 : v.val = l.sum := h2
    show (if l.length = 1 then v else scaleBits (1 / (l.length : F64)) v).IsFin ∧ (if l.length = 1 then v else scaleBits (1 / (l.length : F64)) v).val = _
    by_cases hl1 : l.length = 1
    · rw [if_pos hl1]
      refine ⟨h1, ?_⟩
      rw [hl1, Nat.cast_one, div_one, F64.rep_one.fix, mul_one, ← h2, (F64.val_rep h1).fix]
    · rw [if_neg hl1, f64_scale_ne (f64_recip_err hpos hk).2.2]
      obtain ⟨k1, k2⟩ := f64_nat hk
      have hq : (1 : ℚ) ≤ l.length := by exact_mod_cast hpos
      have hle : (1 : ℚ) / l.length ≤ 1 := by rw [div_le_one (by linarith)]; exact hq
      have hp : (0 : ℚ) < 1 / l.length := by positivity
      have hd := F64.div_rnd F64.one_fin.1 k1 (by rw [k2]; linarith) (by
        rw [F64.one_fin.2, k2, abs_of_pos hp]
        refine le_trans hle ?_
        have := F64.int_max (q := 1) (by norm_num)
        rwa [abs_one] at this)
      rw [F64.one_fin.2, k2] at hd
      have herr := (f64_recip_err hpos hk).2.1
      have hr2 : |(1 / (l.length : F64)).val| ≤ 2 := by
        rw [abs_le] at herr ⊢
        constructor <;> nlinarith [herr.1, herr.2]
      have hbig : (2 : ℚ) ^ 53 * 2 ≤ max64 := by
        unfold max64
        have h2 : (2 : ℚ) ^ (2 : ℤ) ≤ 2 ^ (971 : ℤ) := zpow_le_zpow_right₀ (by norm_num) (by norm_num)
        have := mul_le_mul_of_nonneg_left h2 (show (0 : ℚ) ≤ 2 ^ 53 - 1 by norm_num)
        refine le_trans ?_ this
        norm_num
      have hS := abs_sum_rat l
      have hm := F64.mul_rnd h1 hd.1 (by
        rw [abs_mul, h2]
        refine le_trans (mul_le_mul (le_trans hS hb) hr2 (abs_nonneg _) (by norm_num)) hbig)
      rw [hd.2, h2] at hm
      exact hm

/-- The sum of what is stored along the axes is exact if whole numbers are stored. -/
theorem axis_exact {s xs : List Nat} {l : List (List Int × F64)} (hin : ∀ k ∈ l, InBounds s k.1) {c : List Int → F64} {g : List Int → ℚ}
    (h : ∀ y, InBounds s y → HeldAs (valuesAt l y) (c y)) (hg : ∀ y, InBounds s y → (c y).IsInt ∧ (c y).val = g y) (x : List Int) :
    F64.ExactTotal (((indicesOf s).filter fun z => select (restAxes s.length xs) z == x).map g)
      ((total (l.map fun e => (select (restAxes s.length xs) e.1, e.2)) x).getD 0) := by
  rw [total_eq_sumAll]
  have h1 : AddTree ((valuesAt (l.map fun e => (select (restAxes s.length xs) e.1, e.2)) x : List F64) : Multiset F64)
      ((sumAll (valuesAt (l.map fun e => (select (restAxes s.length xs) e.1, e.2)) x)).getD 0) := by
    cases hs : sumAll (valuesAt (l.map fun e => (select (restAxes s.length xs) e.1, e.2)) x) with
    | none => rw [sumAll_eq_none.1 hs]; exact AddTree.zero
    | some v => exact sumAll_tree hs
  rw [← Multiset.coe_eq_coe.2 (axis_perm hin x)] at h1
  have hm : ∀ z ∈ (indicesOf s).filter fun z => select (restAxes s.length xs) z == x, InBounds s z := fun z hz =>
    mem_indicesOf.1 (List.mem_filter.1 hz).1
  exact exactSum_total (fun z hz => hg z (hm z hz)) (heldAs_exactSum (held := fun z => valuesAt l z) (dense := c) (fun z hz => h z (hm z hz)) h1)

/-- C100: sums of whole numbers over some axes are exact.  Each element of `sum(program, axis=axis, keepdims=keepdims)` is
the exact sum of the elements along the axes if their absolute values add up to at most `2 ^ 53`. -/
theorem whole_sum_fn {env : PyEnv F64} (he : env.Ok) {e : Prog F64} (hl : e.LitsOk) (hs : e.Small) (hi : e.Whole)
    {s : List Nat} (hc : e.check = .ok (.nd s)) (hrank : (s.length : Int) ≤ i64Max) {axis : AxisArg} (keep : Bool)
    (hn : axis ≠ .none) (hne : axis ≠ .many []) (ha : axis.Valid s.length)
    (hleft : ∃ d, d < s.length ∧ axis.covers s.length d = false) :
    ∃ r : CooNd F64, (∀ out, e.Reduce env .sum axis keep out ↔ out = .ret (.sparse (SpVal.nd r).obj)) ∧
      r.shape = reducedShape s (axis.covers s.length) keep ∧ (r.entries.map Prod.fst).Nodup ∧
      (∀ k ∈ r.entries, InBounds r.shape k.1) ∧ ∀ y, InBounds r.shape y →
        F64.ExactTotal (fibre s (axis.covers s.length) keep e.exactN y) (readAt r.entries y) := by
  obtain ⟨hd, hx⟩ := whole_exact hi hc
  obtain ⟨arg, e1, e2, e3, h⟩ := reduce_reads he hl hs hd.wf.1 hc hrank (.inl ⟨rfl, rfl⟩) keep hn hne ha hleft
  obtain ⟨s', ha', -, -, a, h1, h2, h3, h4, h5⟩ := elems_axes he (.inl rfl) hl e2 hd e3
  obtain rfl : s = s' := by rw [hc] at ha'; exact Ty.nd.inj (Except.ok.inj ha')
  obtain ⟨hin, hh⟩ := elems_held he hl hs hd hc
  obtain ⟨r, r1, r2, r3, r4, r5⟩ := h a h1 h3 h4
  refine ⟨r, r1, r2, r3, r4, fun y hy => ?_⟩
  obtain ⟨x, x1, x2, x3⟩ := r5 y hy
  obtain ⟨p, rfl, q2⟩ := h5 x x1
  simp only [reduceCtorEq, if_false, Option.map_id'] at q2
  rw [x2, x3, q2, ← axisLine_fibre, ← e1]
  exact axis_exact hin hh (fun y hy => (hx y hy).1) x

/-- C100: means of whole numbers over some axes are rounded twice: each element of
`mean(program, axis=axis, keepdims=keepdims)` is the exact sum of the elements along the axes times the rounded
reciprocal of their number, rounded, if the absolute values of the elements add up to at most `2 ^ 53` and there are at
most so many. -/
theorem whole_mean_fn {env : PyEnv F64} (he : env.Ok) {e : Prog F64} (hl : e.LitsOk) (hs : e.Small) (hi : e.Whole)
    {s : List Nat} (hc : e.check = .ok (.nd s)) (hrank : (s.length : Int) ≤ i64Max) {axis : AxisArg} (keep : Bool)
    (hn : axis ≠ .none) (hne : axis ≠ .many []) (ha : axis.Valid s.length)
    (hleft : ∃ d, d < s.length ∧ axis.covers s.length d = false)
    (h53 : (extents s ((List.range s.length).filter (axis.covers s.length))).prod ≤ 2 ^ 53) :
    ∃ r : CooNd F64, (∀ out, e.Reduce env .mean axis keep out ↔ out = .ret (.sparse (SpVal.nd r).obj)) ∧
      r.shape = reducedShape s (axis.covers s.length) keep ∧ (r.entries.map Prod.fst).Nodup ∧
      (∀ k ∈ r.entries, InBounds r.shape k.1) ∧ ∀ y, InBounds r.shape y →
        F64.ScaledMean (fibre s (axis.covers s.length) keep e.exactN y) (readAt r.entries y) := by
  obtain ⟨hd, hx⟩ := whole_exact hi hc
  obtain ⟨arg, e1, e2, e3, h⟩ := reduce_reads he hl hs hd.wf.1 hc hrank (.inr ⟨rfl, rfl⟩) keep hn hne ha hleft
  obtain ⟨s', ha', hax, hτ, a, h1, h2, h3, h4, h5⟩ := elems_axes he (.inr rfl) hl e2 hd e3
  obtain rfl : s = s' := by rw [hc] at ha'; exact Ty.nd.inj (Except.ok.inj ha')
  obtain ⟨hin, hh⟩ := elems_held he hl hs hd hc
  obtain ⟨r, r1, r2, r3, r4, r5⟩ := h a h1 h3 h4
  refine ⟨r, r1, r2, r3, r4, fun y hy => ?_⟩
  obtain ⟨x, x1, x2, x3⟩ := r5 y hy
  obtain ⟨p, hp, q2⟩ := h5 x x1
  have hlen := axisLine_length hax e.elems (x := x) (by rw [← Ty.nd.inj hτ]; exact x1)
  have hlen' : (((indicesOf s).filter fun z => select (restAxes s.length (arg.map Int.toNat)) z == x).map e.exactN).length =
      (extents s (arg.map Int.toNat)).prod := by
    rw [← hlen]
    unfold axisLine
    rw [List.length_map, List.length_map]
  have ht := axis_exact (s := s) (xs := arg.map Int.toNat) hin hh (fun y hy => (hx y hy).1) x
  rw [← hp] at ht
  simp only [if_true] at q2
  rw [x2, x3, q2, ← axisLine_fibre, ← e1, ← hlen']
  exact f64_scaled_mean ht (by rw [hlen', e1]; exact h53)

/-! ### instances -/

/-- In every execution, `sum(x, axis=-1, keepdims=True)` of `[[1/2, 0], [NaN, 3]]` is an array of shape `(2, 1)` whose second
element is `NaN`; `mean(x, axis=(1,))` is one of shape `(2,)`. -/
example {env : PyEnv F64} (he : env.Ok) :
    (∃ r : CooNd F64, (∀ out, exN99.Reduce env .sum (.one (-1)) true out ↔ out = .ret (.sparse (SpVal.nd r).obj)) ∧
      r.shape = [2, 1] ∧ isNan (readAt r.entries [1, 0]) = true) ∧
    ∃ r : CooNd F64, (∀ out, exN99.Reduce env .mean (.many [1]) false out ↔ out = .ret (.sparse (SpVal.nd r).obj)) ∧
      r.shape = [2] ∧ isNan (readAt r.entries [1]) = true := by
  obtain ⟨h1, h2⟩ := exN99_ok
  refine ⟨?_, ?_⟩
  · obtain ⟨r, r1, r2, -, -, r5⟩ := elems_sum_fn he h1 (by decide +kernel) h2 (s := [2, 2]) (by decide +kernel) (by decide)
      (axis := .one (-1)) true (by simp) (by simp) (fun a ha => by rw [List.mem_singleton.1 ha]; decide) ⟨0, by decide, by decide⟩
    have r2 : r.shape = [2, 1] := r2
    refine ⟨r, r1, r2, (r5 [1, 0] (by rw [r2]; exact .cons ⟨by decide, by decide⟩ (.cons ⟨by decide, by decide⟩ .nil))).2 ⟨F64.nan, ?_, rfl⟩⟩
    have el : fibre [2, 2] (AxisArg.covers 2 (.one (-1))) true exN99.elems [1, 0] = [F64.nan, F64.ofRat 3] := rfl
    rw [show fibre [2, 2] (AxisArg.covers ([2, 2] : List Nat).length (.one (-1))) true exN99.elems [1, 0] = _ from el]
    exact List.mem_cons_self
  · obtain ⟨r, r1, r2, -, -, r5⟩ := elems_mean_fn he h1 (by decide +kernel) h2 (s := [2, 2]) (by decide +kernel) (by decide)
      (axis := .many [1]) false (by simp) (by simp) (fun a ha => by rw [List.mem_singleton.1 ha]; decide) ⟨0, by decide, by decide⟩
      (by decide)
    have r2 : r.shape = [2] := r2
    refine ⟨r, r1, r2, (r5 [1] (by rw [r2]; exact .cons ⟨by decide, by decide⟩ .nil)).2 ⟨F64.nan, ?_, rfl⟩⟩
    have el : fibre [2, 2] (AxisArg.covers 2 (.many [1])) false exN99.elems [1] = [F64.nan, F64.ofRat 3] := rfl
    rw [show fibre [2, 2] (AxisArg.covers ([2, 2] : List Nat).length (.many [1])) false exN99.elems [1] = _ from el]
    exact List.mem_cons_self

/-- A `COOND` of shape `(1, 49)` full of ones. -/
def exO100 : Prog F64 := .nd [1, 49] ((List.range 49).flatMap fun (k : Nat) => [0, (k : Int)]) (List.replicate 49 (F64.ofRat (1 : ℤ)))

theorem exO100_ok : exO100.LitsOk := by
  have h1 : ∀ k < 49, ∀ d (h : d < [1, 49].length), 0 ≤ ((List.range 49).flatMap fun (k : Nat) => [0, (k : Int)]).getD (k * 2 + d) 0 ∧
      ((List.range 49).flatMap fun (k : Nat) => [0, (k : Int)]).getD (k * 2 + d) 0 < (([1, 49] : List Nat)[d] : Nat) := by decide +kernel
  refine ⟨by decide, ⟨by decide, by decide, h1⟩, ?_⟩
  show ∀ i ∈ ((List.range 49).flatMap fun (k : Nat) => [0, (k : Int)]), i ≤ i64Max
  decide +kernel

theorem exO100_elems : ∀ x ∈ indicesOf [1, 49], exO100.elems x = F64.ofRat (1 : ℤ) := by
  intro x hx
  have : indicesOf [1, 49] = (List.range 49).map fun (k : Nat) => [0, (k : Int)] := by decide +kernel
  rw [this] at hx
  obtain ⟨k, hk, rfl⟩ := List.mem_map.1 hx
  have hk := List.mem_range.1 hk
  interval_cases k <;> rfl

theorem exO100_whole : exO100.Whole := by
  have n1 := int_lit 1 (by norm_num)
  refine ⟨?_, fun x hx => ?_, fun x hx => ?_⟩
  · show ((List.range 49).map fun k => (List.range 2).map fun d => ((List.range 49).flatMap fun (k : Nat) => [0, (k : Int)]).getD (k * 2 + d) 0).Nodup
    decide +kernel
  · show (exO100.elems x).IsInt
    rw [exO100_elems x (mem_indicesOf.2 hx)]; exact n1.1
  · show |(exO100.elems x).val| ≤ _
    rw [exO100_elems x (mem_indicesOf.2 hx), n1.2]; norm_num

/-- C100, negative part: the mean over an axis need not be the correctly rounded one.  `mean(x, axis=1)` of the array
with one row of 49 ones is `[1 - 2⁻⁵³]` in every execution, while `mean(x)` is 1. -/
theorem mean_axis_not_correct {env : PyEnv F64} (he : env.Ok) :
    (∃ r : CooNd F64, (∀ out, exO100.Reduce env .mean (.one 1) false out ↔ out = .ret (.sparse (SpVal.nd r).obj)) ∧
      r.shape = [1] ∧ (readAt r.entries [0]).val = 1 - 1 / 2 ^ 53) ∧
    (∃ out, exO100.Reduce env .mean .none false out) ∧
    ∀ out, exO100.Reduce env .mean .none false out → ∃ v : F64, out = .ret (.dense ⟨[], [v]⟩) ∧ v.val = 1 := by
  have n1 := int_lit 1 (by norm_num)
  have hcell : ∀ x ∈ indicesOf [1, 49], exO100.exactN x = 1 := fun x hx => by
    show (exO100.elems x).val = 1
    rw [exO100_elems x hx, n1.2]; norm_num
  have hfib : ∀ S : Nat → Bool, ∀ y, ∀ n, ((indicesOf [1, 49]).filter fun x => reducedIndex 2 S false x == y).length = n →
      fibre [1, 49] S false exO100.exactN y = List.replicate n 1 := by
    intro S y n hn
    unfold fibre
    rw [List.eq_replicate_iff, List.length_map]
    refine ⟨hn, fun q hq => ?_⟩
    obtain ⟨x, hx, rfl⟩ := List.mem_map.1 hq
    exact hcell x (List.mem_filter.1 hx).1
  refine ⟨?_, ?_⟩
  · obtain ⟨r, r1, r2, -, -, r5⟩ := whole_mean_fn he exO100_ok (by decide +kernel) exO100_whole (s := [1, 49]) (by decide +kernel)
      (by decide) (axis := .one 1) false (by simp) (by simp) (fun a ha => by rw [List.mem_singleton.1 ha]; decide)
      ⟨0, by decide, by decide⟩ (by decide +kernel)
    have r2 : r.shape = [1] := r2
    refine ⟨r, r1, r2, ?_⟩
    have := r5 [0] (by rw [r2]; exact .cons ⟨by decide, by decide⟩ .nil)
    rw [hfib _ _ 49 (by decide +kernel)] at this
    have := (this (by decide) (by simp; norm_num)).2
    rw [this]
    simp only [List.sum_replicate, List.length_replicate, nsmul_eq_mul, mul_one]
    decide +kernel
  · obtain ⟨hex, hall⟩ := whole_nd_mean he exO100_ok (by decide +kernel) exO100_whole (s := [1, 49]) (by decide +kernel)
      (by decide) (by decide) false
    refine ⟨hex, fun out hout => ?_⟩
    obtain ⟨r, e1, hr⟩ := hall out hout
    have hsh : r.shape = [] := hr.shape_eq
    have hsz := hr.size
    obtain ⟨v, h1, h2⟩ := hr.cell [] (by rw [hsh]; exact .nil)
    rw [hfib _ _ 49 (by decide +kernel)] at h2
    have h2 := (h2 (by decide) (by simp; norm_num)).2
    rw [hsh] at hsz h1
    have h1 : r.data[0]? = some v := h1
    have hd : r.data = [v] := by
      have hsz : r.data.length = 1 := hsz
      match hdd : r.data with
      | [] => rw [hdd] at hsz; cases hsz
      | [w] => rw [hdd] at h1; cases h1; rfl
      | _ :: _ :: _ => rw [hdd] at hsz; simp at hsz
    refine ⟨v, ?_, ?_⟩
    · rw [e1]
      cases r with
      | mk sh d =>
        have hsh : sh = [] := hsh
        have hd : d = [v] := hd
        rw [hsh, hd]
    · rw [h2]
      simp only [List.sum_replicate, List.length_replicate, nsmul_eq_mul, mul_one]
      decide +kernel

/-- In every execution, `sum(x, axis=0, keepdims=True)` of `[[8, 10], [-12, -15]]` is exactly `[[-4, -5]]`. -/
example {env : PyEnv F64} (he : env.Ok) : ∃ r : CooNd F64,
    (∀ out, exP98.Reduce env .sum (.one 0) true out ↔ out = .ret (.sparse (SpVal.nd r).obj)) ∧ r.shape = [1, 2] ∧
      (readAt r.entries [0, 0]).val = -4 ∧ (readAt r.entries [0, 1]).val = -5 := by
  obtain ⟨h1, h2, h3⟩ := exP98_ok
  obtain ⟨a0, a1, b0, b1, -⟩ := ex98_vals
  obtain ⟨r, r1, r2, -, -, r5⟩ := whole_sum_fn he h1 h2 exP98_whole h3 (by decide) (axis := .one 0) true (by simp) (by simp)
    (fun a ha => by rw [List.mem_singleton.1 ha]; decide) ⟨1, by decide, by decide⟩
  have r2 : r.shape = [1, 2] := r2
  have f0 : fibre [2, 2] (AxisArg.covers 2 (.one 0)) true exP98.exactN [0, 0] = [exA98.exactN [0, 0] * exB98.exactN [0], exA98.exactN [1, 0] * exB98.exactN [0]] := rfl
  have f1 : fibre [2, 2] (AxisArg.covers 2 (.one 0)) true exP98.exactN [0, 1] = [exA98.exactN [0, 0] * exB98.exactN [1], exA98.exactN [1, 0] * exB98.exactN [1]] := rfl
  have k0 := r5 [0, 0] (by rw [r2]; exact .cons ⟨by decide, by decide⟩ (.cons ⟨by decide, by decide⟩ .nil))
  have k1 := r5 [0, 1] (by rw [r2]; exact .cons ⟨by decide, by decide⟩ (.cons ⟨by decide, by decide⟩ .nil))
  rw [show fibre [2, 2] (AxisArg.covers ([2, 2] : List Nat).length (.one 0)) true exP98.exactN [0, 0] = _ from f0, a0, a1, b0] at k0
  rw [show fibre [2, 2] (AxisArg.covers ([2, 2] : List Nat).length (.one 0)) true exP98.exactN [0, 1] = _ from f1, a0, a1, b1] at k1
  refine ⟨r, r1, r2, ?_, ?_⟩
  · rw [(k0 (by norm_num [abs_of_pos, abs_of_neg])).2]; norm_num
  · rw [(k1 (by norm_num [abs_of_pos, abs_of_neg])).2]; norm_num

end Lacuna
