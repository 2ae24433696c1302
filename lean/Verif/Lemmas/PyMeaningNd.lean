import Verif.Lemmas.PyMeaning
/-
The N-D methods against their meaning, and the induction over programs.
-/
set_option linter.unusedSectionVars false

namespace Lacuna
variable {V : Type}

/-! ### indices -/

theorem unravel_spec {s : List Nat} {k : Nat} (h : k < s.prod) : InBounds s (unravel s k) ∧ rowMajor s (unravel s k) = k := by
  induction s generalizing k with
  | nil =>
    refine ⟨.nil, ?_⟩
    simp only [List.prod_nil] at h
    show 0 = k
    omega
  | cons d ss ih =>
    rw [List.prod_cons] at h
    have hpos : 0 < ss.prod := by
      rcases Nat.eq_zero_or_pos ss.prod with h0 | h0
      · rw [h0] at h; omega
      · exact h0
    obtain ⟨h1, h2⟩ := ih (Nat.mod_lt k hpos)
    have hq : k / ss.prod < d := Nat.div_lt_of_lt_mul (by rw [Nat.mul_comm]; exact h)
    refine ⟨inBounds_cons.2 ⟨⟨Int.natCast_nonneg _, Int.ofNat_lt.2 hq⟩, h1⟩, ?_⟩
    show ((k / ss.prod : Nat) : Int).toNat * ss.prod + rowMajor ss (unravel ss (k % ss.prod)) = k
    rw [h2, Int.toNat_natCast, Nat.mul_comm]
    exact Nat.div_add_mod k ss.prod

theorem inBounds_iff_get {s : List Nat} {x : List Int} :
    InBounds s x ↔ x.length = s.length ∧ ∀ d, d < s.length → 0 ≤ x.getD d 0 ∧ x.getD d 0 < (s.getD d 0 : Int) := by
  unfold InBounds
  rw [List.forall₂_iff_get]
  refine ⟨fun ⟨h1, h2⟩ => ⟨h1, fun d hd => ?_⟩, fun ⟨h1, h2⟩ => ⟨h1, fun d hd hd' => ?_⟩⟩
  · have := h2 d (by omega) hd
    rw [List.getD_eq_getElem _ _ (by omega), List.getD_eq_getElem _ _ hd]
    simpa using this
  · have := h2 d hd'
    rw [List.getD_eq_getElem _ _ hd, List.getD_eq_getElem _ _ hd'] at this
    simpa using this

theorem unpermute_length (perm : List Nat) (y : List Int) : (unpermute perm y).length = perm.length := by
  simp [unpermute]

theorem unpermute_getD {perm : List Nat} {n : Nat} (hp : perm.Perm (List.range n)) (y : List Int) {d : Nat} (hd : d < n) :
    (unpermute perm y).getD d 0 = y.getD (perm.idxOf d) 0 := by
  have hl : perm.length = n := by simpa using hp.length_eq
  unfold unpermute
  rw [List.getD_eq_getElem _ _ (by simpa [hl] using hd)]
  simp

theorem select_unpermute {perm : List Nat} {n : Nat} (hp : perm.Perm (List.range n)) {y : List Int} (hy : y.length = n) :
    select perm (unpermute perm y) = y := by
  have hl : perm.length = n := by simpa using hp.length_eq
  have hnd : perm.Nodup := hp.nodup_iff.2 List.nodup_range
  apply List.ext_getElem (by simp [select, hl, hy])
  intro k h1 h2
  have hk : k < perm.length := by omega
  have hd : perm[k] < n := by simpa using hp.mem_iff.1 (List.getElem_mem hk)
  simp only [select]
  rw [List.getElem_map, unpermute_getD hp y hd, hnd.idxOf_getElem k hk, List.getD_eq_getElem _ _ h2]

theorem unpermute_inBounds {s perm : List Nat} (hp : perm.Perm (List.range s.length)) {y : List Int}
    (hy : InBounds (extents s perm) y) : InBounds s (unpermute perm y) := by
  have hl : perm.length = s.length := by simpa using hp.length_eq
  rw [inBounds_iff_get] at hy ⊢
  obtain ⟨h1, h2⟩ := hy
  refine ⟨by rw [unpermute_length, hl], fun d hd => ?_⟩
  rw [unpermute_getD hp y hd]
  have hm : d ∈ perm := hp.mem_iff.2 (by simpa using hd)
  have hk : perm.idxOf d < perm.length := List.idxOf_lt_length_iff.2 hm
  have := h2 (perm.idxOf d) (by simpa [extents] using hk)
  have he : (extents s perm).getD (perm.idxOf d) 0 = s.getD d 0 := by
    unfold extents
    rw [List.getD_eq_getElem _ _ (by simpa using hk), List.getElem_map, List.getElem_idxOf hk]
  rwa [he] at this

theorem axes_perm {n : Nat} {xs : List Nat} (h : AxesOk n xs) : (xs ++ restAxes n xs).Perm (List.range n) := by
  rw [List.perm_ext_iff_of_nodup]
  · intro d
    simp only [List.mem_append, restAxes, List.mem_filter, List.mem_range, Bool.not_eq_true', List.contains_eq_mem,
      decide_eq_false_iff_not]
    refine ⟨?_, fun hd => ?_⟩
    · rintro (h1 | h1)
      · exact h.1 d h1
      · exact h1.1
    · by_cases hm : d ∈ xs
      · exact .inl hm
      · exact .inr ⟨hd, hm⟩
  · rw [List.nodup_append]
    refine ⟨h.2, (restAxes_ok n xs).2, ?_⟩
    intro a ha b hb hab
    subst hab
    simp only [restAxes, List.mem_filter, Bool.not_eq_true', List.contains_eq_mem, decide_eq_false_iff_not] at hb
    exact hb.2 ha
  · exact List.nodup_range

/-- The index of an array whose row and column in the unfolding are given. -/
theorem unfold_index {s xs : List Nat} (h : AxesOk s.length xs) {i j : Nat} (hi : i < (extents s xs).prod)
    (hj : j < (extents s (restAxes s.length xs)).prod) {x : List Int}
    (hx : x = unpermute (xs ++ restAxes s.length xs) (unravel (extents s xs) i ++ unravel (extents s (restAxes s.length xs)) j)) :
    InBounds s x ∧ unfoldRow s xs x = i ∧ unfoldCol s xs x = j := by
  have hp := axes_perm h
  obtain ⟨a1, a2⟩ := unravel_spec hi
  obtain ⟨b1, b2⟩ := unravel_spec hj
  have hab : InBounds (extents s (xs ++ restAxes s.length xs))
      (unravel (extents s xs) i ++ unravel (extents s (restAxes s.length xs)) j) := by
    unfold extents at *
    rw [List.map_append]
    exact inBounds_append a1 b1
  have hl : (unravel (extents s xs) i ++ unravel (extents s (restAxes s.length xs)) j).length = s.length := by
    rw [hab.length_eq]
    simpa [extents] using hp.length_eq
  have hsel := select_unpermute hp hl
  rw [← hx] at hsel
  have hsplit : select (xs ++ restAxes s.length xs) x = select xs x ++ select (restAxes s.length xs) x := by
    simp [select]
  rw [hsplit] at hsel
  obtain ⟨e1, e2⟩ := List.append_inj hsel (by rw [a1.length_eq]; simp [select, extents])
  refine ⟨hx ▸ unpermute_inBounds hp hab, ?_, ?_⟩
  · unfold unfoldRow; rw [e1, a2]
  · unfold unfoldCol; rw [e2, b2]

theorem drop_getD {y : List Int} {k d : Nat} : (y.drop k).getD d 0 = y.getD (k + d) 0 := by
  simp [List.getD_eq_getElem?_getD]

theorem bcastIndex_inBounds {s t u : List Nat} (hb : IsBroadcast s t u ∨ IsBroadcast t s u) (hs : ∀ d ∈ s, 0 < d)
    {y : List Int} (hy : InBounds u y) : InBounds s (bcastIndex s y) := by
  have hrank : s.length ≤ u.length := by rcases hb with h | h <;> rw [h.rank] <;> omega
  have hdim : ∀ k, dimFromRight s k ≠ 1 → k < s.length → dimFromRight u k = dimFromRight s k := by
    intro k h1 hk
    have hpos : 0 < dimFromRight s k := by
      unfold dimFromRight
      rw [List.getD_eq_getElem _ _ (by simpa using hk)]
      exact hs _ (List.mem_reverse.1 (List.getElem_mem _))
    rcases hb with h | h
    · rw [h.dim k]
      rcases h.compat k with c | c | c <;> omega
    · rw [h.dim k]
      rcases h.compat k with c | c | c <;> omega
  rw [inBounds_iff_get] at hy ⊢
  obtain ⟨h1, h2⟩ := hy
  have hlen : (y.drop (y.length - s.length)).length = s.length := by rw [List.length_drop]; omega
  unfold bcastIndex
  refine ⟨by rw [List.length_zipWith, hlen]; simp, fun d hd => ?_⟩
  rw [List.getD_eq_getElem _ _ (by rw [List.length_zipWith, hlen]; simpa using hd), List.getElem_zipWith]
  have hsd : s.getD d 0 = s[d] := List.getD_eq_getElem _ _ hd
  rw [hsd]
  split_ifs with hone
  · rw [hone]; omega
  · have hy1 : (y.drop (y.length - s.length))[d]'(by omega) = y.getD (u.length - s.length + d) 0 := by
      rw [← h1, ← drop_getD, List.getD_eq_getElem _ _ (by omega)]
    rw [hy1]
    have := h2 (u.length - s.length + d) (by omega)
    have k1 : dimFromRight s (s.length - 1 - d) = s[d] := by
      unfold dimFromRight
      rw [List.getD_eq_getElem _ _ (by rw [List.length_reverse]; omega), List.getElem_reverse]
      congr 1; omega
    have k2 : dimFromRight u (s.length - 1 - d) = u.getD (u.length - s.length + d) 0 := by
      unfold dimFromRight
      rw [List.getD_eq_getElem _ _ (by rw [List.length_reverse]; omega), List.getElem_reverse,
        List.getD_eq_getElem _ _ (by omega)]
      congr 1; omega
    have := hdim (s.length - 1 - d) (by rw [k1]; exact hone) (by omega)
    omega

section
variable [Field V] [LinearOrder V] [IsStrictOrderedRing V] [FloorRing V] [BEq V] [LawfulBEq V] [HasFinite V]
  [HasFloor V] [HasPowf V] [HasAbs V] [HasLt V] [HasNan V] [IdealOrd V]

/-- The meaning of a method depends on the cells of the array only. -/
theorem NdOp.cells_congr {op : NdOp} {s xs : List Nat} {τ : Ty} (ht : op.ty s xs = .ok τ) {c c' : List Int → V}
    (hc : ∀ x, InBounds s x → c x = c' x) {y : List Int} (hy : InBounds τ.shape y) :
    op.cells s xs c y = op.cells s xs c' y := by
  have hred : ∀ y : List Int, (((indicesOf s).filter fun x => select (restAxes s.length xs) x == y).map c) =
      (((indicesOf s).filter fun x => select (restAxes s.length xs) x == y).map c') := fun y =>
    List.map_congr_left fun x hx => hc x (mem_indicesOf.1 (List.mem_filter.1 hx).1)
  cases op with
  | reshape =>
    simp only [NdOp.ty] at ht
    split_ifs at ht with h1 h2
    cases ht
    have := rowMajor_lt (show InBounds xs y from hy)
    exact hc _ (unravel_spec (by omega)).1
  | permute =>
    simp only [NdOp.ty] at ht
    split_ifs at ht with h1
    cases ht
    exact hc _ (unpermute_inBounds h1 hy)
  | reduceSum => unfold NdOp.cells; dsimp only; rw [hred]
  | reduceMean => unfold NdOp.cells; dsimp only; rw [hred]
  | unfold f =>
    simp only [NdOp.ty] at ht
    split_ifs at ht with h1
    cases ht
    obtain ⟨i, j, rfl, hi, hj⟩ := inBounds_pair (show InBounds [_, _] y from hy)
    exact hc _ (unfold_index h1 hi hj rfl).1

theorem NdOp.apply_cells {env : PyEnv V} (he : env.Ok) (op : NdOp) {a : CooNd V} (h : (SpVal.nd a).Good) {xs : List Nat}
    {w : SpVal V} (hw : op.apply env a xs = .ok w) {τ : Ty} (ht : op.ty a.shape xs = .ok τ) (hfit : τ.SizeOk a.data.length) :
    (∀ y, InBounds τ.shape y → w.cell y = op.cells a.shape xs a.val y) ∧
    ((op = .reshape ∨ op = .permute → a.NoDup) → w.Distinct) := by
  obtain ⟨ha, hi, hpos, h63, hus, h24, hidx, hU⟩ := nd_fits h
  cases op with
  | reshape =>
    simp only [NdOp.ty] at ht
    split_ifs at ht with h1 h2
    cases ht
    rw [not_not] at h1
    obtain ⟨f1, f2, -⟩ := hfit
    have hd : ∀ s ∈ xs, (s : Int) ≤ 2 ^ 63 := fun s hs => by
      have := le_prod_of_mem f1 hs
      have f2 : (xs.prod : Int) ≤ i64Max := f2
      unfold i64Max at f2; omega
    obtain ⟨r, hr⟩ := Option.isSome_iff_exists.1 (reshape_runs ha hi h1 hpos hus)
    simp only [NdOp.apply, hr, h2, if_false] at hw
    cases hw
    refine ⟨fun y hy => ?_, fun hdist => ?_⟩
    · have hlt := rowMajor_lt (show InBounds xs y from hy)
      obtain ⟨u1, u2⟩ := unravel_spec (s := a.shape) (k := rowMajor xs y) (by omega)
      exact reshape_val ha hi h2 hd hr u1 hy u2
    · obtain ⟨-, -, -, -, r5⟩ := reshape_correct ha hi h2 hd hr
      have h5 := congrArg (List.map Prod.fst) r5
      simp only [List.map_map] at h5
      have hn : a.NoDup := hdist (.inl rfl)
      have hn2 : (a.entries.map (Prod.fst ∘ fun e => (rowMajor a.shape e.1, e.2))).Nodup := by
        have e1 : (Prod.fst ∘ fun e : List Int × V => (rowMajor a.shape e.1, e.2)) = rowMajor a.shape ∘ Prod.fst := rfl
        rw [e1, ← List.map_map]
        refine List.Nodup.map_on (fun x hx y hy hxy => ?_) hn
        obtain ⟨e, he, rfl⟩ := List.mem_map.1 hx
        obtain ⟨e', he', rfl⟩ := List.mem_map.1 hy
        exact rowMajor_inj (ha.entries_inBounds e he) (ha.entries_inBounds e' he') hxy
      rw [← h5] at hn2
      have e1 : (Prod.fst ∘ fun e : List Int × V => (rowMajor xs e.1, e.2)) = rowMajor xs ∘ Prod.fst := rfl
      rw [e1, ← List.map_map] at hn2
      exact List.Nodup.of_map _ hn2
  | permute =>
    simp only [NdOp.ty] at ht
    split_ifs at ht with h1
    cases ht
    obtain ⟨r, r1, r2, r3, r4, r5, r6⟩ := permute_correct ha hi h1
    simp only [NdOp.apply, r1, ndRes] at hw
    cases hw
    have hl : xs.length = a.shape.length := by simpa using h1.length_eq
    refine ⟨fun y hy => ?_, fun hdist => ?_⟩
    · have hy : InBounds (extents a.shape xs) y := hy
      have := r6 (unpermute xs y) (by rw [unpermute_length, hl])
      rw [select_unpermute h1 (by rw [hy.length_eq]; simpa [extents] using hl)] at this
      exact this
    · have hn : (a.entries.map Prod.fst).Nodup := hdist (.inr rfl)
      show (r.entries.map Prod.fst).Nodup
      rw [r5, List.map_map]
      have e1 : (Prod.fst ∘ fun e : List Int × V => (select xs e.1, e.2)) = select xs ∘ Prod.fst := rfl
      rw [e1, ← List.map_map]
      refine List.Nodup.map_on (fun x hx y hy hxy => ?_) hn
      obtain ⟨e, he, rfl⟩ := List.mem_map.1 hx
      obtain ⟨e', he', rfl⟩ := List.mem_map.1 hy
      have l1 := (ha.entries_inBounds e he).length_eq
      have l2 := (ha.entries_inBounds e' he').length_eq
      apply List.ext_getElem (by omega)
      intro d hd hd'
      have hm : d ∈ xs := h1.mem_iff.2 (by simp; omega)
      unfold select at hxy
      have := List.map_inj_left.1 hxy d hm
      rwa [List.getD_eq_getElem _ _ hd, List.getD_eq_getElem _ _ hd'] at this
  | reduceSum =>
    simp only [NdOp.ty] at ht
    split_ifs at ht with hc
    cases ht
    obtain ⟨⟨hlt, hnd⟩, hne, hrest⟩ := id hc
    obtain ⟨g1, g2⟩ := extents_prod_le (restAxes_ok a.shape.length xs) hpos
    have hno := noOverflow_of_pos g1 (g2.trans hus)
    obtain ⟨r, r1, r2, r3, r4, r5, r6⟩ := reduce_sum_correct he.nd ha hi hne hlt hnd hrest hno
    simp only [NdOp.apply, r1, ndRes] at hw
    cases hw
    exact ⟨fun y _ => r6 y, fun _ => nodup_of_lt r5⟩
  | reduceMean =>
    simp only [NdOp.ty] at ht
    split_ifs at ht with hc
    cases ht
    obtain ⟨⟨hlt, hnd⟩, hne, hrest⟩ := id hc
    obtain ⟨g1, g2⟩ := extents_prod_le (restAxes_ok a.shape.length xs) hpos
    have hno := noOverflow_of_pos g1 (g2.trans hus)
    have hax : AxesOk a.shape.length ((List.range a.shape.length).filter fun d => xs.contains d) :=
      ⟨fun _ hp => List.mem_range.1 (List.mem_filter.1 hp).1, List.Nodup.filter _ List.nodup_range⟩
    obtain ⟨d1, d2⟩ := extents_prod_le hax hpos
    have hcount : (((List.range a.shape.length).filter fun d => xs.contains d).map fun d => a.shape.getD d 0).prod =
        (extents a.shape xs).prod := by
      apply List.Perm.prod_eq
      apply List.Perm.map
      rw [List.perm_ext_iff_of_nodup hax.2 hnd]
      intro d
      simp only [List.mem_filter, List.mem_range, List.contains_eq_mem, decide_eq_true_eq]
      exact ⟨fun h => h.2, fun h => ⟨hlt d h, h⟩⟩
    obtain ⟨r, r1, r2, r6⟩ := reduce_mean_correct he.nd ha hi hne hlt hnd hrest hno hpos (d2.trans hus)
    obtain ⟨q, q1, q2, q3, q4, q5, q6⟩ := reduce_sum_correct he.nd ha hi hne hlt hnd hrest hno
    have hqr : (SpVal.nd r).Distinct := by
      have hq : (SpVal.nd q).Distinct := nodup_of_lt q5
      unfold reduceMeanNd at r1
      rw [q1, Option.bind_some] at r1
      obtain ⟨D, -, r1⟩ := Option.bind_eq_some_iff.1 r1
      split_ifs at r1
      · cases r1; exact hq
      · unfold mulScalarCooNd at r1
        rw [mulScalarData_fn] at r1
        cases r1
        exact distinct_mapData (DataOp.mul (1 / (D : V))) (v := .nd q) ⟨q3, q4⟩ hq
    simp only [NdOp.apply, r1, ndRes] at hw
    cases hw
    refine ⟨fun y _ => ?_, fun _ => hqr⟩
    show r.val y = _
    rw [r6 y, hcount]
    rfl
  | unfold f =>
    simp only [NdOp.ty] at ht
    split_ifs at ht with hc
    cases ht
    obtain ⟨p1, p2⟩ := extents_prod_le hc hpos
    obtain ⟨g1, g2⟩ := extents_prod_le (restAxes_ok a.shape.length xs) hpos
    obtain ⟨r, r1, r2, r3⟩ := unfold_coo_runs ha hi hc.1 hc.2 p1 (p2.trans hus) g1 (g2.trans hus)
    have hrow : (r.nrows : Int) ≤ i64Max := by rw [r2]; omega
    have hcol : (r.ncols : Int) ≤ i64Max := by rw [r3]; omega
    have hlen : (a.data.length : Int) ≤ i64Max := by omega
    simp only [NdOp.apply, r1] at hw
    cases hw
    refine ⟨fun y hy => ?_, fun _ => trivial⟩
    obtain ⟨i, j, rfl, hi', hj'⟩ := inBounds_pair (show InBounds [_, _] y from hy)
    obtain ⟨u1, u2, u3⟩ := unfold_index hc hi' hj' rfl
    cases f with
    | csr =>
      have hcsr : axesToCsr env.tripleSort a xs = some (cooToCsr env.tripleSort r) := by
        unfold axesToCsr; rw [r1]; rfl
      obtain ⟨-, -, -, c4, -⟩ := unfold_csr_correct he.triple ha hi hcsr hrow
        (by have : (cooToCsr env.tripleSort r).ncols = r.ncols := rfl
            rw [this]; unfold i64Max at hcol; omega) hlen
      have := c4 _ u1
      rw [u2, u3] at this
      exact this
    | csc =>
      have hcsc : axesToCsc env.tripleSort a xs = some (cooToCsc env.tripleSort r) := by
        unfold axesToCsc; rw [r1]; rfl
      obtain ⟨-, -, -, c4, -⟩ := unfold_csc_correct he.triple ha hi hcsc
        (by have : (cooToCsc env.tripleSort r).nrows = r.nrows := rfl
            rw [this]; unfold i64Max at hrow; omega) hcol hlen
      have := c4 _ u1
      rw [u2, u3] at this
      exact this

theorem bind_ok {α β : Type} {r : Except PyErr α} {f : α → Except PyErr β} {w : β} (h : r.bind f = .ok w) :
    ∃ v, r = .ok v ∧ f v = .ok w := by
  cases r with
  | error x => cases h
  | ok v => exact ⟨v, rfl, h⟩

theorem argDims_ok {arg : List Int} {xs : List Nat} (h : argDims arg = .ok xs) : xs = arg.map Int.toNat := by
  unfold argDims at h
  split_ifs at h
  cases h; rfl

theorem cell_un (hfl : ∀ v : V, HasFloor.floor v = (⌊v⌋ : V)) (op : UnOp) {v : SpVal V} (hv : v.Valid)
    (hd : op ≠ .neg → v.Distinct) {x : List Int} (hx : InBounds v.ty.shape x) : (v.un op).cell x = op.eval (v.cell x) := by
  cases op with
  | abs => exact cell_mapData hfl .abs (by simp [DataOp.g]) hv (hd (by simp)) hx
  | neg =>
    show (v.mapData (.mul (-1))).cell x = -v.cell x
    rw [cell_mapData_mul hfl (-1) hx, mul_neg_one]
  | sign => exact cell_mapData hfl .sign (by simp [DataOp.g]) hv (hd (by simp)) hx

theorem cell_scalar (hfl : ∀ v : V, HasFloor.floor v = (⌊v⌋ : V)) (op : BinOp) (alpha : V) {v w : SpVal V} (hv : v.Valid)
    (hd : op = .floordiv ∨ op = .rem ∨ op = .pow → v.Distinct) (hp : op = .pow → HasPowf.powf 0 alpha = 0)
    (hw : v.scalar op alpha = .ok w) {x : List Int} (hx : InBounds v.ty.shape x) : w.cell x = op.eval (v.cell x) alpha := by
  have hmul : ∀ α : V, (v.mapData (.mul α)).cell x = v.cell x * α := fun α => cell_mapData_mul hfl α hx
  have hdiv : ∀ hz : ¬ (alpha == 0) = true, (v.mapData (.mul (1 / alpha))).cell x = BinOp.div.eval (v.cell x) alpha := fun hz => by
    have hz : ¬ alpha = 0 := by simpa using hz
    rw [hmul]
    show _ = if alpha = 0 then 0 else v.cell x / alpha
    rw [if_neg hz, mul_one_div]
  cases op with
  | add => cases hw
  | sub => cases hw
  | mul =>
    cases v with
    | nd a => cases hw
    | mat f a => cases hw; exact hmul alpha
    | coo a => cases hw; exact hmul alpha
  | div =>
    cases v with
    | nd a => cases hw
    | mat f a =>
      simp only [SpVal.scalar] at hw
      split_ifs at hw with hz
      cases hw
      exact hdiv hz
    | coo a =>
      simp only [SpVal.scalar] at hw
      split_ifs at hw with hz
      cases hw
      exact hdiv hz
  | floordiv =>
    simp only [SpVal.scalar] at hw
    split_ifs at hw with hz
    cases hw
    have hz : ¬ alpha = 0 := by simpa using hz
    rw [cell_mapData hfl (.floordiv alpha) (by simp [DataOp.g]) hv (hd (by simp)) hx]
    show _ = if alpha = 0 then 0 else _
    rw [if_neg hz]; rfl
  | rem =>
    simp only [SpVal.scalar] at hw
    split_ifs at hw with hz
    cases hw
    have hz : ¬ alpha = 0 := by simpa using hz
    rw [cell_mapData hfl (.rem alpha) (by simp [DataOp.g]) hv (hd (by simp)) hx]
    show _ = if alpha = 0 then 0 else _
    rw [if_neg hz]; rfl
  | pow =>
    simp only [SpVal.scalar] at hw
    cases hw
    exact cell_mapData hfl (.pow alpha) (hp rfl) hv (hd (by simp)) hx

theorem distinct_scalar (op : BinOp) (alpha : V) {v w : SpVal V} (hv : v.Valid) (hd : v.Distinct)
    (hw : v.scalar op alpha = .ok w) : w.Distinct ∧ w.ty = v.ty := by
  have h : ∃ o, w = v.mapData o := by
    cases op <;> cases v <;> simp only [SpVal.scalar] at hw <;> first | (cases hw; exact ⟨_, rfl⟩) | cases hw | skip
    all_goals
      split_ifs at hw
      cases hw
      exact ⟨_, rfl⟩
  obtain ⟨o, rfl⟩ := h
  exact ⟨distinct_mapData o hv hd, by cases v <;> rfl⟩

theorem cell_bin (hfin : ∀ v : V, isFinite v = true) (hfl : ∀ v : V, HasFloor.floor v = (⌊v⌋ : V)) {env : PyEnv V}
    (he : env.Ok) (op : BinOp) {v w r : SpVal V} (hv : v.Good) (hw : w.Good) (hr : v.bin env op w = .ok r)
    (hsz : ∀ s, Ty.bin op v.ty w.ty = .ok (.nd s) → s.prod ≤ usizeMax) :
    r.Distinct ∧ ∀ x, InBounds r.ty.shape x → InBounds v.ty.shape (bcastIndex v.ty.shape x) ∧
      InBounds w.ty.shape (bcastIndex w.ty.shape x) ∧
      (op ≠ .pow → r.cell x = op.eval (v.cell (bcastIndex v.ty.shape x)) (w.cell (bcastIndex w.ty.shape x))) := by
  cases v with
  | coo a => cases w <;> cases hr
  | mat f a =>
    cases w with
    | coo b => cases hr
    | nd b => cases hr
    | mat g b =>
      simp only [SpVal.bin] at hr
      split_ifs at hr with hfg hnm
      subst hfg
      cases hr
      have ha : a.WF := hv.1
      have hb : b.WF := hw.1
      obtain ⟨-, c2, c3⟩ := op.comp_wf ha hb hnm.1 hnm.2
      have hs : (SpVal.mat f (binComp op.count op.fill a b)).ty.shape = (SpVal.mat f a).ty.shape := by
        cases f
        · show [_, _] = [_, _]; unfold Fmt.rows Fmt.cols; rw [c2, c3]
        · show [_, _] = [_, _]; unfold Fmt.rows Fmt.cols; rw [c2, c3]
      have hs' : (SpVal.mat f b).ty.shape = (SpVal.mat f a).ty.shape := by
        cases f
        · show [_, _] = [_, _]; unfold Fmt.rows Fmt.cols; rw [hnm.1, hnm.2]
        · show [_, _] = [_, _]; unfold Fmt.rows Fmt.cols; rw [hnm.1, hnm.2]
      refine ⟨trivial, fun x hx => ?_⟩
      rw [hs] at hx
      rw [hs', bcastIndex_self hx]
      refine ⟨hx, hx, fun hop => ?_⟩
      obtain ⟨i, j, rfl, -, -⟩ := inBounds_pair (show InBounds [_, _] x from hx)
      cases f
      · exact BinOp.comp_val hfin hfl op hop ha hb hnm.1 hnm.2 _ _
      · exact BinOp.comp_val hfin hfl op hop ha hb hnm.1 hnm.2 _ _
  | nd a =>
    cases w with
    | coo b => cases hr
    | mat g b => cases hr
    | nd b =>
      simp only [SpVal.bin] at hr
      split_ifs at hr with hop
      subst hop
      obtain ⟨ha, hai⟩ : a.WF ∧ a.I64 := hv.1
      obtain ⟨hb, hbi⟩ : b.WF ∧ b.I64 := hw.1
      have hp1 : ∀ d ∈ a.shape, 0 < d := pos_of_prod_pos hv.2.1
      have hp2 : ∀ d ∈ b.shape, 0 < d := pos_of_prod_pos hw.2.1
      cases hbc : bcastTo a.shape b.shape with
      | none =>
        rw [broadcast_mul_incompatible _ _ _ _ _ (fun ⟨o, h⟩ => bcastTo_none hbc o h)] at hr
        cases hr
      | some u =>
        have hbr := bcastTo_some hp1 hp2 hbc
        cases hm : broadcastMulNd env.order env.threads env.ndSort a b with
        | none => rw [hm] at hr; cases hr
        | some q =>
          rw [hm] at hr
          cases hr
          have hu : u.prod ≤ usizeMax := hsz u (by simp only [Ty.bin, SpVal.ty, hbc, if_true])
          obtain ⟨q', q1, q2, q3, q4, q5⟩ := broadcast_mul_correct he.keys env.threads he.nd ha hb hai hbi hbr hu
          rw [hm] at q1
          cases q1
          refine ⟨nodup_of_lt q4, fun x hx => ?_⟩
          have hx : InBounds u x := by rw [← q2]; exact hx
          exact ⟨bcastIndex_inBounds (.inl hbr) hp1 hx, bcastIndex_inBounds (.inr hbr) hp2 hx, fun _ => q5 x hx⟩

theorem Prog.shape_of {e : Prog V} {τ : Ty} (h : e.check = .ok τ) : e.shape = τ.shape := by
  unfold Prog.shape; rw [h]

/-- The list-level value of a program stores what the program means. -/
theorem Prog.value_cells (hfin : ∀ v : V, isFinite v = true) (hfl : ∀ v : V, HasFloor.floor v = (⌊v⌋ : V)) {env : PyEnv V}
    (he : env.Ok) {e : Prog V} (hl : e.LitsOk) (hs : e.Small) {w : SpVal V} (hw : e.value env = .ok w) :
    (e.Distinct → w.Distinct) ∧ (e.Exact → ∀ x, InBounds w.ty.shape x → w.cell x = e.cells x) := by
  induction e generalizing w with
  | mat f r k ip ix d =>
    obtain ⟨hi, -⟩ := hl
    refine ⟨fun _ => ?_, fun _ x _ => ?_⟩
    · simp only [Prog.value] at hw
      cases hn : nativeNew f r k ip ix d true with
      | error x => rw [hn] at hw; cases hw
      | ok c => rw [hn] at hw; cases hw; trivial
    · simp only [Prog.value] at hw
      cases hn : nativeNew f r k ip ix d true with
      | error x => rw [hn] at hw; cases hw
      | ok c =>
        rw [hn] at hw
        cases hw
        obtain ⟨-, -, -, h3, h4, h5, h6, h7⟩ := nativeNew_true_ok hi hn
        subst h3 h4 h5 h6 h7
        cases f <;> rfl
  | coo r k row col d => cases hw; exact ⟨fun h => h, fun _ x _ => rfl⟩
  | nd s ix d => cases hw; exact ⟨fun h => h, fun _ x _ => rfl⟩
  | un op a ih =>
    obtain ⟨v, hv, rfl⟩ : ∃ v, a.value env = .ok v ∧ v.un op = w := by
      simp only [Prog.value] at hw
      cases hv : a.value env with
      | error x => rw [hv] at hw; cases hw
      | ok v => rw [hv] at hw; cases hw; exact ⟨v, rfl, rfl⟩
    obtain ⟨i1, i2⟩ := ih hl hs.1 hv
    obtain ⟨g1, -, -⟩ := (Prog.step (e := a) he hl hs.1).good hs.1 hv
    refine ⟨fun hd => distinct_mapData _ g1.1 (i1 hd), fun hx x hxb => ?_⟩
    have hty : (v.un op).ty = v.ty := by cases v <;> rfl
    rw [hty] at hxb
    rw [cell_un hfl op g1.1 (fun h => i1 (hx.2 h)) hxb, i2 hx.1 x hxb]
    rfl
  | bin op a b iha ihb =>
    obtain ⟨va, hva, hw⟩ := bind_ok (show (a.value env).bind _ = .ok w from hw)
    obtain ⟨vb, hvb, hw⟩ := bind_ok hw
    obtain ⟨i1, i2⟩ := iha hl.1 hs.1 hva
    obtain ⟨j1, j2⟩ := ihb hl.2 hs.2.1 hvb
    obtain ⟨g1, g2, -⟩ := (Prog.step he hl.1 hs.1).good hs.1 hva
    obtain ⟨k1, k2, -⟩ := (Prog.step he hl.2 hs.2.1).good hs.2.1 hvb
    have hfit := hs.2.2
    unfold Prog.Fits at hfit
    obtain ⟨m1, m2⟩ := cell_bin hfin hfl he op g1 k1 hw fun u hu => by
      have hc : (Prog.bin op a b).check = .ok (.nd u) := by
        show (a.check.bind fun x => b.check.bind fun y => Ty.bin op x y) = _
        rw [g2, k2]; exact hu
      rw [hc] at hfit
      have h63 : (u.prod : Int) ≤ i64Max := hfit.2.1
      unfold i64Max at h63; unfold usizeMax; omega
    refine ⟨fun _ => m1, fun hx x hxb => ?_⟩
    obtain ⟨n1, n2, n3⟩ := m2 x hxb
    rw [n3 hx.2.2, i2 hx.1 _ n1, j2 hx.2.1 _ n2]
    show _ = op.eval (a.cells (bcastIndex a.shape x)) (b.cells (bcastIndex b.shape x))
    rw [Prog.shape_of g2, Prog.shape_of k2]
  | scalar op a alpha ih =>
    obtain ⟨v, hv, hw⟩ := bind_ok (show (a.value env).bind _ = .ok w from hw)
    obtain ⟨i1, i2⟩ := ih hl hs.1 hv
    obtain ⟨g1, -, -⟩ := (Prog.step (e := a) he hl hs.1).good hs.1 hv
    have hty : w.ty = v.ty := by
      cases op <;> cases v <;> simp only [SpVal.scalar] at hw <;> first | (cases hw; rfl) | cases hw | skip
      all_goals
        split_ifs at hw
        cases hw
        rfl
    refine ⟨fun hd => (distinct_scalar op alpha g1.1 (i1 hd) hw).1, fun hx x hxb => ?_⟩
    rw [hty] at hxb
    rw [cell_scalar hfl op alpha g1.1 (fun h => i1 (hx.2.1 h)) hx.2.2 hw hxb, i2 hx.1 x hxb]
    rfl
  | left op alpha a ih =>
    obtain ⟨v, hv, hw⟩ := bind_ok (show (a.value env).bind _ = .ok w from hw)
    obtain ⟨i1, i2⟩ := ih hl hs.1 hv
    obtain ⟨g1, -, -⟩ := (Prog.step (e := a) he hl hs.1).good hs.1 hv
    obtain ⟨rfl, rfl⟩ : op = .mul ∧ w = v.mapData (.mul alpha) := by
      cases op <;> cases v <;> simp only [SpVal.left] at hw <;> first | (cases hw; exact ⟨rfl, rfl⟩) | cases hw
    refine ⟨fun hd => distinct_mapData _ g1.1 (i1 hd), fun hx x hxb => ?_⟩
    have hty : (v.mapData (.mul alpha)).ty = v.ty := by cases v <;> rfl
    rw [hty] at hxb
    rw [cell_mapData_mul hfl alpha hxb, i2 hx x hxb, mul_comm]
    rfl
  | T a ih =>
    obtain ⟨v, hv, hw⟩ := bind_ok (show (a.value env).bind _ = .ok w from hw)
    obtain ⟨i1, i2⟩ := ih hl hs.1 hv
    obtain ⟨g1, -, -⟩ := (Prog.step (e := a) he hl hs.1).good hs.1 hv
    have hwT : w = v.T := by cases v <;> first | (cases hw; rfl) | cases hw
    subst hwT
    obtain ⟨τ, hτ⟩ : ∃ τ, v.ty.T = .ok τ := by cases v <;> first | exact ⟨_, rfl⟩ | cases hw
    obtain ⟨-, t2, -⟩ := g1.T hτ
    refine ⟨fun hd => distinct_T (i1 hd), fun hx x hxb => ?_⟩
    rw [t2] at hxb
    obtain ⟨c1, c2⟩ := cell_T g1 hτ hxb
    rw [c2, i2 hx _ c1]
    rfl
  | prune eps a ih =>
    obtain ⟨v, hv, hw⟩ := bind_ok (show (a.value env).bind _ = .ok w from hw)
    obtain ⟨i1, i2⟩ := ih hl hs.1 hv
    obtain ⟨g1, -, -⟩ := (Prog.step (e := a) he hl hs.1).good hs.1 hv
    have hwp : w = v.prune eps := by cases v <;> first | (cases hw; rfl) | cases hw
    subst hwp
    have hτ : v.ty.prune = .ok v.ty := by cases v <;> first | rfl | cases hw
    refine ⟨fun hd => distinct_prune eps g1.1 (i1 hd), fun hx x hxb => ?_⟩
    rw [v.prune_ty eps] at hxb
    rw [cell_prune eps g1.1 (i1 hx.2) hτ hxb, i2 hx.1 x hxb]
    rfl
  | elimZeros a ih =>
    obtain ⟨v, hv, hw⟩ := bind_ok (show (a.value env).bind _ = .ok w from hw)
    obtain ⟨i1, i2⟩ := ih hl hs.1 hv
    obtain ⟨g1, -, -⟩ := (Prog.step (e := a) he hl hs.1).good hs.1 hv
    have hwp : w = v.prune 0 := by cases v <;> first | (cases hw; rfl) | cases hw
    subst hwp
    have hτ : v.ty.prune = .ok v.ty := by cases v <;> first | rfl | cases hw
    refine ⟨fun hd => distinct_prune 0 g1.1 (i1 hd), fun hx x hxb => ?_⟩
    rw [v.prune_ty 0] at hxb
    rw [cell_elimZeros g1.1 hτ hxb, i2 hx x hxb]
    rfl
  | ndop op arg a ih =>
    have hstep := (Prog.step he hl hs).good hs hw
    obtain ⟨v, hv, hw⟩ := bind_ok (show (a.value env).bind _ = .ok w from hw)
    obtain ⟨i1, i2⟩ := ih hl hs.1 hv
    obtain ⟨g1, g2, g3⟩ := (Prog.step (e := a) he hl hs.1).good hs.1 hv
    cases v with
    | mat f c => cases hw
    | coo c => cases hw
    | nd c =>
      obtain ⟨xs, hxs, hw⟩ := bind_ok (show (argDims arg).bind _ = .ok w from hw)
      have hty : op.ty c.shape xs = .ok w.ty := by
        have h2 := hstep.2.1
        have : (Prog.ndop op arg a).check = op.ty c.shape xs := by
          show a.check.bind _ = _
          rw [g2]
          show (argDims arg).bind _ = _
          rw [hxs]; rfl
        rw [← this]; exact h2
      have hfit := Prog.small_fits hs
      unfold Prog.Fits at hfit
      rw [hstep.2.1] at hfit
      obtain ⟨m1, m2⟩ := NdOp.apply_cells he op g1 hw hty (Ty.SizeOk.mono hfit g3)
      refine ⟨fun hd => m2 fun ho => ?_, fun hx x hxb => ?_⟩
      · rcases ho with rfl | rfl
        · exact i1 hd
        · exact i1 hd
      · rw [m1 x hxb]
        show _ = op.cells a.shape (arg.map Int.toNat) a.cells x
        rw [← argDims_ok hxs, Prog.shape_of g2]
        exact NdOp.cells_congr hty (fun y hy => i2 hx y hy) hxb
  | mode f axis a ih =>
    have hstep := (Prog.step he hl hs).good hs hw
    obtain ⟨v, hv, hw⟩ := bind_ok (show (a.value env).bind _ = .ok w from hw)
    obtain ⟨i1, i2⟩ := ih hl hs.1 hv
    obtain ⟨g1, g2, g3⟩ := (Prog.step (e := a) he hl hs.1).good hs.1 hv
    cases v with
    | mat f c => cases hw
    | coo c => cases hw
    | nd c =>
      simp only [SpVal.mode] at hw
      split_ifs at hw with h1 h2
      have hty : (NdOp.unfold f).ty c.shape [axis.toNat] = .ok w.ty := by
        have h3 := hstep.2.1
        have e1 : (Prog.mode f axis a).check = (SpVal.nd c).ty.mode f axis := by
          show a.check.bind _ = _
          rw [g2]; rfl
        rw [e1, show (SpVal.nd c).ty = .nd c.shape from rfl] at h3
        simp only [Ty.mode] at h3
        rw [if_neg h1, if_pos h2] at h3
        rw [← h3]
        have : AxesOk c.shape.length [axis.toNat] := ⟨by simpa using h2, by simp⟩
        simp only [NdOp.ty, this, if_true, extents, List.map_cons, List.map_nil, List.prod_cons, List.prod_nil, mul_one]
      have hfit := Prog.small_fits hs
      unfold Prog.Fits at hfit
      rw [hstep.2.1] at hfit
      obtain ⟨m1, m2⟩ := NdOp.apply_cells he (.unfold f) g1 hw hty (Ty.SizeOk.mono hfit g3)
      refine ⟨fun _ => m2 (by simp), fun hx x hxb => ?_⟩
      rw [m1 x hxb]
      show _ = (NdOp.unfold f).cells a.shape [axis.toNat] a.cells x
      rw [Prog.shape_of g2]
      exact NdOp.cells_congr hty (fun y hy => i2 hx y hy) hxb

end
end Lacuna
