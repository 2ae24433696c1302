import Verif.Lemmas.PtrHash
import Verif.Lemmas.PtrSimd
import Verif.Lemmas.PtrDiff
import Verif.Lemmas.Accum
/- Merging the thread-local accumulators into the output. -/
namespace Lacuna
variable {V : Type}

theorem load4_getD {α : Type} {v : List α} {i : Nat} (h : i + 4 ≤ v.length) (d : α) :
    load4 v i = .ok (v.getD i d, v.getD (i + 1) d, v.getD (i + 2) d, v.getD (i + 3) d) := by
  have : v.drop i = v[i] :: v[i + 1] :: v[i + 2] :: v[i + 3] :: v.drop (i + 4) := by
    rw [List.drop_eq_getElem_cons (by omega), List.drop_eq_getElem_cons (by omega),
      List.drop_eq_getElem_cons (by omega), List.drop_eq_getElem_cons (by omega)]
  rw [load4_eq this, List.getD_eq_getElem _ _ (by omega), List.getD_eq_getElem _ _ (by omega),
    List.getD_eq_getElem _ _ (by omega), List.getD_eq_getElem _ _ (by omega)]

theorem store4_set {α : Type} {v : List α} {i : Nat} (h : i + 4 ≤ v.length) (x : Lanes α) :
    store4 v i x = .ok ((((v.set i x.1).set (i + 1) x.2.1).set (i + 2) x.2.2.1).set (i + 3) x.2.2.2) := by
  unfold store4 Ptr.add asPtr
  rw [if_pos (show 0 + i ≤ v.length by omega), ok_bind]
  simp only [Nat.zero_add]
  rw [if_pos h]

theorem addAt4 [Zero V] [Add V] (y : List V) (i : Nat) (a b c d : V) :
    addAt (addAt (addAt (addAt y i a) (i + 1) b) (i + 2) c) (i + 3) d =
      (((y.set i (y.getD i 0 + a)).set (i + 1) (y.getD (i + 1) 0 + b)).set (i + 2) (y.getD (i + 2) 0 + c)).set (i + 3)
        (y.getD (i + 3) 0 + d) := by
  unfold addAt
  simp

theorem addAll_snoc [Zero V] [Add V] (y : List V) (l : List (Nat × V)) (k : Nat) (v : V) :
    addAll y (l ++ [(k, v)]) = addAt (addAll y l) k v := by rw [addAll_append]; rfl

theorem range_map_snoc4 {β : Type} (f : Nat → β) (q : Nat) :
    (List.range (q + 4)).map f = (List.range q).map f ++ [f q] ++ [f (q + 1)] ++ [f (q + 2)] ++ [f (q + 3)] := by
  simp [List.range_succ]

theorem range_map_snoc {β : Type} (f : Nat → β) (q : Nat) :
    (List.range (q + 1)).map f = (List.range q).map f ++ [f q] := by simp [List.range_succ]

theorem addIdxP_eq [Zero V] [Add V] {y : List V} {j : Nat} (h : j < y.length) (v : V) :
    addIdxP y j v = .ok (addAt y j v) := by
  unfold addIdxP storeIdx addAt
  rw [index_eq h, ok_bind, if_pos h, List.getD_eq_getElem _ _ h]

theorem rawAddP_eq [Zero V] [Add V] {y : List V} {j : Nat} (h : j < y.length) (v : V) :
    rawAddP y j v = .ok (addAt y j v) := by
  unfold rawAddP Ptr.get Ptr.add Ptr.read asPtr addAt
  rw [if_pos (show 0 + j ≤ y.length by omega), ok_bind]
  simp only [Nat.zero_add]
  rw [List.getElem?_eq_getElem h]
  simp only []
  rw [ok_bind, setUnchecked_eq h, List.getD_eq_getElem _ _ h]

theorem index_getD {α : Type} {v : List α} {i : Nat} (h : i < v.length) (d : α) : index v i = .ok (v.getD i d) := by
  rw [index_eq h, List.getD_eq_getElem _ _ h]

theorem ptr_get_getD {α : Type} {v : List α} {off k : Nat} (h : off + k < v.length) (d : α) :
    (⟨v, off⟩ : Ptr α).get k = .ok (v.getD (off + k) d) := by
  unfold Ptr.get Ptr.add Ptr.read
  rw [if_pos (show off + k ≤ v.length by omega), ok_bind]
  simp only []
  rw [List.getElem?_eq_getElem h, List.getD_eq_getElem _ _ h]

theorem mergePlainP_eq [Zero V] [Add V] {F n : Nat} {y l : List V} (hy : y.length = n) (hl : l.length = n)
    (hn : n ≤ usizeMax) (hF : n < F) :
    mergePlainP F n y l = .ok (addAll y ((List.range n).map fun c => (c, l.getD c 0))) := by
  refine Exists.elim (loops4 (F := F) (len := n) (mid := id)
    (b4 := fun s : Nat × List V => do
      let o ← load4 s.2 s.1
      let x ← load4 l s.1
      let y ← store4 s.2 s.1 (o.1 + x.1, o.2.1 + x.2.1, o.2.2.1 + x.2.2.1, o.2.2.2 + x.2.2.2)
      pure (s.1 + 4, y))
    (b1 := fun s : Nat × List V => do
      let x ← index l s.1
      let y ← rawAddP s.2 s.1 x
      pure (s.1 + 1, y))
    (fun q s => s = addAll y ((List.range q).map fun c => (c, l.getD c 0)))
    (fun q s => s = addAll y ((List.range q).map fun c => (c, l.getD c 0))) hn hF ?_ ?_ ?_ y rfl) ?_
  · intro q s hq hs
    have hsl : s.length = n := by rw [hs, addAll_length, hy]
    refine ⟨addAll y ((List.range (q + 4)).map fun c => (c, l.getD c 0)), ?_, rfl⟩
    simp only []
    rw [load4_getD (by omega) 0, ok_bind, load4_getD (by omega) 0, ok_bind, store4_set (by omega), ok_bind,
      range_map_snoc4, addAll_snoc, addAll_snoc, addAll_snoc, addAll_snoc, ← hs, addAt4]
    rfl
  · intro q s _ _ hs; exact hs
  · intro q s hq hs
    have hsl : s.length = n := by rw [hs, addAll_length, hy]
    refine ⟨addAll y ((List.range (q + 1)).map fun c => (c, l.getD c 0)), ?_, rfl⟩
    simp only []
    rw [index_getD (by omega) 0, ok_bind, rawAddP_eq (by omega), ok_bind, range_map_snoc, addAll_snoc, ← hs]
    rfl
  · rintro s' ⟨t, e1, e2, e3⟩
    unfold mergePlainP
    rw [e1, ok_bind, show (n - n % 4, s') = (n - n % 4, id s') from rfl, e2, ok_bind, e3]
    rfl

/-! ### Shapes of the accumulators, whatever was added -/

/-- A dense accumulator of length `n`. -/
structure TouchAcc.Shape (n : Nat) (c : TouchAcc V) : Prop where
  vals : c.vals.length = n
  seen : c.seen.length = n
  lt : ∀ i ∈ c.touched, i < n

theorem touch_empty [Zero V] (n : Nat) : TouchAcc.Shape n (TouchAcc.empty n : TouchAcc V) :=
  ⟨by simp [TouchAcc.empty], by simp [TouchAcc.empty], fun i hi => by cases hi⟩

theorem TouchAcc.Shape.add [Zero V] [Add V] {n : Nat} {c c' : TouchAcc V} (h : TouchAcc.Shape n c) {i : Nat} {v : V}
    (he : c.add i v = some c') : TouchAcc.Shape n c' := by
  unfold TouchAcc.add at he
  split at he
  · cases he
  · rename_i hs
    have hi : i < n := by
      rw [← h.seen]
      by_contra hc
      rw [List.getElem?_eq_none (by omega)] at hs
      cases hs
    cases he
    refine ⟨by rw [addAt_length]; exact h.vals, by simpa using h.seen, fun j hj => ?_⟩
    rcases List.mem_append.1 hj with hj | hj
    · exact h.lt j hj
    · simp only [List.mem_singleton] at hj; omega
  · cases he
    exact ⟨by rw [addAt_length]; exact h.vals, h.seen, h.lt⟩

/-- A striped accumulator. -/
structure StripesShape (n stripe : Nat) (accs : List (Option (TouchAcc V))) : Prop where
  length : accs.length = (n + stripe - 1) / stripe
  cell : ∀ sid c, accs[sid]? = some (some c) → TouchAcc.Shape (min (n - sid * stripe) stripe) c

theorem stripes_none (n stripe : Nat) : StripesShape n stripe (noStripes V n stripe) :=
  ⟨by simp [noStripes], fun sid c h => by
    unfold noStripes at h
    rw [List.getElem?_replicate] at h
    split at h <;> cases h⟩

theorem StripesShape.add [Zero V] [Add V] {n stripe : Nat} {accs accs' : List (Option (TouchAcc V))}
    (h : StripesShape n stripe accs) {k : Nat} {v : V} (he : stripeAdd n stripe accs k v = some accs') :
    StripesShape n stripe accs' := by
  unfold stripeAdd at he
  simp only [] at he
  split at he
  · cases he
  · rename_i o ho
    cases hc : (o.getD (TouchAcc.empty (min (n - k / stripe * stripe) stripe))).add (k - k / stripe * stripe) v with
    | none => rw [hc] at he; cases he
    | some c =>
      rw [hc] at he
      cases he
      have hc' : TouchAcc.Shape (min (n - k / stripe * stripe) stripe) c := by
        refine TouchAcc.Shape.add ?_ hc
        cases o with
        | none => exact touch_empty _
        | some c0 => exact h.cell _ _ ho
      refine ⟨by simpa using h.length, fun sid d hd => ?_⟩
      rw [List.getElem?_set] at hd
      split at hd
      · rename_i hsid
        split at hd
        · cases hd; rw [← hsid]; exact hc'
        · cases hd
      · exact h.cell _ _ hd

theorem stripe_bound {n stripe sid : Nat} (hs : 0 < stripe) (h : sid < (n + stripe - 1) / stripe) :
    sid * stripe < n := by
  have : (sid + 1) * stripe ≤ n + stripe - 1 := (Nat.le_div_iff_mul_le hs).1 h
  rw [Nat.add_mul] at this
  omega

/-! ### Merging them -/

theorem updates_lt [Zero V] {n base : Nat} {c : TouchAcc V} (h : TouchAcc.Shape n c) :
    ∀ o ∈ c.updates base n, base ≤ o.1 ∧ o.1 < base + n := by
  intro o ho
  unfold TouchAcc.updates at ho
  split at ho
  · obtain ⟨i, hi, rfl⟩ := List.mem_map.1 ho
    have := List.mem_range.1 hi
    simp only []; omega
  · obtain ⟨i, hi, rfl⟩ := List.mem_map.1 ho
    have := h.lt i hi
    simp only []; omega

theorem mergeTouchP_eq [Zero V] [Add V] {n : Nat} {y : List V} (hy : y.length = n) {c : TouchAcc V}
    (h : TouchAcc.Shape n c) : mergeTouchP n y c = .ok (addAll y (c.updates 0 n)) := by
  unfold mergeTouchP
  rw [addAll?_eq _ _ (fun o ho => by have := updates_lt h o ho; omega)]
  rfl

theorem stripeUpdatesSeq_eq [Zero V] {n stripe : Nat} {accs : List (Option (TouchAcc V))}
    (h : StripesShape n stripe accs) (sid : Nat) :
    stripeUpdatesSeq stripe accs sid = stripeUpdates n stripe accs sid := by
  unfold stripeUpdatesSeq stripeUpdates
  rw [List.getD_eq_getElem?_getD]
  cases ho : accs[sid]? with
  | none => rfl
  | some o =>
    cases o with
    | none => rfl
    | some c =>
      simp only [Option.getD_some]
      rw [(h.cell _ _ ho).vals]

theorem stripeUpdates_lt [Zero V] {n stripe : Nat} (hs : 0 < stripe) {accs : List (Option (TouchAcc V))}
    (h : StripesShape n stripe accs) {sid : Nat} (hsid : sid < (n + stripe - 1) / stripe) :
    ∀ o ∈ stripeUpdates n stripe accs sid, sid * stripe ≤ o.1 ∧ o.1 < sid * stripe + stripe ∧ o.1 < n := by
  intro o ho
  have hb := stripe_bound hs hsid
  unfold stripeUpdates at ho
  rw [List.getD_eq_getElem?_getD] at ho
  cases hc : accs[sid]? with
  | none => rw [hc] at ho; cases ho
  | some oc =>
    rw [hc] at ho
    cases oc with
    | none => cases ho
    | some c =>
      simp only [Option.getD_some] at ho
      have := updates_lt (h.cell _ _ hc) o ho
      omega

theorem mergeStripeP_eq [Zero V] [Add V] {n stripe : Nat} (hs : 0 < stripe) {y : List V} (hy : y.length = n)
    {accs : List (Option (TouchAcc V))} (h : StripesShape n stripe accs) :
    mergeStripeP stripe y accs =
      .ok (addAll y ((List.range accs.length).flatMap (stripeUpdatesSeq stripe accs))) := by
  unfold mergeStripeP
  rw [addAll?_eq]
  · rfl
  · intro o ho
    obtain ⟨sid, hsid, ho⟩ := List.mem_flatMap.1 ho
    rw [stripeUpdatesSeq_eq h] at ho
    have := stripeUpdates_lt hs h (by rw [← h.length]; exact List.mem_range.1 hsid) o ho
    omega

theorem add4P_eq [Zero V] [Add V] {dbg : Bool} {base q : Nat} {vals y : List V} (hq : q + 4 ≤ vals.length)
    (hb : base + vals.length ≤ y.length) (hy : y.length ≤ usizeMax) :
    add4P dbg base vals (q, y) = .ok (q + 4, addAt (addAt (addAt (addAt y (base + q) (vals.getD q 0))
      (base + (q + 1)) (vals.getD (q + 1) 0)) (base + (q + 2)) (vals.getD (q + 2) 0)) (base + (q + 3))
      (vals.getD (q + 3) 0)) := by
  unfold add4P
  simp only []
  rw [addUsize_eq (by omega), ok_bind]
  unfold Ptr.add asPtr
  rw [if_pos (show 0 + q ≤ vals.length by omega), ok_bind]
  simp only [Nat.zero_add]
  rw [ptr_get_getD (by omega) 0, ok_bind, rawAddP_eq (by omega), ok_bind,
    ptr_get_getD (by omega) 0, ok_bind, rawAddP_eq (by rw [addAt_length]; omega), ok_bind,
    ptr_get_getD (by omega) 0, ok_bind, rawAddP_eq (by rw [addAt_length, addAt_length]; omega), ok_bind,
    ptr_get_getD (by omega) 0, ok_bind, rawAddP_eq (by rw [addAt_length, addAt_length, addAt_length]; omega), ok_bind]
  rfl

theorem mergeStripeRawOneP_eq [Zero V] [Add V] {dbg : Bool} {F stripe sid : Nat} {y : List V}
    (hy : y.length ≤ usizeMax) {c : TouchAcc V} {len : Nat} (h : TouchAcc.Shape len c)
    (hb : sid * stripe + len ≤ y.length) (hF : len < F) :
    mergeStripeRawOneP dbg F stripe y (some c, sid) = .ok (addAll y (c.updates (sid * stripe) c.vals.length)) := by
  have hv := h.vals
  unfold mergeStripeRawOneP TouchAcc.updates
  simp only []
  rw [mulUsize_eq (by omega), ok_bind]
  split
  · refine Exists.elim (loops4 (F := F) (len := c.vals.length) (mid := id)
      (b4 := add4P dbg (sid * stripe) c.vals)
      (b1 := fun s : Nat × List V => do
        let y ← addIdxP s.2 (← addUsize dbg (sid * stripe) s.1) (← index c.vals s.1)
        pure (s.1 + 1, y))
      (fun q s => s = addAll y ((List.range q).map fun i => (sid * stripe + i, c.vals.getD i 0)))
      (fun q s => s = addAll y ((List.range q).map fun i => (sid * stripe + i, c.vals.getD i 0)))
      (by omega) (by omega) ?_ ?_ ?_ y rfl) ?_
    · intro q s hq hs
      have hsl : s.length = y.length := by rw [hs, addAll_length]
      refine ⟨addAll y ((List.range (q + 4)).map fun i => (sid * stripe + i, c.vals.getD i 0)), ?_, rfl⟩
      rw [add4P_eq hq (by omega) (by omega), range_map_snoc4, addAll_snoc, addAll_snoc, addAll_snoc, addAll_snoc, ← hs]
    · intro q s _ _ hs; exact hs
    · intro q s hq hs
      have hsl : s.length = y.length := by rw [hs, addAll_length]
      refine ⟨addAll y ((List.range (q + 1)).map fun i => (sid * stripe + i, c.vals.getD i 0)), ?_, rfl⟩
      simp only []
      rw [addUsize_eq (by omega), ok_bind, index_getD (by omega) 0, ok_bind, addIdxP_eq (by omega), ok_bind,
        range_map_snoc, addAll_snoc, ← hs]
      rfl
    · rintro s' ⟨t, e1, e2, e3⟩
      rw [e1, ok_bind, show (c.vals.length - c.vals.length % 4, s') = (c.vals.length - c.vals.length % 4, id s') from rfl,
        e2, ok_bind, e3]
      rfl
  · have : ∀ (l : List Nat), (∀ i ∈ l, i < len) → ∀ y' : List V, y'.length = y.length →
        l.foldlM (fun y off => do addIdxP y (← addUsize dbg (sid * stripe) off) (← index c.vals off)) y' =
          .ok (addAll y' (l.map fun i => (sid * stripe + i, c.vals.getD i 0))) := by
      intro l
      induction l with
      | nil => intro _ y' _; rfl
      | cons i l ih =>
        intro hl y' hy'
        have hi := hl i (by simp)
        rw [List.foldlM_cons, addUsize_eq (by omega), ok_bind, index_getD (by omega) 0, ok_bind,
          addIdxP_eq (by omega), ok_bind, ih (fun j hj => hl j (by simp [hj])) _ (by rw [addAt_length]; exact hy')]
        rfl
    exact this c.touched h.lt y rfl

theorem mergeStripeRawP_eq [Zero V] [Add V] {dbg : Bool} {F n stripe : Nat} (hs : 0 < stripe) {y : List V}
    (hy : y.length = n) (hn : n ≤ usizeMax) (hF : n < F) {accs : List (Option (TouchAcc V))}
    (h : StripesShape n stripe accs) :
    mergeStripeRawP dbg F stripe y accs =
      .ok (addAll y ((List.range accs.length).flatMap (stripeUpdatesSeq stripe accs))) := by
  have key : ∀ (k j : Nat), j + k = accs.length → ∀ y' : List V, y'.length = n →
      ((accs.drop j).zipIdx j).foldlM (mergeStripeRawOneP dbg F stripe) y' =
        .ok (addAll y' ((List.range' j k).flatMap (stripeUpdatesSeq stripe accs))) := by
    intro k
    induction k with
    | zero => intro j hj y' _; rw [List.drop_eq_nil_of_le (by omega)]; rfl
    | succ k ih =>
      intro j hj y' hy'
      have hb := stripe_bound hs (n := n) (sid := j) (by rw [← h.length]; omega)
      rw [List.drop_eq_getElem_cons (by omega), List.zipIdx_cons, List.foldlM_cons, List.range'_succ,
        List.flatMap_cons, addAll_append]
      have hstep : mergeStripeRawOneP dbg F stripe y' (accs[j], j) = .ok (addAll y' (stripeUpdatesSeq stripe accs j)) := by
        unfold stripeUpdatesSeq
        rw [List.getD_eq_getElem _ _ (by omega)]
        cases hc : accs[j] with
        | none => rfl
        | some c =>
          have hsh := h.cell j c (by rw [List.getElem?_eq_getElem (by omega), hc])
          exact mergeStripeRawOneP_eq (by omega) hsh (by omega) (by omega)
      rw [hstep, ok_bind]
      exact ih (j + 1) (by omega) _ (by rw [addAll_length]; exact hy')
  have := key accs.length 0 (by omega) y hy
  rw [List.drop_zero, ← List.range_eq_range'] at this
  exact this

theorem rawEventP_eq {n i : Nat} (h : i < n) (x : V) : rawEventP n i x = .ok (i, x) := by
  unfold rawEventP
  rw [MutPtr.put_eq (by simpa using h)]
  simp

theorem mapM_all_ok {α β : Type} {f : α → Except Fault β} {g : α → β} (l : List α) (h : ∀ x ∈ l, f x = .ok (g x)) :
    l.mapM f = .ok (l.map g) := by
  induction l with
  | nil => rfl
  | cons x l ih =>
    rw [List.mapM_cons, h x (by simp), ok_bind, ih (fun y hy => h y (by simp [hy])), ok_bind]
    rfl

theorem stripeEventsP_eq [Zero V] {dbg : Bool} {F n base len : Nat} (hn : n ≤ usizeMax) {c : TouchAcc V}
    (h : TouchAcc.Shape len c) (hb : base + len ≤ n) (hF : len < F) :
    stripeEventsP dbg F n base len (some c) = .ok (c.updates base len) := by
  have hv := h.vals
  unfold stripeEventsP TouchAcc.updates
  simp only []
  split
  · refine Exists.elim (loops4 (F := F) (len := len) (mid := id)
      (b4 := lanesEventP dbg n base c.vals)
      (b1 := fun s : Nat × List (Nat × V) => do
        let e ← rawEventP n (← addUsize dbg base s.1) (← index c.vals s.1)
        pure (s.1 + 1, s.2 ++ [e]))
      (fun q s => s = (List.range q).map fun i => (base + i, c.vals.getD i 0))
      (fun q s => s = (List.range q).map fun i => (base + i, c.vals.getD i 0))
      (by omega) (by omega) ?_ ?_ ?_ [] rfl) ?_
    · intro q s hq hs
      refine ⟨(List.range (q + 4)).map fun i => (base + i, c.vals.getD i 0), ?_, rfl⟩
      unfold lanesEventP
      simp only []
      rw [addUsize_eq (by omega), ok_bind]
      unfold MutPtr.add
      rw [if_pos (show 0 + (base + q) ≤ n by omega), ok_bind]
      simp only [Nat.zero_add]
      rw [if_pos (by omega), load4_getD (by omega) 0, ok_bind, range_map_snoc4, ← hs]
      simp [Nat.add_assoc]
      rfl
    · intro q s _ _ hs; exact hs
    · intro q s hq hs
      refine ⟨(List.range (q + 1)).map fun i => (base + i, c.vals.getD i 0), ?_, rfl⟩
      simp only []
      rw [addUsize_eq (by omega), ok_bind, index_getD (by omega) 0, ok_bind, rawEventP_eq (by omega), ok_bind,
        range_map_snoc, ← hs]
      rfl
    · rintro s' ⟨t, e1, e2, e3⟩
      rw [e1, ok_bind, show (len - len % 4, s') = (len - len % 4, id s') from rfl, e2, ok_bind, e3]
      rfl
  · exact mapM_all_ok _ fun i hi => by
      have := h.lt i hi
      rw [addUsize_eq (by omega), ok_bind, index_getD (by omega) 0, ok_bind, rawEventP_eq (by omega)]

theorem stripeTaskP_eq [Zero V] {dbg : Bool} {F n stripe : Nat} (hs : 0 < stripe) (hn : n ≤ usizeMax) (hF : n < F)
    {cells : List (List (Option (TouchAcc V)))} (h : ∀ c ∈ cells, StripesShape n stripe c) {sid : Nat}
    (hsid : sid < (n + stripe - 1) / stripe) :
    stripeTaskP dbg F n stripe cells sid = .ok (cells.flatMap fun accs => stripeUpdates n stripe accs sid) := by
  have hb := stripe_bound hs hsid
  unfold stripeTaskP
  rw [mulUsize_eq (by omega), ok_bind, subUsize_eq (by omega), ok_bind]
  simp only []
  rw [mapM_all_ok (g := fun accs => stripeUpdates n stripe accs sid), ok_bind, List.flatMap_def]
  · rfl
  · intro accs hacc
    have hsh := h accs hacc
    have hlt : sid < accs.length := by rw [hsh.length]; exact hsid
    rw [index_eq hlt, ok_bind]
    unfold stripeUpdates
    rw [List.getD_eq_getElem _ _ hlt]
    cases hc : accs[sid] with
    | none => rfl
    | some c =>
      have := hsh.cell sid c (by rw [List.getElem?_eq_getElem hlt, hc])
      exact stripeEventsP_eq hn this (by omega) (by omega)

theorem mergeStripesPtr_iff [Zero V] [Add V] {dbg : Bool} {F n stripe : Nat} (hs : 0 < stripe)
    (hn : 8 * (n : Int) ≤ i64Max) (hF : n < F) {cells : List (List (Option (TouchAcc V)))}
    (h : ∀ c ∈ cells, StripesShape n stripe c) (out : Except Fault (List V)) :
    MergeStripesPtr dbg F n stripe cells out ↔
      out = .ok (addAll (List.replicate n 0) ((List.range ((n + stripe - 1) / stripe)).flatMap fun sid =>
        cells.flatMap fun accs => stripeUpdates n stripe accs sid)) := by
  have hn' : n ≤ usizeMax := by unfold i64Max at hn; unfold usizeMax; omega
  unfold MergeStripesPtr
  rw [zeroVecP_ok hn]
  simp only []
  have hrace : raceFree1 ((List.range ((n + stripe - 1) / stripe)).map fun sid =>
      cells.flatMap fun accs => stripeUpdates n stripe accs sid) := by
    unfold raceFree1
    rw [List.pairwise_map]
    have : (List.range ((n + stripe - 1) / stripe)).Pairwise fun x y =>
        x < y ∧ y < (n + stripe - 1) / stripe := by
      rw [List.pairwise_iff_getElem]
      intro i j hi hj hij
      simp only [List.getElem_range]
      simp only [List.length_range] at hj
      exact ⟨hij, hj⟩
    refine this.imp fun {x y} hxy p hp hp' => ?_
    obtain ⟨o, ho, rfl⟩ := List.mem_map.1 hp
    obtain ⟨o', ho', he⟩ := List.mem_map.1 hp'
    obtain ⟨c, hc, ho⟩ := List.mem_flatMap.1 ho
    obtain ⟨c', hc', ho'⟩ := List.mem_flatMap.1 ho'
    have h1 := stripeUpdates_lt hs (h c hc) (sid := x) (by omega) o ho
    have h2 := stripeUpdates_lt hs (h c' hc') (sid := y) hxy.2 o' ho'
    have h3 : (x + 1) * stripe ≤ y * stripe := Nat.mul_le_mul_right _ hxy.1
    rw [Nat.add_mul] at h3
    omega
  constructor
  · rintro ⟨oe, hoe, h'⟩
    rw [parCollect_ok (fun sid hsid => stripeTaskP_eq hs hn' hF h hsid)] at hoe
    subst hoe
    rcases h' with ⟨hr, -⟩ | ⟨-, h'⟩
    · exact absurd hrace hr
    · rw [h', List.flatMap_def]
  · intro h'
    refine ⟨_, (parCollect_ok (fun sid hsid => stripeTaskP_eq hs hn' hF h hsid) _).2 rfl, .inr ⟨hrace, ?_⟩⟩
    rw [h', List.flatMap_def]

end Lacuna
