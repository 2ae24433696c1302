import Verif.Spec.DiffAny
import Verif.Props.Diff
/-
The difference kernels in any arithmetic: sizes, order and stored entries.
-/
namespace Lacuna
universe u
variable {V : Type u}

section
variable [BEq V] [Zero V]

theorem keepNz_some {v : V} : keepNz (some v) = if v != 0 then some v else none := by
  unfold keepNz
  cases h : (v != 0) <;> simp [Option.filter, h]

theorem keepNz_none : keepNz (none : Option V) = none := rfl

end

theorem total_none {K : Type*} [BEq K] [LawfulBEq K] [Add V] {l : List (K × V)} {k : K} (h : ∀ e ∈ l, e.1 ≠ k) :
    total l k = none := by
  unfold total
  have : l.filter (fun e => e.1 == k) = [] := by
    rw [List.filter_eq_nil_iff]; intro t ht; simpa using h t ht
  rw [this]; rfl

section
variable [BEq V] [Zero V] [Add V]

/-- The merge of sorted pairs in any arithmetic. -/
theorem mergeRun_any (ts : List (Nat × V)) : ∀ (c : Nat) (acc : V),
    (∀ e ∈ ts, c ≤ e.1) → ts.Pairwise (fun x y => x.1 ≤ y.1) →
    ((mergeRun c acc ts).map Prod.fst).Pairwise (· < ·) ∧ (∀ e ∈ mergeRun c acc ts, (e.2 == 0) = false) ∧
      (∀ e ∈ mergeRun c acc ts, e.1 = c ∨ ∃ e' ∈ ts, e'.1 = e.1) ∧
      ∀ j, total (mergeRun c acc ts) j = keepNz (total ((c, acc) :: ts) j) := by
  induction ts with
  | nil =>
    intro c acc _ _
    unfold mergeRun
    refine ⟨by split <;> simp, ?_, ?_, fun j => ?_⟩
    · intro e he
      split at he
      · rename_i h; simp at he; subst he; simpa [bne] using h
      · simp at he
    · intro e he
      split at he
      · simp at he; left; rw [he]
      · simp at he
    · by_cases hj : c = j
      · subst hj
        rw [total_cons_single _ _ _ (by simp), keepNz_some]
        split
        · exact total_cons_single _ _ _ (by simp)
        · rfl
      · rw [total_cons_ne hj]
        split
        · rw [total_cons_ne hj]; rfl
        · rfl
  | cons e ts ih =>
    intro c acc hle hs
    have hs' := List.pairwise_cons.1 hs
    by_cases hc : (e.1 == c) = true
    · have hce : e.1 = c := by simpa using hc
      rw [mergeRun, if_pos hc]
      obtain ⟨i1, i2, i3, i4⟩ := ih c (acc + e.2) (fun x hx => hle x (by simp [hx])) hs'.2
      refine ⟨i1, i2, fun x hx => ?_, fun j => ?_⟩
      · rcases i3 x hx with h | ⟨y, hy, h⟩
        · exact .inl h
        · exact .inr ⟨y, by simp [hy], h⟩
      · rw [i4, total_cons_merge]
        subst hce
        rfl
    · have hce : e.1 ≠ c := by simpa using hc
      have hlt : c < e.1 := lt_of_le_of_ne (hle e (by simp)) (Ne.symm hce)
      rw [mergeRun, if_neg hc]
      obtain ⟨i1, i2, i3, i4⟩ := ih e.1 e.2 (fun x hx => hs'.1 x hx) hs'.2
      have hge : ∀ x ∈ mergeRun e.1 e.2 ts, e.1 ≤ x.1 := by
        intro x hx
        rcases i3 x hx with h | ⟨y, hy, h⟩
        · omega
        · have := hs'.1 y hy; omega
      refine ⟨?_, ?_, ?_, ?_⟩
      · rw [List.map_append, List.pairwise_append]
        refine ⟨by split <;> simp, i1, fun x hx y hy => ?_⟩
        obtain ⟨z, hz, rfl⟩ := List.mem_map.1 hy
        have := hge z hz
        split at hx
        · simp at hx; omega
        · simp at hx
      · intro x hx
        rcases List.mem_append.1 hx with hx | hx
        · split at hx
          · rename_i h; simp at hx; subst hx; simpa [bne] using h
          · simp at hx
        · exact i2 x hx
      · intro x hx
        rcases List.mem_append.1 hx with hx | hx
        · split at hx
          · simp at hx; left; rw [hx]
          · simp at hx
        · rcases i3 x hx with h | ⟨y, hy, h⟩
          · exact .inr ⟨e, by simp, h.symm⟩
          · exact .inr ⟨y, by simp [hy], h⟩
      · intro j
        by_cases hj : c = j
        · subst hj
          have hne : ∀ t ∈ e :: ts, t.1 ≠ c := by
            intro t ht
            rcases List.mem_cons.1 ht with rfl | ht
            · exact hce
            · have := hs'.1 t ht; omega
          have hne2 : ∀ t ∈ mergeRun e.1 e.2 ts, t.1 ≠ c := fun t ht => by have := hge t ht; omega
          rw [total_cons_single _ _ _ hne, keepNz_some]
          split
          · exact total_cons_single _ _ _ hne2
          · exact total_none hne2
        · rw [total_cons_ne hj]
          have : total ((if acc != 0 then [(c, acc)] else []) ++ mergeRun e.1 e.2 ts) j = total (mergeRun e.1 e.2 ts) j := by
            split
            · exact total_cons_ne hj _ _
            · rfl
          rw [this, i4]

/-- What a computed row satisfies in any arithmetic: strictly sorted, below the width, nothing equal to zero. -/
def PairsAny (w : Nat) (l : List (Nat × V)) : Prop :=
  (l.map Prod.fst).Pairwise (· < ·) ∧ (∀ e ∈ l, e.1 < w) ∧ ∀ e ∈ l, (e.2 == 0) = false

theorem combinePairs_any {sort : List (Nat × V) → List (Nat × V)} (hsort : IsSort sort) (pairs : List (Nat × V)) {w : Nat}
    (hw : ∀ e ∈ pairs, e.1 < w) :
    ∃ out, combinePairs sort pairs = some out ∧ PairsAny w out ∧ (∀ j, total out j = keepNz (total (sort pairs) j)) ∧
      ∀ e ∈ out, ∃ e' ∈ pairs, e'.1 = e.1 := by
  by_cases hp : pairs = []
  · subst hp
    have : sort [] = [] := (hsort []).1.eq_nil
    exact ⟨[], rfl, ⟨by simp, by simp, by simp⟩, fun _ => by rw [this]; rfl, by simp⟩
  obtain ⟨e, ts, he, h⟩ := combinePairs_eq hsort hp
  obtain ⟨hperm, hs⟩ := hsort pairs
  rw [he] at hperm hs
  have hs' := List.pairwise_cons.1 hs
  obtain ⟨i1, i2, i3, i4⟩ := mergeRun_any ts e.1 e.2 (fun x hx => hs'.1 x hx) hs'.2
  refine ⟨_, h, ⟨i1, fun x hx => ?_, i2⟩, fun j => ?_, fun x hx => ?_⟩
  · rcases i3 x hx with h | ⟨y, hy, h⟩
    · rw [h]; exact hw e (hperm.mem_iff.1 (by simp))
    · rw [← h]; exact hw y (hperm.mem_iff.1 (by simp [hy]))
  · rw [i4, he]
  · rcases i3 x hx with h | ⟨y, hy, h⟩
    · exact ⟨e, hperm.mem_iff.1 (by simp), h.symm⟩
    · exact ⟨y, hperm.mem_iff.1 (by simp [hy]), h⟩

end

section
variable [Add V] [Neg V]

/-- What the expansion lists under a key: the negated left cell and the right cell. -/
theorem diffExpand_at {w : Nat} {cur : List (Nat × V)} (hn : (cur.map Prod.fst).Nodup) {j : Nat} (hj : j + 1 < w) :
    (((diffExpand (w - 1) cur).filter fun e => e.1 == j).map Prod.snd).Perm
      (((total cur j).map Neg.neg).toList ++ (total cur (j + 1)).toList) := by
  induction cur with
  | nil => exact List.Perm.refl _
  | cons e cur ih =>
    have hn' := List.nodup_cons.1 hn
    have hne : ∀ t ∈ cur, t.1 ≠ e.1 := fun t ht h => hn'.1 (h ▸ List.mem_map_of_mem ht)
    have ih := ih hn'.2
    obtain ⟨k, v⟩ := e
    unfold diffExpand at ih ⊢
    rw [List.flatMap_cons, List.filter_append, List.map_append]
    by_cases h1 : k = j
    · subst h1
      have e1 : (((if k < w - 1 then [(k, -v)] else []) ++ (if k ≥ 1 then [(k - 1, v)] else [])).filter
          fun e => e.1 == k).map Prod.snd = [-v] := by
        rw [if_pos (by omega)]
        split
        · rw [List.filter_append, List.filter_cons_of_pos (by simp), List.filter_cons_of_neg (by simp; omega)]
          rfl
        · simp
      rw [e1, total_cons_single _ _ _ hne, total_cons_ne (by omega)]
      rw [total_none hne] at ih
      exact ih.cons _
    · by_cases h2 : k = j + 1
      · subst h2
        have e1 : (((if j + 1 < w - 1 then [(j + 1, -v)] else []) ++ (if j + 1 ≥ 1 then [(j + 1 - 1, v)] else [])).filter
            fun e => e.1 == j).map Prod.snd = [v] := by
          rw [if_pos (show j + 1 ≥ 1 by omega)]
          split <;> simp
        rw [e1, total_cons_ne h1, total_cons_single _ _ _ hne]
        rw [total_none hne] at ih
        simp only [Option.toList_none, List.append_nil] at ih
        exact (List.perm_append_comm).trans (ih.append_right _)
      · have e1 : (((if k < w - 1 then [(k, -v)] else []) ++ (if k ≥ 1 then [(k - 1, v)] else [])).filter
            fun e => e.1 == j).map Prod.snd = [] := by
          have : ((if k < w - 1 then [(k, -v)] else []) ++ (if k ≥ 1 then [(k - 1, v)] else [])).filter
            (fun e => e.1 == j) = [] := by
            rw [List.filter_eq_nil_iff]
            intro t ht
            rcases List.mem_append.1 ht with h | h
            · split at h
              · simp at h; subst h; simpa using h1
              · simp at h
            · split at h
              · simp at h; subst h; simp; omega
              · simp at h
          rw [this]; rfl
        rw [e1, total_cons_ne h1, total_cons_ne h2]
        exact ih

theorem perm_two {α : Type*} {l : List α} {x y : α} (h : l.Perm [x, y]) : l = [x, y] ∨ l = [y, x] := by
  match l, h with
  | [], h => exact absurd h.length_eq (by simp)
  | [_], h => exact absurd h.length_eq (by simp)
  | _ :: _ :: _ :: _, h => exact absurd h.length_eq (by simp)
  | [p, q], h =>
    have hp : p = x ∨ p = y := by simpa using h.mem_iff.1 (List.mem_cons_self (a := p) (l := [q]))
    rcases hp with rfl | rfl
    · left; rw [List.perm_singleton.1 h.cons_inv]
    · right; rw [List.perm_singleton.1 (h.trans (List.Perm.swap _ _ _)).cons_inv]

/-- Two numbers are added in either order. -/
theorem total_pair (hc : ∀ a b : V, a + b = b + a) {l : List (Nat × V)} {j : Nat} {x y : Option V}
    (h : ((l.filter fun e => e.1 == j).map Prod.snd).Perm ((x.map Neg.neg).toList ++ y.toList)) :
    total l j = diffCell x y := by
  unfold total
  cases x with
  | none =>
    cases y with
    | none => rw [h.eq_nil]; rfl
    | some b => rw [List.perm_singleton.1 h]; rfl
  | some a =>
    cases y with
    | none => rw [List.perm_singleton.1 h]; rfl
    | some b =>
      have h : ((l.filter fun e => e.1 == j).map Prod.snd).Perm [-a, b] := h
      rcases perm_two h with e | e
      · rw [e]; show some (-a + b) = some (b + -a); rw [hc]
      · rw [e]; rfl

end

section
variable [BEq V] [Zero V] [Add V] [Neg V]

theorem diffOpt_congr (n : Nat) : ∀ {f g : Nat → Option V} {j : Nat}, (∀ k, j ≤ k → k ≤ j + n → f k = g k) →
    diffOpt n f j = diffOpt n g j := by
  induction n with
  | zero => intro f g j h; exact h j le_rfl le_rfl
  | succ n ih =>
    intro f g j h
    exact ih (fun k h1 h2 => by rw [h k (by omega) (by omega), h (k + 1) (by omega) (by omega)])

theorem diffOpt_none (n : Nat) : ∀ {f : Nat → Option V} {j : Nat}, (∀ k, j ≤ k → k ≤ j + n → f k = none) →
    diffOpt n f j = none := by
  induction n with
  | zero => intro f j h; exact h j le_rfl le_rfl
  | succ n ih =>
    intro f j h
    exact ih (fun k h1 h2 => by rw [h k (by omega) (by omega), h (k + 1) (by omega) (by omega)]; rfl)

/-- The repeated difference of a row; the values are determined if addition commutes. -/
theorem diffRowLoop_any {sort : List (Nat × V) → List (Nat × V)}
    (hsort : IsSort sort) (n : Nat) : ∀ (cur : List (Nat × V)) (w : Nat), 0 < n → n < w → (∀ e ∈ cur, e.1 < w) →
    ∃ out, diffRowLoop sort n cur w = some out ∧ PairsAny (w - n) out ∧
      (∀ B, (∀ e ∈ cur, e.1 ≤ B) → ∀ e ∈ out, e.1 ≤ B) ∧
      ((∀ a b : V, a + b = b + a) → (cur.map Prod.fst).Nodup → ∀ j, j < w - n → total out j = diffOpt n (total cur) j) := by
  induction n with
  | zero => intro _ _ h; omega
  | succ n ih =>
    intro cur w _ hn hc
    rw [diffRowLoop, if_neg (by omega)]
    obtain ⟨next, h1, h2, h3, h4⟩ := combinePairs_any hsort (diffExpand (w - 1) cur) (diffExpand_lt hc)
    rw [h1, Option.bind_some]
    have hk : (∀ a b : V, a + b = b + a) → (cur.map Prod.fst).Nodup → ∀ j, j + 1 < w →
        total next j = keepNz (diffCell (total cur j) (total cur (j + 1))) := by
      intro hcomm hnd j hj
      rw [h3, total_pair hcomm]
      exact (((hsort _).1.filter _).map _).trans (diffExpand_at hnd hj)
    have hB : ∀ B, (∀ e ∈ cur, e.1 ≤ B) → ∀ e ∈ next, e.1 ≤ B := by
      intro B hb e he
      obtain ⟨e', he', h⟩ := h4 e he
      rw [← h]; exact diffExpand_le hb e' he'
    split
    · rename_i hnil
      have hnil' : next = [] := by simpa using hnil
      subst hnil'
      refine ⟨[], rfl, ⟨by simp, by simp, by simp⟩, by simp, fun hcomm hnd j hj => ?_⟩
      exact (diffOpt_none n (fun k _ hk' => (hk hcomm hnd k (by omega)).symm)).symm
    · by_cases h0 : n = 0
      · subst h0
        exact ⟨next, rfl, h2, hB, fun hcomm hnd j hj => hk hcomm hnd j (by omega)⟩
      · obtain ⟨out, o1, o2, o3, o4⟩ := ih next (w - 1) (by omega) (by omega) h2.2.1
        refine ⟨out, o1, by rw [show w - (n + 1) = w - 1 - n by omega]; exact o2,
          fun B hb => o3 B (hB B hb), fun hcomm hnd j hj => ?_⟩
        rw [o4 hcomm (h2.1.imp (fun h => Nat.ne_of_lt h)) j (by omega)]
        exact diffOpt_congr n (fun k _ hk' => hk hcomm hnd k (by omega))

/-- What the row routine leaves of the cells: `n` differences; for `n = 0` the zeros are dropped. -/
def diffRowOpt (n : Nat) (c : Nat → Option V) : Nat → Option V :=
  if n = 0 then fun j => keepNz (c j) else diffOpt n c

theorem diffRowOpt_congr {n : Nat} {f g : Nat → Option V} {j : Nat} (h : ∀ k, j ≤ k → k ≤ j + n → f k = g k) :
    diffRowOpt n f j = diffRowOpt n g j := by
  unfold diffRowOpt
  split
  · simp only []; rw [h j le_rfl (by omega)]
  · exact diffOpt_congr n h

omit [Neg V] in
theorem total_keep {l : List (Nat × V)} (hn : (l.map Prod.fst).Nodup) (j : Nat) :
    total (l.filter fun e => e.2 != 0) j = keepNz (total l j) := by
  induction l with
  | nil => rfl
  | cons e l ih =>
    obtain ⟨k, v⟩ := e
    have hn' := List.nodup_cons.1 hn
    have hne : ∀ t ∈ l, t.1 ≠ k := fun t ht h => hn'.1 (List.mem_map.2 ⟨t, ht, h⟩)
    have hne2 : ∀ t ∈ l.filter (fun e => e.2 != 0), t.1 ≠ k := fun t ht => hne t (List.mem_of_mem_filter ht)
    by_cases hj : k = j
    · subst hj
      rw [total_cons_single _ _ _ hne, keepNz_some, List.filter_cons]
      split
      · exact total_cons_single _ _ _ hne2
      · exact total_none hne2
    · rw [total_cons_ne hj, ← ih hn'.2, List.filter_cons]
      split
      · exact total_cons_ne hj _ _
      · rfl

theorem diffRowPairs_any {sort : List (Nat × V) → List (Nat × V)}
    (hsort : IsSort sort) {pairs : List (Nat × V)} {w n : Nat} (hn : n < w) (hp : ∀ e ∈ pairs, e.1 < w) :
    ∃ out, diffRowPairs sort pairs w n = some out ∧ (∀ e ∈ out, e.1 < w - n) ∧ (∀ e ∈ out, (e.2 == 0) = false) ∧
      (0 < n ∨ (pairs.map Prod.fst).Pairwise (· < ·) → (out.map Prod.fst).Pairwise (· < ·)) ∧
      ((pairs.map Prod.fst).Nodup → (out.map Prod.fst).Nodup) ∧
      (∀ B, (∀ e ∈ pairs, e.1 ≤ B) → ∀ e ∈ out, e.1 ≤ B) ∧
      ((∀ a b : V, a + b = b + a) → (pairs.map Prod.fst).Nodup →
        ∀ j, j < w - n → total out j = diffRowOpt n (total pairs) j) := by
  unfold diffRowPairs diffRowOpt
  by_cases h0 : n = 0
  · subst h0
    rw [if_pos (Or.inl rfl)]
    refine ⟨_, rfl, fun e he => hp e (List.mem_of_mem_filter he), fun e he => ?_, fun h => ?_, fun h => ?_,
      fun B hb e he => hb e (List.mem_of_mem_filter he), fun _ hnd j _ => total_keep hnd j⟩
    · have := (List.mem_filter.1 he).2
      simpa [bne] using this
    · rcases h with h | h
      · omega
      · exact h.sublist (List.filter_sublist.map _)
    · exact h.sublist (List.filter_sublist.map _)
  · rw [if_neg (by omega)]
    obtain ⟨out, h1, ⟨h2, h3, h4⟩, h5, h6⟩ := diffRowLoop_any hsort n pairs w (by omega) hn hp
    rw [if_neg h0]
    exact ⟨out, h1, h3, h4, fun _ => h2, fun _ => h2.imp (fun h => Nat.ne_of_lt h), h5, h6⟩


/-! ### CSR -/

omit [BEq V] [Zero V] [Neg V] in
theorem lk_cast_total {l : List (Nat × V)} (hn : (l.map Prod.fst).Nodup) (j : Nat) :
    lk (j : Int) (l.map fun e => ((e.1 : Int), e.2)) = total l j := by
  induction l with
  | nil => rfl
  | cons e l ih =>
    obtain ⟨k, v⟩ := e
    have hn' := List.nodup_cons.1 hn
    have hne : ∀ t ∈ l, t.1 ≠ k := fun t ht h => hn'.1 (List.mem_map.2 ⟨t, ht, h⟩)
    rw [List.map_cons]
    by_cases hj : k = j
    · subst hj
      rw [total_cons_single _ _ _ hne]
      exact lk_cons_self _ _ _
    · rw [total_cons_ne hj, ← ih hn'.2]
      exact lk_cons_ne _ _ (by simp only; omega)

omit [BEq V] [Zero V] [Add V] [Neg V] in
theorem row_uncast {a : Comp V} (hw : a.WFU) (i : Nat) :
    ((a.row i).map fun e => (i64ToUsize e.1, e.2)).map (fun e => ((e.1 : Int), e.2)) = a.row i := by
  rw [List.map_map]
  conv_rhs => rw [← List.map_id (a.row i)]
  apply List.map_congr_left
  intro e he
  have := hw.row_bounds i e he
  have h2 := hw.row_i64 i e he
  show ((i64ToUsize e.1 : Int), e.2) = e
  rw [i64ToUsize_of_nonneg this.1 h2, Int.toNat_of_nonneg this.1]

omit [BEq V] [Zero V] [Add V] [Neg V] in
theorem row_keys_nodup {a : Comp V} (hw : a.WFU) (hd : a.NoRep) (i : Nat) :
    (((a.row i).map fun e => (i64ToUsize e.1, e.2)).map Prod.fst).Nodup := by
  rw [List.map_map]
  exact nodup_targets hw hd i

omit [BEq V] [Zero V] [Neg V] in
theorem total_row {a : Comp V} (hw : a.WFU) (hd : a.NoRep) (i j : Nat) :
    total ((a.row i).map fun e => (i64ToUsize e.1, e.2)) j = a.stored i j := by
  rw [← lk_cast_total (row_keys_nodup hw hd i), row_uncast hw]
  rfl

/-- The rows computed by the kernel. -/
theorem diff_rows_any {sort : List (Nat × V) → List (Nat × V)} (hsort : IsSort sort)
    {a : Csr V} (ha : a.WFU) {n : Nat} (hn : n < a.ncols) :
    ∃ f : Nat → List (Nat × V), ((List.range a.nrows).mapM fun i =>
        diffRowPairs sort ((a.comp.row i).map fun e => (i64ToUsize e.1, e.2)) a.ncols n) =
        some ((List.range a.nrows).map f) ∧
      (∀ i, ∀ e ∈ f i, e.1 < a.ncols - n ∧ (e.1 : Int) ≤ i64Max) ∧ (∀ i, ∀ e ∈ f i, (e.2 == 0) = false) ∧
      (0 < n ∨ a.WF → ∀ i, ((f i).map Prod.fst).Pairwise (· < ·)) ∧
      (a.comp.NoRep → ∀ i, ((f i).map Prod.fst).Nodup) ∧
      ((∀ a b : V, a + b = b + a) → a.comp.NoRep →
        ∀ i j, j < a.ncols - n → total (f i) j = diffRowOpt n (a.stored i) j) := by
  have hb : ∀ i, ∀ e ∈ (a.comp.row i).map fun e => (i64ToUsize e.1, e.2), e.1 < a.ncols ∧ e.1 ≤ i64Max.toNat := by
    intro i e he
    obtain ⟨x, hx, rfl⟩ := List.mem_map.1 he
    have h1 := Comp.WFU.row_bounds ha i x hx
    have h2 := Comp.WFU.row_i64 ha i x hx
    have h3 : x.1 < (a.ncols : Int) := h1.2
    simp only
    rw [i64ToUsize_of_nonneg h1.1 h2]
    omega
  have key := fun i => diffRowPairs_any hsort hn (fun e he => (hb i e he).1)
  choose f f1 f2 f3 f4 f5 f6 f7 using key
  refine ⟨f, ?_, fun i e he => ⟨f2 i e he, ?_⟩, f3, fun h i => f4 i ?_, fun hd i => f5 i (row_keys_nodup ha hd i),
    fun hc hd i j hj => ?_⟩
  · exact mapM_option_map (fun i _ => f1 i)
  · have := f6 i i64Max.toNat (fun e he => (hb i e he).2) e he
    have h0 : (0 : Int) ≤ i64Max := by decide
    omega
  · rcases h with h | h
    · exact .inl h
    · right
      have hs := srt_row h i
      unfold Srt at hs
      rw [List.map_map]
      rw [List.pairwise_map] at hs ⊢
      refine hs.imp_of_mem ?_
      intro x y hx hy hxy
      show i64ToUsize x.1 < i64ToUsize y.1
      have hx1 := Comp.WFU.row_bounds ha i x hx
      have hy1 := Comp.WFU.row_bounds ha i y hy
      rw [i64ToUsize_of_nonneg hx1.1 (Comp.WFU.row_i64 ha i x hx), i64ToUsize_of_nonneg hy1.1 (Comp.WFU.row_i64 ha i y hy)]
      omega
  · rw [f7 i hc (row_keys_nodup ha hd i) j hj]
    exact diffRowOpt_congr (fun k _ _ => total_row ha hd i k)

/-- Along the rows, in any arithmetic: sizes, order, no stored zeros; the entries if addition commutes. -/
theorem diff_csr_axis1_any {sort : List (Nat × V) → List (Nat × V)}
    (hsort : IsSort sort) {a r : Csr V} (ha : a.WFU) {n : Nat} (h : DiffCsrAxis1Run sort n a r) :
    r.nrows = a.nrows ∧ r.ncols = a.ncols - n ∧ r.WFU ∧ (0 < n ∨ a.WF → r.WF) ∧ r.comp.NoZeros ∧
      (8 * r.data.length : Int) ≤ i64Max ∧ (a.comp.NoRep → r.comp.NoRep) ∧
      ((∀ a b : V, a + b = b + a) → a.comp.NoRep →
        ∀ i j, i < a.nrows → j < a.ncols - n → r.stored i j = diffRowOpt n (a.stored i) j) := by
  unfold DiffCsrAxis1Run at h
  dsimp only at h
  split at h
  · rename_i h0
    subst h
    have hw : (Comp.ofRows (a.ncols - n) (List.replicate a.nrows ([] : List (Int × V)))).WF :=
      Comp.wf_ofRows (fun r hr => by
        obtain rfl := List.eq_of_mem_replicate hr
        exact ⟨by simp, by simp, by simp⟩)
    have he : Csr.comp (⟨a.nrows, a.ncols - n, List.replicate (a.nrows + 1) 0, [], []⟩ : Csr V) =
        Comp.ofRows (a.ncols - n) (List.replicate a.nrows ([] : List (Int × V))) := by
      unfold Comp.ofRows Csr.comp
      congr 1
      · simp
      · apply List.ext_getElem
        · simp
        · intro i h1 h2
          have := prefixPtr_getD ((List.replicate a.nrows ([] : List (Int × V))).map List.length) i (by simp at h1 ⊢; omega)
          rw [List.getD_eq_getElem?_getD, List.getElem?_eq_getElem h2, Option.getD_some] at this
          rw [this]
          simp
      · simp
      · simp
    refine ⟨rfl, rfl, ?_, fun _ => ?_, by simp [Comp.NoZeros, Csr.comp], ?_, fun _ => ?_, fun _ _ i j hi hj => by omega⟩
    · unfold Csr.WFU; rw [he]; exact hw.wfu
    · unfold Csr.WF; rw [he]; exact hw
    · show (8 * ((0 : Nat) : Int)) ≤ i64Max
      decide
    · rw [he]; exact hw.noRep
  · rename_i h0
    obtain ⟨outs, h1, hl, outs', h2, h3⟩ := h
    obtain ⟨f, f1, f2, f3, f4, f5, f6⟩ := diff_rows_any hsort ha (n := n) (by omega)
    rw [f1] at h1
    obtain rfl := Option.some.inj h1
    rw [mapM_colToI64 (fun l hl e he => by
      obtain ⟨i, -, rfl⟩ := List.mem_map.1 hl
      exact (f2 i e he).2)] at h2
    obtain rfl := Option.some.inj h2
    have hlen : ((List.range a.nrows).map f).map List.length =
        (((List.range a.nrows).map f).map fun l => l.map fun e => ((e.1 : Int), e.2)).map List.length := by
      simp [Function.comp_def]
    rw [hlen] at h3
    have hr := twoPassRun_eq _ _ _ h3
    have hr' : r.comp = Comp.ofRows (a.ncols - n)
        ((List.range a.nrows).map fun i => (f i).map fun e => ((e.1 : Int), e.2)) := by
      rw [hr, List.map_map]; rfl
    have hwfu : r.WFU := by
      unfold Csr.WFU
      rw [hr']
      apply Comp.wfu_ofRows
      intro l hl e he
      obtain ⟨i, -, rfl⟩ := List.mem_map.1 hl
      obtain ⟨x, hx, rfl⟩ := List.mem_map.1 he
      have := f2 i x hx
      exact ⟨by simp, by simp only; omega, this.2⟩
    have hrow : ∀ i, i < a.nrows → r.comp.row i = (f i).map fun e => ((e.1 : Int), e.2) := by
      intro i hi
      rw [hr', Comp.row_ofRows', if_pos hi]
    refine ⟨(congrArg Comp.n hr').trans (by simp [Comp.ofRows]), congrArg Comp.m hr', hwfu, fun hs => ?_, ?_, ?_,
      fun hd i => ?_, fun hc hd i j hi hj => ?_⟩
    · unfold Csr.WF
      rw [hr']
      apply Comp.wf_ofRows
      intro l hl
      obtain ⟨i, -, rfl⟩ := List.mem_map.1 hl
      refine ⟨?_, fun e he => ?_, fun e he => ?_⟩
      · have := f4 hs i
        rw [List.map_map]
        rw [List.pairwise_map] at this ⊢
        exact this.imp (fun {x y} h => by show (x.1 : Int) < y.1; omega)
      · obtain ⟨x, hx, rfl⟩ := List.mem_map.1 he
        have := f2 i x hx
        exact ⟨by simp, by simp only; omega⟩
      · obtain ⟨x, hx, rfl⟩ := List.mem_map.1 he
        exact (f2 i x hx).2
    · intro v hv
      rw [hr'] at hv
      simp only [Comp.ofRows, List.mem_map, List.mem_flatten] at hv
      obtain ⟨e, ⟨l, ⟨i, -, rfl⟩, he⟩, rfl⟩ := hv
      obtain ⟨x, hx, rfl⟩ := List.mem_map.1 he
      exact f3 i x hx
    · have e1 : r.data.length = (((List.range a.nrows).map f).map List.length).sum := by
        have := congrArg (fun c => c.data.length) hr'
        simp only [Comp.ofRows, List.length_map, List.length_flatten] at this
        rw [show r.data.length = r.comp.data.length from rfl, this]
        simp [Function.comp_def]
      rw [e1]; exact_mod_cast hl
    · rw [hr', Comp.row_ofRows']
      split
      · have := f5 hd i
        rw [List.map_map]
        unfold List.Nodup at this ⊢
        rw [List.pairwise_map] at this ⊢
        exact this.imp (fun {x y} h => by show (x.1 : Int) ≠ y.1; omega)
      · simp
    · show lk _ (r.comp.row i) = _
      rw [hrow i hi, lk_cast_total (f5 hd i), f6 hc hd i j hj]

theorem diff_csr_axis1_defined {sort : List (Nat × V) → List (Nat × V)}
    (hsort : IsSort sort) {a : Csr V} (ha : a.WFU) {n : Nat} (hs : 0 < n ∨ a.WF)
    (hm : (8 * (a.nrows * (a.ncols - n) : Nat) : Int) ≤ i64Max) :
    ∃ r, DiffCsrAxis1Run sort n a r := by
  unfold DiffCsrAxis1Run
  dsimp only
  split
  · exact ⟨_, rfl⟩
  · obtain ⟨f, f1, f2, f3, f4, f5, -⟩ := diff_rows_any hsort ha (n := n) (by omega)
    have hlen : ((List.range a.nrows).map f).map List.length =
        (((List.range a.nrows).map f).map fun l => l.map fun e => ((e.1 : Int), e.2)).map List.length := by
      simp [Function.comp_def]
    refine ⟨(Comp.ofRows (a.ncols - n) (((List.range a.nrows).map f).map fun l => l.map fun e => ((e.1 : Int), e.2))).toCsr,
      _, f1, ?_, _, mapM_colToI64 (fun l hl e he => by
      obtain ⟨i, -, rfl⟩ := List.mem_map.1 hl
      exact (f2 i e he).2), ?_⟩
    · have : (((List.range a.nrows).map f).map List.length).sum ≤ a.nrows * (a.ncols - n) := by
        have := List.sum_le_card_nsmul (((List.range a.nrows).map f).map List.length) (a.ncols - n) (fun x hx => by
          obtain ⟨l, hl, rfl⟩ := List.mem_map.1 hx
          obtain ⟨i, -, rfl⟩ := List.mem_map.1 hl
          exact noRep_of_sorted (f4 hs i) (fun e he => (f2 i e he).1))
        simpa using this
      omega
    · rw [hlen]
      exact ⟨_, _, .refl _, .refl _, (twoPass_eq _ _).symm⟩

/-- Down the columns, in any arithmetic. -/
theorem diff_csr_axis0_any {sort : List (Nat × V) → List (Nat × V)}
    (hsort : IsSort sort) {tsort : List (Int × V) → List (Int × V)} (ht : IsPairSort tsort) {threads : Nat}
    {a r : Csr V} (ha : a.WFU) (hd : a.comp.NoRep) (hf : a.comp.Fits) (hc : (a.ncols : Int) ≤ i64Max) {n : Nat}
    (h : DiffCsrAxis0Run sort tsort threads n a r) :
    r.nrows = a.nrows - n ∧ r.ncols = a.ncols ∧ (n = 0 → r = a) ∧ (0 < n → r.WF ∧ r.comp.NoZeros) ∧
      (r.data.length : Int) ≤ i64Max ∧
      ((∀ a b : V, a + b = b + a) → ∀ i j, i < a.nrows - n → j < a.ncols →
        r.stored i j = diffOpt n (fun k => a.stored k j) i) := by
  unfold DiffCsrAxis0Run at h
  split at h
  · rename_i h0
    subst h0 h
    exact ⟨rfl, rfl, fun _ => rfl, fun h => absurd h (by omega), hf.2, fun _ i j _ _ => rfl⟩
  · rename_i h0
    obtain ⟨t, td, h1, h2, h3⟩ := h
    obtain ⟨t1, t2, t3, -, t5, -⟩ := transpose_csr_sorts ha hd hf ht h1
    obtain ⟨d1, d2, -, d4, d5, d6, -, d8⟩ := diff_csr_axis1_any hsort (Comp.WF.wfu t1) h2
    have dw := d4 (.inl (by omega))
    obtain ⟨r1, r2, r3, r4, r5, -⟩ := transpose_csr_correct dw
      ⟨by show (td.nrows : Int) ≤ _; rw [d1, t2]; exact hc, by show (td.data.length : Int) ≤ _; omega⟩ ht h3
    refine ⟨by rw [r2, d2, t3], by rw [r3, d1, t2], fun h => absurd h h0, fun _ => ⟨r1, ?_⟩, by rw [r4]; omega,
      fun hcomm i j hi hj => ?_⟩
    · intro v hv
      obtain ⟨i, j, -, -, hs⟩ := Comp.WF.mem_data r1 hv
      have e : td.comp.stored j i = some v := by
        have := r5 j i
        rw [show r.stored i j = some v from hs] at this
        exact this.symm
      exact d5 v (Comp.mem_of_stored e)
    · rw [r5 j i, d8 hcomm (Comp.WF.noRep t1) j i (by omega) (by omega), diffRowOpt, if_neg h0]
      exact diffOpt_congr n (fun k _ _ => t5 k j)

theorem diff_csr_axis0_defined {sort : List (Nat × V) → List (Nat × V)}
    (hsort : IsSort sort) {tsort : List (Int × V) → List (Int × V)} (ht : IsPairSort tsort) (threads : Nat)
    {a : Csr V} (ha : a.WFU) (hd : a.comp.NoRep) (hf : a.comp.Fits) (hc : (a.ncols : Int) ≤ i64Max) {n : Nat}
    (hm : (8 * ((a.nrows - n) * a.ncols : Nat) : Int) ≤ i64Max) :
    ∃ r, DiffCsrAxis0Run sort tsort threads n a r := by
  unfold DiffCsrAxis0Run
  split
  · exact ⟨a, rfl⟩
  · obtain ⟨t, h1⟩ := transpose_csr_unsorted_exists ha hd hf ht threads
    obtain ⟨t1, t2, t3, -, -, -⟩ := transpose_csr_sorts ha hd hf ht h1
    obtain ⟨td, h2⟩ := diff_csr_axis1_defined hsort (Comp.WF.wfu t1) (n := n) (.inr t1)
      (by rw [t2, t3, Nat.mul_comm]; exact hm)
    obtain ⟨d1, d2, -, d4, d5, d6, -⟩ := diff_csr_axis1_any hsort (Comp.WF.wfu t1) h2
    obtain ⟨r, hr⟩ := transpose_csr_exists (d4 (.inr t1))
      ⟨by show (td.nrows : Int) ≤ _; rw [d1, t2]; exact hc, by show (td.data.length : Int) ≤ _; omega⟩ ht threads
    exact ⟨r, t, td, h1, h2, hr⟩

/-! ### CSC -/

omit [BEq V] [Zero V] [Add V] [Neg V] in
theorem tcomp_noRep_of {a : Comp V} (hw : a.WFU) (hd : a.NoRep) {sched : List (Nat × (Int × V))} (hs : Interleaving a sched)
    (hf : a.Fits) : (tcomp a sched).NoRep := by
  intro j
  rw [List.nodup_iff_count_le_one]
  intro k
  by_cases hk : k ∈ ((tcomp a sched).row j).map Prod.fst
  · obtain ⟨e, he, rfl⟩ := List.mem_map.1 hk
    have hb := (tcomp_wfu hs hf).row_bounds j e he
    obtain ⟨i, hi⟩ : ∃ i : Nat, e.1 = i := ⟨e.1.toNat, by omega⟩
    rw [hi]
    have h1 := congrArg List.length (tcomp_filter hw hs hf i j)
    rw [List.length_map, List.length_map] at h1
    rw [List.count_eq_length_filter, List.filter_map, List.length_map]
    have h2 : (((tcomp a sched).row j).filter ((fun x : Int => x == (i : Int)) ∘ Prod.fst)).length =
        (((tcomp a sched).row j).filter fun e => e.1 == (i : Int)).length := rfl
    rw [h2, h1]
    have h3 := List.nodup_iff_count_le_one.1 (hd i) (j : Int)
    rw [List.count_eq_length_filter, List.filter_map, List.length_map] at h3
    exact h3
  · rw [List.count_eq_zero_of_not_mem hk]; omega

omit [BEq V] [Add V] [Neg V] in
theorem csr_to_csc_noRep {a : Csr V} {c : Csc V} (hw : a.WFU) (hd : a.comp.NoRep) (hf : a.comp.Fits) (h : CsrToCscRun a c) :
    c.comp.NoRep := by
  obtain ⟨sched, hs, e⟩ := atomicFill_eq hw hf h
  rw [e]; exact tcomp_noRep_of hw hd hs hf

/-- CSC along the rows, in any arithmetic. -/
theorem diff_csc_axis1_any {sort : List (Nat × V) → List (Nat × V)}
    (hsort : IsSort sort) {a : Csc V} (ha : a.WF) (hf : a.comp.Fits) (hr : (a.nrows : Int) ≤ i64Max) {n : Nat}
    {r : Csc V} (h : DiffCscAxis1Run sort n a r) :
    r.nrows = a.nrows ∧ r.ncols = a.ncols - n ∧ r.WFU ∧ r.comp.NoRep ∧ (8 * r.data.length : Int) ≤ i64Max ∧
      ((∀ a b : V, a + b = b + a) →
        ∀ i j, i < a.nrows → j < a.ncols - n → r.stored i j = diffRowOpt n (a.stored i) j) := by
  obtain ⟨c, b, h1, h2, h3⟩ := h
  obtain ⟨c1, c2, c3, c4, c5, -⟩ := csc_to_csr_correct (Comp.WF.wfu ha) hf h1
  have cn := csc_to_csr_noRep ha hf h1
  obtain ⟨d1, d2, d3, -, -, d6, d7, d8⟩ := diff_csr_axis1_any hsort c4 h2
  have bf : b.comp.Fits :=
    ⟨by show (b.nrows : Int) ≤ _; rw [d1, c1]; exact hr, by show (b.data.length : Int) ≤ _; omega⟩
  obtain ⟨r1, r2, r3, r4, r5, -⟩ := csr_to_csc_correct d3 bf h3
  refine ⟨by rw [r1, d1, c1], by rw [r2, d2, c2], r4, csr_to_csc_noRep d3 (d7 cn) bf h3, by rw [r3]; exact d6,
    fun hcomm i j hi hj => ?_⟩
  rw [r5, d8 hcomm cn i j (by omega) (by omega)]
  exact diffRowOpt_congr (fun k _ _ => c5 i k)

/-- CSC down the columns, in any arithmetic. -/
theorem diff_csc_axis0_any {sort : List (Nat × V) → List (Nat × V)}
    (hsort : IsSort sort) {tsort : List (Int × V) → List (Int × V)} (ht : IsPairSort tsort) {threads : Nat}
    {a : Csc V} (ha : a.WF) (hf : a.comp.Fits) (hr : (a.nrows : Int) ≤ i64Max) {n : Nat}
    {r : Csc V} (h : DiffCscAxis0Run sort tsort threads n a r) :
    r.nrows = a.nrows - n ∧ r.ncols = a.ncols ∧ r.WFU ∧ r.comp.NoRep ∧
      ((∀ a b : V, a + b = b + a) →
        ∀ i j, i < a.nrows - n → j < a.ncols → r.stored i j = diffOpt n (fun k => a.stored k j) i) := by
  obtain ⟨c, b, h1, h2, h3⟩ := h
  obtain ⟨c1, c2, c3, c4, c5, -⟩ := csc_to_csr_correct (Comp.WF.wfu ha) hf h1
  have cn := csc_to_csr_noRep ha hf h1
  obtain ⟨d1, d2, d3, d4, d5, d7⟩ := diff_csr_axis0_any hsort ht c4 cn
    ⟨by show (c.nrows : Int) ≤ _; rw [c1]; exact hr, by show (c.data.length : Int) ≤ _; rw [c3]; exact hf.2⟩
    (by rw [c2]; exact hf.1) h2
  have hw : b.WFU ∧ b.comp.NoRep := by
    by_cases h0 : n = 0
    · rw [d3 h0]; exact ⟨c4, cn⟩
    · have := (d4 (by omega)).1
      exact ⟨Comp.WF.wfu this, Comp.WF.noRep this⟩
  have bf : b.comp.Fits := ⟨by show (b.nrows : Int) ≤ _; rw [d1, c1]; omega, d5⟩
  obtain ⟨r1, r2, r3, r4, r5, -⟩ := csr_to_csc_correct hw.1 bf h3
  refine ⟨by rw [r1, d1, c1], by rw [r2, d2, c2], r4, csr_to_csc_noRep hw.1 hw.2 bf h3, fun hcomm i j hi hj => ?_⟩
  rw [r5, d7 hcomm i j (by omega) (by omega)]
  exact diffOpt_congr n (fun k _ _ => c5 k j)

theorem diff_csc_defined {sort : List (Nat × V) → List (Nat × V)}
    (hsort : IsSort sort) {tsort : List (Int × V) → List (Int × V)} (ht : IsPairSort tsort) (threads : Nat)
    {a : Csc V} (ha : a.WF) (hf : a.comp.Fits) (hr : (a.nrows : Int) ≤ i64Max) {n : Nat} :
    ((8 * (a.nrows * (a.ncols - n) : Nat) : Int) ≤ i64Max → ∃ r, DiffCscAxis1Run sort n a r ∧ r.WF) ∧
    ((8 * ((a.nrows - n) * a.ncols : Nat) : Int) ≤ i64Max → ∃ r, DiffCscAxis0Run sort tsort threads n a r ∧ r.WF) := by
  obtain ⟨c, hc, hcw⟩ := csc_to_csr_sequential_wf ha hf
  obtain ⟨c1, c2, c3, c4, -, -⟩ := csc_to_csr_correct (Comp.WF.wfu ha) hf hc
  have hfc : c.comp.Fits :=
    ⟨by show (c.nrows : Int) ≤ _; rw [c1]; exact hr, by show (c.data.length : Int) ≤ _; rw [c3]; exact hf.2⟩
  have hcc : (c.ncols : Int) ≤ i64Max := by rw [c2]; exact hf.1
  constructor
  · intro hm
    obtain ⟨b, hb⟩ := diff_csr_axis1_defined hsort c4 (n := n) (.inr hcw) (by rw [c1, c2]; exact hm)
    obtain ⟨d1, d2, d3, d4, -, d6, -⟩ := diff_csr_axis1_any hsort c4 hb
    obtain ⟨r, h1, h2⟩ := csr_to_csc_sequential_wf (d4 (.inr hcw))
      ⟨by show (b.nrows : Int) ≤ _; rw [d1, c1]; exact hr, by show (b.data.length : Int) ≤ _; omega⟩
    exact ⟨r, ⟨c, b, hc, hb, h1⟩, h2⟩
  · intro hm
    obtain ⟨b, hb⟩ := diff_csr_axis0_defined hsort ht threads c4 (Comp.WF.noRep hcw) hfc hcc (n := n)
      (by rw [c1, c2]; exact hm)
    obtain ⟨d1, d2, d3, d4, d5, -⟩ := diff_csr_axis0_any hsort ht c4 (Comp.WF.noRep hcw) hfc hcc hb
    have hw : b.WF := by
      by_cases h0 : n = 0
      · rw [d3 h0]; exact hcw
      · exact (d4 (by omega)).1
    obtain ⟨r, h1, h2⟩ := csr_to_csc_sequential_wf hw
      ⟨by show (b.nrows : Int) ≤ _; rw [d1, c1]; omega, d5⟩
    exact ⟨r, ⟨c, b, hc, hb, h1⟩, h2⟩

end
end Lacuna
