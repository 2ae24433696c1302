import Verif.Lemmas.PyIndex
/-
C43: the model of NumPy's subscripts, slices and assignments (Model/PyIndex) against their documentation, for all integers.
-/
namespace Lacuna
universe u
variable {V : Type u}

/-- The subscript `i` of an axis of length `len` denotes position `p` if and only if `p` is a position and `i` is `p` or `p - len`. -/
theorem pyPos_doc (len : Nat) (i : Int) (p : Nat) : pyPos len i = some p ↔ p < len ∧ (i = p ∨ i = p - len) := by
  unfold pyPos
  split
  · split
    · rw [Option.some.injEq]; omega
    · simp only [reduceCtorEq, false_iff]; omega
  · split
    · rw [Option.some.injEq]; omega
    · simp only [reduceCtorEq, false_iff]; omega

/-- Slices as Python documents them: ends below zero count from the end, `l[s:e]` holds the elements from `s` (at least 0) on whose
index is less than `e`. -/
theorem pySlice_doc {α : Type u} (l : List α) (s e : Int) (k : Nat) :
    let from_end := fun i : Int => if i < 0 then i + l.length else i
    (pySlice l s e)[k]? = if max (from_end s) 0 + k < from_end e then l[(max (from_end s) 0).toNat + k]? else none := by
  intro g
  unfold pySlice
  rw [List.getElem?_take, List.getElem?_drop]
  have hg : ∀ i, g i = if i < 0 then i + l.length else i := fun _ => rfl
  have hc : ∀ i, (pyClamp l.length i : Int) = min (max (g i) 0) l.length := by
    intro i
    rw [hg]
    unfold pyClamp
    split <;> omega
  have hs := hc s
  have he := hc e
  generalize g s = a at *
  generalize g e = b at *
  by_cases h1 : (max a 0 : Int) ≤ l.length
  · have : pyClamp l.length s = (max a 0).toNat := by omega
    rw [this]
    by_cases h2 : k < pyClamp l.length e - (max a 0).toNat
    · rw [if_pos h2, if_pos (by omega)]
    · rw [if_neg h2]
      split
      · exact (List.getElem?_eq_none (by omega)).symm
      · rfl
  · rw [if_neg (by omega)]
    split
    · exact (List.getElem?_eq_none (by omega)).symm
    · rfl
theorem mapM_id_none {α : Type u} (ps : List (Option α)) : ps.mapM id = none ↔ none ∈ ps := by
  induction ps with
  | nil => simp
  | cons p ps ih =>
    cases p with
    | none => simp [List.mapM_cons]
    | some p =>
      rw [List.mapM_cons]
      cases h : ps.mapM id with
      | none => simp [ih.1 h]
      | some qs =>
        have : none ∉ ps := fun hm => by rw [ih.2 hm] at h; cases h
        simp [this]

theorem mapM_id_length {α : Type u} {ps : List (Option α)} {qs : List α} (h : ps.mapM id = some qs) : qs.map some = ps := by
  induction ps generalizing qs with
  | nil => cases h; rfl
  | cons p ps ih =>
    cases p with
    | none => simp [List.mapM_cons] at h
    | some p =>
      rw [List.mapM_cons] at h
      cases h' : ps.mapM id with
      | none => simp [h'] at h
      | some rs =>
        simp [h'] at h
        rw [← h, List.map_cons, ih h']

/-- When NumPy refuses `out[ps] = vals`: with an `IndexError` if and only if a subscript is out of range, otherwise with a `ValueError` if
and only if the numbers of subscripts and values differ and there is not one value for all. -/
theorem assignAt_error (out : List V) (ps : List (Option Nat)) (vals : List V) :
    (assignAt out ps vals = .error .indexError ↔ none ∈ ps) ∧
    (assignAt out ps vals = .error .valueError ↔ none ∉ ps ∧ vals.length ≠ ps.length ∧ vals.length ≠ 1) := by
  unfold assignAt
  cases h : ps.mapM id with
  | none => simp [(mapM_id_none ps).1 h]
  | some qs =>
    have hn : none ∉ ps := fun hm => by rw [(mapM_id_none ps).2 hm] at h; cases h
    have hl : qs.length = ps.length := by rw [← mapM_id_length h, List.length_map]
    simp only [hl, hn, not_false_eq_true, true_and, iff_false]
    by_cases h1 : vals.length = ps.length
    · simp [h1]
    · simp only [h1, if_false]
      match vals with
      | [] => simp_all
      | [v] => simp
      | _ :: _ :: _ => simp_all

theorem applyWrites_skip {α : Type u} (ws : List (Nat × α)) {q : Nat} (h : ∀ w ∈ ws, w.1 ≠ q) (buf : List α) :
    (applyWrites buf ws)[q]? = buf[q]? := by
  induction ws generalizing buf with
  | nil => rfl
  | cons w ws ih =>
    show (applyWrites (buf.set w.1 w.2) ws)[q]? = _
    rw [ih (fun x hx => h x (List.mem_cons_of_mem _ hx)), List.getElem?_set_ne (h w List.mem_cons_self)]

theorem applyWrites_final {α : Type u} (ws : List (Nat × α)) {q k : Nat} {v : α} (hk : ws[k]? = some (q, v))
    (h : ∀ k', k < k' → ∀ w, ws[k']? = some w → w.1 ≠ q) (buf : List α) (hq : q < buf.length) :
    (applyWrites buf ws)[q]? = some v := by
  induction ws generalizing buf k with
  | nil => simp at hk
  | cons w ws ih =>
    show (applyWrites (buf.set w.1 w.2) ws)[q]? = _
    cases k with
    | zero =>
      simp only [List.getElem?_cons_zero, Option.some.injEq] at hk
      subst hk
      rw [applyWrites_skip ws, List.getElem?_set_self hq]
      intro w hw
      obtain ⟨j, hj⟩ := List.mem_iff_getElem?.1 hw
      exact h (j + 1) (by omega) w (by simpa using hj)
    | succ k =>
      refine ih (k := k) (by simpa using hk) (fun k' hk' w' hw' => h (k' + 1) (by omega) w' (by simpa using hw')) _ (by simpa using hq)

/-- What `out[ps] = vals` leaves behind when it is not refused: an array of the same length, with the old element at every position that
is not among the subscripts and the last of the assigned values at the others; one value is repeated. -/
theorem assignAt_value {out : List V} {ps : List (Option Nat)} {vals out' : List V} (h : assignAt out ps vals = .ok out') :
    out'.length = out.length ∧ ∀ q < out.length,
      (some q ∉ ps → out'[q]? = out[q]?) ∧
      ∀ k : Nat, ps[k]? = some (some q) → (∀ k' : Nat, k < k' → ps[k']? ≠ some (some q)) →
        out'[q]? = if vals.length = ps.length then vals[k]? else vals[0]? := by
  unfold assignAt at h
  cases hm : ps.mapM id with
  | none => simp [hm] at h
  | some qs =>
    have hps := mapM_id_length hm
    subst hps
    rw [hm] at h
    simp only [List.length_map] at h ⊢
    have hget : ∀ k q : Nat, (qs.map some)[k]? = some (some q) ↔ qs[k]? = some q := by
      intro k q; rw [List.getElem?_map]; cases qs[k]? <;> simp
    by_cases h1 : vals.length = qs.length
    · rw [if_pos h1] at h
      cases h
      refine ⟨applyWrites_length _ _, fun q hq => ⟨fun hn => applyWrites_skip _ (fun w hw e => hn ?_) _, fun k hk hl => ?_⟩⟩
      · subst e
        exact List.mem_map.2 ⟨_, (List.of_mem_zip hw).1, rfl⟩
      · rw [if_pos h1]
        rw [hget] at hk
        obtain ⟨hk1, hk2⟩ := List.getElem?_eq_some_iff.1 hk
        rw [List.getElem?_eq_getElem (by omega : k < vals.length)]
        refine applyWrites_final _ (k := k) ?_ (fun k' hk' w hw e => hl k' hk' ?_) _ hq
        · rw [List.getElem?_zip_eq_some]
          exact ⟨hk, List.getElem?_eq_getElem _⟩
        · obtain ⟨a, b⟩ := w
          rw [List.getElem?_zip_eq_some] at hw
          rw [hget, hw.1]; exact congrArg some e
    · rw [if_neg h1] at h
      match vals, h1, h with
      | [v], h1, h =>
        cases h
        refine ⟨applyWrites_length _ _, fun q hq => ⟨fun hn => applyWrites_skip _ (fun w hw e => hn ?_) _, fun k hk hl => ?_⟩⟩
        · obtain ⟨p, hp, rfl⟩ := List.mem_map.1 hw
          exact List.mem_map.2 ⟨p, hp, congrArg some e⟩
        · rw [if_neg h1]
          rw [hget] at hk
          refine applyWrites_final _ (k := k) ?_ (fun k' hk' w hw e => hl k' hk' ?_) _ hq
          · rw [List.getElem?_map, hk]; rfl
          · rw [List.getElem?_map] at hw
            rw [hget]
            cases hq' : qs[k']? with
            | none => simp [hq'] at hw
            | some p => simp [hq'] at hw; subst hw; exact congrArg some e

/-! ### examples -/

example : pyPos 5 (-5) = some 0 := (pyPos_doc 5 (-5) 0).2 (by decide)
/-- `[3, 1, 4, 1, 5][-3:-1]` is `[4, 1]`. -/
example : (pySlice [3, 1, 4, 1, 5] (-3) (-1))[1]? = some 1 := by rw [pySlice_doc]; decide
/-- Two values for three subscripts are refused. -/
example : assignAt [0, 0, 0] [some 0, some 2, some 0] [7, 8] = .error .valueError := (assignAt_error _ _ _).2.2 (by decide)
/-- Position 0 is assigned twice. -/
example : assignAt [0, 0, 0] [some 0, some 2, some 0] [7, 8, 9] = .ok [9, 0, 8] ∧ ([9, 0, 8] : List Nat)[0]? = some 9 :=
  ⟨rfl, ((assignAt_value (ps := [some 0, some 2, some 0]) (vals := [7, 8, 9]) (out := [0, 0, 0]) (out' := [9, 0, 8]) rfl).2 0
    (by decide)).2 2 rfl (by intro k' h; match k', h with | k + 3, _ => simp)⟩

end Lacuna
