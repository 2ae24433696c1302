import Verif.Model.Diff
import Verif.Spec.Diff
import Verif.Lemmas.Accum
import Verif.Lemmas.Cumulative
import Mathlib.Algebra.Group.Basic
import Mathlib.Tactic.Abel
/-
Closed forms of the difference kernels.
-/
namespace Lacuna
universe u
variable {V : Type u}

/-- What `acc`, `last_c` produce from the remaining sorted pairs. -/
def mergeRun [BEq V] [Zero V] [Add V] (c : Nat) (acc : V) : List (Nat × V) → List (Nat × V)
  | [] => if acc != 0 then [(c, acc)] else []
  | e :: ts => if e.1 == c then mergeRun c (acc + e.2) ts
      else (if acc != 0 then [(c, acc)] else []) ++ mergeRun e.1 e.2 ts

theorem set_front {α : Type*} (out : List α) (x y : α) (l : List α) :
    (out ++ x :: l).set out.length y = (out ++ [y]) ++ l := by
  simp

theorem merge_loop [BEq V] [Zero V] [Add V] (ts : List (Nat × V)) : ∀ (out mid : List (Nat × V)) (c : Nat) (acc : V),
    mid ≠ [] → (((List.range' (out.length + mid.length) ts.length).foldlM MergeSt.step
        ⟨out ++ mid ++ ts, out.length, c, acc⟩).bind fun s => s.emit.map fun s => s.buf.take s.w) =
      some (out ++ mergeRun c acc ts) := by
  induction ts with
  | nil =>
    intro out mid c acc hm
    obtain ⟨x, mid, rfl⟩ := List.exists_cons_of_ne_nil hm
    simp only [List.length_nil, List.range'_zero, List.foldlM_nil, Option.pure_def, Option.bind_some, MergeSt.emit,
      mergeRun, List.append_nil]
    split
    · rw [setAt?, if_pos (by simp), set_front]
      simp [List.take_append]
    · simp
  | cons e ts ih =>
    intro out mid c acc hm
    rw [List.length_cons, List.range'_succ, List.foldlM_cons]
    have hget : (out ++ mid ++ e :: ts)[out.length + mid.length]? = some e := by
      rw [List.getElem?_append_right (by simp)]; simp
    have hst : MergeSt.step ⟨out ++ mid ++ e :: ts, out.length, c, acc⟩ (out.length + mid.length) =
        (if e.1 == c then some ⟨out ++ mid ++ e :: ts, out.length, c, acc + e.2⟩
          else (MergeSt.emit ⟨out ++ mid ++ e :: ts, out.length, c, acc⟩).map fun s => { s with lastC := e.1, acc := e.2 }) := by
      unfold MergeSt.step
      simp only [hget, Option.bind_some]
    rw [hst]
    have hmv : out ++ mid ++ e :: ts = out ++ (mid ++ [e]) ++ ts := by simp
    have hlen : out.length + mid.length + 1 = out.length + (mid ++ [e]).length := by simp; omega
    by_cases hc : (e.1 == c) = true
    · rw [if_pos hc, mergeRun, if_pos hc, hmv, hlen]
      exact ih out (mid ++ [e]) c (acc + e.2) (by simp)
    · rw [if_neg hc, mergeRun, if_neg hc]
      unfold MergeSt.emit
      dsimp only
      by_cases ha : (acc != 0) = true
      · obtain ⟨x, mid, rfl⟩ := List.exists_cons_of_ne_nil hm
        rw [if_pos ha, if_pos ha, setAt?, if_pos (by simp)]
        have hset : (out ++ (x :: mid) ++ e :: ts).set out.length (c, acc) = (out ++ [(c, acc)]) ++ (mid ++ [e]) ++ ts := by
          rw [List.append_assoc, List.cons_append, set_front]; simp
        rw [hset]
        have := ih (out ++ [(c, acc)]) (mid ++ [e]) e.1 e.2 (by simp)
        simp only [List.length_append, List.length_cons, List.length_nil, List.append_assoc] at this ⊢
        simp only [Option.map_some]
        rw [← this, show out.length + (mid.length + 1) + 1 = out.length + (0 + 1) + (mid.length + (0 + 1)) by omega]
        rfl
      · rw [if_neg ha, if_neg ha, hmv, hlen]
        exact ih out (mid ++ [e]) e.1 e.2 (by simp)

/-- The merge keeps everything in place: it is the functional merge of the sorted pairs. -/
theorem combinePairs_eq [BEq V] [Zero V] [Add V] {sort : List (Nat × V) → List (Nat × V)} (hsort : IsSort sort)
    {pairs : List (Nat × V)} (hp : pairs ≠ []) :
    ∃ e ts, sort pairs = e :: ts ∧ combinePairs sort pairs = some (mergeRun e.1 e.2 ts) := by
  have hne : sort pairs ≠ [] := fun h => hp (by have := (hsort pairs).1; rw [h] at this; exact this.symm.eq_nil)
  obtain ⟨e, ts, he⟩ := List.exists_cons_of_ne_nil hne
  refine ⟨e, ts, he, ?_⟩
  unfold combinePairs
  rw [if_neg (by simpa using hp)]
  simp only [he, List.getElem?_cons_zero, Option.bind_some, List.length_cons, Nat.add_sub_cancel]
  exact merge_loop ts [] [e] e.1 e.2 (by simp)

/-- What the merge of sorted pairs looks like. -/
theorem mergeRun_spec [BEq V] [LawfulBEq V] [AddCommMonoid V] (ts : List (Nat × V)) : ∀ (c : Nat) (acc : V),
    (∀ e ∈ ts, c ≤ e.1) → ts.Pairwise (fun x y => x.1 ≤ y.1) →
    ((mergeRun c acc ts).map Prod.fst).Pairwise (· < ·) ∧ (∀ e ∈ mergeRun c acc ts, e.2 ≠ 0) ∧
      (∀ e ∈ mergeRun c acc ts, e.1 = c ∨ ∃ e' ∈ ts, e'.1 = e.1) ∧
      ∀ j, ksum (mergeRun c acc ts) j = (if c = j then acc else 0) + ksum ts j := by
  have single : ∀ (c : Nat) (acc : V), ∀ j, ksum (if acc != 0 then [(c, acc)] else []) j = if c = j then acc else 0 := by
    intro c acc j
    split
    · rw [ksum_cons, ksum_nil, add_zero]
    · rename_i h
      have : acc = 0 := by simpa using h
      simp [this, ksum_nil]
  induction ts with
  | nil =>
    intro c acc _ _
    unfold mergeRun
    refine ⟨by split <;> simp, ?_, ?_, fun j => by rw [single, ksum_nil, add_zero]⟩
    · intro e he
      split at he
      · rename_i h; simp at he h; subst he; exact h
      · simp at he
    · intro e he
      split at he
      · simp at he; left; rw [he]
      · simp at he
  | cons e ts ih =>
    intro c acc hle hs
    have hs' := List.pairwise_cons.1 hs
    by_cases hc : (e.1 == c) = true
    · have hce : e.1 = c := by simpa using hc
      rw [mergeRun, if_pos hc]
      obtain ⟨i1, i2, i3, i4⟩ := ih c (acc + e.2) (fun x hx => hle x (by simp [hx])) hs'.2
      refine ⟨i1, i2, fun x hx => ?_, fun j => ?_⟩
      · rcases i3 x hx with h | ⟨y, hy, h⟩
        · exact .inl h
        · exact .inr ⟨y, by simp [hy], h⟩
      · rw [i4, ksum_cons, hce]
        split
        · rw [add_assoc]
        · simp
    · have hce : e.1 ≠ c := by simpa using hc
      have hlt : c < e.1 := lt_of_le_of_ne (hle e (by simp)) (Ne.symm hce)
      rw [mergeRun, if_neg hc]
      obtain ⟨i1, i2, i3, i4⟩ := ih e.1 e.2 (fun x hx => hs'.1 x hx) hs'.2
      have hge : ∀ x ∈ mergeRun e.1 e.2 ts, e.1 ≤ x.1 := by
        intro x hx
        rcases i3 x hx with h | ⟨y, hy, h⟩
        · omega
        · have := hs'.1 y hy; omega
      refine ⟨?_, ?_, ?_, ?_⟩
      · rw [List.map_append, List.pairwise_append]
        refine ⟨by split <;> simp, i1, fun x hx y hy => ?_⟩
        obtain ⟨z, hz, rfl⟩ := List.mem_map.1 hy
        have := hge z hz
        split at hx
        · simp at hx; omega
        · simp at hx
      · intro x hx
        rcases List.mem_append.1 hx with hx | hx
        · split at hx
          · rename_i h; simp at hx h; subst hx; exact h
          · simp at hx
        · exact i2 x hx
      · intro x hx
        rcases List.mem_append.1 hx with hx | hx
        · split at hx
          · simp at hx; left; rw [hx]
          · simp at hx
        · rcases i3 x hx with h | ⟨y, hy, h⟩
          · exact .inr ⟨e, by simp, h.symm⟩
          · exact .inr ⟨y, by simp [hy], h⟩
      · intro j
        rw [ksum_append, single, i4, ksum_cons]

/-- What a computed row satisfies: strictly sorted, below the width, without zeros. -/
def PairsOk [Zero V] (w : Nat) (l : List (Nat × V)) : Prop :=
  (l.map Prod.fst).Pairwise (· < ·) ∧ (∀ e ∈ l, e.1 < w) ∧ ∀ e ∈ l, e.2 ≠ 0

theorem combinePairs_spec [BEq V] [LawfulBEq V] [AddCommMonoid V] {sort : List (Nat × V) → List (Nat × V)}
    (hsort : IsSort sort) (pairs : List (Nat × V)) {w : Nat} (hw : ∀ e ∈ pairs, e.1 < w) :
    ∃ out, combinePairs sort pairs = some out ∧ PairsOk w out ∧ (∀ j, ksum out j = ksum pairs j) ∧
      ∀ e ∈ out, ∃ e' ∈ pairs, e'.1 = e.1 := by
  by_cases hp : pairs = []
  · subst hp
    exact ⟨[], rfl, ⟨by simp, by simp, by simp⟩, fun _ => rfl, by simp⟩
  obtain ⟨e, ts, he, h⟩ := combinePairs_eq hsort hp
  obtain ⟨hperm, hs⟩ := hsort pairs
  rw [he] at hperm hs
  have hs' := List.pairwise_cons.1 hs
  obtain ⟨i1, i2, i3, i4⟩ := mergeRun_spec ts e.1 e.2 (fun x hx => hs'.1 x hx) hs'.2
  refine ⟨_, h, ⟨i1, fun x hx => ?_, i2⟩, fun j => ?_, fun x hx => ?_⟩
  · rcases i3 x hx with h | ⟨y, hy, h⟩
    · rw [h]; exact hw e (hperm.mem_iff.1 (by simp))
    · rw [← h]; exact hw y (hperm.mem_iff.1 (by simp [hy]))
  · rw [i4, ← ksum_perm hperm, ksum_cons]
  · rcases i3 x hx with h | ⟨y, hy, h⟩
    · exact ⟨e, hperm.mem_iff.1 (by simp), h.symm⟩
    · exact ⟨y, hperm.mem_iff.1 (by simp [hy]), h⟩

theorem ksum_diffExpand [AddCommGroup V] {w : Nat} {cur : List (Nat × V)} (hc : ∀ e ∈ cur, e.1 < w) {j : Nat}
    (hj : j + 1 < w) : ksum (diffExpand (w - 1) cur) j = ksum cur (j + 1) - ksum cur j := by
  unfold diffExpand
  induction cur with
  | nil => simp [ksum_nil]
  | cons e cur ih =>
    rw [List.flatMap_cons, ksum_append, ih (fun x hx => hc x (by simp [hx])), ksum_cons, ksum_cons, ksum_append]
    have he := hc e (by simp)
    have h1 : ksum (if e.1 < w - 1 then [(e.1, -e.2)] else []) j = if e.1 = j then -e.2 else 0 := by
      split
      · rw [ksum_cons, ksum_nil, add_zero]
      · rw [if_neg (by omega), ksum_nil]
    have h2 : ksum (if e.1 ≥ 1 then [(e.1 - 1, e.2)] else []) j = if e.1 = j + 1 then e.2 else 0 := by
      split
      · rw [ksum_cons, ksum_nil, add_zero]
        by_cases h : e.1 = j + 1
        · rw [if_pos h]; exact if_pos (by simp [h])
        · rw [if_neg h]; exact if_neg (by simp only; omega)
      · rw [if_neg (by omega), ksum_nil]
    rw [h1, h2]
    by_cases ha : e.1 = j
    · simp only [if_pos ha, if_neg (show ¬ e.1 = j + 1 by omega)]; abel
    · simp only [if_neg ha]; abel

theorem diffExpand_lt [Neg V] {w : Nat} {cur : List (Nat × V)} (hc : ∀ e ∈ cur, e.1 < w) :
    ∀ e ∈ diffExpand (w - 1) cur, e.1 < w - 1 := by
  intro e he
  obtain ⟨x, hx, hex⟩ := List.mem_flatMap.1 he
  have := hc x hx
  rcases List.mem_append.1 hex with h | h
  · split at h
    · rename_i hlt; simp at h; subst h; exact hlt
    · simp at h
  · split at h
    · rename_i hlt; simp at h; subst h; simp only; omega
    · simp at h

theorem diffExpand_le [Neg V] {l B : Nat} {cur : List (Nat × V)} (hc : ∀ e ∈ cur, e.1 ≤ B) :
    ∀ e ∈ diffExpand l cur, e.1 ≤ B := by
  intro e he
  obtain ⟨x, hx, hex⟩ := List.mem_flatMap.1 he
  have := hc x hx
  rcases List.mem_append.1 hex with h | h
  · split at h
    · simp at h; subst h; exact this
    · simp at h
  · split at h
    · simp at h; subst h; simp only; omega
    · simp at h

theorem diffN_congr [Sub V] (n : Nat) : ∀ {f g : Nat → V} {j : Nat}, (∀ k, j ≤ k → k ≤ j + n → f k = g k) →
    diffN n f j = diffN n g j := by
  induction n with
  | zero => intro f g j h; exact h j le_rfl le_rfl
  | succ n ih =>
    intro f g j h
    exact ih (fun k h1 h2 => by rw [h k (by omega) (by omega), h (k + 1) (by omega) (by omega)])

theorem diffN_zero [AddGroup V] (n : Nat) : ∀ {f : Nat → V} {j : Nat}, (∀ k, j ≤ k → k ≤ j + n → f k = 0) →
    diffN n f j = 0 := by
  induction n with
  | zero => intro f j h; exact h j le_rfl le_rfl
  | succ n ih =>
    intro f j h
    exact ih (fun k h1 h2 => by rw [h k (by omega) (by omega), h (k + 1) (by omega) (by omega), sub_zero])

/-- The repeated difference of a row. -/
theorem diffRowLoop_spec [BEq V] [LawfulBEq V] [AddCommGroup V] {sort : List (Nat × V) → List (Nat × V)}
    (hsort : IsSort sort) (n : Nat) : ∀ (cur : List (Nat × V)) (w : Nat), 0 < n → n < w → (∀ e ∈ cur, e.1 < w) →
    ∃ out, diffRowLoop sort n cur w = some out ∧ PairsOk (w - n) out ∧
      (∀ j, j < w - n → ksum out j = diffN n (ksum cur) j) ∧
      ∀ B, (∀ e ∈ cur, e.1 ≤ B) → ∀ e ∈ out, e.1 ≤ B := by
  induction n with
  | zero => intro _ _ h; omega
  | succ n ih =>
    intro cur w _ hn hc
    rw [diffRowLoop, if_neg (by omega)]
    obtain ⟨next, h1, h2, h3, h4⟩ := combinePairs_spec hsort (diffExpand (w - 1) cur) (diffExpand_lt hc)
    rw [h1, Option.bind_some]
    have hk : ∀ j, j + 1 < w → ksum next j = ksum cur (j + 1) - ksum cur j :=
      fun j hj => by rw [h3, ksum_diffExpand hc hj]
    have hB : ∀ B, (∀ e ∈ cur, e.1 ≤ B) → ∀ e ∈ next, e.1 ≤ B := by
      intro B hb e he
      obtain ⟨e', he', h⟩ := h4 e he
      rw [← h]; exact diffExpand_le hb e' he'
    split
    · rename_i hnil
      have hnil' : next = [] := by simpa using hnil
      subst hnil'
      refine ⟨[], rfl, ⟨by simp, by simp, by simp⟩, fun j hj => ?_, by simp⟩
      rw [ksum_nil]
      exact (diffN_zero n (fun k _ hk' => (hk k (by omega)).symm)).symm
    · by_cases h0 : n = 0
      · subst h0
        exact ⟨next, rfl, h2, fun j hj => hk j (by omega), hB⟩
      · obtain ⟨out, o1, o2, o3, o4⟩ := ih next (w - 1) (by omega) (by omega) h2.2.1
        refine ⟨out, o1, by rw [show w - (n + 1) = w - 1 - n by omega]; exact o2, fun j hj => ?_,
          fun B hb => o4 B (hB B hb)⟩
        rw [o3 j (by omega)]
        exact diffN_congr n (fun k _ hk' => hk k (by omega))

/-- `diff_row_pairs` on pairs below the width. -/
theorem diffRowPairs_spec [BEq V] [LawfulBEq V] [AddCommGroup V] {sort : List (Nat × V) → List (Nat × V)}
    (hsort : IsSort sort) {pairs : List (Nat × V)} {w n : Nat} (hn : n < w) (hp : ∀ e ∈ pairs, e.1 < w) :
    ∃ out, diffRowPairs sort pairs w n = some out ∧ (∀ e ∈ out, e.1 < w - n) ∧ (∀ e ∈ out, e.2 ≠ 0) ∧
      (0 < n ∨ (pairs.map Prod.fst).Pairwise (· < ·) → (out.map Prod.fst).Pairwise (· < ·)) ∧
      (∀ j, j < w - n → ksum out j = diffN n (ksum pairs) j) ∧
      ∀ B, (∀ e ∈ pairs, e.1 ≤ B) → ∀ e ∈ out, e.1 ≤ B := by
  unfold diffRowPairs
  by_cases h0 : n = 0
  · subst h0
    rw [if_pos (Or.inl rfl)]
    refine ⟨_, rfl, fun e he => hp e (List.mem_of_mem_filter he), fun e he => ?_, fun h => ?_, fun j _ => ?_,
      fun B hb e he => hb e (List.mem_of_mem_filter he)⟩
    · simpa using (List.mem_filter.1 he).2
    · rcases h with h | h
      · omega
      · exact h.sublist (List.filter_sublist.map _)
    · show _ = ksum pairs j
      induction pairs with
      | nil => rfl
      | cons e l ih =>
        have ih := ih (fun x hx => hp x (by simp [hx]))
        rw [ksum_cons, ← ih, List.filter_cons]
        split
        · rw [ksum_cons]
        · rename_i h
          have : e.2 = 0 := by simpa using h
          simp [this]
  · rw [if_neg (by omega)]
    obtain ⟨out, h1, ⟨h2, h3, h4⟩, h5, h6⟩ := diffRowLoop_spec hsort n pairs w (by omega) hn hp
    exact ⟨out, h1, h3, h4, fun _ => h2, h5, h6⟩

theorem mapM_spec {α β : Type*} {f : α → Option β} {P : α → β → Prop} {l : List α} (h : ∀ x ∈ l, ∃ y, f x = some y ∧ P x y) :
    ∃ ys, l.mapM f = some ys ∧ List.Forall₂ P l ys := by
  induction l with
  | nil => exact ⟨[], rfl, .nil⟩
  | cons x l ih =>
    obtain ⟨y, hy, hp⟩ := h x (by simp)
    obtain ⟨ys, hys, hf⟩ := ih (fun z hz => h z (by simp [hz]))
    exact ⟨y :: ys, by rw [List.mapM_cons, hy, hys]; rfl, .cons hp hf⟩

theorem colToI64_all {l : List (Nat × V)} (h : ∀ e ∈ l, (e.1 : Int) ≤ i64Max) :
    l.mapM colToI64? = some (l.map fun e => ((e.1 : Int), e.2)) := by
  induction l with
  | nil => rfl
  | cons e l ih =>
    rw [List.mapM_cons, ih (fun x hx => h x (by simp [hx])), colToI64?, if_pos (h e (by simp))]
    rfl

theorem mapM_colToI64 {ls : List (List (Nat × V))} (h : ∀ l ∈ ls, ∀ e ∈ l, (e.1 : Int) ≤ i64Max) :
    ls.mapM (fun o => o.mapM colToI64?) = some (ls.map fun l => l.map fun e => ((e.1 : Int), e.2)) := by
  induction ls with
  | nil => rfl
  | cons l ls ih =>
    rw [List.mapM_cons, ih (fun x hx => h x (by simp [hx])), colToI64_all (h l (by simp))]
    rfl

theorem rval_cast [Zero V] [Add V] (l : List (Nat × V)) (j : Nat) :
    (((l.map fun e => ((e.1 : Int), e.2)).filter fun e => e.1 == (j : Int)).map Prod.snd).sum = ksum l j := by
  unfold ksum
  congr 1
  induction l with
  | nil => rfl
  | cons e l ih =>
    rw [List.map_cons, List.filter_cons, List.filter_cons]
    by_cases h : e.1 = j
    · rw [if_pos (by simp [h]), if_pos (by simp [h]), List.map_cons, List.map_cons, ih]
    · rw [if_neg (by simpa using h), if_neg (by simpa using h), ih]

theorem ksum_row [Zero V] [Add V] {a : Comp V} (hw : a.WFU) (i j : Nat) :
    ksum ((a.row i).map fun e => (i64ToUsize e.1, e.2)) j = a.val i j := by
  unfold Comp.val
  rw [← rval_cast, List.map_map]
  congr 3
  conv_rhs => rw [← List.map_id (a.row i)]
  apply List.map_congr_left
  intro e he
  have := hw.row_bounds i e he
  have h2 := hw.row_i64 i e he
  show ((i64ToUsize e.1 : Int), e.2) = e
  rw [i64ToUsize_of_nonneg this.1 h2, Int.toNat_of_nonneg this.1]

theorem noRep_of_sorted {r : List (Nat × V)} (h : (r.map Prod.fst).Pairwise (· < ·)) {w : Nat} (hw : ∀ e ∈ r, e.1 < w) :
    r.length ≤ w := by
  have hn : (r.map Prod.fst).Nodup := h.imp (fun h => Nat.ne_of_lt h)
  have : (r.map Prod.fst).length ≤ (List.range w).length := (List.subperm_of_subset hn (fun x hx => by
    obtain ⟨e, he, rfl⟩ := List.mem_map.1 hx
    exact List.mem_range.2 (hw e he))).length_le
  simpa using this

end Lacuna
