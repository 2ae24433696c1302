import Verif.Lemmas.Convert
import Verif.Lemmas.NdAcc
import Mathlib.Tactic.ByContra
/- Lemmas about the sort-and-merge conversion COO → CSR. -/
namespace Lacuna
universe u
variable {V : Type u}

/-! ### Sorted lists as concatenations of buckets -/

theorem filter_le_split {α : Type _} (key : α → Int) (k : Int) {L : List α}
    (hs : L.Pairwise fun x y => key x ≤ key y) :
    L.filter (fun x => decide (key x < k + 1)) =
      L.filter (fun x => decide (key x < k)) ++ L.filter (fun x => key x == k) := by
  induction L with
  | nil => rfl
  | cons x L ih =>
    rw [List.pairwise_cons] at hs
    have ih := ih hs.2
    by_cases h1 : key x < k
    · rw [List.filter_cons_of_pos (by simp; omega), List.filter_cons_of_pos (by simpa using h1),
        List.filter_cons_of_neg (by simp; omega), ih]; rfl
    · by_cases h2 : key x = k
      · have e : L.filter (fun x => decide (key x < k)) = [] := by
          rw [List.filter_eq_nil_iff]; intro y hy; have := hs.1 y hy; simp; omega
        rw [List.filter_cons_of_pos (by simp; omega), List.filter_cons_of_neg (by simpa using h1),
          List.filter_cons_of_pos (by simpa using h2), ih, e]; rfl
      · rw [List.filter_cons_of_neg (by simp; omega), List.filter_cons_of_neg (by simpa using h1),
          List.filter_cons_of_neg (by simpa using h2), ih]

theorem filter_lt_flatMap {α : Type _} (key : α → Int) {L : List α}
    (hs : L.Pairwise fun x y => key x ≤ key y) (h0 : ∀ x ∈ L, 0 ≤ key x) (k : Nat) :
    (List.range k).flatMap (fun i : Nat => L.filter fun x => key x == (i : Int)) =
      L.filter (fun x => decide (key x < (k : Int))) := by
  induction k with
  | zero =>
    symm; rw [List.range_zero, List.flatMap_nil, List.filter_eq_nil_iff]
    intro x hx; have := h0 x hx; simp; omega
  | succ k ih =>
    rw [List.range_succ, List.flatMap_append, ih]
    have e : ((k + 1 : Nat) : Int) = (k : Int) + 1 := by omega
    rw [e, filter_le_split key k hs]
    simp

theorem sorted_buckets {α : Type _} (key : α → Int) {L : List α}
    (hs : L.Pairwise fun x y => key x ≤ key y) {n : Nat} (hb : ∀ x ∈ L, 0 ≤ key x ∧ key x < n) :
    (List.range n).flatMap (fun i : Nat => L.filter fun x => key x == (i : Int)) = L := by
  rw [filter_lt_flatMap key hs (fun x hx => (hb x hx).1) n, List.filter_eq_self]
  intro x hx; simpa using (hb x hx).2

/-! ### Merging adjacent equal keys -/

/-- Lexicographic order of coordinates. -/
def KLt (x y : Int × Int) : Prop := x.1 < y.1 ∨ (x.1 = y.1 ∧ x.2 < y.2)
def KLe (x y : Int × Int) : Prop := x.1 < y.1 ∨ (x.1 = y.1 ∧ x.2 ≤ y.2)

/-- The merged entries of a run `ts` that follows an open group `k` with running sum `acc`. -/
def groupRun [Add V] (k : Int × Int) (acc : V) : List ((Int × Int) × V) → List ((Int × Int) × V)
  | [] => [(k, acc)]
  | (k', v) :: ts => if k' = k then groupRun k (acc + v) ts else (k, acc) :: groupRun k' v ts

/-- The merged entries of a sorted list. -/
def groups [Add V] : List ((Int × Int) × V) → List ((Int × Int) × V)
  | [] => []
  | (k, v) :: ts => groupRun k v ts

theorem groupRun_keys [Add V] (ts : List ((Int × Int) × V)) (k : Int × Int) (acc : V) :
    ∀ e ∈ groupRun k acc ts, e.1 = k ∨ ∃ t ∈ ts, t.1 = e.1 := by
  induction ts generalizing k acc with
  | nil => intro e he; simp [groupRun] at he; simp [he]
  | cons t ts ih =>
    obtain ⟨k', v⟩ := t
    intro e he
    unfold groupRun at he
    split at he
    · rcases ih _ _ e he with h | ⟨t, ht, h⟩
      · exact .inl h
      · exact .inr ⟨t, List.mem_cons_of_mem _ ht, h⟩
    · rcases List.mem_cons.1 he with rfl | he
      · exact .inl rfl
      · rcases ih _ _ e he with h | ⟨t, ht, h⟩
        · exact .inr ⟨(k', v), by simp, h.symm⟩
        · exact .inr ⟨t, List.mem_cons_of_mem _ ht, h⟩

theorem KLe.klt {x y : Int × Int} (h : KLe x y) (hn : y ≠ x) : KLt x y := by
  rcases h with h | h
  · exact .inl h
  · refine .inr ⟨h.1, ?_⟩
    rcases Int.lt_or_eq_of_le h.2 with g | g
    · exact g
    · exact absurd (Prod.ext h.1.symm g.symm) hn

theorem KLt.trans_le {x y z : Int × Int} (h : KLt x y) (g : KLe y z) : KLt x z := by
  unfold KLt KLe at *; omega

theorem groupRun_sorted [Add V] (ts : List ((Int × Int) × V)) (k : Int × Int) (acc : V)
    (hs : (((k, acc) :: ts).map Prod.fst).Pairwise KLe) :
    ((groupRun k acc ts).map Prod.fst).Pairwise KLt := by
  induction ts generalizing k acc with
  | nil => simp [groupRun]
  | cons t ts ih =>
    obtain ⟨k', v⟩ := t
    simp only [List.map_cons, List.pairwise_cons] at hs
    unfold groupRun
    split
    · rename_i h
      apply ih
      simp only [List.map_cons, List.pairwise_cons]
      subst h
      exact hs.2
    · rename_i h
      simp only [List.map_cons, List.pairwise_cons]
      have hk := (hs.1 k' (by simp)).klt h
      refine ⟨?_, ih _ _ (by simpa only [List.map_cons, List.pairwise_cons] using hs.2)⟩
      intro x hx
      obtain ⟨e, he, rfl⟩ := List.mem_map.1 hx
      rcases groupRun_keys _ _ _ e he with g | ⟨t, ht, g⟩
      · rw [g]; exact hk
      · rw [← g]; exact hk.trans_le (hs.2.1 _ (List.mem_map_of_mem ht))

theorem total_cons_ne {K : Type _} [BEq K] [LawfulBEq K] [Add V] {k key : K} (h : k ≠ key) (v : V) (ts : List (K × V)) :
    total ((k, v) :: ts) key = total ts key := by
  unfold total
  rw [List.filter_cons_of_neg (by simpa using h)]

theorem total_cons_merge {K : Type _} [BEq K] [LawfulBEq K] [Add V] (k key : K) (v w : V) (ts : List (K × V)) :
    total ((k, v + w) :: ts) key = total ((k, v) :: (k, w) :: ts) key := by
  by_cases h : k = key
  · subst h
    unfold total
    simp
  · rw [total_cons_ne h, total_cons_ne h, total_cons_ne h]

theorem total_cons_single {K : Type _} [BEq K] [LawfulBEq K] [Add V] (k : K) (v : V) (ts : List (K × V))
    (h : ∀ t ∈ ts, t.1 ≠ k) : total ((k, v) :: ts) k = some v := by
  unfold total
  have : ts.filter (fun e => e.1 == k) = [] := by
    rw [List.filter_eq_nil_iff]; intro t ht; simpa using h t ht
  rw [List.filter_cons_of_pos (by simp), this]
  rfl

theorem groupRun_find [Add V] (ts : List ((Int × Int) × V)) (k : Int × Int) (acc : V)
    (hs : (((k, acc) :: ts).map Prod.fst).Pairwise KLe) (key : Int × Int) :
    ((groupRun k acc ts).find? fun e => e.1 == key).map Prod.snd = total ((k, acc) :: ts) key := by
  induction ts generalizing k acc with
  | nil =>
    unfold groupRun
    by_cases h : k = key
    · subst h; simp [total]
    · rw [total_cons_ne h, List.find?_cons_of_neg (by simpa using h)]; rfl
  | cons t ts ih =>
    obtain ⟨k', v⟩ := t
    simp only [List.map_cons, List.pairwise_cons] at hs
    unfold groupRun
    split
    · rename_i h
      subst h
      rw [ih _ _ (by simpa only [List.map_cons, List.pairwise_cons] using hs.2), total_cons_merge]
    · rename_i h
      have hk := (hs.1 k' (by simp)).klt h
      by_cases hkey : k = key
      · subst hkey
        rw [List.find?_cons_of_pos (by simp), total_cons_single]
        · rfl
        · intro t ht
          rcases List.mem_cons.1 ht with rfl | ht
          · exact h
          · have h2 := hk.trans_le (hs.2.1 _ (List.mem_map_of_mem ht))
            intro e; rw [e] at h2; unfold KLt at h2; omega
      · rw [List.find?_cons_of_neg (by simpa using hkey), total_cons_ne hkey]
        exact ih _ _ (by simpa only [List.map_cons, List.pairwise_cons] using hs.2)

theorem groups_keys [Add V] (ts : List ((Int × Int) × V)) : ∀ e ∈ groups ts, ∃ t ∈ ts, t.1 = e.1 := by
  cases ts with
  | nil => intro e he; cases he
  | cons t ts =>
    intro e he
    rcases groupRun_keys _ _ _ e he with h | ⟨t', h, h'⟩
    · exact ⟨t, by simp, h.symm⟩
    · exact ⟨t', List.mem_cons_of_mem _ h, h'⟩

theorem groups_sorted [Add V] {ts : List ((Int × Int) × V)} (hs : (ts.map Prod.fst).Pairwise KLe) :
    ((groups ts).map Prod.fst).Pairwise KLt := by
  cases ts with
  | nil => simp [groups]
  | cons t ts => exact groupRun_sorted _ _ _ hs

theorem groups_find [Add V] {ts : List ((Int × Int) × V)} (hs : (ts.map Prod.fst).Pairwise KLe)
    (key : Int × Int) :
    ((groups ts).find? fun e => e.1 == key).map Prod.snd = total ts key := by
  cases ts with
  | nil => rfl
  | cons t ts => exact groupRun_find _ _ _ hs key

theorem groupRun_length [Add V] (ts : List ((Int × Int) × V)) (k : Int × Int) (acc : V) :
    (groupRun k acc ts).length ≤ ts.length + 1 := by
  induction ts generalizing k acc with
  | nil => simp [groupRun]
  | cons t ts ih =>
    unfold groupRun
    split
    · have := ih k (acc + t.2); simp only [List.length_cons]; omega
    · have := ih t.1 t.2; simp only [List.length_cons]; omega

theorem groups_length [Add V] (ts : List ((Int × Int) × V)) : (groups ts).length ≤ ts.length := by
  cases ts with
  | nil => simp [groups]
  | cons t ts => exact groupRun_length _ _ _

/-! ### The loop -/

theorem fillPtr_length (ptr : List Int) (lo hi : Nat) (v : Int) : (fillPtr ptr lo hi v).length = ptr.length := by
  simp [fillPtr]

theorem fillPtr_getElem? (ptr : List Int) (lo hi : Nat) (v : Int) (k : Nat) (hk : k < ptr.length) :
    (fillPtr ptr lo hi v)[k]? = if lo ≤ k ∧ k < hi then some v else ptr[k]? := by
  unfold fillPtr
  rw [List.getElem?_map, List.getElem?_zipIdx]
  simp only [List.getElem?_eq_getElem hk, Option.map_some]
  simp only [Nat.zero_add]
  split <;> rfl

theorem fillPtr_getD (ptr : List Int) (lo hi : Nat) (v : Int) (k : Nat) (hk : k < ptr.length) :
    (fillPtr ptr lo hi v).getD k 0 = if lo ≤ k ∧ k < hi then v else ptr.getD k 0 := by
  rw [List.getD_eq_getElem?_getD, fillPtr_getElem? _ _ _ _ _ hk, List.getD_eq_getElem?_getD]
  split <;> rfl

/-- The tail of `cooToCsr` after the loop. -/
def cooFinish (nrows : Nat) (s : CooSt V) : List Int × List Int × List V :=
  let s1 : CooSt V := if s.curRow ≥ 0 ∧ s.lastCol ≥ 0 then
      { s with indices := s.indices ++ [s.lastCol], data := s.data ++ [s.acc] } else s
  let start := if s1.curRow < 0 then 0 else i64ToUsize (s1.curRow + 1)
  (fillPtr s1.indptr start (nrows + 1) (lenI64 s1.indices.length), s1.indices, s1.data)

theorem cooFinish_open (nrows : Nat) (s : CooSt V) (h1 : 0 ≤ s.curRow) (h2 : 0 ≤ s.lastCol)
    (h3 : s.curRow + 1 ≤ i64Max) :
    cooFinish nrows s = (fillPtr s.indptr (s.curRow + 1).toNat (nrows + 1) (lenI64 (s.indices.length + 1)),
      s.indices ++ [s.lastCol], s.data ++ [s.acc]) := by
  have h4 : ¬ s.curRow < 0 := by omega
  simp only [cooFinish, ge_iff_le, h1, h2, and_self, if_true, h4, if_false, List.length_append, List.length_singleton]
  rw [i64ToUsize_of_nonneg (by omega) h3]

theorem cooFinish_empty (nrows : Nat) (s : CooSt V) (h1 : s.curRow < 0) :
    cooFinish nrows s = (fillPtr s.indptr 0 (nrows + 1) (lenI64 s.indices.length), s.indices, s.data) := by
  have h3 : ¬ 0 ≤ s.curRow := by omega
  simp only [cooFinish, ge_iff_le, h1, h3, false_and, if_true, if_false]

theorem cooToCsr_eq [Zero V] [Add V] (sort : List ((Int × Int) × V) → List ((Int × Int) × V)) (a : Coo V) :
    cooToCsr sort a =
      let r := cooFinish a.nrows ((sort a.triples).foldl cooStep ⟨List.replicate (a.nrows + 1) 0, [], [], -1, -1, 0⟩)
      ⟨a.nrows, a.ncols, r.1, r.2.1, r.2.2⟩ := rfl

/-- Number of merged entries in rows before `k`. -/
def rowsBefore (G : List ((Int × Int) × V)) (k : Nat) : Nat :=
  (G.filter fun e => decide (e.1.1 < (k : Int))).length

theorem lenI64_of {n : Nat} (h : (n : Int) ≤ i64Max) : lenI64 n = n := by
  unfold lenI64; rw [if_pos h]

theorem coo_loop [Add V] (nrows : Nat) (hfit : (nrows : Int) ≤ i64Max) (ts : List ((Int × Int) × V)) :
    ∀ s : CooSt V, 0 ≤ s.curRow → 0 ≤ s.lastCol → s.curRow < nrows → s.indptr.length = nrows + 1 →
      ((((s.curRow, s.lastCol), s.acc) :: ts).map Prod.fst).Pairwise KLe →
      (∀ t ∈ ts, t.1.1 < nrows ∧ 0 ≤ t.1.2) →
      ((s.indices.length + ts.length + 1 : Nat) : Int) ≤ i64Max →
      let G := groupRun (s.curRow, s.lastCol) s.acc ts
      let r := cooFinish nrows (ts.foldl cooStep s)
      r.2.1 = s.indices ++ G.map (fun e => e.1.2) ∧ r.2.2 = s.data ++ G.map Prod.snd ∧
        r.1.length = nrows + 1 ∧
        ∀ k, k ≤ nrows → r.1.getD k 0 =
          if (k : Int) ≤ s.curRow then s.indptr.getD k 0 else ((s.indices.length + rowsBefore G k : Nat) : Int) := by
  induction ts with
  | nil =>
    intro s h1 h2 h3 h4 _ _ h7
    simp only [List.foldl_nil, groupRun, List.map_cons, List.map_nil, cooFinish_open nrows s h1 h2 (by omega)]
    refine ⟨trivial, trivial, by rw [fillPtr_length, h4], ?_⟩
    intro k hk
    rw [fillPtr_getD _ _ _ _ _ (by omega)]
    rw [lenI64_of (by simp only [List.length_nil] at h7; omega)]
    by_cases hk2 : (k : Int) ≤ s.curRow
    · rw [if_neg (by omega), if_pos hk2]
    · rw [if_pos (by omega), if_neg hk2]
      unfold rowsBefore
      rw [List.filter_cons_of_pos (by simp; omega)]
      simp
  | cons t ts ih =>
    intro s h1 h2 h3 h4 h5 h6 h7
    obtain ⟨⟨r, c⟩, v⟩ := t
    simp only [List.map_cons, List.pairwise_cons] at h5
    have hk : KLe (s.curRow, s.lastCol) (r, c) := h5.1 _ (by simp)
    have hb := h6 ((r, c), v) (by simp)
    simp only at hb
    have hb' : ∀ t ∈ ts, t.1.1 < nrows ∧ 0 ≤ t.1.2 := fun t ht => h6 t (List.mem_cons_of_mem _ ht)
    simp only [List.length_cons] at h7
    simp only [List.foldl_cons]
    have hs2 : ∀ x : V, ((((r, c), x) :: ts).map Prod.fst).Pairwise KLe := fun x => by
      simpa only [List.map_cons, List.pairwise_cons] using h5.2
    by_cases hr : r = s.curRow
    · subst hr
      by_cases hc : c = s.lastCol
      · subst hc
        have e1 : cooStep s ((s.curRow, s.lastCol), v) = { s with acc := s.acc + v } := by
          simp [cooStep]
        have e2 : groupRun (s.curRow, s.lastCol) s.acc (((s.curRow, s.lastCol), v) :: ts) =
            groupRun (s.curRow, s.lastCol) (s.acc + v) ts := by
          rw [groupRun, if_pos rfl]
        rw [e1, e2]
        exact ih { s with acc := s.acc + v } h1 h2 h3 h4 (hs2 _) hb' (by simp only; omega)
      · have e1 : cooStep s ((s.curRow, c), v) =
            { s with indices := s.indices ++ [s.lastCol], data := s.data ++ [s.acc], lastCol := c, acc := v } := by
          simp [cooStep, hc]
        have e2 : groupRun (s.curRow, s.lastCol) s.acc (((s.curRow, c), v) :: ts) =
            ((s.curRow, s.lastCol), s.acc) :: groupRun (s.curRow, c) v ts := by
          rw [groupRun, if_neg (by simpa using hc)]
        rw [e1, e2]
        have := ih { s with indices := s.indices ++ [s.lastCol], data := s.data ++ [s.acc], lastCol := c, acc := v }
          h1 hb.2 h3 h4 (hs2 _) hb' (by simp only [List.length_append, List.length_singleton]; omega)
        simp only at this
        obtain ⟨g1, g2, g3, g4⟩ := this
        refine ⟨?_, ?_, g3, ?_⟩
        · rw [g1]; simp
        · rw [g2]; simp
        · intro k hk
          rw [g4 k hk]
          split
          · rfl
          · rename_i hh
            unfold rowsBefore
            rw [List.filter_cons_of_pos (by simp; omega)]
            simp only [List.length_append, List.length_cons, List.length_nil]
            omega
    · have hlt : s.curRow < r := by unfold KLe at hk; simp only at hk; omega
      have e1 : cooStep s ((r, c), v) =
          { indptr := fillPtr s.indptr (s.curRow + 1).toNat (r.toNat + 1) ((s.indices.length + 1 : Nat) : Int)
            indices := s.indices ++ [s.lastCol], data := s.data ++ [s.acc], curRow := r, lastCol := c, acc := v } := by
        simp only [cooStep, ne_eq, hr, not_false_eq_true, if_true, ge_iff_le, h1, h2, and_self]
        have hm : max (s.curRow + 1) 0 = s.curRow + 1 := by omega
        rw [hm, i64ToUsize_of_nonneg (by omega) (by omega), i64ToUsize_of_nonneg (by omega) (by omega), List.length_append,
          List.length_singleton, lenI64_of (by omega)]
      have e2 : groupRun (s.curRow, s.lastCol) s.acc (((r, c), v) :: ts) =
          ((s.curRow, s.lastCol), s.acc) :: groupRun (r, c) v ts := by
        rw [groupRun, if_neg (by simp [hr])]
      rw [e1, e2]
      have := ih { indptr := fillPtr s.indptr (s.curRow + 1).toNat (r.toNat + 1) ((s.indices.length + 1 : Nat) : Int)
                   indices := s.indices ++ [s.lastCol], data := s.data ++ [s.acc], curRow := r, lastCol := c, acc := v }
        (by simp only; omega) hb.2 hb.1 (by simp only [fillPtr_length]; exact h4) (hs2 _) hb'
        (by simp only [List.length_append, List.length_singleton]; omega)
      simp only at this
      obtain ⟨g1, g2, g3, g4⟩ := this
      refine ⟨?_, ?_, g3, ?_⟩
      · rw [g1]; simp
      · rw [g2]; simp
      · intro k hk
        rw [g4 k hk]
        rw [fillPtr_getD _ _ _ _ _ (by omega)]
        by_cases hk1 : (k : Int) ≤ r
        · rw [if_pos hk1]
          by_cases hk2 : (k : Int) ≤ s.curRow
          · rw [if_neg (by omega), if_pos hk2]
          · rw [if_pos (by omega), if_neg hk2]
            have : rowsBefore (groupRun (r, c) v ts) k = 0 := by
              unfold rowsBefore
              rw [List.length_eq_zero_iff, List.filter_eq_nil_iff]
              intro e he
              rcases groupRun_keys _ _ _ e he with g | ⟨t, ht, g⟩
              · rw [g]; simp; omega
              · have := h5.2.1 t.1 (List.mem_map_of_mem ht)
                unfold KLe at this
                rw [← g]; simp only at this; simp; omega
            unfold rowsBefore at this ⊢
            rw [List.filter_cons_of_pos (by simp; omega), List.length_cons, this]
        · rw [if_neg hk1, if_neg (by omega)]
          unfold rowsBefore
          rw [List.filter_cons_of_pos (by simp; omega)]
          simp only [List.length_append, List.length_cons, List.length_nil]
          omega

/-- The conversion in closed form: pointers, indices and data of the merged entries. -/
theorem coo_finish [Zero V] [Add V] (nrows : Nat) (hfit : (nrows : Int) ≤ i64Max) (ts : List ((Int × Int) × V))
    (hs : (ts.map Prod.fst).Pairwise KLe) (hb : ∀ t ∈ ts, 0 ≤ t.1.1 ∧ t.1.1 < nrows ∧ 0 ≤ t.1.2)
    (hl : (ts.length : Int) ≤ i64Max) :
    let r := cooFinish nrows (ts.foldl cooStep ⟨List.replicate (nrows + 1) 0, [], [], -1, -1, 0⟩)
    r.2.1 = (groups ts).map (fun e => e.1.2) ∧ r.2.2 = (groups ts).map Prod.snd ∧ r.1.length = nrows + 1 ∧
      ∀ k, k ≤ nrows → r.1.getD k 0 = (rowsBefore (groups ts) k : Int) := by
  cases ts with
  | nil =>
    rw [List.foldl_nil, cooFinish_empty _ _ (by simp only; omega)]
    simp only [groups, List.map_nil]
    refine ⟨trivial, trivial, by rw [fillPtr_length]; simp, ?_⟩
    intro k hk
    rw [fillPtr_getD _ _ _ _ _ (by simp; omega), if_pos (by omega)]
    rfl
  | cons t ts =>
    obtain ⟨⟨r, c⟩, v⟩ := t
    have hb0 := hb ((r, c), v) (by simp)
    simp only at hb0
    have e1 : cooStep (⟨List.replicate (nrows + 1) 0, [], [], -1, -1, 0⟩ : CooSt V) ((r, c), v) =
        ⟨fillPtr (List.replicate (nrows + 1) 0) 0 (r.toNat + 1) 0, [], [], r, c, v⟩ := by
      have hr : ¬ r = -1 := by omega
      have hn : ¬ (0 : Int) ≤ -1 := by omega
      simp only [cooStep, ne_eq, hr, not_false_eq_true, if_true, ge_iff_le, hn, false_and, if_false]
      rw [i64ToUsize_of_nonneg hb0.1 (by omega)]
      rfl
    rw [List.foldl_cons, e1]
    have := coo_loop nrows hfit ts ⟨fillPtr (List.replicate (nrows + 1) 0) 0 (r.toNat + 1) 0, [], [], r, c, v⟩
      hb0.1 hb0.2.2 hb0.2.1 (by simp [fillPtr_length]) hs
      (fun t ht => (hb t (List.mem_cons_of_mem _ ht)).2)
      (by simp only [List.length_nil, List.length_cons] at hl ⊢; omega)
    simp only at this
    obtain ⟨g1, g2, g3, g4⟩ := this
    refine ⟨by rw [g1]; rfl, by rw [g2]; rfl, g3, ?_⟩
    intro k hk
    rw [g4 k hk]
    simp only [groups]
    split
    · rename_i h
      rw [fillPtr_getD _ _ _ _ _ (by simp; omega), if_pos (by omega)]
      have : rowsBefore (groupRun (r, c) v ts) k = 0 := by
        unfold rowsBefore
        rw [List.length_eq_zero_iff, List.filter_eq_nil_iff]
        intro e he
        rcases groupRun_keys _ _ _ e he with g | ⟨t, ht, g⟩
        · rw [g]; simp; omega
        · simp only [List.map_cons, List.pairwise_cons] at hs
          have := hs.1 t.1 (List.mem_map_of_mem ht)
          unfold KLe at this
          rw [← g]; simp only at this; simp; omega
      rw [this]; rfl
    · simp

/-- Row `i` of the merged entries. -/
def gRow (G : List ((Int × Int) × V)) (i : Nat) : Row V :=
  (G.filter fun e => e.1.1 == (i : Int)).map fun e => (e.1.2, e.2)

/-- Merging never stores more entries than there are triples. -/
theorem cooToCsr_data_length_le [Zero V] [Add V] {sort : List ((Int × Int) × V) → List ((Int × Int) × V)}
    (hsort : IsTripleSort sort) {a : Coo V} (hw : a.WF) (hn : (a.nrows : Int) ≤ i64Max)
    (hl : (a.data.length : Int) ≤ i64Max) : (cooToCsr sort a).data.length ≤ a.data.length := by
  obtain ⟨hp, hs⟩ := hsort a.triples
  have hs' : ((sort a.triples).map Prod.fst).Pairwise KLe := by
    rw [List.pairwise_map]; exact hs
  have hb : ∀ t ∈ sort a.triples, 0 ≤ t.1.1 ∧ t.1.1 < a.nrows ∧ 0 ≤ t.1.2 := fun t ht => by
    have h1 := List.of_mem_zip (a := t.1) (b := t.2) (hp.mem_iff.1 ht)
    have h2 := List.of_mem_zip (a := t.1.1) (b := t.1.2) h1.1
    have h3 := hw.row_bounds _ h2.1
    have h4 := hw.col_bounds _ h2.2
    omega
  have hlen : (sort a.triples).length ≤ a.data.length := by
    rw [hp.length_eq]
    unfold Coo.triples; rw [List.length_zip]; omega
  obtain ⟨-, g2, -⟩ := coo_finish a.nrows hn (sort a.triples) hs' hb (by omega)
  rw [cooToCsr_eq]
  simp only
  rw [g2, List.length_map]
  exact Nat.le_trans (groups_length _) hlen

theorem cooToCsr_closed [Zero V] [Add V] {sort : List ((Int × Int) × V) → List ((Int × Int) × V)}
    (hsort : IsTripleSort sort) {a : Coo V} (hw : a.WF) (hn : (a.nrows : Int) ≤ i64Max)
    (hl : (a.data.length : Int) ≤ i64Max) :
    (cooToCsr sort a).comp = Comp.ofRows a.ncols ((List.range a.nrows).map (gRow (groups (sort a.triples)))) := by
  obtain ⟨hp, hs⟩ := hsort a.triples
  have hs' : ((sort a.triples).map Prod.fst).Pairwise KLe := by
    rw [List.pairwise_map]; exact hs
  have hmem : ∀ t ∈ a.triples, (0 ≤ t.1.1 ∧ t.1.1 < a.nrows) ∧ (0 ≤ t.1.2 ∧ t.1.2 < a.ncols) := by
    intro t ht
    have h1 := List.of_mem_zip (a := t.1) (b := t.2) ht
    have h2 := List.of_mem_zip (a := t.1.1) (b := t.1.2) h1.1
    exact ⟨hw.row_bounds _ h2.1, hw.col_bounds _ h2.2⟩
  have hb : ∀ t ∈ sort a.triples, 0 ≤ t.1.1 ∧ t.1.1 < a.nrows ∧ 0 ≤ t.1.2 := fun t ht => by
    have := hmem t (hp.mem_iff.1 ht); omega
  have hlen : ((sort a.triples).length : Int) ≤ i64Max := by
    rw [hp.length_eq]
    have : a.triples.length ≤ a.data.length := by
      unfold Coo.triples; rw [List.length_zip]; omega
    omega
  have := coo_finish a.nrows hn (sort a.triples) hs' hb hlen
  simp only at this
  obtain ⟨g1, g2, g3, g4⟩ := this
  have hGs : (groups (sort a.triples)).Pairwise fun x y => x.1.1 ≤ y.1.1 := by
    have := groups_sorted hs'
    rw [List.pairwise_map] at this
    exact this.imp (fun h => by unfold KLt at h; omega)
  have hGb : ∀ x ∈ groups (sort a.triples), 0 ≤ x.1.1 ∧ x.1.1 < a.nrows := by
    intro x hx
    obtain ⟨t, ht, e⟩ := groups_keys _ x hx
    have := hb t ht
    rw [← e]; omega
  generalize groups (sort a.triples) = G at *
  have hbk := sorted_buckets (fun e : (Int × Int) × V => e.1.1) hGs hGb
  have hflat : ((List.range a.nrows).map (gRow G)).flatten = G.map fun e => (e.1.2, e.2) := by
    conv_rhs => rw [← hbk]
    rw [List.map_flatMap, List.flatMap_def]
    rfl
  rw [cooToCsr_eq]
  unfold Csr.comp Comp.ofRows
  simp only
  congr 1
  · simp
  · apply List.ext_getElem
    · rw [g3]; simp [prefixPtr, ptrFrom_length]
    · intro k h1 h2
      rw [g3] at h1
      have e1 := g4 k (by omega)
      rw [List.getD_eq_getElem _ _ (by omega)] at e1
      rw [e1]
      have e2 := ptrFrom_getD 0 (((List.range a.nrows).map (gRow G)).map List.length) k (by simp; omega)
      have e3 : (((List.range a.nrows).map (gRow G)).map List.length).take k =
          (List.range k).map fun i => (gRow G i).length := by
        rw [← List.map_take, ← List.map_take, List.take_range, List.map_map, Nat.min_eq_left (by omega)]; rfl
      have e4 : ((List.range k).map fun i => (gRow G i).length).sum = rowsBefore G k := by
        unfold rowsBefore
        rw [← filter_lt_flatMap (fun e : (Int × Int) × V => e.1.1) hGs (fun x hx => (hGb x hx).1) k, List.flatMap_def,
          List.length_flatten, List.map_map]
        simp [gRow, Function.comp_def]
      rw [e3, e4] at e2
      simp only [prefixPtr, List.getElem_map, Int.ofNat_eq_natCast]
      have h3 : k < (ptrFrom 0 (((List.range a.nrows).map (gRow G)).map List.length)).length := by
        rw [ptrFrom_length]; simp; omega
      rw [List.getD_eq_getElem _ _ h3] at e2
      omega
  · rw [g1, hflat, List.map_map]; rfl
  · rw [g2, hflat, List.map_map]; rfl

/-! ### Coordinates of a compressed matrix -/

/-- The coordinate list `(line, index)` of a compressed matrix. -/
def Comp.coords (a : Comp V) : List ((Int × Int) × V) :=
  (List.range a.n).flatMap fun (i : Nat) => (a.row i).map fun e => (((i : Int), e.1), e.2)

theorem mem_coords {a : Comp V} {x : (Int × Int) × V} :
    x ∈ a.coords ↔ ∃ i : Nat, i < a.n ∧ x.1.1 = i ∧ (x.1.2, x.2) ∈ a.row i := by
  unfold Comp.coords
  simp only [List.mem_flatMap, List.mem_range, List.mem_map]
  constructor
  · rintro ⟨i, hi, e, he, rfl⟩; exact ⟨i, hi, rfl, he⟩
  · rintro ⟨i, hi, h1, h2⟩
    exact ⟨i, hi, _, h2, by rw [← h1]⟩

theorem flatMap_filter_line {α : Type _} (f : Nat → List α) (key : α → Int) (hk : ∀ i, ∀ x ∈ f i, key x = i)
    (n i : Nat) :
    ((List.range n).flatMap f).filter (fun x => key x == (i : Int)) = if i < n then f i else [] := by
  induction n with
  | zero => simp
  | succ n ih =>
    rw [List.range_succ, List.flatMap_append, List.filter_append, ih]
    simp only [List.flatMap_cons, List.flatMap_nil, List.append_nil]
    by_cases h : i = n
    · subst h
      rw [if_neg (by omega), if_pos (by omega), List.nil_append, List.filter_eq_self]
      intro x hx; simpa using hk i x hx
    · have : (f n).filter (fun x => key x == (i : Int)) = [] := by
        rw [List.filter_eq_nil_iff]; intro x hx; have := hk n x hx; simp; omega
      rw [this, List.append_nil]
      by_cases h2 : i < n
      · rw [if_pos h2, if_pos (by omega)]
      · rw [if_neg h2, if_neg (by omega)]

theorem coords_filter {a : Comp V} (hw : a.WFU) (i j : Nat) :
    (a.coords.filter fun t => t.1.1 == (i : Int) && t.1.2 == (j : Int)).map Prod.snd =
      ((a.row i).filter fun e => e.1 == (j : Int)).map Prod.snd := by
  have e1 : (a.coords.filter fun t => t.1.1 == (i : Int) && t.1.2 == (j : Int)) =
      (a.coords.filter fun t => t.1.1 == (i : Int)).filter fun t => t.1.2 == (j : Int) := by
    rw [List.filter_filter]
    apply List.filter_congr
    intro t _
    rw [Bool.and_comm]
  rw [e1]
  unfold Comp.coords
  rw [flatMap_filter_line _ (fun t : (Int × Int) × V => t.1.1)
    (fun i x hx => by obtain ⟨e, -, rfl⟩ := List.mem_map.1 hx; rfl)]
  split
  · rw [List.filter_map, List.map_map]; rfl
  · rw [hw.row_of_ge (by omega)]; rfl

theorem coords_nodup {a : Comp V} (hw : a.WF) : (a.coords.map Prod.fst).Nodup := by
  unfold Comp.coords
  have : ∀ n, (((List.range n).flatMap fun (i : Nat) => (a.row i).map fun e => (((i : Int), e.1), e.2)).map
      Prod.fst).Pairwise KLt := by
    intro n
    induction n with
    | zero => simp
    | succ n ih =>
      rw [List.range_succ, List.flatMap_append, List.map_append, List.pairwise_append]
      refine ⟨ih, ?_, ?_⟩
      · simp only [List.flatMap_cons, List.flatMap_nil, List.append_nil]
        rw [List.map_map, List.pairwise_map]
        have hs := srt_row hw n
        unfold Srt at hs
        rw [List.pairwise_map] at hs
        exact hs.imp (fun h => .inr ⟨rfl, h⟩)
      · intro x hx y hy
        obtain ⟨x', hx', rfl⟩ := List.mem_map.1 hx
        obtain ⟨k, hk, hx'⟩ := List.mem_flatMap.1 hx'
        obtain ⟨e, -, rfl⟩ := List.mem_map.1 hx'
        obtain ⟨y', hy', rfl⟩ := List.mem_map.1 hy
        obtain ⟨k', hk', hy'⟩ := List.mem_flatMap.1 hy'
        obtain ⟨e', -, rfl⟩ := List.mem_map.1 hy'
        simp at hk hk'
        exact .inl (by simp only; omega)
  exact (this a.n).imp (fun {x y} h e => by subst e; unfold KLt at h; omega)

theorem total_nodup {K : Type _} [BEq K] [LawfulBEq K] [Add V] {E : List (K × V)} (hn : (E.map Prod.fst).Nodup)
    (k : K) (v : V) : total E k = some v ↔ (k, v) ∈ E := by
  constructor
  · intro h
    obtain ⟨v', hv'⟩ := exists_of_total h
    unfold total at h
    rw [filter_key_nodup hn hv'] at h
    simp at h
    rw [← h]; exact hv'
  · intro h
    unfold total
    rw [filter_key_nodup hn h]; rfl

theorem option_eq_of_iff {α : Type _} {x y : Option α} (h : ∀ v, x = some v ↔ y = some v) : x = y := by
  cases x with
  | none =>
    cases y with
    | none => rfl
    | some v => exact absurd ((h v).2 rfl) (by simp)
  | some v => exact ((h v).1 rfl).symm

/-- With distinct keys the order of the contributions does not matter. -/
theorem total_perm_nodup {K : Type _} [BEq K] [LawfulBEq K] [Add V] {E F : List (K × V)} (hp : F.Perm E)
    (hn : (E.map Prod.fst).Nodup) (k : K) : total F k = total E k := by
  apply option_eq_of_iff
  intro v
  rw [total_nodup hn, total_nodup ((hp.map Prod.fst).nodup_iff.2 hn), hp.mem_iff]

theorem coords_total [Add V] {a : Comp V} (hw : a.WF) (i j : Nat) :
    total a.coords ((i : Int), (j : Int)) = a.stored i j := by
  apply option_eq_of_iff
  intro v
  rw [total_nodup (coords_nodup hw), mem_coords, Comp.stored_eq_lk]
  constructor
  · rintro ⟨i', h1, h2, h3⟩
    simp only at h2
    have : i = i' := by omega
    subst this
    exact mem_lk (srt_row hw i) h3
  · intro h
    have := lk_mem h
    refine ⟨i, ?_, rfl, this⟩
    by_contra hi
    rw [hw.wfu.row_of_ge (by omega)] at this
    cases this

/-- A coordinate matrix with its two axes exchanged. -/
def Coo.tr (a : Coo V) : Coo V := ⟨a.ncols, a.nrows, a.col, a.row, a.data⟩

theorem Coo.tr_triples (a : Coo V) : a.tr.triples = a.triples.map fun t => ((t.1.2, t.1.1), t.2) := by
  unfold Coo.tr Coo.triples
  simp only
  generalize a.row = r, a.col = c, a.data = d
  induction r generalizing c d with
  | nil => simp
  | cons x r ih =>
    cases c with
    | nil => simp
    | cons y c =>
      cases d with
      | nil => simp
      | cons z d => simp [ih]

theorem Coo.WF.tr {a : Coo V} (h : a.WF) : a.tr.WF :=
  ⟨h.col_length, h.row_length, h.col_bounds, h.row_bounds⟩

theorem Coo.tr_val [Add V] [Zero V] (a : Coo V) (i j : Nat) : a.tr.val j i = a.val i j := by
  unfold Coo.val
  rw [Coo.tr_triples, List.filter_map, List.map_map]
  congr 2
  apply List.filter_congr
  intro t _
  simp only [Function.comp]
  rw [Bool.and_comm]

theorem cooToCsc_eq [Zero V] [Add V] (sort : List ((Int × Int) × V) → List ((Int × Int) × V)) (a : Coo V) :
    (cooToCsc sort a).comp = (cooToCsr sort a.tr).comp := rfl

end Lacuna
