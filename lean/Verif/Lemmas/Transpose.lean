import Verif.Model.Transpose
import Verif.Lemmas.CooSort
import Mathlib.Data.List.Nodup
/- Lemmas about transposition. -/
namespace Lacuna
universe u w
variable {V : Type u}

/-! ### Strategy A: one tile -/

/-- `fillLine` without unrolling. -/
def seqLine (i : Nat) : List Int → List (Int × V) → Option (List Int × List (Nat × (Int × V)))
  | pos, e :: rest =>
    pos[i64ToUsize e.1]?.bind fun d =>
    (seqLine i (pos.set (i64ToUsize e.1) (usizeToI64 (i64ToUsize d) + 1)) rest).map fun r =>
      (r.1, (i64ToUsize d, (usizeToI64 i, e.2)) :: r.2)
  | pos, [] => some (pos, [])

/-- With distinct targets the unrolled loop is the plain one. -/
theorem fillLine_seq (i : Nat) : ∀ (row : List (Int × V)) (pos : List Int),
    (row.map fun e => i64ToUsize e.1).Nodup → fillLine i pos row = seqLine i pos row
  | [], _, _ => by simp [fillLine, seqLine]
  | [_], _, _ => by simp [fillLine, seqLine]
  | [_, _], _, _ => by simp [fillLine, seqLine]
  | [_, _, _], _, _ => by simp [fillLine, seqLine]
  | e0 :: e1 :: e2 :: e3 :: rest, pos, h => by
    have ih := fillLine_seq i rest
    simp only [List.map_cons, List.nodup_cons, List.mem_cons, not_or] at h
    obtain ⟨⟨h01, h02, h03, -⟩, ⟨h12, h13, -⟩, ⟨h23, -⟩, -, h⟩ := h
    simp only [fillLine, seqLine]
    simp only [List.getElem?_set_ne h01, List.getElem?_set_ne h12, List.getElem?_set_ne h02,
      List.getElem?_set_ne h23, List.getElem?_set_ne h13, List.getElem?_set_ne h03]
    cases pos[i64ToUsize e0.1]? with
    | none => rfl
    | some d0 =>
      cases pos[i64ToUsize e1.1]? with
      | none => simp
      | some d1 =>
        cases pos[i64ToUsize e2.1]? with
        | none => simp
        | some d2 =>
          cases pos[i64ToUsize e3.1]? with
          | none => simp
          | some d3 =>
            simp only [Option.bind_some, Option.map_map]
            rw [ih _ h]
            simp [Function.comp_def]

/-- Keyed items of a group of lines. -/
def kev (a : Comp V) (lines : List Nat) : List (Nat × (Int × V)) :=
  lines.flatMap fun i => (a.row i).map fun e => (e.1.toNat, (usizeToI64 i, e.2))

/-- Number of items with key `k`. -/
def kcount {α : Type w} (es : List (Nat × α)) (k : Nat) : Nat := (es.filter fun e => e.1 == k).length

theorem kcount_append {α : Type w} (es es' : List (Nat × α)) (k : Nat) :
    kcount (es ++ es') k = kcount es k + kcount es' k := by simp [kcount]

theorem seqLine_eq {m : Nat} (i : Nat) (row : List (Int × V)) : ∀ (nx : Nat → Nat) (pos : List Int),
    (∀ k, k < m → pos[k]? = some (nx k : Int)) →
    (∀ e ∈ row, 0 ≤ e.1 ∧ e.1 ≤ i64Max ∧ e.1 < m) →
    (∀ k, k < m → ((nx k + kcount (row.map fun e => (e.1.toNat, (usizeToI64 i, e.2))) k : Nat) : Int) ≤ i64Max) →
    ∃ pos', seqLine i pos row =
        some (pos', (claimsF nx (row.map fun e => (e.1.toNat, (usizeToI64 i, e.2)))).map Prod.snd) ∧
      ∀ k, k < m → pos'[k]? = some ((nx k + kcount (row.map fun e => (e.1.toNat, (usizeToI64 i, e.2))) k : Nat) : Int) := by
  induction row with
  | nil => intro nx pos hn _ _; exact ⟨pos, rfl, fun k hk => by simpa [kcount] using hn k hk⟩
  | cons e row ih =>
    intro nx pos hn hb hf
    obtain ⟨h0, h1, h2⟩ := hb e (by simp)
    have hlt : e.1.toNat < m := by omega
    have hnx := hf _ hlt
    rw [List.map_cons, kcount, List.filter_cons_of_pos (by simp), List.length_cons] at hnx
    have hlen : e.1.toNat < pos.length := (List.getElem?_eq_some_iff.1 (hn _ hlt)).1
    have hcnt : ∀ k, nx k + kcount ((e :: row).map fun e => (e.1.toNat, (usizeToI64 i, e.2))) k =
        (if k = e.1.toNat then nx k + 1 else nx k) + kcount (row.map fun e => (e.1.toNat, (usizeToI64 i, e.2))) k := by
      intro k
      by_cases h : k = e.1.toNat
      · rw [if_pos h, List.map_cons, kcount, List.filter_cons_of_pos (by simpa using h.symm), List.length_cons, kcount]
        omega
      · rw [if_neg h, List.map_cons, kcount, List.filter_cons_of_neg (by simpa using Ne.symm h), kcount]
    obtain ⟨pos', g1, g2⟩ := ih (fun k => if k = e.1.toNat then nx k + 1 else nx k)
      (pos.set e.1.toNat (nx e.1.toNat + 1)) (fun k hk => by
        rw [List.getElem?_set]
        by_cases h : e.1.toNat = k
        · rw [if_pos h, if_pos hlen, if_pos h.symm, h]; simp
        · rw [if_neg h, if_neg (Ne.symm h), hn k hk])
      (fun e' he' => hb e' (by simp [he'])) (fun k hk => by rw [← hcnt]; exact hf k hk)
    refine ⟨pos', ?_, fun k hk => by rw [hcnt]; exact g2 k hk⟩
    rw [seqLine, i64ToUsize_of_nonneg h0 h1, hn _ hlt, Option.bind_some,
      i64ToUsize_of_nonneg (by omega) (by omega)]
    simp only [Int.toNat_natCast]
    rw [usizeToI64_of_le (n := nx e.1.toNat) (by omega), g1]
    simp [claimsF]

theorem nodup_targets {a : Comp V} (hw : a.WFU) (hd : a.NoRep) (i : Nat) : ((a.row i).map fun e => i64ToUsize e.1).Nodup := by
  have hs := hd i
  rw [List.Nodup, List.pairwise_map] at hs ⊢
  refine hs.imp_of_mem ?_
  intro x y hx hy h
  have b1 := hw.row_bounds i x hx
  have b2 := hw.row_bounds i y hy
  rw [i64ToUsize_of_nonneg b1.1 (hw.row_i64 i x hx), i64ToUsize_of_nonneg b2.1 (hw.row_i64 i y hy)]
  omega

theorem fillTile_eq {a : Comp V} (hw : a.WFU) (hd : a.NoRep) (lines : List Nat) : ∀ (nx : Nat → Nat) (pos : List Int),
    (∀ k, k < a.m → pos[k]? = some (nx k : Int)) →
    (∀ k, k < a.m → ((nx k + kcount (kev a lines) k : Nat) : Int) ≤ i64Max) →
    fillTile a pos lines = some ((claimsF nx (kev a lines)).map Prod.snd) := by
  induction lines with
  | nil => intro nx pos _ _; rfl
  | cons i lines ih =>
    intro nx pos hn hf
    have e : kev a (i :: lines) = (a.row i).map (fun e => (e.1.toNat, (usizeToI64 i, e.2))) ++ kev a lines := by
      simp [kev]
    have hf' : ∀ k, k < a.m → ((nx k + kcount ((a.row i).map fun e => (e.1.toNat, (usizeToI64 i, e.2))) k : Nat) : Int) ≤ i64Max ∧
        (((nx k + kcount ((a.row i).map fun e => (e.1.toNat, (usizeToI64 i, e.2))) k) + kcount (kev a lines) k : Nat) : Int) ≤ i64Max := by
      intro k hk
      have := hf k hk
      rw [e, kcount_append] at this
      omega
    obtain ⟨pos', g1, g2⟩ := seqLine_eq (m := a.m) i (a.row i) nx pos hn
      (fun e he => ⟨(hw.row_bounds i e he).1, hw.row_i64 i e he, (hw.row_bounds i e he).2⟩) (fun k hk => (hf' k hk).1)
    rw [fillTile, fillLine_seq i _ _ (nodup_targets hw hd i), g1, Option.bind_some,
      ih _ pos' g2 (fun k hk => (hf' k hk).2), Option.map_some, e, claimsF_append, List.map_append]
    rfl

/-- Histogram of one tile. -/
theorem foldlM_bumpAt {m : Nat} (c : Nat → Nat) (idx : List Int)
    (h : ∀ j ∈ idx, 0 ≤ j ∧ j ≤ i64Max ∧ j < m) :
    idx.foldlM bumpAt ((List.range m).map fun k => (c k : Int)) =
      some ((List.range m).map fun k => ((c k + (idx.filter fun j => j.toNat == k).length : Nat) : Int)) := by
  induction idx generalizing c with
  | nil => simp
  | cons j idx ih =>
    obtain ⟨h0, h1, h2⟩ := h j (by simp)
    have hlt : j.toNat < m := by omega
    have e : bumpAt ((List.range m).map fun k => (c k : Int)) j =
        some ((List.range m).map fun k => ((if k = j.toNat then c k + 1 else c k : Nat) : Int)) := by
      unfold bumpAt
      simp only [i64ToUsize_of_nonneg h0 h1]
      rw [if_pos (by simpa using hlt)]
      congr 1
      apply List.ext_getElem
      · simp
      · intro k h2 h3
        rw [List.getElem_set]
        by_cases hk : j.toNat = k
        · subst hk
          simp [List.getD_eq_getElem?_getD, hlt]
        · rw [if_neg hk]
          simp [Ne.symm hk]
    rw [List.foldlM_cons, e]
    show idx.foldlM bumpAt _ = _
    rw [ih (fun k => if k = j.toNat then c k + 1 else c k) (fun k hk => h k (by simp [hk]))]
    congr 2
    funext k
    by_cases hk : k = j.toNat
    · rw [if_pos hk, List.filter_cons_of_pos (by simpa using hk.symm)]
      simp; omega
    · rw [if_neg hk, List.filter_cons_of_neg (by simpa using Ne.symm hk)]

theorem tileCounts_eq {a : Comp V} (hw : a.WFU) (lines : List Nat) :
    tileCounts a lines = some ((List.range a.m).map fun k => (kcount (kev a lines) k : Int)) := by
  unfold tileCounts
  have e0 : List.replicate a.m (0 : Int) = (List.range a.m).map fun _ => ((0 : Nat) : Int) := by
    apply List.ext_getElem
    · simp
    · intro i h1 h2; simp
  rw [e0, foldlM_bumpAt]
  · congr 2
    funext k
    rw [Nat.zero_add]
    unfold kcount kev
    congr 1
    rw [← List.length_map (f := fun j : Int => j.toNat), ← List.length_map (f := Prod.fst)]
    congr 1
    rw [show (fun j : Int => j.toNat == k) = (fun n : Nat => n == k) ∘ (fun j : Int => j.toNat) from rfl, ← List.filter_map]
    rw [show (fun e : Nat × (Int × V) => e.1 == k) = (fun n : Nat => n == k) ∘ Prod.fst from rfl, ← List.filter_map]
    congr 1
    simp only [List.map_flatMap, List.map_map]
    rfl
  · intro j hj
    obtain ⟨i, -, hj⟩ := List.mem_flatMap.1 hj
    obtain ⟨e, he, rfl⟩ := List.mem_map.1 hj
    exact ⟨(hw.row_bounds i e he).1, hw.row_i64 i e he, (hw.row_bounds i e he).2⟩

/-! ### Strategy A: all tiles -/

theorem claimsF_tiles {α : Type w} (E : Nat → List (Nat × α)) (base : Nat → Nat) (T : Nat) :
    (List.range T).flatMap (fun t => claimsF (fun k => base k + kcount ((List.range t).flatMap E) k) (E t)) =
      claimsF base ((List.range T).flatMap E) := by
  induction T with
  | zero => rfl
  | succ T ih =>
    rw [List.range_succ, List.flatMap_append, List.flatMap_append, ih, claimsF_append]
    simp [kcount]

/-- The tiles together are all lines, in order. -/
theorem tileLines_flatMap (n tiles T : Nat) :
    (List.range T).flatMap (tileLines n tiles) = List.range (min (T * ((n + tiles - 1) / tiles)) n) := by
  induction T with
  | zero => simp
  | succ T ih =>
    rw [List.range_succ, List.flatMap_append, ih]
    simp only [List.flatMap_cons, List.flatMap_nil, List.append_nil]
    unfold tileLines
    simp only
    generalize (n + tiles - 1) / tiles = q
    rw [Nat.succ_mul, List.range_eq_range']
    by_cases h : T * q ≤ n
    · rw [Nat.min_eq_left h]
      obtain ⟨d, hd⟩ : ∃ d, min (T * q + q) n = T * q + d := ⟨min (T * q + q) n - T * q, by omega⟩
      rw [hd, List.range_eq_range', ← List.range'_append_1, Nat.zero_add, Nat.add_sub_cancel_left]
    · rw [Nat.min_eq_right (by omega), Nat.min_eq_right (by omega)]
      have : n - T * q = 0 := by omega
      rw [this]; simp [List.range_eq_range']

theorem tileLines_all (n tiles : Nat) (h : 1 ≤ tiles) :
    (List.range tiles).flatMap (tileLines n tiles) = List.range n := by
  rw [tileLines_flatMap, Nat.min_eq_right]
  have := Nat.div_add_mod (n + tiles - 1) tiles
  have h2 := Nat.mod_lt (n + tiles - 1) (show 0 < tiles by omega)
  omega

theorem foldl_counts {α : Type w} (E : Nat → List (Nat × α)) (m : Nat) {j : Nat} (hj : j < m) (s : Int) (t : Nat) :
    ((List.range t).map fun t => (List.range m).map fun k => (kcount (E t) k : Int)).foldl
      (fun s c => s + c.getD j 0) s = s + (kcount ((List.range t).flatMap E) j : Int) := by
  induction t with
  | zero => simp [kcount]
  | succ t ih =>
    rw [List.range_succ, List.map_append, List.foldl_append, ih, List.flatMap_append, kcount_append]
    simp [List.getD_eq_getElem?_getD, hj]
    omega

theorem mapM_eq_some {α β : Type _} {f : α → Option β} {g : α → β} : ∀ (l : List α),
    (∀ x ∈ l, f x = some (g x)) → l.mapM f = some (l.map g)
  | [], _ => rfl
  | x :: l, h => by
    rw [List.mapM_cons, h x (by simp), mapM_eq_some l (fun y hy => h y (by simp [hy]))]
    rfl

theorem kev_events {a : Comp V} : kev a (List.range a.n) = a.events.map fun e => (e.2.1.toNat, (usizeToI64 e.1, e.2.2)) := by
  unfold kev Comp.events
  rw [List.map_flatMap]
  congr 1
  funext i
  rw [List.map_map]; rfl

theorem kcount_take {α : Type w} (E : Nat → List (Nat × α)) {t T : Nat} (h : t < T) (k : Nat) :
    kcount ((List.range t).flatMap E) k + kcount (E t) k ≤ kcount ((List.range T).flatMap E) k := by
  induction T with
  | zero => omega
  | succ T ih =>
    rw [List.range_succ, List.flatMap_append, kcount_append]
    simp only [List.flatMap_cons, List.flatMap_nil, List.append_nil]
    by_cases ht : t = T
    · subst ht; omega
    · have := ih (by omega); omega

/-- The writes of all tiles are the slot claims in program order. -/
theorem transposeA_writes {a : Comp V} (hw : a.WFU) (hd : a.NoRep) (hf : a.Fits) {tiles : Nat} (ht : 1 ≤ tiles) :
    ∃ counts wss,
      (List.range tiles).mapM (fun t => tileCounts a (tileLines a.n tiles t)) = some counts ∧
      tilesPtr a.m counts = prefixPtr (((List.range a.m).map (tline a.events)).map List.length) ∧
      (List.range tiles).mapM (fun t =>
        fillTile a (tileOffsets a.m (tilesPtr a.m counts) counts t) (tileLines a.n tiles t)) = some wss ∧
      wss.flatten.Perm (lineWrites 0 ((List.range a.m).map (tline a.events)).flatten) ∧
      a.data.length = ((List.range a.m).map (tline a.events)).flatten.length := by
  have hs := interleaving_events a
  obtain ⟨_, _, -, -, -, -, hlen⟩ := claimAll_run hw hf hs
  have hb := buckets_sched hw hf hs
  let E : Nat → List (Nat × (Int × V)) := fun t => kev a (tileLines a.n tiles t)
  have hE : (List.range tiles).flatMap E = a.events.map fun e => (e.2.1.toNat, (usizeToI64 e.1, e.2.2)) := by
    have h1 : (List.range tiles).flatMap E = kev a ((List.range tiles).flatMap (tileLines a.n tiles)) := by
      show (List.range tiles).flatMap (fun t => (tileLines a.n tiles t).flatMap _) = _
      unfold kev
      rw [List.flatMap_assoc]
    rw [h1, tileLines_all _ _ ht, kev_events]
  have hcol : ∀ j, j < a.m → kcount ((List.range tiles).flatMap E) j = (tline a.events j).length := by
    intro j hj
    have := congrArg (fun l => (l.getD j []).length) hb
    simp only [buckets] at this
    rw [List.getD_eq_getElem _ _ (by simpa using hj), List.getD_eq_getElem _ _ (by simpa using hj)] at this
    simp only [List.getElem_map, List.getElem_range, List.length_map] at this
    rw [hE]
    exact this
  have hptr : tilesPtr a.m ((List.range tiles).map fun t => (List.range a.m).map fun k => (kcount (E t) k : Int)) =
      prefixPtr (((List.range a.m).map (tline a.events)).map List.length) := by
    unfold tilesPtr prefixPtr
    rw [← runSum_eq 0]
    simp only [Int.natCast_zero, List.map_map]
    congr 2
    apply List.map_congr_left
    intro j hj
    have hj : j < a.m := by simpa using hj
    rw [foldl_counts E a.m hj, hcol j hj]
    simp
  have hkeys : ∀ e ∈ a.events.map (fun e => (e.2.1.toNat, (usizeToI64 e.1, e.2.2))), e.1 < a.m := by
    intro e he
    obtain ⟨e', he', rfl⟩ := List.mem_map.1 he
    have := hw.row_bounds _ _ (hs.mem he').2
    simp only; omega
  have hperm := claimsF_scatter a.m _ hkeys
  rw [hb, ← hE] at hperm
  let base : Nat → Nat := fun j => ((((List.range a.m).map (tline a.events)).map List.length).take j).sum
  have hbase : ∀ j, j < a.m → ((base j + kcount ((List.range tiles).flatMap E) j : Nat) : Int) ≤ i64Max := by
    intro j hj
    have h2 := sum_take_le (((List.range a.m).map (tline a.events)).map List.length) (j + 1)
    rw [List.take_succ_eq_append_getElem (by simpa using hj), List.sum_append, ← List.length_flatten, ← hlen] at h2
    simp only [List.getElem_map, List.getElem_range, List.sum_cons, List.sum_nil] at h2
    rw [hcol j hj]
    have := hf.2
    show ((((((List.range a.m).map (tline a.events)).map List.length).take j).sum + _ : Nat) : Int) ≤ _
    omega
  refine ⟨_, (List.range tiles).map fun t => (claimsF (fun k => base k + kcount ((List.range t).flatMap E) k) (E t)).map Prod.snd,
    mapM_eq_some _ (fun t _ => tileCounts_eq hw _), hptr, mapM_eq_some _ (fun t h => ?_), ?_, hlen⟩
  · have htt : t < tiles := by simpa using h
    apply fillTile_eq hw hd
    · intro k hk
      unfold tileOffsets
      rw [← List.map_take, List.take_range, Nat.min_eq_left (by omega), List.getElem?_map, List.getElem?_range hk,
        Option.map_some, foldl_counts E a.m hk]
      congr 1
      have hp : (tilesPtr a.m ((List.range tiles).map fun t => (List.range a.m).map fun k => (kcount (E t) k : Int))).getD k 0 =
          (base k : Int) := by
        rw [hptr, prefixPtr_getD _ _ (by simp; omega)]
      show (tilesPtr a.m ((List.range tiles).map fun t => (List.range a.m).map fun k => (kcount (E t) k : Int))).getD k 0 + _ = _
      rw [hp]
      simp
    · intro k hk
      have h1 := kcount_take E htt k
      have h2 := hbase k hk
      show ((base k + kcount ((List.range t).flatMap E) k + kcount (E t) k : Nat) : Int) ≤ _
      omega
  · rw [← List.flatMap_def, ← List.map_flatMap, claimsF_tiles]
    exact hperm

theorem transposeA_eq [Zero V] {a r : Comp V} (hw : a.WFU) (hd : a.NoRep) (hf : a.Fits) {tiles : Nat} (ht : 1 ≤ tiles)
    (h : TransposeARun tiles a r) : r = tcomp a a.events := by
  obtain ⟨counts, h1, wss, h2, wi, wv, h3, h4, rfl⟩ := h
  obtain ⟨counts', wss', g1, g2, g3, g4, g5⟩ := transposeA_writes hw hd hf ht
  rw [h1] at g1; cases g1
  rw [h2] at g3; cases g3
  unfold tcomp Comp.ofRows
  congr 1
  · simp
  · exact applyWrites_scatter_map Prod.fst g4 h3 (by simp [g5])
  · exact applyWrites_scatter_map Prod.snd g4 h4 (by simp [g5])

theorem transposeA_of [Zero V] {a : Comp V} (hw : a.WFU) (hd : a.NoRep) (hf : a.Fits) {tiles : Nat} (ht : 1 ≤ tiles) :
    TransposeARun tiles a (tcomp a a.events) := by
  obtain ⟨counts, wss, g1, g2, g3, g4, g5⟩ := transposeA_writes hw hd hf ht
  refine ⟨counts, g1, wss, g3, _, _, List.Perm.refl _, List.Perm.refl _, ?_⟩
  unfold tcomp Comp.ofRows
  have k1 := applyWrites_scatter_map (buf := List.replicate a.data.length (0 : Int)) Prod.fst g4
    (List.Perm.refl _) (by rw [List.length_replicate, g5])
  have k2 := applyWrites_scatter_map (buf := List.replicate a.data.length (0 : V)) Prod.snd g4
    (List.Perm.refl _) (by rw [List.length_replicate, g5])
  rw [k1, k2, g2]
  congr 1
  simp

/-! ### Strategy B -/

theorem applyWrites_agree {α : Type u} (flat : List α) (ws : List (Nat × α)) : ∀ (buf : List α),
    buf.length = flat.length → (∀ w ∈ ws, flat[w.1]? = some w.2) →
    (∀ p, (∀ w ∈ ws, w.1 ≠ p) → buf[p]? = flat[p]?) → applyWrites buf ws = flat := by
  induction ws with
  | nil =>
    intro buf _ _ h3
    exact List.ext_getElem? (fun p => h3 p (by simp))
  | cons w ws ih =>
    intro buf h1 h2 h3
    show applyWrites (buf.set w.1 w.2) ws = flat
    apply ih
    · simpa using h1
    · exact fun w' hw' => h2 w' (by simp [hw'])
    · intro p hp
      have hw := h2 w (by simp)
      rw [List.getElem?_set]
      by_cases h : w.1 = p
      · subst h
        rw [if_pos rfl, hw, if_pos]
        rw [h1]; exact (List.getElem?_eq_some_iff.1 hw).1
      · rw [if_neg h]
        apply h3
        intro w' hw'
        rcases List.mem_cons.1 hw' with rfl | hw'
        · exact h
        · exact hp w' hw'

theorem mem_lineWrites {α : Type u} (s : Nat) (l : List α) {w : Nat × α} (h : w ∈ lineWrites s l) :
    ∃ d, w.1 = s + d ∧ l[d]? = some w.2 := by
  induction l generalizing s with
  | nil => cases h
  | cons x l ih =>
    rcases List.mem_cons.1 h with rfl | h
    · exact ⟨0, rfl, rfl⟩
    · obtain ⟨d, h1, h2⟩ := ih _ h
      exact ⟨d + 1, by omega, by simpa using h2⟩

theorem lineWrites_mem {α : Type u} (s : Nat) (l : List α) (d : Nat) (hd : d < l.length) :
    (s + d, l[d]) ∈ lineWrites s l := by
  induction l generalizing s d with
  | nil => simp at hd
  | cons x l ih =>
    cases d with
    | zero => simp [lineWrites]
    | succ d =>
      refine List.mem_cons_of_mem _ ?_
      have := ih (s + 1) d (by simpa using hd)
      rw [show s + (d + 1) = s + 1 + d by omega]
      simpa using this

theorem Comp.WFU.entries_getElem? {a : Comp V} (h : a.WFU) {i d : Nat} (hi : i < a.n) (hd : d < (a.row i).length) :
    a.entries[a.ptr i + d]? = (a.row i)[d]? := by
  rw [h.row_length hi] at hd
  unfold Comp.row
  rw [List.getElem?_take, if_pos hd, List.getElem?_drop]

theorem Comp.WFU.exists_line {a : Comp V} (h : a.WFU) {p : Nat} (hp : p < a.indices.length) :
    ∃ i, i < a.n ∧ a.ptr i ≤ p ∧ p < a.ptr (i + 1) := by
  have : ∀ k, k ≤ a.n → p < a.ptr k → ∃ i, i < k ∧ a.ptr i ≤ p ∧ p < a.ptr (i + 1) := by
    intro k
    induction k with
    | zero => intro _ h0; rw [h.ptr_zero] at h0; omega
    | succ k ih =>
      intro hk h1
      by_cases h2 : p < a.ptr k
      · obtain ⟨i, h3, h4⟩ := ih (by omega) h2
        exact ⟨i, by omega, h4⟩
      · exact ⟨k, by omega, by omega, h1⟩
  exact this a.n (Nat.le_refl _) (by rw [h.ptr_n]; exact hp)

theorem tline_perm {a : Comp V} {sched : List (Nat × (Int × V))} (hs : Interleaving a sched) (j : Nat) :
    (tline sched j).Perm (tline a.events j) :=
  (hs.perm.filter _).map _

/-- A sorted permutation of a strictly sorted line is that line. -/
theorem perm_sorted_eq {l l' : List (Int × V)} (hp : l.Perm l') (h1 : l.Pairwise fun x y => x.1 ≤ y.1)
    (h2 : (l'.map Prod.fst).Pairwise (· < ·)) : l = l' := by
  have hn : (l'.map Prod.fst).Nodup := h2.imp (fun h => by omega)
  apply List.Perm.eq_of_pairwise (le := fun x y : Int × V => x.1 ≤ y.1) _ h1
    ((List.pairwise_map.1 h2).imp (fun h => by omega)) hp
  intro x y hx hy hxy hyx
  have hx' := hp.mem_iff.1 hx
  have e : x.1 = y.1 := by omega
  exact List.inj_on_of_nodup_map hn hx' hy e

theorem transposeB_eq [Zero V] {a r : Comp V} (hw : a.WFU) (hd : a.NoRep) (hf : a.Fits) {sort : List (Int × V) → List (Int × V)}
    (hsort : IsPairSort sort) (h : TransposeBRun sort a r) : r = tcomp a a.events := by
  obtain ⟨c, hc, wi, wv, h1, h2, rfl⟩ := h
  obtain ⟨sched, hs, rfl⟩ := atomicFill_eq hw hf hc
  have hwc := tcomp_wfu hs hf
  have hwt := tcomp_wfu (interleaving_events a) hf
  have hlen : ∀ j, (tline sched j).length = (tline a.events j).length := fun j => (tline_perm hs j).length_eq
  have hptrs : (tcomp a sched).indptr = (tcomp a a.events).indptr := by
    unfold tcomp Comp.ofRows
    simp only [List.map_map]
    congr 1
    apply List.map_congr_left
    intro j _
    exact hlen j
  have hptr : ∀ j, (tcomp a sched).ptr j = (tcomp a a.events).ptr j := fun j => by
    unfold Comp.ptr; rw [hptrs]
  have hn : ∀ s, (tcomp a s).n = a.m := fun s => by simp [tcomp, Comp.ofRows]
  have hrow : ∀ s j, j < a.m → (tcomp a s).row j = tline s j := by
    intro s j hj
    unfold tcomp
    rw [Comp.row_ofRows', if_pos hj]
  have hsrt : ∀ j, j < a.m → sort ((tcomp a sched).row j) = (tcomp a a.events).row j := by
    intro j hj
    rw [hrow _ _ hj, hrow _ _ hj]
    exact perm_sorted_eq ((hsort _).1.trans (tline_perm hs j)) (hsort _).2 (tline_events_sorted hd j)
  have hilen : (tcomp a sched).indices.length = (tcomp a a.events).indices.length := by
    rw [← hwc.ptr_n, ← hwt.ptr_n, hptr, hn, hn]
  -- the writes carry the target entries
  have hwr : ∀ w ∈ sortWrites sort (tcomp a sched), (tcomp a a.events).entries[w.1]? = some w.2 := by
    intro w hw'
    unfold sortWrites at hw'
    obtain ⟨j, hj, hw'⟩ := List.mem_flatMap.1 hw'
    have hj : j < a.m := by simpa [hn] using hj
    split at hw'
    · cases hw'
    · rw [hsrt j hj, hptr] at hw'
      obtain ⟨d, e1, e2⟩ := mem_lineWrites _ _ hw'
      have hd := (List.getElem?_eq_some_iff.1 e2).1
      rw [e1, hwt.entries_getElem? (by rw [hn]; exact hj) hd, e2]
  -- everything else already is in place
  have hkeep : ∀ p, (∀ w ∈ sortWrites sort (tcomp a sched), w.1 ≠ p) →
      (tcomp a sched).entries[p]? = (tcomp a a.events).entries[p]? := by
    intro p hp
    by_cases hlt : p < (tcomp a sched).indices.length
    · obtain ⟨j, hj, g1, g2⟩ := hwc.exists_line hlt
      have hj' : j < a.m := by rw [← hn sched]; exact hj
      have hl := hwc.row_length hj
      by_cases hshort : (tcomp a sched).ptr (j + 1) ≤ (tcomp a sched).ptr j + 1
      · have e : (tcomp a sched).row j = (tcomp a a.events).row j := by
          rw [hrow _ _ hj', hrow _ _ hj']
          rw [hrow _ _ hj'] at hl
          have hp := tline_perm hs j
          match hm : tline sched j with
          | [] => rw [hm] at hp; exact hp.nil_eq
          | [x] => rw [hm] at hp; exact (List.perm_singleton.1 hp.symm).symm
          | x :: y :: l => rw [hm] at hl; simp at hl; omega
        obtain ⟨d, hd⟩ : ∃ d, p = (tcomp a sched).ptr j + d := ⟨p - (tcomp a sched).ptr j, by omega⟩
        rw [hd, hwc.entries_getElem? hj (by omega), e, hptr,
          hwt.entries_getElem? (by rw [hn]; exact hj') (by rw [← e]; omega)]
      · exfalso
        have hl2 : (sort ((tcomp a sched).row j)).length = ((tcomp a sched).row j).length := (hsort _).1.length_eq
        have hm := lineWrites_mem ((tcomp a sched).ptr j) (sort ((tcomp a sched).row j)) (p - (tcomp a sched).ptr j) (by omega)
        have hmem : ((tcomp a sched).ptr j + (p - (tcomp a sched).ptr j),
            (sort ((tcomp a sched).row j))[p - (tcomp a sched).ptr j]'(by omega)) ∈ sortWrites sort (tcomp a sched) := by
          refine List.mem_flatMap.2 ⟨j, by simpa using hj, ?_⟩
          rw [if_neg hshort]; exact hm
        exact hp _ hmem (show (tcomp a sched).ptr j + (p - (tcomp a sched).ptr j) = p from by omega)
    · rw [List.getElem?_eq_none (by rw [hwc.entries_length]; omega),
        List.getElem?_eq_none (by rw [hwt.entries_length]; omega)]
  have hfst : ∀ {x : Comp V}, x.WFU → x.indices = x.entries.map Prod.fst := fun hx => by
    rw [Comp.entries, List.map_fst_zip (by rw [hx.data_length]; exact Nat.le_refl _)]
  have hsnd : ∀ {x : Comp V}, x.WFU → x.data = x.entries.map Prod.snd := fun hx => by
    rw [Comp.entries, List.map_snd_zip (by rw [hx.data_length]; exact Nat.le_refl _)]
  have e1 : applyWrites (tcomp a sched).indices wi = (tcomp a a.events).indices := by
    apply applyWrites_agree _ _ _ hilen
    · intro w hw'
      obtain ⟨w', hm, rfl⟩ := List.mem_map.1 (h1.mem_iff.1 hw')
      rw [hfst hwt, List.getElem?_map, hwr w' hm]; rfl
    · intro p hp
      rw [hfst hwt, hfst hwc, List.getElem?_map, List.getElem?_map, hkeep p]
      intro w' hm
      exact hp (w'.1, w'.2.1) (h1.mem_iff.2 (List.mem_map.2 ⟨w', hm, rfl⟩))
  have e2 : applyWrites (tcomp a sched).data wv = (tcomp a a.events).data := by
    apply applyWrites_agree _ _ _ (by rw [hwc.data_length, hwt.data_length, hilen])
    · intro w hw'
      obtain ⟨w', hm, rfl⟩ := List.mem_map.1 (h2.mem_iff.1 hw')
      rw [hsnd hwt, List.getElem?_map, hwr w' hm]; rfl
    · intro p hp
      rw [hsnd hwt, hsnd hwc, List.getElem?_map, List.getElem?_map, hkeep p]
      intro w' hm
      exact hp (w'.1, w'.2.2) (h2.mem_iff.2 (List.mem_map.2 ⟨w', hm, rfl⟩))
  rw [e1, e2, hptrs, hn]
  show _ = (⟨(tcomp a a.events).n, _, _, _, _⟩ : Comp V)
  rw [hn]
  rfl

theorem transposeB_exists [Zero V] {a : Comp V} (hw : a.WFU) (hf : a.Fits) (sort : List (Int × V) → List (Int × V)) :
    ∃ r, TransposeBRun sort a r :=
  ⟨_, _, atomicFill_of hw hf (interleaving_events a), _, _, List.Perm.refl _, List.Perm.refl _, rfl⟩

end Lacuna
