import Verif.Model.Spmm
import Verif.Lemmas.Spmv
import Verif.Lemmas.Transpose
import Verif.Lemmas.Reduce
import Verif.Props.Convert
/-
Lemmas about the tiled matrix-matrix products.
-/
namespace Lacuna
universe u
variable {V : Type u}

/-! ### Law-free totals -/

/-- Left-to-right sum from 0 of the values added to slot `k`. -/
def slotSum [Zero V] [Add V] (ops : List (Nat × V)) (k : Nat) : V :=
  ((ops.filter fun o => o.1 == k).map Prod.snd).foldl (· + ·) 0

theorem addAll_slot [Zero V] [Add V] (ops : List (Nat × V)) (y : List V) (i : Nat) (hi : i < y.length) :
    (addAll y ops).getD i 0 = ((ops.filter fun o => o.1 == i).map Prod.snd).foldl (· + ·) (y.getD i 0) := by
  induction ops generalizing y with
  | nil => rfl
  | cons o ops ih =>
    show (addAll (addAt y o.1 o.2) ops).getD i 0 = _
    rw [ih _ (by rw [addAt_length]; exact hi)]
    by_cases h : o.1 = i
    · subst h
      rw [List.filter_cons_of_pos (by simp), List.map_cons, List.foldl_cons]
      congr 1
      simp [addAt, hi]
    · rw [List.filter_cons_of_neg (by simpa using h)]
      congr 1
      simp [addAt, List.getD_eq_getElem?_getD, List.getElem?_set_ne h]

theorem addAll_zero_slot [Zero V] [Add V] (n : Nat) (ops : List (Nat × V)) :
    addAll (List.replicate n 0) ops = (List.range n).map (slotSum ops) := by
  apply ext_getD (n := n) (by rw [addAll_length]; simp) (by simp)
  intro i hi
  rw [addAll_slot _ _ _ (by simpa using hi), replicate_getD_zero]
  simp [hi, slotSum]

/-! ### Shuffles -/

/-- The additions to a slot that only sequence `t` touches happen in the order of that
sequence. -/
theorem Shuffle.slot {parts : List (List (Nat × V))} {sched : List (Nat × (Nat × V))} (h : Shuffle parts sched)
    (k t : Nat) (ht : t < parts.length)
    (hk : ∀ s, s < parts.length → s ≠ t → ∀ o ∈ parts.getD s [], o.1 ≠ k) :
    ((sched.map Prod.snd).filter fun o => o.1 == k) = (parts.getD t []).filter fun o => o.1 == k := by
  rw [← h.2 t ht, List.filter_map, List.filter_map, List.filter_filter]
  congr 1
  apply List.filter_congr
  intro e he
  simp only [Function.comp]
  by_cases hek : e.2.1 = k
  · have : e.1 = t := by
      by_contra hne
      refine hk e.1 (h.1 e he) hne e.2 ?_ hek
      rw [← h.2 e.1 (h.1 e he)]
      exact List.mem_map.2 ⟨e, List.mem_filter.2 ⟨he, by simp⟩, rfl⟩
    simp [hek, this]
  · simp [hek]

/-- An execution order: sequence after sequence. -/
theorem Shuffle.seq {α : Type u} (parts : List (List α)) :
    Shuffle parts ((List.range parts.length).flatMap fun t => (parts.getD t []).map fun e => (t, e)) := by
  constructor
  · intro e he
    obtain ⟨t, ht, he⟩ := List.mem_flatMap.1 he
    obtain ⟨x, _, rfl⟩ := List.mem_map.1 he
    exact List.mem_range.1 ht
  · intro t ht
    rw [List.filter_flatMap, List.map_flatMap]
    have : ∀ l : List Nat, l.Nodup → t ∈ l →
        (l.flatMap fun s => (((parts.getD s []).map fun e => (s, e)).filter fun e => e.1 == t).map Prod.snd) =
          parts.getD t [] := by
      intro l
      induction l with
      | nil => intro _ h; cases h
      | cons s l ih =>
        intro hn hm
        rw [List.flatMap_cons]
        by_cases hs : s = t
        · subst hs
          rw [show (l.flatMap fun s' => (((parts.getD s' []).map fun e => (s', e)).filter fun e => e.1 == s).map Prod.snd) = [] by
            rw [List.flatMap_eq_nil_iff]
            intro s' hs'
            have hne : s' ≠ s := fun h => (List.nodup_cons.1 hn).1 (h ▸ hs')
            simp [hne]]
          rw [List.append_nil, List.filter_map, List.map_map]
          simp
        · rw [ih (List.nodup_cons.1 hn).2 (by
            rcases List.mem_cons.1 hm with h | h
            · exact absurd h.symm hs
            · exact h)]
          simp [hs]
    exact this _ List.nodup_range (List.mem_range.2 ht)

theorem Shuffle.exists {α : Type u} (parts : List (List α)) : ∃ sched, Shuffle parts sched := ⟨_, Shuffle.seq parts⟩

theorem Shuffle.seq_flatten {α : Type u} (parts : List (List α)) :
    ((List.range parts.length).flatMap fun t => (parts.getD t []).map fun e => (t, e)).map Prod.snd = parts.flatten := by
  rw [List.map_flatMap]
  simp only [List.map_map, Function.comp_def, List.map_id']
  rw [List.flatMap_def]
  congr 1
  refine List.ext_getElem (by simp) fun i h1 h2 => ?_
  rw [List.getElem_map, List.getElem_range, List.getD_eq_getElem _ _ h2]

theorem Shuffle.mem {α : Type u} {parts : List (List α)} {sched : List (Nat × α)} (h : Shuffle parts sched)
    {o : α} (ho : o ∈ sched.map Prod.snd) : ∃ p ∈ parts, o ∈ p := by
  obtain ⟨e, he, rfl⟩ := List.mem_map.1 ho
  have ht := h.1 e he
  refine ⟨parts.getD e.1 [], ?_, ?_⟩
  · rw [List.getD_eq_getElem _ _ ht]; exact List.getElem_mem _
  · rw [← h.2 e.1 ht]
    exact List.mem_map.2 ⟨e, List.mem_filter.2 ⟨he, by simp⟩, rfl⟩

/-! ### Tiles -/

theorem tileCols_mem {k c0 : Nat} {c : Nat × Bool} (h : c ∈ tileCols k c0) : c0 ≤ c.1 ∧ c.1 < c0 + 128 ∧ c.1 < k := by
  obtain ⟨d, hd, rfl⟩ := List.mem_map.1 h
  have := List.mem_range.1 hd
  refine ⟨by simp, ?_, ?_⟩ <;> simp only <;> omega

/-- Whether column `c` is handled by a SIMD lane. -/
def laneOf (k c : Nat) : Bool :=
  decide (c % 128 < (min (c / 128 * 128 + 128) k - c / 128 * 128) / 4 * 4)

theorem tileCols_eq (k t : Nat) : tileCols k (t * 128) =
    (List.range' (t * 128) (min (t * 128 + 128) k - t * 128)).map fun c => (c, laneOf k c) := by
  unfold tileCols
  rw [List.range'_eq_map_range, List.map_map]
  apply List.map_congr_left
  intro c hc
  have := List.mem_range.1 hc
  have h1 : (t * 128 + c) / 128 = t := by omega
  have h2 : (t * 128 + c) % 128 = c := by omega
  simp only [Function.comp, laneOf, h1, h2]

theorem tile_mul {k d c d' c' : Nat} (hc : c < k) (hc' : c' < k) : d * k + c = d' * k + c' ↔ d = d' ∧ c = c' := by
  constructor
  · intro h
    have h1 : (d * k + c) / k = d := by
      rw [Nat.mul_comm, Nat.mul_add_div (by omega), Nat.div_eq_of_lt hc]; omega
    have h2 : (d' * k + c') / k = d' := by
      rw [Nat.mul_comm, Nat.mul_add_div (by omega), Nat.div_eq_of_lt hc']; omega
    have : d = d' := by rw [← h1, h, h2]
    subst this
    exact ⟨rfl, by omega⟩
  · rintro ⟨rfl, rfl⟩; rfl

theorem mul_add_lt {k n d c : Nat} (hd : d < n) (hc : c < k) : d * k + c < n * k := by
  have : (d + 1) * k ≤ n * k := Nat.mul_le_mul_right k hd
  rw [Nat.add_mul] at this
  omega

/-- The additions of the tile starting at `128 t`. -/
def tileList [Zero V] [Mul V] (b : List V) (k t : Nat) (es : List (Nat × Nat × V)) : List (Nat × V) :=
  es.flatMap fun e => (List.range' (t * 128) (min (t * 128 + 128) k - t * 128)).map fun c =>
    (e.2.1 * k + c, laneProd (laneOf k c) e.2.2 (b.getD (e.1 * k + c) 0))

theorem tileOps_eq [Zero V] [Mul V] {b : List V} {k n : Nat} (hb : b.length = n * k) (t : Nat)
    {es : List (Nat × Nat × V)} (he : ∀ e ∈ es, e.1 < n) :
    tileOps b k (t * 128) es = some (tileList b k t es) := by
  unfold tileOps
  rw [mapM_option_map (g := fun p : (Nat × Nat × V) × (Nat × Bool) =>
      (p.1.2.1 * k + p.2.1, laneProd p.2.2 p.1.2.2 (b.getD (p.1.1 * k + p.2.1) 0)))]
  · unfold tileList
    rw [List.map_flatMap]
    congr 1
    congr 1
    funext e
    rw [tileCols_eq, List.map_map, List.map_map]
    rfl
  · intro p hp
    obtain ⟨e, hee, hp⟩ := List.mem_flatMap.1 hp
    obtain ⟨c, hc, rfl⟩ := List.mem_map.1 hp
    have hlt : e.1 * k + c.1 < b.length := by rw [hb]; exact mul_add_lt (he e hee) (tileCols_mem hc).2.2
    simp only
    rw [List.getElem?_eq_getElem hlt, List.getD_eq_getElem _ _ hlt]
    rfl

theorem tileList_mem [Zero V] [Mul V] {b : List V} {k t : Nat} {es : List (Nat × Nat × V)} {o : Nat × V}
    (h : o ∈ tileList b k t es) : ∃ e ∈ es, ∃ c, c < k ∧ c / 128 = t ∧ o.1 = e.2.1 * k + c := by
  obtain ⟨e, he, h⟩ := List.mem_flatMap.1 h
  obtain ⟨c, hc, rfl⟩ := List.mem_map.1 h
  rw [List.mem_range'_1] at hc
  exact ⟨e, he, c, by omega, by omega, rfl⟩

/-- The additions to one output element come from the entries of its row. -/
theorem tileList_slot [Zero V] [Mul V] (b : List V) (k : Nat) (es : List (Nat × Nat × V)) (d c : Nat) (hc : c < k) :
    (((tileList b k (c / 128) es).filter fun o => o.1 == d * k + c).map Prod.snd) =
      (es.filter fun e => e.2.1 == d).map fun e => laneProd (laneOf k c) e.2.2 (b.getD (e.1 * k + c) 0) := by
  unfold tileList
  induction es with
  | nil => rfl
  | cons e es ih =>
    rw [List.flatMap_cons, List.filter_append, List.map_append, ih, List.filter_map, List.map_map]
    have hfilter : (List.range' (c / 128 * 128) (min (c / 128 * 128 + 128) k - c / 128 * 128)).filter
        ((fun o : Nat × V => o.1 == d * k + c) ∘ fun c =>
          (e.2.1 * k + c, laneProd (laneOf k c) e.2.2 (b.getD (e.1 * k + c) 0))) =
        if e.2.1 = d then [c] else [] := by
      have hstep : ∀ l : List Nat, (∀ x ∈ l, x < k) → l.filter ((fun o : Nat × V => o.1 == d * k + c) ∘ fun c =>
          (e.2.1 * k + c, laneProd (laneOf k c) e.2.2 (b.getD (e.1 * k + c) 0))) =
          l.filter fun x => decide (e.2.1 = d) && (x == c) := by
        intro l hl
        apply List.filter_congr
        intro x hx
        simp only [Function.comp]
        rw [Bool.eq_iff_iff, beq_iff_eq, tile_mul (hl x hx) hc]
        simp
      rw [hstep _ (fun x hx => by rw [List.mem_range'_1] at hx; omega)]
      by_cases hd : e.2.1 = d
      · simp only [hd, decide_true, Bool.true_and, if_true]
        have hn : (List.range' (c / 128 * 128) (min (c / 128 * 128 + 128) k - c / 128 * 128)).Nodup := List.nodup_range'
        have hm : c ∈ List.range' (c / 128 * 128) (min (c / 128 * 128 + 128) k - c / 128 * 128) := by
          rw [List.mem_range'_1]; omega
        rw [List.filter_beq, List.count_eq_one_of_mem hn hm]
        rfl
      · simp [hd]
    rw [hfilter]
    by_cases hd : e.2.1 = d
    · rw [if_pos hd, List.filter_cons_of_pos (by simpa using hd)]
      rfl
    · rw [if_neg hd, List.filter_cons_of_neg (by simpa using hd)]
      rfl

/-- One output element: the left-to-right accumulation over the entries of its row. -/
def mmCell [Zero V] [Add V] [Mul V] (b : List V) (k : Nat) (es : List (Nat × V)) (c : Nat) : V :=
  es.foldl (fun acc e => acc + laneProd (laneOf k c) e.2 (b.getD (e.1 * k + c) 0)) 0

theorem tiles_length (k : Nat) : (tiles k).length = (k + 127) / 128 := by simp [tiles]

theorem tilesRun_iff [Zero V] [Add V] [Mul V] {n N k : Nat} {b : List V} (hb : b.length = n * k)
    {es : List (Nat × Nat × V)} (he : ∀ e ∈ es, e.1 < n ∧ e.2.1 < N) (y : List V) :
    TilesRun (N * k) b k es y ↔
      y = (List.range (N * k)).map fun p =>
        mmCell b k ((es.filter fun e => e.2.1 == p / k).map fun e => (e.1, e.2.2)) (p % k) := by
  have hparts : (tiles k).mapM (fun c0 => tileOps b k c0 es) =
      some ((List.range ((k + 127) / 128)).map fun t => tileList b k t es) := by
    unfold tiles
    rw [List.mapM_map]
    exact mapM_option_map (fun t _ => tileOps_eq hb t (fun e hee => (he e hee).1))
  have key : ∀ sched, Shuffle ((List.range ((k + 127) / 128)).map fun t => tileList b k t es) sched →
      addAll? (List.replicate (N * k) 0) (sched.map Prod.snd) =
        some ((List.range (N * k)).map fun p =>
          mmCell b k ((es.filter fun e => e.2.1 == p / k).map fun e => (e.1, e.2.2)) (p % k)) := by
    intro sched hs
    rw [addAll?_eq _ _ (by
      intro o ho
      obtain ⟨p, hp, hop⟩ := hs.mem ho
      obtain ⟨t, _, rfl⟩ := List.mem_map.1 hp
      obtain ⟨e, hee, c, hc, _, h⟩ := tileList_mem hop
      rw [h, List.length_replicate]
      exact mul_add_lt (he e hee).2 hc), addAll_zero_slot]
    congr 1
    apply List.map_congr_left
    intro p hp
    have hpk := List.mem_range.1 hp
    have hk : 0 < k := by
      rcases Nat.eq_zero_or_pos k with h | h
      · subst h; simp at hpk
      · exact h
    have hc : p % k < k := Nat.mod_lt _ hk
    have hp' : p / k * k + p % k = p := by rw [Nat.mul_comm]; exact Nat.div_add_mod p k
    have ht : p % k / 128 < (k + 127) / 128 := by omega
    unfold slotSum
    rw [hs.slot p (p % k / 128) (by simpa using ht) (by
      intro s hs' hne o ho
      have hs'' : s < (k + 127) / 128 := by simpa using hs'
      simp only [List.getD_eq_getElem?_getD, List.getElem?_map, List.getElem?_range hs'', Option.map_some,
        Option.getD_some] at ho
      obtain ⟨e, _, c, hc', hct, h⟩ := tileList_mem ho
      intro hop
      rw [h, ← hp', tile_mul hc' hc] at hop
      rw [hop.2] at hct
      exact hne hct.symm)]
    rw [show ((List.range ((k + 127) / 128)).map fun t => tileList b k t es).getD (p % k / 128) [] =
      tileList b k (p % k / 128) es by
        simp only [List.getD_eq_getElem?_getD, List.getElem?_map, List.getElem?_range ht, Option.map_some,
          Option.getD_some]]
    have := tileList_slot b k es (p / k) (p % k) hc
    rw [hp'] at this
    rw [this]
    unfold mmCell
    rw [List.foldl_map, List.foldl_map]
  constructor
  · rintro ⟨parts, sched, hp, hs, h⟩
    rw [hparts] at hp
    obtain rfl := Option.some.inj hp
    rw [key sched hs] at h
    exact (Option.some.inj h).symm
  · rintro rfl
    obtain ⟨sched, hs⟩ := Shuffle.exists ((List.range ((k + 127) / 128)).map fun t => tileList b k t es)
    exact ⟨_, sched, hparts, hs, key sched hs⟩

/-! ### One CSR row -/

/-- The row after the first `t` tiles. -/
def rowState [Zero V] [Add V] [Mul V] (b : List V) (k : Nat) (es : List (Nat × V)) (t : Nat) : List V :=
  (List.range k).map fun c => if c < t * 128 then mmCell b k es c else 0

theorem rowState_getD [Zero V] [Add V] [Mul V] (b : List V) (k : Nat) (es : List (Nat × V)) (t c : Nat) (hc : c < k) :
    (rowState b k es t).getD c 0 = if c < t * 128 then mmCell b k es c else 0 := by
  simp [rowState, hc]

theorem rowTile_eq [Zero V] [Add V] [Mul V] {b : List V} {k n : Nat} (hb : b.length = n * k)
    {row : List (Int × V)} (hr : ∀ e ∈ row, 0 ≤ e.1 ∧ e.1 < n ∧ e.1 ≤ i64Max) (t : Nat) :
    rowTile b k row (rowState b k (row.map fun e => (e.1.toNat, e.2)) t) (t * 128) =
      some (rowState b k (row.map fun e => (e.1.toNat, e.2)) (t + 1)) := by
  have hus : ∀ e ∈ row, i64ToUsize e.1 = e.1.toNat := fun e he => i64ToUsize_of_nonneg (hr e he).1 (hr e he).2.2
  unfold rowTile
  split
  · rw [show (row.map fun e => (i64ToUsize e.1, 0, e.2)) = row.map fun e => (e.1.toNat, 0, e.2) from
      List.map_congr_left fun e he => by rw [hus e he]]
    rw [tileOps_eq hb t (by
      intro e he
      obtain ⟨e', he', rfl⟩ := List.mem_map.1 he
      have := hr e' he'
      show e'.1.toNat < n
      omega)]
    rw [Option.bind_some, addAll?_eq _ _ (by
      intro o ho
      obtain ⟨e, he, c, hc, _, h⟩ := tileList_mem ho
      obtain ⟨e', he', rfl⟩ := List.mem_map.1 he
      rw [h]
      simp only [Nat.zero_mul, Nat.zero_add, rowState, List.length_map, List.length_range]
      exact hc)]
    congr 1
    apply ext_getD (n := k) (by rw [addAll_length]; simp [rowState]) (by simp [rowState])
    intro c hc
    rw [addAll_slot _ _ _ (by simpa [rowState] using hc), rowState_getD _ _ _ _ _ hc, rowState_getD _ _ _ _ _ hc]
    by_cases hct : c / 128 = t
    · subst hct
      have := tileList_slot b k (row.map fun e => (e.1.toNat, 0, e.2)) 0 c hc
      rw [Nat.zero_mul, Nat.zero_add] at this
      rw [this, if_neg (by omega), if_pos (by omega)]
      unfold mmCell
      rw [List.foldl_map, List.foldl_map, List.filter_map, List.foldl_map]
      rw [List.filter_eq_self.2 (by simp)]
    · rw [List.filter_eq_nil_iff.2 (by
        intro o ho
        obtain ⟨e, he, c', hc', hct', h⟩ := tileList_mem ho
        obtain ⟨e', he', rfl⟩ := List.mem_map.1 he
        simp only [Nat.zero_mul, Nat.zero_add] at h
        rw [h, beq_iff_eq]
        intro hh
        rw [hh] at hct'
        exact hct hct')]
      simp only [List.map_nil, List.foldl_nil]
      by_cases h1 : c < t * 128
      · rw [if_pos h1, if_pos (by omega)]
      · rw [if_neg h1, if_neg (by omega)]
  · rw [tileCols_eq, mapM_option_map (g := fun c : Nat × Bool =>
      (c.1, mmCell b k (row.map fun e => (e.1.toNat, e.2)) c.1))]
    · rw [Option.map_some, List.map_map]
      congr 1
      apply applyWrites_agree
      · simp [rowState]
      · intro w hw
        obtain ⟨c, hc, rfl⟩ := List.mem_map.1 hw
        rw [List.mem_range'_1] at hc
        have hck : c < k := by omega
        have hct : c < (t + 1) * 128 := by omega
        simp [rowState, hck, hct]
      · intro p hp
        by_cases hpk : p < k
        · simp only [rowState, List.getElem?_map, List.getElem?_range hpk, Option.map_some]
          by_cases h1 : p < t * 128
          · rw [if_pos h1, if_pos (by omega)]
          · by_cases h2 : p < (t + 1) * 128
            · exfalso
              refine hp _ (List.mem_map.2 ⟨p, ?_, rfl⟩) rfl
              rw [List.mem_range'_1]; omega
            · rw [if_neg h1, if_neg h2]
        · simp [rowState, hpk]
    · intro c hc
      obtain ⟨c', hc', rfl⟩ := List.mem_map.1 hc
      rw [List.mem_range'_1] at hc'
      have hck : c' < k := by omega
      unfold colAcc
      rw [mapM_option_map (g := fun e : Int × V => laneProd (laneOf k c') e.2 (b.getD (e.1.toNat * k + c') 0))]
      · rw [Option.map_some, List.foldl_map]
        unfold mmCell
        rw [List.foldl_map]
      · intro e he
        have hlt : e.1.toNat * k + c' < b.length := by
          rw [hb]; refine mul_add_lt ?_ hck
          have := hr e he
          omega
        rw [hus e he]
        simp only
        rw [List.getElem?_eq_getElem hlt, List.getD_eq_getElem _ _ hlt]
        rfl

theorem spmmRow_eq [Zero V] [Add V] [Mul V] {b : List V} {k n : Nat} (hb : b.length = n * k)
    {row : List (Int × V)} (hr : ∀ e ∈ row, 0 ≤ e.1 ∧ e.1 < n ∧ e.1 ≤ i64Max) :
    spmmRow b k row (List.replicate k 0) =
      some ((List.range k).map (mmCell b k (row.map fun e => (e.1.toNat, e.2)))) := by
  have h : ∀ T, ((List.range T).map (· * 128)).foldlM (rowTile b k row) (List.replicate k 0) =
      some (rowState b k (row.map fun e => (e.1.toNat, e.2)) T) := by
    intro T
    induction T with
    | zero =>
      simp only [List.range_zero, List.map_nil, List.foldlM_nil]
      show some _ = some _
      congr 1
      apply List.ext_getElem <;> simp [rowState]
    | succ T ih =>
      rw [List.range_succ, List.map_append, List.foldlM_append, ih]
      show (rowTile b k row _ (T * 128)).bind _ = _
      rw [rowTile_eq hb hr T]
      rfl
  unfold spmmRow tiles
  rw [h]
  congr 1
  unfold rowState
  apply List.map_congr_left
  intro c hc
  have := List.mem_range.1 hc
  rw [if_pos (by omega)]

theorem chunksOf_replicate {α : Type u} (k n : Nat) (hk : 0 < k) (x : α) :
    chunksOf k (List.replicate (n * k) x) = List.replicate n (List.replicate k x) := by
  induction n with
  | zero => rw [chunksOf]; simp
  | succ n ih =>
    have hne : ¬ (List.replicate ((n + 1) * k) x = [] ∨ k = 0) := by
      rw [List.replicate_eq_nil_iff]
      rintro (h | h)
      · rcases Nat.mul_eq_zero.1 h with h | h <;> omega
      · omega
    rw [chunksOf, dif_neg hne, List.take_replicate, List.drop_replicate, Nat.add_mul, Nat.one_mul,
      Nat.min_eq_left (by omega), Nat.add_sub_cancel, ih]
    rfl

theorem wrapMul_eq {a b : Nat} (h : a * b ≤ usizeMax) : wrapMul a b = a * b := Nat.mod_eq_of_lt (by omega)

theorem flatten_grid {α : Type u} (n k : Nat) (f : Nat → Nat → α) :
    ((List.range n).map fun i => (List.range k).map (f i)).flatten =
      (List.range (n * k)).map fun p => f (p / k) (p % k) := by
  induction n with
  | zero => simp
  | succ n ih =>
    rw [List.range_succ, List.map_append, List.flatten_append, ih, Nat.add_mul, Nat.one_mul, List.range_add,
      List.map_append, List.map_map]
    congr 1
    simp only [List.map_cons, List.map_nil, List.flatten_cons, List.flatten_nil, List.append_nil]
    apply List.map_congr_left
    intro c hc
    have hck := List.mem_range.1 hc
    simp only [Function.comp]
    rw [show n * k + c = k * n + c by rw [Nat.mul_comm], Nat.mul_add_div (by omega), Nat.mul_add_mod,
      Nat.div_eq_of_lt hck, Nat.mod_eq_of_lt hck, Nat.add_zero]

end Lacuna
