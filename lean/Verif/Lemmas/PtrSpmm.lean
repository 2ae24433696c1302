import Verif.Model.PtrSpmm
import Verif.Lemmas.PtrAccum
import Verif.Lemmas.PtrTransposeUb
import Verif.Lemmas.Spmm
/- The tiles of the matrix products at pointer level. -/
namespace Lacuna
variable {V : Type}

/-! ### One entry -/

/-- Length of the tile starting at `c0`. -/
def tileLen (k c0 : Nat) : Nat := min (c0 + 128) k - c0

theorem tileLen_le (k c0 : Nat) : tileLen k c0 ≤ 128 ∧ (c0 ≤ k → c0 + tileLen k c0 ≤ k) := by
  unfold tileLen; omega

theorem tileLenP_eq {dbg : Bool} {k c0 : Nat} (hk : k + 128 ≤ usizeMax) (hc : c0 ≤ k) :
    tileLenP dbg k c0 = .ok (tileLen k c0) := by
  unfold tileLenP
  rw [addUsize_eq (by omega), ok_bind, subUsize_eq (by omega)]
  rfl

theorem rowBaseP_eq {dbg : Bool} {j k c0 : Nat} (h : j * k + c0 ≤ usizeMax) : rowBaseP dbg j k c0 = .ok (j * k + c0) := by
  unfold rowBaseP
  rw [mulUsize_eq (by omega), ok_bind, addUsize_eq h]

/-- The products of one entry with a tile of a row of `b`. -/
def entryProds [Zero V] [Mul V] (b : List V) (src base tk : Nat) (aij : V) (q : Nat) : List (Nat × V) :=
  (List.range q).map fun c => (base + c, laneProd (decide (c < tk / 4 * 4)) aij (b.getD (src + c) 0))

theorem laneProd_true [Mul V] {p : Prop} [Decidable p] (h : p) (a b : V) : laneProd (decide p) a b = b * a := by
  unfold laneProd; rw [decide_eq_true h]; rfl

theorem laneProd_false [Mul V] {p : Prop} [Decidable p] (h : ¬ p) (a b : V) : laneProd (decide p) a b = a * b := by
  unfold laneProd; rw [decide_eq_false h]; rfl

theorem entryProds_four [Zero V] [Mul V] (b : List V) (src base tk : Nat) (aij : V) {q : Nat} (h : q + 4 ≤ tk / 4 * 4) :
    entryProds b src base tk aij (q + 4) = entryProds b src base tk aij q ++
      [(base + q, b.getD (src + q) 0 * aij)] ++ [(base + q + 1, b.getD (src + q + 1) 0 * aij)] ++
      [(base + q + 2, b.getD (src + q + 2) 0 * aij)] ++ [(base + q + 3, b.getD (src + q + 3) 0 * aij)] := by
  unfold entryProds
  rw [range_map_snoc4, laneProd_true (by omega), laneProd_true (by omega), laneProd_true (by omega),
    laneProd_true (by omega)]
  rfl

theorem entryProds_one [Zero V] [Mul V] (b : List V) (src base tk : Nat) (aij : V) {q : Nat} (h : tk / 4 * 4 ≤ q) :
    entryProds b src base tk aij (q + 1) = entryProds b src base tk aij q ++
      [(base + q, aij * b.getD (src + q) 0)] := by
  unfold entryProds
  rw [range_map_snoc, laneProd_false (by omega)]

theorem entryEventsP_eq [Zero V] [Mul V] {dbg : Bool} {F n : Nat} {b : List V} {off src base tk : Nat} {aij : V}
    (hs : off + src + tk ≤ b.length) (hn : base + tk ≤ n) (hbu : b.length ≤ usizeMax) (hnu : n ≤ usizeMax) (hF : tk < F)
    (evs : List (Nat × V)) :
    entryEventsP dbg F n ⟨b, off⟩ src base tk aij evs =
      .ok (evs ++ entryProds b (off + src) base tk aij tk) := by
  unfold entryEventsP
  refine Exists.elim (loops4 (F := F) (len := tk) (mid := id)
    (b4 := fun s : Nat × List (Nat × V) => do
      let q ← Ptr.add ⟨b, off⟩ (← addUsize dbg src s.1)
      let vb ← q.read4
      let y ← MutPtr.add ⟨n, 0⟩ (← addUsize dbg base s.1)
      if y.off + 4 ≤ n then
        pure (s.1 + 4, s.2 ++ [(y.off, vb.1 * aij), (y.off + 1, vb.2.1 * aij), (y.off + 2, vb.2.2.1 * aij),
          (y.off + 3, vb.2.2.2 * aij)])
      else .error .ub)
    (b1 := fun s : Nat × List (Nat × V) => do
      let bv ← Ptr.get ⟨b, off⟩ (← addUsize dbg src s.1)
      let e ← rawEventP n (← addUsize dbg base s.1) (aij * bv)
      pure (s.1 + 1, s.2 ++ [e]))
    (fun q s => 4 ∣ q ∧ s = evs ++ entryProds b (off + src) base tk aij q)
    (fun q s => tk / 4 * 4 ≤ q ∧ s = evs ++ entryProds b (off + src) base tk aij q) (by omega) hF ?_ ?_ ?_ evs
      ⟨by simp, by simp [entryProds]⟩) ?_
  · rintro q s hq ⟨hd, hs'⟩
    refine ⟨_, ?_, ⟨by omega, rfl⟩⟩
    simp only []
    rw [addUsize_eq (by omega), ok_bind]
    have h4 := load4_getD (v := b) (i := off + (src + q)) (by omega) 0
    unfold load4 Ptr.add asPtr at h4
    rw [if_pos (by simp only [Nat.zero_add]; omega), ok_bind, Nat.zero_add] at h4
    unfold Ptr.add
    rw [if_pos (show off + (src + q) ≤ b.length by omega), ok_bind, h4, ok_bind, addUsize_eq (by omega), ok_bind]
    unfold MutPtr.add
    rw [if_pos (show 0 + (base + q) ≤ n by omega), ok_bind]
    simp only [Nat.zero_add]
    rw [if_pos (by omega), entryProds_four _ _ _ _ _ (by omega), hs']
    simp only [List.append_assoc, List.cons_append, List.nil_append, Nat.add_assoc]
    rfl
  · rintro q s h1 h2 ⟨hd, hs'⟩
    exact ⟨by omega, hs'⟩
  · rintro q s hq ⟨hd, hs'⟩
    refine ⟨_, ?_, ⟨by omega, rfl⟩⟩
    simp only []
    rw [addUsize_eq (by omega), ok_bind, ptr_get_getD (by omega) 0, ok_bind, addUsize_eq (by omega), ok_bind]
    unfold rawEventP
    rw [MutPtr.put_eq (by simp only [Nat.zero_add]; omega), ok_bind, entryProds_one _ _ _ _ _ hd, hs']
    simp only [List.append_assoc, Nat.add_assoc, Nat.zero_add]
    rfl
  · rintro s' ⟨t, e1, e2, e3⟩
    rw [e1, ok_bind, show (tk - tk % 4, s') = (tk - tk % 4, id s') from rfl, e2, ok_bind, e3.2]
    rfl

theorem addAll_entry4 [Zero V] [Add V] (y : List V) (l : List (Nat × V)) (i : Nat) (a b c d : V) :
    addAll y (l ++ [(i, a)] ++ [(i + 1, b)] ++ [(i + 2, c)] ++ [(i + 3, d)]) =
      ((((addAll y l).set i ((addAll y l).getD i 0 + a)).set (i + 1) ((addAll y l).getD (i + 1) 0 + b)).set (i + 2)
        ((addAll y l).getD (i + 2) 0 + c)).set (i + 3) ((addAll y l).getD (i + 3) 0 + d) := by
  rw [addAll_snoc, addAll_snoc, addAll_snoc, addAll_snoc, addAt4]

/-- The two loops that spread one entry over a tile of the output row. -/
theorem spreadColsP_eq [Zero V] [Add V] [Mul V] {dbg : Bool} {F k c0 tk base : Nat} {b yi : List V} {aij : V}
    (hy : yi.length = k) (hb : base + tk ≤ b.length) (hc : c0 + tk ≤ k) (hku : k ≤ usizeMax) (hbu : b.length ≤ usizeMax)
    (hF : tk < F) :
    spreadColsP dbg F b c0 tk base aij yi = .ok (addAll yi (entryProds b base c0 tk aij tk)) := by
  unfold spreadColsP
  refine Exists.elim (loops4 (F := F) (len := tk) (mid := id)
    (b4 := fun s : Nat × List V => do
        let vb ← load4 b (← addUsize dbg base s.1)
        let q ← addUsize dbg c0 s.1
        let vy ← load4 s.2 q
        let y ← store4 s.2 q (vy.1 + vb.1 * aij, vy.2.1 + vb.2.1 * aij, vy.2.2.1 + vb.2.2.1 * aij, vy.2.2.2 + vb.2.2.2 * aij)
        pure (s.1 + 4, y))
    (b1 := fun s : Nat × List V => do
        let bv ← (asPtr b).get (← addUsize dbg base s.1)
        let y ← addIdxP s.2 (← addUsize dbg c0 s.1) (aij * bv)
        pure (s.1 + 1, y))
    (fun q s => 4 ∣ q ∧ s = addAll yi (entryProds b base c0 tk aij q))
    (fun q s => tk / 4 * 4 ≤ q ∧ s = addAll yi (entryProds b base c0 tk aij q)) (by omega) hF ?_ ?_ ?_ yi
      ⟨by simp, by simp [entryProds, addAll]⟩) ?_
  · rintro q s hq ⟨hd, hs⟩
    have hsl : s.length = k := by rw [hs, addAll_length, hy]
    refine ⟨_, ?_, ⟨by omega, rfl⟩⟩
    simp only []
    rw [addUsize_eq (by omega), ok_bind, load4_getD (by omega) 0, ok_bind, addUsize_eq (by omega), ok_bind,
      load4_getD (by omega) 0, ok_bind, store4_set (by omega), ok_bind, entryProds_four _ _ _ _ _ (by omega),
      addAll_entry4, ← hs]
    rfl
  · rintro q s h1 h2 ⟨hd, hs'⟩
    exact ⟨by omega, hs'⟩
  · rintro q s hq ⟨hd, hs⟩
    have hsl : s.length = k := by rw [hs, addAll_length, hy]
    refine ⟨_, ?_, ⟨by omega, rfl⟩⟩
    simp only []
    rw [addUsize_eq (by omega), ok_bind]
    unfold asPtr
    rw [ptr_get_getD (by omega) 0, ok_bind, addUsize_eq (by omega), ok_bind, addIdxP_eq (by omega), ok_bind,
      entryProds_one _ _ _ _ _ hd, addAll_snoc, ← hs, Nat.zero_add]
    rfl
  · rintro s' ⟨t, e1, e2, e3⟩
    rw [e1, ok_bind, show (tk - tk % 4, s') = (tk - tk % 4, id s') from rfl, e2, ok_bind, e3.2]
    rfl

/-! ### Tiles of a CSR row -/

theorem entryProds_tile [Zero V] [Mul V] (b : List V) (k t j i : Nat) (aij : V) :
    entryProds b (j * k + t * 128) (i * k + t * 128) (tileLen k (t * 128)) aij (tileLen k (t * 128)) =
      (List.range' (t * 128) (tileLen k (t * 128))).map fun c =>
        (i * k + c, laneProd (laneOf k c) aij (b.getD (j * k + c) 0)) := by
  unfold entryProds
  rw [List.range'_eq_map_range, List.map_map]
  apply List.map_congr_left
  intro c hc
  have := List.mem_range.1 hc
  have hl := (tileLen_le k (t * 128)).1
  have h1 : (t * 128 + c) / 128 = t := by omega
  have h2 : (t * 128 + c) % 128 = c := by omega
  simp only [Function.comp, laneOf, h1, h2]
  rw [Nat.add_assoc, Nat.add_assoc]
  rfl

theorem foldlM_addAll [Zero V] [Add V] {β : Type} {k : Nat} {f : List V → β → Except Fault (List V)}
    {g : β → List (Nat × V)} (r : List β) (h : ∀ e ∈ r, ∀ y : List V, y.length = k → f y e = .ok (addAll y (g e))) :
    ∀ y : List V, y.length = k → r.foldlM f y = .ok (addAll y (r.flatMap g)) := by
  induction r with
  | nil => intro y _; rfl
  | cons e r ih =>
    intro y hy
    rw [List.foldlM_cons, h e (by simp) y hy, ok_bind, List.flatMap_cons, addAll_append,
      ih (fun e' he' => h e' (by simp [he'])) _ (by rw [addAll_length, hy])]

/-- The accumulation of one column over the entries of a row. -/
def accCol [Zero V] [Add V] [Mul V] (b : List V) (k c0 : Nat) (lane : Bool) (row : List (Int × V)) (c : Nat) (x : V) : V :=
  row.foldl (fun acc e => acc + laneProd lane e.2 (b.getD (i64ToUsize e.1 * k + c0 + c) 0)) x

section
variable [Zero V] [Add V] [Mul V] {dbg : Bool} {F : Nat} {a : Comp V} {b : List V} {k n i : Nat}
  (h : a.PtrOk) (hi : i < a.n) (hb : b.length = n * k) (hbu : b.length ≤ usizeMax)
  (hr : ∀ e ∈ a.row i, (dbg = true → 0 ≤ e.1) ∧ i64ToUsize e.1 < n)
include h hi hb hbu hr

omit [Zero V] [Add V] [Mul V] hb hbu in
theorem readEntry {q : Nat} (hq : q < (a.row i).length) :
    index a.indices (a.ptr i + q) = .ok (a.row i)[q].1 ∧ index a.data (a.ptr i + q) = .ok (a.row i)[q].2 ∧
      i64ToUsizeP dbg (a.row i)[q].1 = .ok (i64ToUsize (a.row i)[q].1) ∧ i64ToUsize (a.row i)[q].1 < n := by
  obtain ⟨r1, r2⟩ := h.row_get hi q hq
  have := hr _ (List.getElem_mem hq)
  unfold index
  rw [r1, r2]
  exact ⟨rfl, rfl, i64ToUsizeP_of this.1, this.2⟩

theorem spreadRow_eq {c0 tk : Nat} {yi : List V} (hy : yi.length = k) (hc : c0 + tk ≤ k) (hku : k ≤ usizeMax)
    (hF : tk < F) :
    (List.range' (a.ptr i) (a.row i).length).foldlM (spreadP dbg F a b k c0 tk) yi =
      .ok (addAll yi ((a.row i).flatMap fun e => entryProds b (i64ToUsize e.1 * k + c0) c0 tk e.2 tk)) := by
  have hmul : ∀ e ∈ a.row i, i64ToUsize e.1 * k + c0 + tk ≤ b.length := by
    intro e he
    have : (i64ToUsize e.1 + 1) * k ≤ n * k := Nat.mul_le_mul_right k (hr e he).2
    rw [Nat.add_mul] at this
    omega
  rw [foldlM_range' (a.row i) (a.ptr i) _ (fun y e => spreadColsP dbg F b c0 tk (i64ToUsize e.1 * k + c0) e.2 y)]
  · refine foldlM_addAll _ (fun e he y hy => ?_) yi hy
    exact spreadColsP_eq hy (hmul e he) hc hku hbu hF
  · intro q hq acc
    obtain ⟨r1, r2, r3, r4⟩ := readEntry (dbg := dbg) (n := n) h hi hr hq
    have := hmul _ (List.getElem_mem hq)
    unfold spreadP
    rw [r1, ok_bind, r3, ok_bind, r2, ok_bind, rowBaseP_eq (by omega), ok_bind]

theorem lanesRow_eq {c0 c : Nat} (hc : c0 + c + 4 ≤ k) :
    (List.range' (a.ptr i) (a.row i).length).foldlM (lanesAccP dbg a b k c0 c) (0, 0, 0, 0) =
      .ok (accCol b k c0 true (a.row i) c 0, accCol b k c0 true (a.row i) (c + 1) 0,
        accCol b k c0 true (a.row i) (c + 2) 0, accCol b k c0 true (a.row i) (c + 3) 0) := by
  have hmul : ∀ e ∈ a.row i, i64ToUsize e.1 * k + c0 + c + 4 ≤ b.length := by
    intro e he
    have : (i64ToUsize e.1 + 1) * k ≤ n * k := Nat.mul_le_mul_right k (hr e he).2
    rw [Nat.add_mul] at this
    omega
  let g : Nat → V → (Int × V) → V := fun d acc e => acc + b.getD (i64ToUsize e.1 * k + c0 + c + d) 0 * e.2
  rw [foldlM_range' (a.row i) (a.ptr i) _ (fun (y : Lanes V) e =>
    .ok (g 0 y.1 e, g 1 y.2.1 e, g 2 y.2.2.1 e, g 3 y.2.2.2 e))]
  · have : ∀ (r : List (Int × V)) (acc : Lanes V), r.foldlM (fun (y : Lanes V) e =>
        (.ok (g 0 y.1 e, g 1 y.2.1 e, g 2 y.2.2.1 e, g 3 y.2.2.2 e) : Except Fault (Lanes V))) acc =
        .ok (r.foldl (g 0) acc.1, r.foldl (g 1) acc.2.1, r.foldl (g 2) acc.2.2.1, r.foldl (g 3) acc.2.2.2) := by
      intro r
      induction r with
      | nil => intro acc; rfl
      | cons e r ih => intro acc; rw [List.foldlM_cons, ok_bind, ih]; rfl
    rw [this]
    rfl
  · intro q hq acc
    obtain ⟨r1, r2, r3, r4⟩ := readEntry (dbg := dbg) (n := n) h hi hr hq
    have := hmul _ (List.getElem_mem hq)
    unfold lanesAccP
    rw [r1, ok_bind, r3, ok_bind, r2, ok_bind, rowBaseP_eq (by omega), ok_bind, addUsize_eq (by omega), ok_bind,
      load4_getD (by omega) 0, ok_bind]
    rfl

theorem oneRow_eq {c0 c : Nat} (hc : c0 + c + 1 ≤ k) :
    (List.range' (a.ptr i) (a.row i).length).foldlM (oneAccP dbg a b k c0 c) 0 =
      .ok (accCol b k c0 false (a.row i) c 0) := by
  have hmul : ∀ e ∈ a.row i, i64ToUsize e.1 * k + c0 + c + 1 ≤ b.length := by
    intro e he
    have : (i64ToUsize e.1 + 1) * k ≤ n * k := Nat.mul_le_mul_right k (hr e he).2
    rw [Nat.add_mul] at this
    omega
  let g : V → (Int × V) → V := fun acc e => acc + e.2 * b.getD (i64ToUsize e.1 * k + c0 + c) 0
  rw [foldlM_range' (a.row i) (a.ptr i) _ (fun y e => .ok (g y e))]
  · have : ∀ (r : List (Int × V)) (acc : V), r.foldlM (fun y e => (.ok (g y e) : Except Fault V)) acc =
        .ok (r.foldl g acc) := by
      intro r
      induction r with
      | nil => intro acc; rfl
      | cons e r ih => intro acc; rw [List.foldlM_cons, ok_bind, ih]; rfl
    rw [this]
    rfl
  · intro q hq acc
    obtain ⟨r1, r2, r3, r4⟩ := readEntry (dbg := dbg) (n := n) h hi hr hq
    have := hmul _ (List.getElem_mem hq)
    unfold oneAccP
    rw [r1, ok_bind, r3, ok_bind, r2, ok_bind, rowBaseP_eq (by omega), ok_bind, addUsize_eq (by omega), ok_bind]
    unfold asPtr
    rw [ptr_get_getD (by omega) 0, ok_bind, Nat.zero_add]
    rfl

/-- One tile, at pointer level and at list level. -/
theorem spmmTileP_eq {t : Nat} {yi : List V} (hy : yi.length = k) (ht : t * 128 < k) (hku : k + 128 ≤ usizeMax)
    (hF : 128 < F) :
    ∃ y, spmmTileP dbg F a b k (a.row i).length (List.range' (a.ptr i) (a.row i).length) yi (t * 128) = .ok y ∧
      rowTile b k (a.row i) yi (t * 128) = some y ∧ y.length = k := by
  obtain ⟨hl1, hl2⟩ := tileLen_le k (t * 128)
  have hl2 := hl2 (by omega)
  unfold spmmTileP rowTile
  rw [tileLenP_eq hku (by omega), ok_bind]
  by_cases hshort : (a.row i).length ≤ 8 ∧ 128 ≤ k
  · rw [if_pos hshort, if_pos hshort]
    refine ⟨_, spreadRow_eq h hi hb hbu hr hy hl2 (by omega) (by omega), ?_, by rw [addAll_length, hy]⟩
    rw [tileOps_eq hb t (by
      intro e he
      obtain ⟨e', he', rfl⟩ := List.mem_map.1 he
      exact (hr e' he').2), Option.bind_some, addAll?_eq _ _ (by
      intro o ho
      obtain ⟨e, he, c, hc, _, h⟩ := tileList_mem ho
      obtain ⟨e', he', rfl⟩ := List.mem_map.1 he
      rw [h, hy]
      simpa using hc)]
    congr 2
    unfold tileList
    rw [List.flatMap_map]
    congr 1
    funext e
    have := entryProds_tile b k t (i64ToUsize e.1) 0 e.2
    rw [Nat.zero_mul, Nat.zero_add] at this
    rw [this]
    simp only [Nat.zero_mul]
    rfl
  · rw [if_neg hshort, if_neg hshort]
    let tk := tileLen k (t * 128)
    let w : Nat → Nat × V := fun c =>
      (t * 128 + c, accCol b k (t * 128) (decide (c < tk / 4 * 4)) (a.row i) c 0)
    refine Exists.elim (loops4 (F := F) (len := tk) (mid := id)
      (b4 := fun s : Nat × List V => do
        let acc ← (List.range' (a.ptr i) (a.row i).length).foldlM (lanesAccP dbg a b k (t * 128) s.1) (0, 0, 0, 0)
        let y ← store4 s.2 (← addUsize dbg (t * 128) s.1) acc
        pure (s.1 + 4, y))
      (b1 := fun s : Nat × List V => do
        let acc ← (List.range' (a.ptr i) (a.row i).length).foldlM (oneAccP dbg a b k (t * 128) s.1) 0
        let y ← storeIdx s.2 (← addUsize dbg (t * 128) s.1) acc
        pure (s.1 + 1, y))
      (fun q s => 4 ∣ q ∧ s = applyWrites yi ((List.range q).map w))
      (fun q s => tk / 4 * 4 ≤ q ∧ s = applyWrites yi ((List.range q).map w)) (by omega) (by omega) ?_ ?_ ?_ yi
        ⟨by simp, rfl⟩) ?_
    · rintro q s hq ⟨hd, hs⟩
      have hsl : s.length = k := by rw [hs, applyWrites_length, hy]
      refine ⟨_, ?_, ⟨by omega, rfl⟩⟩
      simp only []
      rw [lanesRow_eq h hi hb hbu hr (by omega), ok_bind, addUsize_eq (by omega), ok_bind, store4_set (by omega),
        ok_bind, range_map_snoc4, hs]
      simp only [applyWrites, List.foldl_append, List.foldl_cons, List.foldl_nil]
      have e0 : decide (q < tk / 4 * 4) = true := by rw [decide_eq_true]; omega
      have e1 : decide (q + 1 < tk / 4 * 4) = true := by rw [decide_eq_true]; omega
      have e2 : decide (q + 2 < tk / 4 * 4) = true := by rw [decide_eq_true]; omega
      have e3 : decide (q + 3 < tk / 4 * 4) = true := by rw [decide_eq_true]; omega
      simp only [w, e0, e1, e2, e3]
      rfl
    · rintro q s h1 h2 ⟨hd, hs'⟩
      exact ⟨by omega, hs'⟩
    · rintro q s hq ⟨hd, hs⟩
      have hsl : s.length = k := by rw [hs, applyWrites_length, hy]
      refine ⟨_, ?_, ⟨by omega, rfl⟩⟩
      simp only []
      rw [oneRow_eq h hi hb hbu hr (by omega), ok_bind, addUsize_eq (by omega), ok_bind]
      unfold storeIdx
      rw [if_pos (by omega), ok_bind, range_map_snoc, hs]
      simp only [applyWrites, List.foldl_append, List.foldl_cons, List.foldl_nil]
      have e0 : decide (q < tk / 4 * 4) = false := by rw [decide_eq_false]; omega
      simp only [w, e0]
      rfl
    · rintro s' ⟨y, e1, e2, e3⟩
      refine ⟨y, ?_, ?_, by rw [e3.2, applyWrites_length, hy]⟩
      · show (do
          let s ← untilP F (andNot tk 3) (fun s : Nat × List V => do
            let acc ← (List.range' (a.ptr i) (a.row i).length).foldlM (lanesAccP dbg a b k (t * 128) s.1) (0, 0, 0, 0)
            let y ← store4 s.2 (← addUsize dbg (t * 128) s.1) acc
            pure (s.1 + 4, y)) (0, yi)
          let s ← untilP F tk (fun s : Nat × List V => do
            let acc ← (List.range' (a.ptr i) (a.row i).length).foldlM (oneAccP dbg a b k (t * 128) s.1) 0
            let y ← storeIdx s.2 (← addUsize dbg (t * 128) s.1) acc
            pure (s.1 + 1, y)) s
          pure s.2) = _
        rw [e1, ok_bind, show (tk - tk % 4, s') = (tk - tk % 4, id s') from rfl, e2, ok_bind]
        rfl
      · rw [e3.2]
        unfold tileCols
        rw [List.mapM_map, mapM_option_map (g := w)]
        · rfl
        · intro c hc
          have hct := List.mem_range.1 hc
          simp only [Function.comp]
          unfold colAcc
          rw [mapM_option_map (g := fun e : Int × V => laneProd (decide (c < tk / 4 * 4)) e.2
            (b.getD (i64ToUsize e.1 * k + t * 128 + c) 0))]
          · rw [Option.map_some, List.foldl_map]
            rfl
          · intro e he
            have hlt : i64ToUsize e.1 * k + (t * 128 + c) < b.length := by
              rw [hb]; exact mul_add_lt (hr e he).2 (by unfold tileLen at hl2; omega)
            simp only
            rw [List.getElem?_eq_getElem hlt, Nat.add_assoc, List.getD_eq_getElem _ _ hlt]
            rfl

theorem spmmRowP_eq (hm : a.Machine) {yi : List V} (hy : yi.length = k) (hku : k + 128 ≤ usizeMax) (hF : 128 < F) :
    ∃ y, spmmRowP dbg F a b k (yi, i) = .ok y ∧ spmmRow b k (a.row i) yi = some y ∧ y.length = k := by
  obtain ⟨x, e1, e2⟩ := h.loadTask hm dbg (i := i) (by omega)
  obtain ⟨x', e3, e4⟩ := h.loadTask hm dbg (i := i + 1) (by omega)
  unfold spmmRowP spmmRow
  simp only []
  have hle := h.ptr_mono' (i := i) (j := i + 1) (by omega) (by omega)
  rw [e1, ok_bind, e2, ok_bind, e3, ok_bind, e4, ok_bind, subUsize_eq hle, ok_bind, ← h.row_length hi]
  have key : ∀ (l : List Nat), (∀ c0 ∈ l, ∃ t, c0 = t * 128 ∧ c0 < k) → ∀ yi : List V, yi.length = k →
      ∃ y, l.foldlM (spmmTileP dbg F a b k (a.row i).length (List.range' (a.ptr i) (a.row i).length)) yi = .ok y ∧
        l.foldlM (rowTile b k (a.row i)) yi = some y ∧ y.length = k := by
    intro l
    induction l with
    | nil => intro _ yi hy; exact ⟨yi, rfl, rfl, hy⟩
    | cons c0 l ih =>
      intro hl yi hy
      obtain ⟨t, rfl, ht⟩ := hl c0 (by simp)
      obtain ⟨y, e1, e2, e3⟩ := spmmTileP_eq h hi hb hbu hr (t := t) hy ht hku hF
      obtain ⟨z, g1, g2, g3⟩ := ih (fun c hc => hl c (by simp [hc])) y e3
      exact ⟨z, by rw [List.foldlM_cons, e1, ok_bind, g1], by rw [List.foldlM_cons, e2]; exact g2, g3⟩
  refine key (tiles k) (fun c0 hc => ?_) yi hy
  unfold tiles at hc
  obtain ⟨t, ht, rfl⟩ := List.mem_map.1 hc
  have := List.mem_range.1 ht
  exact ⟨t, rfl, by omega⟩

end

theorem spmmLenP_eq {dbg : Bool} {n k l : Nat} (hn : n * k ≤ usizeMax) (hl : l = n * k) : spmmLenP dbg n k l = .ok () := by
  unfold spmmLenP
  rw [mulUsize_eq hn, ok_bind, if_pos hl]
  rfl

theorem spmmZerosP_eq [Zero V] {dbg : Bool} {n k : Nat} (hs : 8 * ((n * k : Nat) : Int) ≤ i64Max) :
    spmmZerosP (V := V) dbg n k = .ok (List.replicate (n * k) 0) := by
  unfold spmmZerosP
  rw [mulUsize_eq (by unfold i64Max at hs; unfold usizeMax; omega), ok_bind, zeroVecP_ok hs]

/-! ### Tiles of the shared output -/

theorem foldlM_appendOk {β E : Type} {f : List E → β → Except Fault (List E)} {g : β → List E} (r : List β)
    (h : ∀ e ∈ r, ∀ evs, f evs e = .ok (evs ++ g e)) : ∀ evs, r.foldlM f evs = .ok (evs ++ r.flatMap g) := by
  induction r with
  | nil => intro evs; simp; rfl
  | cons e r ih =>
    intro evs
    rw [List.foldlM_cons, h e (by simp), ok_bind, ih (fun e' he' => h e' (by simp [he'])), List.flatMap_cons,
      List.append_assoc]

/-- The entries of a CSC matrix, as `(source row, target row, value)`. -/
def cscEs (a : Comp V) : List (Nat × Nat × V) :=
  (List.range a.n).flatMap fun j => (a.row j).map fun e => (j, i64ToUsize e.1, e.2)

/-- The entries of a COO matrix, as `(source row, target row, value)`. -/
def cooEs (a : Coo V) : List (Nat × Nat × V) :=
  a.triples.map fun t => (i64ToUsize t.1.2, i64ToUsize t.1.1, t.2)

theorem cscTileP_eq [Zero V] [Mul V] {dbg : Bool} {F N k t : Nat} {a : Comp V} {b : List V} (h : a.PtrOk) (hm : a.Machine)
    (hb : b.length = a.n * k) (hbu : b.length ≤ usizeMax) (hN : N * k ≤ usizeMax)
    (hr : ∀ j < a.n, ∀ e ∈ a.row j, (dbg = true → 0 ≤ e.1) ∧ i64ToUsize e.1 < N)
    (ht : t * 128 < k) (hku : k + 128 ≤ usizeMax) (hF : 128 < F) :
    cscTileP dbg F (N * k) a b k (t * 128) = .ok (tileList b k t (cscEs a)) := by
  obtain ⟨hl1, hl2⟩ := tileLen_le k (t * 128)
  have hl2 := hl2 (by omega)
  unfold cscTileP
  rw [tileLenP_eq hku (by omega), ok_bind]
  rw [foldlM_appendOk (g := fun j => tileList b k t ((a.row j).map fun e => (j, i64ToUsize e.1, e.2)))]
  · unfold tileList cscEs
    rw [List.flatMap_assoc]
    rfl
  · intro j hj evs
    have hj := List.mem_range.1 hj
    obtain ⟨x, e1, e2⟩ := h.loadTask hm dbg (i := j) (by omega)
    obtain ⟨x', e3, e4⟩ := h.loadTask hm dbg (i := j + 1) (by omega)
    have hmul : j * k + t * 128 + tileLen k (t * 128) ≤ b.length := by
      have : (j + 1) * k ≤ a.n * k := Nat.mul_le_mul_right k hj
      rw [Nat.add_mul] at this
      omega
    unfold cscColP
    rw [e1, ok_bind, e2, ok_bind, e3, ok_bind, e4, ok_bind, rowBaseP_eq (by omega), ok_bind]
    unfold asPtr Ptr.add
    rw [if_pos (show 0 + (j * k + t * 128) ≤ b.length by omega), ok_bind, ← h.row_length hj]
    rw [foldlM_range' (a.row j) (a.ptr j) _ (fun evs e => .ok (evs ++ entryProds b (j * k + t * 128)
      (i64ToUsize e.1 * k + t * 128) (tileLen k (t * 128)) e.2 (tileLen k (t * 128))))]
    · rw [foldlM_appendOk (g := fun e : Int × V => entryProds b (j * k + t * 128)
        (i64ToUsize e.1 * k + t * 128) (tileLen k (t * 128)) e.2 (tileLen k (t * 128)))]
      · congr 2
        unfold tileList
        rw [List.flatMap_map]
        congr 1
        funext e
        rw [entryProds_tile]
        rfl
      · intro e _ evs; rfl
    · intro q hq acc
      obtain ⟨r1, r2, r3, r4⟩ := readEntry (dbg := dbg) (n := N) h hj (hr j hj) hq
      have hmul' : i64ToUsize (a.row j)[q].1 * k + t * 128 + tileLen k (t * 128) ≤ N * k := by
        have : (i64ToUsize (a.row j)[q].1 + 1) * k ≤ N * k := Nat.mul_le_mul_right k r4
        rw [Nat.add_mul] at this
        omega
      rw [r1, ok_bind, r3, ok_bind, r2, ok_bind, rowBaseP_eq (by omega), ok_bind,
        entryEventsP_eq (off := 0 + (j * k + t * 128)) (src := 0) (by omega) hmul' hbu hN (by omega)]
      simp only [Nat.zero_add, Nat.add_zero]

theorem cooTileP_eq [Zero V] [Mul V] {dbg : Bool} {F N k t : Nat} {a : Coo V} {b : List V}
    (hrow : a.data.length ≤ a.row.length) (hcol : a.data.length ≤ a.col.length)
    (hb : b.length = a.ncols * k) (hbu : b.length ≤ usizeMax) (hN : N * k ≤ usizeMax)
    (hr : ∀ e ∈ a.triples, (dbg = true → 0 ≤ e.1.1) ∧ (dbg = true → 0 ≤ e.1.2) ∧ i64ToUsize e.1.1 < N ∧
      i64ToUsize e.1.2 < a.ncols)
    (ht : t * 128 < k) (hku : k + 128 ≤ usizeMax) (hF : 128 < F) :
    cooTileP dbg F (N * k) a b k (t * 128) = .ok (tileList b k t (cooEs a)) := by
  obtain ⟨hl1, hl2⟩ := tileLen_le k (t * 128)
  have hl2 := hl2 (by omega)
  have hlen : a.triples.length = a.data.length := by unfold Coo.triples; simp; omega
  unfold cooTileP
  rw [tileLenP_eq hku (by omega), ok_bind, ← hlen, List.range_eq_range']
  rw [foldlM_range' a.triples 0 _ (fun evs e => .ok (evs ++ entryProds b (i64ToUsize e.1.2 * k + t * 128)
      (i64ToUsize e.1.1 * k + t * 128) (tileLen k (t * 128)) e.2 (tileLen k (t * 128))))]
  · rw [foldlM_appendOk (g := fun e : (Int × Int) × V => entryProds b (i64ToUsize e.1.2 * k + t * 128)
      (i64ToUsize e.1.1 * k + t * 128) (tileLen k (t * 128)) e.2 (tileLen k (t * 128)))]
    · rw [List.nil_append]
      congr 1
      unfold tileList cooEs
      rw [List.flatMap_map]
      congr 1
      funext e
      rw [entryProds_tile]
      rfl
    · intro e _ evs; rfl
  · intro q hq acc
    have ht : a.triples[q] = ((a.row[q]'(by omega), a.col[q]'(by omega)), a.data[q]'(by omega)) := by
      simp [Coo.triples]
    have hr := hr _ (List.getElem_mem hq)
    rw [ht] at hr
    obtain ⟨g1, g2, g3, g4⟩ := hr
    simp only [] at g1 g2 g3 g4
    have hm1 : i64ToUsize (a.row[q]'(by omega)) * k + t * 128 + tileLen k (t * 128) ≤ N * k := by
      have : (i64ToUsize (a.row[q]'(by omega)) + 1) * k ≤ N * k := Nat.mul_le_mul_right k g3
      rw [Nat.add_mul] at this
      omega
    have hm2 : i64ToUsize (a.col[q]'(by omega)) * k + t * 128 + tileLen k (t * 128) ≤ b.length := by
      have : (i64ToUsize (a.col[q]'(by omega)) + 1) * k ≤ a.ncols * k := Nat.mul_le_mul_right k g4
      rw [Nat.add_mul] at this
      omega
    rw [ht]
    unfold cooEntryP
    rw [Nat.zero_add, index_eq (by omega), ok_bind, i64ToUsizeP_of g1, ok_bind, index_eq (by omega), ok_bind,
      i64ToUsizeP_of g2, ok_bind, index_eq (by omega), ok_bind, rowBaseP_eq (by omega), ok_bind,
      rowBaseP_eq (by omega), ok_bind]
    unfold asPtr
    rw [entryEventsP_eq (by omega) hm1 hbu hN (by omega), Nat.zero_add]

/-- Tiles that produce the additions of the list-level model: no race, and the results of the
interleavings of the list-level model. -/
theorem tilesPtr_iff [Zero V] [Add V] [Mul V] {n N k : Nat} {b : List V} (hb : b.length = n * k)
    {es : List (Nat × Nat × V)} (he : ∀ e ∈ es, e.1 < n ∧ e.2.1 < N) {task : Nat → Except Fault (List (Nat × V))}
    (htask : ∀ t, t * 128 < k → task (t * 128) = .ok (tileList b k t es)) (out : Except Fault (List V)) :
    TilesPtr k (List.replicate (N * k) 0) task out ↔ ∃ y, TilesRun (N * k) b k es y ∧ out = .ok y := by
  have htiles : ∀ c0 ∈ tiles k, task c0 = .ok (tileList b k (c0 / 128) es) := by
    intro c0 hc
    obtain ⟨t, ht, rfl⟩ := List.mem_map.1 hc
    have := List.mem_range.1 ht
    rw [htask t (by omega), Nat.mul_div_cancel _ (by decide)]
  have hmap : (tiles k).map (fun c0 => tileList b k (c0 / 128) es) =
      (List.range ((k + 127) / 128)).map fun t => tileList b k t es := by
    unfold tiles
    rw [List.map_map]
    apply List.map_congr_left
    intro t _
    simp only [Function.comp, Nat.mul_div_cancel _ (show 0 < 128 by decide)]
  have hparts : (tiles k).mapM (fun c0 => tileOps b k c0 es) =
      some ((List.range ((k + 127) / 128)).map fun t => tileList b k t es) := by
    unfold tiles
    rw [List.mapM_map]
    exact mapM_option_map (fun t _ => tileOps_eq hb t (fun e hee => (he e hee).1))
  have hrace : raceFree1 ((List.range ((k + 127) / 128)).map fun t => tileList b k t es) := by
    unfold raceFree1
    rw [List.pairwise_map]
    refine List.Pairwise.imp ?_ (List.nodup_range (n := (k + 127) / 128))
    intro s t hst p hp hp'
    obtain ⟨o, ho, rfl⟩ := List.mem_map.1 hp
    obtain ⟨o', ho', hoo⟩ := List.mem_map.1 hp'
    obtain ⟨e, _, c, hc, hcs, h1⟩ := tileList_mem ho
    obtain ⟨e', _, c', hc', hct, h2⟩ := tileList_mem ho'
    rw [h1, h2, tile_mul hc' hc] at hoo
    exact hst (by rw [← hcs, ← hct, hoo.2])
  have hrun : TilesRun (N * k) b k es (addAll (List.replicate (N * k) 0)
      ((List.range ((k + 127) / 128)).map fun t => tileList b k t es).flatten) := by
    refine ⟨_, _, hparts, Shuffle.seq _, ?_⟩
    rw [Shuffle.seq_flatten, addAll?_eq]
    intro o ho
    obtain ⟨p, hp, ho⟩ := List.mem_flatten.1 ho
    obtain ⟨t, _, rfl⟩ := List.mem_map.1 hp
    obtain ⟨e, hee, c, hc, _, h⟩ := tileList_mem ho
    rw [h, List.length_replicate]
    exact mul_add_lt (he e hee).2 hc
  have huniq : ∀ y, TilesRun (N * k) b k es y → y = addAll (List.replicate (N * k) 0)
      ((List.range ((k + 127) / 128)).map fun t => tileList b k t es).flatten := by
    intro y hy
    rw [(tilesRun_iff hb he _).1 hy, ← (tilesRun_iff hb he _).1 hrun]
  unfold TilesPtr
  constructor
  · rintro ⟨oe, h1, h2⟩
    obtain rfl := (parEach_ok htiles oe).1 h1
    rw [hmap] at h2
    rcases h2 with ⟨h2, _⟩ | ⟨_, h2⟩
    · exact absurd hrace h2
    · exact ⟨_, hrun, h2⟩
  · rintro ⟨y, hy, rfl⟩
    refine ⟨_, (parEach_ok htiles _).2 rfl, ?_⟩
    rw [hmap]
    exact .inr ⟨hrace, by rw [huniq y hy]⟩

end Lacuna
