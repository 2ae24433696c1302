import Verif.Lemmas.PtrSpmm
/- The matrix products on arbitrary arrays: when they stay inside the buffers, and when not. -/
namespace Lacuna
variable {V : Type}

/-! ### Safety -/

theorem SafeE.of_eq {α : Type} {P : α → Prop} {e : Except Fault α} {x : α} (h : e = .ok x) (hx : P x) : SafeE P e := by
  rw [h]; exact SafeE.ok hx

theorem SafeE.untilP {σ : Type} {body : Nat × σ → Except Fault (Nat × σ)} {lim : Nat} (I : Nat → σ → Prop)
    (h : ∀ q s, q < lim → I q s → SafeE (fun r => I r.1 r.2) (body (q, s))) (F : Nat) (q : Nat) (s : σ) (hI : I q s) :
    SafeE (fun r => I r.1 r.2 ∧ lim ≤ r.1) (untilP F lim body (q, s)) := by
  induction F generalizing q s with
  | zero => exact SafeE.fuel
  | succ F ih =>
    unfold Lacuna.untilP
    rw [whileM]
    by_cases hq : q < lim
    · have hc : (pure (decide (q < lim)) : Except Fault Bool) = .ok true := by
        rw [decide_eq_true hq]; rfl
      show SafeE _ ((pure (decide (q < lim)) : Except Fault Bool) >>= _)
      rw [hc, ok_bind, if_pos rfl]
      exact (h q s hq hI).bind fun r hr => ih r.1 r.2 hr
    · have hc : (pure (decide (q < lim)) : Except Fault Bool) = .ok false := by
        rw [decide_eq_false hq]; rfl
      show SafeE _ ((pure (decide (q < lim)) : Except Fault Bool) >>= _)
      rw [hc, ok_bind]
      exact SafeE.ok ⟨hI, by simp only []; omega⟩

theorem SafeE.subUsize (dbg : Bool) (a b : Nat) : SafeE (fun _ => True) (subUsize dbg a b) :=
  SafeE.noUb (NoUb.subUsize dbg a b)

section
variable [Zero V] [Add V] [Mul V] {dbg : Bool} {F : Nat} {a : Comp V} {b : List V} {k n : Nat}
  (hb : b.length = n * k) (hbu : b.length ≤ usizeMax) (hj : ∀ j ∈ a.indices, asUsize j < n)
include hb hbu hj

omit [Zero V] [Add V] [Mul V] hbu in
theorem entry_fits {j : Int} (h : j ∈ a.indices) : asUsize j * k + k ≤ b.length := by
  have : (asUsize j + 1) * k ≤ n * k := Nat.mul_le_mul_right k (hj j h)
  rw [Nat.add_mul] at this
  omega

theorem spreadP_safe {c0 tk p : Nat} {yi : List V} (hy : yi.length = k) (hc : c0 + tk ≤ k) (hku : k ≤ usizeMax)
    (hF : tk < F) : SafeE (fun y => y.length = k) (spreadP dbg F a b k c0 tk yi p) := by
  unfold spreadP
  refine (SafeE.index _ _).bind fun j hjm => (SafeE.i64ToUsizeP _ _).bind fun ju hju =>
    (SafeE.index _ _).bind fun aij _ => ?_
  have := entry_fits hb hj hjm
  rw [hju, rowBaseP_eq (by omega), ok_bind]
  exact SafeE.of_eq (spreadColsP_eq hy (by omega) hc hku hbu hF) (by rw [addAll_length, hy])

theorem lanesAccP_safe {c0 c p : Nat} {acc : Lanes V} (hc : c0 + c + 4 ≤ k) :
    SafeE (fun _ => True) (lanesAccP dbg a b k c0 c acc p) := by
  unfold lanesAccP
  refine (SafeE.index _ _).bind fun j hjm => (SafeE.i64ToUsizeP _ _).bind fun ju hju =>
    (SafeE.index _ _).bind fun aij _ => ?_
  have := entry_fits hb hj hjm
  rw [hju, rowBaseP_eq (by omega), ok_bind, addUsize_eq (by omega), ok_bind, load4_getD (by omega) 0, ok_bind]
  exact SafeE.ok trivial

theorem oneAccP_safe {c0 c p : Nat} {acc : V} (hc : c0 + c + 1 ≤ k) :
    SafeE (fun _ => True) (oneAccP dbg a b k c0 c acc p) := by
  unfold oneAccP
  refine (SafeE.index _ _).bind fun j hjm => (SafeE.i64ToUsizeP _ _).bind fun ju hju =>
    (SafeE.index _ _).bind fun aij _ => ?_
  have := entry_fits hb hj hjm
  rw [hju, rowBaseP_eq (by omega), ok_bind, addUsize_eq (by omega), ok_bind]
  unfold asPtr
  rw [ptr_get_getD (by omega) 0, ok_bind]
  exact SafeE.ok trivial

theorem spmmTileP_safe {c0 nnzRow : Nat} {ps : List Nat} {yi : List V} (hy : yi.length = k) (hc0 : c0 < k)
    (hku : k + 128 ≤ usizeMax) (hF : 128 < F) :
    SafeE (fun y => y.length = k) (spmmTileP dbg F a b k nnzRow ps yi c0) := by
  obtain ⟨hl1, hl2⟩ := tileLen_le k c0
  have hl2 := hl2 (by omega)
  unfold spmmTileP
  rw [tileLenP_eq hku (by omega), ok_bind]
  split
  · exact SafeE.foldlM ps (fun p _ y hy => spreadP_safe hb hbu hj hy hl2 (by omega) (by omega)) yi hy
  · rw [mask4 (by omega)]
    refine (SafeE.untilP (fun q (s : List V) => 4 ∣ q ∧ s.length = k) (fun q s hq hs => ?_) F 0 yi ⟨by simp, hy⟩).bind
      fun r hr => (SafeE.untilP (fun q (s : List V) => s.length = k) (fun q s hq hs => ?_) F r.1 r.2 hr.1.2).bind
        fun r hr => SafeE.ok hr.1
    · refine (SafeE.foldlM (I := fun _ => True) ps (fun p _ acc _ => lanesAccP_safe hb hbu hj (by omega)) _ trivial).bind
        fun acc _ => ?_
      rw [addUsize_eq (by omega), ok_bind]
      refine SafeE.bind (P := fun y => y.length = k)
        (SafeE.of_eq (store4_set (by simp only []; omega) acc) (by simp only [List.length_set]; exact hs.2)) fun y hy => ?_
      exact SafeE.ok ⟨by simp only []; omega, hy⟩
    · refine (SafeE.foldlM (I := fun _ => True) ps (fun p _ acc _ => oneAccP_safe hb hbu hj (by omega)) _ trivial).bind
        fun acc _ => ?_
      rw [addUsize_eq (by omega), ok_bind]
      refine (SafeE.storeIdx _ _ _).bind fun y hy => SafeE.ok ?_
      rw [hy, List.length_set]; exact hs

theorem spmmRowP_safe {i : Nat} {yi : List V} (hy : yi.length = k) (hku : k + 128 ≤ usizeMax) (hF : 128 < F) :
    SafeE (fun y => y.length = k) (spmmRowP dbg F a b k (yi, i)) := by
  unfold spmmRowP
  refine (SafeE.index _ _).bind fun x _ => (SafeE.i64ToUsizeP _ _).bind fun s _ =>
    (SafeE.index _ _).bind fun x _ => (SafeE.i64ToUsizeP _ _).bind fun e _ =>
    (SafeE.subUsize _ _ _).bind fun l _ => ?_
  refine SafeE.foldlM (tiles k) (fun c0 hc y hy => spmmTileP_safe hb hbu hj hy ?_ hku hF) yi hy
  obtain ⟨t, ht, rfl⟩ := List.mem_map.1 hc
  have := List.mem_range.1 ht
  omega

end

/-- The positions a tile may touch. -/
def TilePos (k t : Nat) (evs : List (Nat × V)) : Prop := ∀ o ∈ evs, ∃ d c, c < k ∧ c / 128 = t ∧ o.1 = d * k + c

theorem TilePos.entry [Zero V] [Mul V] {k t : Nat} {evs : List (Nat × V)} (h : TilePos k t evs) (b : List V)
    (src i : Nat) (aij : V) (ht : t * 128 < k) :
    TilePos k t (evs ++ entryProds b src (i * k + t * 128) (tileLen k (t * 128)) aij (tileLen k (t * 128))) := by
  intro o ho
  rcases List.mem_append.1 ho with ho | ho
  · exact h o ho
  · obtain ⟨c, hc, rfl⟩ := List.mem_map.1 ho
    have := List.mem_range.1 hc
    obtain ⟨hl1, hl2⟩ := tileLen_le k (t * 128)
    have hl2 := hl2 (by omega)
    exact ⟨i, t * 128 + c, by omega, by omega, by simp only []; omega⟩

theorem cscTileP_safe [Zero V] [Mul V] {dbg : Bool} {F N k t : Nat} {a : Comp V} {b : List V}
    (hb : b.length = a.n * k) (hbu : b.length ≤ usizeMax) (hN : N * k ≤ usizeMax)
    (hj : ∀ j ∈ a.indices, asUsize j < N) (ht : t * 128 < k) (hku : k + 128 ≤ usizeMax) (hF : 128 < F) :
    SafeE (TilePos k t) (cscTileP dbg F (N * k) a b k (t * 128)) := by
  obtain ⟨hl1, hl2⟩ := tileLen_le k (t * 128)
  have hl2 := hl2 (by omega)
  unfold cscTileP
  rw [tileLenP_eq hku (by omega), ok_bind]
  refine SafeE.foldlM _ (fun j hjr evs hevs => ?_) [] (fun o ho => by cases ho)
  have hjn := List.mem_range.1 hjr
  have hmul : j * k + t * 128 + tileLen k (t * 128) ≤ b.length := by
    have : (j + 1) * k ≤ a.n * k := Nat.mul_le_mul_right k hjn
    rw [Nat.add_mul] at this
    omega
  unfold cscColP
  refine (SafeE.index _ _).bind fun x _ => (SafeE.i64ToUsizeP _ _).bind fun s _ =>
    (SafeE.index _ _).bind fun x _ => (SafeE.i64ToUsizeP _ _).bind fun e _ => ?_
  rw [rowBaseP_eq (by omega), ok_bind]
  unfold asPtr Ptr.add
  rw [if_pos (show 0 + (j * k + t * 128) ≤ b.length by omega), ok_bind]
  refine SafeE.foldlM _ (fun p _ evs hevs => ?_) evs hevs
  refine (SafeE.index _ _).bind fun i him => (SafeE.i64ToUsizeP _ _).bind fun iu hiu =>
    (SafeE.index _ _).bind fun aij _ => ?_
  have hmul' : asUsize i * k + t * 128 + tileLen k (t * 128) ≤ N * k := by
    have : (asUsize i + 1) * k ≤ N * k := Nat.mul_le_mul_right k (hj i him)
    rw [Nat.add_mul] at this
    omega
  rw [hiu, rowBaseP_eq (by omega), ok_bind]
  exact SafeE.of_eq (entryEventsP_eq (off := 0 + (j * k + t * 128)) (src := 0) (by omega) hmul' hbu hN (by omega) evs)
    (hevs.entry b _ _ _ ht)

theorem cooTileP_safe [Zero V] [Mul V] {dbg : Bool} {F N k t : Nat} {a : Coo V} {b : List V}
    (hb : b.length = a.ncols * k) (hbu : b.length ≤ usizeMax) (hN : N * k ≤ usizeMax)
    (hi : ∀ i ∈ a.row, asUsize i < N) (hj : ∀ j ∈ a.col, asUsize j < a.ncols)
    (ht : t * 128 < k) (hku : k + 128 ≤ usizeMax) (hF : 128 < F) :
    SafeE (TilePos k t) (cooTileP dbg F (N * k) a b k (t * 128)) := by
  obtain ⟨hl1, hl2⟩ := tileLen_le k (t * 128)
  have hl2 := hl2 (by omega)
  unfold cooTileP
  rw [tileLenP_eq hku (by omega), ok_bind]
  refine SafeE.foldlM _ (fun p hp evs hevs => ?_) [] (fun o ho => by cases ho)
  unfold cooEntryP
  refine (SafeE.index _ _).bind fun i him => (SafeE.i64ToUsizeP _ _).bind fun iu hiu =>
    (SafeE.index _ _).bind fun j hjm => (SafeE.i64ToUsizeP _ _).bind fun ju hju =>
    (SafeE.index _ _).bind fun aij _ => ?_
  have hm1 : asUsize i * k + t * 128 + tileLen k (t * 128) ≤ N * k := by
    have : (asUsize i + 1) * k ≤ N * k := Nat.mul_le_mul_right k (hi i him)
    rw [Nat.add_mul] at this
    omega
  have hm2 : asUsize j * k + t * 128 + tileLen k (t * 128) ≤ b.length := by
    have : (asUsize j + 1) * k ≤ a.ncols * k := Nat.mul_le_mul_right k (hj j hjm)
    rw [Nat.add_mul] at this
    omega
  rw [hiu, hju, rowBaseP_eq (by omega), ok_bind, rowBaseP_eq (by omega), ok_bind]
  exact SafeE.of_eq (entryEventsP_eq (off := 0) (by omega) hm1 hbu hN (by omega) evs) (hevs.entry b _ _ _ ht)

/-- Safe tiles that touch only their own columns do not race. -/
theorem tilesPtr_safe [Zero V] [Add V] {k : Nat} {z : List V} {task : Nat → Except Fault (List (Nat × V))}
    (h : ∀ t, t * 128 < k → SafeE (TilePos k t) (task (t * 128))) {out : Except Fault (List V)}
    (ho : TilesPtr k z task out) : NoUb out := by
  obtain ⟨oe, h1, h2⟩ := ho
  have htiles : ∀ t ∈ List.range ((k + 127) / 128), SafeE (TilePos k t) (task (t * 128)) := fun t ht =>
    h t (by have := List.mem_range.1 ht; omega)
  cases oe with
  | error x =>
    obtain ⟨c0, hc, hx⟩ := h1
    obtain ⟨t, ht, rfl⟩ := List.mem_map.1 hc
    simp only [] at h2
    rw [h2]
    intro hu
    cases hu
    exact (htiles t ht).1 hx
  | ok evs =>
    have h1 : (tiles k).map task = evs.map .ok := h1
    have hlen : evs.length = (k + 127) / 128 := by
      have := congrArg List.length h1
      simpa [tiles] using this.symm
    have hget : ∀ t (ht : t < evs.length), TilePos k t evs[t] := by
      intro t ht
      have e := congrArg (fun l => l[t]?) h1
      simp only [List.getElem?_map, tiles] at e
      rw [List.getElem?_range (by omega), List.getElem?_eq_getElem ht] at e
      simp only [Option.map_some, Option.some.injEq] at e
      exact (htiles t (List.mem_range.2 (by omega))).2 _ e
    have hrace : raceFree1 evs := by
      unfold raceFree1
      rw [List.pairwise_iff_getElem]
      intro s t hs ht hst p hp hp'
      obtain ⟨o, ho, rfl⟩ := List.mem_map.1 hp
      obtain ⟨o', ho', hoo⟩ := List.mem_map.1 hp'
      obtain ⟨d, c, hc, hcs, e1⟩ := hget s hs o ho
      obtain ⟨d', c', hc', hct, e2⟩ := hget t ht o' ho'
      rw [e1, e2, tile_mul hc' hc] at hoo
      rw [hoo.2] at hct
      omega
    rcases h2 with ⟨h2, _⟩ | ⟨_, h2⟩
    · exact absurd hrace h2
    · exact NoUb.of_ok h2

/-! ### Leaving the buffers -/

theorem untilP_first_err {σ : Type} {F lim : Nat} {body : Nat × σ → Except Fault (Nat × σ)} {s : Nat × σ} {e : Fault}
    (hF : 0 < F) (hs : s.1 < lim) (h : body s = .error e) : untilP F lim body s = .error e := by
  obtain ⟨F, rfl⟩ : ∃ F', F = F' + 1 := ⟨F - 1, by omega⟩
  unfold untilP
  rw [whileM]
  have hc : (pure (decide (s.1 < lim)) : Except Fault Bool) = .ok true := by
    rw [decide_eq_true hs]; rfl
  show ((pure (decide (s.1 < lim)) : Except Fault Bool) >>= _) = _
  rw [hc, ok_bind, if_pos rfl, h]
  rfl

theorem untilP_done {σ : Type} {F lim : Nat} {body : Nat × σ → Except Fault (Nat × σ)} {s : Nat × σ}
    (hF : 0 < F) (hs : lim ≤ s.1) : untilP F lim body s = .ok s := by
  obtain ⟨F, rfl⟩ : ∃ F', F = F' + 1 := ⟨F - 1, by omega⟩
  unfold untilP
  rw [whileM_false]
  show Except.ok (decide (s.1 < lim)) = _
  rw [decide_eq_false (by omega)]

theorem addUsize_any (dbg : Bool) (a b : Nat) (h : dbg = true → a + b ≤ usizeMax) : ∃ c, addUsize dbg a b = .ok c := by
  unfold addUsize
  split
  · exact ⟨_, rfl⟩
  · cases dbg with
    | true => have := h rfl; omega
    | false => exact ⟨_, rfl⟩

theorem addUsize_zero (dbg : Bool) {a : Nat} (h : a ≤ usizeMax) : addUsize dbg a 0 = .ok a := by
  rw [addUsize_eq (by omega), Nat.add_zero]

theorem mod64_le (a : Nat) : a % 2 ^ 64 ≤ usizeMax := by unfold usizeMax; omega

/-- The base of a row in the first tile. -/
theorem rowBaseP_first {dbg : Bool} {j k : Nat} (h : dbg = true → j * k + k ≤ usizeMax) :
    rowBaseP dbg j k 0 = .ok (j * k % 2 ^ 64) := by
  unfold rowBaseP mulUsize
  by_cases hc : j * k ≤ usizeMax
  · rw [if_pos hc, ok_bind, addUsize_zero _ hc, Nat.mod_eq_of_lt (by unfold usizeMax at hc; omega)]
  · rw [if_neg hc]
    cases dbg with
    | true => have := h rfl; omega
    | false => exact addUsize_zero _ (mod64_le _)

theorem base_first_debug {dbg : Bool} {j k : Nat} (h : dbg = true → j * k + k ≤ usizeMax) :
    dbg = true → j * k % 2 ^ 64 + k ≤ usizeMax := by
  intro hd
  have := h hd
  have := Nat.mod_le (j * k) (2 ^ 64)
  omega

theorem load4_ub {α : Type} {v : List α} {i : Nat} (h : v.length ≤ i) : load4 v i = .error .ub := by
  unfold load4 Ptr.add asPtr
  simp only [Nat.zero_add]
  split
  · rw [ok_bind]
    unfold Ptr.read4
    simp only []
    rw [List.drop_eq_nil_of_le h]
  · rfl

theorem ptr_get_ub {α : Type} {v : List α} {off i : Nat} (h : v.length ≤ off + i) :
    (⟨v, off⟩ : Ptr α).get i = .error .ub := by
  unfold Ptr.get Ptr.add
  simp only []
  split
  · rw [ok_bind]
    unfold Ptr.read
    simp only []
    rw [List.getElem?_eq_none h]
  · rfl

theorem load4_any {α : Type} (v : List α) (i : Nat) : UbOr (load4 v i) fun _ => True := by
  unfold load4 Ptr.add Ptr.read4
  split
  · rw [ok_bind]
    split
    · exact .inr ⟨_, rfl, trivial⟩
    · exact .inl rfl
  · exact .inl rfl

theorem ptr_get_any {α : Type} (p : Ptr α) (i : Nat) : UbOr (p.get i) fun _ => True := by
  unfold Ptr.get Ptr.add Ptr.read
  split
  · rw [ok_bind]
    split
    · exact .inr ⟨_, rfl, trivial⟩
    · exact .inl rfl
  · exact .inl rfl

theorem UbOr.ok {α : Type} {P : α → Prop} {o : Except Fault α} {x : α} (h : o = .ok x) (hx : P x) : UbOr o P :=
  .inr ⟨x, h, hx⟩

theorem UbOr.noPanic {α : Type} {P : α → Prop} {o : Except Fault α} (h : UbOr o P) : NoPanic o :=
  h.imp id fun ⟨x, hx, _⟩ => ⟨x, hx⟩

/-- Two counting loops whose steps do not panic. -/
theorem loops4_ub {σ : Type} {F len : Nat} {b4 b1 : Nat × σ → Except Fault (Nat × σ)} (I : σ → Prop)
    (hlen : len ≤ usizeMax) (hF : len < F)
    (h4 : ∀ q s, q + 4 ≤ len → I s → UbOr (b4 (q, s)) fun r => r.1 = q + 4 ∧ I r.2)
    (h1 : ∀ q s, q + 1 ≤ len → I s → UbOr (b1 (q, s)) fun r => r.1 = q + 1 ∧ I r.2) (s : σ) (hs : I s) :
    UbOr (do
      let s ← untilP F (andNot len 3) b4 (0, s)
      let s ← untilP F len b1 s
      pure s.2) I := by
  rw [mask4 hlen]
  refine (untilP_ub (B := 4) (lim := len - len % 4) (fun _ s => I s) (fun q s hq hi => h4 q s (by omega) hi)
    (by decide) (len / 4) F 0 s (by omega) (by omega) hs).bind fun r hr => ?_
  obtain ⟨r1, r2⟩ := r
  obtain ⟨rfl, hr⟩ := hr
  refine (untilP_ub (B := 1) (lim := len) (fun _ s => I s) (fun q s hq hi => h1 q s (by omega) hi)
    (by decide) (len % 4) F _ r2 (by omega) (by omega) hr).bind fun r hr => ?_
  exact UbOr.ok rfl hr.2

section
variable [Zero V] [Add V] [Mul V] {dbg : Bool} {F : Nat}

theorem spreadColsP_any {b yi : List V} {k c0 tk base : Nat} {aij : V} (hy : yi.length = k) (hc : c0 + tk ≤ k)
    (hku : k ≤ usizeMax) (hbase : dbg = true → base + tk ≤ usizeMax) (hF : tk < F) :
    UbOr (spreadColsP dbg F b c0 tk base aij yi) fun y => y.length = k := by
  unfold spreadColsP
  refine loops4_ub (fun s : List V => s.length = k) (by omega) hF (fun q s hq hs => ?_) (fun q s hq hs => ?_) yi hy
  · obtain ⟨p, hp⟩ := addUsize_any dbg base q (fun hd => by have := hbase hd; omega)
    simp only []
    rw [hp, ok_bind]
    refine (load4_any _ _).bind fun vb _ => ?_
    rw [addUsize_eq (by omega), ok_bind, load4_getD (by omega) 0, ok_bind, store4_set (by omega), ok_bind]
    exact UbOr.ok rfl ⟨rfl, by simp only [List.length_set]; exact hs⟩
  · obtain ⟨p, hp⟩ := addUsize_any dbg base q (fun hd => by have := hbase hd; omega)
    simp only []
    rw [hp, ok_bind]
    refine (ptr_get_any _ _).bind fun bv _ => ?_
    rw [addUsize_eq (by omega), ok_bind, addIdxP_eq (by omega), ok_bind]
    exact UbOr.ok rfl ⟨rfl, by rw [addAt_length]; exact hs⟩

omit [Zero V] in
theorem spreadColsP_ub {b yi : List V} {c0 tk base : Nat} {aij : V} (htk : 0 < tk) (htu : tk ≤ usizeMax)
    (hbu : base ≤ usizeMax) (hb : b.length ≤ base) (hF : tk < F) :
    spreadColsP dbg F b c0 tk base aij yi = .error .ub := by
  unfold spreadColsP
  rw [mask4 htu]
  by_cases h4 : 4 ≤ tk
  · rw [untilP_first_err (e := .ub) (by omega) (by simp only []; omega) (by
      simp only []
      rw [addUsize_zero _ hbu, ok_bind, load4_ub hb]; rfl)]
    rfl
  · rw [untilP_done (by omega) (by simp only []; omega), ok_bind, untilP_first_err (e := .ub) (by omega) (by simp only []; omega) (by
      simp only []
      unfold asPtr
      rw [addUsize_zero _ hbu, ok_bind, ptr_get_ub (by omega)]; rfl)]
    rfl

omit [Zero V] [Add V] in
theorem entryEventsP_any {n : Nat} {bp : Ptr V} {src base tk : Nat} {aij : V} (htu : tk ≤ usizeMax)
    (hsrc : dbg = true → src + tk ≤ usizeMax) (hbase : dbg = true → base + tk ≤ usizeMax) (hF : tk < F)
    (evs : List (Nat × V)) : UbOr (entryEventsP dbg F n bp src base tk aij evs) fun _ => True := by
  unfold entryEventsP
  refine loops4_ub (fun _ => True) htu hF (fun q s hq _ => ?_) (fun q s hq _ => ?_) evs trivial
  · obtain ⟨p, hp⟩ := addUsize_any dbg src q (fun hd => by have := hsrc hd; omega)
    obtain ⟨p', hp'⟩ := addUsize_any dbg base q (fun hd => by have := hbase hd; omega)
    simp only []
    rw [hp, ok_bind]
    unfold Ptr.add
    split
    · rw [ok_bind]
      unfold Ptr.read4
      split
      · rw [ok_bind, hp', ok_bind]
        unfold MutPtr.add
        split
        · rw [ok_bind]
          split
          · exact UbOr.ok rfl ⟨rfl, trivial⟩
          · exact .inl rfl
        · exact .inl rfl
      · exact .inl rfl
    · exact .inl rfl
  · obtain ⟨p, hp⟩ := addUsize_any dbg src q (fun hd => by have := hsrc hd; omega)
    obtain ⟨p', hp'⟩ := addUsize_any dbg base q (fun hd => by have := hbase hd; omega)
    simp only []
    rw [hp, ok_bind]
    refine (ptr_get_any _ _).bind fun bv _ => ?_
    rw [hp', ok_bind]
    unfold rawEventP MutPtr.put MutPtr.add MutPtr.write
    split
    · rw [ok_bind]
      split
      · exact UbOr.ok rfl ⟨rfl, trivial⟩
      · exact .inl rfl
    · exact .inl rfl

omit [Zero V] [Add V] in
theorem entryEventsP_ub {n : Nat} {b : List V} {off src base tk : Nat} {aij : V} (htk : 0 < tk) (htu : tk ≤ usizeMax)
    (hsu : src ≤ usizeMax) (hbu : base ≤ usizeMax) (hF : tk < F) (h : b.length ≤ off + src ∨ n ≤ base)
    (evs : List (Nat × V)) : entryEventsP dbg F n ⟨b, off⟩ src base tk aij evs = .error .ub := by
  unfold entryEventsP
  rw [mask4 htu]
  by_cases h4 : 4 ≤ tk
  · rw [untilP_first_err (e := .ub) (by omega) (by simp only []; omega)]
    · rfl
    · simp only []
      rw [addUsize_zero _ hsu, ok_bind]
      unfold Ptr.add
      simp only []
      split
      · rename_i hle
        rw [ok_bind]
        unfold Ptr.read4
        simp only []
        rcases h with h | h
        · rw [List.drop_eq_nil_of_le h]; rfl
        · split
          · rw [ok_bind, addUsize_zero _ hbu, ok_bind]
            unfold MutPtr.add
            split
            · rw [ok_bind, if_neg (by simp only []; omega)]
            · rfl
          · rfl
      · rfl
  · rw [untilP_done (by omega) (by simp only []; omega), ok_bind, untilP_first_err (e := .ub) (by omega) (by simp only []; omega)]
    · rfl
    · simp only []
      rw [addUsize_zero _ hsu, ok_bind]
      rcases ptr_get_any (⟨b, off⟩ : Ptr V) src with hg | ⟨x, hg, _⟩
      · rw [hg]; rfl
      · rcases h with h | h
        · rw [ptr_get_ub h]; rfl
        · rw [hg, ok_bind, addUsize_zero _ hbu, ok_bind]
          unfold rawEventP MutPtr.put MutPtr.add MutPtr.write
          split
          · rw [ok_bind, if_neg (by simp only []; omega)]; rfl
          · rfl

/-- A loop whose steps keep an invariant and do not panic, one of them always leaving its buffer. -/
theorem UbOr.foldlM_ub {σ α : Type} {f : σ → α → Except Fault σ} {I : σ → Prop} :
    ∀ (l : List α), (∀ x ∈ l, ∀ s, I s → UbOr (f s x) I) → ∀ s, I s → (∃ x ∈ l, ∀ s, I s → f s x = .error .ub) →
    l.foldlM f s = .error .ub
  | [], _, _, _, h => by obtain ⟨x, hx, _⟩ := h; cases hx
  | x :: l, h, s, hs, he => by
    rw [List.foldlM_cons]
    rcases h x (by simp) s hs with h1 | ⟨s', h1, hs'⟩
    · rw [h1]; rfl
    · rw [h1, ok_bind]
      refine UbOr.foldlM_ub l (fun y hy => h y (by simp [hy])) s' hs' ?_
      obtain ⟨y, hy, hu⟩ := he
      rcases List.mem_cons.1 hy with rfl | hy
      · rw [hu s hs] at h1; cases h1
      · exact ⟨y, hy, hu⟩

theorem UbOr.foldlM {σ α : Type} {f : σ → α → Except Fault σ} {I : σ → Prop} :
    ∀ (l : List α), (∀ x ∈ l, ∀ s, I s → UbOr (f s x) I) → ∀ s, I s → UbOr (l.foldlM f s) I
  | [], _, _, hs => UbOr.ok rfl hs
  | x :: l, h, s, hs => by
    rw [List.foldlM_cons]
    exact (h x (by simp) s hs).bind fun s' hs' => UbOr.foldlM l (fun y hy => h y (by simp [hy])) s' hs'

omit [Zero V] [Add V] [Mul V] in
theorem tiles_zero {k : Nat} (hk : 0 < k) : ∃ l, tiles k = 0 :: l := by
  unfold tiles
  obtain ⟨m, hm⟩ : ∃ m, (k + 127) / 128 = m + 1 := ⟨(k + 127) / 128 - 1, by omega⟩
  rw [hm, List.range_succ_eq_map]
  exact ⟨_, rfl⟩

section
variable {a : Comp V} {b : List V} {k i : Nat} (h : a.PtrOk) (hi : i < a.n)
  (hr : dbg = true → ∀ e ∈ a.row i, 0 ≤ e.1 ∧ i64ToUsize e.1 * k + k ≤ usizeMax)
include h hi hr

omit [Zero V] [Add V] [Mul V] in
theorem readEntry' {q : Nat} (hq : q < (a.row i).length) :
    index a.indices (a.ptr i + q) = .ok (a.row i)[q].1 ∧ index a.data (a.ptr i + q) = .ok (a.row i)[q].2 ∧
      i64ToUsizeP dbg (a.row i)[q].1 = .ok (i64ToUsize (a.row i)[q].1) := by
  obtain ⟨r1, r2⟩ := h.row_get hi q hq
  unfold index
  rw [r1, r2]
  exact ⟨rfl, rfl, i64ToUsizeP_of fun hd => (hr hd _ (List.getElem_mem hq)).1⟩

/-- A row with an entry whose part of `b` lies outside: the first tile reads there. -/
theorem spmmRowP_ub (hm : a.Machine) {yi : List V} (hy : yi.length = k) (hk : 0 < k) (hku : k + 128 ≤ usizeMax)
    (hF : 128 < F) (hbad : ∃ e ∈ a.row i, b.length ≤ i64ToUsize e.1 * k % 2 ^ 64) :
    spmmRowP dbg F a b k (yi, i) = .error .ub := by
  obtain ⟨x, e1, e2⟩ := h.loadTask hm dbg (i := i) (by omega)
  obtain ⟨x', e3, e4⟩ := h.loadTask hm dbg (i := i + 1) (by omega)
  unfold spmmRowP
  simp only []
  have hle := h.ptr_mono' (i := i) (j := i + 1) (by omega) (by omega)
  rw [e1, ok_bind, e2, ok_bind, e3, ok_bind, e4, ok_bind, subUsize_eq hle, ok_bind, ← h.row_length hi]
  obtain ⟨l, hl⟩ := tiles_zero hk
  rw [hl, List.foldlM_cons]
  suffices hs : spmmTileP dbg F a b k (a.row i).length (List.range' (a.ptr i) (a.row i).length) yi 0 = .error .ub by
    rw [hs]; rfl
  obtain ⟨hl1, hl2⟩ := tileLen_le k 0
  have hl2 := hl2 (by omega)
  have hl3 : 0 < tileLen k 0 := by unfold tileLen; omega
  have hbase : ∀ e ∈ a.row i, rowBaseP dbg (i64ToUsize e.1) k 0 = .ok (i64ToUsize e.1 * k % 2 ^ 64) := fun e he =>
    rowBaseP_first fun hd => (hr hd e he).2
  have hfit : ∀ e ∈ a.row i, dbg = true → i64ToUsize e.1 * k % 2 ^ 64 + k ≤ usizeMax := fun e he =>
    base_first_debug fun hd => (hr hd e he).2
  unfold spmmTileP
  rw [tileLenP_eq hku (by omega), ok_bind]
  split
  · rw [foldlM_range' (a.row i) (a.ptr i) _ (fun y e =>
      spreadColsP dbg F b 0 (tileLen k 0) (i64ToUsize e.1 * k % 2 ^ 64) e.2 y)]
    · refine UbOr.foldlM_ub (I := fun y : List V => y.length = k) _ (fun e he y hy => ?_) yi hy ?_
      · exact spreadColsP_any hy (by omega) (by omega) (fun hd => by have := hfit e he hd; omega) (by omega)
      · obtain ⟨e, he, hb⟩ := hbad
        exact ⟨e, he, fun y _ => spreadColsP_ub hl3 (by omega) (mod64_le _) hb (by omega)⟩
    · intro q hq acc
      obtain ⟨r1, r2, r3⟩ := readEntry' (dbg := dbg) h hi hr hq
      unfold spreadP
      rw [r1, ok_bind, r3, ok_bind, r2, ok_bind, hbase _ (List.getElem_mem hq), ok_bind]
  · rw [mask4 (by omega)]
    by_cases h4 : 4 ≤ tileLen k 0
    · rw [untilP_first_err (e := .ub) (by omega) (by simp only []; omega)]
      · rfl
      · simp only []
        let f : Lanes V → Int × V → Except Fault (Lanes V) := fun acc e => do
          let vb ← load4 b (i64ToUsize e.1 * k % 2 ^ 64)
          pure (acc.1 + vb.1 * e.2, acc.2.1 + vb.2.1 * e.2, acc.2.2.1 + vb.2.2.1 * e.2, acc.2.2.2 + vb.2.2.2 * e.2)
        rw [foldlM_range' (a.row i) (a.ptr i) _ f]
        · obtain ⟨e, he, hb⟩ := hbad
          have := UbOr.foldlM_ub (f := f) (I := fun _ : Lanes V => True) (a.row i) (fun e he y _ =>
            (load4_any _ _).bind fun _ _ => UbOr.ok rfl trivial) (0, 0, 0, 0) trivial
            ⟨e, he, fun y _ => by simp only [f]; rw [load4_ub hb]; rfl⟩
          rw [this]; rfl
        · intro q hq acc
          obtain ⟨r1, r2, r3⟩ := readEntry' (dbg := dbg) h hi hr hq
          unfold lanesAccP
          rw [r1, ok_bind, r3, ok_bind, r2, ok_bind, hbase _ (List.getElem_mem hq), ok_bind,
            addUsize_zero _ (mod64_le _), ok_bind]
    · rw [untilP_done (by omega) (by simp only []; omega), ok_bind,
        untilP_first_err (e := .ub) (by omega) (by simp only []; omega)]
      · rfl
      · simp only []
        let f : V → Int × V → Except Fault V := fun acc e => do
          let bv ← (asPtr b).get (i64ToUsize e.1 * k % 2 ^ 64)
          pure (acc + e.2 * bv)
        rw [foldlM_range' (a.row i) (a.ptr i) _ f]
        · obtain ⟨e, he, hb⟩ := hbad
          have := UbOr.foldlM_ub (f := f) (I := fun _ : V => True) (a.row i) (fun e he y _ =>
            (ptr_get_any _ _).bind fun _ _ => UbOr.ok rfl trivial) 0 trivial
            ⟨e, he, fun y _ => by simp only [f, asPtr]; rw [ptr_get_ub (by omega)]; rfl⟩
          rw [this]; rfl
        · intro q hq acc
          obtain ⟨r1, r2, r3⟩ := readEntry' (dbg := dbg) h hi hr hq
          unfold oneAccP
          rw [r1, ok_bind, r3, ok_bind, r2, ok_bind, hbase _ (List.getElem_mem hq), ok_bind,
            addUsize_zero _ (mod64_le _), ok_bind]

end

omit [Zero V] [Add V] in
theorem cscTileP_ub {n k : Nat} {a : Comp V} {b : List V} (h : a.PtrOk) (hm : a.Machine)
    (hb : b.length = a.n * k) (hbu : b.length ≤ usizeMax)
    (hr : dbg = true → ∀ j < a.n, ∀ e ∈ a.row j, 0 ≤ e.1 ∧ i64ToUsize e.1 * k + k ≤ usizeMax)
    (hk : 0 < k) (hku : k + 128 ≤ usizeMax) (hF : 128 < F)
    (hbad : ∃ j < a.n, ∃ e ∈ a.row j, n ≤ i64ToUsize e.1 * k % 2 ^ 64) :
    cscTileP dbg F n a b k 0 = .error .ub := by
  obtain ⟨hl1, hl2⟩ := tileLen_le k 0
  have hl2 := hl2 (by omega)
  have hl3 : 0 < tileLen k 0 := by unfold tileLen; omega
  unfold cscTileP
  rw [tileLenP_eq hku (by omega), ok_bind]
  have hcol : ∀ j < a.n, ∀ evs, cscColP dbg F n a b k 0 (tileLen k 0) evs j =
      (a.row j).foldlM (fun evs e => entryEventsP dbg F n ⟨b, 0 + (j * k + 0)⟩ 0 (i64ToUsize e.1 * k % 2 ^ 64)
        (tileLen k 0) e.2 evs) evs := by
    intro j hj evs
    obtain ⟨x, e1, e2⟩ := h.loadTask hm dbg (i := j) (by omega)
    obtain ⟨x', e3, e4⟩ := h.loadTask hm dbg (i := j + 1) (by omega)
    have hmul : j * k + k ≤ b.length := by
      have : (j + 1) * k ≤ a.n * k := Nat.mul_le_mul_right k hj
      rw [Nat.add_mul] at this
      omega
    unfold cscColP
    rw [e1, ok_bind, e2, ok_bind, e3, ok_bind, e4, ok_bind, rowBaseP_eq (by omega), ok_bind]
    unfold asPtr Ptr.add
    rw [if_pos (show 0 + (j * k + 0) ≤ b.length by omega), ok_bind, ← h.row_length hj]
    refine foldlM_range' _ _ _ _ _ fun q hq acc => ?_
    obtain ⟨r1, r2, r3⟩ := readEntry' (dbg := dbg) (k := k) h hj (fun hd => hr hd j hj) hq
    rw [r1, ok_bind, r3, ok_bind, r2, ok_bind,
      rowBaseP_first fun hd => (hr hd j hj _ (List.getElem_mem hq)).2, ok_bind]
  refine UbOr.foldlM_ub (I := fun _ => True) _ (fun j hj evs _ => ?_) _ trivial ?_
  · have hj := List.mem_range.1 hj
    rw [hcol j hj]
    refine UbOr.foldlM _ (fun e he evs _ => entryEventsP_any (by omega) (fun _ => by omega) (fun hd => ?_) (by omega) evs) _ trivial
    have := base_first_debug (fun hd => (hr hd j hj e he).2) hd
    omega
  · obtain ⟨j, hj, e, he, hbad⟩ := hbad
    refine ⟨j, List.mem_range.2 hj, fun evs _ => ?_⟩
    rw [hcol j hj]
    refine UbOr.foldlM_ub (I := fun _ => True) _ (fun e he evs _ => entryEventsP_any (by omega) (fun _ => by omega)
      (fun hd => ?_) (by omega) evs) _ trivial
      ⟨e, he, fun evs _ => entryEventsP_ub hl3 (by omega) (by omega) (mod64_le _) (by omega) (.inr hbad) evs⟩
    have := base_first_debug (fun hd => (hr hd j hj e he).2) hd
    omega

omit [Zero V] [Add V] in
theorem cooTileP_ub {n k : Nat} {a : Coo V} {b : List V}
    (hrow : a.data.length ≤ a.row.length) (hcol : a.data.length ≤ a.col.length)
    (hr : dbg = true → ∀ e ∈ a.triples, 0 ≤ e.1.1 ∧ 0 ≤ e.1.2 ∧ i64ToUsize e.1.1 * k + k ≤ usizeMax ∧
      i64ToUsize e.1.2 * k + k ≤ usizeMax)
    (hk : 0 < k) (hku : k + 128 ≤ usizeMax) (hF : 128 < F)
    (hbad : ∃ e ∈ a.triples, b.length ≤ i64ToUsize e.1.2 * k % 2 ^ 64 ∨ n ≤ i64ToUsize e.1.1 * k % 2 ^ 64) :
    cooTileP dbg F n a b k 0 = .error .ub := by
  obtain ⟨hl1, hl2⟩ := tileLen_le k 0
  have hl2 := hl2 (by omega)
  have hl3 : 0 < tileLen k 0 := by unfold tileLen; omega
  have hlen : a.triples.length = a.data.length := by unfold Coo.triples; simp; omega
  unfold cooTileP
  rw [tileLenP_eq hku (by omega), ok_bind, ← hlen, List.range_eq_range']
  rw [foldlM_range' a.triples 0 _ (fun evs e => entryEventsP dbg F n ⟨b, 0⟩ (i64ToUsize e.1.2 * k % 2 ^ 64)
    (i64ToUsize e.1.1 * k % 2 ^ 64) (tileLen k 0) e.2 evs)]
  · refine UbOr.foldlM_ub (I := fun _ => True) _ (fun e he evs _ => entryEventsP_any (by omega) (fun hd => ?_)
      (fun hd => ?_) (by omega) evs) _ trivial ?_
    · have := base_first_debug (fun hd => (hr hd e he).2.2.2) hd
      omega
    · have := base_first_debug (fun hd => (hr hd e he).2.2.1) hd
      omega
    · obtain ⟨e, he, hbad⟩ := hbad
      exact ⟨e, he, fun evs _ => entryEventsP_ub hl3 (by omega) (mod64_le _) (mod64_le _) (by omega)
        (hbad.imp (fun h => by omega) id) evs⟩
  · intro q hq acc
    have ht : a.triples[q] = ((a.row[q]'(by omega), a.col[q]'(by omega)), a.data[q]'(by omega)) := by
      simp [Coo.triples]
    have hr' : dbg = true → 0 ≤ a.row[q]'(by omega) ∧ 0 ≤ a.col[q]'(by omega) ∧
        i64ToUsize (a.row[q]'(by omega)) * k + k ≤ usizeMax ∧ i64ToUsize (a.col[q]'(by omega)) * k + k ≤ usizeMax := by
      intro hd
      have := hr hd _ (List.getElem_mem hq)
      rw [ht] at this
      exact this
    rw [ht]
    unfold cooEntryP
    rw [Nat.zero_add, index_eq (by omega), ok_bind, i64ToUsizeP_of (fun hd => (hr' hd).1), ok_bind,
      index_eq (by omega), ok_bind, i64ToUsizeP_of (fun hd => (hr' hd).2.1), ok_bind, index_eq (by omega), ok_bind,
      rowBaseP_first (fun hd => (hr' hd).2.2.1), ok_bind, rowBaseP_first (fun hd => (hr' hd).2.2.2), ok_bind]
    rfl

omit [Mul V] in
theorem tilesPtr_ub {k : Nat} (hk : 0 < k) {z : List V} {task : Nat → Except Fault (List (Nat × V))}
    (h : task 0 = .error .ub) : TilesPtr k z task (.error .ub) := by
  obtain ⟨l, hl⟩ := tiles_zero hk
  exact ⟨.error .ub, ⟨0, by rw [hl]; simp, h⟩, rfl⟩

end

end Lacuna
