import Verif.Lemmas.PtrMerge
import Verif.Lemmas.PtrRanges
import Verif.Lemmas.PtrConvert
import Verif.Lemmas.Ranges
/- Work items of the scatter kernels and loops with thread-local accumulators. -/
namespace Lacuna
variable {V : Type}

/-! ### Work items on readable arrays -/

theorem foldlM_range' {A β : Type} (r : List β) : ∀ (base : Nat) (body : A → Nat → Except Fault A)
    (f : A → β → Except Fault A) (acc : A),
    (∀ q (hq : q < r.length) acc, body acc (base + q) = f acc r[q]) →
    (List.range' base r.length).foldlM body acc = r.foldlM f acc := by
  induction r with
  | nil => intro base body f acc _; rfl
  | cons x r ih =>
    intro base body f acc h
    rw [List.length_cons, List.range'_succ, List.foldlM_cons, List.foldlM_cons]
    have h0 := h 0 (by simp) acc
    simp only [Nat.add_zero, List.getElem_cons_zero] at h0
    rw [h0]
    congr 1
    funext acc'
    refine ih (base + 1) body f acc' fun q hq acc => ?_
    have := h (q + 1) (by simpa using hq) acc
    rw [show base + 1 + q = base + (q + 1) by omega, this]
    rfl

theorem foldlM_flatMap {A ι β : Type} (l : List ι) (g : ι → List β) (f : A → β → Except Fault A) : ∀ acc,
    (l.flatMap g).foldlM f acc = l.foldlM (fun acc x => (g x).foldlM f acc) acc := by
  induction l with
  | nil => intro acc; rfl
  | cons x l ih =>
    intro acc
    rw [List.flatMap_cons, List.foldlM_append, List.foldlM_cons]
    congr 1
    funext acc'
    exact ih acc'

theorem foldlM_congr {A ι : Type} (l : List ι) {f g : A → ι → Except Fault A} (h : ∀ x ∈ l, ∀ acc, f acc x = g acc x) :
    ∀ acc, l.foldlM f acc = l.foldlM g acc := by
  induction l with
  | nil => intro acc; rfl
  | cons x l ih =>
    intro acc
    rw [List.foldlM_cons, List.foldlM_cons, h x (by simp)]
    congr 1
    funext acc'
    exact ih (fun y hy => h y (by simp [hy])) acc'

theorem i64ToUsizeP_of {dbg : Bool} {x : Int} (h : dbg = true → 0 ≤ x) : i64ToUsizeP dbg x = .ok (i64ToUsize x) := by
  unfold i64ToUsizeP
  rw [if_neg]
  · rfl
  · intro hc
    simp only [Bool.and_eq_true, decide_eq_true_eq] at hc
    have := h hc.1
    omega

/-- The operations of a line. -/
def lineFOps (a : Comp V) (f : Nat → V → V) (i : Nat) : List (Nat × V) :=
  (a.row i).map fun e => (i64ToUsize e.1, f i e.2)

theorem scatterLineP_eq {A : Type} {dbg : Bool} {a : Comp V} (h : a.PtrOk) (hm : a.Machine)
    (hj : dbg = true → ∀ j ∈ a.indices, 0 ≤ j) (f : Nat → V → V) (add : A → Nat → V → Except Fault A) (acc : A)
    {i : Nat} (hi : i < a.n) :
    scatterLineP dbg a f add acc i = (lineFOps a f i).foldlM (fun acc o => add acc o.1 o.2) acc := by
  obtain ⟨x, e1, e2⟩ := h.loadTask hm dbg (i := i) (by omega)
  obtain ⟨x', e3, e4⟩ := h.loadTask hm dbg (i := i + 1) (by omega)
  unfold scatterLineP
  rw [e1, ok_bind, e2, ok_bind, e3, ok_bind, e4, ok_bind, ← h.row_length hi]
  unfold lineFOps
  rw [List.foldlM_map]
  refine foldlM_range' _ _ _ _ _ fun q hq acc => ?_
  obtain ⟨r1, r2⟩ := h.row_get hi q hq
  have hmem : (a.row i)[q].1 ∈ a.indices := List.mem_of_getElem? r1
  unfold index
  rw [r1, r2]
  simp only []
  rw [ok_bind, i64ToUsizeP_of (fun hd => hj hd _ hmem), ok_bind, ok_bind]

theorem scatterRangeP_eq {A : Type} {dbg : Bool} {a : Comp V} (h : a.PtrOk) (hm : a.Machine)
    (hj : dbg = true → ∀ j ∈ a.indices, 0 ≤ j) (f : Nat → V → V) (skip : Nat → Bool)
    (add : A → Nat → V → Except Fault A) (acc : A) {r : Nat × Nat} (hr : r.2 ≤ a.n) :
    scatterRangeP dbg a f skip add acc r =
      (((rangeLines r).filter fun i => !skip i).flatMap (lineFOps a f)).foldlM (fun acc o => add acc o.1 o.2) acc := by
  rw [foldlM_flatMap]
  unfold scatterRangeP
  have : ∀ l : List Nat, (∀ i ∈ l, i < a.n) → ∀ acc : A,
      l.foldlM (fun acc i => if skip i then pure acc else scatterLineP dbg a f add acc i) acc =
        (l.filter fun i => !skip i).foldlM
          (fun acc x => (lineFOps a f x).foldlM (fun acc o => add acc o.1 o.2) acc) acc := by
    intro l
    induction l with
    | nil => intro _ acc; rfl
    | cons i l ih =>
      intro hl acc
      rw [List.foldlM_cons, List.filter_cons]
      by_cases hs : skip i = true
      · rw [if_pos hs, if_neg (by simp [hs]), ← ih (fun j hj => hl j (by simp [hj]))]
        rfl
      · rw [if_neg hs, if_pos (by simpa using hs), List.foldlM_cons, scatterLineP_eq h hm hj _ _ _ (hl i (by simp))]
        congr 1
        funext acc'
        exact ih (fun j hj => hl j (by simp [hj])) acc'
  refine this _ (fun i hi => ?_) acc
  unfold rangeLines at hi
  have := List.mem_range'_1.1 hi
  omega

/-- The entries of chunk `t`. -/
def chunkAt {β : Type} (size : Nat) (l : List β) (t : Nat) : List β := (l.drop (t * size)).take size

theorem chunksOf_eq_range {β : Type} {size : Nat} (hs : 0 < size) (l : List β) :
    chunksOf size l = (List.range ((l.length + size - 1) / size)).map (chunkAt size l) := by
  fun_induction chunksOf size l with
  | case1 l h =>
    rcases h with h | h
    · subst h
      rw [show (([] : List β).length + size - 1) / size = 0 from by
        apply Nat.div_eq_of_lt; simp only [List.length_nil]; omega]
      rfl
    · omega
  | case2 l h ih =>
    have hne : l.length ≠ 0 := fun e => h (.inl (List.length_eq_zero_iff.1 e))
    have hlen : (l.length + size - 1) / size = ((l.drop size).length + size - 1) / size + 1 := by
      rw [List.length_drop]
      by_cases hc : size ≤ l.length
      · rw [show l.length + size - 1 = (l.length - size + size - 1) + size by omega, Nat.add_div_right _ hs]
      · rw [show l.length - size + size - 1 = size - 1 by omega, Nat.div_eq_of_lt (show size - 1 < size by omega)]
        rw [show l.length + size - 1 = (l.length - 1) + size by omega, Nat.add_div_right _ hs,
          Nat.div_eq_of_lt (show l.length - 1 < size by omega)]
    rw [hlen, List.range_succ_eq_map, List.map_cons, List.map_map, ih]
    congr 1
    · unfold chunkAt; simp
    · refine List.map_congr_left fun t _ => ?_
      unfold chunkAt
      simp only [Function.comp, List.drop_drop]
      rw [show size + t * size = (t + 1) * size by rw [Nat.add_mul]; omega]

theorem scatterChunkP_eq {A : Type} {op : Nat → Except Fault (Option (Nat × V))} {l : List (List (Nat × V))}
    (hop : ∀ k (hk : k < l.length), ∃ o : Option (Nat × V), op k = .ok o ∧ l[k] = o.toList) {nnz size : Nat}
    (hn : l.length = nnz) (add : A → Nat → V → Except Fault A) (acc : A) (t : Nat) :
    scatterChunkP op nnz size add acc t =
      (chunkAt size l t).flatten.foldlM (fun acc o => add acc o.1 o.2) acc := by
  unfold scatterChunkP
  simp only []
  have hlen : (chunkAt size l t).length = min (t * size + size) nnz - t * size := by
    unfold chunkAt
    rw [List.length_take, List.length_drop, hn]
    omega
  rw [← hlen, ← List.flatMap_id, foldlM_flatMap]
  refine foldlM_range' _ _ _ _ _ fun q hq acc => ?_
  have hk : t * size + q < l.length := by rw [hlen] at hq; omega
  obtain ⟨o, h1, h2⟩ := hop _ hk
  have h3 : (chunkAt size l t)[q] = l[t * size + q] := by
    simp only [chunkAt, List.getElem_take, List.getElem_drop]
  rw [h1, ok_bind, h3, h2]
  cases o with
  | none => rfl
  | some o =>
    show _ = [o].foldlM _ acc
    rw [List.foldlM_cons]
    simp only [List.foldlM_nil]
    exact (bind_pure _).symm

theorem toList_ops {l : List (Nat × V)} {op : Nat → Except Fault (Option (Nat × V))}
    (h : ∀ k (hk : k < l.length), op k = .ok (some l[k])) :
    ∀ k (hk : k < (l.map fun o => [o]).length), ∃ o : Option (Nat × V), op k = .ok o ∧
      (l.map fun o => [o])[k] = o.toList := by
  intro k hk
  exact ⟨_, h k (by simpa using hk), by simp⟩

theorem chunkAt_singletons (size : Nat) (l : List (Nat × V)) (t : Nat) :
    (chunkAt size (l.map fun o => [o]) t).flatten = chunkAt size l t := by
  unfold chunkAt
  rw [← List.map_drop, ← List.map_take, ← List.flatMap_def, List.flatMap_singleton']

/-! ### Work items on arbitrary arrays -/

theorem scatterLineP_safe {A : Type} {I : A → Prop} {dbg : Bool} {a : Comp V} {f : Nat → V → V}
    {add : A → Nat → V → Except Fault A}
    (hadd : ∀ acc j v, I acc → j ∈ a.indices → SafeE I (add acc (asUsize j) v)) {acc : A} (hacc : I acc) (i : Nat) :
    SafeE I (scatterLineP dbg a f add acc i) := by
  unfold scatterLineP
  refine (SafeE.index _ _).bind fun x _ => (SafeE.i64ToUsizeP _ _).bind fun s _ =>
    (SafeE.index _ _).bind fun x _ => (SafeE.i64ToUsizeP _ _).bind fun e _ =>
    SafeE.foldlM _ (fun p _ acc hacc => ?_) acc hacc
  refine (SafeE.index _ _).bind fun x hx => (SafeE.i64ToUsizeP _ _).bind fun j hj =>
    (SafeE.index _ _).bind fun v _ => ?_
  rw [hj]
  exact hadd _ _ _ hacc hx

theorem scatterRangeP_safe {A : Type} {I : A → Prop} {dbg : Bool} {a : Comp V} {f : Nat → V → V} {skip : Nat → Bool}
    {add : A → Nat → V → Except Fault A}
    (hadd : ∀ acc j v, I acc → j ∈ a.indices → SafeE I (add acc (asUsize j) v)) {acc : A} (hacc : I acc)
    (r : Nat × Nat) : SafeE I (scatterRangeP dbg a f skip add acc r) := by
  unfold scatterRangeP
  refine SafeE.foldlM _ (fun i _ acc hacc => ?_) acc hacc
  split
  · exact SafeE.ok hacc
  · exact scatterLineP_safe hadd hacc i

theorem scatterChunkP_safe {A : Type} {I : A → Prop} {Q : Nat → Prop} {op : Nat → Except Fault (Option (Nat × V))}
    (hop : ∀ k, SafeE (fun o => ∀ p, o = some p → Q p.1) (op k)) {add : A → Nat → V → Except Fault A}
    (hadd : ∀ acc j v, I acc → Q j → SafeE I (add acc j v)) {acc : A} (hacc : I acc) (nnz size t : Nat) :
    SafeE I (scatterChunkP op nnz size add acc t) := by
  unfold scatterChunkP
  simp only []
  refine SafeE.foldlM _ (fun k _ acc hacc => (hop k).bind fun o ho => ?_) acc hacc
  cases o with
  | none => exact SafeE.ok hacc
  | some p => exact hadd _ _ _ hacc (ho p rfl)

/-! ### Thread-local accumulators -/

/-- `fun acc o => add acc o.1 o.2`, folded. -/
def runOps {A : Type} (add : A → Nat → V → Except Fault A) (init : A) (l : List (Nat × V)) : Except Fault A :=
  l.foldlM (fun acc o => add acc o.1 o.2) init

/-- Lists of operations that a thread may run on `items`. -/
def SubOps {ι : Type} (items : List ι) (ops : ι → List (Nat × V)) (l : List (Nat × V)) : Prop :=
  l.length ≤ (items.flatMap ops).length ∧ ∀ o ∈ l, o ∈ items.flatMap ops

theorem division_group {ι : Type} {items : List ι} {groups : List (List ι)} (h : Division items groups)
    (ops : ι → List (Nat × V)) {g : List ι} (hg : g ∈ groups) : SubOps items ops (g.flatMap ops) := by
  have hp : (groups.flatten.flatMap ops).Perm (items.flatMap ops) := h.flatMap_right ops
  have hs : (g.flatMap ops).Sublist (groups.flatten.flatMap ops) := by
    obtain ⟨s, t, rfl⟩ := List.append_of_mem hg
    simp only [List.flatten_append, List.flatten_cons, List.flatMap_append]
    exact (List.sublist_append_left _ _).trans (List.sublist_append_right _ _)
  exact ⟨hp.length_eq ▸ hs.length_le, fun o ho => hp.subset (hs.subset ho)⟩

theorem division_map {ι β : Type} {items : List ι} {groups : List (List ι)} (h : Division items groups)
    (f : ι → β) : Division (items.map f) (groups.map (List.map f)) := by
  unfold Division at *
  rw [← List.map_flatten]
  exact h.map f

theorem tls_groups {ι A : Type} {items : List ι} {work : A → ι → Except Fault A} {init : A}
    {add : A → Nat → V → Except Fault A} {ops : ι → List (Nat × V)} {cell : List (Nat × V) → Option A} {S : A → Prop}
    (hw : ∀ x ∈ items, ∀ acc, work acc x = runOps add acc (ops x))
    (hc : ∀ l, SubOps items ops l → ∃ c, runOps add init l = .ok c ∧ cell l = some c ∧ S c)
    {groups : List (List ι)} (hd : Division items groups) :
    ∃ cells : List A, (∀ oe, ParEach groups (fun g => g.foldlM work init) oe ↔ oe = .ok cells) ∧
      ((groups.map (List.map ops)).map List.flatten).mapM cell = some cells ∧ ∀ c ∈ cells, S c := by
  have hg : ∀ g ∈ groups, ∃ c, g.foldlM work init = .ok c ∧ cell (g.map ops).flatten = some c ∧ S c := by
    intro g hg
    obtain ⟨c, h1, h2, h3⟩ := hc _ (division_group hd ops hg)
    refine ⟨c, ?_, by rw [← List.flatMap_def]; exact h2, h3⟩
    rw [← h1, runOps, foldlM_flatMap]
    refine foldlM_congr g (fun x hx acc => hw x ?_ acc) init
    exact hd.subset (List.mem_flatten.2 ⟨g, hg, hx⟩)
  let cf : List ι → A := fun g => match g.foldlM work init with
    | .ok c => c
    | .error _ => init
  have hcf : ∀ g ∈ groups, g.foldlM work init = .ok (cf g) ∧ cell (g.map ops).flatten = some (cf g) ∧ S (cf g) := by
    intro g hg'
    obtain ⟨c, h1, h2, h3⟩ := hg g hg'
    have : cf g = c := by show (match g.foldlM work init with | .ok c => c | .error _ => init) = c; rw [h1]
    rw [this]
    exact ⟨h1, h2, h3⟩
  refine ⟨groups.map cf, fun oe => parEach_ok (fun g hg' => (hcf g hg').1) oe, ?_, ?_⟩
  · rw [List.map_map, List.mapM_map]
    exact mapM_option_map fun g hg' => (hcf g hg').2.1
  · intro c hc'
    obtain ⟨g, hg', rfl⟩ := List.mem_map.1 hc'
    exact (hcf g hg').2.2

/-- On good operations every run merges the accumulators of a division of the work. -/
theorem tlsPtr_fwd {ι A : Type} {items : List ι} {work : A → ι → Except Fault A} {init : A}
    {merge : List A → Except Fault (List V) → Prop}
    {add : A → Nat → V → Except Fault A} {ops : ι → List (Nat × V)} {cell : List (Nat × V) → Option A} {S : A → Prop}
    (hw : ∀ x ∈ items, ∀ acc, work acc x = runOps add acc (ops x))
    (hc : ∀ l, SubOps items ops l → ∃ c, runOps add init l = .ok c ∧ cell l = some c ∧ S c)
    {out : Except Fault (List V)} (h : TlsPtr items work init merge out) :
    ∃ groups, Division (items.map ops) groups ∧ ∃ cells, (groups.map List.flatten).mapM cell = some cells ∧
      (∀ c ∈ cells, S c) ∧ merge cells out := by
  obtain ⟨groups, hd, oe, hoe, hm⟩ := h
  obtain ⟨cells, h1, h2, h3⟩ := tls_groups hw hc hd
  rw [h1] at hoe
  subst hoe
  exact ⟨_, division_map hd ops, cells, h2, h3, hm⟩

/-- There is a run. -/
theorem tlsPtr_ex {ι A : Type} {items : List ι} {work : A → ι → Except Fault A} {init : A}
    {merge : List A → Except Fault (List V) → Prop}
    {add : A → Nat → V → Except Fault A} {ops : ι → List (Nat × V)} {cell : List (Nat × V) → Option A} {S : A → Prop}
    (hw : ∀ x ∈ items, ∀ acc, work acc x = runOps add acc (ops x))
    (hc : ∀ l, SubOps items ops l → ∃ c, runOps add init l = .ok c ∧ cell l = some c ∧ S c)
    (hm : ∀ cells : List A, (∀ c ∈ cells, S c) → ∃ out, merge cells out) : ∃ out, TlsPtr items work init merge out := by
  obtain ⟨cells, h1, h2, h3⟩ := tls_groups hw hc (division_single items)
  obtain ⟨out, ho⟩ := hm cells h3
  exact ⟨out, [items], division_single items, _, (h1 _).2 rfl, ho⟩

theorem mem_of_division {ι : Type} {items : List ι} {groups : List (List ι)} (h : Division items groups)
    {g : List ι} (hg : g ∈ groups) {x : ι} (hx : x ∈ g) : x ∈ items := h.subset (List.mem_flatten.2 ⟨g, hg, hx⟩)

/-- No out-of-bounds access if no operation and no merge makes one. -/
theorem tlsPtr_safe {ι A : Type} {I : A → Prop} {items : List ι} {work : A → ι → Except Fault A} {init : A}
    {merge : List A → Except Fault (List V) → Prop} (hI : I init)
    (hw : ∀ x ∈ items, ∀ acc, I acc → SafeE I (work acc x))
    (hm : ∀ cells, (∀ c ∈ cells, I c) → ∀ out, merge cells out → NoUb out)
    {out : Except Fault (List V)} (h : TlsPtr items work init merge out) : NoUb out := by
  obtain ⟨groups, hd, oe, hoe, h⟩ := h
  have hg : ∀ g ∈ groups, SafeE I (g.foldlM work init) := fun g hg =>
    SafeE.foldlM g (fun x hx acc hacc => hw x (mem_of_division hd hg hx) acc hacc) init hI
  cases oe with
  | error x =>
    obtain ⟨g, hg', he⟩ := hoe
    rw [h]
    intro hc
    cases hc
    exact (hg g hg').1 he
  | ok accs =>
    refine hm accs (fun c hc => ?_) out h
    have : (.ok c : Except Fault A) ∈ groups.map fun g => g.foldlM work init := by
      rw [hoe]; exact List.mem_map_of_mem hc
    obtain ⟨g, hg', he⟩ := List.mem_map.1 this
    exact (hg g hg').2 c he

/-! ### Operations on the accumulators -/

theorem runOps_addIdx [Zero V] [Add V] (l : List (Nat × V)) : ∀ y : List V, (∀ o ∈ l, o.1 < y.length) →
    runOps addIdxP y l = .ok (addAll y l) := by
  induction l with
  | nil => intro y _; rfl
  | cons o l ih =>
    intro y h
    unfold runOps
    rw [List.foldlM_cons, addIdxP_eq (h o (by simp)), ok_bind]
    exact ih _ fun p hp => by rw [addAt_length]; exact h p (by simp [hp])

theorem plain_cell [Zero V] [Add V] {n : Nat} {l : List (Nat × V)} (h : ∀ o ∈ l, o.1 < n) :
    ∃ c, runOps addIdxP (List.replicate n 0) l = .ok c ∧ addAll? (List.replicate n 0) l = some c ∧ c.length = n :=
  ⟨_, runOps_addIdx l _ (fun o ho => by simpa using h o ho), addAll?_eq _ _ (fun o ho => by simpa using h o ho),
    by rw [addAll_length, List.length_replicate]⟩

theorem TouchAcc.Shape.add_some [Zero V] [Add V] {n : Nat} {c : TouchAcc V} (h : TouchAcc.Shape n c) {i : Nat}
    (hi : i < n) (v : V) : ∃ c', c.add i v = some c' := by
  unfold TouchAcc.add
  rw [List.getElem?_eq_getElem (show i < c.seen.length by rw [h.seen]; exact hi)]
  cases c.seen[i]'(by rw [h.seen]; exact hi)
  · exact ⟨_, rfl⟩
  · exact ⟨_, rfl⟩

theorem StripesShape.add_some [Zero V] [Add V] {n stripe : Nat} (hs : 0 < stripe)
    {accs : List (Option (TouchAcc V))} (h : StripesShape n stripe accs) {k : Nat} (hk : k < n) (v : V) :
    ∃ accs', stripeAdd n stripe accs k v = some accs' := by
  have hsid : k / stripe < accs.length := by rw [h.length]; exact sid_lt hs hk
  unfold stripeAdd
  simp only []
  rw [List.getElem?_eq_getElem hsid]
  simp only []
  have hoff : k - k / stripe * stripe < min (n - k / stripe * stripe) stripe := by
    have h1 := Nat.div_add_mod k stripe
    have h2 := Nat.mod_lt k hs
    have h3 : stripe * (k / stripe) = k / stripe * stripe := Nat.mul_comm _ _
    omega
  have hsh : TouchAcc.Shape (min (n - k / stripe * stripe) stripe)
      (accs[k / stripe].getD (TouchAcc.empty (min (n - k / stripe * stripe) stripe))) := by
    cases hc : accs[k / stripe] with
    | none => exact touch_empty _
    | some c => exact h.cell _ _ (by rw [List.getElem?_eq_getElem hsid, hc]; rfl)
  obtain ⟨c', hc'⟩ := hsh.add_some hoff v
  rw [hc']
  exact ⟨_, rfl⟩

theorem ofOptionP_fold {A : Type} {S : A → Prop} {f : A → Nat → V → Option A} {Q : Nat → Prop}
    (hf : ∀ c k v, S c → Q k → ∃ c', f c k v = some c' ∧ S c') (l : List (Nat × V)) : ∀ c, S c → (∀ o ∈ l, Q o.1) →
    ∃ c', runOps (fun c k v => ofOptionP (f c k v)) c l = .ok c' ∧ l.foldlM (fun c o => f c o.1 o.2) c = some c' ∧
      S c' := by
  induction l with
  | nil => intro c hc _; exact ⟨c, rfl, rfl, hc⟩
  | cons o l ih =>
    intro c hc ho
    obtain ⟨c1, e1, hc1⟩ := hf c o.1 o.2 hc (ho o (by simp))
    obtain ⟨c2, h1, h2, h3⟩ := ih c1 hc1 fun p hp => ho p (by simp [hp])
    refine ⟨c2, ?_, ?_, h3⟩
    · unfold runOps
      rw [List.foldlM_cons]
      simp only [e1]
      exact h1
    · rw [List.foldlM_cons, e1]
      exact h2

theorem touch_cell [Zero V] [Add V] {n : Nat} {l : List (Nat × V)} (h : ∀ o ∈ l, o.1 < n) :
    ∃ c, runOps touchAdd (TouchAcc.empty n) l = .ok c ∧ touchCell n l = some c ∧ TouchAcc.Shape n c :=
  ofOptionP_fold (S := TouchAcc.Shape n) (Q := (· < n)) (f := TouchAcc.add)
    (fun c k v hc hk => by obtain ⟨c', e⟩ := hc.add_some hk v; exact ⟨c', e, hc.add e⟩) l _ (touch_empty n) h

theorem stripe_cell [Zero V] [Add V] {n stripe : Nat} (hs : 0 < stripe) {l : List (Nat × V)} (h : ∀ o ∈ l, o.1 < n) :
    ∃ c, runOps (stripesAdd n stripe) (noStripes V n stripe) l = .ok c ∧ stripeCell n stripe l = some c ∧
      StripesShape n stripe c :=
  ofOptionP_fold (S := StripesShape n stripe) (Q := (· < n)) (f := stripeAdd n stripe)
    (fun c k v hc hk => by obtain ⟨c', e⟩ := hc.add_some hs hk v; exact ⟨c', e, hc.add e⟩) l _ (stripes_none n stripe) h

theorem hash_cell [Zero V] [Add V] {dbg : Bool} {F : Nat} {l : List (Nat × V)} {N : Nat} (hl : l.length ≤ N)
    (h : ∀ o ∈ l, o.1 ≠ usizeMax) (hF : 3 * N + 1024 ≤ F) (hN : 24 * (N : Int) ≤ i64Max) :
    ∃ m, runOps (hashAdd dbg F) (HMap.withCapacity 1024) l = .ok m ∧
      (HMap.withCapacity 1024 : HMap V).insertAll l = some m ∧ HMap.Inv m := by
  have hlen : (HMap.withCapacity 1024 : HMap V).keys.length = 1024 := by
    rw [HMap.withCapacity_length, HMap.nextPow2_1024]; rfl
  refine HMap.insertAllP_of (c := 1024) (N := N) l _ (HMap.inv_withCapacity 1024) (.inl (by omega)) h ?_ (by omega)
    (by omega) (by decide) hN
  show 0 + l.length ≤ N
  omega

/-- The hash map of a thread has exactly the keys it was given. -/
theorem hash_keys [Zero V] [Add V] {l : List (Nat × V)} (h : ∀ o ∈ l, o.1 < usizeMax) {m : HMap V}
    (hm : (HMap.withCapacity 1024 : HMap V).insertAll l = some m) (k : Nat) (hk : k ≠ usizeMax) :
    k ∈ m.keys ↔ ∃ o ∈ l, o.1 = k := by
  obtain ⟨m', e1, e2, e3⟩ := HMap.insertAll_spec l h (HMap.withCapacity 1024) [] (HMap.inv_withCapacity 1024)
    (fun k hk v => ⟨fun h => absurd h (HMap.withCapacity_empty 1024 k hk v), fun h => by cases h⟩)
  rw [hm] at e1
  cases e1
  rw [List.nil_append] at e3
  have htot : (∃ v, total l k = some v) ↔ ∃ o ∈ l, o.1 = k := by
    unfold total
    constructor
    · rintro ⟨v, hv⟩
      split at hv
      · cases hv
      · rename_i v' vs hvs
        have : v' ∈ (l.filter fun e => e.1 == k).map Prod.snd := by rw [hvs]; simp
        obtain ⟨o, ho, -⟩ := List.mem_map.1 this
        obtain ⟨h1, h2⟩ := List.mem_filter.1 ho
        exact ⟨o, h1, by simpa using h2⟩
    · rintro ⟨o, ho, hok⟩
      split
      · rename_i he
        have : o ∈ l.filter fun e => e.1 == k := List.mem_filter.2 ⟨ho, by simpa using hok⟩
        rw [List.map_eq_nil_iff.1 he] at this
        cases this
      · exact ⟨_, rfl⟩
  rw [← htot]
  constructor
  · intro hmem
    obtain ⟨i, hi, he⟩ := List.getElem_of_mem hmem
    refine ⟨m.vals[i]'(by rw [e2.vlen]; exact hi), (e3 k hk _).1 ⟨i, hi, ?_, ?_⟩⟩
    · rw [List.getD_eq_getElem _ _ hi, he]
    · rw [List.getElem?_eq_getElem (by rw [e2.vlen]; exact hi)]
  · rintro ⟨v, hv⟩
    obtain ⟨i, hi, he, -⟩ := (e3 k hk v).2 hv
    rw [List.getD_eq_getElem _ _ hi] at he
    exact he ▸ List.getElem_mem hi

/-! ### Merging one after the other -/

theorem foldlM_merge {A : Type} {S : A → Prop} {n : Nat} {step : List V → A → Except Fault (List V)}
    {stepL : List V → A → List V} (h : ∀ y c, y.length = n → S c → step y c = .ok (stepL y c))
    (hl : ∀ y c, (stepL y c).length = y.length) (cells : List A) : (∀ c ∈ cells, S c) → ∀ y : List V, y.length = n →
      cells.foldlM step y = .ok (cells.foldl stepL y) := by
  induction cells with
  | nil => intro _ y _; rfl
  | cons c cells ih =>
    intro hc y hy
    rw [List.foldlM_cons, h y c hy (hc c (by simp)), ok_bind, List.foldl_cons]
    exact ih (fun d hd => hc d (by simp [hd])) _ (by rw [hl]; exact hy)

theorem foldlM_hash [Zero V] [Add V] {n : Nat} {cells : List (HMap V)} (hv : ∀ m ∈ cells, HMap.Inv m)
    (hk : ∀ m ∈ cells, ∀ k ∈ m.keys, k = usizeMax ∨ k < n) :
    cells.foldlM (fun y m => m.drainToP y) (List.replicate n 0) =
      .ok (cells.foldl (fun y m => m.drainTo y) (List.replicate n (0 : V))) := by
  rw [HMap.drains_eq cells (fun m hm => (hv m hm).vlen), if_pos]
  simpa using hk

/-! ### Numbers of operations -/

theorem Comp.PtrOk.total_rows {a : Comp V} (h : a.PtrOk) (k : Nat) (hk : k ≤ a.n) :
    ((List.range k).flatMap a.row).length + a.ptr 0 = a.ptr k := by
  induction k with
  | zero => simp
  | succ k ih =>
    have h1 := ih (by omega)
    have h2 := h.row_length (i := k) (by omega)
    have h3 := h.ptr_mono' (i := k) (j := k + 1) (by omega) (by omega)
    rw [List.range_succ, List.flatMap_append, List.length_append]
    simp only [List.flatMap_cons, List.flatMap_nil, List.append_nil]
    omega

theorem Comp.PtrOk.lineFOps_length {a : Comp V} (h : a.PtrOk) (f : Nat → V → V) :
    ((List.range a.n).flatMap (lineFOps a f)).length ≤ a.data.length := by
  have h1 := h.total_rows a.n (Nat.le_refl _)
  have h2 := h.ptr_le_data (i := a.n) (Nat.le_refl _)
  have : ((List.range a.n).flatMap (lineFOps a f)).length = ((List.range a.n).flatMap a.row).length := by
    rw [List.length_flatMap, List.length_flatMap]
    congr 1
    refine List.map_congr_left fun i _ => ?_
    unfold lineFOps
    rw [List.length_map]
  omega

/-! ### The accumulation schemes -/

/-- There is a run that returns, and every run returns a result in `R`. -/
def Returns {α : Type} (P : Except Fault α → Prop) (R : α → Prop) : Prop :=
  (∃ y, P (.ok y)) ∧ ∀ out, P out → ∃ y, out = .ok y ∧ R y

theorem Returns.mono {α : Type} {P : Except Fault α → Prop} {R Q : α → Prop} (h : Returns P R) (hq : ∀ y, R y → Q y) :
    Returns P Q := ⟨h.1, fun out ho => by obtain ⟨y, e, hy⟩ := h.2 out ho; exact ⟨y, e, hq y hy⟩⟩

theorem Returns.of_eq {α : Type} {x : α} {R : α → Prop} (h : R x) : Returns (fun out => out = .ok x) R :=
  ⟨⟨x, rfl⟩, fun _ ho => ⟨x, ho, h⟩⟩

theorem tls_seq {ι A : Type} [Zero V] {items : List ι} {work : A → ι → Except Fault A} {init : A}
    {merge : List A → Except Fault (List V) → Prop}
    {add : A → Nat → V → Except Fault A} {ops : ι → List (Nat × V)} {cell : List (Nat × V) → Option A} {S : A → Prop}
    {n : Nat} {stepL : List V → A → List V}
    (hw : ∀ x ∈ items, ∀ acc, work acc x = runOps add acc (ops x))
    (hc : ∀ l, SubOps items ops l → ∃ c, runOps add init l = .ok c ∧ cell l = some c ∧ S c)
    (hm : ∀ cells, (∀ c ∈ cells, S c) → ∀ out, merge cells out ↔ out = .ok (cells.foldl stepL (List.replicate n 0))) :
    Returns (TlsPtr items work init merge) fun y => ∃ groups, Division (items.map ops) groups ∧
      (((groups.map List.flatten).mapM cell).map fun cells => cells.foldl stepL (List.replicate n 0)) = some y := by
  have hout : ∀ out, TlsPtr items work init merge out → ∃ y, out = .ok y ∧
      ∃ groups, Division (items.map ops) groups ∧
        (((groups.map List.flatten).mapM cell).map fun cells => cells.foldl stepL (List.replicate n 0)) = some y := by
    intro out ho
    obtain ⟨groups, hd, cells, h1, h2, h3⟩ := tlsPtr_fwd hw hc ho
    exact ⟨_, (hm cells h2 out).1 h3, groups, hd, by rw [h1]; rfl⟩
  refine ⟨?_, hout⟩
  obtain ⟨out, ho⟩ := tlsPtr_ex hw hc (merge := merge) fun cells hcells => ⟨_, (hm cells hcells _).2 rfl⟩
  obtain ⟨y, rfl, -⟩ := hout out ho
  exact ⟨y, ho⟩

theorem mergeSeq_iff [Zero V] {A : Type} {n : Nat} (hn : 8 * (n : Int) ≤ i64Max)
    (step : List V → A → Except Fault (List V)) (cells : List A) (out : Except Fault (List V)) :
    MergeSeq n step cells out ↔ out = cells.foldlM step (List.replicate n 0) := by
  unfold MergeSeq
  rw [zeroVecP_ok hn, ok_bind]

theorem n_le_usize {n : Nat} (hn : 8 * (n : Int) ≤ i64Max) : n < usizeMax := by
  unfold i64Max at hn; unfold usizeMax; omega

section
variable [Zero V] [Add V] {dbg : Bool} {F : Nat} {ι : Type} {items : List ι} {ops : ι → List (Nat × V)} {n : Nat}
  (hn : 8 * (n : Int) ≤ i64Max) (hk : ∀ o ∈ items.flatMap ops, o.1 < n)
include hn hk

theorem plain_returns {work : List V → ι → Except Fault (List V)}
    (hw : ∀ x ∈ items, ∀ acc, work acc x = runOps addIdxP acc (ops x)) (hF : n < F) :
    Returns (TlsPtr items work (List.replicate n 0) (MergeSeq n (mergePlainP F n))) fun y =>
      ∃ groups, Division (items.map ops) groups ∧ accumPlain n (groups.map List.flatten) = some y := by
  have hn' := n_le_usize hn
  refine tls_seq (S := fun c => c.length = n) hw (fun l hl => plain_cell fun o ho => hk o (hl.2 o ho))
    fun cells hc out => ?_
  rw [mergeSeq_iff hn, foldlM_merge (n := n) (S := fun c : List V => c.length = n)
    (fun y c hy hc => mergePlainP_eq hy hc (by omega) hF) (fun y c => by rw [addAll_length]) cells hc _ (by simp)]

theorem hash_returns {work : HMap V → ι → Except Fault (HMap V)} {N : Nat}
    (hw : ∀ x ∈ items, ∀ acc, work acc x = runOps (hashAdd dbg F) acc (ops x)) (hN : (items.flatMap ops).length ≤ N)
    (hF : 3 * N + 1024 ≤ F) (hN24 : 24 * (N : Int) ≤ i64Max) {merge : List (HMap V) → Except Fault (List V) → Prop}
    (hm : ∀ cells out, merge cells out ↔ out = cells.foldlM (fun y m => m.drainToP y) (List.replicate n 0)) :
    Returns (TlsPtr items work (HMap.withCapacity 1024) merge) fun y =>
      ∃ groups, Division (items.map ops) groups ∧ accumHash n 1024 (groups.map List.flatten) = some y := by
  have hn' := n_le_usize hn
  refine tls_seq (S := fun m => HMap.Inv m ∧ ∀ k ∈ m.keys, k = usizeMax ∨ k < n) hw (fun l hl => ?_)
    fun cells hc out => ?_
  · have hl' : ∀ o ∈ l, o.1 < usizeMax := fun o ho => by have := hk o (hl.2 o ho); omega
    obtain ⟨m, h1, h2, h3⟩ := hash_cell (dbg := dbg) (Nat.le_trans hl.1 hN) (fun o ho => by have := hl' o ho; omega) hF hN24
    refine ⟨m, h1, h2, h3, fun k hkk => ?_⟩
    by_cases hu : k = usizeMax
    · exact .inl hu
    · obtain ⟨o, ho, rfl⟩ := (hash_keys hl' h2 k hu).1 hkk
      exact .inr (hk o (hl.2 o ho))
  · rw [hm, foldlM_hash (fun m hm => (hc m hm).1) (fun m hm => (hc m hm).2)]

omit hn in
theorem touch_returns {work : TouchAcc V → ι → Except Fault (TouchAcc V)}
    (hw : ∀ x ∈ items, ∀ acc, work acc x = runOps touchAdd acc (ops x)) :
    Returns (TlsPtr items work (TouchAcc.empty n)
      fun accs out => out = accs.foldlM (mergeTouchP n) (List.replicate n 0)) fun y =>
      ∃ groups, Division (items.map ops) groups ∧ accumTouch n (groups.map List.flatten) = some y := by
  refine tls_seq (S := TouchAcc.Shape n) hw (fun l hl => touch_cell fun o ho => hk o (hl.2 o ho)) fun cells hc out => ?_
  rw [foldlM_merge (n := n) (S := TouchAcc.Shape n) (fun y c hy hc => mergeTouchP_eq hy hc)
    (fun y c => by rw [addAll_length]) cells hc _ (by simp)]

omit hn in
theorem stripe_returns {stripe : Nat} (hs : 0 < stripe)
    {work : List (Option (TouchAcc V)) → ι → Except Fault (List (Option (TouchAcc V)))}
    (hw : ∀ x ∈ items, ∀ acc, work acc x = runOps (stripesAdd n stripe) acc (ops x))
    {merge : List (List (Option (TouchAcc V))) → Except Fault (List V) → Prop}
    {step : List V → List (Option (TouchAcc V)) → Except Fault (List V)}
    (hm : ∀ cells out, merge cells out ↔ out = cells.foldlM step (List.replicate n 0))
    (hstep : ∀ y accs, y.length = n → StripesShape n stripe accs →
      step y accs = .ok (addAll y ((List.range accs.length).flatMap (stripeUpdatesSeq stripe accs)))) :
    Returns (TlsPtr items work (noStripes V n stripe) merge) fun y =>
      ∃ groups, Division (items.map ops) groups ∧ accumStripe n stripe (groups.map List.flatten) = some y := by
  refine tls_seq (S := StripesShape n stripe) hw (fun l hl => stripe_cell hs fun o ho => hk o (hl.2 o ho))
    fun cells hc out => ?_
  rw [hm, foldlM_merge (n := n) (S := StripesShape n stripe) hstep (fun y c => by rw [addAll_length]) cells hc _
    (by simp)]

theorem stripePar_returns {stripe : Nat} (hs : 0 < stripe)
    {work : List (Option (TouchAcc V)) → ι → Except Fault (List (Option (TouchAcc V)))}
    (hw : ∀ x ∈ items, ∀ acc, work acc x = runOps (stripesAdd n stripe) acc (ops x)) (hF : n < F) :
    Returns (TlsPtr items work (noStripes V n stripe) (MergeStripesPtr dbg F n stripe)) fun y =>
      ∃ groups, Division (items.map ops) groups ∧ AccumStripePar n stripe (groups.map List.flatten) y := by
  have hc : ∀ l, SubOps items ops l → ∃ c, runOps (stripesAdd n stripe) (noStripes V n stripe) l = .ok c ∧
      stripeCell n stripe l = some c ∧ StripesShape n stripe c :=
    fun l hl => stripe_cell hs fun o ho => hk o (hl.2 o ho)
  have hout : ∀ out, TlsPtr items work (noStripes V n stripe) (MergeStripesPtr dbg F n stripe) out → ∃ y, out = .ok y ∧
      ∃ groups, Division (items.map ops) groups ∧ AccumStripePar n stripe (groups.map List.flatten) y := by
    intro out ho
    obtain ⟨groups, hd, cells, h1, h2, h3⟩ := tlsPtr_fwd hw hc ho
    exact ⟨_, (mergeStripesPtr_iff hs hn hF h2 out).1 h3, groups, hd, cells, h1, _, List.Perm.refl _, rfl⟩
  refine ⟨?_, hout⟩
  obtain ⟨out, ho⟩ := tlsPtr_ex hw hc (merge := MergeStripesPtr dbg F n stripe) fun cells hcells =>
    ⟨_, (mergeStripesPtr_iff hs hn hF hcells _).2 rfl⟩
  obtain ⟨y, rfl, -⟩ := hout out ho
  exact ⟨y, ho⟩

end

/-- A hashed operation past the end of the output: every run writes out of bounds. -/
theorem hash_ub [Zero V] [Add V] {dbg : Bool} {F : Nat} {ι : Type} {items : List ι} {ops : ι → List (Nat × V)} {n : Nat}
    (hk : ∀ o ∈ items.flatMap ops, o.1 < usizeMax) {work : HMap V → ι → Except Fault (HMap V)} {N : Nat}
    (hw : ∀ x ∈ items, ∀ acc, work acc x = runOps (hashAdd dbg F) acc (ops x)) (hN : (items.flatMap ops).length ≤ N)
    (hF : 3 * N + 1024 ≤ F) (hN24 : 24 * (N : Int) ≤ i64Max) {merge : List (HMap V) → Except Fault (List V) → Prop}
    (hm : ∀ cells out, merge cells out ↔ out = cells.foldlM (fun y m => m.drainToP y) (List.replicate n 0))
    (hbad : ∃ o ∈ items.flatMap ops, n ≤ o.1) (out : Except Fault (List V)) :
    TlsPtr items work (HMap.withCapacity 1024) merge out ↔ out = .error .ub := by
  have hc : ∀ l, SubOps items ops l → ∃ m, runOps (hashAdd dbg F) (HMap.withCapacity 1024) l = .ok m ∧
      (HMap.withCapacity 1024 : HMap V).insertAll l = some m ∧ HMap.Inv m := fun l hl =>
    hash_cell (Nat.le_trans hl.1 hN) (fun o ho => by have := hk o (hl.2 o ho); omega) hF hN24
  have key : ∀ out, TlsPtr items work (HMap.withCapacity 1024) merge out → out = .error .ub := by
    intro out ho
    obtain ⟨groups, hd, cells, h1, h2, h3⟩ := tlsPtr_fwd hw hc ho
    rw [hm, HMap.drains_eq cells (fun m hm => (h2 m hm).vlen)] at h3
    rw [if_neg] at h3
    · exact h3
    intro hall
    obtain ⟨o, ho, hno⟩ := hbad
    have hp := division_flatten hd
    rw [List.flatMap_def] at ho
    obtain ⟨g, hg, hog⟩ := List.mem_flatten.1 (hp.symm.subset ho)
    have hg' : ∀ o ∈ g, o.1 < usizeMax := by
      intro o ho
      refine hk o ?_
      rw [List.flatMap_def]
      exact hp.subset (List.mem_flatten.2 ⟨g, hg, ho⟩)
    obtain ⟨m, hm', hmem⟩ : ∃ m, (HMap.withCapacity 1024 : HMap V).insertAll g = some m ∧ m ∈ cells := by
      clear hall h3 h2 ho hog hp hg'
      revert cells
      generalize groups.map List.flatten = gs at hg
      induction gs with
      | nil => cases hg
      | cons g0 gs ih =>
        intro cells h1
        rw [List.mapM_cons] at h1
        cases h0 : (HMap.withCapacity 1024 : HMap V).insertAll g0 with
        | none => rw [h0] at h1; cases h1
        | some m0 =>
          rw [h0] at h1
          cases hr : gs.mapM (HMap.insertAll (HMap.withCapacity 1024 : HMap V)) with
          | none =>
            have h1' : (some m0 >>= fun b => gs.mapM (HMap.insertAll (HMap.withCapacity 1024 : HMap V)) >>= fun bs =>
              pure (b :: bs)) = some cells := h1
            rw [hr] at h1'; cases h1'
          | some ms =>
            have h1' : (some m0 >>= fun b => gs.mapM (HMap.insertAll (HMap.withCapacity 1024 : HMap V)) >>= fun bs =>
              pure (b :: bs)) = some cells := h1
            rw [hr] at h1'
            cases h1'
            rcases List.mem_cons.1 hg with rfl | hg
            · exact ⟨m0, h0, by simp⟩
            · obtain ⟨m, e1, e2⟩ := ih hg ms hr
              exact ⟨m, e1, by simp [e2]⟩
    have hou := hg' o hog
    have := hall m hmem o.1 ((hash_keys hg' hm' o.1 (by omega)).2 ⟨o, hog, rfl⟩)
    rw [List.length_replicate] at this
    omega
  refine ⟨key out, ?_⟩
  rintro rfl
  obtain ⟨out, ho⟩ := tlsPtr_ex hw hc (merge := merge) fun cells _ => ⟨_, (hm cells _).2 rfl⟩
  rw [← key out ho]
  exact ho

/-! ### The schemes on arbitrary operations -/

theorem NoUb.mergeSeq [Zero V] {A : Type} {n : Nat} {step : List V → A → Except Fault (List V)} {cells : List A}
    {out : Except Fault (List V)} (h : MergeSeq n step cells out)
    (hs : 8 * (n : Int) ≤ i64Max → NoUb (cells.foldlM step (List.replicate n 0))) : NoUb out := by
  unfold MergeSeq zeroVecP at h
  split at h
  · rename_i hn
    rw [ok_bind] at h
    rw [h]; exact hs hn
  · rw [h]
    intro hc; cases hc

theorem NoUb.of_ok {α : Type} {x : α} {e : Except Fault α} (h : e = .ok x) : NoUb e := by
  rw [h]; intro hc; cases hc

section
variable [Zero V] [Add V] {dbg : Bool} {F : Nat} {ι : Type} {items : List ι} {n : Nat}

omit [Zero V] in
theorem addIdxP_safe {n : Nat} (acc : List V) (j : Nat) (v : V) (h : acc.length = n) :
    SafeE (fun acc => acc.length = n) (addIdxP acc j v) := by
  unfold addIdxP
  exact (SafeE.index _ _).bind fun x _ => (SafeE.storeIdx _ _ _).mono fun w hw => by rw [hw]; simpa using h

theorem touchAdd_safe (acc : TouchAcc V) (j : Nat) (v : V) (h : TouchAcc.Shape n acc) :
    SafeE (TouchAcc.Shape n) (touchAdd acc j v) := SafeE.ofOptionP fun _ e => h.add e

theorem stripesAdd_safe {stripe : Nat} (acc : List (Option (TouchAcc V))) (j : Nat) (v : V)
    (h : StripesShape n stripe acc) : SafeE (StripesShape n stripe) (stripesAdd n stripe acc j v) :=
  SafeE.ofOptionP fun _ e => h.add e

/-- Keys that can be drained. -/
def KeysIn (n : Nat) (m : HMap V) : Prop := m.Shape ∧ ∀ k ∈ m.keys, k = usizeMax ∨ k < n

theorem hashAdd_safe (m : HMap V) {k : Nat} (v : V) (h : KeysIn n m) (hk : k < n ∨ k = usizeMax) :
    SafeE (KeysIn n) (hashAdd dbg F m k v) := by
  refine (HMap.insertAddP_safe h.1 k v).mono fun m' hm' => ⟨hm'.1, fun k' hk' => ?_⟩
  rcases hm'.2 k' hk' with h' | rfl | h'
  · exact h.2 k' h'
  · exact hk.symm
  · exact .inl h'

omit [Add V] in
theorem keysIn_init : KeysIn n (HMap.withCapacity 1024 : HMap V) :=
  ⟨HMap.shape_1024, fun k hk => .inl (HMap.withCapacity_keys 1024 k hk)⟩

theorem plain_noUb {work : List V → ι → Except Fault (List V)}
    (hw : ∀ x ∈ items, ∀ acc, acc.length = n → SafeE (fun acc => acc.length = n) (work acc x)) (hF : n < F)
    {out : Except Fault (List V)}
    (h : TlsPtr items work (List.replicate n 0) (MergeSeq n (mergePlainP F n)) out) : NoUb out := by
  refine tlsPtr_safe (I := fun acc : List V => acc.length = n) (by simp) hw (fun cells hc out ho => ?_) h
  refine NoUb.mergeSeq ho fun hn => ?_
  have hn' := n_le_usize hn
  exact NoUb.of_ok (foldlM_merge (n := n) (S := fun c : List V => c.length = n)
    (fun y c hy hc => mergePlainP_eq hy hc (by omega) hF) (fun y c => by rw [addAll_length]) cells hc _ (by simp))

theorem drains_noUb {cells : List (HMap V)} (h : ∀ m ∈ cells, KeysIn n m) :
    NoUb (cells.foldlM (fun y m => m.drainToP y) (List.replicate n 0)) := by
  rw [HMap.drains_eq cells (fun m hm => (h m hm).1.vlen), if_pos (by simpa using fun m hm => (h m hm).2)]
  exact NoUb.of_ok rfl

theorem hash_noUb {work : HMap V → ι → Except Fault (HMap V)}
    (hw : ∀ x ∈ items, ∀ acc, KeysIn n acc → SafeE (KeysIn n) (work acc x)) {out : Except Fault (List V)}
    (h : TlsPtr items work (HMap.withCapacity 1024) (MergeSeq n fun y m => m.drainToP y) out) : NoUb out :=
  tlsPtr_safe keysIn_init hw (fun _ hc _ ho => NoUb.mergeSeq ho fun _ => drains_noUb hc) h

theorem stripe_noUb {stripe : Nat}
    {work : List (Option (TouchAcc V)) → ι → Except Fault (List (Option (TouchAcc V)))}
    (hw : ∀ x ∈ items, ∀ acc, StripesShape n stripe acc → SafeE (StripesShape n stripe) (work acc x))
    {step : List V → List (Option (TouchAcc V)) → Except Fault (List V)}
    (hstep : 8 * (n : Int) ≤ i64Max → ∀ y accs, y.length = n → StripesShape n stripe accs →
      step y accs = .ok (addAll y ((List.range accs.length).flatMap (stripeUpdatesSeq stripe accs))))
    {out : Except Fault (List V)} (h : TlsPtr items work (noStripes V n stripe) (MergeSeq n step) out) : NoUb out := by
  refine tlsPtr_safe (stripes_none n stripe) hw (fun cells hc out ho => NoUb.mergeSeq ho fun hn => ?_) h
  exact NoUb.of_ok (foldlM_merge (n := n) (S := StripesShape n stripe) (hstep hn) (fun y c => by rw [addAll_length])
    cells hc _ (by simp))

theorem stripePar_noUb {stripe : Nat} (hs : 0 < stripe)
    {work : List (Option (TouchAcc V)) → ι → Except Fault (List (Option (TouchAcc V)))}
    (hw : ∀ x ∈ items, ∀ acc, StripesShape n stripe acc → SafeE (StripesShape n stripe) (work acc x)) (hF : n < F)
    {out : Except Fault (List V)}
    (h : TlsPtr items work (noStripes V n stripe) (MergeStripesPtr dbg F n stripe) out) : NoUb out := by
  refine tlsPtr_safe (stripes_none n stripe) hw (fun cells hc out ho => ?_) h
  by_cases hn : 8 * (n : Int) ≤ i64Max
  · exact NoUb.of_ok ((mergeStripesPtr_iff hs hn hF hc out).1 ho)
  · unfold MergeStripesPtr zeroVecP at ho
    rw [if_neg hn] at ho
    simp only [] at ho
    rw [ho]
    intro h; cases h

end

end Lacuna
