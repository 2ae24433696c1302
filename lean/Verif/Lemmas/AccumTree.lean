import Verif.Lemmas.AddTree
import Verif.Lemmas.Spmv
/-
The accumulators compute sums in some order: they commute with maps that preserve 0 and +, so they
can be run on values that carry the multiset they are a sum of.
-/
namespace Lacuna
universe u
variable {V W : Type u} [Zero V] [Add V] [Zero W] [Add W]

/-- A map that preserves 0 and +. -/
structure Preserves (φ : W → V) : Prop where
  zero : φ 0 = 0
  add : ∀ a b, φ (a + b) = φ a + φ b

/-- The map on operations. -/
def mapOps (φ : W → V) (ops : List (Nat × W)) : List (Nat × V) := ops.map (Prod.map id φ)

theorem getD_map_zero {φ : W → V} (h : Preserves φ) (y : List W) (k : Nat) : (y.map φ).getD k 0 = φ (y.getD k 0) := by
  simp only [List.getD_eq_getElem?_getD, List.getElem?_map]
  cases y[k]? with
  | none => exact h.zero.symm
  | some v => rfl

theorem addAt_map {φ : W → V} (h : Preserves φ) (y : List W) (k : Nat) (v : W) :
    addAt (y.map φ) k (φ v) = (addAt y k v).map φ := by
  unfold addAt
  rw [getD_map_zero h, ← h.add, List.map_set]

theorem addAll_map {φ : W → V} (h : Preserves φ) (ops : List (Nat × W)) : ∀ y : List W,
    addAll (y.map φ) (mapOps φ ops) = (addAll y ops).map φ := by
  induction ops with
  | nil => intro y; rfl
  | cons o ops ih =>
    intro y
    show addAll (addAt (y.map φ) o.1 (φ o.2)) (mapOps φ ops) = _
    rw [addAt_map h, ih]
    rfl

theorem addAll?_map {φ : W → V} (h : Preserves φ) (ops : List (Nat × W)) : ∀ y : List W,
    addAll? (y.map φ) (mapOps φ ops) = (addAll? y ops).map (List.map φ) := by
  induction ops with
  | nil => intro y; rfl
  | cons o ops ih =>
    intro y
    unfold addAll? at *
    rw [mapOps, List.map_cons, List.foldlM_cons, List.foldlM_cons]
    simp only [Prod.map_fst, Prod.map_snd, List.length_map, id]
    split
    · rw [addAt_map h]
      exact ih _
    · rfl

theorem replicate_zero_map {φ : W → V} (h : Preserves φ) (n : Nat) :
    List.replicate n (0 : V) = (List.replicate n (0 : W)).map φ := by
  rw [List.map_replicate, h.zero]

omit [Zero V] [Add V] [Zero W] [Add W] in
theorem mapM_natural {α β γ δ : Type*} {f : α → Option β} {f' : γ → Option δ} {i : α → γ} {j : β → δ} {l : List α}
    (h : ∀ x ∈ l, f' (i x) = (f x).map j) : (l.map i).mapM f' = (l.mapM f).map (List.map j) := by
  induction l with
  | nil => rfl
  | cons x l ih =>
    rw [List.map_cons, List.mapM_cons, List.mapM_cons, h x (by simp), ih (fun y hy => h y (by simp [hy]))]
    cases f x with
    | none => rfl
    | some y => cases l.mapM f <;> rfl

omit [Zero V] [Add V] [Zero W] [Add W] in
theorem foldl_natural {α β γ δ : Type*} {f : β → α → β} {f' : δ → γ → δ} {i : α → γ} {j : β → δ} (l : List α)
    (h : ∀ x ∈ l, ∀ s, f' (j s) (i x) = j (f s x)) (s : β) : (l.map i).foldl f' (j s) = j (l.foldl f s) := by
  induction l generalizing s with
  | nil => rfl
  | cons x l ih =>
    rw [List.map_cons, List.foldl_cons, List.foldl_cons, h x (by simp), ih (fun y hy => h y (by simp [hy]))]

omit [Zero V] [Add V] [Zero W] [Add W] in
theorem foldlM_natural {α β γ δ : Type*} {f : β → α → Option β} {f' : δ → γ → Option δ} {i : α → γ} {j : β → δ}
    (l : List α) (h : ∀ x ∈ l, ∀ s, f' (j s) (i x) = (f s x).map j) (s : β) :
    (l.map i).foldlM f' (j s) = (l.foldlM f s).map j := by
  induction l generalizing s with
  | nil => rfl
  | cons x l ih =>
    rw [List.map_cons, List.foldlM_cons, List.foldlM_cons, h x (by simp)]
    cases f s x with
    | none => rfl
    | some s' => exact ih (fun y hy => h y (by simp [hy])) s'

/-! ### Plain accumulators -/

theorem accumPlain_map {φ : W → V} (h : Preserves φ) (n : Nat) (groups : List (List (Nat × W))) :
    accumPlain n (groups.map (mapOps φ)) = (accumPlain n groups).map (List.map φ) := by
  unfold accumPlain
  rw [mapM_natural (f := addAll? (List.replicate n (0 : W))) (j := List.map φ) (fun g _ => by
    rw [replicate_zero_map h, addAll?_map h])]
  cases groups.mapM (addAll? (List.replicate n (0 : W))) with
  | none => rfl
  | some locals =>
    simp only [Option.map_some]
    congr 1
    rw [replicate_zero_map h]
    refine foldl_natural locals (fun l _ s => ?_) _
    rw [← addAll_map h]
    congr 1
    unfold mapOps
    rw [List.map_map]
    apply List.map_congr_left
    intro c _
    simp only [Function.comp, Prod.map, id]
    rw [getD_map_zero h]

/-! ### Hash maps -/

/-- The map on hash maps. -/
def HMap.mapVals (φ : W → V) (m : HMap W) : HMap V := ⟨m.keys, m.vals.map φ, m.mask, m.len⟩

namespace HMap

theorem withCapacity_map {φ : W → V} (h : Preserves φ) (cap : Nat) :
    (withCapacity cap : HMap V) = (withCapacity cap : HMap W).mapVals φ := by
  unfold withCapacity mapVals
  simp only [List.map_replicate, h.zero]

omit [Zero V] [Add V] [Zero W] [Add W] in
theorem zip_map_vals (φ : W → V) (keys : List Nat) (vals : List W) :
    keys.zip (vals.map φ) = mapOps φ (keys.zip vals) := by
  unfold mapOps
  rw [List.zip_map_right]

theorem grow_map {φ : W → V} (h : Preserves φ) (m : HMap W) : (m.mapVals φ).grow = m.grow.map (mapVals φ) := by
  unfold grow
  simp only [mapVals]
  rw [zip_map_vals, replicate_zero_map h]
  have := foldl_natural (f := rehash (V := W) (m.keys.length * 2 - 1)) (f' := rehash (V := V) (m.keys.length * 2 - 1))
    (i := Prod.map id φ) (j := Option.map fun st => (st.1, st.2.map φ)) (m.keys.zip m.vals) (fun kv _ s => by
      cases s with
      | none => rfl
      | some st =>
        simp only [rehash, Option.map_some, Prod.map_fst, Prod.map_snd, id]
        split
        · rfl
        · cases probeFree st.1 (m.keys.length * 2 - 1) st.1.length (hash kv.1 &&& (m.keys.length * 2 - 1)) with
          | none => rfl
          | some idx => simp only [Option.map_some, List.map_set])
    (some (List.replicate (m.keys.length * 2) usizeMax, List.replicate (m.keys.length * 2) 0))
  unfold mapOps
  rw [Option.map_some] at this
  rw [this]
  cases (m.keys.zip m.vals).foldl (rehash (m.keys.length * 2 - 1))
      (some (List.replicate (m.keys.length * 2) usizeMax, List.replicate (m.keys.length * 2) 0)) with
  | none => rfl
  | some st => rfl

theorem insertAdd_map {φ : W → V} (h : Preserves φ) (m : HMap W) (k : Nat) (v : W) :
    (m.mapVals φ).insertAdd k (φ v) = (m.insertAdd k v).map (mapVals φ) := by
  unfold insertAdd
  rw [show (m.mapVals φ).keys = m.keys from rfl, show (m.mapVals φ).mask = m.mask from rfl,
    show (m.mapVals φ).vals = m.vals.map φ from rfl, show (m.mapVals φ).len = m.len from rfl]
  cases probe m.keys m.mask k m.keys.length (hash k &&& m.mask) with
  | none => rfl
  | some idx =>
    by_cases h1 : m.keys.getD idx usizeMax = usizeMax
    · simp only [if_pos h1, ← List.map_set]
      split
      · exact grow_map h ⟨m.keys.set idx k, m.vals.set idx v, m.mask, m.len + 1⟩
      · rfl
    · simp only [if_neg h1]
      rw [getD_map_zero h, ← h.add, ← List.map_set]
      rfl

theorem insertAll_map {φ : W → V} (h : Preserves φ) (ops : List (Nat × W)) : ∀ m : HMap W,
    (m.mapVals φ).insertAll (mapOps φ ops) = (m.insertAll ops).map (mapVals φ) := by
  induction ops with
  | nil => intro m; rfl
  | cons o ops ih =>
    intro m
    show ((m.mapVals φ).insertAdd o.1 (φ o.2)).bind (fun m' => m'.insertAll (mapOps φ ops)) =
      ((m.insertAdd o.1 o.2).bind fun m' => m'.insertAll ops).map (mapVals φ)
    rw [insertAdd_map h]
    cases m.insertAdd o.1 o.2 with
    | none => rfl
    | some m' => exact ih m'

theorem drainTo_map {φ : W → V} (h : Preserves φ) (m : HMap W) (y : List W) :
    (m.mapVals φ).drainTo (y.map φ) = (m.drainTo y).map φ := by
  unfold drainTo
  simp only [mapVals]
  rw [zip_map_vals]
  refine foldl_natural _ (fun e _ s => ?_) _
  simp only [Prod.map_fst, Prod.map_snd, id]
  split
  · rw [getD_map_zero h, ← h.add, List.map_set]
  · rfl

omit [Zero V] [Add V] [Zero W] [Add W] in
theorem pairs_map (φ : W → V) (m : HMap W) : (m.mapVals φ).pairs = mapOps φ m.pairs := by
  unfold pairs
  simp only [mapVals]
  rw [zip_map_vals]
  unfold mapOps
  rw [List.filter_map]
  rfl

end HMap

theorem accumHash_map {φ : W → V} (h : Preserves φ) (n cap : Nat) (groups : List (List (Nat × W))) :
    accumHash n cap (groups.map (mapOps φ)) = (accumHash n cap groups).map (List.map φ) := by
  unfold accumHash
  rw [mapM_natural (f := HMap.insertAll (HMap.withCapacity cap : HMap W)) (j := HMap.mapVals φ) (fun g _ => by
    rw [HMap.withCapacity_map h, HMap.insertAll_map h])]
  cases groups.mapM (HMap.insertAll (HMap.withCapacity cap : HMap W)) with
  | none => rfl
  | some maps =>
    simp only [Option.map_some]
    congr 1
    rw [replicate_zero_map h]
    exact foldl_natural (f := fun (y : List W) (m : HMap W) => m.drainTo y)
      (f' := fun (y : List V) (m : HMap V) => m.drainTo y) (i := HMap.mapVals φ) maps
      (fun m _ s => HMap.drainTo_map h m s) _

/-! ### Dense accumulators with a touched list -/

/-- The map on accumulators. -/
def TouchAcc.mapVals (φ : W → V) (c : TouchAcc W) : TouchAcc V := ⟨c.vals.map φ, c.seen, c.touched⟩

namespace TouchAcc

theorem empty_map {φ : W → V} (h : Preserves φ) (n : Nat) : (empty n : TouchAcc V) = (empty n : TouchAcc W).mapVals φ := by
  unfold empty mapVals
  simp only [List.map_replicate, h.zero]

theorem add_map {φ : W → V} (h : Preserves φ) (c : TouchAcc W) (i : Nat) (v : W) :
    (c.mapVals φ).add i (φ v) = (c.add i v).map (mapVals φ) := by
  unfold add
  simp only [mapVals, addAt_map h]
  cases c.seen[i]? with
  | none => rfl
  | some b => cases b <;> rfl

theorem updates_map {φ : W → V} (h : Preserves φ) (c : TouchAcc W) (base len : Nat) :
    (c.mapVals φ).updates base len = mapOps φ (c.updates base len) := by
  unfold updates mapOps
  rw [show (c.mapVals φ).touched = c.touched from rfl, show (c.mapVals φ).vals = c.vals.map φ from rfl]
  by_cases h1 : c.touched.length > len / 2
  all_goals
    simp only [h1, if_true, if_false]
    rw [List.map_map]
    apply List.map_congr_left
    intro i _
    simp only [Function.comp, Prod.map, id]
    rw [getD_map_zero h]

end TouchAcc

theorem touchCell_map {φ : W → V} (h : Preserves φ) (n : Nat) (ops : List (Nat × W)) :
    touchCell n (mapOps φ ops) = (touchCell n ops).map (TouchAcc.mapVals φ) := by
  unfold touchCell
  rw [TouchAcc.empty_map h]
  exact foldlM_natural ops (fun o _ s => TouchAcc.add_map h s o.1 o.2) _

theorem accumTouch_map {φ : W → V} (h : Preserves φ) (n : Nat) (groups : List (List (Nat × W))) :
    accumTouch n (groups.map (mapOps φ)) = (accumTouch n groups).map (List.map φ) := by
  unfold accumTouch
  rw [mapM_natural (f := touchCell n) (j := TouchAcc.mapVals φ) (fun g _ => touchCell_map h n g)]
  cases groups.mapM (touchCell n) with
  | none => rfl
  | some cells =>
    simp only [Option.map_some]
    congr 1
    rw [replicate_zero_map h]
    refine foldl_natural cells (fun c _ s => ?_) _
    rw [TouchAcc.updates_map h, addAll_map h]

/-! ### Striped accumulators -/

/-- The map on the stripes of a thread. -/
def mapStripes (φ : W → V) (accs : List (Option (TouchAcc W))) : List (Option (TouchAcc V)) :=
  accs.map (Option.map (TouchAcc.mapVals φ))

theorem stripeAdd_map {φ : W → V} (h : Preserves φ) (n stripe : Nat) (accs : List (Option (TouchAcc W))) (k : Nat) (v : W) :
    stripeAdd n stripe (mapStripes φ accs) k (φ v) = (stripeAdd n stripe accs k v).map (mapStripes φ) := by
  unfold stripeAdd mapStripes
  simp only [List.getElem?_map]
  cases accs[k / stripe]? with
  | none => rfl
  | some o =>
    simp only [Option.map_some]
    have : (Option.map (TouchAcc.mapVals φ) o).getD (TouchAcc.empty (min (n - k / stripe * stripe) stripe)) =
        (o.getD (TouchAcc.empty (min (n - k / stripe * stripe) stripe))).mapVals φ := by
      cases o with
      | none => exact TouchAcc.empty_map h _
      | some c => rfl
    rw [this, TouchAcc.add_map h, Option.map_map, Option.map_map]
    congr 1
    funext c
    simp only [Function.comp, List.map_set, Option.map_some]

theorem stripeCell_map {φ : W → V} (h : Preserves φ) (n stripe : Nat) (ops : List (Nat × W)) :
    stripeCell n stripe (mapOps φ ops) = (stripeCell n stripe ops).map (mapStripes φ) := by
  unfold stripeCell
  have : (List.replicate ((n + stripe - 1) / stripe) none : List (Option (TouchAcc V))) =
      mapStripes φ (List.replicate ((n + stripe - 1) / stripe) none) := by
    unfold mapStripes; rw [List.map_replicate]; rfl
  rw [this]
  exact foldlM_natural ops (fun o _ s => stripeAdd_map h n stripe s o.1 o.2) _

omit [Zero V] [Add V] [Zero W] [Add W] in
theorem getD_mapStripes (φ : W → V) (accs : List (Option (TouchAcc W))) (sid : Nat) :
    (mapStripes φ accs).getD sid none = (accs.getD sid none).map (TouchAcc.mapVals φ) := by
  unfold mapStripes
  simp only [List.getD_eq_getElem?_getD, List.getElem?_map]
  cases accs[sid]? <;> rfl

theorem stripeUpdatesSeq_map {φ : W → V} (h : Preserves φ) (stripe : Nat) (accs : List (Option (TouchAcc W))) (sid : Nat) :
    stripeUpdatesSeq stripe (mapStripes φ accs) sid = mapOps φ (stripeUpdatesSeq stripe accs sid) := by
  unfold stripeUpdatesSeq
  rw [getD_mapStripes]
  cases accs.getD sid none with
  | none => rfl
  | some c =>
    simp only [Option.map_some]
    rw [TouchAcc.updates_map h]
    unfold TouchAcc.mapVals
    rw [List.length_map]

theorem stripeUpdates_map {φ : W → V} (h : Preserves φ) (n stripe : Nat) (accs : List (Option (TouchAcc W))) (sid : Nat) :
    stripeUpdates n stripe (mapStripes φ accs) sid = mapOps φ (stripeUpdates n stripe accs sid) := by
  unfold stripeUpdates
  rw [getD_mapStripes]
  cases accs.getD sid none with
  | none => rfl
  | some c => exact TouchAcc.updates_map h c _ _

omit [Zero V] [Add V] [Zero W] [Add W] in
theorem mapOps_flatMap {α : Type*} (φ : W → V) (l : List α) (f : α → List (Nat × W)) :
    mapOps φ (l.flatMap f) = l.flatMap fun x => mapOps φ (f x) := by
  unfold mapOps
  rw [List.map_flatMap]

theorem accumStripe_map {φ : W → V} (h : Preserves φ) (n stripe : Nat) (groups : List (List (Nat × W))) :
    accumStripe n stripe (groups.map (mapOps φ)) = (accumStripe n stripe groups).map (List.map φ) := by
  unfold accumStripe
  rw [mapM_natural (f := stripeCell n stripe) (j := mapStripes φ) (fun g _ => stripeCell_map h n stripe g)]
  cases groups.mapM (stripeCell n stripe) with
  | none => rfl
  | some cells =>
    simp only [Option.map_some]
    congr 1
    rw [replicate_zero_map h]
    refine foldl_natural cells (fun accs _ s => ?_) _
    rw [← addAll_map h, mapOps_flatMap]
    congr 1
    rw [show (mapStripes φ accs).length = accs.length by unfold mapStripes; rw [List.length_map]]
    congr 1
    funext sid
    exact stripeUpdatesSeq_map h stripe accs sid

omit [Zero V] [Add V] [Zero W] [Add W] in
/-- A permutation of images is the image of a permutation. -/
theorem perm_map_lift {α β : Type*} {f : α → β} {l : List β} : ∀ {l' : List α}, l.Perm (l'.map f) →
    ∃ l'' : List α, l''.Perm l' ∧ l''.map f = l := by
  intro l' h
  generalize hm : l'.map f = m at h
  induction h generalizing l' with
  | nil => exact ⟨[], by simpa using (List.map_eq_nil_iff.1 hm).symm, rfl⟩
  | cons x _ ih =>
    obtain ⟨y, t, rfl, rfl, rfl⟩ := List.map_eq_cons_iff.1 hm
    obtain ⟨l'', h1, h2⟩ := ih rfl
    exact ⟨y :: l'', h1.cons _, by rw [List.map_cons, h2]⟩
  | swap x y l =>
    obtain ⟨a, t, rfl, rfl, h3⟩ := List.map_eq_cons_iff.1 hm
    obtain ⟨b, t', rfl, rfl, rfl⟩ := List.map_eq_cons_iff.1 h3
    exact ⟨b :: a :: t', List.Perm.swap _ _ _, rfl⟩
  | trans _ _ ih1 ih2 =>
    obtain ⟨l1, h1, h2⟩ := ih2 hm
    obtain ⟨l2, h3, h4⟩ := ih1 h2
    exact ⟨l2, h3.trans h1, h4⟩

theorem accumStripePar_map {φ : W → V} (h : Preserves φ) (n stripe : Nat) (groups : List (List (Nat × W))) {y : List V}
    (hy : AccumStripePar n stripe (groups.map (mapOps φ)) y) :
    ∃ y', AccumStripePar n stripe groups y' ∧ y = y'.map φ := by
  obtain ⟨cells, h1, sched, h2, rfl⟩ := hy
  rw [mapM_natural (f := stripeCell n stripe) (j := mapStripes φ) (fun g _ => stripeCell_map h n stripe g)] at h1
  cases hc : groups.mapM (stripeCell n stripe) with
  | none => rw [hc] at h1; cases h1
  | some cells' =>
    rw [hc] at h1
    cases h1
    have e : ((List.range ((n + stripe - 1) / stripe)).flatMap fun sid =>
        (cells'.map (mapStripes φ)).flatMap fun accs => stripeUpdates n stripe accs sid) =
        ((List.range ((n + stripe - 1) / stripe)).flatMap fun sid =>
        cells'.flatMap fun accs => stripeUpdates n stripe accs sid).map (Prod.map id φ) := by
      rw [List.map_flatMap]
      congr 1
      funext sid
      rw [List.flatMap_map, List.map_flatMap]
      congr 1
      funext accs
      exact stripeUpdates_map h n stripe accs sid
    rw [e] at h2
    obtain ⟨sched', h3, rfl⟩ := perm_map_lift h2
    refine ⟨_, ⟨cells', hc, sched', h3, rfl⟩, ?_⟩
    rw [replicate_zero_map h]
    exact addAll_map h sched' _

theorem accumStripePar_push {φ : W → V} (h : Preserves φ) (n stripe : Nat) (groups : List (List (Nat × W))) {y : List W}
    (hy : AccumStripePar n stripe groups y) : AccumStripePar n stripe (groups.map (mapOps φ)) (y.map φ) := by
  obtain ⟨cells, h1, sched, h2, rfl⟩ := hy
  refine ⟨cells.map (mapStripes φ), ?_, mapOps φ sched, ?_, ?_⟩
  · rw [mapM_natural (f := stripeCell n stripe) (j := mapStripes φ) (fun g _ => stripeCell_map h n stripe g), h1]
    rfl
  · have e : ((List.range ((n + stripe - 1) / stripe)).flatMap fun sid =>
        (cells.map (mapStripes φ)).flatMap fun accs => stripeUpdates n stripe accs sid) =
        ((List.range ((n + stripe - 1) / stripe)).flatMap fun sid =>
        cells.flatMap fun accs => stripeUpdates n stripe accs sid).map (Prod.map id φ) := by
      rw [List.map_flatMap]
      congr 1
      funext sid
      rw [List.flatMap_map, List.map_flatMap]
      congr 1
      funext accs
      exact stripeUpdates_map h n stripe accs sid
    rw [e]
    exact h2.map _
  · rw [replicate_zero_map h]
    exact (addAll_map h sched _).symm

theorem accumChoose_map {φ : W → V} (h : Preserves φ) (nthreads n nnz : Nat) (groups : List (List (Nat × W))) :
    accumChoose nthreads n nnz (groups.map (mapOps φ)) = (accumChoose nthreads n nnz groups).map (List.map φ) := by
  unfold accumChoose
  split
  · exact accumHash_map h _ _ _
  split
  · exact accumTouch_map h _ _
  · exact accumStripe_map h _ _ _

/-! ### Values that carry the multiset they are a sum of -/

/-- A value with a multiset it is a sum of. -/
structure Traced (V : Type u) [Zero V] [Add V] where
  v : V
  s : Multiset V
  tree : AddTree s v

instance : Zero (Traced V) := ⟨⟨0, 0, .zero⟩⟩
instance : Add (Traced V) := ⟨fun a b => ⟨a.v + b.v, a.s + b.s, .node a.tree b.tree⟩⟩

/-- An input. -/
def Traced.of (v : V) : Traced V := ⟨v, {v}, .leaf v⟩

theorem Traced.pres_v : Preserves (fun t : Traced V => t.v) := ⟨rfl, fun _ _ => rfl⟩
theorem Traced.pres_s : Preserves (fun t : Traced V => t.s) := ⟨rfl, fun _ _ => rfl⟩

/-- The values destined for every slot. -/
def tracedOps (ops : List (Nat × V)) : List (Nat × Multiset V) := ops.map fun o => (o.1, {o.2})

theorem mapOps_v (ops : List (Nat × V)) : mapOps (fun t : Traced V => t.v) (mapOps Traced.of ops) = ops := by
  unfold mapOps
  rw [List.map_map]
  conv_rhs => rw [← List.map_id ops]
  rfl

theorem mapOps_s (ops : List (Nat × V)) : mapOps (fun t : Traced V => t.s) (mapOps Traced.of ops) = tracedOps ops := by
  unfold mapOps tracedOps
  rw [List.map_map]
  rfl

/-- The values destined for slot `k`. -/
def slotVals (ops : List (Nat × V)) (k : Nat) : Multiset V := ((ops.filter fun o => o.1 == k).map Prod.snd : List V)

omit [Zero V] [Add V] in
theorem ksum_tracedOps (ops : List (Nat × V)) (k : Nat) : ksum (tracedOps ops) k = slotVals ops k := by
  unfold slotVals
  induction ops with
  | nil => rfl
  | cons o ops ih =>
    show ksum ((o.1, {o.2}) :: tracedOps ops) k = _
    rw [ksum_cons, ih, List.filter_cons]
    by_cases h : o.1 = k
    · simp [h]
    · simp [h]

omit [Zero V] [Add V] in
theorem ksum_traced (groups : List (List (Nat × V))) (k : Nat) :
    ksum (groups.map tracedOps).flatten k = slotVals groups.flatten k := by
  rw [← ksum_tracedOps]
  congr 1
  unfold tracedOps
  rw [List.map_flatten]

omit [Zero V] [Add V] in
theorem slotVals_perm {a b : List (Nat × V)} (h : a.Perm b) (k : Nat) : slotVals a k = slotVals b k :=
  Multiset.coe_eq_coe.2 ((h.filter _).map _)

/-- An accumulator that commutes with homomorphisms and is correct for commutative addition computes
some sum of the values destined for each slot. -/
theorem tree_of_natural {n : Nat} {acc : ∀ {U : Type u} [Zero U] [Add U], List (List (Nat × U)) → Option (List U)}
    (hnat : ∀ {U U' : Type u} [Zero U] [Add U] [Zero U'] [Add U'] {φ : U → U'}, Preserves φ → ∀ groups,
      acc (groups.map (mapOps φ)) = (acc groups).map (List.map φ))
    {groups : List (List (Nat × V))}
    (hcor : acc (groups.map tracedOps) = some (ksums n (groups.map tracedOps).flatten)) {y : List V}
    (hy : acc groups = some y) :
    y.length = n ∧ ∀ k, k < n → AddTree (slotVals groups.flatten k) (y.getD k 0) := by
  have e1 := hnat (Traced.pres_v (V := V)) (groups.map (mapOps Traced.of))
  have e2 := hnat (Traced.pres_s (V := V)) (groups.map (mapOps Traced.of))
  rw [List.map_map, show mapOps (fun t : Traced V => t.v) ∘ mapOps Traced.of = id from funext mapOps_v, List.map_id, hy] at e1
  rw [List.map_map, show mapOps (fun t : Traced V => t.s) ∘ mapOps Traced.of = tracedOps from funext mapOps_s, hcor] at e2
  cases ht : acc (groups.map (mapOps (Traced.of (V := V)))) with
  | none => rw [ht] at e1; cases e1
  | some t =>
    rw [ht, Option.map_some] at e1 e2
    cases e1
    have e3 := Option.some.inj e2
    have hl : t.length = n := by
      have := congrArg List.length e3
      rw [ksums_length, List.length_map] at this
      exact this.symm
    refine ⟨by rw [List.length_map, hl], fun k hk => ?_⟩
    rw [getD_map_zero Traced.pres_v, ← ksum_traced, ← ksums_getD n _ k hk, e3, getD_map_zero Traced.pres_s]
    exact (t.getD k 0).tree

/-- Such an accumulator does not panic whatever the arithmetic. -/
theorem some_of_natural {n : Nat} {acc : ∀ {U : Type u} [Zero U] [Add U], List (List (Nat × U)) → Option (List U)}
    (hnat : ∀ {U U' : Type u} [Zero U] [Add U] [Zero U'] [Add U'] {φ : U → U'}, Preserves φ → ∀ groups,
      acc (groups.map (mapOps φ)) = (acc groups).map (List.map φ))
    {groups : List (List (Nat × V))}
    (hcor : acc (groups.map tracedOps) = some (ksums n (groups.map tracedOps).flatten)) :
    ∃ y, acc groups = some y := by
  have e1 := hnat (Traced.pres_v (V := V)) (groups.map (mapOps Traced.of))
  have e2 := hnat (Traced.pres_s (V := V)) (groups.map (mapOps Traced.of))
  rw [List.map_map, show mapOps (fun t : Traced V => t.v) ∘ mapOps Traced.of = id from funext mapOps_v, List.map_id] at e1
  rw [List.map_map, show mapOps (fun t : Traced V => t.s) ∘ mapOps Traced.of = tracedOps from funext mapOps_s, hcor] at e2
  cases ht : acc (groups.map (mapOps (Traced.of (V := V)))) with
  | none => rw [ht] at e2; cases e2
  | some t =>
    rw [ht, Option.map_some] at e1
    exact ⟨_, e1⟩

section
variable {n : Nat} {groups : List (List (Nat × V))} (hk : ∀ g ∈ groups, ∀ o ∈ g, o.1 < n) {y : List V}
include hk

omit [Zero V] [Add V] in
theorem traced_lt : ∀ g ∈ groups.map (tracedOps (V := V)), ∀ o ∈ g, o.1 < n := by
  intro g hg o ho
  obtain ⟨g', hg', rfl⟩ := List.mem_map.1 hg
  obtain ⟨o', ho', rfl⟩ := List.mem_map.1 ho
  exact hk g' hg' o' ho'

theorem accumHash_some (cap : Nat) (hn : n ≤ usizeMax) : ∃ y, accumHash n cap groups = some y :=
  some_of_natural (acc := fun groups => accumHash n cap groups) (fun h g => accumHash_map h n cap g)
    (accumHash_eq n _ (traced_lt hk) cap hn)

theorem accumStripe_some (stripe : Nat) (hs : 0 < stripe) : ∃ y, accumStripe n stripe groups = some y :=
  some_of_natural (acc := fun groups => accumStripe n stripe groups) (fun h g => accumStripe_map h n stripe g)
    (accumStripe_eq n _ (traced_lt hk) stripe hs)

theorem accumChoose_some (nthreads nnz : Nat) (hn : n ≤ usizeMax) : ∃ y, accumChoose nthreads n nnz groups = some y :=
  some_of_natural (acc := fun groups => accumChoose nthreads n nnz groups) (fun h g => accumChoose_map h nthreads n nnz g)
    (accumChoose_eq nthreads n nnz hn _ (traced_lt hk))

theorem accumTouch_some : ∃ y, accumTouch n groups = some y :=
  some_of_natural (acc := fun groups => accumTouch n groups) (fun h g => accumTouch_map h n g)
    (accumTouch_eq n _ (traced_lt hk))

theorem accumPlain_some : ∃ y, accumPlain n groups = some y :=
  some_of_natural (acc := fun groups => accumPlain n groups) (fun h g => accumPlain_map h n g)
    (accumPlain_eq n _ (traced_lt hk))

theorem accumStripePar_some (stripe : Nat) (hs : 0 < stripe) : ∃ y, AccumStripePar n stripe groups y := by
  have h1 := (accumStripePar_eq n _ (traced_lt hk) stripe hs _).2 rfl
  rw [show groups.map (tracedOps (V := V)) = (groups.map (mapOps Traced.of)).map (mapOps fun t : Traced V => t.s) by
    rw [List.map_map, show mapOps (fun t : Traced V => t.s) ∘ mapOps Traced.of = tracedOps from funext mapOps_s]] at h1
  obtain ⟨t, ht, _⟩ := accumStripePar_map Traced.pres_s n stripe _ h1
  have h2 := accumStripePar_push Traced.pres_v n stripe _ ht
  rw [List.map_map, show mapOps (fun t : Traced V => t.v) ∘ mapOps Traced.of = id from funext mapOps_v, List.map_id] at h2
  exact ⟨_, h2⟩

theorem accumPlain_tree (hy : accumPlain n groups = some y) :
    y.length = n ∧ ∀ k, k < n → AddTree (slotVals groups.flatten k) (y.getD k 0) :=
  tree_of_natural (acc := fun groups => accumPlain n groups) (fun h g => accumPlain_map h n g)
    (accumPlain_eq n _ (traced_lt hk)) hy

theorem accumHash_tree (cap : Nat) (hn : n ≤ usizeMax) (hy : accumHash n cap groups = some y) :
    y.length = n ∧ ∀ k, k < n → AddTree (slotVals groups.flatten k) (y.getD k 0) :=
  tree_of_natural (acc := fun groups => accumHash n cap groups) (fun h g => accumHash_map h n cap g)
    (accumHash_eq n _ (traced_lt hk) cap hn) hy

theorem accumTouch_tree (hy : accumTouch n groups = some y) :
    y.length = n ∧ ∀ k, k < n → AddTree (slotVals groups.flatten k) (y.getD k 0) :=
  tree_of_natural (acc := fun groups => accumTouch n groups) (fun h g => accumTouch_map h n g)
    (accumTouch_eq n _ (traced_lt hk)) hy

theorem accumStripe_tree (stripe : Nat) (hs : 0 < stripe) (hy : accumStripe n stripe groups = some y) :
    y.length = n ∧ ∀ k, k < n → AddTree (slotVals groups.flatten k) (y.getD k 0) :=
  tree_of_natural (acc := fun groups => accumStripe n stripe groups) (fun h g => accumStripe_map h n stripe g)
    (accumStripe_eq n _ (traced_lt hk) stripe hs) hy

theorem accumChoose_tree (nthreads nnz : Nat) (hn : n ≤ usizeMax) (hy : accumChoose nthreads n nnz groups = some y) :
    y.length = n ∧ ∀ k, k < n → AddTree (slotVals groups.flatten k) (y.getD k 0) :=
  tree_of_natural (acc := fun groups => accumChoose nthreads n nnz groups) (fun h g => accumChoose_map h nthreads n nnz g)
    (accumChoose_eq nthreads n nnz hn _ (traced_lt hk)) hy

theorem accumStripePar_tree (stripe : Nat) (hs : 0 < stripe) (hy : AccumStripePar n stripe groups y) :
    y.length = n ∧ ∀ k, k < n → AddTree (slotVals groups.flatten k) (y.getD k 0) := by
  have e : groups = (groups.map (mapOps Traced.of)).map (mapOps fun t : Traced V => t.v) := by
    rw [List.map_map, show mapOps (fun t : Traced V => t.v) ∘ mapOps Traced.of = id from funext mapOps_v, List.map_id]
  rw [e] at hy
  obtain ⟨t, ht, rfl⟩ := accumStripePar_map Traced.pres_v n stripe _ hy
  have h1 := accumStripePar_push Traced.pres_s n stripe _ ht
  rw [List.map_map, show mapOps (fun t : Traced V => t.s) ∘ mapOps Traced.of = tracedOps from funext mapOps_s] at h1
  have e3 := (accumStripePar_eq n _ (traced_lt hk) stripe hs _).1 h1
  have hl : t.length = n := by
    have := congrArg List.length e3
    rw [ksums_length, List.length_map] at this
    exact this
  refine ⟨by rw [List.length_map, hl], fun k hk => ?_⟩
  rw [getD_map_zero Traced.pres_v, ← ksum_traced, ← ksums_getD n _ k hk, ← e3, getD_map_zero Traced.pres_s]
  exact (t.getD k 0).tree
end

theorem addAll?_tree {n : Nat} {ops : List (Nat × V)} (hk : ∀ o ∈ ops, o.1 < n) {y : List V}
    (hy : addAll? (List.replicate n 0) ops = some y) :
    y.length = n ∧ ∀ k, k < n → AddTree (slotVals ops k) (y.getD k 0) := by
  have h := tree_of_natural (n := n) (acc := fun {U} [Zero U] [Add U] groups => addAll? (List.replicate n (0 : U)) groups.flatten)
    (fun {U U'} _ _ _ _ {φ} h g => by
      show addAll? (List.replicate n 0) (g.map (mapOps φ)).flatten = _
      rw [replicate_zero_map h, ← addAll?_map h]
      congr 1
      unfold mapOps
      rw [List.map_flatten])
    (groups := [ops]) (y := y) (by
      show addAll? _ (([ops].map tracedOps).flatten) = _
      rw [addAll?_eq, addAll_zero]
      intro o ho
      rw [List.length_replicate]
      simp only [List.map_cons, List.map_nil, List.flatten_cons, List.flatten_nil, List.append_nil] at ho
      obtain ⟨o', ho', rfl⟩ := List.mem_map.1 ho
      exact hk o' ho') (by simpa using hy)
  simpa using h

end Lacuna
