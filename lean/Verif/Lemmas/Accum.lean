import Verif.Model.Accum
import Verif.Props.HashMap
import Verif.Lemmas.NdAcc
import Mathlib.Algebra.BigOperators.Group.List.Basic
import Mathlib.Data.List.GetD
import Mathlib.Tactic.ByContra
/-
Every accumulation scheme adds, into each output slot, all values destined for it.
-/
namespace Lacuna
universe u
variable {V : Type u}

/-- The sum of the values destined for slot `k`. -/
def ksum [Zero V] [Add V] (ops : List (Nat × V)) (k : Nat) : V :=
  ((ops.filter fun o => o.1 == k).map Prod.snd).sum

theorem ksum_nil [Zero V] [Add V] (k : Nat) : ksum ([] : List (Nat × V)) k = 0 := rfl

theorem ksum_cons [AddMonoid V] (o : Nat × V) (ops : List (Nat × V)) (k : Nat) :
    ksum (o :: ops) k = (if o.1 = k then o.2 else 0) + ksum ops k := by
  unfold ksum
  by_cases h : o.1 = k
  · simp [h]
  · simp [h]

theorem ksum_append [AddMonoid V] (a b : List (Nat × V)) (k : Nat) :
    ksum (a ++ b) k = ksum a k + ksum b k := by
  unfold ksum; rw [List.filter_append, List.map_append, List.sum_append]

theorem ksum_perm [AddCommMonoid V] {a b : List (Nat × V)} (h : a.Perm b) (k : Nat) :
    ksum a k = ksum b k := ((h.filter _).map _).sum_eq

theorem ksum_of_not_mem [Zero V] [Add V] {ops : List (Nat × V)} {k : Nat} (h : ∀ o ∈ ops, o.1 ≠ k) :
    ksum ops k = 0 := by
  unfold ksum
  rw [List.filter_eq_nil_iff.2 (fun o ho => by simpa using h o ho)]; rfl

theorem ksum_flatMap [AddMonoid V] {α : Type*} (l : List α) (f : α → List (Nat × V)) (k : Nat) :
    ksum (l.flatMap f) k = (l.map fun x => ksum (f x) k).sum := by
  induction l with
  | nil => rfl
  | cons x l ih => rw [List.flatMap_cons, ksum_append, ih, List.map_cons, List.sum_cons]

/-- One value per slot, distinct slots. -/
theorem ksum_map_inj [AddMonoid V] {l : List Nat} (hl : l.Nodup) (f : Nat → V) (base i : Nat) (hi : i ∈ l) :
    ksum (l.map fun i => (base + i, f i)) (base + i) = f i := by
  induction l with
  | nil => cases hi
  | cons x l ih =>
    rw [List.map_cons, ksum_cons]
    rw [List.nodup_cons] at hl
    by_cases hx : x = i
    · subst hx
      rw [if_pos rfl, ksum_of_not_mem, add_zero]
      intro o ho
      obtain ⟨z, hz, rfl⟩ := List.mem_map.1 ho
      rintro h
      have : z = x := by simpa using h
      exact hl.1 (this ▸ hz)
    · rw [if_neg (by simpa using hx), zero_add]
      exact ih hl.2 ((List.mem_cons.1 hi).resolve_left (fun h => hx h.symm))

/-- Outside the slots. -/
theorem ksum_map_not [Zero V] [Add V] {l : List Nat} (f : Nat → V) (base k : Nat)
    (h : ∀ i ∈ l, base + i ≠ k) : ksum (l.map fun i => (base + i, f i)) k = 0 :=
  ksum_of_not_mem (fun o ho => by obtain ⟨z, hz, rfl⟩ := List.mem_map.1 ho; exact h z hz)

/-- The sums of all slots. -/
def ksums [Zero V] [Add V] (n : Nat) (ops : List (Nat × V)) : List V := (List.range n).map (ksum ops)

theorem ksums_length [Zero V] [Add V] (n : Nat) (ops : List (Nat × V)) : (ksums n ops).length = n := by
  simp [ksums]

theorem ksums_getD [Zero V] [Add V] (n : Nat) (ops : List (Nat × V)) (k : Nat) (hk : k < n) :
    (ksums n ops).getD k 0 = ksum ops k := by
  unfold ksums; simp [hk]

theorem ksums_perm [AddCommMonoid V] {n : Nat} {a b : List (Nat × V)} (h : a.Perm b) :
    ksums n a = ksums n b := by
  unfold ksums; exact List.map_congr_left (fun k _ => ksum_perm h k)

theorem ext_getD {n : Nat} [Zero V] {a b : List V} (ha : a.length = n) (hb : b.length = n)
    (h : ∀ k, k < n → a.getD k 0 = b.getD k 0) : a = b := by
  apply List.ext_getElem (by omega)
  intro k h1 h2
  have := h k (by omega)
  rwa [List.getD_eq_getElem _ _ h1, List.getD_eq_getElem _ _ h2] at this

theorem addAt_length [Zero V] [Add V] (y : List V) (k : Nat) (v : V) : (addAt y k v).length = y.length := by
  simp [addAt]

theorem addAt_getD [AddMonoid V] (y : List V) (k : Nat) (v : V) (i : Nat) (hi : i < y.length) :
    (addAt y k v).getD i 0 = y.getD i 0 + if k = i then v else 0 := by
  unfold addAt
  by_cases h : k = i
  · subst h
    simp [hi]
  · rw [if_neg h, add_zero]
    simp [h]

theorem addAll_length [Zero V] [Add V] (ops : List (Nat × V)) (y : List V) :
    (addAll y ops).length = y.length := by
  unfold addAll
  induction ops generalizing y with
  | nil => rfl
  | cons o ops ih => rw [List.foldl_cons, ih, addAt_length]

/-- `addAll` adds to each slot what is destined for it. -/
theorem addAll_getD [AddMonoid V] (ops : List (Nat × V)) (y : List V) (i : Nat) (hi : i < y.length) :
    (addAll y ops).getD i 0 = y.getD i 0 + ksum ops i := by
  induction ops generalizing y with
  | nil => simp [addAll, ksum_nil]
  | cons o ops ih =>
    have : addAll y (o :: ops) = addAll (addAt y o.1 o.2) ops := rfl
    rw [this, ih _ (by rw [addAt_length]; exact hi), addAt_getD _ _ _ _ hi, ksum_cons, add_assoc]

theorem addAll_append [Zero V] [Add V] (a b : List (Nat × V)) (y : List V) :
    addAll y (a ++ b) = addAll (addAll y a) b := List.foldl_append

theorem replicate_getD_zero [Zero V] (n k : Nat) : (List.replicate n (0 : V)).getD k 0 = 0 := by
  rw [List.getD_eq_getElem?_getD, List.getElem?_replicate]; split <;> rfl

theorem addAll_zero [AddMonoid V] (n : Nat) (ops : List (Nat × V)) :
    addAll (List.replicate n 0) ops = ksums n ops := by
  refine ext_getD (n := n) (by rw [addAll_length, List.length_replicate]) (ksums_length n ops) ?_
  intro k hk
  rw [addAll_getD _ _ _ (by simpa using hk), replicate_getD_zero, zero_add, ksums_getD n ops k hk]

theorem addAll?_eq [Zero V] [Add V] (ops : List (Nat × V)) (y : List V) (h : ∀ o ∈ ops, o.1 < y.length) :
    addAll? y ops = some (addAll y ops) := by
  unfold addAll? addAll
  induction ops generalizing y with
  | nil => rfl
  | cons o ops ih =>
    rw [List.foldlM_cons, if_pos (h o (by simp))]
    exact ih _ (fun o' ho' => by rw [addAt_length]; exact h o' (by simp [ho']))

/-- Merging: a fold of per-thread contributions is the sum of all contributions. -/
theorem merge_getD [AddMonoid V] {γ : Type*} (f : List V → γ → List V) (c : γ → Nat → V) (n : Nat) (cells : List γ)
    (hlen : ∀ g ∈ cells, ∀ y : List V, y.length = n → (f y g).length = n)
    (h : ∀ g ∈ cells, ∀ y : List V, y.length = n → ∀ k, k < n → (f y g).getD k 0 = y.getD k 0 + c g k)
    (y : List V) (hy : y.length = n) :
    (cells.foldl f y).length = n ∧
      ∀ k, k < n → (cells.foldl f y).getD k 0 = y.getD k 0 + (cells.map fun g => c g k).sum := by
  induction cells generalizing y with
  | nil => exact ⟨hy, fun k _ => by simp⟩
  | cons g cells ih =>
    obtain ⟨h1, h2⟩ := ih (fun g' hg' => hlen g' (by simp [hg'])) (fun g' hg' => h g' (by simp [hg']))
      (f y g) (hlen g (by simp) y hy)
    refine ⟨h1, fun k hk => ?_⟩
    rw [List.foldl_cons, h2 k hk, h g (by simp) y hy k hk, List.map_cons, List.sum_cons, add_assoc]

theorem mapM_option_map {α β : Type*} {f : α → Option β} {g : α → β} {l : List α}
    (h : ∀ x ∈ l, f x = some (g x)) : l.mapM f = some (l.map g) := by
  induction l with
  | nil => rfl
  | cons x l ih =>
    rw [List.mapM_cons, h x (by simp), ih (fun y hy => h y (by simp [hy]))]; rfl

theorem ksum_flatten [AddMonoid V] (groups : List (List (Nat × V))) (k : Nat) :
    (groups.map fun g => ksum g k).sum = ksum groups.flatten k := by
  rw [← List.flatMap_id, ksum_flatMap]; rfl

/-- Building one accumulator per thread and merging them adds everything. -/
theorem cells_merge [AddMonoid V] {γ : Type*} (make : List (Nat × V) → Option γ)
    (f : List V → γ → List V) (n : Nat) (groups : List (List (Nat × V)))
    (hex : ∀ g ∈ groups, ∃ c, make g = some c ∧ ∀ y : List V, y.length = n →
      (f y c).length = n ∧ ∀ k, k < n → (f y c).getD k 0 = y.getD k 0 + ksum g k) :
    ((groups.mapM make).map fun cells => cells.foldl f (List.replicate n 0)) =
      some (ksums n groups.flatten) := by
  have key : ∃ cells, groups.mapM make = some cells ∧ ∀ y : List V, y.length = n →
      (cells.foldl f y).length = n ∧
        ∀ k, k < n → (cells.foldl f y).getD k 0 = y.getD k 0 + ksum groups.flatten k := by
    induction groups with
    | nil => exact ⟨[], rfl, fun y hy => ⟨hy, fun k _ => by simp [ksum_nil]⟩⟩
    | cons g groups ih =>
      obtain ⟨cells, h1, h2⟩ := ih (fun g' hg' => hex g' (by simp [hg']))
      obtain ⟨c, hc, hf⟩ := hex g (by simp)
      refine ⟨c :: cells, by rw [List.mapM_cons, hc, h1]; rfl, fun y hy => ?_⟩
      obtain ⟨l1, l2⟩ := hf y hy
      obtain ⟨m1, m2⟩ := h2 _ l1
      refine ⟨m1, fun k hk => ?_⟩
      rw [List.foldl_cons, m2 k hk, l2 k hk, List.flatten_cons, ksum_append, add_assoc]
  obtain ⟨cells, h1, h2⟩ := key
  rw [h1, Option.map_some]
  obtain ⟨m1, m2⟩ := h2 (List.replicate n 0) (by simp)
  congr 1
  refine ext_getD (n := n) m1 (ksums_length _ _) (fun k hk => ?_)
  rw [m2 k hk, replicate_getD_zero, zero_add, ksums_getD _ _ _ hk]

/-- State of a `(vals, seen, touched)` accumulator after `ops`. -/
structure TInv [AddMonoid V] (n : Nat) (ops : List (Nat × V)) (c : TouchAcc V) : Prop where
  vals : c.vals = ksums n ops
  seen_len : c.seen.length = n
  seen_iff : ∀ i, i < n → (c.seen[i]? = some true ↔ i ∈ c.touched)
  nodup : c.touched.Nodup
  mem : ∀ i, i ∈ c.touched ↔ ∃ o ∈ ops, o.1 = i
  lt : ∀ i ∈ c.touched, i < n

theorem tinv_empty [AddMonoid V] (n : Nat) : TInv n [] (TouchAcc.empty n : TouchAcc V) where
  vals := (addAll_zero (V := V) n [])
  seen_len := by simp [TouchAcc.empty]
  seen_iff := fun i hi => by simp [TouchAcc.empty, hi]
  nodup := List.nodup_nil
  mem := fun i => by simp [TouchAcc.empty]
  lt := fun i hi => by cases hi

theorem ksums_snoc [AddMonoid V] (n : Nat) (ops : List (Nat × V)) (o : Nat × V) :
    addAt (ksums n ops) o.1 o.2 = ksums n (ops ++ [o]) := by
  rw [← addAll_zero, ← addAll_zero, addAll_append]; rfl

theorem tinv_add [AddMonoid V] {n : Nat} {ops : List (Nat × V)} {c : TouchAcc V} (h : TInv n ops c)
    (o : Nat × V) (ho : o.1 < n) : ∃ c', c.add o.1 o.2 = some c' ∧ TInv n (ops ++ [o]) c' := by
  have hs : o.1 < c.seen.length := by rw [h.seen_len]; exact ho
  unfold TouchAcc.add
  rw [List.getElem?_eq_getElem hs]
  have hiff := h.seen_iff o.1 ho
  rw [List.getElem?_eq_getElem hs] at hiff
  cases hb : c.seen[o.1] with
  | true =>
    rw [hb] at hiff
    have hmem := hiff.1 rfl
    refine ⟨_, rfl, ?_, h.seen_len, h.seen_iff, h.nodup, fun i => ?_, h.lt⟩
    · show addAt c.vals o.1 o.2 = _
      rw [h.vals, ksums_snoc]
    · show i ∈ c.touched ↔ _
      rw [h.mem i]
      constructor
      · rintro ⟨o', ho', rfl⟩; exact ⟨o', by simp [ho'], rfl⟩
      · rintro ⟨o', ho', rfl⟩
        rcases List.mem_append.1 ho' with h' | h'
        · exact ⟨o', h', rfl⟩
        · rw [List.mem_singleton] at h'; subst h'
          exact (h.mem _).1 hmem
  | false =>
    rw [hb] at hiff
    have hnm : o.1 ∉ c.touched := fun hm => by have := hiff.2 hm; cases this
    refine ⟨_, rfl, ?_, ?_, fun i hi => ?_, ?_, fun i => ?_, fun i hi => ?_⟩
    · show addAt c.vals o.1 o.2 = _
      rw [h.vals, ksums_snoc]
    · show (c.seen.set o.1 true).length = n
      rw [List.length_set, h.seen_len]
    · show (c.seen.set o.1 true)[i]? = some true ↔ i ∈ c.touched ++ [o.1]
      rw [List.getElem?_set]
      by_cases hio : o.1 = i
      · subst hio; simp [hs]
      · rw [if_neg hio, h.seen_iff i hi]
        simp [Ne.symm hio]
    · show (c.touched ++ [o.1]).Nodup
      rw [List.nodup_append]
      refine ⟨h.nodup, by simp, fun a ha b hb => ?_⟩
      rw [List.mem_singleton] at hb
      rintro rfl
      exact hnm (hb ▸ ha)
    · show i ∈ c.touched ++ [o.1] ↔ _
      rw [List.mem_append, h.mem i, List.mem_singleton]
      constructor
      · rintro (⟨o', ho', rfl⟩ | rfl)
        · exact ⟨o', by simp [ho'], rfl⟩
        · exact ⟨o, by simp, rfl⟩
      · rintro ⟨o', ho', rfl⟩
        rcases List.mem_append.1 ho' with h' | h'
        · exact Or.inl ⟨o', h', rfl⟩
        · rw [List.mem_singleton] at h'; exact Or.inr (by rw [h'])
    · rcases List.mem_append.1 hi with h' | h'
      · exact h.lt i h'
      · rw [List.mem_singleton] at h'; omega

theorem tinv_fold [AddMonoid V] {n : Nat} (ops' : List (Nat × V)) {ops : List (Nat × V)} {c : TouchAcc V}
    (h : TInv n ops c) (ho : ∀ o ∈ ops', o.1 < n) :
    ∃ c', ops'.foldlM (fun c o => c.add o.1 o.2) c = some c' ∧ TInv n (ops ++ ops') c' := by
  induction ops' generalizing ops c with
  | nil => exact ⟨c, rfl, by simpa using h⟩
  | cons o ops' ih =>
    obtain ⟨c1, h1, h2⟩ := tinv_add h o (ho o (by simp))
    obtain ⟨c2, h3, h4⟩ := ih h2 (fun o' ho' => ho o' (by simp [ho']))
    refine ⟨c2, ?_, by simpa using h4⟩
    rw [List.foldlM_cons, h1]; exact h3

/-- What merging an accumulator adds. -/
theorem TInv.updates [AddMonoid V] {n : Nat} {ops : List (Nat × V)} {c : TouchAcc V} (h : TInv n ops c)
    (base k : Nat) :
    ksum (c.updates base n) k = if base ≤ k ∧ k < base + n then ksum ops (k - base) else 0 := by
  have hval : ∀ i, i < n → c.vals.getD i 0 = ksum ops i := fun i hi => by
    rw [h.vals, ksums_getD _ _ _ hi]
  unfold TouchAcc.updates
  by_cases hk : base ≤ k ∧ k < base + n
  · rw [if_pos hk]
    obtain ⟨i, rfl⟩ : ∃ i, k = base + i := ⟨k - base, by omega⟩
    have hi : i < n := by omega
    rw [Nat.add_sub_cancel_left]
    split
    · rw [ksum_map_inj List.nodup_range (fun i => c.vals.getD i 0) base i (by simpa using hi), hval i hi]
    · by_cases hm : i ∈ c.touched
      · rw [ksum_map_inj h.nodup (fun i => c.vals.getD i 0) base i hm, hval i hi]
      · rw [ksum_map_not _ _ _ (fun j hj hji => hm (by
          have : j = i := by omega
          exact this ▸ hj))]
        rw [ksum_of_not_mem (fun o ho hoi => hm ((h.mem i).2 ⟨o, ho, hoi⟩))]
  · rw [if_neg hk]
    split
    · exact ksum_map_not _ _ _ (fun j hj hji => hk (by have := List.mem_range.1 hj; omega))
    · exact ksum_map_not _ _ _ (fun j hj hji => hk (by have := h.lt j hj; omega))

/-- The operations of stripe `sid`, with positions relative to it. -/
def subOps (stripe sid : Nat) (ops : List (Nat × V)) : List (Nat × V) :=
  (ops.filter fun o => o.1 / stripe == sid).map fun o => (o.1 - sid * stripe, o.2)

theorem subOps_append (stripe sid : Nat) (a b : List (Nat × V)) :
    subOps stripe sid (a ++ b) = subOps stripe sid a ++ subOps stripe sid b := by
  unfold subOps; rw [List.filter_append, List.map_append]

theorem ksum_subOps [Zero V] [Add V] {stripe : Nat} (ops : List (Nat × V)) (k : Nat) :
    ksum (subOps stripe (k / stripe) ops) (k - k / stripe * stripe) = ksum ops k := by
  unfold ksum subOps
  congr 1
  induction ops with
  | nil => rfl
  | cons o ops ih =>
    by_cases h1 : o.1 / stripe = k / stripe
    · have hd1 := Nat.div_mul_le_self o.1 stripe
      have hd2 := Nat.div_mul_le_self k stripe
      rw [h1] at hd1
      by_cases h2 : o.1 = k
      · simp [h2, ih]
      · have h3 : ¬ o.1 - k / stripe * stripe = k - k / stripe * stripe := by omega
        simp [h1, h2, h3, ih]
    · have h2 : ¬ o.1 = k := fun h => h1 (by rw [h])
      simp [h1, h2, ih]

/-- State of a striped accumulator after `ops`. -/
structure SInv [AddMonoid V] (n stripe : Nat) (ops : List (Nat × V)) (accs : List (Option (TouchAcc V))) :
    Prop where
  length : accs.length = (n + stripe - 1) / stripe
  cell : ∀ sid, sid < (n + stripe - 1) / stripe →
    (accs[sid]? = some none ∧ subOps stripe sid ops = []) ∨
    ∃ c, accs[sid]? = some (some c) ∧ TInv (min (n - sid * stripe) stripe) (subOps stripe sid ops) c

theorem sid_lt {n stripe k : Nat} (hs : 0 < stripe) (hk : k < n) : k / stripe < (n + stripe - 1) / stripe := by
  have : k / stripe + 1 ≤ (n + stripe - 1) / stripe := by
    rw [Nat.le_div_iff_mul_le hs]
    have := Nat.div_mul_le_self k stripe
    rw [Nat.add_mul]; omega
  exact this

theorem sinv_empty [AddMonoid V] (n stripe : Nat) :
    SInv n stripe [] (List.replicate ((n + stripe - 1) / stripe) (none : Option (TouchAcc V))) where
  length := by simp
  cell := fun sid hsid => Or.inl ⟨by rw [List.getElem?_replicate, if_pos hsid], rfl⟩

theorem sinv_add [AddMonoid V] {n stripe : Nat} (hs : 0 < stripe) {ops : List (Nat × V)}
    {accs : List (Option (TouchAcc V))} (h : SInv n stripe ops accs) (o : Nat × V) (ho : o.1 < n) :
    ∃ accs', stripeAdd n stripe accs o.1 o.2 = some accs' ∧ SInv n stripe (ops ++ [o]) accs' := by
  have hsid := sid_lt hs ho
  have hoff : o.1 - o.1 / stripe * stripe < min (n - o.1 / stripe * stripe) stripe := by
    have h1 := Nat.div_mul_le_self o.1 stripe
    have h2 := Nat.lt_div_mul_add hs (a := o.1)
    omega
  obtain ⟨t, ht, hc⟩ : ∃ t, accs[o.1 / stripe]? = some t ∧
      TInv (min (n - o.1 / stripe * stripe) stripe) (subOps stripe (o.1 / stripe) ops)
        (t.getD (TouchAcc.empty (min (n - o.1 / stripe * stripe) stripe))) := by
    rcases h.cell _ hsid with ⟨h1, h2⟩ | ⟨c, h1, h2⟩
    · exact ⟨none, h1, by rw [h2]; exact tinv_empty _⟩
    · exact ⟨some c, h1, h2⟩
  obtain ⟨c', h1, h2⟩ := tinv_add hc (o.1 - o.1 / stripe * stripe, o.2) hoff
  refine ⟨accs.set (o.1 / stripe) (some c'), ?_, ?_, fun sid hsid' => ?_⟩
  · unfold stripeAdd
    simp only [ht]
    rw [h1]; rfl
  · rw [List.length_set, h.length]
  · rw [List.getElem?_set]
    by_cases hes : o.1 / stripe = sid
    · subst hes
      rw [if_pos rfl, if_pos (by rw [h.length]; exact hsid)]
      refine Or.inr ⟨c', rfl, ?_⟩
      rw [subOps_append]
      have : subOps stripe (o.1 / stripe) [o] = [(o.1 - o.1 / stripe * stripe, o.2)] := by
        simp [subOps]
      rw [this]; exact h2
    · rw [if_neg hes, subOps_append]
      have : subOps stripe sid [o] = [] := by simp [subOps, hes]
      rw [this, List.append_nil]
      exact h.cell sid hsid'

theorem sinv_fold [AddMonoid V] {n stripe : Nat} (hs : 0 < stripe) (ops' : List (Nat × V)) {ops : List (Nat × V)}
    {accs : List (Option (TouchAcc V))} (h : SInv n stripe ops accs) (ho : ∀ o ∈ ops', o.1 < n) :
    ∃ accs', ops'.foldlM (fun accs o => stripeAdd n stripe accs o.1 o.2) accs = some accs' ∧
      SInv n stripe (ops ++ ops') accs' := by
  induction ops' generalizing ops accs with
  | nil => exact ⟨accs, rfl, by simpa using h⟩
  | cons o ops' ih =>
    obtain ⟨c1, h1, h2⟩ := sinv_add hs h o (ho o (by simp))
    obtain ⟨c2, h3, h4⟩ := ih h2 (fun o' ho' => ho o' (by simp [ho']))
    refine ⟨c2, ?_, by simpa using h4⟩
    rw [List.foldlM_cons, h1]; exact h3

theorem SInv.updates [AddMonoid V] {n stripe : Nat} (hs : 0 < stripe) {ops : List (Nat × V)}
    {accs : List (Option (TouchAcc V))} (h : SInv n stripe ops accs) (sid k : Nat)
    (hsid : sid < (n + stripe - 1) / stripe) (hk : k < n) :
    ksum (stripeUpdates n stripe accs sid) k = if sid = k / stripe then ksum ops k else 0 := by
  have hiff : (sid * stripe ≤ k ∧ k < sid * stripe + min (n - sid * stripe) stripe) ↔ sid = k / stripe := by
    constructor
    · rintro ⟨h1, h2⟩
      symm
      rw [Nat.div_eq_iff hs]; omega
    · rintro rfl
      have h1 := Nat.div_mul_le_self k stripe
      have h2 := Nat.lt_div_mul_add hs (a := k)
      omega
  unfold stripeUpdates
  rcases h.cell sid hsid with ⟨h1, h2⟩ | ⟨c, h1, h2⟩
  · rw [List.getD_eq_getElem?_getD, h1]
    show ksum [] k = _
    split
    · rename_i heq; subst heq
      have := ksum_subOps (stripe := stripe) ops k
      rw [h2] at this; exact this
    · rfl
  · rw [List.getD_eq_getElem?_getD, h1]
    show ksum (c.updates _ _) k = _
    rw [h2.updates]
    split
    · rename_i hc
      have := hiff.1 hc
      subst this
      rw [if_pos rfl, ksum_subOps]
    · rename_i hc
      rw [if_neg (fun h => hc (hiff.2 h))]

theorem SInv.updatesSeq [AddMonoid V] {n stripe : Nat} {ops : List (Nat × V)}
    {accs : List (Option (TouchAcc V))} (h : SInv n stripe ops accs) (sid : Nat)
    (hsid : sid < (n + stripe - 1) / stripe) :
    stripeUpdatesSeq stripe accs sid = stripeUpdates n stripe accs sid := by
  unfold stripeUpdatesSeq stripeUpdates
  rcases h.cell sid hsid with ⟨h1, h2⟩ | ⟨c, h1, h2⟩
  · rw [List.getD_eq_getElem?_getD, h1]; rfl
  · rw [List.getD_eq_getElem?_getD, h1]
    show c.updates _ _ = c.updates _ _
    rw [h2.vals, ksums_length]

theorem sum_ite_range [AddMonoid V] (N s : Nat) (hs : s < N) (v : V) :
    ((List.range N).map fun i => if i = s then v else 0).sum = v := by
  induction N with
  | zero => omega
  | succ N ih =>
    rw [List.range_succ, List.map_append, List.sum_append]
    by_cases h : s = N
    · subst h
      rw [List.map_congr_left (g := fun _ => (0 : V)) (fun i hi => by
        have := List.mem_range.1 hi
        rw [if_neg (by omega)])]
      simp
    · rw [ih (by omega)]
      simp [Ne.symm h]

section
variable [AddMonoid V] (n : Nat) (groups : List (List (Nat × V)))
  (hk : ∀ g ∈ groups, ∀ o ∈ g, o.1 < n)
include hk

theorem accumPlain_eq : accumPlain n groups = some (ksums n groups.flatten) := by
  unfold accumPlain
  rw [mapM_option_map (g := fun g => ksums n g) (fun g hg => by
    rw [addAll?_eq _ _ (fun o ho => by simpa using hk g hg o ho), addAll_zero])]
  rw [Option.map_some, List.foldl_map]
  congr 1
  obtain ⟨h1, h2⟩ := merge_getD
    (fun y g => addAll y ((List.range n).map fun c => (c, (ksums n g).getD c 0))) (fun g k => ksum g k)
    n groups (fun g _ y hy => by rw [addAll_length, hy])
    (fun g hg y hy k hkn => by
      rw [addAll_getD _ _ _ (by omega)]
      congr 1
      have := ksum_map_inj (V := V) List.nodup_range (fun c => (ksums n g).getD c 0) 0 k (by simpa using hkn)
      simp only [Nat.zero_add] at this
      rw [this, ksums_getD n g k hkn])
    (List.replicate n 0) (by simp)
  refine ext_getD (n := n) h1 (ksums_length _ _) (fun k hkn => ?_)
  rw [h2 k hkn, replicate_getD_zero, zero_add, ksum_flatten, ksums_getD _ _ _ hkn]

theorem accumHash_eq (cap : Nat) (hn : n ≤ usizeMax) :
    accumHash n cap groups = some (ksums n groups.flatten) := by
  unfold accumHash
  have hex : ∀ g ∈ groups, ∃ m, (HMap.withCapacity cap : HMap V).insertAll g = some m ∧
      ∀ y : List V, y.length = n → (m.drainTo y).length = n ∧
        ∀ k, k < n → (m.drainTo y).getD k 0 = y.getD k 0 + ksum g k := by
    intro g hg
    have hops : ∀ y : List V, y.length = n → ∀ o ∈ g, o.1 < y.length := fun y hy o ho => by
      rw [hy]; exact hk g hg o ho
    obtain ⟨m, hm, _⟩ := HMap.hashmap_drain_correct cap g (List.replicate n 0)
      (hops _ (by simp)) (by simpa using hn)
    refine ⟨m, hm, fun y hy => ?_⟩
    obtain ⟨m', hm', h1, h2⟩ := HMap.hashmap_drain_correct cap g y (hops y hy) (by omega)
    have : m' = m := Option.some.inj (hm'.symm.trans hm)
    subst this
    refine ⟨by omega, fun k hkn => ?_⟩
    rw [h2 k (by omega)]
    have := total_getD g k
    cases ht : total g k with
    | none =>
      rw [ht] at this
      show y.getD k 0 = _
      have h0 : ksum g k = 0 := by unfold ksum; rw [← this]; rfl
      rw [h0, add_zero]
    | some s =>
      rw [ht] at this
      show y.getD k 0 + s = _
      have h0 : ksum g k = s := by unfold ksum; rw [← this]; rfl
      rw [h0]
  exact cells_merge _ (fun y (m : HMap V) => m.drainTo y) n groups hex

theorem accumTouch_eq : accumTouch n groups = some (ksums n groups.flatten) := by
  unfold accumTouch
  refine cells_merge _ (fun y (c : TouchAcc V) => addAll y (c.updates 0 n)) n groups (fun g hg => ?_)
  obtain ⟨c, h1, h2⟩ := tinv_fold g (tinv_empty n) (hk g hg)
  refine ⟨c, h1, fun y hy => ⟨by rw [addAll_length, hy], fun k hkn => ?_⟩⟩
  rw [addAll_getD _ _ _ (by omega), h2.updates, if_pos (by omega)]
  rfl

theorem stripeCell_ok (stripe : Nat) (hs : 0 < stripe) (g : List (Nat × V)) (hg : g ∈ groups) :
    ∃ accs, stripeCell n stripe g = some accs ∧ SInv n stripe g accs := by
  obtain ⟨c, h1, h2⟩ := sinv_fold hs g (sinv_empty n stripe) (hk g hg)
  exact ⟨c, h1, h2⟩

theorem accumStripe_eq (stripe : Nat) (hs : 0 < stripe) :
    accumStripe n stripe groups = some (ksums n groups.flatten) := by
  unfold accumStripe
  refine cells_merge _ (fun y accs =>
    addAll y ((List.range accs.length).flatMap (stripeUpdatesSeq stripe accs))) n groups (fun g hg => ?_)
  obtain ⟨accs, h1, h2⟩ := stripeCell_ok n groups hk stripe hs g hg
  refine ⟨accs, h1, fun y hy => ⟨by rw [addAll_length, hy], fun k hkn => ?_⟩⟩
  rw [addAll_getD _ _ _ (by omega), ksum_flatMap]
  congr 1
  rw [h2.length, List.map_congr_left (g := fun sid => if sid = k / stripe then ksum g k else 0)
    (fun sid hsid => by
      have hsid := List.mem_range.1 hsid
      rw [h2.updatesSeq sid hsid, h2.updates hs sid k hsid hkn])]
  exact sum_ite_range _ _ (sid_lt hs hkn) _
end

theorem accumStripePar_eq [AddCommMonoid V] (n : Nat) (groups : List (List (Nat × V)))
    (hk : ∀ g ∈ groups, ∀ o ∈ g, o.1 < n) (stripe : Nat) (hs : 0 < stripe) (y : List V) :
    AccumStripePar n stripe groups y ↔ y = ksums n groups.flatten := by
  have hcells : ∃ cells, groups.mapM (stripeCell n stripe) = some cells ∧
      ∀ k, k < n → ∀ sid, sid < (n + stripe - 1) / stripe →
        (cells.map fun accs => ksum (stripeUpdates n stripe accs sid) k).sum =
          if sid = k / stripe then ksum groups.flatten k else 0 := by
    induction groups with
    | nil => exact ⟨[], rfl, fun k _ sid _ => by simp [ksum_nil]⟩
    | cons g groups ih =>
      obtain ⟨cells, h1, h2⟩ := ih (fun g' hg' => hk g' (by simp [hg']))
      obtain ⟨accs, h3, h4⟩ := stripeCell_ok n (g :: groups) hk stripe hs g (by simp)
      refine ⟨accs :: cells, by rw [List.mapM_cons, h3, h1]; rfl, fun k hkn sid hsid => ?_⟩
      rw [List.map_cons, List.sum_cons, h2 k hkn sid hsid, h4.updates hs sid k hsid hkn,
        List.flatten_cons, ksum_append]
      split
      · rfl
      · simp
  obtain ⟨cells, h1, h2⟩ := hcells
  have key : ∀ sched : List (Nat × V), sched.Perm ((List.range ((n + stripe - 1) / stripe)).flatMap fun sid =>
        cells.flatMap fun accs => stripeUpdates n stripe accs sid) →
      addAll (List.replicate n 0) sched = ksums n groups.flatten := by
    intro sched hp
    rw [addAll_zero]
    unfold ksums
    refine List.map_congr_left (fun k hkn => ?_)
    have hkn := List.mem_range.1 hkn
    rw [ksum_perm hp, ksum_flatMap,
      List.map_congr_left (g := fun sid => if sid = k / stripe then ksum groups.flatten k else 0)
      (fun sid hsid => by
        rw [ksum_flatMap]
        exact h2 k hkn sid (List.mem_range.1 hsid))]
    exact sum_ite_range _ _ (sid_lt hs hkn) _
  constructor
  · rintro ⟨cells', hc, sched, hp, rfl⟩
    have : cells' = cells := Option.some.inj (hc.symm.trans h1)
    subst this
    exact key sched hp
  · rintro rfl
    exact ⟨cells, h1, _, List.Perm.refl _, (key _ (List.Perm.refl _)).symm⟩

/-- One thread does everything. -/
theorem division_single {α : Type u} (items : List α) : Division items [items] := by
  unfold Division; rw [List.flatten_singleton]

theorem division_flatten {α : Type u} {items : List (List α)} {groups : List (List (List α))}
    (h : Division items groups) : (groups.map List.flatten).flatten.Perm items.flatten := by
  rw [← List.flatten_flatten]
  exact List.Perm.flatten h

theorem division_mem {α : Type u} {items : List (List α)} {groups : List (List (List α))}
    (h : Division items groups) {P : α → Prop} (hP : ∀ o ∈ items.flatten, P o) :
    ∀ g ∈ groups.map List.flatten, ∀ o ∈ g, P o := by
  intro g hg o ho
  exact hP o ((division_flatten h).subset (List.mem_flatten.2 ⟨g, hg, ho⟩))

end Lacuna
