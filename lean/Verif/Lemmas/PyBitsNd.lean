import Verif.Lemmas.PyBits
/-
The broadcasting product of N-D arrays in any arithmetic.
-/
namespace Lacuna
variable {V : Type}

theorem sumAll_eq_none [Add V] {l : List V} : sumAll l = none ↔ l = [] := by cases l <;> simp [sumAll]

theorem total_eq_sumAll {K : Type} [BEq K] [Add V] (l : List (K × V)) (x : K) : total l x = sumAll (valuesAt l x) := rfl

theorem valuesAt_append {K : Type} [BEq K] (l m : List (K × V)) (x : K) :
    valuesAt (l ++ m) x = valuesAt l x ++ valuesAt m x := by
  unfold valuesAt; rw [List.filter_append, List.map_append]

theorem valuesAt_nil {l : List (Nat × V)} {k : Nat} : valuesAt l k = [] ↔ k ∉ l.map Prod.fst := by
  unfold valuesAt
  rw [List.map_eq_nil_iff, List.filter_eq_nil_iff]
  constructor
  · intro h hk
    obtain ⟨e, he, rfl⟩ := List.mem_map.1 hk
    exact h e he (by simp)
  · intro h e he hk
    exact h (List.mem_map.2 ⟨e, he, by simpa using hk⟩)

/-- If no key occurs in two parts, the second level of maps adds nothing. -/
theorem two_level_apart [Zero V] [Add V] (parts : List (List (Nat × V)))
    (hlt : ∀ p ∈ parts, ∀ e ∈ p, e.1 < usizeMax)
    (hn : parts.Pairwise fun p q => ∀ k ∈ p.map Prod.fst, k ∉ q.map Prod.fst) (cap : Nat) :
    ∃ ms, parts.mapM (fun ops => ((HMap.withCapacity cap : HMap V).insertAll ops).map fun m => m.pairs) = some ms ∧
      (ms.flatten.map Prod.fst).Nodup ∧ ∀ k v, (k, v) ∈ ms.flatten ↔ total parts.flatten k = some v := by
  induction parts with
  | nil => exact ⟨[], rfl, by simp, by simp [total]⟩
  | cons p parts ih =>
    obtain ⟨n1, n2⟩ := List.pairwise_cons.1 hn
    obtain ⟨ms, h1, h2, h3⟩ := ih (fun q hq => hlt q (by simp [hq])) n2
    obtain ⟨m, e1, e2, e3, -⟩ := HMap.hashmap_correct cap p (hlt p (by simp))
    have hp : ∀ k v, (k, v) ∈ m.pairs → k ∈ p.map Prod.fst := fun k v h => by
      by_contra hk
      rw [e3, total_eq_sumAll, valuesAt_nil.2 hk] at h
      cases h
    have hq : ∀ k v, (k, v) ∈ ms.flatten → k ∈ parts.flatten.map Prod.fst := fun k v h => by
      by_contra hk
      rw [h3, total_eq_sumAll, valuesAt_nil.2 hk] at h
      cases h
    have apart : ∀ k ∈ p.map Prod.fst, k ∉ parts.flatten.map Prod.fst := fun k hk hk' => by
      obtain ⟨e, he, rfl⟩ := List.mem_map.1 hk'
      obtain ⟨q, hq, he⟩ := List.mem_flatten.1 he
      exact n1 q hq _ hk (List.mem_map.2 ⟨e, he, rfl⟩)
    refine ⟨m.pairs :: ms, ?_, ?_, ?_⟩
    · rw [List.mapM_cons, e1, h1]; rfl
    · rw [List.flatten_cons, List.map_append, List.nodup_append]
      refine ⟨e2, h2, fun a ha b hb hab => ?_⟩
      obtain ⟨⟨k, v⟩, hk, rfl⟩ := List.mem_map.1 ha
      obtain ⟨⟨k', v'⟩, hk', rfl⟩ := List.mem_map.1 hb
      have hab : k = k' := hab
      subst hab
      exact apart _ (hp _ _ hk) (hq _ _ hk')
    · intro k v
      rw [List.flatten_cons, List.flatten_cons, List.mem_append, total_eq_sumAll, valuesAt_append]
      by_cases hk : k ∈ p.map Prod.fst
      · rw [valuesAt_nil.2 (apart k hk), List.append_nil, ← total_eq_sumAll, e3]
        exact or_iff_left fun h => apart k hk (hq _ _ h)
      · rw [valuesAt_nil.2 hk, List.nil_append, ← total_eq_sumAll, h3]
        exact or_iff_right fun h => hk (hp _ _ h)

theorem flatMap_only {α β : Type} {l : List α} (hn : l.Nodup) (f : α → List β) {x : α} (hf : ∀ y ∈ l, y ≠ x → f y = [])
    (hx : x ∉ l → f x = []) : l.flatMap f = f x := by
  induction l with
  | nil => rw [hx (by simp)]; rfl
  | cons y l ih =>
    obtain ⟨n1, n2⟩ := List.nodup_cons.1 hn
    rw [List.flatMap_cons]
    by_cases hyx : y = x
    · subst hyx
      have : l.flatMap f = [] := List.flatMap_eq_nil_iff.2 fun z hz =>
        hf z (by simp [hz]) (fun h => n1 (h ▸ hz))
      rw [this, List.append_nil]
    · rw [hf y (by simp) hyx, List.nil_append]
      exact ih n2 (fun z hz => hf z (by simp [hz])) fun h => hx (by simp [h, Ne.symm hyx])

theorem mem_kprods [Mul V] {ash bsh : List Nat} {PA PB : List (List Int × V)} {k : Nat} {e : Nat × V} :
    e ∈ kprods ash bsh PA PB k ↔ ∃ ea ∈ PA, ∃ eb ∈ PB, ikey ash bsh ea.1 = k ∧ ikey ash bsh eb.1 = k ∧
      e = (rowMajor (List.zipWith max ash bsh) (pickCoord ash ea.1 eb.1), ea.2 * eb.2) := by
  unfold kprods
  simp only [List.mem_flatten, List.mem_map, List.mem_filter, beq_iff_eq]
  constructor
  · rintro ⟨l, ⟨ea, ⟨h1, h2⟩, rfl⟩, h⟩
    obtain ⟨eb, h3, rfl⟩ := List.mem_map.1 h
    obtain ⟨h3, h4⟩ := List.mem_filter.1 h3
    exact ⟨ea, h1, eb, h3, h2, by simpa using h4, rfl⟩
  · rintro ⟨ea, h1, eb, h3, h2, h4, rfl⟩
    exact ⟨_, ⟨ea, ⟨h1, h2⟩, rfl⟩, List.mem_map.2 ⟨eb, List.mem_filter.2 ⟨h3, by simpa using h4⟩, rfl⟩⟩

/-- Where a product is stored tells the two coordinates. -/
theorem kprods_pos [Mul V] {ash bsh : List Nat} (hc : BCompat ash bsh)
    {PA PB : List (List Int × V)} (hA : ∀ e ∈ PA, InBounds ash e.1) (hB : ∀ e ∈ PB, InBounds bsh e.1)
    {ea eb : List Int × V} (h1 : ea ∈ PA) (h2 : eb ∈ PB) (hk : ikey ash bsh ea.1 = ikey ash bsh eb.1) {y : List Int}
    (hy : InBounds (List.zipWith max ash bsh) y)
    (hp : rowMajor (List.zipWith max ash bsh) (pickCoord ash ea.1 eb.1) = rowMajor (List.zipWith max ash bsh) y) :
    ea.1 = bidx ash y ∧ eb.1 = bidx bsh y := by
  have hp := rowMajor_inj (pick_inBounds hc (hA _ h1) (hB _ h2)) hy hp
  exact (pick_eq_iff hc (hA _ h1) (hB _ h2) hy).1 ⟨(ikey_eq_iff hc (hA _ h1) (hB _ h2)).1 hk, hp⟩

theorem filter_flatMap_if {α β : Type} (l : List α) (p : α → Bool) (f : α → List β) :
    (l.flatMap fun x => if p x then f x else []) = (l.filter p).flatMap f := by
  induction l with
  | nil => rfl
  | cons x l ih =>
    rw [List.flatMap_cons, ih, List.filter_cons]
    split_ifs
    · rw [List.flatMap_cons]
    · rfl

/-- What one group of products puts under an index. -/
theorem valuesAt_kprods [Mul V] {ash bsh : List Nat} (hc : BCompat ash bsh)
    {PA PB : List (List Int × V)} (hA : ∀ e ∈ PA, InBounds ash e.1) (hB : ∀ e ∈ PB, InBounds bsh e.1)
    {y : List Int} (hy : InBounds (List.zipWith max ash bsh) y) (k : Nat) :
    valuesAt (kprods ash bsh PA PB k) (rowMajor (List.zipWith max ash bsh) y) =
      (valuesAt (PA.filter fun e => ikey ash bsh e.1 == k) (bidx ash y)).flatMap fun p =>
        (valuesAt (PB.filter fun e => ikey ash bsh e.1 == k) (bidx bsh y)).map fun q => p * q := by
  unfold kprods valuesAt
  rw [← List.flatMap_def, List.filter_flatMap, List.map_flatMap, List.flatMap_map,
    ← filter_flatMap_if _ (fun e : List Int × V => e.1 == bidx ash y)]
  refine List.flatMap_congr fun ea hea => ?_
  obtain ⟨h1, h3⟩ := List.mem_filter.1 hea
  rw [beq_iff_eq] at h3
  rw [List.filter_map, List.map_map, List.map_map]
  by_cases hx : ea.1 = bidx ash y
  · rw [if_pos (by simpa using hx)]
    have hf : ∀ eb ∈ PB.filter (fun e => ikey ash bsh e.1 == k),
        ((fun e : Nat × V => e.1 == rowMajor (List.zipWith max ash bsh) y) ∘ fun eb : List Int × V =>
          (rowMajor (List.zipWith max ash bsh) (pickCoord ash ea.1 eb.1), ea.2 * eb.2)) eb = (eb.1 == bidx bsh y) := by
      intro eb heb
      obtain ⟨h2, h4⟩ := List.mem_filter.1 heb
      rw [beq_iff_eq] at h4
      rw [Bool.eq_iff_iff]
      simp only [Function.comp_apply, beq_iff_eq]
      constructor
      · intro h; exact (kprods_pos hc hA hB h1 h2 (h3.trans h4.symm) hy h).2
      · intro h
        rw [((pick_eq_iff hc (hA _ h1) (hB _ h2) hy).2 ⟨hx, h⟩).2]
    rw [List.filter_congr hf]
    rfl
  · rw [if_neg (by simpa using hx), List.map_eq_nil_iff, List.filter_eq_nil_iff]
    intro eb heb
    obtain ⟨h2, h4⟩ := List.mem_filter.1 heb
    rw [beq_iff_eq] at h4
    simp only [Function.comp_apply, beq_iff_eq]
    intro h
    exact hx (kprods_pos hc hA hB h1 h2 (h3.trans h4.symm) hy h).1

theorem valuesAt_filter {l : List (List Int × V)} {x : List Int} {p : List Int → Bool} (h : p x = true) :
    valuesAt (l.filter fun e => p e.1) x = valuesAt l x := by
  unfold valuesAt
  rw [List.filter_filter]
  congr 1
  apply List.filter_congr
  intro e _
  by_cases he : e.1 = x
  · rw [he, h]; simp
  · simp [he]

theorem valuesAt_filter_none {l : List (List Int × V)} {x : List Int} {p : List Int → Bool} (h : p x = false) :
    valuesAt (l.filter fun e => p e.1) x = [] := by
  unfold valuesAt
  rw [List.filter_filter, List.map_eq_nil_iff, List.filter_eq_nil_iff]
  intro e _
  by_cases he : e.1 = x
  · rw [he, h]; simp
  · simp [he]

theorem mem_valuesAt {l : List (List Int × V)} {x : List Int} {v : V} : v ∈ valuesAt l x ↔ (x, v) ∈ l := by
  unfold valuesAt
  simp only [List.mem_map, List.mem_filter, beq_iff_eq]
  constructor
  · rintro ⟨e, ⟨h, rfl⟩, rfl⟩; exact h
  · intro h; exact ⟨_, ⟨h, rfl⟩, rfl⟩

/-- All products under one index, in the order in which they are added. -/
theorem valuesAt_allprods [Mul V] {ash bsh : List Nat} (hc : BCompat ash bsh)
    {PA PB : List (List Int × V)} (hA : ∀ e ∈ PA, InBounds ash e.1) (hB : ∀ e ∈ PB, InBounds bsh e.1)
    {keys : List Nat} (hnd : keys.Nodup)
    (hk : ∀ k, k ∈ keys ↔ k ∈ PA.map (fun e => ikey ash bsh e.1) ∧ k ∈ PB.map (fun e => ikey ash bsh e.1))
    {y : List Int} (hy : InBounds (List.zipWith max ash bsh) y) :
    valuesAt (keys.map (kprods ash bsh PA PB)).flatten (rowMajor (List.zipWith max ash bsh) y) =
      (valuesAt PA (bidx ash y)).flatMap fun p => (valuesAt PB (bidx bsh y)).map fun q => p * q := by
  have e0 : valuesAt (keys.map (kprods ash bsh PA PB)).flatten (rowMajor (List.zipWith max ash bsh) y) =
      keys.flatMap fun k => valuesAt (kprods ash bsh PA PB k) (rowMajor (List.zipWith max ash bsh) y) := by
    unfold valuesAt
    rw [← List.flatMap_def, List.filter_flatMap, List.map_flatMap]
  rw [e0]
  simp only [valuesAt_kprods hc hA hB hy]
  by_cases hboth : (∃ p, (bidx ash y, p) ∈ PA) ∧ ∃ q, (bidx bsh y, q) ∈ PB
  · obtain ⟨⟨p, h1⟩, q, h2⟩ := hboth
    have g1 := ((pick_eq_iff hc (hA _ h1) (hB _ h2) hy).2 ⟨rfl, rfl⟩).1
    have g3 := (ikey_eq_iff hc (hA _ h1) (hB _ h2)).2 g1
    rw [flatMap_only hnd _ (x := ikey ash bsh (bidx ash y))]
    · rw [valuesAt_filter (x := bidx ash y) (p := fun x => ikey ash bsh x == ikey ash bsh (bidx ash y)) (by simp),
        valuesAt_filter (x := bidx bsh y) (p := fun x => ikey ash bsh x == ikey ash bsh (bidx ash y))
          (by simpa using g3.symm)]
    · intro k _ hne
      rw [valuesAt_filter_none (x := bidx ash y) (p := fun x => ikey ash bsh x == k) (by simpa using Ne.symm hne)]
      rfl
    · intro h
      exact absurd ((hk _).2 ⟨List.mem_map.2 ⟨_, h1, rfl⟩, List.mem_map.2 ⟨_, h2, g3.symm⟩⟩) h
  · have key : ∀ PA' PB' : List (List Int × V), (∀ e ∈ PA', e ∈ PA) → (∀ e ∈ PB', e ∈ PB) →
        ((valuesAt PA' (bidx ash y)).flatMap fun p => (valuesAt PB' (bidx bsh y)).map fun q => p * q) = [] := by
      intro PA' PB' ha hb
      refine List.flatMap_eq_nil_iff.2 fun p hp => List.map_eq_nil_iff.2 (List.eq_nil_iff_forall_not_mem.2 fun q hq => ?_)
      exact hboth ⟨⟨p, ha _ (mem_valuesAt.1 hp)⟩, q, hb _ (mem_valuesAt.1 hq)⟩
    rw [key PA PB (fun _ h => h) (fun _ h => h)]
    exact List.flatMap_eq_nil_iff.2 fun k _ => key _ _ (fun _ h => (List.mem_filter.1 h).1) fun _ h => (List.mem_filter.1 h).1

/-- Two groups put nothing under the same index. -/
theorem kprods_apart [Mul V] {ash bsh : List Nat} (hc : BCompat ash bsh)
    {PA PB : List (List Int × V)} (hA : ∀ e ∈ PA, InBounds ash e.1) (hB : ∀ e ∈ PB, InBounds bsh e.1)
    {k k' : Nat} {e e' : Nat × V} (he : e ∈ kprods ash bsh PA PB k) (he' : e' ∈ kprods ash bsh PA PB k')
    (h : e.1 = e'.1) : k = k' := by
  obtain ⟨ea, h1, eb, h2, h3, h4, h5⟩ := mem_kprods.1 he
  obtain ⟨ea', h1', eb', h2', h3', h4', h5'⟩ := mem_kprods.1 he'
  rw [h5, h5'] at h
  have hy := pick_inBounds hc (hA _ h1') (hB _ h2')
  obtain ⟨a1, -⟩ := kprods_pos hc hA hB h1 h2 (h3.trans h4.symm) hy h
  obtain ⟨b1, -⟩ := kprods_pos hc hA hB h1' h2' (h3'.trans h4'.symm) hy rfl
  rw [← h3, ← h3', a1.trans b1.symm]

theorem valuesAt_pad {a : CooNd V} {d : Nat} {y : List Int} (hy : y.length = d) :
    valuesAt (padEntries d a) (bidx (padShape d a.shape) y) = valuesAt a.entries (bcastIndex a.shape y) := by
  have hb : bidx (padShape d a.shape) y = List.replicate (d - a.shape.length) 0 ++ bcastIndex a.shape y := by
    unfold bidx padShape bcastIndex
    rw [hy]
    have hsplit : y = y.take (d - a.shape.length) ++ y.drop (d - a.shape.length) := (List.take_append_drop _ _).symm
    conv_lhs => rw [hsplit]
    rw [List.zipWith_append (by simp; omega)]
    congr 1
    apply List.ext_getElem
    · simp; omega
    · intro i h1 h2; simp
  rw [hb]
  unfold padEntries valuesAt
  rw [List.filter_map, List.map_map]
  have e1 : (Prod.snd ∘ fun e : List Int × V => (List.replicate (d - a.shape.length) (0 : Int) ++ e.1, e.2)) = Prod.snd := rfl
  rw [e1]
  congr 1
  apply List.filter_congr
  intro e _
  rw [Bool.eq_iff_iff]
  simp

/-- The broadcasting product, entry by entry. -/
theorem broadcast_mul_bits [Zero V] [Add V] [Mul V] {order : List Nat → List Nat → List Nat}
    (horder : IsCommonKeys order) (nthreads : Nat) {sort : List (Nat × V) → List (Nat × V)} (hsort : IsSort sort)
    {a b : CooNd V} (ha : a.WF) (hb : b.WF) (hai : a.I64) (hbi : b.I64) {out : List Nat}
    (hout : IsBroadcast a.shape b.shape out) (hno : out.prod ≤ usizeMax) :
    ∃ r, broadcastMulNd order nthreads sort a b = some r ∧ r.shape = out ∧ r.WF ∧ r.Sorted ∧
      ∀ y, InBounds out y → ∀ v, (y, v) ∈ r.entries ↔
        sumAll ((valuesAt a.entries (bcastIndex a.shape y)).flatMap fun p =>
          (valuesAt b.entries (bcastIndex b.shape y)).map fun q => p * q) = some v := by
  rw [isBroadcast_iff] at hout
  obtain ⟨hc, rfl⟩ := hout
  unfold broadcastMulNd
  simp only
  have hda := Nat.le_max_left a.shape.length b.shape.length
  have hdb := Nat.le_max_right a.shape.length b.shape.length
  generalize hdd : max a.shape.length b.shape.length = d at *
  have hla := padShape_length hda
  have hlb := padShape_length hdb
  have hlo : (List.zipWith max (padShape d a.shape) (padShape d b.shape)).length = d := by
    rw [List.length_zipWith, hla, hlb]; simp
  have hrank : List.zipWith max (padShape d a.shape) (padShape d b.shape) ≠ [] := by
    intro h
    rw [h] at hlo
    have := List.length_pos_of_ne_nil ha.rank
    simp at hlo; omega
  rw [broadcastShape?_some hc]
  simp only [Option.bind_some]
  by_cases hemp : a.data = [] ∨ b.data = []
  · rw [if_pos (by simpa using hemp)]
    refine ⟨_, rfl, rfl, ?_, ?_, fun y _ v => ?_⟩
    · exact CooNd.wf_of_inBounds (L := []) hrank (by simp)
    · simp [CooNd.Sorted, CooNd.entries]
    · have hr : ∀ (s : List Nat) (v : V), (y, v) ∈ (⟨s, [], []⟩ : CooNd V).entries ↔ False := fun s v => by
        simp [CooNd.entries]
      rw [hr]
      rcases hemp with h | h
      · have : a.entries = [] := by simp [CooNd.entries, h]
        rw [this]; simp [valuesAt, sumAll]
      · have : b.entries = [] := by simp [CooNd.entries, h]
        rw [this]
        have : ∀ l : List V, (l.flatMap fun p => (valuesAt ([] : List (List Int × V)) (bcastIndex b.shape y)).map fun q =>
          p * q) = [] := fun l => List.flatMap_eq_nil_iff.2 fun _ _ => rfl
        rw [this]; simp [sumAll]
  rw [if_neg (by simpa using hemp)]
  rw [not_or] at hemp
  have hA := padEntries_inBounds ha d
  have hB := padEntries_inBounds hb d
  have hAi := padEntries_i64 hai d
  have hBi := padEntries_i64 hbi d
  have hpa : 0 < (padShape d a.shape).prod := by
    have : a.entries ≠ [] := fun h => hemp.1 (by rw [← CooNd.entries_snd, h]; rfl)
    obtain ⟨e, he⟩ := List.exists_mem_of_ne_nil _ this
    exact prod_pos_of_inBounds (hA _ (List.mem_map.2 ⟨e, he, rfl⟩))
  have hpb : 0 < (padShape d b.shape).prod := by
    have : b.entries ≠ [] := fun h => hemp.2 (by rw [← CooNd.entries_snd, h]; rfl)
    obtain ⟨e, he⟩ := List.exists_mem_of_ne_nil _ this
    exact prod_pos_of_inBounds (hB _ (List.mem_map.2 ⟨e, he, rfl⟩))
  have hvala := fun (y : List Int) (hy : y.length = d) => valuesAt_pad (a := a) hy
  have hvalb := fun (y : List Int) (hy : y.length = d) => valuesAt_pad (a := b) hy
  have hsa := padEntries_snd a d
  have hsb := padEntries_snd b d
  rw [normCoords_eq ha, normCoords_eq hb, ← hsa, ← hsb]
  generalize padEntries d a = PA at *
  generalize padEntries d b = PB at *
  generalize padShape d a.shape = ash at *
  generalize padShape d b.shape = bsh at *
  have hop := out_pos hc hpa hpb
  have hNO : NoOverflow (List.zipWith max ash bsh) := noOverflow_of_pos hop hno
  obtain ⟨ist, i1, i2, i3⟩ := interStrides?_spec (interMask ash bsh) (List.zipWith max ash bsh) hop hno
    (by simp [interMask])
  rw [strides?_eq hNO, i1]
  simp only [Option.bind_some]
  have hkey : ∀ (P : List (List Int × V)) (sh : List Nat),
      (maskSel (interMask ash bsh) sh = maskSel (interMask ash bsh) (List.zipWith max ash bsh)) → sh.length = d →
      (∀ e ∈ P, InBounds sh e.1) → (∀ e ∈ P, ∀ i ∈ e.1, i ≤ i64Max) →
      (P.map Prod.fst).mapM (fun x => keyLoop (interMask ash bsh) x ist 0) =
        some ((P.map Prod.fst).map (ikey ash bsh)) := by
    intro P sh hsh hlen hP hPi
    apply mapM_some
    intro x hx
    obtain ⟨e, he, rfl⟩ := List.mem_map.1 hx
    have hin := inBounds_maskSel (hP e he) (interMask ash bsh)
    rw [hsh] at hin
    have hml : (interMask ash bsh).length = d := by rw [interMask, List.length_zipWith, hla, hlb]; simp
    rw [keyLoop_eq _ _ _ _ 0 (by rw [(hP e he).length, hlen, hml]) (by rw [i2, hlo, hml]) i3 hin ?_ (hPi e he)]
    · rw [Nat.zero_add]; rfl
    · have := prod_sublist_le (maskSel_sublist (interMask ash bsh) (List.zipWith max ash bsh)) hop
      omega
  rw [hkey PA ash (mask_shape hc).1 hla hA hAi, hkey PB bsh (mask_shape hc).2 hlb hB hBi]
  simp only [Option.bind_some]
  rw [zip_keys, zip_keys]
  obtain ⟨hnd, hmem⟩ := horder ((PA.map Prod.fst).map (ikey ash bsh)) ((PB.map Prod.fst).map (ikey ash bsh))
  generalize order _ _ = keys at hnd hmem ⊢
  generalize hch : max 1 (keys.length / (max nthreads 1 * 4)) = chunk
  have hcp : 0 < chunk := by omega
  -- the parts
  have hprodlt : ∀ ks : List Nat, ∀ e ∈ (ks.map (kprods ash bsh PA PB)).flatten,
      ∃ x, InBounds (List.zipWith max ash bsh) x ∧ (∀ i ∈ x, i ≤ i64Max) ∧ e.1 = rowMajor (List.zipWith max ash bsh) x := by
    intro ks e he
    obtain ⟨l, hl, he⟩ := List.mem_flatten.1 he
    obtain ⟨k, -, rfl⟩ := List.mem_map.1 hl
    obtain ⟨l', hl', he⟩ := List.mem_flatten.1 he
    obtain ⟨ea, hea, rfl⟩ := List.mem_map.1 hl'
    obtain ⟨eb, heb, rfl⟩ := List.mem_map.1 he
    have h1 := (List.mem_filter.1 hea).1
    have h2 := (List.mem_filter.1 heb).1
    exact ⟨_, pick_inBounds hc (hA _ h1) (hB _ h2), pick_i64 ash (hAi _ h1) (hBi _ h2), rfl⟩
  have hcps : ∀ ks : List Nat, chunkPairs ash (sufProds (List.zipWith max ash bsh))
      (PA.map fun e => (ikey ash bsh e.1, (e.1, e.2))) (PB.map fun e => (ikey ash bsh e.1, (e.1, e.2))) ks =
      ((HMap.withCapacity 1024 : HMap V).insertAll ((ks.map (kprods ash bsh PA PB)).flatten)).map fun m => m.pairs := by
    intro ks
    unfold chunkPairs
    rw [mapM_some (g := kprods ash bsh PA PB) (fun k _ => keyOps_eq hc hno hA hB hAi hBi k)]
    rfl
  rw [mapM_congr_option (fun ks _ => hcps ks)]
  rw [mapM_map_option (chunksOf chunk keys) (fun ks => (ks.map (kprods ash bsh PA PB)).flatten)
    (fun ops => ((HMap.withCapacity 1024 : HMap V).insertAll ops).map fun m => m.pairs)]
  have hparts : ((chunksOf chunk keys).map fun ks => (ks.map (kprods ash bsh PA PB)).flatten).flatten =
      (keys.map (kprods ash bsh PA PB)).flatten := by
    have : ∀ L : List (List Nat), (L.map fun ks => (ks.map (kprods ash bsh PA PB)).flatten).flatten =
        (L.flatten.map (kprods ash bsh PA PB)).flatten := by
      intro L
      induction L with
      | nil => rfl
      | cons l L ih => rw [List.map_cons, List.flatten_cons, ih, List.flatten_cons, List.map_append, List.flatten_append]
    rw [this, chunksOf_flatten hcp]
  have hplt : ∀ p ∈ (chunksOf chunk keys).map (fun ks => (ks.map (kprods ash bsh PA PB)).flatten),
      ∀ e ∈ p, ∃ x, InBounds (List.zipWith max ash bsh) x ∧ (∀ i ∈ x, i ≤ i64Max) ∧
        e.1 = rowMajor (List.zipWith max ash bsh) x := by
    intro p hp e he
    obtain ⟨ks, -, rfl⟩ := List.mem_map.1 hp
    exact hprodlt ks e he
  have hk : ∀ k, k ∈ keys ↔ k ∈ PA.map (fun e => ikey ash bsh e.1) ∧ k ∈ PB.map (fun e => ikey ash bsh e.1) := fun k => by
    rw [hmem, List.map_map, List.map_map]; rfl
  obtain ⟨ms, t1, t3, t4⟩ := two_level_apart ((chunksOf chunk keys).map fun ks => (ks.map (kprods ash bsh PA PB)).flatten)
    (by
      intro p hp e he
      obtain ⟨x, hx, -, hx'⟩ := hplt p hp e he
      have := rowMajor_lt hx
      omega)
    (by
      rw [List.pairwise_map]
      have hfl : (chunksOf chunk keys).flatten.Nodup := by rw [chunksOf_flatten hcp]; exact hnd
      refine (List.nodup_flatten.1 hfl).2.imp fun {ks ks'} hdis k hk hk' => ?_
      obtain ⟨e, he, rfl⟩ := List.mem_map.1 hk
      obtain ⟨e', he', h'⟩ := List.mem_map.1 hk'
      obtain ⟨l, hl, he⟩ := List.mem_flatten.1 he
      obtain ⟨l', hl', he'⟩ := List.mem_flatten.1 he'
      obtain ⟨j, hj, rfl⟩ := List.mem_map.1 hl
      obtain ⟨j', hj', rfl⟩ := List.mem_map.1 hl'
      have := kprods_apart hc hA hB he he' h'.symm
      subst this
      exact hdis hj hj') 1024
  rw [t1]
  simp only [Option.bind_some]
  rw [hparts] at t4
  have hms : ∀ e ∈ ms.flatten, ∃ x, InBounds (List.zipWith max ash bsh) x ∧ (∀ i ∈ x, i ≤ i64Max) ∧
        e.1 = rowMajor (List.zipWith max ash bsh) x := by
    intro e he
    have h := (t4 e.1 e.2).1 he
    obtain ⟨e', he', h'⟩ : ∃ e' ∈ (keys.map (kprods ash bsh PA PB)).flatten, e'.1 = e.1 := by
      by_contra hne
      rw [total_eq_sumAll, valuesAt_nil.2 (fun hmem => by
        obtain ⟨e', he', h'⟩ := List.mem_map.1 hmem
        exact hne ⟨e', he', h'⟩)] at h
      cases h
    rw [← h']
    exact hprodlt keys e' he'
  generalize ms.flatten = M at hms t3 t4 ⊢
  clear t1 hcps hparts hplt
  -- lift the keys to indices
  obtain ⟨E, hE, hEb, hEi⟩ : ∃ E : List (List Int × V),
      M = E.map (fun e => (rowMajor (List.zipWith max ash bsh) e.1, e.2)) ∧
      (∀ e ∈ E, InBounds (List.zipWith max ash bsh) e.1) ∧ (∀ e ∈ E, ∀ i ∈ e.1, i ≤ i64Max) := by
    clear t3 t4
    induction M with
    | nil => exact ⟨[], rfl, by simp, by simp⟩
    | cons e M ih =>
      obtain ⟨E, h1, h2, h3⟩ := ih (fun e' he' => hms e' (by simp [he']))
      obtain ⟨x, hx, hxi, hxe⟩ := hms e (by simp)
      refine ⟨(x, e.2) :: E, ?_, ?_, ?_⟩
      · rw [List.map_cons, ← h1, ← hxe]
      · intro e' he'
        rcases List.mem_cons.1 he' with rfl | he'
        · exact hx
        · exact h2 e' he'
      · intro e' he'
        rcases List.mem_cons.1 he' with rfl | he'
        · exact hxi
        · exact h3 e' he'
  obtain ⟨m, hm, L, l1, l2, l3, l4⟩ := collect_spec hsort hNO hEb (ms.map List.length).sum
  have hLi := i64_of_total hEi l4
  rw [hE, hm]
  simp only [Option.bind_some]
  rw [l1, ndBuild_eq l3 hLi]
  have hent : (CooNd.ofEntries (List.zipWith max ash bsh) L).entries = L :=
    CooNd.entries_ofEntries _ _ (fun e he => (l3 e he).length)
  have hsorted : (CooNd.ofEntries (List.zipWith max ash bsh) L).Sorted := by
    unfold CooNd.Sorted; rw [hent]; exact l2
  refine ⟨_, rfl, rfl, CooNd.wf_of_inBounds hrank l3, hsorted, fun y hy v => ?_⟩
  rw [hE, List.map_map] at t3
  have hEn : (E.map Prod.fst).Nodup := by
    have e1 : (Prod.fst ∘ fun e : List Int × V => (rowMajor (List.zipWith max ash bsh) e.1, e.2)) =
      rowMajor (List.zipWith max ash bsh) ∘ Prod.fst := rfl
    rw [e1, ← List.map_map] at t3
    exact List.Nodup.of_map _ t3
  have hyl : y.length = d := by rw [hy.length, hlo]
  have hEM : (y, v) ∈ E ↔ (rowMajor (List.zipWith max ash bsh) y, v) ∈ M := by
    rw [hE]
    constructor
    · intro h; exact List.mem_map.2 ⟨_, h, rfl⟩
    · intro h
      obtain ⟨⟨y', v'⟩, h1, h2⟩ := List.mem_map.1 h
      simp only [Prod.mk.injEq] at h2
      rw [← rowMajor_inj (hEb _ h1) hy h2.1, ← h2.2]
      exact h1
  rw [hent, l4 y v, total_nodup hEn, hEM, t4, total_eq_sumAll, valuesAt_allprods hc hA hB hnd hk hy, hvala y hyl, hvalb y hyl]

end Lacuna
