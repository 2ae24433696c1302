import Verif.Lemmas.NdLin
import Verif.Props.HashMap
import Mathlib.Algebra.BigOperators.Group.List.Basic
namespace Lacuna
universe u w
variable {V : Type u}

/-! ### Keyed totals -/

theorem foldl_add_sum [AddMonoid V] (vs : List V) (v : V) :
    vs.foldl (fun s x => s + x) v = v + vs.sum := by
  induction vs generalizing v with
  | nil => simp
  | cons x vs ih => rw [List.foldl_cons, ih, List.sum_cons, add_assoc]

/-- Over a monoid the total is the sum of the values listed under the key. -/
theorem total_getD {K : Type w} [BEq K] [AddMonoid V] (E : List (K × V)) (k : K) :
    (total E k).getD 0 = ((E.filter fun e => e.1 == k).map Prod.snd).sum := by
  unfold total
  cases (E.filter fun e => e.1 == k).map Prod.snd with
  | nil => rfl
  | cons v vs => simp only [Option.getD_some, foldl_add_sum, List.sum_cons]

/-- A key with a total occurs. -/
theorem exists_of_total {K : Type w} [BEq K] [LawfulBEq K] [Add V] {E : List (K × V)} {k : K} {v : V}
    (h : total E k = some v) : ∃ v', (k, v') ∈ E := by
  unfold total at h
  cases hf : E.filter fun e => e.1 == k with
  | nil => rw [hf] at h; cases h
  | cons e es =>
    have : e ∈ E.filter fun e => e.1 == k := by rw [hf]; simp
    rw [List.mem_filter] at this
    obtain ⟨k', v'⟩ := e
    have hk : k' = k := by simpa using this.2
    exact ⟨v', hk ▸ this.1⟩

/-- An occurring key has a total. -/
theorem total_of_mem {K : Type w} [BEq K] [LawfulBEq K] [Add V] {E : List (K × V)} {k : K} {v : V}
    (h : (k, v) ∈ E) : ∃ v', total E k = some v' := by
  unfold total
  cases hf : E.filter fun e => e.1 == k with
  | nil =>
    rw [List.filter_eq_nil_iff] at hf
    exact absurd (by simp) (hf _ h)
  | cons e es => exact ⟨_, rfl⟩

theorem total_map_key {K : Type w} {K' : Type w} [BEq K] [LawfulBEq K] [BEq K'] [LawfulBEq K'] [Add V]
    (E : List (K × V)) (g : K → K') (k : K) (hinj : ∀ e ∈ E, g e.1 = g k → e.1 = k) :
    total (E.map fun e => (g e.1, e.2)) (g k) = total E k := by
  unfold total
  have : (E.map fun e => (g e.1, e.2)).filter (fun e => e.1 == g k)
      = (E.filter fun e => e.1 == k).map fun e => (g e.1, e.2) := by
    rw [List.filter_map]
    congr 1
    apply List.filter_congr
    intro e he
    simp only [Function.comp]
    by_cases h : e.1 = k
    · simp [h]
    · have : ¬ g e.1 = g k := fun h' => h (hinj e he h')
      rw [beq_eq_false_iff_ne.2 h, beq_eq_false_iff_ne.2 this]
  rw [this, List.map_map]
  rfl

theorem filter_key_nodup {K : Type w} [BEq K] [LawfulBEq K] {L : List (K × V)} {k : K} {v : V}
    (hn : (L.map Prod.fst).Nodup) (h : (k, v) ∈ L) : L.filter (fun e => e.1 == k) = [(k, v)] := by
  induction L with
  | nil => simp at h
  | cons e L ih =>
    rw [List.map_cons, List.nodup_cons] at hn
    rcases List.mem_cons.1 h with rfl | h
    · rw [List.filter_cons_of_pos (by simp), List.filter_eq_nil_iff.2]
      intro e he hc
      have : e.1 = k := by simpa using hc
      exact hn.1 (List.mem_map.2 ⟨e, he, this⟩)
    · rw [List.filter_cons_of_neg, ih hn.2 h]
      intro hc
      have : e.1 = k := by simpa using hc
      exact hn.1 (List.mem_map.2 ⟨(k, v), h, this.symm⟩)

/-- Value of a duplicate-free list of entries described by a partial function. -/
theorem sum_filter_key {K : Type w} [BEq K] [LawfulBEq K] [AddZeroClass V] {L : List (K × V)} {k : K}
    {t : Option V} (hn : (L.map Prod.fst).Nodup) (h : ∀ v, (k, v) ∈ L ↔ t = some v) :
    ((L.filter fun e => e.1 == k).map Prod.snd).sum = t.getD 0 := by
  cases t with
  | none =>
    rw [List.filter_eq_nil_iff.2]
    · rfl
    · intro e he hc
      have hk : e.1 = k := by simpa using hc
      have := (h e.2).1 (hk ▸ he)
      cases this
  | some v =>
    rw [filter_key_nodup hn ((h v).2 rfl)]
    simp

/-! ### Collecting a linearised accumulation -/

theorem pairwise_lt_of_sort {sort : List (Nat × V) → List (Nat × V)} (hs : IsSort sort)
    {l : List (Nat × V)} (hn : (l.map Prod.fst).Nodup) :
    (sort l).Pairwise (fun a b => a.1 < b.1) := by
  obtain ⟨hp, hle⟩ := hs l
  have hn' : ((sort l).map Prod.fst).Nodup := (hp.map Prod.fst).nodup_iff.2 hn
  rw [List.Nodup, List.pairwise_map] at hn'
  exact (hle.and hn').imp (fun {a b} h => by omega)

/-- A strictly sorted list of keys that are positions of in-bounds coordinates is the image
of a lexicographically sorted list of coordinates. -/
theorem unlin {shape : List Nat} {P : List (Nat × V)} (hP : P.Pairwise (fun a b => a.1 < b.1))
    (hkey : ∀ e ∈ P, ∃ x, InBounds shape x ∧ e.1 = rowMajor shape x) :
    ∃ L : List (List Int × V), P = L.map (fun e => (rowMajor shape e.1, e.2)) ∧
      (L.map Prod.fst).Pairwise (fun x y => x < y) ∧
      (∀ e ∈ L, InBounds shape e.1) ∧
      ∀ x v, InBounds shape x → ((x, v) ∈ L ↔ (rowMajor shape x, v) ∈ P) := by
  let back : Nat × V → List Int × V := fun e => ((delin (sufProds shape) e.1).map Int.ofNat, e.2)
  have hback : ∀ e ∈ P, InBounds shape (back e).1 ∧ rowMajor shape (back e).1 = e.1 := by
    intro e he
    obtain ⟨x, hx, hex⟩ := hkey e he
    have : (back e).1 = x := by
      show (delin (sufProds shape) e.1).map Int.ofNat = x
      rw [hex, delin_rowMajor hx, List.map_map]
      conv_rhs => rw [← List.map_id x]
      apply List.map_congr_left
      intro i hi
      have := hx.nonneg i hi
      simp only [Function.comp, id]; show ((i.toNat : Nat) : Int) = i; omega
    rw [this]; exact ⟨hx, hex.symm⟩
  refine ⟨P.map back, ?_, ?_, ?_, ?_⟩
  · rw [List.map_map]
    conv_lhs => rw [← List.map_id P]
    apply List.map_congr_left
    intro e he
    have := hback e he
    simp only [Function.comp, this.2, id]
    rfl
  · rw [List.map_map, List.pairwise_map]
    refine hP.imp_of_mem ?_
    intro a b ha hb' hab
    have h4 := hback a ha
    have h5 := hback b hb'
    show (back a).1 < (back b).1
    rw [← rowMajor_lt_iff h4.1 h5.1, h4.2, h5.2]; exact hab
  · intro e he
    obtain ⟨e', he', rfl⟩ := List.mem_map.1 he
    exact (hback e' he').1
  · intro x v hx
    constructor
    · intro h
      obtain ⟨e, he, heq⟩ := List.mem_map.1 h
      have hb' := hback e he
      have hx : (back e).1 = x := by rw [heq]
      have hv : e.2 = v := by have : (back e).2 = v := by rw [heq]
                              exact this
      rw [hx] at hb'
      rw [hb'.2, ← hv]; exact he
    · intro h
      have hb' := hback _ h
      exact List.mem_map.2 ⟨_, h, Prod.ext (rowMajor_inj hb'.1 hx hb'.2) rfl⟩

/-- Accumulating in-bounds coordinates through their row-major position and sorting gives
the distinct coordinates in lexicographic order, each with its total. -/
theorem collect_spec [Zero V] [Add V] {sort : List (Nat × V) → List (Nat × V)} (hs : IsSort sort)
    {shape : List Nat} (hno : NoOverflow shape) {E : List (List Int × V)}
    (hb : ∀ e ∈ E, InBounds shape e.1) (cap : Nat) :
    ∃ m, (HMap.withCapacity cap : HMap V).insertAll (E.map fun e => (rowMajor shape e.1, e.2)) = some m ∧
      ∃ L : List (List Int × V), sort m.pairs = L.map (fun e => (rowMajor shape e.1, e.2)) ∧
        (L.map Prod.fst).Pairwise (fun x y => x < y) ∧
        (∀ e ∈ L, InBounds shape e.1) ∧
        ∀ x v, (x, v) ∈ L ↔ total E x = some v := by
  have hlt : ∀ e ∈ E.map (fun e => (rowMajor shape e.1, e.2)), e.1 < usizeMax := by
    intro e he
    obtain ⟨e', he', rfl⟩ := List.mem_map.1 he
    have h1 := rowMajor_lt (hb e' he')
    have h2 := hno _ (List.suffix_refl _)
    simp only; omega
  obtain ⟨m, h1, h2, h3, -⟩ := HMap.hashmap_correct cap _ hlt
  refine ⟨m, h1, ?_⟩
  have htot : ∀ x, InBounds shape x →
      total (E.map fun e => (rowMajor shape e.1, e.2)) (rowMajor shape x) = total E x := by
    intro x hx
    exact total_map_key E (rowMajor shape) x (fun e he h => rowMajor_inj (hb e he) hx h)
  have hmem : ∀ e, e ∈ sort m.pairs ↔ e ∈ m.pairs := fun e => (hs m.pairs).1.mem_iff
  obtain ⟨L, l1, l2, l3, l4⟩ := unlin (shape := shape) (pairwise_lt_of_sort hs h2) (by
    intro e he
    obtain ⟨v', hv'⟩ := exists_of_total ((h3 e.1 e.2).1 ((hmem e).1 he))
    obtain ⟨e', he', heq⟩ := List.mem_map.1 hv'
    exact ⟨e'.1, hb e' he', by simp only [Prod.mk.injEq] at heq; exact heq.1.symm⟩)
  refine ⟨L, l1, l2, l3, fun x v => ⟨fun h => ?_, fun h => ?_⟩⟩
  · have hx := l3 _ h
    rw [← htot x hx, ← h3, ← hmem]
    exact (l4 x v hx).1 h
  · obtain ⟨v', hv'⟩ := exists_of_total h
    have hx := hb _ hv'
    rw [l4 x v hx, hmem, h3, htot x hx, h]

/-- Rebuilding from linear keys stores exactly the coordinates. -/
theorem ndBuild_eq {shape : List Nat} {L : List (List Int × V)} (hb : ∀ e ∈ L, InBounds shape e.1)
    (hi : ∀ e ∈ L, ∀ i ∈ e.1, i ≤ i64Max) :
    ndBuild shape (sufProds shape) (L.map fun e => (rowMajor shape e.1, e.2)) = CooNd.ofEntries shape L := by
  unfold ndBuild CooNd.ofEntries
  rw [List.map_map, List.flatMap_map]
  congr 1
  rw [List.flatMap_def, List.flatMap_def]
  congr 1
  apply List.map_congr_left
  intro e he
  simp only
  rw [delin_rowMajor (hb e he), map_usizeToI64 (hb e he).nonneg (hi e he)]

theorem InBounds.getD {shape : List Nat} {x : List Int} (h : InBounds shape x) (d : Nat)
    (hd : d < shape.length) : 0 ≤ x.getD d 0 ∧ x.getD d 0 < shape[d] := by
  induction shape generalizing x d with
  | nil => simp at hd
  | cons s ss ih =>
    cases x with
    | nil => cases h
    | cons i is =>
      rw [inBounds_cons] at h
      cases d with
      | zero => simpa using h.1
      | succ d => simpa using ih h.2 d (by simpa using hd)

theorem CooNd.wf_of_inBounds {shape : List Nat} {L : List (List Int × V)} (hs : shape ≠ [])
    (hb : ∀ e ∈ L, InBounds shape e.1) : (CooNd.ofEntries shape L).WF :=
  CooNd.wf_ofEntries hs (fun e he => (hb e he).length) (fun e he d hd => (hb e he).getD d hd)

theorem CooNd.i64_ofEntries {shape : List Nat} {L : List (List Int × V)}
    (hi : ∀ e ∈ L, ∀ i ∈ e.1, i ≤ i64Max) : (CooNd.ofEntries shape L).I64 := by
  intro i h
  obtain ⟨e, he, hie⟩ := List.mem_flatMap.1 h
  exact hi e he i hie

theorem nodup_of_lt {l : List (List Int)} (h : l.Pairwise (fun x y => x < y)) : l.Nodup :=
  h.imp (fun {a b} hab heq => by rw [heq] at hab; exact List.lt_irrefl b hab)

theorem i64_of_total [Add V] {E L : List (List Int × V)} (hi : ∀ e ∈ E, ∀ i ∈ e.1, i ≤ i64Max)
    (hL : ∀ x v, (x, v) ∈ L ↔ total E x = some v) : ∀ e ∈ L, ∀ i ∈ e.1, i ≤ i64Max := by
  intro e he
  obtain ⟨v', hv'⟩ := exists_of_total ((hL e.1 e.2).1 he)
  exact hi (e.1, v') hv'

/-- The merge of two strictly sorted lists lists the common keys with nonzero product. -/
theorem mulMerge_spec [Zero V] [Mul V] [BEq V] (pa pb : List (Nat × V))
    (ha : pa.Pairwise (fun a b => a.1 < b.1)) (hb : pb.Pairwise (fun a b => a.1 < b.1)) :
    (mulMerge pa pb).Pairwise (fun a b => a.1 < b.1) ∧
    ∀ k v, (k, v) ∈ mulMerge pa pb ↔
      ∃ x y, (k, x) ∈ pa ∧ (k, y) ∈ pb ∧ v = x * y ∧ (v == 0) = false := by
  fun_induction mulMerge pa pb with
  | case1 va pa ka vb pb hz ih =>
    rw [List.pairwise_cons] at ha hb
    obtain ⟨i1, i2⟩ := ih ha.2 hb.2
    refine ⟨i1, fun k v => ?_⟩
    rw [i2]
    constructor
    · rintro ⟨x, y, h1, h2, h3⟩; exact ⟨x, y, by simp [h1], by simp [h2], h3⟩
    · rintro ⟨x, y, h1, h2, h3, h4⟩
      rcases List.mem_cons.1 h1 with h1 | h1 <;> rcases List.mem_cons.1 h2 with h2 | h2
      · simp only [Prod.mk.injEq] at h1 h2
        rw [h3, h1.2, h2.2, hz] at h4; cases h4
      · simp only [Prod.mk.injEq] at h1
        have := hb.1 _ h2; simp only at this; omega
      · simp only [Prod.mk.injEq] at h2
        have := ha.1 _ h1; simp only at this; omega
      · exact ⟨x, y, h1, h2, h3, h4⟩
  | case2 va pa ka vb pb hz ih =>
    rw [List.pairwise_cons] at ha hb
    obtain ⟨i1, i2⟩ := ih ha.2 hb.2
    refine ⟨?_, fun k v => ?_⟩
    · rw [List.pairwise_cons]
      refine ⟨fun e he => ?_, i1⟩
      obtain ⟨x, y, h1, -⟩ := (i2 e.1 e.2).1 he
      exact ha.1 (e.1, x) h1
    · rw [List.mem_cons, i2]
      constructor
      · rintro (h | ⟨x, y, h1, h2, h3⟩)
        · simp only [Prod.mk.injEq] at h
          refine ⟨va, vb, by simp [h.1], by simp [h.1], h.2, ?_⟩
          rw [h.2]; simpa using hz
        · exact ⟨x, y, by simp [h1], by simp [h2], h3⟩
      · rintro ⟨x, y, h1, h2, h3, h4⟩
        rcases List.mem_cons.1 h1 with h1 | h1 <;> rcases List.mem_cons.1 h2 with h2 | h2
        · simp only [Prod.mk.injEq] at h1 h2
          left; rw [h3, h1.2, h2.2, h1.1]
        · simp only [Prod.mk.injEq] at h1
          have := hb.1 _ h2; simp only at this; omega
        · simp only [Prod.mk.injEq] at h2
          have := ha.1 _ h1; simp only at this; omega
        · exact .inr ⟨x, y, h1, h2, h3, h4⟩
  | case3 ka va pa kb vb pb hne hlt ih =>
    obtain ⟨i1, i2⟩ := ih (List.pairwise_cons.1 ha).2 hb
    refine ⟨i1, fun k v => ?_⟩
    rw [i2]
    rw [List.pairwise_cons] at ha hb
    constructor
    · rintro ⟨x, y, h1, h2, h3⟩; exact ⟨x, y, by simp [h1], h2, h3⟩
    · rintro ⟨x, y, h1, h2, h3⟩
      rcases List.mem_cons.1 h1 with h1 | h1
      · simp only [Prod.mk.injEq] at h1
        rcases List.mem_cons.1 h2 with h2 | h2
        · simp only [Prod.mk.injEq] at h2; omega
        · have := hb.1 _ h2; simp only at this; omega
      · exact ⟨x, y, h1, h2, h3⟩
  | case4 ka va pa kb vb pb hne hlt ih =>
    obtain ⟨i1, i2⟩ := ih ha (List.pairwise_cons.1 hb).2
    refine ⟨i1, fun k v => ?_⟩
    rw [i2]
    rw [List.pairwise_cons] at ha hb
    constructor
    · rintro ⟨x, y, h1, h2, h3⟩; exact ⟨x, y, h1, by simp [h2], h3⟩
    · rintro ⟨x, y, h1, h2, h3⟩
      rcases List.mem_cons.1 h2 with h2 | h2
      · simp only [Prod.mk.injEq] at h2
        rcases List.mem_cons.1 h1 with h1 | h1
        · simp only [Prod.mk.injEq] at h1; omega
        · have := ha.1 _ h1; simp only at this; omega
      · exact ⟨x, y, h1, h2, h3⟩
  | case5 pa pb h =>
    refine ⟨List.Pairwise.nil, fun k v => ⟨fun h' => absurd h' (by simp), ?_⟩⟩
    rintro ⟨x, y, h1, h2, -⟩
    exfalso
    cases pa with
    | nil => cases h1
    | cons e pa => cases pb with
      | nil => cases h2
      | cons e' pb => exact h e.1 e.2 pa e'.1 e'.2 pb rfl rfl

end Lacuna
