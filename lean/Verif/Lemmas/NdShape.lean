import Verif.Props.Nd
namespace Lacuna
universe u w
variable {V : Type u}

theorem mem_indicesOf {shape : List Nat} {x : List Int} : x ∈ indicesOf shape ↔ InBounds shape x := by
  induction shape generalizing x with
  | nil =>
    simp only [indicesOf, List.mem_singleton]
    constructor
    · rintro rfl; exact .nil
    · intro h; cases h; rfl
  | cons s ss ih =>
    simp only [indicesOf, List.mem_flatMap, List.mem_map, List.mem_range]
    constructor
    · rintro ⟨i, hi, y, hy, rfl⟩
      rw [inBounds_cons]
      exact ⟨⟨Int.natCast_nonneg i, by show (i : Int) < s; omega⟩, ih.1 hy⟩
    · intro h
      cases x with
      | nil => cases h
      | cons i is =>
        rw [inBounds_cons] at h
        exact ⟨i.toNat, by omega, is, ih.2 h.2, by congr 1; show ((i.toNat : Nat) : Int) = i; omega⟩

theorem indicesOf_nodup (shape : List Nat) : (indicesOf shape).Nodup := by
  induction shape with
  | nil => simp [indicesOf]
  | cons s ss ih =>
    simp only [indicesOf]
    rw [List.nodup_flatMap]
    refine ⟨fun i _ => ?_, ?_⟩
    · exact ih.map (fun a b h => by simpa using h)
    · refine List.Pairwise.imp (R := fun a b : Nat => a < b) ?_ List.pairwise_lt_range
      intro a b hab
      simp only [List.disjoint_left, List.mem_map]
      rintro x ⟨y, _, rfl⟩ ⟨z, _, hz⟩
      have : (b : Int) = a := (List.cons.inj hz).1
      omega

/-- Summing keyed values over a duplicate-free list of keys that contains them all. -/
theorem sum_over_keys {K : Type w} [BEq K] [LawfulBEq K] [AddCommMonoid V] (I : List K) (hI : I.Nodup)
    (E : List (K × V)) (hE : ∀ e ∈ E, e.1 ∈ I) :
    (I.map fun x => ((E.filter fun e => e.1 == x).map Prod.snd).sum).sum = (E.map Prod.snd).sum := by
  induction E with
  | nil => simp
  | cons e E ih =>
    have h1 : ∀ x, (((e :: E).filter fun e => e.1 == x).map Prod.snd).sum =
        (if e.1 == x then e.2 else 0) + ((E.filter fun e => e.1 == x).map Prod.snd).sum := by
      intro x
      rw [List.filter_cons]
      split <;> simp
    simp only [h1]
    rw [List.sum_map_add, ih (fun e' he' => hE e' (by simp [he'])), List.map_cons, List.sum_cons]
    congr 1
    have he := hE e (by simp)
    clear h1 ih hE
    induction I with
    | nil => simp at he
    | cons x I ih =>
      rw [List.nodup_cons] at hI
      rw [List.map_cons, List.sum_cons]
      by_cases hx : e.1 = x
      · have : (I.map fun x => if e.1 == x then e.2 else 0).sum = 0 := by
          rw [List.map_congr_left (g := fun _ => (0 : V))]
          · simp
          · intro y hy
            have : e.1 ≠ y := fun h => hI.1 (hx ▸ h ▸ hy)
            simp [this]
        rw [this]; simp [hx]
      · rw [ih hI.2 (by simpa [hx] using he)]
        simp [hx]

/-- The same, restricted to the keys that satisfy a predicate. -/
theorem sum_over_keys_filter {K : Type w} [BEq K] [LawfulBEq K] [AddCommMonoid V] (I : List K) (hI : I.Nodup)
    (E : List (K × V)) (hE : ∀ e ∈ E, e.1 ∈ I) (P : K → Bool) :
    ((I.filter P).map fun x => ((E.filter fun e => e.1 == x).map Prod.snd).sum).sum =
      ((E.filter fun e => P e.1).map Prod.snd).sum := by
  rw [← sum_over_keys (I.filter P) (hI.sublist List.filter_sublist) (E.filter fun e => P e.1) (by
    intro e he
    rw [List.mem_filter] at he ⊢
    exact ⟨hE e he.1, he.2⟩)]
  congr 1
  apply List.map_congr_left
  intro x hx
  rw [List.filter_filter]
  congr 2
  apply List.filter_congr
  intro e _
  by_cases h : e.1 = x
  · have := (List.mem_filter.1 hx).2
    simp [h, this]
  · simp [h]

/-! ### Axis validation -/

theorem checkAxes_spec (ndim : Nat) (axes : List Nat) (seen : List Bool) (hl : seen.length = ndim) :
    (∀ s', checkAxes ndim axes seen = some s' →
      ((∀ p ∈ axes, p < ndim ∧ seen.getD p false = false) ∧ axes.Nodup) ∧
      ∀ d, s'.getD d false = (seen.getD d false || axes.contains d)) ∧
    (((∀ p ∈ axes, p < ndim ∧ seen.getD p false = false) ∧ axes.Nodup) →
      (checkAxes ndim axes seen).isSome) := by
  induction axes generalizing seen with
  | nil =>
    refine ⟨fun s' h => ?_, fun _ => rfl⟩
    simp only [checkAxes, Option.some.injEq] at h
    subst h
    simp
  | cons p axes ih =>
    have hset : ∀ d, p < ndim → (seen.set p true).getD d false = (seen.getD d false || (d == p)) := by
      intro d hp
      rw [HMap.getD_set]
      by_cases h : p = d
      · subst h; rw [if_pos ⟨rfl, by omega⟩]; simp
      · rw [if_neg (by rintro ⟨h', _⟩; exact h h')]
        have : (d == p) = false := by simpa using fun e => h e.symm
        rw [this]; simp
    obtain ⟨i1, i2⟩ := ih (seen.set p true) (by simpa using hl)
    constructor
    · intro s' h
      rw [checkAxes] at h
      split at h
      · rename_i hp
        split at h
        · cases h
        · rename_i hs
          obtain ⟨⟨j1, j2⟩, j3⟩ := i1 s' h
          have hpn : p ∉ axes := by
            intro hm
            have := (j1 p hm).2
            rw [hset p hp] at this
            simp at this
          refine ⟨⟨?_, ?_⟩, ?_⟩
          · intro q hq
            rcases List.mem_cons.1 hq with rfl | hq
            · exact ⟨hp, by simpa using hs⟩
            · have := j1 q hq
              rw [hset q hp, Bool.or_eq_false_iff] at this
              exact ⟨this.1, this.2.1⟩
          · exact List.nodup_cons.2 ⟨hpn, j2⟩
          · intro d
            rw [j3 d, hset d hp, List.contains_cons, Bool.or_assoc]
      · cases h
    · rintro ⟨h1, h2⟩
      rw [List.nodup_cons] at h2
      have hp := h1 p (by simp)
      rw [checkAxes, if_pos hp.1, hp.2, if_neg (by simp)]
      apply i2
      refine ⟨fun q hq => ?_, h2.2⟩
      have := h1 q (by simp [hq])
      refine ⟨this.1, ?_⟩
      rw [hset q hp.1, this.2]
      simp only [Bool.false_or, beq_eq_false_iff_ne]
      rintro rfl; exact h2.1 hq

theorem getD_replicate_false (n d : Nat) : (List.replicate n false).getD d false = false := by
  simp only [List.getD_eq_getElem?_getD, List.getElem?_replicate]
  split <;> rfl

/-- The validation loop succeeds exactly on duplicate-free in-range axis lists, and then
marks exactly the listed axes. -/
theorem checkAxes_iff (ndim : Nat) (axes : List Nat) :
    (∀ s', checkAxes ndim axes (List.replicate ndim false) = some s' →
      (∀ p ∈ axes, p < ndim) ∧ axes.Nodup ∧ ∀ d, s'.getD d false = axes.contains d) ∧
    ((∀ p ∈ axes, p < ndim) → axes.Nodup →
      ∃ s', checkAxes ndim axes (List.replicate ndim false) = some s' ∧
        ∀ d, s'.getD d false = axes.contains d) := by
  obtain ⟨h1, h2⟩ := checkAxes_spec ndim axes (List.replicate ndim false) (by simp)
  constructor
  · intro s' h
    obtain ⟨⟨a, b⟩, c⟩ := h1 s' h
    exact ⟨fun p hp => (a p hp).1, b, fun d => by rw [c d, getD_replicate_false]; rfl⟩
  · intro ha hn
    have := h2 ⟨fun p hp => ⟨ha p hp, getD_replicate_false _ _⟩, hn⟩
    obtain ⟨s', hs'⟩ := Option.isSome_iff_exists.1 this
    exact ⟨s', hs', fun d => by rw [(h1 s' hs').2 d, getD_replicate_false]; rfl⟩

end Lacuna
