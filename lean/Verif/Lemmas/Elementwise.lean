import Verif.Model.Elementwise
import Verif.Lemmas.Comp
import Verif.Spec.Elementwise
namespace Lacuna
universe u
variable {V : Type u}

/-! ### Lookup in a row -/

/-- First value stored under index `j`. -/
def lk (j : Int) (r : Row V) : Option V := (r.find? fun e => e.1 == j).map Prod.snd

@[simp] theorem lk_nil (j : Int) : lk j ([] : Row V) = none := rfl

theorem lk_cons (j k : Int) (x : V) (r : Row V) :
    lk j ((k, x) :: r) = if k = j then some x else lk j r := by
  unfold lk
  by_cases h : k = j <;> simp [h]

theorem lk_none {j : Int} {r : Row V} (h : ∀ e ∈ r, e.1 ≠ j) : lk j r = none := by
  unfold lk
  rw [List.find?_eq_none.2]; · rfl
  intro e he; simpa using h e he

theorem lk_eq_none_iff {j : Int} {r : Row V} : lk j r = none ↔ ∀ e ∈ r, e.1 ≠ j := by
  refine ⟨fun h => ?_, lk_none⟩
  unfold lk at h
  rw [Option.map_eq_none_iff, List.find?_eq_none] at h
  intro e he; simpa using h e he

theorem Comp.stored_eq_lk (a : Comp V) (i j : Nat) : a.stored i j = lk (j : Int) (a.row i) := rfl

theorem lk_mem {j : Int} {r : Row V} {v : V} (h : lk j r = some v) : (j, v) ∈ r := by
  unfold lk at h
  rw [Option.map_eq_some_iff] at h
  obtain ⟨e, h1, h2⟩ := h
  have h3 := List.find?_some h1
  simp at h3
  have h4 := List.mem_of_find?_eq_some h1
  obtain ⟨a, b⟩ := e
  simp at h2 h3
  subst h2; subst h3; exact h4

/-- Strictly sorted row (only the order). -/
def Srt (r : Row V) : Prop := (r.map Prod.fst).Pairwise (· < ·)

theorem srt_nil : Srt ([] : Row V) := List.Pairwise.nil

theorem srt_cons {k : Int} {x : V} {r : Row V} :
    Srt ((k, x) :: r) ↔ (∀ e ∈ r, k < e.1) ∧ Srt r := by
  unfold Srt
  rw [List.map_cons, List.pairwise_cons]
  constructor
  · rintro ⟨h1, h2⟩
    exact ⟨fun e he => h1 _ (List.mem_map_of_mem he), h2⟩
  · rintro ⟨h1, h2⟩
    refine ⟨fun j hj => ?_, h2⟩
    obtain ⟨e, he, rfl⟩ := List.mem_map.1 hj
    exact h1 e he

theorem mem_lk {j : Int} {r : Row V} {v : V} (hs : Srt r) (h : (j, v) ∈ r) : lk j r = some v := by
  induction r with
  | nil => simp at h
  | cons e r ih =>
    obtain ⟨k, x⟩ := e
    rw [srt_cons] at hs
    rw [lk_cons]
    rcases List.mem_cons.1 h with h | h
    · simp at h; simp [h]
    · have := hs.1 _ h
      simp at this
      rw [if_neg (by omega)]
      exact ih hs.2 h

/-- Two strictly sorted rows with the same lookups are equal. -/
theorem srt_ext {r s : Row V} (hr : Srt r) (hs : Srt s) (h : ∀ j, lk j r = lk j s) : r = s := by
  induction r generalizing s with
  | nil =>
    cases s with
    | nil => rfl
    | cons e s => have := h e.1; rw [lk_nil, lk_cons] at this; simp at this
  | cons e r ih =>
    obtain ⟨k, x⟩ := e
    cases s with
    | nil => have := h k; rw [lk_nil, lk_cons] at this; simp at this
    | cons f s =>
      obtain ⟨l, y⟩ := f
      rw [srt_cons] at hr hs
      have hk := h k
      have hl := h l
      rw [lk_cons, lk_cons] at hk hl
      simp only [if_true] at hk hl
      have hkl : k = l := by
        by_cases hlt : k < l
        · rw [if_neg (by omega), lk_none (fun e he => by have := hs.1 e he; omega)] at hk
          simp at hk
        · by_cases hgt : l < k
          · rw [if_neg (by omega), lk_none (fun e he => by have := hr.1 e he; omega)] at hl
            simp at hl
          · omega
      subst hkl
      simp at hk
      subst hk
      congr 1
      apply ih hr.2 hs.2
      intro j
      by_cases hj : k = j
      · subst hj
        rw [lk_none (fun e he => by have := hr.1 e he; omega),
          lk_none (fun e he => by have := hs.1 e he; omega)]
      · have := h j
        rw [lk_cons, lk_cons, if_neg hj, if_neg hj] at this
        exact this

/-! ### Inner loops -/

theorem runAcc_ne {f : V → V → V} {j : Int} {acc : V} {r : Row V} (h : ∀ e ∈ r, e.1 ≠ j) :
    runAcc f j acc r = (acc, r) := by
  cases r with
  | nil => rfl
  | cons e r =>
    obtain ⟨k, x⟩ := e
    have := h (k, x) (by simp)
    simp only [runAcc]; rw [if_neg (by simpa using this)]

theorem runAcc_head_ne {f : V → V → V} {j k : Int} {acc x : V} {r : Row V} (h : k ≠ j) :
    runAcc f j acc ((k, x) :: r) = (acc, (k, x) :: r) := by
  simp only [runAcc]; rw [if_neg h]

theorem runAcc_sorted {f : V → V → V} {j : Int} {acc x : V} {r : Row V} (h : ∀ e ∈ r, j < e.1) :
    runAcc f j acc ((j, x) :: r) = (f acc x, r) := by
  simp only [runAcc, if_true]
  exact runAcc_ne (fun e he => by have := h e he; omega)

theorem runAcc_length_le (f : V → V → V) (j : Int) (acc : V) (r : Row V) :
    (runAcc f j acc r).2.length ≤ r.length := by
  induction r generalizing acc with
  | nil => simp [runAcc]
  | cons e r ih =>
    obtain ⟨k, x⟩ := e
    simp only [runAcc]
    split
    · exact Nat.le_succ_of_le (ih _)
    · exact Nat.le_refl _

theorem runAcc_length_lt (f : V → V → V) (j : Int) (acc x : V) (r : Row V) :
    (runAcc f j acc ((j, x) :: r)).2.length < r.length + 1 := by
  simp only [runAcc, if_true]
  exact Nat.lt_succ_of_le (runAcc_length_le _ _ _ _)

theorem runAcc_subset (f : V → V → V) (j : Int) (acc : V) (r : Row V) :
    ∀ e ∈ (runAcc f j acc r).2, e ∈ r := by
  induction r generalizing acc with
  | nil => simp [runAcc]
  | cons e r ih =>
    obtain ⟨k, x⟩ := e
    simp only [runAcc]
    split
    · intro e he; exact List.mem_cons_of_mem _ (ih _ e he)
    · exact fun e he => he

theorem skipRun_length_lt (j : Int) (x : V) (r : Row V) :
    (skipRun j ((j, x) :: r)).length < r.length + 1 := by
  have : ∀ r : Row V, (skipRun j r).length ≤ r.length := by
    intro r
    induction r with
    | nil => simp [skipRun]
    | cons e r ih => obtain ⟨k, y⟩ := e; simp only [skipRun]; split <;> simp; omega
  simp only [skipRun, if_true]
  exact Nat.lt_succ_of_le (this r)

theorem skipRun_sorted {j : Int} {x : V} {r : Row V} (h : ∀ e ∈ r, j < e.1) :
    skipRun j ((j, x) :: r) = r := by
  simp only [skipRun, if_true]
  cases r with
  | nil => rfl
  | cons e r =>
    obtain ⟨k, y⟩ := e
    have := h (k, y) (by simp)
    simp only [skipRun]; rw [if_neg (by simp at this; omega)]

/-! ### Count pass = fill pass (no assumptions on the rows or on the arithmetic) -/

theorem minIdx_nil_left {kb : Int} {xb : V} {b : Row V} (h : kb ≤ i64Max) :
    minIdx ([] : Row V) ((kb, xb) :: b) = kb := by
  show (if i64Max ≤ kb then i64Max else kb) = kb
  split <;> omega

theorem minIdx_nil_right {ka : Int} {xa : V} {a : Row V} (h : ka ≤ i64Max) :
    minIdx ((ka, xa) :: a) ([] : Row V) = ka := if_pos h

theorem minIdx_cons {ka kb : Int} {xa xb : V} {a b : Row V} :
    minIdx ((ka, xa) :: a) ((kb, xb) :: b) = if ka ≤ kb then ka else kb := rfl

theorem unionCount_add [Zero V] [BEq V] [Add V] (fuel : Nat) (a b : Row V) :
    unionCount (fun x y : V => x + y) fuel a b = (addFillLoop fuel a b).map List.length := by
  induction fuel generalizing a b with
  | zero =>
    cases a <;> cases b <;> simp [unionCount, addFillLoop]
  | succ n ih =>
    match a, b with
    | [], [] => simp [unionCount, addFillLoop]
    | [], b :: bs =>
      simp only [unionCount, addFillLoop, ih, Option.map_map]
      congr 1; funext out
      simp only [Function.comp]; split <;> simp
    | a :: as, bs =>
      simp only [unionCount, addFillLoop, ih, Option.map_map]
      congr 1; funext out
      simp only [Function.comp]; split <;> simp

theorem le_of_runAcc {m : Int} (f : V → V → V) (j : Int) (acc : V) (r : Row V)
    (h : ∀ e ∈ r, e.1 ≤ m) : ∀ e ∈ (runAcc f j acc r).2, e.1 ≤ m :=
  fun e he => h e (runAcc_subset _ _ _ _ e he)

theorem unionCount_sub [Zero V] [BEq V] [Add V] [Sub V] (fuel : Nat) (a b : Row V)
    (ha : ∀ e ∈ a, e.1 ≤ i64Max) (hb : ∀ e ∈ b, e.1 ≤ i64Max) :
    unionCount (fun x y : V => x - y) fuel a b = (subFillLoop fuel a b).map List.length := by
  have fin : ∀ (j : Int) (v : V) (o : Option (Row V)),
      (o.map List.length).map (fun c => if v == 0 then c else c + 1) =
      (o.map fun out => if v == 0 then out else (j, v) :: out).map List.length := by
    intro j v o
    simp only [Option.map_map]
    congr 1; funext out
    simp only [Function.comp]; split <;> simp
  induction fuel generalizing a b with
  | zero =>
    cases a <;> cases b <;> simp [unionCount, subFillLoop]
  | succ n ih =>
    match a, b with
    | [], [] => simp [unionCount, subFillLoop]
    | [], (kb, xb) :: bs =>
      have hkb := hb (kb, xb) (by simp)
      simp only at hkb
      simp only [unionCount, subFillLoop, minIdx_nil_left hkb]
      rw [ih _ _ (le_of_runAcc _ _ _ _ ha) (le_of_runAcc _ _ _ _ hb), fin kb]
      congr 1
      by_cases h : i64Max ≤ kb
      · have hk : kb = i64Max := by omega
        subst hk
        rw [if_pos (show headIdx ([] : Row V) ≤ headIdx ((i64Max, xb) :: bs) from h),
          if_pos (show headIdx ((i64Max, xb) :: bs) = headIdx ([] : Row V) from rfl)]
        rfl
      · rw [if_neg (show ¬ headIdx ([] : Row V) ≤ headIdx ((kb, xb) :: bs) from h)]
        rfl
    | (ka, xa) :: as, bs =>
      have hka := ha (ka, xa) (by simp)
      simp only at hka
      simp only [unionCount, subFillLoop]
      by_cases h : ka ≤ headIdx bs
      · have hm : minIdx ((ka, xa) :: as) bs = ka := by
          unfold minIdx; rw [if_pos (by simpa [headIdx] using h)]; rfl
        have h' : headIdx ((ka, xa) :: as) ≤ headIdx bs := h
        rw [if_pos h']
        simp only [hm]
        rw [ih _ _ (le_of_runAcc _ _ _ _ ha) (le_of_runAcc _ _ _ _ hb), fin ka]
        congr 1
        have : (if headIdx bs = headIdx ((ka, xa) :: as)
            then runAcc (fun x y : V => x - y) (headIdx ((ka, xa) :: as))
              (runAcc (fun x y : V => x + y) (headIdx ((ka, xa) :: as)) 0 ((ka, xa) :: as)).1 bs
            else ((runAcc (fun x y : V => x + y) (headIdx ((ka, xa) :: as)) 0 ((ka, xa) :: as)).1, bs))
            = runAcc (fun x y : V => x - y) ka
              (runAcc (fun x y : V => x + y) ka 0 ((ka, xa) :: as)).1 bs := by
          split
          · rfl
          · rename_i hne
            cases bs with
            | nil => rfl
            | cons e bs =>
              obtain ⟨kb, xb⟩ := e
              exact (runAcc_head_ne hne).symm
        rw [this]
        rfl
      · have hm : minIdx ((ka, xa) :: as) bs = headIdx bs := by
          unfold minIdx; rw [if_neg (by simpa [headIdx] using h)]
        have h' : ¬ headIdx ((ka, xa) :: as) ≤ headIdx bs := h
        rw [if_neg h']
        simp only [hm]
        rw [runAcc_head_ne (V := V) (f := fun x y => x + y) (show ka ≠ headIdx bs by omega)]
        rw [ih _ _ ha (le_of_runAcc _ _ _ _ hb), fin (headIdx bs)]

theorem interCount_eq [Zero V] [Add V] {keep : V → V → Bool} {cell : V → V → Option V}
    (hk : ∀ x y, keep x y = (cell x y).isSome) (fuel : Nat) (a b : Row V) :
    interCount keep fuel a b = (interFill cell fuel a b).map List.length := by
  induction fuel generalizing a b with
  | zero =>
    cases a <;> cases b <;> simp [interCount, interFill]
  | succ n ih =>
    match a, b with
    | [], b => simp [interCount, interFill]
    | e :: a, [] => simp [interCount, interFill]
    | (ja, xa) :: a, (jb, xb) :: b =>
      simp only [interCount, interFill]
      split
      · rw [ih]
        simp only [Option.map_map]
        congr 1; funext out
        simp only [Function.comp, hk]
        cases cell _ _ <;> simp
      · split <;> exact ih _ _

/-! ### Termination: the fuel always suffices -/

theorem interFill_isSome [Zero V] [Add V] (cell : V → V → Option V) (fuel : Nat) (a b : Row V)
    (h : a.length + b.length ≤ fuel) : (interFill cell fuel a b).isSome := by
  induction fuel generalizing a b with
  | zero =>
    have : a = [] := by cases a <;> simp at h ⊢
    subst this; simp [interFill]
  | succ n ih =>
    match a, b with
    | [], b => simp [interFill]
    | e :: a, [] => simp [interFill]
    | (ja, xa) :: a, (jb, xb) :: b =>
      simp only [List.length_cons] at h
      simp only [interFill]
      split
      · rename_i hj
        subst hj
        have h1 := runAcc_length_lt (fun x y : V => x + y) ja 0 xa a
        have h2 := runAcc_length_lt (fun x y : V => x + y) ja 0 xb b
        rw [Option.isSome_map]
        exact ih _ _ (by omega)
      · split
        · apply ih
          have := skipRun_length_lt ja xa a
          simp only [List.length_cons]; omega
        · apply ih
          have := skipRun_length_lt jb xb b
          simp only [List.length_cons]; omega

theorem addFillLoop_isSome [Zero V] [BEq V] [Add V] (fuel : Nat) (a b : Row V)
    (ha : ∀ e ∈ a, e.1 ≤ i64Max) (hb : ∀ e ∈ b, e.1 ≤ i64Max)
    (h : a.length + b.length ≤ fuel) : (addFillLoop fuel a b).isSome := by
  induction fuel generalizing a b with
  | zero =>
    have : a = [] := by cases a <;> simp at h ⊢
    subst this
    have : b = [] := by cases b <;> simp at h ⊢
    subst this; simp [addFillLoop]
  | succ n ih =>
    match a, b with
    | [], [] => simp [addFillLoop]
    | [], (kb, xb) :: bs =>
      have hkb := hb (kb, xb) (by simp)
      simp only at hkb
      simp only [addFillLoop, minIdx_nil_left hkb, Option.isSome_map]
      apply ih _ _ (le_of_runAcc _ _ _ _ ha) (le_of_runAcc _ _ _ _ hb)
      have h1 := runAcc_length_lt (fun x y : V => x + y) kb (runAcc (fun x y : V => x + y) kb 0 ([] : Row V)).1 xb bs
      have h2 := runAcc_length_le (fun x y : V => x + y) kb 0 ([] : Row V)
      simp only [List.length_cons, List.length_nil] at h h2
      omega
    | (ka, xa) :: as, [] =>
      have hka := ha (ka, xa) (by simp)
      simp only at hka
      simp only [addFillLoop, minIdx_nil_right hka, Option.isSome_map]
      apply ih _ _ (le_of_runAcc _ _ _ _ ha) (le_of_runAcc _ _ _ _ hb)
      have h1 := runAcc_length_lt (fun x y : V => x + y) ka 0 xa as
      simp only [List.length_cons, List.length_nil] at h
      have := runAcc_length_le (fun x y : V => x + y) ka (runAcc (fun x y : V => x + y) ka 0 ((ka, xa) :: as)).1 ([] : Row V)
      simp only [List.length_nil] at this
      omega
    | (ka, xa) :: as, (kb, xb) :: bs =>
      simp only [addFillLoop, minIdx_cons, Option.isSome_map]
      simp only [List.length_cons] at h
      have key : ∀ j, (j = ka ∨ j = kb) →
          (runAcc (fun x y : V => x + y) j 0 ((ka, xa) :: as)).2.length +
          (runAcc (fun x y : V => x + y) j (runAcc (fun x y : V => x + y) j 0 ((ka, xa) :: as)).1 ((kb, xb) :: bs)).2.length ≤ n := by
        intro j hj
        have h1 := runAcc_length_le (fun x y : V => x + y) j 0 ((ka, xa) :: as)
        have h2 := runAcc_length_le (fun x y : V => x + y) j (runAcc (fun x y : V => x + y) j 0 ((ka, xa) :: as)).1 ((kb, xb) :: bs)
        simp only [List.length_cons] at h1 h2
        rcases hj with rfl | rfl
        · have := runAcc_length_lt (fun x y : V => x + y) j 0 xa as; omega
        · have := runAcc_length_lt (fun x y : V => x + y) j (runAcc (fun x y : V => x + y) j 0 ((ka, xa) :: as)).1 xb bs; omega
      exact ih _ _ (le_of_runAcc _ _ _ _ ha) (le_of_runAcc _ _ _ _ hb)
        (key (if ka ≤ kb then ka else kb) (by split <;> simp))

theorem subFillLoop_isSome [Zero V] [BEq V] [Add V] [Sub V] (fuel : Nat) (a b : Row V)
    (ha : ∀ e ∈ a, e.1 ≤ i64Max) (hb : ∀ e ∈ b, e.1 ≤ i64Max)
    (h : a.length + b.length ≤ fuel) : (subFillLoop fuel a b).isSome := by
  induction fuel generalizing a b with
  | zero =>
    have : a = [] := by cases a <;> simp at h ⊢
    subst this
    have : b = [] := by cases b <;> simp at h ⊢
    subst this; simp [subFillLoop]
  | succ n ih =>
    match a, b with
    | [], [] => simp [subFillLoop]
    | [], (kb, xb) :: bs =>
      have hkb := hb (kb, xb) (by simp)
      simp only at hkb
      simp only [List.length_cons, List.length_nil] at h
      simp only [subFillLoop]
      split
      · rename_i hle
        replace hle : i64Max ≤ kb := hle
        have hk : kb = i64Max := by omega
        subst hk
        rw [Option.isSome_map,
          if_pos (show headIdx ((i64Max, xb) :: bs) = headIdx ([] : Row V) from rfl)]
        apply ih _ _ (le_of_runAcc _ _ _ _ ha) (le_of_runAcc _ _ _ _ hb)
        have h1 := runAcc_length_lt (fun x y : V => x - y) i64Max (runAcc (fun x y : V => x + y) i64Max 0 ([] : Row V)).1 xb bs
        have h2 := runAcc_length_le (fun x y : V => x + y) i64Max 0 ([] : Row V)
        simp only [List.length_nil] at h2
        simp only [headIdx]
        omega
      · rw [Option.isSome_map]
        apply ih _ _ ha (le_of_runAcc _ _ _ _ hb)
        have h1 := runAcc_length_lt (fun x y : V => x - y) kb 0 xb bs
        simp only [List.length_nil, headIdx]; omega
    | (ka, xa) :: as, bs =>
      have hka := ha (ka, xa) (by simp)
      simp only at hka
      simp only [subFillLoop]
      simp only [List.length_cons] at h
      split
      · rw [Option.isSome_map]
        have h1 := runAcc_length_lt (fun x y : V => x + y) ka 0 xa as
        split
        · apply ih _ _ (le_of_runAcc _ _ _ _ ha) (le_of_runAcc _ _ _ _ hb)
          have h2 := runAcc_length_le (fun x y : V => x - y) ka (runAcc (fun x y : V => x + y) ka 0 ((ka, xa) :: as)).1 bs
          simp only [headIdx]; omega
        · apply ih _ _ (le_of_runAcc _ _ _ _ ha) hb
          simp only [headIdx]; omega
      · rename_i hle
        rw [Option.isSome_map]
        apply ih _ _ ha (le_of_runAcc _ _ _ _ hb)
        cases bs with
        | nil => exact absurd hka hle
        | cons e bs =>
          obtain ⟨kb, xb⟩ := e
          have h2 := runAcc_length_lt (fun x y : V => x - y) kb 0 xb bs
          simp only [headIdx, List.length_cons] at h ⊢
          omega

/-! ### What the loops compute on strictly sorted rows -/

theorem lk_ite_cons [Zero V] [BEq V] (j k : Int) (v : V) (out : Row V) :
    lk k (if v == 0 then out else (j, v) :: out) =
      if k = j then (if v == 0 then lk k out else some v) else lk k out := by
  by_cases h : (v == 0) = true
  · simp [h]
  · simp only [h]
    rw [if_neg (by simp), lk_cons]
    by_cases hk : k = j
    · subst hk; simp
    · rw [if_neg (by omega), if_neg hk]

/-- Combined specification of a union merge result. -/
structure UnionSpec [Zero V] [BEq V] [Add V] (fb : V → V → V) (a b out : Row V) : Prop where
  lookup : ∀ k, lk k out = unionCell fb (lk k a) (lk k b)
  sorted : Srt out
  keys : ∀ e ∈ out, (∃ f ∈ a, f.1 = e.1) ∨ (∃ f ∈ b, f.1 = e.1)
  nonzero : ∀ e ∈ out, (e.2 == 0) = false

section
variable [Zero V] [BEq V] [Add V] {fb : V → V → V}

theorem UnionSpec.nil : UnionSpec fb ([] : Row V) [] [] :=
  ⟨fun k => by simp [unionCell], srt_nil, by simp, by simp⟩

theorem unionSpec_step {a b a' b' out : Row V} {j : Int} {v : V}
    (h : UnionSpec fb a' b' out)
    (ha' : ∀ e ∈ a', j < e.1) (hb' : ∀ e ∈ b', j < e.1)
    (hla : ∀ k, k ≠ j → lk k a = lk k a') (hlb : ∀ k, k ≠ j → lk k b = lk k b')
    (hj : (if (v == 0) = true then none else some v) = unionCell fb (lk j a) (lk j b))
    (hka : ∀ e ∈ a', e ∈ a) (hkb : ∀ e ∈ b', e ∈ b)
    (hjm : (∃ f ∈ a, f.1 = j) ∨ (∃ f ∈ b, f.1 = j)) :
    UnionSpec fb a b (if v == 0 then out else (j, v) :: out) := by
  have hout : ∀ e ∈ out, j < e.1 := by
    intro e he
    rcases h.keys e he with ⟨f, hf, hfe⟩ | ⟨f, hf, hfe⟩
    · rw [← hfe]; exact ha' f hf
    · rw [← hfe]; exact hb' f hf
  refine ⟨?_, ?_, ?_, ?_⟩
  · intro k
    rw [lk_ite_cons]
    by_cases hk : k = j
    · subst hk
      rw [if_pos rfl, ← hj, lk_none (fun e he => by have := hout e he; omega)]
    · rw [if_neg hk, h.lookup, hla k hk, hlb k hk]
  · split
    · exact h.sorted
    · exact srt_cons.2 ⟨hout, h.sorted⟩
  · have hin : ∀ e ∈ out, (∃ f ∈ a, f.1 = e.1) ∨ (∃ f ∈ b, f.1 = e.1) := by
      intro e he
      rcases h.keys e he with ⟨f, hf, hfe⟩ | ⟨f, hf, hfe⟩
      · exact Or.inl ⟨f, hka f hf, hfe⟩
      · exact Or.inr ⟨f, hkb f hf, hfe⟩
    split
    · exact hin
    · intro e he
      rcases List.mem_cons.1 he with rfl | he
      · exact hjm
      · exact hin e he
  · split
    · exact h.nonzero
    · rename_i hv
      intro e he
      rcases List.mem_cons.1 he with rfl | he
      · simpa using hv
      · exact h.nonzero e he

end

theorem lk_cons_self (j : Int) (x : V) (r : Row V) : lk j ((j, x) :: r) = some x := by
  rw [lk_cons, if_pos rfl]

theorem lk_cons_ne {j k : Int} (x : V) (r : Row V) (h : k ≠ j) : lk k ((j, x) :: r) = lk k r := by
  rw [lk_cons, if_neg (by omega)]

/-- Only the left row has index `j`. -/
theorem unionSpec_left [Zero V] [BEq V] [Add V] {fb : V → V → V} {j : Int} {x : V} {a b out : Row V}
    (h : UnionSpec fb a b out) (ha : ∀ e ∈ a, j < e.1) (hb : ∀ e ∈ b, j < e.1) :
    UnionSpec fb ((j, x) :: a) b (if (0 + x) == 0 then out else (j, 0 + x) :: out) := by
  refine unionSpec_step h ha hb (fun k hk => lk_cons_ne _ _ hk) (fun k hk => rfl) ?_
    (fun e he => List.mem_cons_of_mem _ he) (fun e he => he) (Or.inl ⟨(j, x), by simp, rfl⟩)
  rw [lk_cons_self, lk_none (r := b) (fun e he => by have := hb e he; omega)]
  rfl

theorem unionSpec_right [Zero V] [BEq V] [Add V] {fb : V → V → V} {j : Int} {x : V} {a b out : Row V}
    (h : UnionSpec fb a b out) (ha : ∀ e ∈ a, j < e.1) (hb : ∀ e ∈ b, j < e.1) :
    UnionSpec fb a ((j, x) :: b) (if (fb 0 x) == 0 then out else (j, fb 0 x) :: out) := by
  refine unionSpec_step h ha hb (fun k hk => rfl) (fun k hk => lk_cons_ne _ _ hk) ?_
    (fun e he => he) (fun e he => List.mem_cons_of_mem _ he) (Or.inr ⟨(j, x), by simp, rfl⟩)
  rw [lk_cons_self, lk_none (r := a) (fun e he => by have := ha e he; omega)]
  rfl

theorem unionSpec_both [Zero V] [BEq V] [Add V] {fb : V → V → V} {j : Int} {x y : V} {a b out : Row V}
    (h : UnionSpec fb a b out) (ha : ∀ e ∈ a, j < e.1) (hb : ∀ e ∈ b, j < e.1) :
    UnionSpec fb ((j, x) :: a) ((j, y) :: b)
      (if (fb (0 + x) y) == 0 then out else (j, fb (0 + x) y) :: out) := by
  refine unionSpec_step h ha hb (fun k hk => lk_cons_ne _ _ hk) (fun k hk => lk_cons_ne _ _ hk) ?_
    (fun e he => List.mem_cons_of_mem _ he) (fun e he => List.mem_cons_of_mem _ he)
    (Or.inl ⟨(j, x), by simp, rfl⟩)
  rw [lk_cons_self, lk_cons_self]
  rfl

theorem addFillLoop_spec [Zero V] [BEq V] [Add V] (fuel : Nat) (a b out : Row V)
    (ha : Srt a) (hb : Srt b) (ha' : ∀ e ∈ a, e.1 ≤ i64Max) (hb' : ∀ e ∈ b, e.1 ≤ i64Max)
    (h : addFillLoop fuel a b = some out) : UnionSpec (fun x y : V => x + y) a b out := by
  induction fuel generalizing a b out with
  | zero =>
    cases a <;> cases b <;> simp [addFillLoop] at h
    subst h; exact UnionSpec.nil
  | succ n ih =>
    match a, b with
    | [], [] => simp [addFillLoop] at h; subst h; exact UnionSpec.nil
    | [], (kb, xb) :: bs =>
      rw [srt_cons] at hb
      have hkb := hb' (kb, xb) (by simp)
      simp only at hkb
      simp only [addFillLoop, minIdx_nil_left hkb, runAcc_sorted hb.1] at h
      simp only [runAcc, Option.map_eq_some_iff] at h
      obtain ⟨o, ho, rfl⟩ := h
      exact unionSpec_right (fb := fun x y : V => x + y) (ih _ _ _ srt_nil hb.2 (by simp)
        (fun e he => hb' e (List.mem_cons_of_mem _ he)) ho) (by simp) hb.1
    | (ka, xa) :: as, [] =>
      rw [srt_cons] at ha
      have hka := ha' (ka, xa) (by simp)
      simp only at hka
      simp only [addFillLoop, minIdx_nil_right hka, runAcc_sorted ha.1] at h
      simp only [runAcc, Option.map_eq_some_iff] at h
      obtain ⟨o, ho, rfl⟩ := h
      exact unionSpec_left (ih _ _ _ ha.2 srt_nil
        (fun e he => ha' e (List.mem_cons_of_mem _ he)) (by simp) ho) ha.1 (by simp)
    | (ka, xa) :: as, (kb, xb) :: bs =>
      have hsa := ha; have hsb := hb
      rw [srt_cons] at ha hb
      have hm := minIdx_cons (ka := ka) (kb := kb) (xa := xa) (xb := xb) (a := as) (b := bs)
      simp only [addFillLoop] at h
      by_cases hlt : ka < kb
      · rw [if_pos (by omega : ka ≤ kb)] at hm
        simp only [hm] at h
        have hb2 : ∀ e ∈ (kb, xb) :: bs, ka < e.1 := by
          intro e he
          rcases List.mem_cons.1 he with rfl | he
          · exact hlt
          · have := hb.1 e he; omega
        simp only [runAcc_sorted ha.1, runAcc_head_ne (show kb ≠ ka by omega),
          Option.map_eq_some_iff] at h
        obtain ⟨o, ho, rfl⟩ := h
        exact unionSpec_left (ih _ _ _ ha.2 hsb
          (fun e he => ha' e (List.mem_cons_of_mem _ he)) hb' ho) ha.1 hb2
      · by_cases hgt : kb < ka
        · rw [if_neg (by omega)] at hm
          simp only [hm] at h
          have ha2 : ∀ e ∈ (ka, xa) :: as, kb < e.1 := by
            intro e he
            rcases List.mem_cons.1 he with rfl | he
            · exact hgt
            · have := ha.1 e he; omega
          simp only [runAcc_sorted hb.1, runAcc_head_ne (show ka ≠ kb by omega),
            Option.map_eq_some_iff] at h
          obtain ⟨o, ho, rfl⟩ := h
          exact unionSpec_right (fb := fun x y : V => x + y) (ih _ _ _ hsa hb.2 ha'
            (fun e he => hb' e (List.mem_cons_of_mem _ he)) ho) ha2 hb.1
        · have hk : ka = kb := by omega
          subst hk
          rw [if_pos (Int.le_refl _)] at hm
          simp only [hm] at h
          simp only [runAcc_sorted hb.1, runAcc_sorted ha.1, Option.map_eq_some_iff] at h
          obtain ⟨o, ho, rfl⟩ := h
          exact unionSpec_both (fb := fun x y : V => x + y) (ih _ _ _ ha.2 hb.2
            (fun e he => ha' e (List.mem_cons_of_mem _ he))
            (fun e he => hb' e (List.mem_cons_of_mem _ he)) ho) ha.1 hb.1

theorem subFillLoop_spec [Zero V] [BEq V] [Add V] [Sub V] (fuel : Nat) (a b out : Row V)
    (ha : Srt a) (hb : Srt b) (ha' : ∀ e ∈ a, e.1 ≤ i64Max) (hb' : ∀ e ∈ b, e.1 ≤ i64Max)
    (h : subFillLoop fuel a b = some out) : UnionSpec (fun x y : V => x - y) a b out := by
  induction fuel generalizing a b out with
  | zero =>
    cases a <;> cases b <;> simp [subFillLoop] at h
    subst h; exact UnionSpec.nil
  | succ n ih =>
    match a, b with
    | [], [] => simp [subFillLoop] at h; subst h; exact UnionSpec.nil
    | [], (kb, xb) :: bs =>
      rw [srt_cons] at hb
      have hkb := hb' (kb, xb) (by simp)
      simp only at hkb
      have hgoal : ∀ o, subFillLoop n [] bs = some o →
          UnionSpec (fun x y : V => x - y) [] ((kb, xb) :: bs)
            (if 0 - xb == 0 then o else (kb, 0 - xb) :: o) :=
        fun o ho => unionSpec_right (fb := fun x y : V => x - y) (ih _ _ _ srt_nil hb.2 (by simp)
          (fun e he => hb' e (List.mem_cons_of_mem _ he)) ho) (by simp) hb.1
      simp only [subFillLoop] at h
      split at h
      · rename_i hle
        replace hle : i64Max ≤ kb := hle
        have hk : kb = i64Max := by omega
        subst hk
        simp only [if_pos (show headIdx ((i64Max, xb) :: bs) = headIdx ([] : Row V) from rfl)] at h
        have e2 : runAcc (fun x y : V => x - y) (headIdx ([] : Row V))
          (runAcc (fun x y : V => x + y) (headIdx ([] : Row V)) 0 ([] : Row V)).1 ((i64Max, xb) :: bs)
            = (0 - xb, bs) := runAcc_sorted hb.1
        simp only [e2] at h
        simp only [runAcc, Option.map_eq_some_iff] at h
        obtain ⟨o, ho, rfl⟩ := h
        exact hgoal o ho
      · have e2 : runAcc (fun x y : V => x - y) (headIdx ((kb, xb) :: bs)) 0 ((kb, xb) :: bs)
            = (0 - xb, bs) := runAcc_sorted hb.1
        simp only [e2, Option.map_eq_some_iff] at h
        obtain ⟨o, ho, rfl⟩ := h
        exact hgoal o ho
    | (ka, xa) :: as, [] =>
      rw [srt_cons] at ha
      have hka := ha' (ka, xa) (by simp)
      simp only at hka
      simp only [subFillLoop] at h
      rw [if_pos (show headIdx ((ka, xa) :: as) ≤ headIdx [] from hka)] at h
      have e1 : runAcc (fun x y : V => x + y) (headIdx ((ka, xa) :: as)) 0 ((ka, xa) :: as)
          = (0 + xa, as) := runAcc_sorted ha.1
      simp only [e1] at h
      simp only [runAcc, ite_self, Option.map_eq_some_iff] at h
      obtain ⟨o, ho, rfl⟩ := h
      exact unionSpec_left (ih _ _ _ ha.2 srt_nil
        (fun e he => ha' e (List.mem_cons_of_mem _ he)) (by simp) ho) ha.1 (by simp)
    | (ka, xa) :: as, (kb, xb) :: bs =>
      have hsa := ha; have hsb := hb
      rw [srt_cons] at ha hb
      simp only [subFillLoop] at h
      have e1 : runAcc (fun x y : V => x + y) (headIdx ((ka, xa) :: as)) 0 ((ka, xa) :: as)
          = (0 + xa, as) := runAcc_sorted ha.1
      by_cases hlt : ka < kb
      · simp only [if_pos (show headIdx ((ka, xa) :: as) ≤ headIdx ((kb, xb) :: bs) by
          simp only [headIdx]; omega),
          if_neg (show ¬ headIdx ((kb, xb) :: bs) = headIdx ((ka, xa) :: as) by
          simp only [headIdx]; omega), e1] at h
        have hb2 : ∀ e ∈ (kb, xb) :: bs, ka < e.1 := by
          intro e he
          rcases List.mem_cons.1 he with rfl | he
          · exact hlt
          · have := hb.1 e he; omega
        simp only [Option.map_eq_some_iff] at h
        obtain ⟨o, ho, rfl⟩ := h
        exact unionSpec_left (ih _ _ _ ha.2 hsb
          (fun e he => ha' e (List.mem_cons_of_mem _ he)) hb' ho) ha.1 hb2
      · by_cases hgt : kb < ka
        · rw [if_neg (show ¬ headIdx ((ka, xa) :: as) ≤ headIdx ((kb, xb) :: bs) by
            simp only [headIdx]; omega)] at h
          have ha2 : ∀ e ∈ (ka, xa) :: as, kb < e.1 := by
            intro e he
            rcases List.mem_cons.1 he with rfl | he
            · exact hgt
            · have := ha.1 e he; omega
          have e2 : runAcc (fun x y : V => x - y) (headIdx ((kb, xb) :: bs)) 0 ((kb, xb) :: bs)
            = (0 - xb, bs) := runAcc_sorted hb.1
          simp only [e2] at h
          simp only [Option.map_eq_some_iff] at h
          obtain ⟨o, ho, rfl⟩ := h
          exact unionSpec_right (fb := fun x y : V => x - y) (ih _ _ _ hsa hb.2 ha'
            (fun e he => hb' e (List.mem_cons_of_mem _ he)) ho) ha2 hb.1
        · have hk : ka = kb := by omega
          subst hk
          simp only [if_pos (show headIdx ((ka, xa) :: as) ≤ headIdx ((ka, xb) :: bs) from Int.le_refl _),
            if_pos (show headIdx ((ka, xb) :: bs) = headIdx ((ka, xa) :: as) from rfl), e1] at h
          have e2 : runAcc (fun x y : V => x - y) (headIdx ((ka, xa) :: as)) (0 + xa) ((ka, xb) :: bs)
            = (0 + xa - xb, bs) := runAcc_sorted hb.1
          simp only [e2, Option.map_eq_some_iff] at h
          obtain ⟨o, ho, rfl⟩ := h
          exact unionSpec_both (fb := fun x y : V => x - y) (ih _ _ _ ha.2 hb.2
            (fun e he => ha' e (List.mem_cons_of_mem _ he))
            (fun e he => hb' e (List.mem_cons_of_mem _ he)) ho) ha.1 hb.1

structure InterSpec [Zero V] [Add V] (cell : V → V → Option V) (a b out : Row V) : Prop where
  lookup : ∀ k, lk k out = interCell cell (lk k a) (lk k b)
  sorted : Srt out
  keys : ∀ e ∈ out, (∃ f ∈ a, f.1 = e.1)

theorem interCell_none_right [Zero V] [Add V] (cell : V → V → Option V) (x : Option V) :
    interCell cell x none = none := by cases x <;> rfl

theorem interFill_spec [Zero V] [Add V] (cell : V → V → Option V) (fuel : Nat) (a b out : Row V)
    (ha : Srt a) (hb : Srt b) (h : interFill cell fuel a b = some out) :
    InterSpec cell a b out := by
  have nilcase : ∀ (a b : Row V), (a = [] ∨ b = []) → InterSpec cell a b [] := by
    intro a b hab
    refine ⟨fun k => ?_, srt_nil, by simp⟩
    rcases hab with rfl | rfl
    · simp [interCell]
    · simp [interCell_none_right]
  induction fuel generalizing a b out with
  | zero =>
    cases a <;> cases b <;> simp [interFill] at h <;> subst h <;> exact nilcase _ _ (by simp)
  | succ n ih =>
    match a, b with
    | [], b => simp [interFill] at h; subst h; exact nilcase _ _ (by simp)
    | e :: a, [] => simp [interFill] at h; subst h; exact nilcase _ _ (by simp)
    | (ja, xa) :: a, (jb, xb) :: b =>
      have hsa := ha; have hsb := hb
      rw [srt_cons] at ha hb
      simp only [interFill] at h
      split at h
      · rename_i hj
        subst hj
        simp only [runAcc_sorted ha.1, runAcc_sorted hb.1] at h
        rw [Option.map_eq_some_iff] at h
        obtain ⟨o, hc, h⟩ := h
        · have hs := ih _ _ _ ha.2 hb.2 hc
          have ho : ∀ e ∈ o, ja < e.1 := by
            intro e he
            obtain ⟨f, hf, hfe⟩ := hs.keys e he
            rw [← hfe]; exact ha.1 f hf
          cases hv : cell (0 + xa) (0 + xb) with
          | none =>
            simp only [hv] at h
            subst h
            refine ⟨fun k => ?_, hs.sorted, fun e he => ?_⟩
            · by_cases hk : k = ja
              · subst hk
                rw [lk_cons_self, lk_cons_self, lk_none (fun e he => by have := ho e he; omega)]
                exact hv.symm
              · rw [lk_cons_ne _ _ hk, lk_cons_ne _ _ hk, hs.lookup]
            · obtain ⟨f, hf, hfe⟩ := hs.keys e he
              exact ⟨f, List.mem_cons_of_mem _ hf, hfe⟩
          | some v =>
            simp only [hv] at h
            subst h
            refine ⟨fun k => ?_, srt_cons.2 ⟨ho, hs.sorted⟩, fun e he => ?_⟩
            · by_cases hk : k = ja
              · subst hk
                rw [lk_cons_self, lk_cons_self, lk_cons_self]
                exact hv.symm
              · rw [lk_cons_ne _ _ hk, lk_cons_ne _ _ hk, lk_cons_ne _ _ hk, hs.lookup]
            · rcases List.mem_cons.1 he with rfl | he
              · exact ⟨(ja, xa), by simp, rfl⟩
              · obtain ⟨f, hf, hfe⟩ := hs.keys e he
                exact ⟨f, List.mem_cons_of_mem _ hf, hfe⟩
      · split at h
        · rename_i hne hlt
          rw [skipRun_sorted ha.1] at h
          have hs := ih _ _ _ ha.2 hsb h
          refine ⟨fun k => ?_, hs.sorted, fun e he => ?_⟩
          · by_cases hk : k = ja
            · subst hk
              rw [hs.lookup, lk_none (r := (jb, xb) :: b) (fun e he => by
                rcases List.mem_cons.1 he with rfl | he
                · simp only; omega
                · have := hb.1 e he; omega), interCell_none_right, interCell_none_right]
            · rw [lk_cons_ne (r := a) _ hk, hs.lookup]
          · obtain ⟨f, hf, hfe⟩ := hs.keys e he
            exact ⟨f, List.mem_cons_of_mem _ hf, hfe⟩
        · rename_i hne hlt
          rw [skipRun_sorted hb.1] at h
          have hs := ih _ _ _ hsa hb.2 h
          refine ⟨fun k => ?_, hs.sorted, hs.keys⟩
          by_cases hk : k = jb
          · subst hk
            rw [hs.lookup, lk_none (r := (ja, xa) :: a) (fun e he => by
                rcases List.mem_cons.1 he with rfl | he
                · simp only; omega
                · have := ha.1 e he; omega)]
            rfl
          · rw [lk_cons_ne (r := b) _ hk, hs.lookup]

/-! ### Lifting rows to matrices -/

theorem map_range_getD {α : Type u} (n : Nat) (f : Nat → List α) {i : Nat} (hi : i < n) :
    ((List.range n).map f).getD i [] = f i := by
  simp [List.getD_eq_getElem?_getD, hi]

theorem lineCounts_eq {count : Row V → Row V → Nat} {fill : Row V → Row V → Row V} {a b : Comp V}
    (h : ∀ i, i < a.n → count (a.row i) (b.row i) = (fill (a.row i) (b.row i)).length) :
    lineCounts count a b = (lineFills fill a b).map List.length := by
  unfold lineCounts lineFills
  rw [List.map_map]
  apply List.map_congr_left
  intro i hi
  exact h i (by simpa using hi)

theorem binComp_eq [Zero V] {count : Row V → Row V → Nat} {fill : Row V → Row V → Row V} {a b : Comp V}
    (h : ∀ i, i < a.n → count (a.row i) (b.row i) = (fill (a.row i) (b.row i)).length) :
    binComp count fill a b = Comp.ofRows a.m (lineFills fill a b) := by
  unfold binComp
  rw [lineCounts_eq h, twoPass_eq]

/-- Rows past the end are empty. -/
theorem Comp.row_of_ge {a : Comp V} (hl : a.indptr.length = a.n + 1) {i : Nat} (hi : a.n ≤ i) :
    a.row i = [] := by
  unfold Comp.row
  have : a.ptr (i + 1) = 0 := by
    unfold Comp.ptr
    rw [List.getD_eq_getElem?_getD, List.getElem?_eq_none (by omega)]; rfl
  rw [this]; simp

theorem Comp.row_ofRows' (m : Nat) (n : Nat) (f : Nat → Row V) (i : Nat) :
    (Comp.ofRows m ((List.range n).map f)).row i = if i < n then f i else [] := by
  split
  · rename_i h
    rw [Comp.row_ofRows _ _ _ (by simpa using h), map_range_getD n f h]
  · rename_i h
    exact Comp.row_of_ge (by simp [Comp.ofRows]) (by simp [Comp.ofRows]; omega)

end Lacuna
